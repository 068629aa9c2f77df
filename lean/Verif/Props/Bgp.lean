import Verif.Lemmas.Bgp
import Verif.Props.Nlri
import Verif.Props.Attr
/-
C15-C19, C45, C50, C51, C54: BGP messages, capabilities, AS numbers, roles.
-/
namespace Verif.Props
open Spec

/-! ### C45: capabilities -/

/-- C45. A capability is decoded to a value exactly when its octets mean that value; octets without a meaning under
their code (unknown code, wrong length, unassigned number) are kept as they are. -/
theorem c45_decoded_iff (code : UInt8) (b : Bytes) (v : CapVal) :
    capValue code b = .ok v ↔ CapBytes code b v ∨ (v = .raw b ∧ ∀ v', ¬ CapBytes code b v') := capValue_spec code b v

/-- C45. Octets have at most one meaning. -/
theorem c45_meaning_unique (code : UInt8) (b : Bytes) (v v' : CapVal) (h : CapBytes code b v) (h' : CapBytes code b v') :
    v = v' := by
  have h1 := (capValue_spec code b v).mpr (.inl h)
  have h2 := (capValue_spec code b v').mpr (.inl h')
  rw [h1] at h2
  injection h2

/-- C45. Every capability value within its field widths is encoded to octets that are decoded to it. -/
theorem c45_capability_roundtrip (code : UInt8) (v : CapVal) (h : CapOk code v) : capValue code (encCapVal v) = .ok v :=
  capValue_encCapVal h

/-- C45. The octets written mean the value: the layout is that of the RFC, not one private to this encoder. -/
theorem c45_encoded_layout (code : UInt8) (v : CapVal) (h : CapOk code v) (hr : ∀ b, v ≠ .raw b) :
    CapBytes code (encCapVal v) v := encCapVal_bytes h hr

/-- C45. Short or surplus data is never decoded: route refresh and extended message with content, role, four-octet AS and
multiprotocol of another length, families that do not fill the data. -/
theorem c45_wrong_length (code : UInt8) (b : Bytes)
    (h : (code = 1 ∧ b.length ≠ 4) ∨ (code = 2 ∧ b.length ≠ 0) ∨ (code = 5 ∧ b.length % 6 ≠ 0) ∨ (code = 6 ∧ b.length ≠ 0) ∨
      (code = 9 ∧ b.length ≠ 1) ∨ (code = 64 ∧ (b.length < 2 ∨ b.length % 4 ≠ 2)) ∨ (code = 65 ∧ b.length ≠ 4) ∨
      (code = 69 ∧ b.length % 4 ≠ 0)) : capValue code b = .ok (.raw b) := by
  refine (capValue_spec code b _).mpr (.inr ⟨rfl, ?_⟩)
  intro v hv
  cases hv with
  | multiprotocol a s x => simp [n16] at h
  | routeRefresh => simp at h
  | extNextHop hb =>
    have := Blocks_length EnhBytes_length hb
    simp at h; omega
  | extMessage => simp at h
  | role r => simp at h
  | gracefulRestart st r t hr ht hb =>
    have := Blocks_length GrBytes_length hb
    simp [n16] at h; omega
  | fourOctetAs a => simp [n32] at h
  | addPath hb =>
    have := Blocks_length ApBytes_length hb
    simp at h; omega

/-- C45. The queries on the extended next hop capability: a family is supported over a next hop family exactly if the
capability has an entry saying so, and the families listed for a next hop family are those of its entries, in order. -/
theorem c45_ext_next_hop_queries (es : List EnhEntry) (afi nh : Afi) (safi : Safi) :
    (enhSupports es afi safi nh = true ↔ ⟨afi, safi, nh⟩ ∈ es) ∧
    (enhForNextHop es nh).map (fun p => (⟨p.1, p.2, nh⟩ : EnhEntry)) = es.filter (fun e => decide (e.nextHopAfi = nh)) := by
  constructor
  · unfold enhSupports
    rw [List.any_eq_true]
    constructor
    · rintro ⟨⟨a, b, c⟩, h, hx⟩
      simp only [Bool.and_eq_true, beq_iff_eq] at hx
      obtain ⟨⟨rfl, rfl⟩, rfl⟩ := hx
      exact h
    · intro h
      exact ⟨_, h, by simp⟩
  · unfold enhForNextHop
    induction es with
    | nil => rfl
    | cons e es ih =>
      obtain ⟨a, b, c⟩ := e
      by_cases h : c = nh
      · subst h; simpa using ih
      · simpa [h] using ih

example : enhSupports [⟨.ipv4, .unicast, .ipv6⟩] .ipv4 .unicast .ipv6 = true ∧
    enhForNextHop [⟨.ipv4, .unicast, .ipv6⟩, ⟨.ipv4, .mplsVpn, .ipv4⟩, ⟨.ipv4, .multicast, .ipv6⟩] .ipv6 =
      [(.ipv4, .unicast), (.ipv4, .multicast)] := by decide

/-- C45. No capability makes the parser panic. -/
theorem c45_no_panic (code : UInt8) (b : Bytes) : capValue code b ≠ .error .panic := capValue_noPanic code b

/-- C45, why the width bound is needed: a restart time above 4095 loses its upper bits. -/
theorem c45_restart_time_truncated :
    capValue 64 (encCapVal (.gracefulRestart false 5000 [])) = .ok (.gracefulRestart false 904 []) := by decide +kernel

example : CapOk 64 (.gracefulRestart true 120 [⟨.ipv4, .unicast, true⟩, ⟨.ipv6, .unicast, false⟩]) ∧
    encCapVal (.gracefulRestart true 120 [⟨.ipv4, .unicast, true⟩, ⟨.ipv6, .unicast, false⟩]) =
      [0x80, 120, 0, 1, 1, 0x80, 0, 2, 1, 0] := ⟨⟨rfl, by decide⟩, by decide +kernel⟩

example : CapOk 2 (.raw [7]) ∧ CapOk 200 (.raw [1, 2]) := by
  constructor
  · intro v h
    generalize hb : ([7] : Bytes) = b at h
    generalize hc : (2 : UInt8) = c at h
    cases h <;> simp at hc hb
  · intro v h
    generalize hb : ([1, 2] : Bytes) = b at h
    generalize hc : (200 : UInt8) = c at h
    cases h <;> simp at hc

/-! ### C17: OPEN -/

/-- C17. An encoded OPEN is parsed to the same message: version, AS number, hold time, identifier and all parameters. The
extended-parameters flag is kept, or set when the encoder had to use the extended format (more than 255 octets of
parameters, which gives more than 265 octets in all). -/
theorem c17_open_roundtrip (m : Open) (b : Bytes) (hm : OpenOk m) (h : encodeOpen m = .ok b) :
    parseOpen b = .ok { m with extended := m.extended || decide (265 < b.length) } := parseOpen_encode hm h

/-- C17. If the parameters fit the short format, or the message already is extended, it is the same message. -/
theorem c17_open_roundtrip_exact (m : Open) (b : Bytes) (hm : OpenOk m) (h : encodeOpen m = .ok b)
    (hf : m.extended = true ∨ b.length ≤ 265) : parseOpen b = .ok m := by
  rw [parseOpen_encode hm h]
  congr 1
  have : (m.extended || decide (265 < b.length)) = m.extended := by
    rcases hf with hf | hf
    · simp [hf]
    · rw [decide_eq_false (by omega)]; simp
  rw [this]

/-- C17. The fixed part is that of RFC 4271. -/
theorem c17_open_layout (m : Open) (b : Bytes) (hm : OpenOk m) (h : encodeOpen m = .ok b) :
    b.take 9 = m.version :: (n16 m.asn.toNat ++ n16 m.holdTime.toNat ++ m.bgpId.toList) := by
  have ha : be16 m.asn.toUInt16 = n16 m.asn.toNat := by
    rw [be16_n16]; congr 1
    have := hm.1
    simp; omega
  have key : ∀ o t, (openHead m o ++ t).take 9 = m.version :: (n16 m.asn.toNat ++ n16 m.holdTime.toNat ++ m.bgpId.toList) := by
    intro o t
    unfold openHead
    rw [ha, be16_n16]
    have e : m.version :: (n16 m.asn.toNat ++ (n16 m.holdTime.toNat ++ (m.bgpId.toList ++ [o]))) ++ t =
        (m.version :: (n16 m.asn.toNat ++ n16 m.holdTime.toNat ++ m.bgpId.toList)) ++ (o :: t) := by simp
    rw [e]
    apply List.take_left'
    simp [n16]
  obtain ⟨qs, _, ⟨_, _, rfl⟩ | ⟨_, _, rfl⟩⟩ := encodeOpen_ok h <;> exact key _ _

/-- C17. Parameter type 255 marks the extended format, so a parameter of that type is refused, never written. -/
theorem c17_type_255_refused (m : Open) (p : OptParam) (hp : p ∈ m.params) (h255 : p.type = 255) (b : Bytes) :
    encodeOpen m ≠ .ok b := by
  intro h
  obtain ⟨qs, h1, _⟩ := encodeOpen_ok h
  have : ∀ (ps : List OptParam) (qs : List (UInt8 × Bytes)), collectOk encParam ps = .ok qs → ∀ p ∈ ps, p.type ≠ 255 := by
    intro ps
    induction ps with
    | nil => simp
    | cons q ps ih =>
      intro qs h p hp
      obtain ⟨b, c, h1, h2, rfl⟩ := collectOk_cons_ok.mp h
      rcases List.mem_cons.mp hp with rfl | hp
      · intro h0
        simp [encParam, h0] at h1
      · exact ih _ h2 p hp
  exact this _ _ h1 p hp h255

/-- an OPEN with capabilities and an unknown parameter. -/
def c17Open : Open :=
  ⟨4, 64512, 180, #v[192, 0, 2, 1], false,
    [⟨2, .caps [⟨1, .multiprotocol .ipv4 .unicast⟩, ⟨65, .fourOctetAs 4200000001⟩, ⟨2, .routeRefresh⟩, ⟨73, .raw [1, 2]⟩]⟩,
      ⟨9, .raw [7]⟩]⟩

theorem c17Open_ok : OpenOk c17Open := by
  refine ⟨by decide, ?_⟩
  simp only [c17Open, List.mem_cons, List.not_mem_nil, or_false, forall_eq_or_imp, forall_eq]
  refine ⟨⟨rfl, ?_⟩, show (9 : UInt8) ≠ 2 by decide⟩
  simp only [List.mem_cons, List.not_mem_nil, or_false, forall_eq_or_imp, forall_eq]
  refine ⟨rfl, rfl, rfl, ?_⟩
  intro v h
  generalize hb : ([1, 2] : Bytes) = b at h
  generalize hc : (73 : UInt8) = c at h
  cases h <;> simp at hc

example : OpenOk c17Open ∧ ∃ b, encodeOpen c17Open = .ok b ∧ b.length ≤ 265 := ⟨c17Open_ok, _, rfl, by decide +kernel⟩

/-- C17: the AS number field has two octets; a larger number is cut without an error. -/
theorem c17_asn_truncated :
    ∃ m b m', m.params = [] ∧ encodeOpen m = .ok b ∧ parseOpen b = .ok m' ∧ m'.asn ≠ m.asn :=
  ⟨⟨4, 65537, 0, #v[1, 1, 1, 1], false, []⟩, _, _, rfl, rfl, rfl, by decide⟩

/-- the longest list of zero octets is still 5000 long. -/
theorem c17_long_open :
    ∃ b, encodeOpen ⟨4, 1, 0, #v[1, 1, 1, 1], true, [⟨9, .raw (List.replicate 5000 0)⟩]⟩ = .ok b ∧ b.length = 5016 := by
  have hl : (List.replicate 5000 (0 : UInt8)).length = 5000 := List.length_replicate
  generalize List.replicate 5000 (0 : UInt8) = d at hl
  refine ⟨_, by unfold encodeOpen; simp [collectOk, encParam, encParamValue, checkMax, hl]; rfl, ?_⟩
  simp [openHead, paramBytes, hl]

/-! ### C18: NOTIFICATION, ROUTE-REFRESH -/

/-- C18. A code and subcode are decoded to the error of those RFC numbers, and to no other. -/
theorem c18_error_numbers (c s : UInt8) (e : BgpError) :
    BgpError.new c s = e ↔ ErrorOk e ∧ errorNum e = (c.toNat, s.toNat) := by
  have fin : ∀ (P : UInt8 → Prop), (∀ n : Fin 256, P (UInt8.ofNat n.val)) → ∀ x, P x := by
    intro P h x
    have := h ⟨x.toNat, x.toNat_lt⟩
    simpa using this
  have num : ∀ {x : UInt8} {n : Nat} (h : n < 256), n = x.toNat → x = UInt8.ofNat n := by
    rintro x n _ rfl; simp
  constructor
  · rintro rfl
    unfold BgpError.new
    by_cases h0 : c = 0
    · subst h0; revert s; exact fin _ (by decide +kernel)
    by_cases h1 : c = 1
    · subst h1; revert s; exact fin _ (by decide +kernel)
    by_cases h2 : c = 2
    · subst h2; revert s; exact fin _ (by decide +kernel)
    by_cases h3 : c = 3
    · subst h3; revert s; exact fin _ (by decide +kernel)
    by_cases h4 : c = 4
    · subst h4; revert s; exact fin _ (by decide +kernel)
    by_cases h5 : c = 5
    · subst h5; revert s; exact fin _ (by decide +kernel)
    by_cases h6 : c = 6
    · subst h6; revert s; exact fin _ (by decide +kernel)
    by_cases h7 : c = 7
    · subst h7; revert s; exact fin _ (by decide +kernel)
    simp only [h0, h1, h2, h3, h4, h5, h6, h7, if_false]
    refine ⟨?_, rfl⟩
    show 8 ≤ c.toNat
    apply Classical.byContradiction
    intro hc
    have : c.toNat = 0 ∨ c.toNat = 1 ∨ c.toNat = 2 ∨ c.toNat = 3 ∨ c.toNat = 4 ∨ c.toNat = 5 ∨ c.toNat = 6 ∨
      c.toNat = 7 := by omega
    rcases this with h | h | h | h | h | h | h | h
    · exact h0 (UInt8.toNat_inj.mp h)
    · exact h1 (UInt8.toNat_inj.mp h)
    · exact h2 (UInt8.toNat_inj.mp h)
    · exact h3 (UInt8.toNat_inj.mp h)
    · exact h4 (UInt8.toNat_inj.mp h)
    · exact h5 (UInt8.toNat_inj.mp h)
    · exact h6 (UInt8.toNat_inj.mp h)
    · exact h7 (UInt8.toNat_inj.mp h)
  · rintro ⟨hok, hn⟩
    have hu : ∀ (f : UInt8 → BgpError) (k : UInt8) (ok : UInt8 → Prop) [DecidablePred ok],
        (∀ n : Fin 256, ok (UInt8.ofNat n.val) → BgpError.new k (UInt8.ofNat n.val) = f (UInt8.ofNat n.val)) →
        ∀ v, ok v → BgpError.new k v = f v := by
      intro f k ok _ h v hv
      have := h ⟨v.toNat, v.toNat_lt⟩
      simp only [UInt8.ofNat_toNat] at this
      exact this hv
    cases e with
    | reserved v =>
      simp only [errorNum, Prod.mk.injEq] at hn
      obtain ⟨h1, h2⟩ := hn
      rw [num (by decide) h1, UInt8.toNat_inj.mp h2]; rfl
    | holdTimer v =>
      simp only [errorNum, Prod.mk.injEq] at hn
      obtain ⟨h1, h2⟩ := hn
      rw [num (by decide) h1, UInt8.toNat_inj.mp h2]; rfl
    | unknown k v =>
      simp only [errorNum, Prod.mk.injEq] at hn
      obtain ⟨h1, h2⟩ := hn
      rw [← UInt8.toNat_inj.mp h1, UInt8.toNat_inj.mp h2]
      have hk : 8 ≤ k.toNat := hok
      have : ∀ j : UInt8, j.toNat < 8 → k ≠ j := by rintro j hj rfl; omega
      unfold BgpError.new
      rw [if_neg (this 0 (by decide)), if_neg (this 1 (by decide)), if_neg (this 2 (by decide)), if_neg (this 3 (by decide)),
        if_neg (this 4 (by decide)), if_neg (this 5 (by decide)), if_neg (this 6 (by decide)), if_neg (this 7 (by decide))]
    | header x =>
      cases x with
      | unknown v =>
        simp only [errorNum, Prod.mk.injEq] at hn
        obtain ⟨h1, h2⟩ := hn
        rw [num (by decide) h1, ← UInt8.toNat_inj.mp h2]
        exact hu (fun v => .header (.unknown v)) 1 (fun v => 4 ≤ v.toNat) (by decide +kernel) v hok
      | _ =>
        simp only [errorNum, Prod.mk.injEq] at hn
        rw [num (by decide) hn.1, num (by decide) hn.2]; decide
    | openErr x =>
      cases x with
      | unknown v =>
        simp only [errorNum, Prod.mk.injEq] at hn
        obtain ⟨h1, h2⟩ := hn
        rw [num (by decide) h1, ← UInt8.toNat_inj.mp h2]
        exact hu (fun v => .openErr (.unknown v)) 2 (fun v => v.toNat = 5 ∨ (8 ≤ v.toNat ∧ v.toNat ≤ 10) ∨ 12 ≤ v.toNat) (by decide +kernel) v hok
      | _ =>
        simp only [errorNum, Prod.mk.injEq] at hn
        rw [num (by decide) hn.1, num (by decide) hn.2]; decide
    | update x =>
      cases x with
      | unknown v =>
        simp only [errorNum, Prod.mk.injEq] at hn
        obtain ⟨h1, h2⟩ := hn
        rw [num (by decide) h1, ← UInt8.toNat_inj.mp h2]
        exact hu (fun v => .update (.unknown v)) 3 (fun v => v.toNat = 7 ∨ 12 ≤ v.toNat) (by decide +kernel) v hok
      | _ =>
        simp only [errorNum, Prod.mk.injEq] at hn
        rw [num (by decide) hn.1, num (by decide) hn.2]; decide
    | fsm x =>
      cases x with
      | unknown v =>
        simp only [errorNum, Prod.mk.injEq] at hn
        obtain ⟨h1, h2⟩ := hn
        rw [num (by decide) h1, ← UInt8.toNat_inj.mp h2]
        exact hu (fun v => .fsm (.unknown v)) 5 (fun v => 4 ≤ v.toNat) (by decide +kernel) v hok
      | _ =>
        simp only [errorNum, Prod.mk.injEq] at hn
        rw [num (by decide) hn.1, num (by decide) hn.2]; decide
    | cease x =>
      cases x with
      | unknown v =>
        simp only [errorNum, Prod.mk.injEq] at hn
        obtain ⟨h1, h2⟩ := hn
        rw [num (by decide) h1, ← UInt8.toNat_inj.mp h2]
        exact hu (fun v => .cease (.unknown v)) 6 (fun v => 11 ≤ v.toNat) (by decide +kernel) v hok
      | _ =>
        simp only [errorNum, Prod.mk.injEq] at hn
        rw [num (by decide) hn.1, num (by decide) hn.2]; decide
    | refresh x =>
      cases x with
      | unknown v =>
        simp only [errorNum, Prod.mk.injEq] at hn
        obtain ⟨h1, h2⟩ := hn
        rw [num (by decide) h1, ← UInt8.toNat_inj.mp h2]
        exact hu (fun v => .refresh (.unknown v)) 7 (fun v => 2 ≤ v.toNat) (by decide +kernel) v hok
      | _ =>
        simp only [errorNum, Prod.mk.injEq] at hn
        rw [num (by decide) hn.1, num (by decide) hn.2]; decide

/-- the codes written are those numbers. -/
theorem codes_eq (e : BgpError) : ((e.codes.1.toNat, e.codes.2.toNat) : Nat × Nat) = errorNum e := by
  cases e with
  | reserved v => rfl
  | holdTimer v => rfl
  | unknown k v => rfl
  | header x => cases x <;> rfl
  | openErr x => cases x <;> rfl
  | update x => cases x <;> rfl
  | fsm x => cases x <;> rfl
  | cease x => cases x <;> rfl
  | refresh x => cases x <;> rfl

/-- C18. All 65536 pairs of code and subcode are preserved: a NOTIFICATION body is reproduced byte for byte. -/
theorem c18_notification_bytes (c s : UInt8) (d : Bytes) :
    ∃ n, parseNotification (c :: s :: d) = .ok n ∧ n.data = d ∧ encodeNotification n = c :: s :: d := by
  refine ⟨_, parseNotification_cons c s d, rfl, ?_⟩
  have h := (c18_error_numbers c s _).mp rfl
  have h2 := (codes_eq (BgpError.new c s)).trans h.2
  simp only [Prod.mk.injEq] at h2
  simp only [encodeNotification]
  rw [UInt8.toNat_inj.mp h2.1, UInt8.toNat_inj.mp h2.2]

/-- C18. A NOTIFICATION whose error is the one for its numbers parses back to itself. -/
theorem c18_notification_roundtrip (n : Notification) (h : ErrorOk n.error) :
    parseNotification (encodeNotification n) = .ok n := by
  unfold encodeNotification
  rw [parseNotification_cons]
  have : BgpError.new n.error.codes.1 n.error.codes.2 = n.error :=
    (c18_error_numbers _ _ _).mpr ⟨h, (codes_eq n.error).symm⟩
  rw [this]

example : ErrorOk (.cease (.unknown 200)) ∧ ErrorOk (.update .malformedAsPath) ∧ ErrorOk (.unknown 77 3) := by decide

/-- C18, why the condition is needed: the "unknown" form of an assigned subcode comes back as the named one. -/
theorem c18_unknown_alias :
    parseNotification (encodeNotification ⟨.cease (.unknown 2), []⟩) = .ok ⟨.cease .shutdown, []⟩ := by decide +kernel

/-- C18. ROUTE-REFRESH parses back to itself, whatever the numbers and the data. -/
theorem c18_route_refresh_roundtrip (m : RouteRefresh) : parseRouteRefresh (encodeRouteRefresh m) = .ok m :=
  parseRouteRefresh_bytes m

/-- C18. The ROUTE-REFRESH layout: AFI, subtype, SAFI, data. -/
theorem c18_route_refresh_layout (m : RouteRefresh) :
    encodeRouteRefresh m = n16 m.afi.toNat ++ [m.subtype, m.safi] ++ m.data := by
  simp [encodeRouteRefresh, be16_n16]

/-- C18. The validation of a ROUTE-REFRESH: BoRR and EoRR (1, 2) carry no data; subtypes above 2 are unknown. -/
theorem c18_route_refresh_warnings (m : RouteRefresh) (w : RefreshWarning) :
    w ∈ m.warnings ↔
      (w = .invalidLength m.subtype (4 + m.data.length) ∧ (m.subtype = 1 ∨ m.subtype = 2) ∧ m.data ≠ []) ∨
      (w = .unknownSubtype m.subtype ∧ 3 ≤ m.subtype.toNat) := by
  unfold RouteRefresh.warnings
  by_cases h0 : m.subtype = 0
  · rw [if_pos h0, h0]; simp
  rw [if_neg h0]
  by_cases h1 : m.subtype = 1 ∨ m.subtype = 2
  · rw [if_pos h1]
    have h3 : ¬ 3 ≤ m.subtype.toNat := by rcases h1 with h | h <;> rw [h] <;> decide
    cases hd : m.data with
    | nil => simp [h3]
    | cons a as => simp [h3, h1]
  · rw [if_neg h1]
    have h3 : 3 ≤ m.subtype.toNat := by
      apply Classical.byContradiction
      intro hc
      have : m.subtype.toNat = 0 ∨ m.subtype.toNat = 1 ∨ m.subtype.toNat = 2 := by omega
      rcases this with h | h | h
      · exact h0 (UInt8.toNat_inj.mp h)
      · exact h1 (.inl (UInt8.toNat_inj.mp h))
      · exact h1 (.inr (UInt8.toNat_inj.mp h))
    simp [h1, h3]

/-! ### C16, C54: UPDATE -/

/-- C54. The three sections of an UPDATE are parsed independently. Withdrawn and announced prefixes are those of their own
field; a malformed field gives no prefixes and one warning with its bytes, and changes nothing else. The attributes are
those of the attribute section. The warnings are those of the attributes, those for missing attributes, then those of the
fields. -/
theorem c54_sections (addPath : Bool) (l : AsnLen) (w a n : Bytes) (hw : w.length < 65536) (ha : a.length < 65536)
    (as : Attributes) (h : parseAttributes (updateCfg addPath l) a = .ok as) :
    ∃ u missing, parseUpdate addPath l (updateBytes w a n) = .ok u ∧
      u.withdrawn = fieldPrefixes addPath w ∧ u.announced = fieldPrefixes addPath n ∧
      u.attributes.inner = as.inner ∧
      u.attributes.warnings = as.warnings ++ missing ++ fieldWarnings true addPath w ++ fieldWarnings false addPath n ∧
      missing = (as.checkMandatory (decide (n ≠ []) || as.hasAttr 14) (decide (n ≠ []))).warnings.drop as.warnings.length := by
  rw [parseUpdate_sections addPath l w a n hw ha, h]
  refine ⟨_, _, rfl, rfl, rfl, rfl, rfl, ?_⟩
  unfold Attributes.checkMandatory
  dsimp only
  rw [List.drop_left]
  cases n <;> simp

/-- C54. An UPDATE is refused exactly when its section lengths do not fit or its attribute section is refused (that is
when the section ends in an incomplete two-octet length, see C12). -/
theorem c54_refused_iff (addPath : Bool) (l : AsnLen) (s : Bytes) :
    (∀ u, parseUpdate addPath l s ≠ .ok u) ↔
      ∀ w a n, w.length < 65536 → a.length < 65536 → s = updateBytes w a n →
        ∀ as, parseAttributes (updateCfg addPath l) a ≠ .ok as := by
  constructor
  · rintro h w a n hw ha rfl as has
    obtain ⟨u, _, hu, _⟩ := c54_sections addPath l w a n hw ha as has
    exact h u hu
  · intro h u hu
    obtain ⟨w, a, n, rfl, hw, ha⟩ := parseUpdate_layout hu
    rw [parseUpdate_sections addPath l w a n hw ha] at hu
    cases has : parseAttributes (updateCfg addPath l) a with
    | error e => rw [has] at hu; cases hu
    | ok as => exact h w a n hw ha rfl as has

/-- C54. The cut into sections is unique. -/
theorem c54_cut_unique (w a n w' a' n' : Bytes) (hw : w.length < 65536) (ha : a.length < 65536) (hw' : w'.length < 65536)
    (ha' : a'.length < 65536) (h : updateBytes w a n = updateBytes w' a' n') : w = w' ∧ a = a' ∧ n = n' := by
  have e : ∀ w a n : Bytes, updateBytes w a n = n16 w.length ++ w ++ (n16 a.length ++ a ++ n) := by
    intro w a n; simp [updateBytes]
  have h1 := (exact_rdSection (updateBytes w a n) w (n16 a.length ++ a ++ n)).mpr ⟨_, e _ _ _, rfl, hw⟩
  have h2 := (exact_rdSection (updateBytes w' a' n') w' (n16 a'.length ++ a' ++ n')).mpr ⟨_, e _ _ _, rfl, hw'⟩
  rw [h, h2] at h1
  injection h1 with h1
  injection h1 with h3 h4
  have h5 := (exact_rdSection (n16 a.length ++ a ++ n) a n).mpr ⟨_, rfl, rfl, ha⟩
  have h6 := (exact_rdSection (n16 a'.length ++ a' ++ n') a' n').mpr ⟨_, rfl, rfl, ha'⟩
  rw [← h4, h6] at h5
  injection h5 with h5
  injection h5 with h7 h8
  exact ⟨h3.symm, h7.symm, h8.symm⟩

/-- a malformed withdrawn field (a /33) beside good attributes and a good announced field. -/
example : parseAttributes (updateCfg false .b32) [0x40, 1, 1, 0] = .ok ⟨[⟨0x40, .origin .igp⟩], [], (Attributes.ofList [⟨0x40, .origin .igp⟩]).mask⟩ ∧
    fieldPrefixes false [33, 1, 2, 3, 4, 5] = [] ∧ fieldWarnings true false [33, 1, 2, 3, 4, 5] = [.malformedNlri true [33, 1, 2, 3, 4, 5]] ∧
    fieldPrefixes false [8, 10] = [⟨⟨.v4 #v[10, 0, 0, 0], 8⟩, none⟩] := by decide +kernel

theorem fieldPrefixes_encode {ap : Bool} {ps : List NetworkPrefix} (h : ∀ p ∈ ps, UpdatePrefixOk ap p) :
    fieldPrefixes ap (encodeNlri ps) = ps := by
  unfold fieldPrefixes
  rw [c01_nlri_roundtrip .ipv4 ap ps (fun p hp => (h p hp).1) (fun hap p hp => (h p hp).2 hap)]

/-- C16. An encoded UPDATE parses back to the same withdrawn prefixes, attributes and announced prefixes. Partial: with
the restrictions of `UpdateOk` (see C03 and C11 for what they exclude and why). -/
theorem c16_update_roundtrip_partial (addPath : Bool) (l : AsnLen) (u : Update) (b : Bytes) (hu : UpdateOk addPath l u)
    (h : encodeUpdate l u = .ok b) :
    ∃ u', parseUpdate addPath l b = .ok u' ∧ u'.withdrawn = u.withdrawn ∧
      u'.attributes.inner = u.attributes.inner ∧ u'.announced = u.announced := by
  obtain ⟨a, h1, hw, ha, rfl⟩ := encodeUpdate_ok h
  obtain ⟨as, h2, h3⟩ := c11_attributes_roundtrip_partial (updateCfg addPath l) _ a hu.attributes h1
  obtain ⟨u', _, h4, h5, h6, h7, _⟩ := c54_sections addPath l (encodeNlri u.withdrawn) a (encodeNlri u.announced) hw ha as h2
  exact ⟨u', h4, h5.trans (fieldPrefixes_encode hu.withdrawn), h7.trans h3, h6.trans (fieldPrefixes_encode hu.announced)⟩

/-- C16. The layout of an encoded UPDATE. -/
theorem c16_update_layout (l : AsnLen) (u : Update) (b : Bytes) (h : encodeUpdate l u = .ok b) :
    ∃ a, encodeAttributes l u.attributes.inner = .ok a ∧
      b = updateBytes (encodeNlri u.withdrawn) a (encodeNlri u.announced) := by
  obtain ⟨a, h1, _, _, h2⟩ := encodeUpdate_ok h
  exact ⟨a, h1, h2⟩

def c16Update : Update :=
  ⟨[⟨⟨.v4 #v[10, 1, 0, 0], 16⟩, none⟩],
    .ofList [⟨0x40, .origin .egp⟩, ⟨0x40, .asPath [.seq [65001, 4200000000]]⟩, ⟨0x40, .nextHop (.v4 #v[192, 0, 2, 1])⟩],
    [⟨⟨.v4 #v[203, 0, 113, 0], 24⟩, none⟩, ⟨⟨.v4 #v[198, 51, 100, 128], 25⟩, none⟩]⟩

theorem c16Update_ok : UpdateOk false .b32 c16Update := by
  constructor
  · intro p hp
    simp only [c16Update, List.mem_singleton] at hp
    subst hp
    exact ⟨by decide +kernel, fun _ => by decide⟩
  · intro a ha
    simp only [c16Update, Attributes.ofList, List.mem_cons, List.not_mem_nil, or_false] at ha
    rcases ha with rfl | rfl | rfl
    · trivial
    · trivial
    · rfl
  · intro p hp
    simp only [c16Update, List.mem_cons, List.not_mem_nil, or_false] at hp
    rcases hp with rfl | rfl
    · exact ⟨by decide +kernel, fun _ => by decide⟩
    · exact ⟨by decide +kernel, fun _ => by decide⟩

example : UpdateOk false .b32 c16Update ∧ (encodeUpdate .b32 c16Update).isOk = true := ⟨c16Update_ok, by decide +kernel⟩

/-- C16 fails here: withdrawing the default route and 1.2.0.0/16 and the default route again, without Add-Path, parses
back as one prefix with a path identifier. -/
theorem c16_counterexample :
    ∃ u b u', encodeUpdate .b32 u = .ok b ∧ parseUpdate false .b32 b = .ok u' ∧ (∀ p ∈ u.withdrawn, PrefixOk .ipv4 false p) ∧
      u.withdrawn.length = 3 ∧ u'.withdrawn = [⟨⟨.v4 v4zero, 0⟩, some 0x00100102⟩] := by
  refine ⟨⟨[⟨⟨.v4 v4zero, 0⟩, none⟩, ⟨⟨.v4 #v[1, 2, 0, 0], 16⟩, none⟩, ⟨⟨.v4 v4zero, 0⟩, none⟩], .empty, []⟩, _, _, rfl, rfl,
    by decide +kernel, rfl, by decide +kernel⟩

/-- C14 for a whole UPDATE whose attribute section is complete: the missing-attribute warnings of the message are those of
its attribute section and one for each attribute missing under the rule, where the message announces if it has bytes in
its announced field or carries MP_REACH_NLRI. -/
theorem c14_update_warnings_partial (addPath : Bool) (l : AsnLen) (w n r : Bytes) (ws : List Wire) (hw : w.length < 65536)
    (hws : ∀ x ∈ ws, x.ok) (hr : r.length < 3) (ha : (wireBytes ws ++ r).length < 65536) (as : Attributes)
    (h : parseAttributes (updateCfg addPath l) (wireBytes ws ++ r) = .ok as) :
    ∃ u, parseUpdate addPath l (updateBytes w (wireBytes ws ++ r) n) = .ok u ∧ ∀ code,
      Warning.missing code ∈ u.attributes.warnings ↔ Warning.missing code ∈ as.warnings ∨
        ((n ≠ [] ∨ Holds as 14) ∧ ¬ Holds as code ∧ (code = 1 ∨ code = 2 ∨ (code = 3 ∧ (n ≠ [] ∨ ¬ Holds as 14)))) := by
  have hist : AttrHistory as := .parsed hws hr h
  have h14 := c13_mask_exact_partial as hist 14
  obtain ⟨u, missing, h1, _, _, _, h5, h6⟩ := c54_sections addPath l w _ n hw ha as h
  refine ⟨u, h1, fun code => ?_⟩
  obtain ⟨added, e1, _, _, e2⟩ := c14_mandatory_warnings_partial as hist (decide (n ≠ []) || as.hasAttr 14) (decide (n ≠ []))
  rw [e1, List.drop_left] at h6
  have hf : ∀ b s, Warning.missing code ∉ fieldWarnings b addPath s := by
    intro b s; unfold fieldWarnings; split <;> simp
  rw [h5, h6]
  simp only [List.mem_append, hf, or_false, e2]
  constructor
  · rintro (hx | ⟨c, hc, hm⟩)
    · exact .inl hx
    · cases hc
      obtain ⟨m1, m2, m3⟩ := hm
      simp only [Bool.or_eq_true, decide_eq_true_eq, h14] at m1 m3
      exact .inr ⟨m1, m2, m3⟩
  · rintro (hx | ⟨m1, m2, m3⟩)
    · exact .inl hx
    · refine .inr ⟨code, rfl, ?_, m2, ?_⟩
      · simp only [Bool.or_eq_true, decide_eq_true_eq, h14]; exact m1
      · simpa only [decide_eq_true_eq] using m3

/-! ### C15: the message frame -/

/-- C15. Which inputs are accepted, and with what result: sixteen octets, a length between 19 and 65535, a known type,
at most 4096 for OPEN and KEEPALIVE. The message is the body parser's result on the declared octets alone, and what
follows them is left. (A length beyond the end of the input is accepted, see `c15_truncated_accepted`.) -/
theorem c15_accepted_iff (addPath : Bool) (l : AsnLen) (s : Bytes) (m : BgpMessage) (r : Bytes) :
    parseBgpMessage addPath l s = .ok (m, r) ↔
      ∃ (marker : Bytes) (len : Nat) (ty : UInt8) (rest : Bytes) (t : MsgType), marker.length = 16 ∧ 19 ≤ len ∧ len < 65536 ∧
        s = marker ++ n16 len ++ [ty] ++ rest ∧ MsgType.ofU8? ty = some t ∧
        ¬ ((t = .open ∨ t = .keepAlive) ∧ len > 4096) ∧
        parseBody addPath l t (rest.take (len - 19)) = .ok m ∧ r = rest.drop (len - 19) :=
  parseBgpMessage_iff addPath l s m r

/-- C15. The type octet is the RFC number of the message type. -/
theorem c15_type_numbers (x : UInt8) (t : MsgType) : MsgType.ofU8? x = some t ↔ x.toNat = msgNum t := by
  constructor
  · intro h
    unfold MsgType.ofU8? at h
    by_cases h1 : x = 1
    · subst h1; cases h; rfl
    by_cases h2 : x = 2
    · subst h2; cases h; rfl
    by_cases h3 : x = 3
    · subst h3; cases h; rfl
    by_cases h4 : x = 4
    · subst h4; cases h; rfl
    by_cases h5 : x = 5
    · subst h5; cases h; rfl
    simp [h1, h2, h3, h4, h5] at h
  · intro h
    have : x = UInt8.ofNat (msgNum t) := by rw [← h]; simp
    rw [this]; exact msgType_ofU8_num t

/-- C15 (partial: the declared octets must be there). With a complete message in front, exactly its octets are consumed,
and the outcome does not depend on what follows: success and failure are those of the message alone. -/
theorem c15_declared_length_partial (addPath : Bool) (l : AsnLen) (marker body rest : Bytes) (ty : UInt8)
    (hm : marker.length = 16) (hb : 19 + body.length < 65536) (m : BgpMessage) (r : Bytes) :
    parseBgpMessage addPath l (messageBytes marker (19 + body.length) ty body ++ rest) = .ok (m, r) ↔
      r = rest ∧ parseBgpMessage addPath l (messageBytes marker (19 + body.length) ty body) = .ok (m, []) := by
  have h1 := parseBgpMessage_bytes addPath l marker body rest ty hm hb
  have h2 := parseBgpMessage_bytes addPath l marker body [] ty hm hb
  rw [List.append_nil] at h2
  rw [h1, h2]
  cases MsgType.ofU8? ty with
  | none => simp
  | some t =>
    dsimp only
    by_cases hc : (t = .open ∨ t = .keepAlive) ∧ 19 + body.length > 4096
    · simp [hc]
    · rw [if_neg hc, if_neg hc]
      cases parseBody addPath l t body with
      | error e => simp
      | ok x =>
        simp only [Except.ok.injEq, Prod.mk.injEq, and_true]
        constructor
        · rintro ⟨rfl, rfl⟩; exact ⟨rfl, rfl⟩
        · rintro ⟨rfl, rfl⟩; exact ⟨rfl, rfl⟩

/-- C15. Also on failure the bytes after the message do not matter: the error is the same. -/
theorem c15_error_independent (addPath : Bool) (l : AsnLen) (marker body rest : Bytes) (ty : UInt8)
    (hm : marker.length = 16) (hb : 19 + body.length < 65536) (e : Err) :
    parseBgpMessage addPath l (messageBytes marker (19 + body.length) ty body ++ rest) = .error e ↔
      parseBgpMessage addPath l (messageBytes marker (19 + body.length) ty body) = .error e := by
  have h1 := parseBgpMessage_bytes addPath l marker body rest ty hm hb
  have h2 := parseBgpMessage_bytes addPath l marker body [] ty hm hb
  rw [List.append_nil] at h2
  rw [h1, h2]
  cases MsgType.ofU8? ty with
  | none => simp
  | some t =>
    dsimp only
    by_cases hc : (t = .open ∨ t = .keepAlive) ∧ 19 + body.length > 4096
    · simp [hc]
    · rw [if_neg hc, if_neg hc]
      cases parseBody addPath l t body <;> simp

/-- C15. Whatever is accepted: never more than the declared length is consumed, and exactly it if the input is that
long. -/
theorem c15_consumed (addPath : Bool) (l : AsnLen) (s : Bytes) (m : BgpMessage) (r : Bytes)
    (h : parseBgpMessage addPath l s = .ok (m, r)) :
    ∃ len, (s.drop 16).take 2 = n16 len ∧ 19 ≤ len ∧ len < 65536 ∧ r = s.drop len := by
  obtain ⟨marker, len, ty, rest, t, hm, h19, hl, rfl, _, _, _, rfl⟩ := (parseBgpMessage_iff _ _ _ _ _).mp h
  refine ⟨len, ?_, h19, hl, ?_⟩
  · have : marker ++ n16 len ++ [ty] ++ rest = marker ++ (n16 len ++ ([ty] ++ rest)) := by simp
    rw [this, List.drop_left' hm, List.take_left' (by rfl)]
  · have e : (marker ++ n16 len ++ [ty]).length = 19 := by simp [n16, hm]
    generalize marker ++ n16 len ++ [ty] = hd at e
    rw [List.drop_append, List.drop_of_length_le (by omega : hd.length ≤ len), e]; rfl

/-- C15. A declared length below 19, or fewer than 19 octets, is refused. -/
theorem c15_short_refused (addPath : Bool) (l : AsnLen) (s : Bytes)
    (h : s.length < 19 ∨ ∃ len, len < 19 ∧ (s.drop 16).take 2 = n16 len) (m : BgpMessage) (r : Bytes) :
    parseBgpMessage addPath l s ≠ .ok (m, r) := by
  intro hp
  obtain ⟨len, h1, h2, h3, _⟩ := c15_consumed addPath l s m r hp
  rcases h with h | ⟨len', h', hl'⟩
  · obtain ⟨marker, len, ty, rest, t, hm, h19, hl, rfl, _⟩ := (parseBgpMessage_iff _ _ _ _ _).mp hp
    simp [n16, hm] at h
    omega
  · rw [hl'] at h1
    have := rdU16_n16 h3 []
    rw [← h1, rdU16_n16 (by omega)] at this
    injection this with this
    injection this with this _
    have := congrArg UInt16.toNat this
    rw [toNat_u16len (by omega), toNat_u16len (by omega)] at this
    omega

example : parseBgpMessage false .b32 (messageBytes (List.replicate 16 255) (19 + [0, 1, 0, 1].length) 5 [0, 1, 0, 1] ++ [9, 9]) =
    .ok (.routeRefresh ⟨1, 0, 1, []⟩, [9, 9]) := by decide +kernel

/-- C15 fails here: the length field says 100, the input ends after 23 octets, and the message is accepted. -/
theorem c15_truncated_accepted :
    ∃ s m, (s.drop 16).take 2 = n16 100 ∧ s.length = 23 ∧ parseBgpMessage false .b32 s = .ok (m, []) :=
  ⟨messageBytes (List.replicate 16 255) 100 5 [0, 1, 0, 1], _, by decide +kernel, by decide +kernel, rfl⟩

/-- C15, C48. No input makes the message parser panic. -/
theorem c15_no_panic (addPath : Bool) (l : AsnLen) (s : Bytes) : parseBgpMessage addPath l s ≠ .error .panic :=
  parseBgpMessage_noPanic addPath l s

/-! ### whole messages -/

/-- C16, C17, C18. Encoding any message and parsing it, with anything behind it, returns the message and leaves what is
behind. -/
theorem c16_message_roundtrip_partial (addPath : Bool) (l : AsnLen) (m : BgpMessage) (b rest : Bytes)
    (hm : MessageOk addPath l m) (h : encodeBgpMessage l m = .ok b) :
    ∃ m', parseBgpMessage addPath l (b ++ rest) = .ok (m', rest) ∧ SameMessage m m' := by
  unfold encodeBgpMessage at h
  cases h1 : encodeBody l m with
  | error e => rw [h1] at h; cases h
  | ok body =>
    rw [h1] at h
    dsimp only at h
    unfold checkMax at h
    by_cases hl : body.length + 16 + 2 + 1 > 65535
    · rw [if_pos hl] at h; cases h
    rw [if_neg hl] at h
    cases h
    have hb : 19 + body.length < 65536 := by omega
    have e : List.replicate 16 0xFF ++ (be16 (UInt16.ofNat (body.length + 16 + 2 + 1)) ++ (m.msgType.toU8 :: body)) =
        messageBytes (List.replicate 16 0xFF) (19 + body.length) m.msgType.toU8 body := by
      have : body.length + 16 + 2 + 1 = 19 + body.length := by omega
      rw [this, n16_ofNat hb]; simp [messageBytes]
    rw [e, parseBgpMessage_bytes addPath l _ body rest _ (by simp) hb]
    have ht : MsgType.ofU8? m.msgType.toU8 = some m.msgType := by cases m.msgType <;> rfl
    rw [ht]
    dsimp only
    cases m with
    | «open» o =>
      obtain ⟨ho, hlen⟩ := hm
      have hbl := hlen body h1
      rw [if_neg (by omega)]
      refine ⟨.open { o with extended := o.extended || decide (265 < body.length) }, ?_, body, h1, rfl⟩
      simp only [BgpMessage.msgType, parseBody]
      rw [c17_open_roundtrip o body ho h1]
      rfl
    | update u =>
      rw [if_neg (by simp [BgpMessage.msgType])]
      obtain ⟨u', hu, h2, h3, h4⟩ := c16_update_roundtrip_partial addPath l u body hm h1
      refine ⟨.update u', ?_, h2, h3, h4⟩
      simp only [BgpMessage.msgType, parseBody]
      rw [hu]; rfl
    | notification n =>
      rw [if_neg (by simp [BgpMessage.msgType])]
      cases h1
      refine ⟨.notification n, ?_, rfl⟩
      simp only [BgpMessage.msgType, parseBody]
      rw [c18_notification_roundtrip n hm]; rfl
    | keepAlive =>
      cases h1
      rw [if_neg (by simp)]
      exact ⟨.keepAlive, rfl, trivial⟩
    | routeRefresh r =>
      rw [if_neg (by simp [BgpMessage.msgType])]
      cases h1
      refine ⟨.routeRefresh r, ?_, rfl⟩
      simp only [BgpMessage.msgType, parseBody]
      rw [c18_route_refresh_roundtrip]; rfl

/-- C18. KEEPALIVE: nineteen octets, and back. -/
theorem c18_keepalive (addPath : Bool) (l : AsnLen) (rest : Bytes) :
    encodeBgpMessage l .keepAlive = .ok (messageBytes (List.replicate 16 255) 19 4 []) ∧
    parseBgpMessage addPath l (messageBytes (List.replicate 16 255) 19 4 [] ++ rest) = .ok (.keepAlive, rest) := by
  refine ⟨by cases l <;> decide +kernel, ?_⟩
  rw [show (19 : Nat) = 19 + ([] : Bytes).length from rfl,
    parseBgpMessage_bytes addPath l _ [] rest 4 (by simp) (by simp)]
  rfl

/-- the frame of an encoded message. -/
theorem c16_message_layout (l : AsnLen) (m : BgpMessage) (b : Bytes) (h : encodeBgpMessage l m = .ok b) :
    ∃ body, encodeBody l m = .ok body ∧ b.length = 19 + body.length ∧ b.length < 65536 ∧
      b = messageBytes (List.replicate 16 255) b.length (UInt8.ofNat (msgNum m.msgType)) body := by
  unfold encodeBgpMessage at h
  cases h1 : encodeBody l m with
  | error e => rw [h1] at h; cases h
  | ok body =>
    rw [h1] at h
    dsimp only at h
    unfold checkMax at h
    by_cases hl : body.length + 16 + 2 + 1 > 65535
    · rw [if_pos hl] at h; cases h
    rw [if_neg hl] at h
    cases h
    have hlen : (List.replicate 16 (0xFF : UInt8) ++ (be16 (UInt16.ofNat (body.length + 16 + 2 + 1)) ++
        (m.msgType.toU8 :: body))).length = 19 + body.length := by simp; omega
    refine ⟨body, rfl, hlen, by rw [hlen]; omega, ?_⟩
    rw [hlen]
    have : body.length + 16 + 2 + 1 = 19 + body.length := by omega
    rw [this, n16_ofNat (by omega)]
    have : m.msgType.toU8 = UInt8.ofNat (msgNum m.msgType) := by cases m.msgType <;> rfl
    rw [this]
    simp [messageBytes]

example : MessageOk false .b32 (.update c16Update) ∧ MessageOk false .b32 (.open c17Open) ∧
    (encodeBgpMessage .b32 (.update c16Update)).isOk = true ∧ (encodeBgpMessage .b32 (.open c17Open)).isOk = true := by
  refine ⟨c16Update_ok, ⟨c17Open_ok, ?_⟩, by decide +kernel, by decide +kernel⟩
  intro b hb
  have : encodeOpen c17Open = .ok b → b.length ≤ 4077 := by
    cases h : encodeOpen c17Open with
    | error e => intro h; cases h
    | ok x =>
      intro h'
      cases h'
      have : (match encodeOpen c17Open with | .ok b => decide (b.length ≤ 4077) | .error _ => true) = true := by
        decide +kernel
      rw [h] at this
      simpa using this
  exact this hb

/-- C17 fails here: an OPEN above 4096 octets is encoded without an error, and the parser refuses it. -/
theorem c17_long_open_refused :
    ∃ m b, OpenOk m ∧ encodeBgpMessage .b32 (.open m) = .ok b ∧ ∀ x, parseBgpMessage false .b32 b ≠ .ok x := by
  obtain ⟨body, h1, h2⟩ := c17_long_open
  refine ⟨⟨4, 1, 0, #v[1, 1, 1, 1], true, [⟨9, .raw (List.replicate 5000 0)⟩]⟩, _, ⟨by decide, ?_⟩,
    (by unfold encodeBgpMessage encodeBody; dsimp only; rw [h1]; dsimp only; unfold checkMax; rw [h2]; rfl), ?_⟩
  · intro p hp
    rw [List.mem_singleton] at hp
    subst hp
    exact show (9 : UInt8) ≠ 2 by decide
  · have e : List.replicate 16 0xFF ++ (be16 (UInt16.ofNat (5016 + 16 + 2 + 1)) ++
        ((BgpMessage.open ⟨4, 1, 0, #v[1, 1, 1, 1], true, [⟨9, .raw (List.replicate 5000 0)⟩]⟩).msgType.toU8 :: body)) =
        messageBytes (List.replicate 16 0xFF) (19 + body.length) 1 body ++ [] := by
      rw [h2, n16_ofNat (by omega)]; simp [messageBytes, BgpMessage.msgType, MsgType.toU8]
    rw [e, parseBgpMessage_bytes false .b32 _ body [] 1 (by simp) (by omega)]
    intro x
    rw [show MsgType.ofU8? 1 = some .open from rfl]
    dsimp only
    rw [if_pos ⟨.inl rfl, by omega⟩]
    simp

/-! ### C19: End-of-RIB -/

/-- C19 (partial). When the MP_UNREACH_NLRI of the update, if any, holds its routes in `prefixes` (which is so for every
family except labelled, link-state and FlowSpec), it is reported as End-of-RIB exactly when it is one. -/
theorem c19_end_of_rib_partial (u : Update)
    (h : ∀ f n, ⟨f, .mpUnreach n⟩ ∈ u.attributes.inner → n.labeled = none ∧ n.linkState = none ∧ n.flowspec = none) :
    u.isEndOfRib = true ↔ EndOfRib u := by
  unfold Update.isEndOfRib EndOfRib
  cases ha : u.announced with
  | cons p ps => simp
  | nil =>
    cases hw : u.withdrawn with
    | cons p ps => simp
    | nil =>
      cases hi : u.attributes.inner with
      | nil => simp
      | cons x xs =>
        cases xs with
        | cons y ys => simp
        | nil =>
          obtain ⟨f, v⟩ := x
          cases v with
          | mpUnreach n =>
            obtain ⟨h1, h2, h3⟩ := h f n (by rw [hi]; simp)
            constructor
            · intro h0
              refine ⟨rfl, rfl, .inr ⟨f, n, rfl, ?_⟩⟩
              simp only [NlriEmpty, h1, h2, h3]
              simpa using h0
            · rintro ⟨_, _, h0 | ⟨f', n', h0, hn⟩⟩
              · cases h0
              · cases h0
                simp only [NlriEmpty, h1, h2, h3] at hn
                simpa using hn
          | _ => simp

/-- C19 fails here: a link-state withdrawal (one node NLRI) is reported as End-of-RIB. -/
theorem c19_link_state_withdrawal :
    ∃ s u, parseUpdate false .b32 s = .ok u ∧ u.isEndOfRib = true ∧ ¬ EndOfRib u := by
  refine ⟨updateBytes [] [0x80, 15, 18, 0x40, 0x04, 71, 0, 1, 0, 11, 2, 0, 0, 0, 0, 0, 0, 0, 1, 0, 0] [], _, rfl,
    by decide +kernel, ?_⟩
  rintro ⟨_, _, h | ⟨f, n, h, hn⟩⟩
  · cases h
  · cases h
    obtain ⟨_, _, h2, _⟩ := hn
    revert h2
    decide +kernel

/-- C19 fails here: an UPDATE whose announced field is malformed is reported as End-of-RIB. -/
theorem c19_malformed_nlri :
    ∃ s u, parseUpdate false .b32 s = .ok u ∧ u.isEndOfRib = true ∧ u.attributes.warnings ≠ [] :=
  ⟨updateBytes [] [] [33, 1, 2, 3, 4, 5], _, rfl, by decide +kernel, by decide +kernel⟩

example : (∀ f n, ⟨f, .mpUnreach n⟩ ∈ (⟨[], .ofList [⟨0x80, .mpUnreach ⟨.ipv6, .unicast, none, [], none, none, none⟩⟩], []⟩ : Update).attributes.inner →
      n.labeled = none ∧ n.linkState = none ∧ n.flowspec = none) ∧
    (⟨[], .ofList [⟨0x80, .mpUnreach ⟨.ipv6, .unicast, none, [], none, none, none⟩⟩], []⟩ : Update).isEndOfRib = true := by
  refine ⟨?_, by decide +kernel⟩
  intro f n h
  simp only [Attributes.ofList, List.mem_singleton] at h
  cases h
  exact ⟨rfl, rfl, rfl⟩

/-- C19. The IPv4 End-of-RIB marker, the 23-octet message with empty sections, is recognised on every session. -/
theorem c19_marker_recognised (addPath : Bool) (l : AsnLen) (rest : Bytes) :
    ∃ u, parseBgpMessage addPath l (messageBytes (List.replicate 16 255) 23 2 [0, 0, 0, 0] ++ rest) = .ok (.update u, rest) ∧
      u.isEndOfRib = true ∧ u.attributes.warnings = [] := by
  rw [show (23 : Nat) = 19 + ([0, 0, 0, 0] : Bytes).length from rfl,
    parseBgpMessage_bytes addPath l _ [0, 0, 0, 0] rest 2 (by simp) (by simp)]
  cases addPath <;> cases l <;> exact ⟨_, rfl, by decide +kernel, by decide +kernel⟩

/-! ### C50: AS numbers -/

theorem c50_private (a : Asn) : Asn.isPrivate a = true ↔ PrivateAsn a.toNat := by
  simp only [Asn.isPrivate, PrivateAsn, Bool.or_eq_true, Bool.and_eq_true, decide_eq_true_eq, UInt32.le_iff_toNat_le]
  exact Iff.rfl

theorem c50_documentation (a : Asn) : Asn.isDocumentation a = true ↔ DocumentationAsn a.toNat := by
  simp only [Asn.isDocumentation, DocumentationAsn, Bool.or_eq_true, Bool.and_eq_true, decide_eq_true_eq,
    UInt32.le_iff_toNat_le]
  exact Iff.rfl

/-- C50. `is_reserved` is true exactly of the special-purpose numbers. -/
theorem c50_reserved (a : Asn) : Asn.isReserved a = true ↔ SpecialAsn a.toNat := by
  simp only [Asn.isReserved, SpecialAsn, PrivateAsn, DocumentationAsn, Bool.or_eq_true, Bool.and_eq_true,
    decide_eq_true_eq, UInt32.le_iff_toNat_le, beq_iff_eq, ← UInt32.toNat_inj]
  simp only [UInt32.reduceToNat]
  omega

/-- C50. Equality, order and hash look at the number, not at the width it was read with. -/
theorem c50_number_only (a b : AsnRaw) :
    (a.eq b = true ↔ a.asn = b.asn) ∧ a.cmp b = compare a.asn.toNat b.asn.toNat ∧
      (a.asn = b.asn → a.hashFeed = b.hashFeed) := by
  refine ⟨by simp [AsnRaw.eq], rfl, fun h => h⟩

/-- C50. The order agrees with equality, as the ordered and hashed collections need. -/
theorem c50_order_consistent (a b : AsnRaw) : a.cmp b = .eq ↔ a.eq b = true := by
  simp only [AsnRaw.cmp, AsnRaw.eq, beq_iff_eq, Nat.compare_eq_eq]
  exact UInt32.toNat_inj

/-- C50. Two octets are required exactly for the numbers that fit. -/
theorem c50_required_len (a : Asn) : a.requiredLen = .b16 ↔ a.toNat < 65536 := by
  unfold Asn.requiredLen
  by_cases h : a.toNat ≤ 65535
  · simp [h]; omega
  · simp [h]; omega

example : Asn.isPrivate 65534 = true ∧ Asn.isPrivate 65535 = false ∧ Asn.isReserved 65535 = true ∧
    Asn.isReserved 65552 = false ∧ Asn.isReserved 23456 = true := by decide

/-! ### C51: roles -/

theorem c51_role_pairs (a b : Role) : validRolePair a b = true ↔ RolePair a b := by
  constructor
  · intro h
    cases a <;> cases b <;> first | (simp [validRolePair] at h; done) | constructor
  · intro h
    cases h <;> rfl

/-- C51. The check does not depend on which end is local. -/
theorem c51_symmetric (a b : Role) : validRolePair a b = validRolePair b a := by
  cases a <;> cases b <;> rfl

/-- C51. Every role has exactly one counterpart. -/
theorem c51_counterpart (a : Role) : ∃ b, RolePair a b ∧ ∀ c, RolePair a c → c = b := by
  cases a
  · exact ⟨.customer, .providerCustomer, fun c h => by cases h; rfl⟩
  · exact ⟨.routeServerClient, .serverClient, fun c h => by cases h; rfl⟩
  · exact ⟨.routeServer, .clientServer, fun c h => by cases h; rfl⟩
  · exact ⟨.provider, .customerProvider, fun c h => by cases h; rfl⟩
  · exact ⟨.peer, .peers, fun c h => by cases h; rfl⟩

end Verif.Props
