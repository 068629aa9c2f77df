import Verif.Spec.Bounds
import Verif.Model.Reserve
import Verif.Props.Concat
import Verif.Props.Families
import Verif.Lemmas.SpansRecord
/-
C103: what is made of an input is bounded by its size.
-/
namespace Verif.Props
open Spec

/-! ### lists of prefixes -/

theorem n16_two (n : Nat) : (n16 n).length = 2 := by simp [n16]

theorem encode_pos (p : NetworkPrefix) : 1 ≤ p.encode.length := by
  simp [NetworkPrefix.encode]; omega

theorem nlriLoop_count (afi : Afi) (ap : Bool) : ∀ (n : Nat) (cur heur : Bool) (s : Bytes) (ps : List NetworkPrefix),
    nlriLoop afi ap n cur heur s = .ok ps → ps.length ≤ s.length := by
  intro n
  induction n with
  | zero =>
    intro cur heur s ps h
    cases s with
    | nil => cases h; exact Nat.le_refl _
    | cons b bs => cases h
  | succ n ih =>
    have step : ∀ {cur heur c s p r ps}, tryParsePrefix afi c s = .ok (p, r) →
        (nlriLoop afi ap n cur heur r >>= fun ps => pure (p :: ps)) = Except.ok ps → ps.length ≤ s.length := by
      intro cur heur c s p r ps h1 h2
      obtain ⟨_, hs⟩ := tryParsePrefix_sound h1
      cases hl : nlriLoop afi ap n cur heur r with
      | error e => rw [hl] at h2; cases h2
      | ok qs =>
        rw [hl] at h2; cases h2
        have := ih _ _ _ _ hl
        have := encode_pos p
        rw [hs, List.length_append, List.length_cons]; omega
    intro cur heur s ps h
    cases s with
    | nil => cases h; exact Nat.le_refl _
    | cons b bs =>
      simp only [nlriLoop] at h
      split at h
      · next h1 => exact step h1 h
      · split at h
        · split at h
          · next h1 => exact step h1 h
          · cases h
        · cases h

theorem nlri_count {afi : Afi} {ap : Bool} {s : Bytes} {ps : List NetworkPrefix} (h : parseNlriList afi ap s = .ok ps) :
    ps.length ≤ s.length := nlriLoop_count _ _ _ _ _ _ _ h

theorem field_count (ap : Bool) (s : Bytes) : (fieldPrefixes ap s).length ≤ s.length := by
  unfold fieldPrefixes
  split
  · next h => exact nlri_count h
  · exact Nat.zero_le _

theorem many_count {p : Rd α} (hp : ∀ s a r, p s = .ok (a, r) → r.length < s.length) : ∀ (n : Nat) (s : Bytes) (l : List α),
    manyFuel p n s = .ok l → l.length ≤ s.length := by
  intro n
  induction n with
  | zero => intro s l h; cases s <;> cases h; exact Nat.le_refl _
  | succ n ih =>
    intro s l h
    cases s with
    | nil => cases h; exact Nat.le_refl _
    | cons b bs =>
      simp only [manyFuel] at h
      split at h
      · next a r h1 =>
        split at h
        · next as h2 =>
          cases h
          have := hp _ _ _ h1
          have := ih _ _ h2
          rw [List.length_cons]; omega
        · cases h
      · cases h

theorem blocks_count {R : α → Bytes → Prop} {k : Nat} (hk : ∀ a c, R a c → k ≤ c.length) {l : List α} {s : Bytes} (h : Blocks R l s) :
    k * l.length ≤ s.length := by
  induction h with
  | nil => simp
  | cons hr _ ih =>
    have := hk _ _ hr
    rw [List.length_cons, List.length_append, Nat.mul_add]; omega

/-! ### the attributes with prefixes -/

theorem rdReserved_le {reach : Bool} {s r : Bytes} (h : rdReserved reach s = .ok ((), r)) : r.length ≤ s.length := by
  cases reach with
  | false => cases h; exact Nat.le_refl _
  | true =>
    obtain ⟨x, r1, h1, h2⟩ := Rd.bind_eq_ok.1 h
    cases h2
    rw [rdU8_ok h1]; simp

theorem nlriBody_count {afi : Afi} {safi : Safi} {nh : Option NextHop} {z reach ap : Bool} {s : Bytes} {n : Nlri}
    (h : parseNlriBody afi safi nh none z reach ap s = .ok n) : n.prefixes.length ≤ s.length := by
  unfold parseNlriBody at h
  split at h
  · split at h
    · cases h
    · split at h <;> cases h
      exact Nat.zero_le _
  · split at h
    · split at h
      · split at h
        · cases h
        · split at h <;> cases h
          exact Nat.zero_le _
      · split at h
        · cases h
        · next ps hps => cases h; exact many_count (fun _ _ _ hx => rdLabeledWithdrawal_progress hx) _ _ _ hps
    · split at h
      · next hp => cases hp
      · split at h
        · cases h
        · next hr =>
          split at h
          · cases h
          · next ps hps =>
            cases h
            exact Nat.le_trans (nlri_count hps) (rdReserved_le hr)

theorem rdAfi_safe : Safe 2 rdAfi := by
  unfold rdAfi
  refine Safe.weaken (n := 2 + 0) (.bind .rdU16 fun a => ?_) (by omega)
  split
  · exact .pure _
  · exact .fail (by decide) 0

theorem rdSafi_safe : Safe 1 rdSafi := by
  unfold rdSafi
  refine Safe.weaken (n := 1 + 0) (.bind .rdU8 fun a => ?_) (by omega)
  split
  · exact .pure _
  · exact .fail (by decide) 0

theorem nlriHead_safe (z reach : Bool) : Safe 3 (rdNlriHead none none z reach) := by
  unfold rdNlriHead
  refine Safe.weaken (n := 2 + (1 + 0)) (.bind rdAfi_safe fun a => .bind rdSafi_safe fun f => ?_) (by omega)
  refine .ite (fun _ => ?_) fun _ => .pure _
  refine Safe.weaken (n := 1 + (0 + (0 + 0))) (.bind .rdU8 fun l => .bind (Safe.weaken (.rdN _) (Nat.zero_le _)) fun b =>
    .bind (.lift (parseMpNextHop_noPanic b)) fun _ => .pure _) (by omega)

theorem parseNlri_count {reach ap : Bool} {s : Bytes} {n : Nlri} (h : parseNlri none none none reach ap s = .ok n) :
    n.prefixes.length + 3 ≤ s.length := by
  unfold parseNlri at h
  dsimp only at h
  split at h
  · cases h
  · next hh =>
    have h1 := (nlriHead_safe _ _).prog _ _ _ hh
    have h2 := nlriBody_count h
    omega

/-- what one attribute of an UPDATE has of prefixes. -/
theorem decodeAttr_count {ap : Bool} {l : AsnLen} {code : UInt8} {d : Bytes} {bad : Bool} {x : AttrVal}
    (h : decodeAttr (updateCfg ap l) code d = .ok (x, bad)) (n : Nlri) (hx : x = .mpReach n ∨ x = .mpUnreach n) :
    n.prefixes.length + 3 ≤ d.length := by
  unfold decodeAttr at h
  split at h
  · cases h; rcases hx with hx | hx <;> cases hx
  split at h
  · cases h; rcases hx with hx | hx <;> cases hx
  split at h
  · cases h; rcases hx with hx | hx <;> cases hx
  split at h
  · next y hy =>
    split at h
    · cases h
    cases h
    have hc := parseAttrVal_code hy
    have key : ∀ {mk : Nlri → AttrVal} {reach : Bool} (hi : ∀ a b, mk a = mk b → a = b),
        mapOk mk (parseNlri none none none reach ap d) = .ok (mk n) → n.prefixes.length + 3 ≤ d.length := by
      intro mk reach hi hh
      cases hq : parseNlri none none none reach ap d with
      | error e => rw [hq] at hh; cases hh
      | ok m =>
        rw [hq] at hh
        simp only [mapOk, Except.ok.injEq] at hh
        rw [← hi _ _ hh]; exact parseNlri_count hq
    rcases hx with rfl | rfl
    · cases hc
      exact key (mk := .mpReach) (reach := true) (fun a b e => by cases e; rfl) hy
    · cases hc
      exact key (mk := .mpUnreach) (reach := false) (fun a b e => by cases e; rfl) hy
  · cases h
  · cases h; rcases hx with hx | hx <;> cases hx

/-! ### attribute lists -/

theorem wire_le {w : Wire} {ws : List Wire} (h : w ∈ ws) : w.value.length + 3 ≤ (wireBytes ws).length := by
  induction ws with
  | nil => cases h
  | cons v ws ih =>
    have e : (wireBytes (v :: ws)).length = v.bytes.length + (wireBytes ws).length := by simp [wireBytes]
    rw [e]
    rcases List.mem_cons.1 h with rfl | h
    · have := headBytes_length w.flag w.code w.value.length
      rw [Wire.bytes, List.length_append]; omega
    · have := ih h; omega

theorem wires_le {w v : Wire} {ws : List Wire} (h : w ∈ ws) (h' : v ∈ ws) (hne : w ≠ v) :
    w.value.length + 3 + (v.value.length + 3) ≤ (wireBytes ws).length := by
  induction ws with
  | nil => cases h
  | cons x ws ih =>
    have e : (wireBytes (x :: ws)).length = x.bytes.length + (wireBytes ws).length := by simp [wireBytes]
    have hx := headBytes_length x.flag x.code x.value.length
    have hx' : x.bytes.length = (headBytes x.flag x.code x.value.length).length + x.value.length := by rw [Wire.bytes, List.length_append]
    rw [e]
    rcases List.mem_cons.1 h with e1 | h1 <;> rcases List.mem_cons.1 h' with e2 | h2
    · exact absurd (e1.trans e2.symm) hne
    · have := wire_le h2; subst e1; omega
    · have := wire_le h1; subst e2; omega
    · have := ih h1 h2; omega

/-- the prefixes of an optional NLRI. -/
def nlriCount : Option Nlri → Nat
  | some n => n.prefixes.length
  | none => 0

theorem nlris_count {ap : Bool} {l : AsnLen} {a : Bytes} {as : Attributes} (h : parseAttributes (updateCfg ap l) a = .ok as)
    {o o' : Option Nlri} (ho : Last .mpReach as.inner o) (ho' : Last .mpUnreach as.inner o') :
    nlriCount o + nlriCount o' ≤ a.length := by
  obtain ⟨ws, r, hw, rfl, hr⟩ := attr_cut a.length a (Nat.le_refl _)
  rcases hr with hr | hr
  case inr => rw [parse_broken _ ws hw hr] at h; cases h
  rw [parse_wires _ ws hw hr] at h
  cases h
  have find : ∀ {mk : Nlri → AttrVal} (n : Nlri), Last mk (ws.map (attrOf (updateCfg ap l))) (some n) →
      ∃ w ∈ ws, (valueOf (updateCfg ap l) w).1 = mk n := by
    rintro mk n ⟨pre, x, post, e, hx, _⟩
    have : x ∈ ws.map (attrOf (updateCfg ap l)) := by rw [e]; simp
    obtain ⟨w, hw, rfl⟩ := List.mem_map.1 this
    exact ⟨w, hw, hx⟩
  have one : ∀ w n, (valueOf (updateCfg ap l) w).1 = .mpReach n ∨ (valueOf (updateCfg ap l) w).1 = .mpUnreach n →
      n.prefixes.length + 3 ≤ w.value.length := by
    intro w n hx
    exact decodeAttr_count (decodeAttr_valueOf (updateCfg ap l) w) n hx
  rw [List.length_append]
  cases o with
  | none =>
    cases o' with
    | none => exact Nat.zero_le _
    | some n =>
      obtain ⟨w, hw, hx⟩ := find n ho'
      have := one w n (.inr hx)
      have := wire_le hw
      simp only [nlriCount]; omega
  | some m =>
    obtain ⟨v, hv, hy⟩ := find m ho
    have h1 := one v m (.inl hy)
    cases o' with
    | none =>
      have := wire_le hv
      simp only [nlriCount]; omega
    | some n =>
      obtain ⟨w, hw, hx⟩ := find n ho'
      have h2 := one w n (.inr hx)
      have hne : v ≠ w := by
        rintro rfl
        rw [hx] at hy; cases hy
      have := wires_le hv hw hne
      simp only [nlriCount]; omega

/-! ### messages -/

/-- **C103** The elements of an UPDATE are at most as many as it has octets behind the two length fields. -/
theorem c103_update {ap : Bool} {l : AsnLen} {s : Bytes} {u : Update} (h : parseUpdate ap l s = .ok u) (t : Nat) (ip : Ip) (asn : Asn) :
    (updateToElems u t ip asn).length + 4 ≤ s.length := by
  obtain ⟨w, a, n, rfl, hw, ha⟩ := parseUpdate_layout h
  rw [parseUpdate_sections ap l w a n hw ha] at h
  cases hp : parseAttributes (updateCfg ap l) a with
  | error e => rw [hp] at h; cases h
  | ok as =>
    rw [hp] at h
    cases h
    have h1 := field_count ap w
    have h2 := field_count ap n
    have h3 := nlris_count hp (rel_announced _) (rel_withdrawn _)
    have h4 : (updateBytes w a n).length = w.length + a.length + n.length + 4 := by simp [updateBytes, n16_two]; omega
    rw [h4, updateToElems, UpdateIter.collect_eq]
    have h5 : relevantAttributes (checked as ap w n) =
        { relRaw as.inner with nextHop := (relRaw as.inner).nextHop.or ((relRaw as.inner).announced.bind fun n => n.nextHop.map NextHop.addr) } := rfl
    unfold updateIter UpdateIter.left
    rw [h5]
    simp only [Bool.false_eq_true, if_false, List.length_append, List.length_map]
    revert h3
    generalize (relRaw as.inner).announced = o
    generalize (relRaw as.inner).withdrawn = o'
    intro h3
    cases o <;> cases o' <;> simp only [nlriCount, List.length_nil] at h3 ⊢ <;> omega

/-- **C103** The elements of a message: 23 octets fewer. -/
theorem c103_message {ap : Bool} {l : AsnLen} {s r : Bytes} {m : BgpMessage} (h : parseBgpMessage ap l s = .ok (m, r)) (t : Nat) (ip : Ip)
    (asn : Asn) : bgpToElems m t ip asn = [] ∨ (bgpToElems m t ip asn).length + 23 + r.length ≤ s.length := by
  obtain ⟨marker, len, ty, rest, k, h1, h2, h3, rfl, _, _, h4, rfl⟩ := (parseBgpMessage_iff _ _ _ _ _).1 h
  cases m with
  | update u =>
    right
    have hu : parseUpdate ap l (rest.take (len - 19)) = .ok u := by
      cases k with
      | update =>
        simp only [parseBody] at h4
        cases hq : parseUpdate ap l (rest.take (len - 19)) with
        | error e => rw [hq] at h4; cases h4
        | ok v => rw [hq] at h4; cases h4; rfl
      | «open» => simp only [parseBody] at h4; generalize parseOpen _ = x at h4; cases x <;> cases h4
      | notification => simp only [parseBody] at h4; generalize parseNotification _ = x at h4; cases x <;> cases h4
      | keepAlive => cases h4
      | routeRefresh => simp only [parseBody] at h4; generalize parseRouteRefresh _ = x at h4; cases x <;> cases h4
    have := c103_update hu t ip asn
    have e : bgpToElems (.update u) t ip asn = updateToElems u t ip asn := rfl
    rw [e]
    simp only [List.length_append, List.length_take, List.length_drop, n16_two, List.length_singleton] at this ⊢
    omega
  | _ => exact .inl rfl

/-! ### records -/

theorem bgpRecord_count (m : BgpMessage) (t : Nat) (ip : Ip) (asn : Asn) : (bgpRecordIter m t ip asn).collect = bgpToElems m t ip asn := by
  rw [RecordIter.collect_eq]
  cases m with
  | update u => exact (UpdateIter.collect_eq _).symm
  | _ => rfl

theorem rib_count {k : V2Type} {s : Bytes} {r : RibAfi} (h : parseRibAfi k s = .ok r) : 8 * r.entries.length + 7 ≤ s.length := by
  obtain ⟨n, afi, safi, ap, pb, body, tail, c, _, _, _, hp, _, hs, hb, _⟩ := (parseRibAfi_iff _ _ _).1 h
  have h1 := blocks_count (k := 8) (fun e c he => by
    obtain ⟨pb, ab, as, _, _, rfl, _⟩ := he
    simp [n16, n32]; omega) hb
  have h2 : 1 ≤ pb.length := by
    rw [hp.2.2.2]; simp
  rw [hs]
  simp [n16, n32]; omega

theorem dumps_count {sub : UInt16} {s : Bytes} {ms : List TableDump} (h : parseTableDumps sub s = .ok ms) : 18 * ms.length + 4 ≤ s.length := by
  have key : ∀ v4 : Bool, parseTableDumps (if v4 then 1 else 2) s = .ok ms → 18 * ms.length + 4 ≤ s.length := by
    intro v4 hh
    obtain ⟨view, seq, body, _, rfl, hb⟩ := (parseTableDumps_iff v4 s ms).1 hh
    have h1 := blocks_count (k := 18) (fun m c he => by
      obtain ⟨_, _, _, _, _, _, _, _, ab, as, _, rfl, _⟩ := he
      have o1 : 4 ≤ m.prefix_.prefix_.addr.octets.length := by cases m.prefix_.prefix_.addr <;> simp [Ip.octets]
      have o2 : 4 ≤ m.peerIp.octets.length := by cases m.peerIp <;> simp [Ip.octets]
      simp [n16, n32]; omega) hb
    simp [n16]; omega
  by_cases h1 : sub = 1
  · subst h1; exact key true h
  by_cases h2 : sub = 2
  · subst h2; exact key false h
  · unfold parseTableDumps at h
    rw [if_neg (by simp [h1, h2])] at h; cases h

theorem mapOk_inv {f : α → β} {x : Except Err α} {b : β} (h : mapOk f x = .ok b) : ∃ a, x = .ok a ∧ b = f a := by
  cases x with
  | error e => cases h
  | ok a => cases h; exact ⟨a, rfl, rfl⟩

theorem legacy_count {sub : UInt16} {s : Bytes} {v : LegacyMessage} (h : parseLegacyBgp sub s = .ok (.message v)) (t : Nat) (ip : Ip) (asn : Asn) :
    (bgpToElems v.message t ip asn).length ≤ s.length := by
  by_cases hs : sub ∈ ([1, 5, 6, 7] : List UInt16)
  · obtain ⟨m, payload, e, hb, hp⟩ := (parseLegacyBgp_message sub hs s _).1 h
    cases e
    obtain ⟨p, l, _, _, _, _, rfl⟩ := hb
    have hle : (bgpToElems v.message t ip asn).length ≤ payload.length := by
      unfold parseLegacyPayload at hp
      split at hp
      · obtain ⟨u, hu, e⟩ := mapOk_inv hp
        rw [e]
        have := c103_update hu t ip asn
        show (updateToElems u t ip asn).length ≤ _
        omega
      split at hp
      · obtain ⟨u, _, e⟩ := mapOk_inv hp; rw [e]; exact Nat.zero_le _
      split at hp
      · obtain ⟨u, _, e⟩ := mapOk_inv hp; rw [e]; exact Nat.zero_le _
      split at hp
      · have e : v.message = .keepAlive := by injection hp with hp; exact hp.symm
        rw [e]; exact Nat.zero_le _
      · cases hp
    rw [List.length_append]; omega
  · by_cases h3 : sub = 3
    · subst h3
      obtain ⟨m, e, _⟩ := (parseLegacyBgp_state s _).1 h
      cases e
    · unfold parseLegacyBgp at h
      rw [if_neg (by simpa using hs), if_neg h3] at h; cases h

theorem mp_count {sub : UInt16} {s : Bytes} {v : MpMessage} (h : parseBgp4Mp sub s = .ok (.message v)) (t : Nat) (ip : Ip) (asn : Asn) :
    (bgpToElems v.message t ip asn).length ≤ s.length := by
  obtain ⟨l, ap, k, hm, _⟩ := parseBgp4Mp_message h
  obtain ⟨_, _, _, msg, r, hp, hs⟩ := (parseMpMessage_iff _ _ _ _ _).1 hm
  have hle : msg.length ≤ s.length := by
    split at hs
    · rw [hs.1, List.length_append]; exact Nat.le_add_left _ _
    · rw [hs.1, List.length_append]; exact Nat.le_add_left _ _
  rcases c103_message hp t ip asn with h1 | h1
  · rw [h1]; exact Nat.zero_le _
  · omega

/-- **C103** A record, after any history, gives at most as many elements as its body has octets; a RIB record at most one for eight octets,
a TABLE_DUMP record at most one for eighteen. -/
theorem c103_record {raw : Raw} {r : MrtRecord} (h : raw.parse = .ok r) (el : Elementor) :
    (el.recordToElems r).1.length ≤ raw.body.length ∧
    (∀ t, r.message = .tableDumpV2 t → 8 * (el.recordToElems r).1.length ≤ raw.body.length) ∧
    (raw.header.type = .tableDump → 18 * (el.recordToElems r).1.length + 4 ≤ raw.body.length) := by
  unfold Raw.parse at h
  obtain ⟨m, hb, rfl⟩ := mapOk_inv h
  unfold parseMrtBody at hb
  split at hb
  · cases hd : parseTableDumps raw.header.subtype raw.body with
    | error e => rw [hd] at hb; cases hb
    | ok ms =>
      have hc := dumps_count hd
      have : (el.recordToElems ⟨raw.header, m⟩).1.length ≤ ms.length := by
        rw [hd] at hb
        split at hb
        · cases hb
        · next x hx => cases hb; cases hx; exact Nat.le_refl 1
        · next ms' _ hx =>
          cases hb
          cases hx
          show (RecordIter.batch ms).collect.length ≤ _
          rw [RecordIter.collect_eq]
          simp [RecordIter.left]
      refine ⟨by omega, fun t ht => ?_, fun _ => by omega⟩
      omega
  · next hty =>
    obtain ⟨v, hv, rfl⟩ := mapOk_inv hb
    suffices h8 : 8 * (el.recordToElems ⟨raw.header, .tableDumpV2 v⟩).1.length ≤ raw.body.length from
      ⟨by omega, fun _ _ => h8, fun e => (by rw [hty] at e; cases e)⟩
    cases v with
    | peerIndexTable t => exact Nat.zero_le _
    | geo t => exact Nat.zero_le _
    | ribGeneric t => exact Nat.zero_le _
    | ribAfi t =>
      have hr : ∃ k, parseRibAfi k raw.body = .ok t := by
        unfold parseTableDumpV2 at hv
        split at hv
        · cases hv
        · obtain ⟨_, _, e⟩ := mapOk_inv hv; cases e
        · cases hv
        · cases hv
        · obtain ⟨_, _, e⟩ := mapOk_inv hv; cases e
        · obtain ⟨_, hr, e⟩ := mapOk_inv hv; cases e; exact ⟨_, hr⟩
      obtain ⟨k, hr⟩ := hr
      have := rib_count hr
      unfold Elementor.recordToElems Elementor.recordIter
      simp only
      split
      · next it hit =>
        cases ht : el.table with
        | none => rw [ht] at hit; cases hit
        | some table =>
          rw [ht] at hit
          cases hit
          rw [RecordIter.collect_eq]
          have := ribLeft_length table t.prefix_ t.entries
          simp only [RecordIter.left]
          omega
      · exact Nat.zero_le _
  · next hty =>
    obtain ⟨v, hv, rfl⟩ := mapOk_inv hb
    refine ⟨?_, fun t e => (by cases e), fun e => (by rw [hty] at e; cases e)⟩
    cases v with
    | stateChange _ => exact Nat.zero_le _
    | message v =>
      show (bgpRecordIter v.message raw.header.micros v.peerIp v.peerAsn).collect.length ≤ _
      rw [bgpRecord_count]; exact mp_count hv _ _ _
  · next hty =>
    obtain ⟨v, hv, rfl⟩ := mapOk_inv hb
    refine ⟨?_, fun t e => (by cases e), fun e => (by rw [hty] at e; cases e)⟩
    cases v with
    | stateChange _ => exact Nat.zero_le _
    | message v =>
      show (bgpRecordIter v.message raw.header.micros v.peerIp v.peerAsn).collect.length ≤ _
      rw [bgpRecord_count]; exact mp_count hv _ _ _
  · next hty =>
    obtain ⟨v, hv, rfl⟩ := mapOk_inv hb
    refine ⟨?_, fun t e => (by cases e), fun e => (by rw [hty] at e; cases e)⟩
    cases v with
    | stateChange _ => exact Nat.zero_le _
    | message v =>
      show (bgpRecordIter v.message raw.header.micros v.peerIp v.peerAsn).collect.length ≤ _
      rw [bgpRecord_count]; exact legacy_count hv _ _ _
  · cases hb

/-! ### files -/

def isByte : Tok → Bool
  | .byte _ => true
  | _ => false

theorem octets_toks (l : List Ev) : octetsIn l = (toks l).countP isByte := by
  induction l with
  | nil => rfl
  | cons e l ih =>
    cases e with
    | data b bs =>
      have : ∀ b : Bytes, (byteToks b).countP isByte = b.length := by
        intro b
        induction b with
        | nil => rfl
        | cons x b ih => simp only [byteToks, List.map_cons] at ih ⊢; rw [List.countP_cons_of_pos (by rfl), ih]; rfl
      simp only [octetsIn, toks, List.countP_append, this, ih, List.length_cons]
    | interrupted => exact ih
    | zero => simp only [octetsIn, toks, ih]; rw [List.countP_cons_of_neg (by simp [isByte])]
    | fail k => simp only [octetsIn, toks, ih]; rw [List.countP_cons_of_neg (by simp [isByte])]

theorem stops_toks (l : List Ev) : octetsIn l + stopsIn l = (toks l).length := by
  induction l with
  | nil => rfl
  | cons e l ih =>
    cases e <;> simp only [octetsIn, stopsIn, toks, List.length_append, List.length_cons, byteToks, List.length_map] <;> omega

theorem countP_bytes (b : Bytes) : (byteToks b).countP isByte = b.length := by
  induction b with
  | nil => rfl
  | cons x b ih => simp only [byteToks, List.map_cons] at ih ⊢; rw [List.countP_cons_of_pos (by rfl), ih]; rfl

theorem nextT_inv_ok {k : Option Bool} {t t' : List Tok} {r : MrtRecord} (h : nextT k t = (.ok r, t')) :
    ∃ raw : Raw, raw.parse = .ok r ∧ 12 + raw.body.length ≤ raw.bytes.length ∧ t = byteToks raw.bytes ++ t' := by
  unfold nextT at h
  split at h
  · cases h
  · next raw t1 hc =>
    split at h
    · next hp =>
      cases h
      obtain ⟨hf, e⟩ := chunkT_ok hc
      refine ⟨raw, hp, ?_, e⟩
      have := HeaderBytes_ge hf.1
      rw [Raw.bytes, List.length_append]; omega
    · cases h

theorem nextT_octets {k : Option Bool} {t t' : List Tok} {x : Except RecErr MrtRecord} (h : nextT k t = (x, t')) :
    t'.countP isByte ≤ t.countP isByte := by
  unfold nextT at h
  split at h
  · next er t1 hc =>
    cases h
    rcases chunkT_error hc with ⟨b, _, e, _⟩ | ⟨b, e', st, _, e, _⟩ <;> rw [e] <;> simp only [List.countP_append] <;> omega
  · next raw t1 hc =>
    obtain ⟨_, e⟩ := chunkT_ok hc
    have : t1 = t' := by split at h <;> (cases h; rfl)
    rw [e, this, List.countP_append]; omega

theorem recsD_count {cd : Bool} {k : Option Bool} {t : List Tok} {l : List Item} (h : RecsD cd k t l) : ∀ el : Elementor,
    (elemItems el l).length + 12 * l.length ≤ t.countP isByte := by
  induction h with
  | @ok t r t' l hc _ ih =>
    intro el
    obtain ⟨raw, hp, hl, e⟩ := nextT_inv_ok hc
    have h1 := (c103_record hp el).1
    have h2 := ih (el.recordToElems r).2
    rw [e, List.countP_append, countP_bytes]
    simp only [elemItems, List.length_append, List.length_map, List.length_cons]
    omega
  | skip hc _ _ ih => intro el; exact Nat.le_trans (ih el) (nextT_octets hc)
  | stop _ _ => intro el; exact Nat.zero_le _

theorem recsF_count {k : Option Bool} (hk : k ≠ some false) {t : List Tok} {l : List Item} (h : RecsF k t l) : ∀ el : Elementor,
    (elemItems el l).length ≤ t.length := by
  induction h with
  | @ok t r t' l hc _ ih =>
    intro el
    obtain ⟨raw, hp, hl, e⟩ := nextT_inv_ok hc
    have h1 := (c103_record hp el).1
    have h2 := ih (el.recordToElems r).2
    rw [e, List.length_append, byteToks_length]
    simp only [elemItems, List.length_append, List.length_map]
    omega
  | @error t e t' l hc he _ ih =>
    intro el
    have h2 := ih el
    have hp := fallibleT_progress keepAll k hk t.length () t _ (Nat.le_refl _) rfl
    rw [fallibleT_of_error keepAll () hc, if_neg he] at hp
    have h3 : t'.length + 1 ≤ t.length := hp rfl
    simp only [elemItems, List.length_cons]; omega
  | stop _ _ => intro el; exact Nat.zero_le _

/-- **C103** Of a reader the default iterators take out at most one record for twelve octets, and at most one element for one octet; the headers
of the records do not count. A loop that has asked as often as there are octets, and once more, has seen the end. -/
theorem c103_file (env : TextEnv) (fs : List (Filter env.Rx)) (cd : Bool) (pol pol' : Pol) (s : Src) (n m : Nat) :
    (forLoop (elemNext env fs cd pol) n (ElemIter.new s)).1.length + 12 * (forLoop (defaultIter keepAll cd pol') m ((), s)).1.length ≤ octetsIn s.evs ∧
    (octetsIn s.evs < n → (forLoop (elemNext env fs cd pol) n (ElemIter.new s)).2.1 = true) ∧
    (octetsIn s.evs < m → (forLoop (defaultIter keepAll cd pol') m ((), s)).2.1 = true) := by
  obtain ⟨items, hi, _⟩ := recsD_exists cd s.stuck _ (toks s.evs) (Nat.le_refl _)
  obtain ⟨l, rfl⟩ := recsD_all hi
  have hr : ∀ pol, HandsOut (defaultIter keepAll cd pol) ((), s) l := fun pol => records_handsOut hi
  have he := elems_handsOut env fs (hr pol)
  have hc := recsD_count hi (after [])
  rw [elemItems_after, elemsFromItems_ok, List.length_map, List.length_map, ← octets_toks] at hc
  have hf := List.length_filter_le (fun e : BgpElem => e.matchFilters env fs) (elemsFrom [] l)
  refine ⟨?_, fun h => (he n).2.2 (by omega), fun h => (hr pol' m).2.2 (by omega)⟩
  rw [(he n).1, (hr pol' m).1, List.length_take, List.length_take]
  omega

/-- **C103** Of the elements and errors of the fallible iterator there are at most as many as the reader has octets, ends and failures, if it does
not fail for ever. -/
theorem c103_fallible (env : TextEnv) (fs : List (Filter env.Rx)) (pol : Pol) (s : Src) (hs : s.stuck ≠ some false) (n : Nat) :
    (forLoop (fallibleElemNext env fs pol) n (ElemIter.new s)).1.length ≤ octetsIn s.evs + stopsIn s.evs ∧
    (octetsIn s.evs + stopsIn s.evs < n → (forLoop (fallibleElemNext env fs pol) n (ElemIter.new s)).2.1 = true) := by
  obtain ⟨items, hi, hl⟩ := recsF_exists s.stuck hs _ (toks s.evs) (Nat.le_refl _)
  obtain ⟨h1, h2⟩ := c37_fallible_elems env fs pol pol s hs ((toks s.evs).length + 1) (by omega) n
  rw [handsOut_full (fallible_handsOut hi) (by omega)] at h1 h2
  have hc := recsF_count hs hi (after [])
  rw [elemItems_after, ← stops_toks] at hc
  generalize hg : (fun x : Except RecErr BgpElem => match x with | .ok e => e.matchFilters env fs | .error _ => true) = g at h1 h2
  have hf := List.length_filter_le g (elemsFromItems [] items)
  refine ⟨?_, fun h => h2.2 (by omega)⟩
  rw [h1, List.length_take]
  omega

theorem rawsD_count {cd : Bool} {k : Option Bool} {t : List Tok} {l : List Raw} (h : RawsD cd k t l) :
    (l.flatMap Raw.bytes).length ≤ t.countP isByte ∧ 12 * l.length ≤ (l.flatMap Raw.bytes).length := by
  induction h with
  | ok hc _ ih =>
    obtain ⟨hf, e⟩ := chunkT_ok hc
    have := Frame_length hf
    rw [e, List.countP_append, countP_bytes, List.flatMap_cons, List.length_append, List.length_cons]
    omega
  | skip hc _ _ ih =>
    refine ⟨Nat.le_trans ih.1 ?_, ih.2⟩
    rcases chunkT_error hc with ⟨b, _, e, _⟩ | ⟨b, e', st, _, e, _⟩ <;> rw [e] <;> simp only [List.countP_append] <;> omega
  | stop _ _ => exact ⟨Nat.zero_le _, Nat.le_refl _⟩

/-- **C103** The raw records of a reader have together at most as many octets as it has, and each has at least twelve. -/
theorem c103_raw (cd : Bool) (pol : Pol) (s : Src) (n : Nat) :
    let rs := (forLoop (rawIter cd pol) n s).1
    (rs.flatMap Raw.bytes).length ≤ octetsIn s.evs ∧ 12 * rs.length ≤ (rs.flatMap Raw.bytes).length ∧
      (octetsIn s.evs < 12 * n → (forLoop (rawIter cd pol) n s).2.1 = true) := by
  obtain ⟨l, hl, hle⟩ := rawsD_exists cd s.stuck _ (toks s.evs) (Nat.le_refl _)
  obtain ⟨h1, h2⟩ := forLoop_raws pol s hl n
  have hc := rawsD_count hl
  rw [← octets_toks] at hc
  have hm : ∀ l : List Raw, (∀ r ∈ l, 12 ≤ r.bytes.length) → 12 * l.length ≤ (l.flatMap Raw.bytes).length := by
    intro l
    induction l with
    | nil => intro _; exact Nat.le_refl _
    | cons r l ih =>
      intro h
      have := ih fun x hx => h x (List.mem_cons_of_mem _ hx)
      have := h r List.mem_cons_self
      rw [List.flatMap_cons, List.length_append, List.length_cons]; omega
  have hall : ∀ r ∈ l, 12 ≤ r.bytes.length := by
    clear h1 h2 hc hm hle
    generalize toks s.evs = t at hl
    induction hl with
    | ok hc _ ih =>
      intro x hx
      rcases List.mem_cons.1 hx with rfl | hx
      · exact Frame_length (chunkT_ok hc).1
      · exact ih x hx
    | skip _ _ _ ih => exact ih
    | stop _ _ => intro x hx; cases hx
  simp only
  rw [h1]
  refine ⟨?_, hm _ fun r hr => hall r (List.mem_of_mem_take hr), fun h => h2.2 (by omega)⟩
  have e : l.flatMap Raw.bytes = (l.take n).flatMap Raw.bytes ++ (l.drop n).flatMap Raw.bytes := by
    rw [← List.flatMap_append, List.take_append_drop]
  have := congrArg List.length e
  rw [List.length_append] at this
  omega

/-! ### reserved memory -/

/-- **C103** The room reserved for the entries of a RIB record is at least what they need, and at most twice what the rest of the record could
hold, whatever number of entries it announces. -/
theorem c103_reserve {t : V2Type} {s : Bytes} {r : RibAfi} (h : parseRibAfi t s = .ok r) :
    ∃ afi pb k rest, PrefixBytes afi r.prefix_.prefix_ pb ∧ s = n32 r.seq.toNat ++ pb ++ n16 k ++ rest ∧ k < 65536 ∧
      2 * r.entries.length ≤ ribReserve t.addPath k rest.length ∧
      (if t.addPath then 12 else 8) * ribReserve t.addPath k rest.length ≤ 2 * rest.length ∧
      ribReserve t.addPath k rest.length ≤ 2 * k := by
  obtain ⟨n, afi, safi, ap, pb, body, tail, k, hf, _, _, hp, hk, hs, hb, hn⟩ := (parseRibAfi_iff _ _ _).1 h
  have hap : t.addPath = ap := (ribFamily_family _ _ _ _ _ hf).2.1
  have h1 := blocks_count (k := if ap then 12 else 8) (fun e c he => by
    obtain ⟨pb, ab, as, hpb, _, rfl, _⟩ := he
    cases ap with
    | false => simp [n16, n32]; omega
    | true =>
      obtain ⟨i, rfl⟩ : ∃ i, pb = n32 i := by
        cases hi : e.pathId with
        | none => rw [hi] at hpb; cases hpb.1
        | some i => rw [hi] at hpb; exact ⟨_, hpb.2⟩
      simp [n16, n32]) hb
  refine ⟨afi, pb, k, body ++ tail, hp, by rw [hs]; simp, hk, ?_, ?_, ?_⟩ <;> rw [hap] <;> cases ap <;>
    simp only [ribReserve, ribEntryMinLen, Bool.false_eq_true, if_true, if_false, List.length_append] at h1 ⊢ <;>
    (try rcases hn with hn | hn) <;> omega

/-! ### examples -/

/-- The bound of `c103_update` is met: seven default routes in seven octets. -/
example : (parseUpdate false .b32 (updateBytes [0, 0, 0] [] [0, 0, 0, 0])).map
    (fun u => (updateToElems u 0 (.v4 #v[1, 2, 3, 4]) 7).length) = .ok 7 ∧ (updateBytes [0, 0, 0] [] [0, 0, 0, 0]).length = 11 := by decide +kernel

example : octetsIn [.data 1 [2, 3], .interrupted, .zero, .data 4 []] = 4 ∧ stopsIn [.data 1 [2, 3], .interrupted, .zero, .data 4 []] = 1 := by decide

end Verif.Props
