import Verif.Lemmas.RewriteMp
import Verif.Props.Attr
import Verif.Props.Bounds
/-
One attribute value, read and written.
-/
namespace Verif
open Spec

theorem octets_zero {a : Ip} {n : Nat} (h : ∀ i, ∀ hi : i < a.octets.length, a.octets[i] = 0) (hn : a.octets.length = n) :
    a.octets = List.replicate n 0 := by
  apply List.ext_getElem
  · simp [hn]
  · intro i h1 h2
    rw [h i h1]; simp

theorem single_again {afi : Afi} {p : NetworkPrefix} {b : Bytes} (ha : afi ≠ .linkState) (hp : PrefixBytes afi p.prefix_ b)
    (hn : p.pathId = none) : parseNlriList afi false (encodeNlri [p]) = .ok [p] := by
  obtain ⟨h1, h2, h3, _⟩ := hp
  by_cases hl : p.prefix_.len = 0
  · obtain ⟨⟨a, l⟩, pid⟩ := p
    simp only at hl hn h1 h3
    subst hl hn
    have hz : ∀ i, ∀ hi : i < a.octets.length, a.octets[i] = 0 := fun i hi => h3 i (by simp) hi
    cases afi with
    | linkState => exact absurd rfl ha
    | ipv4 =>
      cases a with
      | v6 o => exact absurd h1 id
      | v4 o =>
        have : o = v4zero := by
          apply Vector.toList_inj.mp
          exact octets_zero (a := .v4 o) hz (by simp [Ip.octets])
        subst this
        decide +kernel
    | ipv6 =>
      cases a with
      | v4 o => exact absurd h1 id
      | v6 o =>
        have : o = v6zero := by
          apply Vector.toList_inj.mp
          exact octets_zero (a := .v6 o) hz (by simp [Ip.octets])
        subst this
        decide +kernel
  · exact Props.c01_nlri_roundtrip afi false [p] (by simp; exact ⟨h1, h2, h3, by simp [hn]⟩) (by simpa using hl)

theorem encodeNlri_single_length {p : NetworkPrefix} (hn : p.pathId = none) : (encodeNlri [p]).length ≤ 17 := by
  unfold encodeNlri NetworkPrefix.encode
  have : p.prefix_.addr.octets.length ≤ 16 := by cases p.prefix_.addr <;> simp [Ip.octets]
  simp [hn, encPathId, List.length_take]; omega

/-- the two kinds of parameters. -/
theorem readCfg_cases {cfg : AttrCfg} (h : ReadCfg cfg) :
    (cfg.afi = none ∧ cfg.safi = none ∧ cfg.prefixes = none) ∨
    ∃ afi safi p b, cfg.afi = some afi ∧ cfg.safi = some safi ∧ cfg.prefixes = some [p] ∧ afi ≠ .linkState ∧
      safi ≠ .mplsLabel ∧ p.pathId = none ∧ PrefixBytes afi p.prefix_ b := by
  cases h with
  | session ap l => exact .inl ⟨rfl, rfl, rfl⟩
  | @rib t n afi safi ap p b hr hp hn =>
    refine .inr ⟨afi, safi, p, b, rfl, rfl, rfl, ?_, ?_, hn, hp⟩
    · rintro rfl; cases t <;> simp [ribFamily] at hr
    · rintro rfl; cases t <;> simp [ribFamily] at hr

/-- what the written NLRI attribute needs besides `NlriRewritable`. -/
def MpOk (cfg : AttrCfg) (reach : Bool) (n : Nlri) : Prop :=
  (reach = true → n.nextHop ≠ none) ∧ (reach = false → n.safi = .mplsLabel → n.prefixes = []) ∧
    NlriRewritable cfg.addPath n

/-- facts about NLRI that were read: from the input in full, or in the abbreviated form of RIB entries. -/
theorem mp_inv {cfg : AttrCfg} (hc : ReadCfg cfg) {reach : Bool} {d : Bytes} {n : Nlri}
    (h : parseNlri cfg.afi cfg.safi cfg.prefixes reach cfg.addPath d = .ok n) :
    n.flowspec = none ∧ (reach = false → n.nextHop = none) ∧
    ((cfg.afi = none ∧ cfg.safi = none ∧ cfg.prefixes = none) ∨ n.afi ≠ .linkState) ∧
    ((∃ z s, (cfg.prefixes = none ∨ z = true) ∧ FromInput cfg.afi cfg.safi z ∧
      rdNlriHead cfg.afi cfg.safi z reach d = .ok ((n.afi, n.safi, n.nextHop), s) ∧
      parseNlriBody n.afi n.safi n.nextHop cfg.prefixes z reach cfg.addPath s = .ok n) ∨
     (∃ p b, n.prefixes = [p] ∧ p.pathId = none ∧ n.safi ≠ .mplsLabel ∧ n.afi ≠ .linkState ∧ PrefixBytes n.afi p.prefix_ b ∧
        n = ⟨n.afi, n.safi, n.nextHop, [p], none, none, none⟩)) := by
  unfold parseNlri at h
  simp only at h
  generalize hz : (d.head? == some 0) = z at h
  cases hh : rdNlriHead cfg.afi cfg.safi z reach d with
  | error e => rw [hh] at h; cases h
  | ok v =>
    obtain ⟨⟨a, f, nh⟩, s⟩ := v
    rw [hh] at h
    simp only at h
    rcases readCfg_cases hc with ⟨c1, c2, c3⟩ | ⟨afi, safi, p, b, c1, c2, c3, ha, hm, hp, hb⟩
    · have hi : FromInput cfg.afi cfg.safi z := .inl ⟨c1, c2⟩
      obtain ⟨e1, e2, e3, e4, _⟩ := body_inv (.inl c3) h
      refine ⟨e4, ?_, .inl ⟨c1, c2, c3⟩, .inl ⟨z, s, .inl c3, hi, ?_, ?_⟩⟩
      · rw [e3]; exact (head_inv hi hh).1
      · rw [hh, e1, e2, e3]
      · rw [e1, e2, e3]; exact h
    · cases z with
      | true =>
        have hi : FromInput cfg.afi cfg.safi true := .inr rfl
        obtain ⟨e1, e2, e3, e4, _⟩ := body_inv (.inr rfl) h
        obtain ⟨t, ht⟩ := (head_inv hi hh).2.2
        have haz : a ≠ .linkState := by
          rw [ht, afi_head] at hz
          simpa using hz
        refine ⟨e4, ?_, .inr (by rw [e1]; exact haz), .inl ⟨true, s, .inr rfl, hi, ?_, ?_⟩⟩
        · rw [e3]; exact (head_inv hi hh).1
        · rw [hh, e1, e2, e3]
        · rw [e1, e2, e3]; exact h
      | false =>
        rw [c1, c2] at hh
        unfold rdNlriHead at hh
        rw [show rdAfiOr (some afi) false = pure afi from rfl, show rdSafiOr (some safi) false = pure safi from rfl] at hh
        rw [Rd.bind_eq_ok] at hh; obtain ⟨a', s1, h1, hh⟩ := hh
        cases h1
        rw [Rd.bind_eq_ok] at hh; obtain ⟨f', s2, h2, hh⟩ := hh
        cases h2
        have hfam : a = afi ∧ f = safi ∧ (reach = false → nh = none) := by
          cases reach with
          | false => simp only [Bool.false_eq_true, if_false] at hh; cases hh; exact ⟨rfl, rfl, fun _ => rfl⟩
          | true =>
            simp only [if_true] at hh
            rw [Rd.bind_eq_ok] at hh; obtain ⟨l, s3, h3, hh⟩ := hh
            rw [Rd.bind_eq_ok] at hh; obtain ⟨bb, s4, h4, hh⟩ := hh
            rw [Rd.bind_eq_ok] at hh; obtain ⟨nh', s5, h5, hh⟩ := hh
            cases hh
            exact ⟨rfl, rfl, by simp⟩
        obtain ⟨rfl, rfl, hnh⟩ := hfam
        unfold parseNlriBody at h
        rw [if_neg (fun h => ha h.1), if_neg hm, c3] at h
        cases h
        exact ⟨rfl, hnh, .inr ha, .inr ⟨p, b, rfl, hp, hm, ha, hb, rfl⟩⟩

theorem head_eq (n : Nlri) (x : Bytes) : (be16 n.afi.toU16 ++ x).head? = (be16 n.afi.toU16).head? := rfl

theorem mp_fwd {cfg : AttrCfg} (hc : ReadCfg cfg) {reach : Bool} {d : Bytes} {n : Nlri}
    (h : parseNlri cfg.afi cfg.safi cfg.prefixes reach cfg.addPath d = .ok n) (hk : MpOk cfg reach n) :
    ∃ b, encodeMpNlri n reach (apOf n) = .ok b ∧ parseNlri cfg.afi cfg.safi cfg.prefixes reach cfg.addPath b = .ok n ∧
      b.length ≤ max d.length 70 := by
  obtain ⟨hf, hnh, hfam, hcase⟩ := mp_inv hc h
  have hsome : n.nextHop.isSome = reach := by
    cases reach with
    | true => cases hn : n.nextHop with
      | none => exact absurd hn (hk.1 rfl)
      | some x => rfl
    | false => rw [hnh rfl]; rfl
  have key : ∀ nhb X, encNextHop n.nextHop = .ok nhb →
      (∀ pfx' z', (pfx' = none ∨ z' = true) →
        parseNlriBody n.afi n.safi n.nextHop pfx' z' reach cfg.addPath (resOf reach ++ X) = .ok n) →
      parseNlri cfg.afi cfg.safi cfg.prefixes reach cfg.addPath
        (be16 n.afi.toU16 ++ ([n.safi.toU8] ++ (nhb ++ (resOf reach ++ X)))) = .ok n := by
    intro nhb X hn hb
    unfold parseNlri
    simp only [afi_head]
    rcases hfam with ⟨c1, c2, c3⟩ | hne
    · rw [head_again (.inl ⟨c1, c2⟩) reach hsome hn]
      simp only
      exact hb _ _ (.inl c3)
    · rw [head_again (.inr (by simpa using hne)) reach hsome hn]
      simp only
      exact hb _ _ (.inr (by simpa using hne))
  rcases hcase with ⟨z, s, hz, hi, hh, hb⟩ | ⟨p, pb, hps, hpn, hm, ha, hpb, hn⟩
  · obtain ⟨_, _, _, _, r0, t, rfl, hr0, _, _, hback⟩ := body_inv hz hb
    obtain ⟨X, hX, hXl, hagain⟩ := hback hk.2.2 hk.2.1
    obtain ⟨nhb, hnb, hd⟩ := (head_inv hi hh).2.1 hsome
    refine ⟨_, (encodeMpNlri_ok hf).mpr ⟨nhb, X, hnb, hX, rfl⟩, key nhb X hnb hagain, ?_⟩
    rw [hd]; simp only [List.length_append, hr0]; omega
  · have hap : cfg.addPath = false := by
      cases hA : cfg.addPath with
      | false => rfl
      | true => exact absurd hpn (hk.2.2.path hA p (by simp [hps]))
    obtain ⟨nhb, hnb, hnl⟩ : ∃ nhb, encNextHop n.nextHop = .ok nhb ∧ nhb.length ≤ 49 := by
      cases hx : n.nextHop with
      | none => exact ⟨[], rfl, by simp⟩
      | some x => exact ⟨_, encNextHop_some x, by have := nextHop_bytes_le x; simp; omega⟩
    have hX : mpTail n = .ok (encodeNlri [p]) := by
      unfold mpTail; rw [if_neg hm, if_neg ha, hps]
    refine ⟨_, (encodeMpNlri_ok hf).mpr ⟨nhb, _, hnb, hX, rfl⟩, key nhb _ hnb ?_, ?_⟩
    · intro pfx' z' hz'
      have hres : rdReserved reach (resOf reach ++ encodeNlri [p]) = .ok ((), encodeNlri [p]) := by cases reach <;> rfl
      unfold parseNlriBody
      rw [if_neg (fun h => ha h.1), if_neg hm, hap]
      have hs := single_again ha hpb hpn
      conv => rhs; rw [hn]
      rcases hz' with rfl | rfl
      · simp only [hres, hs]
      · cases pfx' <;> simp only [hres, hs]
    · have := encodeNlri_single_length hpn
      have : (resOf reach).length ≤ 1 := by cases reach <;> simp [resOf]
      simp only [List.length_append, List.length_cons, List.length_nil, be16]; omega

theorem mp_conv {cfg : AttrCfg} (hc : ReadCfg cfg) {reach : Bool} {d b : Bytes} {n : Nlri}
    (h : parseNlri cfg.afi cfg.safi cfg.prefixes reach cfg.addPath d = .ok n) (he : encodeMpNlri n reach (apOf n) = .ok b)
    (hb : parseNlri cfg.afi cfg.safi cfg.prefixes reach cfg.addPath b = .ok n) : MpOk cfg reach n := by
  obtain ⟨hf, hnh, hfam, _⟩ := mp_inv hc h
  obtain ⟨nhb, t, hn, ht, rfl⟩ := (encodeMpNlri_ok hf).mp he
  have hi : FromInput cfg.afi cfg.safi (decide (n.afi ≠ .linkState)) := by
    rcases hfam with ⟨c1, c2, _⟩ | hne
    · exact .inl ⟨c1, c2⟩
    · exact .inr (by simpa using hne)
  have hz : cfg.prefixes = none ∨ decide (n.afi ≠ .linkState) = true := by
    rcases hfam with ⟨_, _, c3⟩ | hne
    · exact .inl c3
    · exact .inr (by simpa using hne)
  unfold parseNlri at hb
  simp only [afi_head] at hb
  by_cases hs : n.nextHop.isSome = reach
  · rw [head_again hi reach hs hn] at hb
    simp only at hb
    obtain ⟨_, _, _, _, r0, t', e1, e2, _, e4, _⟩ := body_inv hz hb
    obtain ⟨rfl, rfl⟩ := List.append_inj e1 e2.symm
    obtain ⟨g1, g2⟩ := e4 ht
    refine ⟨?_, g2, g1⟩
    rintro rfl hx
    rw [hx] at hs; cases hs
  · exfalso
    cases reach with
    | false => exact hs (by rw [hnh rfl]; rfl)
    | true =>
      have hx : n.nextHop = none := by
        cases hx : n.nextHop with
        | none => rfl
        | some x => exact absurd (by rw [hx]; rfl) hs
      rw [hx] at hn
      cases hn
      rw [show ([] : Bytes) ++ (resOf true ++ t) = 0 :: t from rfl, head_none hi] at hb
      simp only at hb
      obtain ⟨_, _, _, _, r0, t', rfl, e2, e3, _⟩ := body_inv hz hb
      have := e3 _ ht
      simp [resOf] at this e2
      omega

theorem unreach_plain {afi : Option Afi} {safi : Option Safi} {pfx : Option (List NetworkPrefix)} {ap : Bool} {d : Bytes}
    {n : Nlri} (h : parseNlri afi safi pfx false ap d = .ok n) : n.labeled = none := by
  unfold parseNlri at h
  simp only at h
  generalize (d.head? == some 0) = z at h
  cases hh : rdNlriHead afi safi z false d with
  | error e => rw [hh] at h; cases h
  | ok v =>
    obtain ⟨⟨a, f, nh⟩, s⟩ := v
    rw [hh] at h
    simp only at h
    unfold parseNlriBody at h
    by_cases h1 : a = .linkState ∧ (f = .linkState ∨ f = .linkStateVpn)
    · rw [if_pos h1] at h
      cases hr : rdReserved false s with
      | error e => rw [hr] at h; cases h
      | ok w =>
        obtain ⟨⟨⟩, t⟩ := w
        rw [hr] at h
        simp only at h
        cases hp : parseLsNlri t with
        | error e => rw [hp] at h; cases h
        | ok ls => rw [hp] at h; cases h; rfl
    rw [if_neg h1] at h
    have plain : ∀ {t : Bytes}, (match parseNlriList a ap t with
          | .error e => .error e
          | .ok ps => .ok ⟨a, f, nh, ps, none, none, none⟩ : Except Err Nlri) = .ok n → n.labeled = none := by
      intro t h
      cases hp : parseNlriList a ap t with
      | error e => rw [hp] at h; cases h
      | ok ps => rw [hp] at h; cases h; rfl
    by_cases h2 : f = .mplsLabel
    · rw [if_pos h2] at h
      simp only [Bool.false_eq_true, if_false] at h
      cases hp : parseLabeledWithdrawals a ap s with
      | error e => rw [hp] at h; cases h
      | ok ps => rw [hp] at h; cases h; rfl
    · rw [if_neg h2] at h
      split at h
      · cases h; rfl
      · cases hr : rdReserved false s with
        | error e => rw [hr] at h; cases h
        | ok w =>
          obtain ⟨⟨⟩, t⟩ := w
          rw [hr] at h
          simp only at h
          exact plain h

/-! ### the other values -/

theorem encodeAggregator_back (l : AsnLen) (a : Asn) (i : V4) :
    ((∃ b, encodeAggregator l a i = .ok b) ↔ (l = .b16 → a.toNat < 65536)) ∧
    ∀ b, encodeAggregator l a i = .ok b → b.length ≤ 8 := by
  unfold encodeAggregator
  cases l with
  | b32 => simp [be32]
  | b16 =>
    by_cases h : a.toNat ≤ 65535
    · have hk : checkMax a.toNat 65535 = .ok a.toNat := checkMax_ok.mpr ⟨h, rfl⟩
      rw [hk]
      simp only
      refine ⟨⟨fun _ _ => by omega, fun _ => ⟨_, rfl⟩⟩, ?_⟩
      intro b hb; cases hb; simp [be16]
    · cases hc : checkMax a.toNat 65535 with
      | ok u => exact absurd (checkMax_ok.mp hc).1 h
      | error e => simp; omega

theorem parseTrafficEng_back {d : Bytes} {t : TrafficEng} (h : parseTrafficEng d = .ok t) :
    (encodeTrafficEng t).length ≤ max d.length 70 := by
  unfold parseTrafficEng at h
  by_cases h36 : d.length < 36
  · rw [if_pos h36] at h; cases h
  rw [if_neg h36] at h
  obtain ⟨r, h⟩ := runOn_inv h
  rw [Rd.bind_eq_ok] at h; obtain ⟨x1, s1, h1, h⟩ := h
  rw [Rd.bind_eq_ok] at h; obtain ⟨x2, s2, h2, h⟩ := h
  rw [Rd.bind_eq_ok] at h; obtain ⟨x3, s3, h3, h⟩ := h
  rw [Rd.bind_eq_ok] at h; obtain ⟨x4, s4, h4, h⟩ := h
  rw [Rd.bind_eq_ok] at h; obtain ⟨x5, s5, h5, h⟩ := h
  rw [Rd.bind_eq_ok] at h; obtain ⟨x6, s6, h6, h⟩ := h
  rw [Rd.bind_eq_ok] at h; obtain ⟨x7, s7, h7, h⟩ := h
  rw [Rd.bind_eq_ok] at h; obtain ⟨x8, s8, h8, h⟩ := h
  rw [Rd.bind_eq_ok] at h; obtain ⟨x9, s9, h9, h⟩ := h
  rw [Rd.bind_eq_ok] at h; obtain ⟨x10, s10, h10, h⟩ := h
  rw [Rd.bind_eq_ok] at h; obtain ⟨x11, s11, h11, h⟩ := h
  rw [Rd.bind_eq_ok] at h; obtain ⟨x12, s12, h12, h⟩ := h
  cases h12
  cases h
  rw [rdU8_ok h1, rdU8_ok h2, rdU16_ok h3, rdU32_ok h4, rdU32_ok h5, rdU32_ok h6, rdU32_ok h7, rdU32_ok h8, rdU32_ok h9,
    rdU32_ok h10, rdU32_ok h11]
  simp [encodeTrafficEng, be16, be32]
  omega

theorem parseBfd_back {d : Bytes} {t : Bfd} (h : parseBfd d = .ok t) :
    ∃ b, encodeBfd t = .ok b ∧ b.length ≤ d.length := by
  unfold parseBfd at h
  by_cases h5 : d.length < 5
  · rw [if_pos h5] at h; cases h
  rw [if_neg h5] at h
  cases hh : (do let m ← rdU8; let d ← rdU32; pure (m, d) : Rd (UInt8 × UInt32)) d with
  | error e => rw [hh] at h; cases h
  | ok v =>
    obtain ⟨⟨m, x⟩, r⟩ := v
    rw [hh] at h
    simp only at h
    cases hm : many rdTlv8 r with
    | error e => rw [hm] at h; cases h
    | ok ts =>
      rw [hm] at h
      cases h
      obtain ⟨bs, hb, hl⟩ := encAll_of_many (Q := fun _ => True) (fun s a r h _ => rdTlv8_back h) hm (fun _ _ => trivial)
      refine ⟨m :: (be32 x ++ bs), by unfold encodeBfd; rw [hb], ?_⟩
      rw [Rd.bind_eq_ok] at hh; obtain ⟨x1, s1, h1, hh⟩ := hh
      rw [Rd.bind_eq_ok] at hh; obtain ⟨x2, s2, h2, hh⟩ := hh
      cases hh
      rw [rdU8_ok h1, rdU32_ok h2]
      simp [be32]; omega

theorem parseAigp_back {d : Bytes} {ts : List AigpTlv} (h : parseAigp d = .ok ts) :
    (∀ t ∈ ts, t.length.toNat = t.value.length + 3) ∧ (encodeAigp ts).length ≤ d.length := by
  refine ⟨many_all (fun _ _ _ h => (rdAigp_back h).1) h, ?_⟩
  obtain ⟨bs, hb, hl⟩ := encAll_of_many (f := fun t => .ok (encAigp t)) (Q := fun _ => True)
    (fun s a r h _ => ⟨_, rfl, by rw [(rdAigp_back h).2]; exact Nat.le_refl _⟩) h (fun _ _ => trivial)
  have : ∀ (ts : List AigpTlv) (bs : Bytes), encAll (fun t => .ok (encAigp t)) ts = .ok bs → encodeAigp ts = bs := by
    intro ts
    induction ts with
    | nil => intro bs h; cases h; rfl
    | cons t ts ih =>
      intro bs h
      obtain ⟨b, c, h1, h2, h3⟩ := encAll_cons_ok.mp h
      cases h1
      rw [h3, ← ih _ h2]; rfl
  rw [this _ _ hb]; exact hl

/-- every value but the multi-protocol ones. -/
theorem plain_back {cfg : AttrCfg} (hc : ReadCfg cfg) {c : UInt8} {d : Bytes} {v : AttrVal} (h : parseAttrVal cfg c d = .ok v)
    (h14 : c ≠ 14) (h15 : c ≠ 15) :
    AttrValOk cfg v ∧ ((∃ b, encodeAttrVal cfg.asnLen v = .ok b) ↔ Rewritable cfg v) ∧
    ∀ b, encodeAttrVal cfg.asnLen v = .ok b → b.length ≤ max d.length 70 := by
  have hafi : cfg.afi.getD .ipv4 ≠ .linkState := by
    rcases readCfg_cases hc with ⟨c1, _⟩ | ⟨afi, _, _, _, c1, _, _, ha, _⟩
    · rw [c1]; simp
    · rw [c1]; exact ha
  have easy : ∀ {b : Bytes} {P : Prop}, P → b.length ≤ max d.length 70 →
      ((∃ b', (.ok b : Except EncErr Bytes) = .ok b') ↔ P) ∧ ∀ b', (.ok b : Except EncErr Bytes) = .ok b' → b'.length ≤ max d.length 70 := by
    intro b P hP hb
    exact ⟨⟨fun _ => hP, fun _ => ⟨b, rfl⟩⟩, fun b' h => by cases h; exact hb⟩
  have easy' : ∀ {x : Except EncErr Bytes} {P : Prop}, P → (∃ b, x = .ok b ∧ b.length ≤ d.length) →
      ((∃ b', x = .ok b') ↔ P) ∧ ∀ b', x = .ok b' → b'.length ≤ max d.length 70 := by
    intro x P hP ⟨b, hx, hb⟩
    subst hx
    exact easy hP (by omega)
  unfold parseAttrVal at h
  by_cases e : c = 1
  · rw [if_pos e] at h; obtain ⟨o, _, rfl⟩ := Props.mapOk_inv h
    exact ⟨trivial, easy trivial (by simp; omega)⟩
  rw [if_neg e] at h; clear e
  by_cases e : c = 2
  · rw [if_pos e] at h; obtain ⟨p, hp, rfl⟩ := Props.mapOk_inv h
    exact ⟨trivial, easy' trivial ⟨d, (Props.c04_aspath_roundtrip _ _ _).mpr hp, Nat.le_refl _⟩⟩
  rw [if_neg e] at h; clear e
  by_cases e : c = 3
  · rw [if_pos e] at h; obtain ⟨a, ha, rfl⟩ := Props.mapOk_inv h
    refine ⟨?_, easy trivial (by have : a.octets.length ≤ 16 := (by cases a <;> simp [Ip.octets]); omega)⟩
    obtain ⟨r, ha⟩ := runOn_inv ha
    show a.afi = cfg.afi.getD .ipv4
    generalize cfg.afi.getD .ipv4 = f at ha hafi
    cases f with
    | linkState => exact absurd rfl hafi
    | ipv4 =>
      change (match rdV4 d with | .ok (o, r) => .ok (.v4 o, r) | .error _ => .error .io : Except Err (Ip × Bytes)) = _ at ha
      cases hv : rdV4 d with
      | error e => rw [hv] at ha; cases ha
      | ok v => rw [hv] at ha; cases ha; rfl
    | ipv6 =>
      change (match rdV6 d with | .ok (o, r) => .ok (.v6 o, r) | .error _ => .error .io : Except Err (Ip × Bytes)) = _ at ha
      cases hv : rdV6 d with
      | error e => rw [hv] at ha; cases ha
      | ok v => rw [hv] at ha; cases ha; rfl
  rw [if_neg e] at h; clear e
  by_cases e : c = 4
  · rw [if_pos e] at h; obtain ⟨a, ha, rfl⟩ := Props.mapOk_inv h
    exact ⟨trivial, easy trivial (by simp [be32]; omega)⟩
  rw [if_neg e] at h; clear e
  by_cases e : c = 5
  · rw [if_pos e] at h; obtain ⟨a, ha, rfl⟩ := Props.mapOk_inv h
    exact ⟨trivial, easy trivial (by simp [be32]; omega)⟩
  rw [if_neg e] at h; clear e
  by_cases e : c = 6
  · rw [if_pos e] at h; cases h
    exact ⟨trivial, easy trivial (by simp)⟩
  rw [if_neg e] at h; clear e
  by_cases e : c = 7
  · rw [if_pos e] at h; obtain ⟨⟨a, i⟩, ha, rfl⟩ := Props.mapOk_inv h
    obtain ⟨g1, g2⟩ := encodeAggregator_back cfg.asnLen a i
    exact ⟨trivial, g1, fun b hb => by have := g2 b hb; omega⟩
  rw [if_neg e] at h; clear e
  by_cases e : c = 9
  · rw [if_pos e] at h; obtain ⟨a, ha, rfl⟩ := Props.mapOk_inv h
    exact ⟨trivial, easy trivial (by simp; omega)⟩
  rw [if_neg e] at h; clear e
  by_cases e : c = 10
  · rw [if_pos e] at h; obtain ⟨a, ha, rfl⟩ := Props.mapOk_inv h
    refine ⟨trivial, easy' trivial ⟨_, rfl, ?_⟩⟩
    rw [(many_sound (enc := be32) (P := fun _ => True) (fun s a r h => ⟨rdU32_ok h, trivial⟩) ha).1]
    exact Nat.le_refl _
  rw [if_neg e, if_neg h14, if_neg h15] at h; clear e
  by_cases e : c = 17
  · rw [if_pos e] at h; obtain ⟨p, hp, rfl⟩ := Props.mapOk_inv h
    exact ⟨trivial, easy' trivial ⟨d, (Props.c04_aspath_roundtrip _ _ _).mpr hp, Nat.le_refl _⟩⟩
  rw [if_neg e] at h; clear e
  by_cases e : c = 18
  · rw [if_pos e] at h; obtain ⟨⟨a, i⟩, ha, rfl⟩ := Props.mapOk_inv h
    obtain ⟨g1, g2⟩ := encodeAggregator_back .b32 a i
    exact ⟨trivial, ⟨fun _ => trivial, fun _ => g1.mpr (fun h => by cases h)⟩, fun b hb => by have := g2 b hb; omega⟩
  rw [if_neg e] at h; clear e
  by_cases e : c = 8
  · rw [if_pos e] at h; obtain ⟨a, ha, rfl⟩ := Props.mapOk_inv h
    obtain ⟨g1, g2⟩ := Props.c46_parsed_is_canonical.1 _ _ ha
    exact ⟨g1, easy' trivial ⟨_, rfl, by rw [g2]; exact Nat.le_refl _⟩⟩
  rw [if_neg e] at h; clear e
  by_cases e : c = 32
  · rw [if_pos e] at h; obtain ⟨a, ha, rfl⟩ := Props.mapOk_inv h
    have g2 := Props.c46_parsed_is_canonical.2.1 _ _ ha
    exact ⟨trivial, easy' trivial ⟨_, rfl, by rw [g2]; exact Nat.le_refl _⟩⟩
  rw [if_neg e] at h; clear e
  by_cases e : c = 16
  · rw [if_pos e] at h; obtain ⟨a, ha, rfl⟩ := Props.mapOk_inv h
    obtain ⟨g1, g2⟩ := Props.c46_parsed_is_canonical.2.2.1 _ _ ha
    exact ⟨g1, easy' trivial ⟨_, rfl, by rw [g2]; exact Nat.le_refl _⟩⟩
  rw [if_neg e] at h; clear e
  by_cases e : c = 25
  · rw [if_pos e] at h; obtain ⟨a, ha, rfl⟩ := Props.mapOk_inv h
    obtain ⟨g1, g2⟩ := Props.c46_parsed_is_canonical.2.2.2 _ _ ha
    exact ⟨g1, easy' trivial ⟨_, rfl, by rw [g2]; exact Nat.le_refl _⟩⟩
  rw [if_neg e] at h; clear e
  by_cases e : c = 255
  · rw [if_pos e] at h; cases h
    exact ⟨trivial, easy' trivial ⟨_, rfl, Nat.le_refl _⟩⟩
  rw [if_neg e] at h; clear e
  by_cases e : c = 35
  · rw [if_pos e] at h; obtain ⟨a, ha, rfl⟩ := Props.mapOk_inv h
    exact ⟨trivial, easy trivial (by simp [be32]; omega)⟩
  rw [if_neg e] at h; clear e
  by_cases e : c = 26
  · rw [if_pos e] at h; obtain ⟨a, ha, rfl⟩ := Props.mapOk_inv h
    obtain ⟨g1, g2⟩ := parseAigp_back ha
    exact ⟨g1, easy' trivial ⟨_, rfl, g2⟩⟩
  rw [if_neg e] at h; clear e
  by_cases e : c = 23
  · rw [if_pos e] at h; obtain ⟨a, ha, rfl⟩ := Props.mapOk_inv h
    obtain ⟨g1, g2⟩ := parseTunnel_back ha
    refine ⟨g1, ⟨fun ⟨b, hb⟩ => encodeTunnel_fits hb, fun hr => ?_⟩, fun b hb => ?_⟩
    · obtain ⟨b, hb, _⟩ := g2 hr; exact ⟨b, hb⟩
    · obtain ⟨b', hb', hl⟩ := g2 (encodeTunnel_fits hb)
      change encodeTunnel a = _ at hb
      rw [hb'] at hb; cases hb; omega
  rw [if_neg e] at h; clear e
  by_cases e : c = 24
  · rw [if_pos e] at h; obtain ⟨a, ha, rfl⟩ := Props.mapOk_inv h
    exact ⟨trivial, easy trivial (parseTrafficEng_back ha)⟩
  rw [if_neg e] at h; clear e
  by_cases e : c = 29
  · rw [if_pos e] at h; obtain ⟨a, ha, rfl⟩ := Props.mapOk_inv h
    obtain ⟨g1, g2⟩ := parseLsAttr_back ha
    exact ⟨g1, easy' trivial g2⟩
  rw [if_neg e] at h; clear e
  by_cases e : c = 37
  · rw [if_pos e] at h; obtain ⟨a, ha, rfl⟩ := Props.mapOk_inv h
    exact ⟨trivial, easy' trivial (encAll_of_many (Q := fun _ => True) (fun s a r h _ => rdTlv8Ext_back h) ha (fun _ _ => trivial))⟩
  rw [if_neg e] at h; clear e
  by_cases e : c = 38
  · rw [if_pos e] at h; obtain ⟨a, ha, rfl⟩ := Props.mapOk_inv h
    exact ⟨trivial, easy' trivial (parseBfd_back ha)⟩
  rw [if_neg e] at h; clear e
  by_cases e : c = 40
  · rw [if_pos e] at h; obtain ⟨a, ha, rfl⟩ := Props.mapOk_inv h
    exact ⟨trivial, easy' trivial (encAll_of_many (Q := fun _ => True) (fun s a r h _ => rdTlv8Ext_back h) ha (fun _ _ => trivial))⟩
  rw [if_neg e] at h; clear e
  by_cases e : c = 41
  · rw [if_pos e] at h; obtain ⟨a, ha, rfl⟩ := Props.mapOk_inv h
    exact ⟨trivial, easy' trivial (encAll_of_many (Q := fun _ => True) (fun s a r h _ => rdTlv16_back h) ha (fun _ _ => trivial))⟩
  rw [if_neg e] at h; cases h

/-- A value that was read, written: it is read again exactly when it is `Rewritable`. -/
theorem value_again {cfg : AttrCfg} (hc : ReadCfg cfg) {c : UInt8} {d : Bytes} {v : AttrVal} {bad : Bool}
    (h : decodeAttr cfg c d = .ok (v, bad)) :
    (Rewritable cfg v → ∃ b, encodeAttrVal cfg.asnLen v = .ok b ∧ decodeAttr cfg c b = .ok (v, bad) ∧ b.length ≤ max d.length 70) ∧
    ∀ b bad', encodeAttrVal cfg.asnLen v = .ok b → decodeAttr cfg c b = .ok (v, bad') → Rewritable cfg v := by
  have h0 := h
  rw [decodeAttr_ok] at h
  rcases h with ⟨_, rfl, rfl⟩ | ⟨_, rfl, rfl⟩ | ⟨_, rfl, rfl⟩ | ⟨hd, ⟨hp, rfl⟩ | ⟨_, rfl, rfl⟩⟩
  · exact ⟨fun _ => ⟨d, rfl, h0, by omega⟩, fun _ _ _ _ => trivial⟩
  · exact ⟨fun _ => ⟨d, rfl, h0, by omega⟩, fun _ _ _ _ => trivial⟩
  · exact ⟨fun _ => ⟨d, rfl, h0, by omega⟩, fun _ _ _ _ => trivial⟩
  · have hcode := parseAttrVal_code hp
    by_cases h14 : c = 14
    · subst h14
      obtain ⟨n, hn, rfl⟩ := Props.mapOk_inv (f := AttrVal.mpReach) (x := parseNlri cfg.afi cfg.safi cfg.prefixes true cfg.addPath d) hp
      constructor
      · rintro ⟨hr1, hr2⟩
        obtain ⟨b, hb, hb', hl⟩ := mp_fwd hc hn ⟨fun _ => hr1, (fun h => by cases h), hr2⟩
        refine ⟨b, hb, decodeAttr_typed hd ?_, hl⟩
        show mapOk AttrVal.mpReach _ = _
        rw [hb']; rfl
      · intro b bad' hb hb'
        rw [decodeAttr_ok] at hb'
        have hn' := deprecated_not_decoded _ hd
        rcases hb' with ⟨h, _⟩ | ⟨h, _⟩ | ⟨h, _⟩ | ⟨_, ⟨h, _⟩ | ⟨_, h, _⟩⟩
        · exact absurd h hn'.1
        · exact absurd h hn'.2.1
        · exact absurd h hn'.2.2
        · obtain ⟨n', hn', hnn⟩ := Props.mapOk_inv (f := AttrVal.mpReach) (x := parseNlri cfg.afi cfg.safi cfg.prefixes true cfg.addPath b) h
          cases hnn
          obtain ⟨g1, _, g3⟩ := mp_conv hc hn hb hn'
          exact ⟨g1 rfl, g3⟩
        · cases h
    · by_cases h15 : c = 15
      · subst h15
        obtain ⟨n, hn, rfl⟩ := Props.mapOk_inv (f := AttrVal.mpUnreach) (x := parseNlri cfg.afi cfg.safi cfg.prefixes false cfg.addPath d) hp
        have hap : apOf n = false := by unfold apOf; rw [unreach_plain hn]; rfl
        constructor
        · rintro ⟨hr1, hr2⟩
          obtain ⟨b, hb, hb', hl⟩ := mp_fwd hc hn ⟨(fun h => by cases h), fun _ => hr1, hr2⟩
          refine ⟨b, by rw [hap] at hb; exact hb, decodeAttr_typed hd ?_, hl⟩
          show mapOk AttrVal.mpUnreach _ = _
          rw [hb']; rfl
        · intro b bad' hb hb'
          rw [decodeAttr_ok] at hb'
          have hn' := deprecated_not_decoded _ hd
          rcases hb' with ⟨h, _⟩ | ⟨h, _⟩ | ⟨h, _⟩ | ⟨_, ⟨h, _⟩ | ⟨_, h, _⟩⟩
          · exact absurd h hn'.1
          · exact absurd h hn'.2.1
          · exact absurd h hn'.2.2
          · obtain ⟨n', hn', hnn⟩ := Props.mapOk_inv (f := AttrVal.mpUnreach) (x := parseNlri cfg.afi cfg.safi cfg.prefixes false cfg.addPath b) h
            cases hnn
            obtain ⟨_, g2, g3⟩ := mp_conv hc hn (by rw [hap]; exact hb) hn'
            exact ⟨g2 rfl, g3⟩
          · cases h
      · obtain ⟨g1, g2, g3⟩ := plain_back hc hp h14 h15
        constructor
        · intro hr
          obtain ⟨b, hb⟩ := g2.mpr hr
          exact ⟨b, hb, by rw [← hcode]; exact decodeAttr_enc g1 hb, g3 b hb⟩
        · intro b bad' hb _
          exact g2.mp ⟨b, hb⟩
  · exact ⟨fun _ => ⟨d, rfl, h0, by omega⟩, fun _ _ _ _ => trivial⟩

/-! ### attribute lists -/

theorem encodeAttr_of {l : AsnLen} {a : Attribute} {b : Bytes} (h : encodeAttrVal l a.value = .ok b) (hf : LenFits a.flag b.length) :
    encodeAttr l a = .ok (⟨a.flag, a.value.code, b⟩ : Wire).bytes := by
  obtain ⟨bs, hb⟩ := Props.c11_encodable l [a] (fun x hx => by rw [List.mem_singleton] at hx; subst hx; exact ⟨b, h, hf⟩)
  obtain ⟨c, d, h1, _, _⟩ := encAll_cons_ok.mp hb
  obtain ⟨b', h2, _, h3⟩ := encodeAttr_wire h1
  rw [h] at h2; cases h2
  rw [h1, h3]

theorem fits_again {f : UInt8} {m n : Nat} (h : LenFits f m) (hn : n ≤ max m 70) : LenFits f n := by
  unfold LenFits at *
  by_cases he : ExtendedLength f
  · rw [if_pos he] at h ⊢; omega
  · rw [if_neg he] at h ⊢; omega

theorem wires_again {cfg : AttrCfg} (hc : ReadCfg cfg) : ∀ ws : List Wire, (∀ w ∈ ws, w.ok) →
    ((∀ w ∈ ws, Rewritable cfg (attrOf cfg w).value) → ∃ ws', (∀ w ∈ ws', w.ok) ∧
      encodeAttributes cfg.asnLen (ws.map (attrOf cfg)) = .ok (wireBytes ws') ∧ ws'.map (attrOf cfg) = ws.map (attrOf cfg)) ∧
    ∀ bs, encodeAttributes cfg.asnLen (ws.map (attrOf cfg)) = .ok bs → ∃ ws', (∀ w ∈ ws', w.ok) ∧ bs = wireBytes ws' ∧
      (ws'.map (attrOf cfg) = ws.map (attrOf cfg) → ∀ w ∈ ws, Rewritable cfg (attrOf cfg w).value)
  | [], _ => ⟨fun _ => ⟨[], by simp, rfl, rfl⟩, fun bs h => by cases h; exact ⟨[], by simp, rfl, by simp⟩⟩
  | w :: ws, hws => by
    obtain ⟨ih1, ih2⟩ := wires_again hc ws (fun x hx => hws x (by simp [hx]))
    have hd := decodeAttr_valueOf cfg w
    obtain ⟨g1, g2⟩ := value_again hc (v := (valueOf cfg w).1) (bad := (valueOf cfg w).2) hd
    have hcode := valueOf_code cfg w
    constructor
    · intro hr
      obtain ⟨ws', k1, k2, k3⟩ := ih1 (fun x hx => hr x (by simp [hx]))
      obtain ⟨b, hb, hb', hl⟩ := g1 (hr w (by simp))
      have hfit : LenFits w.flag b.length := fits_again (hws w (by simp)) hl
      have hv : attrOf cfg ⟨w.flag, w.code, b⟩ = attrOf cfg w := by
        unfold attrOf
        have : valueOf cfg ⟨w.flag, w.code, b⟩ = valueOf cfg w := by
          conv => lhs; unfold valueOf
          simp only [hb']
        rw [this]
      refine ⟨⟨w.flag, w.code, b⟩ :: ws', ?_, ?_, by simp [hv, k3]⟩
      · intro x hx
        rcases List.mem_cons.mp hx with rfl | hx
        · exact hfit
        · exact k1 x hx
      · have he := encodeAttr_of (a := attrOf cfg w) hb hfit
        exact encAll_cons_ok.mpr ⟨_, _, he, k2, by
          simp only [wireBytes, List.flatMap_cons]
          rw [show (attrOf cfg w).value.code = w.code from hcode]; rfl⟩
    · intro bs h
      obtain ⟨c, d, h1, h2, rfl⟩ := encAll_cons_ok.mp h
      obtain ⟨b, hb, hw, rfl⟩ := encodeAttr_wire h1
      obtain ⟨ws', k1, rfl, k3⟩ := ih2 d h2
      rw [show (attrOf cfg w).value.code = w.code from hcode] at hw ⊢
      refine ⟨⟨w.flag, w.code, b⟩ :: ws', ?_, rfl, ?_⟩
      · intro x hx
        rcases List.mem_cons.mp hx with rfl | hx
        · exact hw
        · exact k1 x hx
      · intro he
        simp only [List.map_cons, List.cons.injEq] at he
        intro x hx
        rcases List.mem_cons.mp hx with rfl | hx
        · refine g2 b (valueOf cfg ⟨x.flag, x.code, b⟩).2 hb ?_
          have hd' := decodeAttr_valueOf cfg ⟨x.flag, x.code, b⟩
          have hv : (valueOf cfg ⟨x.flag, x.code, b⟩).1 = (valueOf cfg x).1 := congrArg Attribute.value he.1
          simp only at hd'
          rw [hd', ← hv]
        · exact k3 he.2 x hx

/-- the attributes that were read, cut into wires. -/
theorem parse_cut {cfg : AttrCfg} {s : Bytes} {a : Attributes} (h : parseAttributes cfg s = .ok a) :
    ∃ ws : List Wire, (∀ w ∈ ws, w.ok) ∧ a.inner = ws.map (attrOf cfg) := by
  obtain ⟨ws, r, hws, rfl, hr⟩ := attr_cut s.length s (Nat.le_refl _)
  rcases hr with hr | hr
  · rw [parse_wires cfg ws hws hr] at h; cases h; exact ⟨ws, hws, rfl⟩
  · rw [parse_broken cfg ws hws hr] at h; cases h

theorem parse_wires_nil (cfg : AttrCfg) (ws : List Wire) (hws : ∀ w ∈ ws, w.ok) :
    ∃ a, parseAttributes cfg (wireBytes ws) = .ok a ∧ a.inner = ws.map (attrOf cfg) := by
  have := parse_wires cfg ws hws (r := []) (.inl (by decide))
  rw [List.append_nil] at this
  exact ⟨_, this, rfl⟩

end Verif
