import Verif.Lemmas.Rd
import Verif.Spec.Community
/-
Helper lemmas for communities.
-/
namespace Verif
open Spec

/-! ### standard -/

theorem rdU32_be16s (a b : UInt16) (s : Bytes) :
    rdU32 (be16 a ++ be16 b ++ s) = .ok (UInt32.ofNat (a.toNat * 65536 + b.toNat), s) := by
  have ha := a.toNat_lt
  have hb := b.toNat_lt
  have e : u32of (UInt8.ofNat (a.toNat / 256)) (UInt8.ofNat a.toNat) (UInt8.ofNat (b.toNat / 256)) (UInt8.ofNat b.toNat)
      = UInt32.ofNat (a.toNat * 65536 + b.toNat) := by
    apply UInt32.toNat_inj.mp
    rw [u32of_toNat]
    simp; omega
  simp only [be16, rdU32, List.cons_append, List.nil_append, e]

theorem rdCommunity_enc {c : Community} (h : CommunityOk c) (s : Bytes) :
    rdCommunity (encCommunity c ++ s) = .ok (c, s) := by
  cases c with
  | noExport => simp [rdCommunity, encCommunity, Rd.bind_apply]
  | noAdvertise => simp [rdCommunity, encCommunity, Rd.bind_apply]
  | noExportSubConfed => simp [rdCommunity, encCommunity, Rd.bind_apply]
  | custom a v =>
    obtain ⟨ha, hw⟩ := h
    have hv := v.toNat_lt
    have hn : (UInt32.ofNat (a.toUInt16.toNat * 65536 + v.toNat)).toNat = a.toNat * 65536 + v.toNat := by
      simp; omega
    have key : ∀ k : UInt16, UInt32.ofNat (a.toUInt16.toNat * 65536 + v.toNat) = UInt32.ofNat (65535 * 65536 + k.toNat) →
        a = 65535 ∧ v = k := by
      intro k hk
      have hkl := k.toNat_lt
      have := congrArg UInt32.toNat hk
      rw [hn] at this
      have h2 : (UInt32.ofNat (65535 * 65536 + k.toNat)).toNat = 65535 * 65536 + k.toNat := by simp; omega
      rw [h2] at this
      constructor
      · apply UInt32.toNat_inj.mp; simp; omega
      · apply UInt16.toNat_inj.mp; omega
    simp only [rdCommunity, encCommunity]
    rw [Rd.bind_ok (rdU32_be16s _ _ _)]
    rw [if_neg, if_neg, if_neg]
    · simp only [Rd.pure_apply]
      congr 2
      rw [hn]
      congr 1
      · apply UInt32.toNat_inj.mp; simp; omega
      · apply UInt16.toNat_inj.mp; simp
    · intro hk; exact hw ⟨(key 0xFF03 hk).1, .inr (.inr (key 0xFF03 hk).2)⟩
    · intro hk; exact hw ⟨(key 0xFF02 hk).1, .inr (.inl (key 0xFF02 hk).2)⟩
    · intro hk; exact hw ⟨(key 0xFF01 hk).1, .inl (key 0xFF01 hk).2⟩

theorem rdCommunity_consumes : Consumes 4 rdCommunity :=
  .bind .rdU32 (m := 0) fun _ => .ite (fun _ => .pure _) fun _ => .ite (fun _ => .pure _) fun _ =>
    .ite (fun _ => .pure _) fun _ => .pure _

theorem rdCommunity_noPanic : NoPanic rdCommunity :=
  .bind .rdU32 fun _ => .ite (fun _ => .pure _) fun _ => .ite (fun _ => .pure _) fun _ =>
    .ite (fun _ => .pure _) fun _ => .pure _

theorem rdCommunity_ok : Yields CommunityOk rdCommunity := by
  refine .bind fun v => .ite (fun _ => .pure trivial) fun h1 => .ite (fun _ => .pure trivial) fun h2 =>
    .ite (fun _ => .pure trivial) fun h3 => .pure ?_
  have hv := v.toNat_lt
  have hd : (UInt32.ofNat (v.toNat / 65536)).toNat = v.toNat / 65536 := by simp; omega
  refine ⟨by rw [hd]; omega, ?_⟩
  rintro ⟨ha, hw⟩
  have ha := congrArg UInt32.toNat ha
  rw [hd] at ha
  have key : ∀ k : UInt16, UInt16.ofNat v.toNat = k → v = UInt32.ofNat (65535 * 65536 + k.toNat) := by
    intro k hk
    have hkl := k.toNat_lt
    have := congrArg UInt16.toNat hk
    simp at this ha
    apply UInt32.toNat_inj.mp
    simp; omega
  rcases hw with hw | hw | hw
  · exact h1 (key _ hw)
  · exact h2 (key _ hw)
  · exact h3 (key _ hw)

theorem length_encCommunity (c : Community) : (encCommunity c).length = 4 := by cases c <;> rfl

/-- The whole input is the encoding of the result. -/
theorem rdCommunity_sound {s r : Bytes} {c : Community} (h : rdCommunity s = .ok (c, r)) : s = encCommunity c ++ r := by
  unfold rdCommunity at h
  rw [Rd.bind_eq_ok] at h; obtain ⟨v, t, h1, h⟩ := h
  have hs := rdU32_ok h1
  subst hs
  by_cases e1 : v = 0xFFFFFF01
  · rw [if_pos e1] at h; cases h; rw [e1]; rfl
  rw [if_neg e1] at h
  by_cases e2 : v = 0xFFFFFF02
  · rw [if_pos e2] at h; cases h; rw [e2]; rfl
  rw [if_neg e2] at h
  by_cases e3 : v = 0xFFFFFF03
  · rw [if_pos e3] at h; cases h; rw [e3]; rfl
  rw [if_neg e3] at h
  cases h
  have hv := v.toNat_lt
  simp only [encCommunity]
  congr 1
  simp only [be32, be16, List.cons_append, List.nil_append, List.cons.injEq, and_true]
  refine ⟨?_, ?_, ?_, ?_⟩ <;> apply UInt8.toNat_inj.mp <;> simp <;> omega

theorem rdCommunity_total (a b c d : UInt8) (r : Bytes) : ∃ x, rdCommunity (a :: b :: c :: d :: r) = .ok (x, r) := by
  obtain ⟨v, h⟩ : ∃ v, rdU32 (a :: b :: c :: d :: r) = .ok (v, r) := ⟨u32of a b c d, by simp only [rdU32]⟩
  unfold rdCommunity
  rw [Rd.bind_ok h]
  by_cases e1 : v = 0xFFFFFF01
  · rw [if_pos e1]; exact ⟨_, Rd.pure_apply _ _⟩
  rw [if_neg e1]
  by_cases e2 : v = 0xFFFFFF02
  · rw [if_pos e2]; exact ⟨_, Rd.pure_apply _ _⟩
  rw [if_neg e2]
  by_cases e3 : v = 0xFFFFFF03
  · rw [if_pos e3]; exact ⟨_, Rd.pure_apply _ _⟩
  rw [if_neg e3]
  exact ⟨_, Rd.pure_apply _ _⟩

/-! ### large -/

theorem rdLarge_enc (c : LargeCommunity) (s : Bytes) : rdLarge (encLarge c ++ s) = .ok (c, s) := by
  simp [rdLarge, encLarge, Rd.bind_apply]

theorem rdLarge_consumes : Consumes 12 rdLarge :=
  .bind .rdU32 (m := 8) fun _ => .bind .rdU32 (m := 4) fun _ => .bind .rdU32 (m := 0) fun _ => .pure _

theorem rdLarge_noPanic : NoPanic rdLarge :=
  .bind .rdU32 fun _ => .bind .rdU32 fun _ => .bind .rdU32 fun _ => .pure _

theorem rdLarge_sound {s r : Bytes} {c : LargeCommunity} (h : rdLarge s = .ok (c, r)) : s = encLarge c ++ r := by
  unfold rdLarge at h
  rw [Rd.bind_eq_ok] at h; obtain ⟨a, t, h1, h⟩ := h
  rw [Rd.bind_eq_ok] at h; obtain ⟨b, t2, h2, h⟩ := h
  rw [Rd.bind_eq_ok] at h; obtain ⟨d, t3, h3, h⟩ := h
  cases h
  rw [rdU32_ok h1, rdU32_ok h2, rdU32_ok h3]; simp [encLarge]

/-! ### extended -/

theorem ExtType.ofU8_unknown {t : UInt8} (h : ¬ KnownExtType t) : ExtType.ofU8 t = .unknown t := by
  simp [KnownExtType] at h
  simp [ExtType.ofU8, h]

theorem ExtType.toU8_ofU8 (t : UInt8) : (ExtType.ofU8 t).toU8 = t := by
  unfold ExtType.ofU8
  repeat' split
  all_goals simp_all [ExtType.toU8]

@[simp] theorem vcons_toList {n : Nat} (t : UInt8) (v : Vector UInt8 n) : (vcons t v).toList = t :: v.toList := by
  simp [vcons]

@[simp] theorem vcons_zero {n : Nat} (t : UInt8) (v : Vector UInt8 n) : (vcons t v)[0] = t := by
  simp [vcons]

theorem vec8_cons (b : Vector UInt8 8) : ∃ v : Vector UInt8 7, b.toList = b[0] :: v.toList ∧ b = vcons b[0] v := by
  have h : b.toList = b[0] :: b.toList.drop 1 := by
    apply List.ext_getElem
    · simp
    · intro i h1 h2
      cases i with
      | zero => simp
      | succ i => simp
  refine ⟨⟨(b.toList.drop 1).toArray, by simp⟩, by simpa using h, ?_⟩
  apply Vector.toList_inj.mp
  rw [vcons_toList]
  simpa using h

theorem length_encExt (c : ExtCommunity) : (encExt c).length = 8 := by
  cases c <;> simp [encExt]

theorem and63 {d : UInt8} (h : d.toNat < 64) : d &&& 0x3F = d := by
  apply UInt8.toNat_inj.mp
  have : d.toNat &&& 63 = d.toNat % 64 := Nat.and_two_pow_sub_one_eq_mod d.toNat 6
  simp [this]; omega

theorem and63_lt (d : UInt8) : (d &&& 0x3F).toNat < 64 := by
  have : d.toNat &&& 63 = d.toNat % 64 := Nat.and_two_pow_sub_one_eq_mod d.toNat 6
  simp [this]; omega

theorem mod65536 {a : UInt32} (h : a.toNat ≤ 65535) : a % 65536 = a := by
  apply UInt32.toNat_inj.mp; simp; omega

theorem rdExt_enc {c : ExtCommunity} (h : ExtCommunityOk c) (s : Bytes) : rdExt (encExt c ++ s) = .ok (c, s) := by
  cases c with
  | twoOctetAs st a l =>
    obtain ⟨ha, hst⟩ := h
    simp [rdExt, encExt, ExtCommunity.type, ExtType.toU8, ExtType.ofU8, Rd.bind_apply, rdExtTwoOctetAs, hst]
    exact mod65536 ha
  | ntTwoOctetAs st a l =>
    obtain ⟨ha, hst⟩ := h
    simp at hst
    simp [rdExt, encExt, ExtCommunity.type, ExtType.toU8, ExtType.ofU8, Rd.bind_apply, rdExtNtTwoOctetAs, hst]
    exact mod65536 ha
  | redirect st a l =>
    obtain ⟨ha, hst⟩ := h
    subst hst
    simp [rdExt, encExt, ExtCommunity.type, ExtType.toU8, ExtType.ofU8, Rd.bind_apply, rdExtNtTwoOctetAs]
    exact mod65536 ha
  | trafficMarking a d =>
    have h : d.toNat < 64 := h
    simp [rdExt, encExt, ExtCommunity.type, ExtType.toU8, ExtType.ofU8, Rd.bind_apply, rdExtNtTwoOctetAs, and63 h]
  | trafficAction a t u =>
    simp [rdExt, encExt, ExtCommunity.type, ExtType.toU8, ExtType.ofU8, Rd.bind_apply, rdExtNtTwoOctetAs]
    cases t <;> cases u <;> decide
  | linkBandwidth g b t =>
    cases t <;>
    simp [rdExt, encExt, ExtCommunity.type, ExtType.toU8, ExtType.ofU8, Rd.bind_apply, rdExtNtTwoOctetAs, rdExtTwoOctetAs]
  | raw b =>
    have h : ¬ KnownExtType b[0] := h
    obtain ⟨v, hv, hb⟩ := vec8_cons b
    simp only [encExt, rdExt]
    rw [hv, List.cons_append, Rd.bind_ok (rdU8_cons _ _), ExtType.ofU8_unknown h]
    simp only
    rw [Rd.bind_ok (rdVec_append v s)]
    simp only [Rd.pure_apply]
    congr 3
    exact hb.symm
  | _ => simp [rdExt, encExt, ExtCommunity.type, ExtType.toU8, ExtType.ofU8, Rd.bind_apply, rdExtNtTwoOctetAs]

theorem rdExtTwoOctetAs_consumes : Consumes 7 rdExtTwoOctetAs :=
  .bind .rdU8 (m := 6) fun _ => .ite
    (fun _ => .bind .rdU16 (m := 4) fun _ => .bind .rdU32 (m := 0) fun _ => .pure _)
    (fun _ => .bind .rdU16 (m := 4) fun _ => .bind (.rdVec 4) (m := 0) fun _ => .pure _)

theorem rdExtNtTwoOctetAs_consumes : Consumes 7 rdExtNtTwoOctetAs :=
  .bind .rdU8 (m := 6) fun _ => .ite
    (fun _ => .bind .rdU16 (m := 4) fun _ => .bind .rdU32 (m := 0) fun _ => .pure _) fun _ => .ite
    (fun _ => .bind .rdU16 (m := 4) fun _ => .bind .rdU32 (m := 0) fun _ => .pure _) fun _ => .ite
    (fun _ => .bind .rdU16 (m := 4) fun _ => .bind .rdU32 (m := 0) fun _ => .pure _) fun _ => .ite
    (fun _ => .bind .rdU16 (m := 4) fun _ => .bind (.rdVec 4) (m := 0) fun _ => .pure _) fun _ => .ite
    (fun _ => .bind .rdU16 (m := 4) fun _ => .bind .rdU8 (m := 3) fun _ => .bind .rdU8 (m := 2) fun _ =>
      .bind .rdU16 (m := 0) fun _ => .pure _) fun _ =>
    .bind .rdU16 (m := 4) fun _ => .bind (.rdVec 4) (m := 0) fun _ => .pure _

theorem rdExt_consumes : Consumes 8 rdExt := by
  refine .bind .rdU8 (m := 7) fun t => ?_
  cases ExtType.ofU8 t with
  | twoOctetAs => exact rdExtTwoOctetAs_consumes
  | ntTwoOctetAs => exact rdExtNtTwoOctetAs_consumes
  | ipv4Addr => exact .bind .rdU8 (m := 6) fun _ => .bind (.rdVec 4) (m := 2) fun _ => .bind (.rdVec 2) (m := 0) fun _ => .pure _
  | ntIpv4Addr => exact .bind .rdU8 (m := 6) fun _ => .bind (.rdVec 4) (m := 2) fun _ => .bind (.rdVec 2) (m := 0) fun _ => .pure _
  | fourOctetAs => exact .bind .rdU8 (m := 6) fun _ => .bind .rdU32 (m := 2) fun _ => .bind (.rdVec 2) (m := 0) fun _ => .pure _
  | ntFourOctetAs => exact .bind .rdU8 (m := 6) fun _ => .bind .rdU32 (m := 2) fun _ => .bind (.rdVec 2) (m := 0) fun _ => .pure _
  | opaq => exact .bind .rdU8 (m := 6) fun _ => .bind (.rdVec 6) (m := 0) fun _ => .pure _
  | ntOpaque => exact .bind .rdU8 (m := 6) fun _ => .bind (.rdVec 6) (m := 0) fun _ => .pure _
  | unknown c => exact .bind (.rdVec 7) (m := 0) fun _ => .pure _

theorem rdExt_noPanic : NoPanic rdExt := by
  refine .bind .rdU8 fun t => ?_
  cases ExtType.ofU8 t with
  | twoOctetAs =>
    exact .bind .rdU8 fun _ => .ite (fun _ => .bind .rdU16 fun _ => .bind .rdU32 fun _ => .pure _)
      (fun _ => .bind .rdU16 fun _ => .bind (.rdVec 4) fun _ => .pure _)
  | ntTwoOctetAs =>
    exact .bind .rdU8 fun _ => .ite
      (fun _ => .bind .rdU16 fun _ => .bind .rdU32 fun _ => .pure _) fun _ => .ite
      (fun _ => .bind .rdU16 fun _ => .bind .rdU32 fun _ => .pure _) fun _ => .ite
      (fun _ => .bind .rdU16 fun _ => .bind .rdU32 fun _ => .pure _) fun _ => .ite
      (fun _ => .bind .rdU16 fun _ => .bind (.rdVec 4) fun _ => .pure _) fun _ => .ite
      (fun _ => .bind .rdU16 fun _ => .bind .rdU8 fun _ => .bind .rdU8 fun _ =>
        .bind .rdU16 fun _ => .pure _) fun _ =>
      .bind .rdU16 fun _ => .bind (.rdVec 4) fun _ => .pure _
  | ipv4Addr => exact .bind .rdU8 fun _ => .bind (.rdVec 4) fun _ => .bind (.rdVec 2) fun _ => .pure _
  | ntIpv4Addr => exact .bind .rdU8 fun _ => .bind (.rdVec 4) fun _ => .bind (.rdVec 2) fun _ => .pure _
  | fourOctetAs => exact .bind .rdU8 fun _ => .bind .rdU32 fun _ => .bind (.rdVec 2) fun _ => .pure _
  | ntFourOctetAs => exact .bind .rdU8 fun _ => .bind .rdU32 fun _ => .bind (.rdVec 2) fun _ => .pure _
  | opaq => exact .bind .rdU8 fun _ => .bind (.rdVec 6) fun _ => .pure _
  | ntOpaque => exact .bind .rdU8 fun _ => .bind (.rdVec 6) fun _ => .pure _
  | unknown c => exact .bind (.rdVec 7) fun _ => .pure _

theorem ExtType.known_of_ofU8 {t : UInt8} (h : ∀ c, ExtType.ofU8 t ≠ .unknown c) : KnownExtType t := by
  by_cases hk : KnownExtType t
  · exact hk
  · exact absurd (ExtType.ofU8_unknown hk) (h t)

theorem ExtType.unknown_of_ofU8 {t c : UInt8} (h : ExtType.ofU8 t = .unknown c) : ¬ KnownExtType t := by
  intro hk
  simp [KnownExtType] at hk
  rcases hk with rfl | rfl | rfl | rfl | rfl | rfl | rfl | rfl <;> simp [ExtType.ofU8] at h

theorem rdExt_ok : Yields ExtCommunityOk rdExt := by
  refine .bind fun t => ?_
  cases ht : ExtType.ofU8 t with
  | twoOctetAs =>
    exact .bind fun st => .ite (fun _ => .bind fun _ => .bind fun _ => .pure trivial)
      (fun h => .bind fun g => .bind fun _ => .pure ⟨toUInt32_le g, h⟩)
  | ntTwoOctetAs =>
    exact .bind fun st => .ite
      (fun _ => .bind fun _ => .bind fun _ => .pure trivial) fun h4 => .ite
      (fun _ => .bind fun _ => .bind fun _ => .pure trivial) fun h6 => .ite
      (fun _ => .bind fun _ => .bind fun _ => .pure trivial) fun h7 => .ite
      (fun h => .bind fun g => .bind fun _ => .pure ⟨toUInt32_le g, h⟩) fun h8 => .ite
      (fun _ => .bind fun _ => .bind fun d => .bind fun _ =>
        .bind fun _ => .pure (and63_lt d)) fun h9 =>
      .bind fun g => .bind fun _ => .pure ⟨toUInt32_le g, by simp [h4, h6, h7, h8, h9]⟩
  | ipv4Addr => exact .bind fun _ => .bind fun _ => .bind fun _ => .pure trivial
  | ntIpv4Addr => exact .bind fun _ => .bind fun _ => .bind fun _ => .pure trivial
  | fourOctetAs => exact .bind fun _ => .bind fun _ => .bind fun _ => .pure trivial
  | ntFourOctetAs => exact .bind fun _ => .bind fun _ => .bind fun _ => .pure trivial
  | opaq => exact .bind fun _ => .bind fun _ => .pure trivial
  | ntOpaque => exact .bind fun _ => .bind fun _ => .pure trivial
  | unknown c =>
    refine .bind fun v => .pure ?_
    show ¬ KnownExtType (vcons t v)[0]
    rw [vcons_zero]; exact ExtType.unknown_of_ofU8 ht

/-! ### IPv6 extended -/

theorem vec2_toList (v : Vector UInt8 2) : v.toList = [v[0], v[1]] := by
  apply List.ext_getElem
  · simp
  · intro i h1 h2
    have : i = 0 ∨ i = 1 := by simp at h1; omega
    rcases this with rfl | rfl <;> simp

theorem vec2_eta (v : Vector UInt8 2) : #v[v[0], v[1]] = v := by
  apply Vector.toList_inj.mp
  rw [vec2_toList v]; rfl

theorem ExtType.ofU8_toU8 {t : ExtType} (h : match t with | .unknown c => ¬ KnownExtType c | _ => True) :
    ExtType.ofU8 t.toU8 = t := by
  cases t with
  | unknown c => exact ExtType.ofU8_unknown h
  | _ => rfl

theorem rdIpv6Ext_enc {c : Ipv6ExtCommunity} (h : Ipv6ExtCommunityOk c) (s : Bytes) :
    rdIpv6Ext (encIpv6Ext c ++ s) = .ok (c, s) := by
  obtain ⟨t, st, a, l⟩ := c
  simp only [rdIpv6Ext, encIpv6Ext, vec2_toList l, List.cons_append, List.append_assoc, List.nil_append,
    Rd.bind_apply, rdU8_cons, rdV6_append, Rd.pure_apply, vec2_eta]
  rw [ExtType.ofU8_toU8 h]

theorem rdIpv6Ext_consumes : Consumes 20 rdIpv6Ext :=
  .bind .rdU8 (m := 19) fun _ => .bind .rdU8 (m := 18) fun _ => .bind (.rdVec 16) (m := 2) fun _ =>
    .bind .rdU8 (m := 1) fun _ => .bind .rdU8 (m := 0) fun _ => .pure _

theorem rdIpv6Ext_noPanic : NoPanic rdIpv6Ext :=
  .bind .rdU8 fun _ => .bind .rdU8 fun _ => .bind (.rdVec 16) fun _ =>
    .bind .rdU8 fun _ => .bind .rdU8 fun _ => .pure _

theorem rdIpv6Ext_ok : Yields Ipv6ExtCommunityOk rdIpv6Ext := by
  refine .bind fun t => .bind fun _ => .bind fun _ => .bind fun _ => .bind fun _ => .pure ?_
  simp only [Ipv6ExtCommunityOk]
  cases ht : ExtType.ofU8 t with
  | unknown c =>
    simp only
    have h1 := ExtType.toU8_ofU8 t
    rw [ht] at h1
    have h1 : c = t := h1
    subst h1
    exact ExtType.unknown_of_ofU8 ht
  | _ => trivial

theorem rdIpv6Ext_sound {s r : Bytes} {c : Ipv6ExtCommunity} (h : rdIpv6Ext s = .ok (c, r)) :
    s = encIpv6Ext c ++ r := by
  unfold rdIpv6Ext at h
  rw [Rd.bind_eq_ok] at h; obtain ⟨a, t, h1, h⟩ := h
  rw [Rd.bind_eq_ok] at h; obtain ⟨b, t2, h2, h⟩ := h
  rw [Rd.bind_eq_ok] at h; obtain ⟨d, t3, h3, h⟩ := h
  rw [Rd.bind_eq_ok] at h; obtain ⟨e, t4, h4, h⟩ := h
  rw [Rd.bind_eq_ok] at h; obtain ⟨f, t5, h5, h⟩ := h
  cases h
  rw [rdU8_ok h1, rdU8_ok h2, rdVec_ok h3, rdU8_ok h4, rdU8_ok h5]
  simp [encIpv6Ext, ExtType.toU8_ofU8]

/-! ### the assertion on the number of items -/

theorem assertCount_ok {w : Nat} {s : Bytes} {l : List α} (h : s.length = w * l.length) (hw : 0 < w) :
    assertCount w s (.ok l) = .ok l := by
  simp only [assertCount]
  rw [if_pos]
  rw [h, Nat.mul_div_cancel_left _ hw]

theorem assertCount_many {p : Rd α} {n : Nat} (hc : Consumes n p) (hn : 0 < n) (s : Bytes) :
    assertCount n s (many p s) = many p s := by
  cases h : many p s with
  | error e => rfl
  | ok l => exact assertCount_ok (many_length hc h) hn

end Verif
