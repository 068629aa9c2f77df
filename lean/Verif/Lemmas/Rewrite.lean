import Verif.Spec.Rewrite
import Verif.Lemmas.Attr
import Verif.Lemmas.Exact
/-
Attribute values that were read: they can be written, are not longer than what was read except for aggregators and
abbreviated RIB attributes, and read the same.
-/
namespace Verif
open Spec

/-! ### loops -/

theorem encAll_of_manyFuel {p : Rd α} {f : α → Except EncErr Bytes} {Q : α → Prop}
    (hp : ∀ s a r, p s = .ok (a, r) → Q a → ∃ b, f a = .ok b ∧ b.length + r.length ≤ s.length) :
    ∀ (fuel : Nat) (s : Bytes) (xs : List α), manyFuel p fuel s = .ok xs → (∀ x ∈ xs, Q x) →
      ∃ bs, encAll f xs = .ok bs ∧ bs.length ≤ s.length := by
  intro fuel
  induction fuel with
  | zero =>
    intro s xs h _
    cases s with
    | nil => simp [manyFuel] at h; subst h; exact ⟨[], rfl, by simp⟩
    | cons b bs => simp [manyFuel] at h
  | succ fuel ih =>
    intro s xs h hQ
    cases s with
    | nil => simp [manyFuel] at h; subst h; exact ⟨[], rfl, by simp⟩
    | cons b bs =>
      simp only [manyFuel] at h
      cases h1 : p (b :: bs) with
      | error e => rw [h1] at h; cases h
      | ok v =>
        obtain ⟨a, r⟩ := v
        rw [h1] at h
        simp only at h
        cases h2 : manyFuel p fuel r with
        | error e => rw [h2] at h; cases h
        | ok as =>
          rw [h2] at h
          cases h
          obtain ⟨x, hx, hxl⟩ := hp _ _ _ h1 (hQ a (by simp))
          obtain ⟨y, hy, hyl⟩ := ih _ _ h2 fun z hz => hQ z (by simp [hz])
          exact ⟨x ++ y, encAll_cons_ok.mpr ⟨x, y, hx, hy, rfl⟩, by simp only [List.length_append]; omega⟩

theorem encAll_of_many {p : Rd α} {f : α → Except EncErr Bytes} {Q : α → Prop}
    (hp : ∀ s a r, p s = .ok (a, r) → Q a → ∃ b, f a = .ok b ∧ b.length + r.length ≤ s.length) {s : Bytes} {xs : List α}
    (h : many p s = .ok xs) (hQ : ∀ x ∈ xs, Q x) : ∃ bs, encAll f xs = .ok bs ∧ bs.length ≤ s.length :=
  encAll_of_manyFuel hp _ _ _ h hQ

theorem encAll_of_whileGeFuel {p : Rd α} {f : α → Except EncErr Bytes} {Q : α → Prop} {n : Nat}
    (hp : ∀ s a r, p s = .ok (a, r) → Q a → ∃ b, f a = .ok b ∧ b.length + r.length ≤ s.length) :
    ∀ (fuel : Nat) (s : Bytes) (xs : List α), whileGeFuel n p fuel s = .ok xs → (∀ x ∈ xs, Q x) →
      ∃ bs, encAll f xs = .ok bs ∧ bs.length ≤ s.length := by
  intro fuel
  induction fuel with
  | zero =>
    intro s xs h _
    simp only [whileGeFuel] at h
    by_cases hs : s.length < n
    · rw [if_pos hs] at h; cases h; exact ⟨[], rfl, by simp⟩
    · rw [if_neg hs] at h; cases h
  | succ fuel ih =>
    intro s xs h hQ
    simp only [whileGeFuel] at h
    by_cases hs : s.length < n
    · rw [if_pos hs] at h; cases h; exact ⟨[], rfl, by simp⟩
    · rw [if_neg hs] at h
      cases h1 : p s with
      | error e => rw [h1] at h; cases h
      | ok v =>
        obtain ⟨a, r⟩ := v
        rw [h1] at h
        simp only at h
        cases h2 : whileGeFuel n p fuel r with
        | error e => rw [h2] at h; cases h
        | ok as =>
          rw [h2] at h
          cases h
          obtain ⟨x, hx, hxl⟩ := hp _ _ _ h1 (hQ a (by simp))
          obtain ⟨y, hy, hyl⟩ := ih _ _ h2 fun z hz => hQ z (by simp [hz])
          exact ⟨x ++ y, encAll_cons_ok.mpr ⟨x, y, hx, hy, rfl⟩, by simp only [List.length_append]; omega⟩

theorem encAll_of_whileGe {p : Rd α} {f : α → Except EncErr Bytes} {Q : α → Prop} {n : Nat}
    (hp : ∀ s a r, p s = .ok (a, r) → Q a → ∃ b, f a = .ok b ∧ b.length + r.length ≤ s.length) {s : Bytes} {xs : List α}
    (h : whileGe n p s = .ok xs) (hQ : ∀ x ∈ xs, Q x) : ∃ bs, encAll f xs = .ok bs ∧ bs.length ≤ s.length :=
  encAll_of_whileGeFuel hp _ _ _ h hQ

theorem whileGeFuel_all {p : Rd α} {P : α → Prop} {n : Nat} (hp : Yields P p) :
    ∀ (fuel : Nat) (s : Bytes) (xs : List α), whileGeFuel n p fuel s = .ok xs → ∀ x ∈ xs, P x := by
  intro fuel
  induction fuel with
  | zero =>
    intro s xs h
    simp only [whileGeFuel] at h
    by_cases hs : s.length < n
    · rw [if_pos hs] at h; cases h; simp
    · rw [if_neg hs] at h; cases h
  | succ fuel ih =>
    intro s xs h
    simp only [whileGeFuel] at h
    by_cases hs : s.length < n
    · rw [if_pos hs] at h; cases h; simp
    · rw [if_neg hs] at h
      cases h1 : p s with
      | error e => rw [h1] at h; cases h
      | ok v =>
        obtain ⟨a, r⟩ := v
        rw [h1] at h
        simp only at h
        cases h2 : whileGeFuel n p fuel r with
        | error e => rw [h2] at h; cases h
        | ok as =>
          rw [h2] at h
          cases h
          intro x hx
          rcases List.mem_cons.mp hx with rfl | hx
          · exact hp _ _ _ h1
          · exact ih _ _ h2 x hx

theorem whileGe_all {p : Rd α} {P : α → Prop} {n : Nat} (hp : Yields P p) {s : Bytes} {xs : List α}
    (h : whileGe n p s = .ok xs) : ∀ x ∈ xs, P x := whileGeFuel_all hp _ _ _ h

/-- an encoding that succeeds succeeds for every element. -/
theorem encAll_ok_mem {f : α → Except EncErr Bytes} : ∀ {xs : List α} {bs : Bytes}, encAll f xs = .ok bs →
    ∀ x ∈ xs, ∃ b, f x = .ok b
  | [], _, _, x, hx => by cases hx
  | y :: ys, bs, h, x, hx => by
    obtain ⟨b, c, h1, h2, _⟩ := encAll_cons_ok.mp h
    rcases List.mem_cons.mp hx with rfl | hx
    · exact ⟨b, h1⟩
    · exact encAll_ok_mem h2 x hx

theorem splitTo_ok {n : Nat} {s a r : Bytes} (h : splitTo n s = .ok (a, r)) : s = a ++ r ∧ a.length = n := by
  change (if s.length < n then _ else _) = _ at h
  by_cases hl : s.length < n
  · rw [if_pos hl] at h; cases h
  · rw [if_neg hl] at h; cases h
    exact ⟨by simp, by simp; omega⟩

theorem runOn_inv {p : Rd α} {s : Bytes} {a : α} (h : p.runOn s = .ok a) : ∃ r, p s = .ok (a, r) := by
  unfold Rd.runOn at h
  cases hp : p s with
  | error e => rw [hp] at h; cases h
  | ok v => obtain ⟨x, r⟩ := v; rw [hp] at h; cases h; exact ⟨r, rfl⟩

theorem remaining_inv {s r : Bytes} {n : Nat} (h : Rd.remaining s = .ok (n, r)) : n = s.length ∧ r = s := by
  cases h; exact ⟨rfl, rfl⟩

/-! ### TLVs -/

theorem rdTlv8Ext_back {s r : Bytes} {t : Tlv8} (h : rdTlv8Ext s = .ok (t, r)) :
    ∃ b, encTlv8Ext t = .ok b ∧ b.length + r.length ≤ s.length := by
  unfold rdTlv8Ext at h
  rw [Rd.bind_eq_ok] at h; obtain ⟨n, s0, h0, h⟩ := h
  obtain ⟨rfl, rfl⟩ := remaining_inv h0
  split at h
  · cases h
  · rw [Rd.bind_eq_ok] at h; obtain ⟨ty, s1, h1, h⟩ := h
    rw [Rd.bind_eq_ok] at h; obtain ⟨l, s2, h2, h⟩ := h
    rw [Rd.bind_eq_ok] at h; obtain ⟨n, s3, h3, h⟩ := h
    obtain ⟨rfl, rfl⟩ := remaining_inv h3
    split at h
    · cases h
    · rw [Rd.bind_eq_ok] at h; obtain ⟨v, s4, h4, h⟩ := h
      cases h
      obtain ⟨rfl, hv⟩ := splitTo_ok h4
      rw [rdU8_ok h1, rdU16_ok h2]
      have := l.toNat_lt
      have hu := u16Len_ok.mpr ⟨show v.length ≤ 65535 by omega, rfl⟩
      refine ⟨ty :: (be16 (UInt16.ofNat v.length) ++ v), by unfold encTlv8Ext; rw [hu], ?_⟩
      simp; omega

theorem rdTlv8_back {s r : Bytes} {t : Tlv8} (h : rdTlv8 s = .ok (t, r)) :
    ∃ b, encTlv8 t = .ok b ∧ b.length + r.length ≤ s.length := by
  unfold rdTlv8 at h
  rw [Rd.bind_eq_ok] at h; obtain ⟨n, s0, h0, h⟩ := h
  obtain ⟨rfl, rfl⟩ := remaining_inv h0
  split at h
  · cases h
  · rw [Rd.bind_eq_ok] at h; obtain ⟨ty, s1, h1, h⟩ := h
    rw [Rd.bind_eq_ok] at h; obtain ⟨l, s2, h2, h⟩ := h
    rw [Rd.bind_eq_ok] at h; obtain ⟨n, s3, h3, h⟩ := h
    obtain ⟨rfl, rfl⟩ := remaining_inv h3
    split at h
    · cases h
    · rw [Rd.bind_eq_ok] at h; obtain ⟨v, s4, h4, h⟩ := h
      cases h
      obtain ⟨rfl, hv⟩ := splitTo_ok h4
      rw [rdU8_ok h1, rdU8_ok h2]
      have := l.toNat_lt
      have hu := u8Len_ok.mpr ⟨show v.length ≤ 255 by omega, rfl⟩
      refine ⟨ty :: UInt8.ofNat v.length :: v, by unfold encTlv8; rw [hu], ?_⟩
      simp; omega

theorem encTlv16_len {t : Tlv16} (h : t.value.length ≤ 65535) :
    encTlv16 t = .ok (be16 t.type ++ (be16 (UInt16.ofNat t.value.length) ++ t.value)) := by
  unfold encTlv16; rw [u16Len_ok.mpr ⟨h, rfl⟩]

theorem rdTlv16_back {s r : Bytes} {t : Tlv16} (h : rdTlv16 s = .ok (t, r)) :
    ∃ b, encTlv16 t = .ok b ∧ b.length + r.length ≤ s.length := by
  unfold rdTlv16 at h
  rw [Rd.bind_eq_ok] at h; obtain ⟨n, s0, h0, h⟩ := h
  obtain ⟨rfl, rfl⟩ := remaining_inv h0
  split at h
  · cases h
  · rw [Rd.bind_eq_ok] at h; obtain ⟨ty, s1, h1, h⟩ := h
    rw [Rd.bind_eq_ok] at h; obtain ⟨l, s2, h2, h⟩ := h
    rw [Rd.bind_eq_ok] at h; obtain ⟨n, s3, h3, h⟩ := h
    obtain ⟨rfl, rfl⟩ := remaining_inv h3
    split at h
    · cases h
    · rw [Rd.bind_eq_ok] at h; obtain ⟨v, s4, h4, h⟩ := h
      cases h
      obtain ⟨rfl, hv⟩ := splitTo_ok h4
      rw [rdU16_ok h1, rdU16_ok h2]
      have := l.toNat_lt
      refine ⟨_, encTlv16_len (t := ⟨ty, v⟩) (by simp only; omega), ?_⟩
      simp; omega

theorem rdAigp_back {s r : Bytes} {t : AigpTlv} (h : rdAigp s = .ok (t, r)) :
    t.length.toNat = t.value.length + 3 ∧ (encAigp t).length + r.length = s.length := by
  unfold rdAigp at h
  rw [Rd.bind_eq_ok] at h; obtain ⟨n, s0, h0, h⟩ := h
  obtain ⟨rfl, rfl⟩ := remaining_inv h0
  split at h
  · cases h
  · rw [Rd.bind_eq_ok] at h; obtain ⟨ty, s1, h1, h⟩ := h
    rw [Rd.bind_eq_ok] at h; obtain ⟨l, s2, h2, h⟩ := h
    split at h
    · cases h
    · rw [Rd.bind_eq_ok] at h; obtain ⟨n, s3, h3, h⟩ := h
      obtain ⟨rfl, rfl⟩ := remaining_inv h3
      split at h
      · cases h
      · rw [Rd.bind_eq_ok] at h; obtain ⟨v, s4, h4, h⟩ := h
        cases h
        obtain ⟨rfl, hv⟩ := splitTo_ok h4
        rw [rdU8_ok h1, rdU16_ok h2]
        refine ⟨by simp only; omega, ?_⟩
        unfold encAigp
        simp; omega

/-! ### tunnels -/

theorem subTlvType_range (t : UInt8) : (subTlvType t).toNat ≤ 20 ∨ subTlvType t = 128 ∨ subTlvType t = 129 := by
  unfold subTlvType
  split
  · assumption
  · exact .inl (by decide)

theorem rdSubTlv_back {s r : Bytes} {t : Tlv8} (h : rdSubTlv s = .ok (t, r)) :
    (t.type.toNat ≤ 20 ∨ t.type = 128 ∨ t.type = 129) ∧
    ((t.type.toNat < 128 → t.value.length < 256) → ∃ b, encSubTlv t = .ok b ∧ b.length + r.length ≤ s.length) := by
  unfold rdSubTlv at h
  rw [Rd.bind_eq_ok] at h; obtain ⟨n, s0, h0, h⟩ := h
  obtain ⟨rfl, rfl⟩ := remaining_inv h0
  split at h
  · cases h
  · rw [Rd.bind_eq_ok] at h; obtain ⟨ty, s1, h1, h⟩ := h
    rw [Rd.bind_eq_ok] at h; obtain ⟨l, s2, h2, h⟩ := h
    rw [Rd.bind_eq_ok] at h; obtain ⟨v, s4, h4, h⟩ := h
    cases h
    obtain ⟨rfl, hv⟩ := rdN_ok h4
    refine ⟨subTlvType_range ty, fun hs => ?_⟩
    rw [rdU8_ok h1]
    by_cases hty : ty.toNat < 128
    · rw [if_pos hty] at h2
      rw [Rd.bind_eq_ok] at h2; obtain ⟨x, s3, h3, h2⟩ := h2
      cases h2
      have hlt := x.toNat_lt
      have hs1 := rdU8_ok h3
      have hst : (subTlvType ty).toNat < 128 := by
        unfold subTlvType; split
        · exact hty
        · decide
      refine ⟨subTlvType ty :: UInt8.ofNat v.length :: v, ?_, ?_⟩
      · unfold encSubTlv
        simp only
        rw [if_pos hst, u8Len_ok.mpr ⟨by omega, rfl⟩]
      · simp [hs1]; omega
    · rw [if_neg hty] at h2
      rw [Rd.bind_eq_ok] at h2; obtain ⟨x, s3, h3, h2⟩ := h2
      cases h2
      have hlt := x.toNat_lt
      have hs1 := rdU16_ok h3
      by_cases hst : (subTlvType ty).toNat < 128
      · have := hs hst
        refine ⟨subTlvType ty :: UInt8.ofNat v.length :: v, ?_, ?_⟩
        · unfold encSubTlv
          simp only
          rw [if_pos hst, u8Len_ok.mpr ⟨by simp only at this; omega, rfl⟩]
        · simp [hs1]; omega
      · refine ⟨subTlvType ty :: (be16 (UInt16.ofNat v.length) ++ v), ?_, ?_⟩
        · unfold encSubTlv
          simp only
          rw [if_neg hst, u16Len_ok.mpr ⟨by omega, rfl⟩]
        · simp [hs1]; omega

theorem lift_inv {x : Except Err α} {s r : Bytes} {a : α} (h : Rd.lift x s = .ok (a, r)) : x = .ok a ∧ r = s := by
  cases x with
  | error e => cases h
  | ok v => cases h; exact ⟨rfl, rfl⟩

theorem rdTunnelTlv_back {s r : Bytes} {t : TunnelTlv} (h : rdTunnelTlv s = .ok (t, r)) :
    TunnelOk t ∧ ((∀ x ∈ t.subs, x.type.toNat < 128 → x.value.length < 256) →
      ∃ b, encTunnelTlv t = .ok b ∧ b.length + r.length ≤ s.length) := by
  unfold rdTunnelTlv at h
  rw [Rd.bind_eq_ok] at h; obtain ⟨ty, s1, h1, h⟩ := h
  rw [Rd.bind_eq_ok] at h; obtain ⟨l, s2, h2, h⟩ := h
  rw [Rd.bind_eq_ok] at h; obtain ⟨d, s3, h3, h⟩ := h
  rw [Rd.bind_eq_ok] at h; obtain ⟨subs, s4, h4, h⟩ := h
  cases h
  obtain ⟨hsub, rfl⟩ := lift_inv h4
  obtain ⟨rfl, hd⟩ := rdN_ok h3
  refine ⟨⟨?_, ?_⟩, fun hs => ?_⟩
  · simp only; unfold tunnelType; split
    · assumption
    · decide
  · exact many_all (P := fun x : Tlv8 => x.type.toNat ≤ 20 ∨ x.type = 128 ∨ x.type = 129) (fun s a r h => (rdSubTlv_back h).1) hsub
  · obtain ⟨bs, hbs, hl⟩ := encAll_of_many (f := encSubTlv) (Q := fun x : Tlv8 => x.type.toNat < 128 → x.value.length < 256)
      (fun s a r h hq => (rdSubTlv_back h).2 hq) hsub hs
    have := l.toNat_lt
    refine ⟨be16 (tunnelType ty) ++ (be16 (UInt16.ofNat bs.length) ++ bs), ?_, ?_⟩
    · unfold encTunnelTlv
      simp only [hbs]
      rw [u16Len_ok.mpr ⟨by omega, rfl⟩]
    · rw [rdU16_ok h1, rdU16_ok h2]; simp; omega

/-- reading a tunnel attribute, writing it. -/
theorem parseTunnel_back {s : Bytes} {ts : List TunnelTlv} (h : parseTunnel s = .ok ts) :
    (∀ t ∈ ts, TunnelOk t) ∧ ((∀ t ∈ ts, ∀ x ∈ t.subs, x.type.toNat < 128 → x.value.length < 256) →
      ∃ b, encodeTunnel ts = .ok b ∧ b.length ≤ s.length) :=
  ⟨whileGe_all (fun _ _ _ h => (rdTunnelTlv_back h).1) h,
   fun hs => encAll_of_whileGe (Q := fun t : TunnelTlv => ∀ x ∈ t.subs, x.type.toNat < 128 → x.value.length < 256)
    (fun _ _ _ h hq => (rdTunnelTlv_back h).2 hq) h hs⟩

/-- an encodable tunnel attribute has no oversized sub-TLV. -/
theorem encodeTunnel_fits {ts : List TunnelTlv} {b : Bytes} (h : encodeTunnel ts = .ok b) :
    ∀ t ∈ ts, ∀ x ∈ t.subs, x.type.toNat < 128 → x.value.length < 256 := by
  intro t ht x hx hty
  obtain ⟨c, hc⟩ := encAll_ok_mem h t ht
  unfold encTunnelTlv at hc
  cases he : encAll encSubTlv t.subs with
  | error e => rw [he] at hc; cases hc
  | ok d =>
    obtain ⟨y, hy⟩ := encAll_ok_mem he x hx
    unfold encSubTlv at hy
    rw [if_pos hty] at hy
    cases hu : u8Len x.value with
    | error e => rw [hu] at hy; cases hy
    | ok z => have := (u8Len_ok.mp hu).1; omega

end Verif
