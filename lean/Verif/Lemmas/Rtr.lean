import Verif.Lemmas.MrtRead
import Verif.Lemmas.MrtBody
import Verif.Spec.Rtr
/-
RPKI-to-Router PDUs.
-/
namespace Verif
open Spec

theorem idx_ok {d : Bytes} {i : Nat} {x : UInt8} : idx d i = .ok x ↔ d.drop i = x :: d.drop (i + 1) := by
  unfold idx
  by_cases h : i < d.length
  · have e := List.drop_eq_getElem_cons h
    rw [List.getElem?_eq_getElem h]
    constructor
    · intro g; cases g; exact e
    · intro g
      rw [e] at g
      injection g with g1 _
      rw [g1]
  · rw [List.getElem?_eq_none (by omega), List.drop_eq_nil_of_le (by omega)]
    simp

theorem idx_lt {d : Bytes} {i : Nat} (h : i < d.length) : ∃ x, idx d i = .ok x := by
  unfold idx
  rw [List.getElem?_eq_getElem h]
  exact ⟨_, rfl⟩

theorem ex_bind_ok {x : Except ε α} {f : α → Except ε β} {b : β} :
    (x >>= f) = .ok b ↔ ∃ a, x = .ok a ∧ f a = .ok b := by
  cases x with
  | error e => exact ⟨fun h => (by cases h), fun ⟨a, h, _⟩ => (by cases h)⟩
  | ok a => exact ⟨fun h => ⟨a, rfl, h⟩, fun ⟨a', h, g⟩ => by cases h; exact g⟩

theorem ex_ok_bind {a : α} {f : α → Except ε β} : ((Except.ok a : Except ε α) >>= f) = f a := rfl

theorem ex_bind_error {x : Except ε α} {f : α → Except ε β} {e : ε} :
    (x >>= f) = .error e ↔ x = .error e ∨ ∃ a, x = .ok a ∧ f a = .error e := by
  cases x with
  | error e' =>
    constructor
    · intro h; left; cases h; rfl
    · rintro (h | ⟨a, h, _⟩)
      · cases h; rfl
      · cases h
  | ok a =>
    constructor
    · intro h; right; exact ⟨a, rfl, h⟩
    · rintro (h | ⟨a', h, g⟩)
      · cases h
      · cases h; exact g

theorem idx32_ok {d : Bytes} {i : Nat} {x : UInt32} : idx32 d i = .ok x ↔ d.drop i = be32 x ++ d.drop (i + 4) := by
  unfold idx32
  constructor
  · intro h
    rw [ex_bind_ok] at h
    obtain ⟨a, ha, h⟩ := h
    rw [ex_bind_ok] at h
    obtain ⟨b, hb, h⟩ := h
    rw [ex_bind_ok] at h
    obtain ⟨c, hc, h⟩ := h
    rw [ex_bind_ok] at h
    obtain ⟨e, he, h⟩ := h
    cases h
    rw [idx_ok] at ha hb hc he
    rw [be32_u32of, ha, hb, hc, he]
    rfl
  · intro h
    have k : ∀ j y, idx d (i + j) = .ok y ↔ (d.drop i).drop j = y :: (d.drop i).drop (j + 1) := by
      intro j y
      rw [idx_ok, List.drop_drop, List.drop_drop, Nat.add_assoc]
    have e0 := (k 0 (UInt8.ofNat (x.toNat / 16777216))).2 (by rw [h]; rfl)
    have e1 := (k 1 (UInt8.ofNat (x.toNat / 65536))).2 (by rw [h]; rfl)
    have e2 := (k 2 (UInt8.ofNat (x.toNat / 256))).2 (by rw [h]; rfl)
    have e3 := (k 3 (UInt8.ofNat x.toNat)).2 (by rw [h]; rfl)
    rw [Nat.add_zero] at e0
    rw [e0, e1, e2, e3]
    show Except.ok _ = _
    rw [u32of_be32]

theorem idx32_lt {d : Bytes} {i : Nat} (h : i + 4 ≤ d.length) : ∃ x, idx32 d i = .ok x := by
  obtain ⟨a, ha⟩ := idx_lt (d := d) (i := i) (by omega)
  obtain ⟨b, hb⟩ := idx_lt (d := d) (i := i + 1) (by omega)
  obtain ⟨c, hc⟩ := idx_lt (d := d) (i := i + 2) (by omega)
  obtain ⟨e, he⟩ := idx_lt (d := d) (i := i + 3) (by omega)
  unfold idx32
  rw [ha, hb, hc, he]
  exact ⟨_, rfl⟩

theorem drop_split {d : Bytes} (i n : Nat) : d.drop i = (d.drop i).take n ++ d.drop (i + n) := by
  rw [← List.drop_drop, List.take_append_drop]

theorem vecAt_ok {d : Bytes} {i n : Nat} {v : Vector UInt8 n} (hi : i ≤ d.length) :
    vecAt d i n = .ok v ↔ d.drop i = v.toList ++ d.drop (i + n) := by
  unfold vecAt
  constructor
  · intro h
    by_cases hl : i + n ≤ d.length
    · rw [dif_pos hl] at h
      cases h
      exact drop_split i n
    · rw [dif_neg hl] at h; cases h
  · intro h
    have hn : v.toList.length = n := by simp
    have hl : i + n ≤ d.length := by
      have := congrArg List.length h
      simp at this
      omega
    rw [dif_pos hl]
    congr 1
    apply Vector.toArray_inj.mp
    show ((d.drop i).take n).toArray = v.toArray
    have e : (d.drop i).take n = v.toList := by rw [h, List.take_left' hn]
    rw [e]
    rfl

theorem vecAt_lt {d : Bytes} {i n : Nat} (h : i + n ≤ d.length) : ∃ x, vecAt d i n = .ok x := by
  unfold vecAt
  rw [dif_pos h]
  exact ⟨_, rfl⟩

theorem slice_ok {d : Bytes} {i n : Nat} {b : Bytes} (hi : i ≤ d.length) :
    slice d i n = .ok b ↔ b.length = n ∧ d.drop i = b ++ d.drop (i + n) := by
  unfold slice
  constructor
  · intro h
    by_cases hl : i + n ≤ d.length
    · rw [if_pos hl] at h
      cases h
      refine ⟨?_, drop_split i n⟩
      rw [List.length_take, List.length_drop]; omega
    · rw [if_neg hl] at h; cases h
  · rintro ⟨hn, h⟩
    have hl : i + n ≤ d.length := by
      have := congrArg List.length h
      simp at this
      omega
    rw [if_pos hl, h, List.take_left' hn]

theorem slice_lt {d : Bytes} {i n : Nat} (h : i + n ≤ d.length) : ∃ x, slice d i n = .ok x := by
  unfold slice
  rw [if_pos h]
  exact ⟨_, rfl⟩

/-! ### numbers -/

theorem u8_all {P : UInt8 → Prop} (h : ∀ n, n < 256 → P (UInt8.ofNat n)) (b : UInt8) : P b := by
  have := h b.toNat b.toNat_lt
  rwa [UInt8.ofNat_toNat] at this

theorem versionOf_num {b : UInt8} {v : RtrVersion} : RtrVersion.ofU8? b = some v ↔ b = rtrVersionNum v := by
  unfold RtrVersion.ofU8?
  by_cases h0 : b = 0
  · subst h0; cases v <;> decide
  · by_cases h1 : b = 1
    · subst h1; cases v <;> decide
    · rw [if_neg h0, if_neg h1]; cases v <;> simp [rtrVersionNum, h0, h1]

theorem versionOf_none (b : UInt8) : RtrVersion.ofU8? b = none ↔ 2 ≤ b.toNat := by
  revert b; apply u8_all; decide +kernel

theorem typeOf_num (b : UInt8) {t : RtrType} : RtrType.ofU8? b = some t ↔ b = t.toU8 := by
  revert b; apply u8_all; cases t <;> decide +kernel

theorem typeOf_none (b : UInt8) : RtrType.ofU8? b = none ↔ ¬ rtrTypeKnown b := by
  unfold rtrTypeKnown
  revert b; apply u8_all; decide +kernel

theorem codeOf_num {x : UInt16} {c : RtrCode} : RtrCode.ofU16? x = some c ↔ x.toNat = rtrCodeNum c := by
  have e : x.toNat = rtrCodeNum c ↔ x = c.toU16 := by
    rw [← UInt16.toNat_inj]; cases c <;> rfl
  rw [e]
  constructor
  · intro h
    unfold RtrCode.ofU16? at h
    repeat' (first | (split at h <;> first | (subst x; cases h; rfl) | skip) | cases h)
  · rintro rfl; cases c <;> decide

theorem codeOf_none {x : UInt16} : RtrCode.ofU16? x = none ↔ 8 < x.toNat := by
  constructor
  · intro h
    apply Classical.byContradiction
    intro g
    have hx : x = UInt16.ofNat x.toNat := by simp
    generalize x.toNat = n at g hx
    have hn : n = 0 ∨ n = 1 ∨ n = 2 ∨ n = 3 ∨ n = 4 ∨ n = 5 ∨ n = 6 ∨ n = 7 ∨ n = 8 := by omega
    subst hx
    rcases hn with rfl | rfl | rfl | rfl | rfl | rfl | rfl | rfl | rfl <;> revert h <;> decide
  · intro h
    cases e : RtrCode.ofU16? x with
    | none => rfl
    | some c => rw [codeOf_num] at e; cases c <;> simp [rtrCodeNum] at e <;> omega

theorem versionToU8 (v : RtrVersion) : v.toU8 = rtrVersionNum v := by cases v <;> rfl

theorem be16_code (c : RtrCode) : be16 c.toU16 = n16 (rtrCodeNum c) := by cases c <;> rfl

theorem validLength_ok {a e : UInt32} {t : UInt8} : validLength a e t = .ok () ↔ a = e := by
  unfold validLength
  by_cases h : a = e <;> simp [h]

theorem validPrefixLength_ok {l m k : UInt8} : validPrefixLength l m k = .ok () ↔ l.toNat ≤ m.toNat ∧ m.toNat ≤ k.toNat := by
  unfold validPrefixLength
  simp only [gt_iff_lt, UInt8.lt_iff_toNat_lt]
  by_cases h : m.toNat < l.toNat ∨ k.toNat < m.toNat
  · rw [if_pos h]; constructor
    · intro h; cases h
    · omega
  · rw [if_neg h]; simp; omega

/-! ### soundness of parsing -/

theorem parsePdu_head {d : Bytes} {r : Pdu × Nat} (h : parsePdu d = .ok r) :
    ∃ (v : RtrVersion) (ty : RtrType) (x : UInt16) (len : UInt32),
      d = rtrStart v ty.toU8 (n16 x.toNat) len.toNat ++ d.drop 8 ∧ 8 ≤ d.length ∧ len.toNat ≤ d.length ∧
      parsePduBody d v ty ty.toU8 x len = .ok r.1 ∧ r.2 = len.toNat := by
  unfold parsePdu at h
  by_cases h8 : d.length < 8
  · rw [if_pos h8] at h; cases h
  rw [if_neg h8, ex_bind_ok] at h
  obtain ⟨vb, hv, h⟩ := h
  rw [ex_bind_ok] at h
  obtain ⟨tb, ht, h⟩ := h
  rw [ex_bind_ok] at h
  obtain ⟨x1, h1, h⟩ := h
  rw [ex_bind_ok] at h
  obtain ⟨x2, h2, h⟩ := h
  rw [ex_bind_ok] at h
  obtain ⟨len, hl, h⟩ := h
  by_cases hd : d.length < len.toNat
  · rw [if_pos hd] at h; cases h
  rw [if_neg hd] at h
  cases ev : RtrVersion.ofU8? vb with
  | none => rw [ev] at h; cases h
  | some v =>
    cases et : RtrType.ofU8? tb with
    | none => rw [ev, et] at h; cases h
    | some ty =>
      rw [ev, et] at h
      simp only [] at h
      rw [ex_bind_ok] at h
      obtain ⟨p, hp, h⟩ := h
      cases h
      rw [versionOf_num] at ev
      rw [typeOf_num] at et
      subst ev et
      rw [idx_ok] at hv ht h1 h2
      rw [idx32_ok] at hl
      refine ⟨v, ty, u16of x1 x2, len, ?_, by omega, by omega, hp, rfl⟩
      rw [← be16_n16, be16_u16of]
      show d = rtrVersionNum v :: ty.toU8 :: ([x1, x2] ++ n32 len.toNat) ++ d.drop 8
      rw [← be32_n32]
      have e : d = d.drop 0 := rfl
      conv => lhs; rw [e, hv, ht, h1, h2, hl]
      rfl

theorem parsePduBody_sound {d : Bytes} {v : RtrVersion} {ty : RtrType} {x : UInt16} {len : UInt32} {p : Pdu}
    (h8 : 8 ≤ d.length) (hd : len.toNat ≤ d.length)
    (hh : d = rtrStart v ty.toU8 (n16 x.toNat) len.toNat ++ d.drop 8)
    (h : parsePduBody d v ty ty.toU8 x len = .ok p) :
    ∃ b rest, d = b ++ rest ∧ b.length = len.toNat ∧ PduBytes p b := by
  have l12 : (12 : UInt32).toNat = 12 := rfl
  have l8 : (8 : UInt32).toNat = 8 := rfl
  have l20 : (20 : UInt32).toNat = 20 := rfl
  have l32 : (32 : UInt32).toNat = 32 := rfl
  have k32 : (32 : UInt8).toNat = 32 := rfl
  have k128 : (128 : UInt8).toNat = 128 := rfl
  cases ty with
  | serialNotify =>
    simp only [parsePduBody] at h
    rw [ex_bind_ok] at h
    obtain ⟨_, hl, h⟩ := h
    rw [validLength_ok] at hl
    rw [ex_bind_ok] at h
    obtain ⟨n, hn, h⟩ := h
    cases h
    rw [idx32_ok] at hn
    subst hl
    refine ⟨_, d.drop 12, ?_, ?_, .serialNotify v x n⟩
    · rw [hn, l12] at hh
      rw [List.append_assoc]; exact hh
    · rfl
  | serialQuery =>
    simp only [parsePduBody] at h
    rw [ex_bind_ok] at h
    obtain ⟨_, hl, h⟩ := h
    rw [validLength_ok] at hl
    rw [ex_bind_ok] at h
    obtain ⟨n, hn, h⟩ := h
    cases h
    rw [idx32_ok] at hn
    subst hl
    refine ⟨_, d.drop 12, ?_, ?_, .serialQuery v x n⟩
    · rw [hn, l12] at hh
      rw [List.append_assoc]; exact hh
    · rfl
  | resetQuery =>
    simp only [parsePduBody] at h
    rw [ex_bind_ok] at h
    obtain ⟨_, hl, h⟩ := h
    rw [validLength_ok] at hl
    cases h
    subst hl
    exact ⟨_, d.drop 8, hh, rfl, .resetQuery v _ rfl⟩
  | cacheResponse =>
    simp only [parsePduBody] at h
    rw [ex_bind_ok] at h
    obtain ⟨_, hl, h⟩ := h
    rw [validLength_ok] at hl
    cases h
    subst hl
    exact ⟨_, d.drop 8, hh, rfl, .cacheResponse v _⟩
  | cacheReset =>
    simp only [parsePduBody] at h
    rw [ex_bind_ok] at h
    obtain ⟨_, hl, h⟩ := h
    rw [validLength_ok] at hl
    cases h
    subst hl
    exact ⟨_, d.drop 8, hh, rfl, .cacheReset v _ rfl⟩
  | ipv4Prefix =>
    simp only [parsePduBody] at h
    rw [ex_bind_ok] at h
    obtain ⟨_, hl, h⟩ := h
    rw [validLength_ok] at hl
    subst hl
    rw [ex_bind_ok] at h
    obtain ⟨f, hf, h⟩ := h
    rw [ex_bind_ok] at h
    obtain ⟨l, hl, h⟩ := h
    rw [ex_bind_ok] at h
    obtain ⟨m, hm, h⟩ := h
    rw [ex_bind_ok] at h
    obtain ⟨_, hv, h⟩ := h
    rw [validPrefixLength_ok] at hv
    rw [ex_bind_ok] at h
    obtain ⟨q, hq, h⟩ := h
    rw [ex_bind_ok] at h
    obtain ⟨a, ha, h⟩ := h
    cases h
    obtain ⟨y, hy⟩ := idx_lt (d := d) (i := 11) (by omega)
    rw [idx_ok] at hf hl hm hy
    rw [vecAt_ok (by omega)] at hq
    rw [idx32_ok] at ha
    refine ⟨_, d.drop 20, ?_, ?_, .ipv4Prefix v f l m q a (n16 x.toNat) y hv.1 hv.2 rfl⟩
    · rw [hf, hl, hm, hy, hq, ha, l20] at hh
      simpa [be32_n32, RtrType.toU8] using hh
    · simp [rtrStart, n16, n32]
  | ipv6Prefix =>
    simp only [parsePduBody] at h
    rw [ex_bind_ok] at h
    obtain ⟨_, hl, h⟩ := h
    rw [validLength_ok] at hl
    subst hl
    rw [ex_bind_ok] at h
    obtain ⟨f, hf, h⟩ := h
    rw [ex_bind_ok] at h
    obtain ⟨l, hl, h⟩ := h
    rw [ex_bind_ok] at h
    obtain ⟨m, hm, h⟩ := h
    rw [ex_bind_ok] at h
    obtain ⟨_, hv, h⟩ := h
    rw [validPrefixLength_ok] at hv
    rw [ex_bind_ok] at h
    obtain ⟨q, hq, h⟩ := h
    rw [ex_bind_ok] at h
    obtain ⟨a, ha, h⟩ := h
    cases h
    obtain ⟨y, hy⟩ := idx_lt (d := d) (i := 11) (by omega)
    rw [idx_ok] at hf hl hm hy
    rw [vecAt_ok (by omega)] at hq
    rw [idx32_ok] at ha
    refine ⟨_, d.drop 32, ?_, ?_, .ipv6Prefix v f l m q a (n16 x.toNat) y hv.1 hv.2 rfl⟩
    · rw [hf, hl, hm, hy, hq, ha, l32] at hh
      simpa [be32_n32, RtrType.toU8] using hh
    · simp [rtrStart, n16, n32]
  | endOfData =>
    simp only [parsePduBody] at h
    rw [ex_bind_ok] at h
    obtain ⟨_, hl, h⟩ := h
    rw [validLength_ok] at hl
    subst hl
    rw [ex_bind_ok] at h
    obtain ⟨n, hn, h⟩ := h
    rw [idx32_ok] at hn
    rw [ex_bind_ok] at h
    obtain ⟨⟨r, t, e⟩, hi, h⟩ := h
    cases h
    cases v with
    | v0 =>
      cases hi
      refine ⟨_, d.drop 12, ?_, ?_, .endOfDataV0 x n⟩
      · rw [hn] at hh
        rw [List.append_assoc]; exact hh
      · rfl
    | v1 =>
      simp only [parseIntervals] at hi
      rw [ex_bind_ok] at hi
      obtain ⟨r', hr, hi⟩ := hi
      rw [ex_bind_ok] at hi
      obtain ⟨t', ht, hi⟩ := hi
      rw [ex_bind_ok] at hi
      obtain ⟨e', he, hi⟩ := hi
      cases hi
      rw [idx32_ok] at hr ht he
      refine ⟨_, d.drop 24, ?_, ?_, .endOfDataV1 x n r' t' e'⟩
      · rw [hn, hr, ht, he] at hh
        simp only [List.append_assoc]; exact hh
      · rfl
  | routerKey =>
    simp only [parsePduBody, parseRouterKey] at h
    by_cases hv : v = .v0
    · rw [if_pos hv] at h; cases h
    have hv : v = .v1 := by cases v <;> simp at hv ⊢
    subst hv
    rw [if_neg (by decide)] at h
    by_cases hl : len < 34
    · rw [if_pos hl] at h; cases h
    rw [if_neg hl] at h
    have hl : 34 ≤ len.toNat := by
      rw [UInt32.lt_iff_toNat_lt] at hl
      have : (34 : UInt32).toNat = 34 := rfl
      omega
    rw [ex_bind_ok] at h
    obtain ⟨f, hf, h⟩ := h
    rw [ex_bind_ok] at h
    obtain ⟨k, hk, h⟩ := h
    rw [ex_bind_ok] at h
    obtain ⟨a, ha, h⟩ := h
    rw [ex_bind_ok] at h
    obtain ⟨spki, hs, h⟩ := h
    cases h
    obtain ⟨y, hy⟩ := idx_lt (d := d) (i := 9) (by omega)
    rw [idx_ok] at hf hy
    rw [vecAt_ok (by omega)] at hk
    rw [idx32_ok] at ha
    rw [slice_ok (by omega)] at hs
    obtain ⟨hs1, hs⟩ := hs
    have hlen := len.toNat_lt
    have e : 34 + spki.length = len.toNat := by omega
    refine ⟨_, d.drop len.toNat, ?_, ?_, .routerKey f k a spki (n16 x.toNat) y rfl (by omega)⟩
    · rw [e]
      have e2 : 34 + (len.toNat - 34) = len.toNat := by omega
      rw [e2] at hs
      rw [hf, hy, hk, ha, hs] at hh
      simpa [be32_n32, RtrType.toU8] using hh
    · rw [← e]
      simp [rtrStart, n16, n32]
      omega
  | errorReport =>
    simp only [parsePduBody, parseErrorReport] at h
    by_cases hl : len < 16
    · rw [if_pos hl] at h; cases h
    rw [if_neg hl] at h
    have hl : 16 ≤ len.toNat := by
      rw [UInt32.lt_iff_toNat_lt] at hl
      have : (16 : UInt32).toNat = 16 := rfl
      omega
    have hlen := len.toNat_lt
    cases hc : RtrCode.ofU16? x with
    | none => rw [hc] at h; cases h
    | some c =>
      rw [hc] at h
      rw [codeOf_num] at hc
      simp only [] at h
      rw [ex_bind_ok] at h
      obtain ⟨el, he, h⟩ := h
      by_cases hn : el.toNat > len.toNat - 16
      · rw [if_pos hn] at h; cases h
      rw [if_neg hn, ex_bind_ok] at h
      obtain ⟨p, hp, h⟩ := h
      rw [ex_bind_ok] at h
      obtain ⟨tl, ht, h⟩ := h
      by_cases hm : tl.toNat > len.toNat - (12 + el.toNat + 4)
      · rw [if_pos hm] at h; cases h
      rw [if_neg hm] at h
      rw [idx32_ok] at he ht
      rw [slice_ok (by omega)] at hp
      obtain ⟨hp1, hp⟩ := hp
      have key : ∀ t, t.length = tl.toNat → d.drop (12 + el.toNat + 4) = t ++ d.drop (12 + el.toNat + 4 + tl.toNat) →
          utf8Ok t = true → ∃ b rest, d = b ++ rest ∧ b.length = len.toNat ∧ PduBytes (.errorReport v c p t) b := by
        intro t t1 t2 t3
        have s1 := drop_split (d := d) (12 + el.toNat + 4 + tl.toNat) (len.toNat - (12 + el.toNat + 4 + tl.toNat))
        have s2 : 12 + el.toNat + 4 + tl.toNat + (len.toNat - (12 + el.toNat + 4 + tl.toNat)) = len.toNat := by omega
        rw [s2] at s1
        have s3 : ((d.drop (12 + el.toNat + 4 + tl.toNat)).take (len.toNat - (12 + el.toNat + 4 + tl.toNat))).length =
            len.toNat - (12 + el.toNat + 4 + tl.toNat) := by
          rw [List.length_take, List.length_drop]; omega
        generalize (d.drop (12 + el.toNat + 4 + tl.toNat)).take (len.toNat - (12 + el.toNat + 4 + tl.toNat)) = slack at s1 s3
        have e : 16 + p.length + t.length + slack.length = len.toNat := by omega
        refine ⟨_, d.drop len.toNat, ?_, ?_, .errorReport v c p t slack t3 (by omega)⟩
        · rw [he, hp, ht, t2, s1] at hh
          rw [e, ← hc, hp1, t1]
          simpa [be32_n32, RtrType.toU8] using hh
        · simp only [rtrStart, n16, n32, List.length_append, List.length_cons, List.length_nil]
          omega
      by_cases hz : tl.toNat > 0
      · rw [if_pos hz, ex_bind_ok] at h
        obtain ⟨t, hs, h⟩ := h
        rw [slice_ok (by omega)] at hs
        by_cases hu : utf8Ok t = true
        · rw [if_pos hu] at h
          cases h
          exact key t hs.1 hs.2 hu
        · rw [if_neg hu] at h; cases h
      · rw [if_neg hz] at h
        cases h
        have : tl.toNat = 0 := by omega
        exact key [] (by simp [this]) (by rw [this]; rfl) rfl

/-! ### every outcome, and what it depends on -/

theorem idx_both {d : Bytes} {i : Nat} (h : i < d.length) : ∃ y, ∀ x, idx (d ++ x) i = .ok y := by
  refine ⟨d[i], fun x => ?_⟩
  unfold idx
  rw [List.getElem?_append_left h, List.getElem?_eq_getElem h]

theorem idx32_both {d : Bytes} {i : Nat} (h : i + 4 ≤ d.length) : ∃ y, ∀ x, idx32 (d ++ x) i = .ok y := by
  obtain ⟨a, ha⟩ := idx_both (d := d) (i := i) (by omega)
  obtain ⟨b, hb⟩ := idx_both (d := d) (i := i + 1) (by omega)
  obtain ⟨c, hc⟩ := idx_both (d := d) (i := i + 2) (by omega)
  obtain ⟨e, he⟩ := idx_both (d := d) (i := i + 3) (by omega)
  refine ⟨u32of a b c e, fun x => ?_⟩
  unfold idx32
  rw [ha, hb, hc, he]
  rfl

theorem vecAt_both {d : Bytes} {i n : Nat} (h : i + n ≤ d.length) : ∃ y, ∀ x, vecAt (d ++ x) i n = .ok y := by
  obtain ⟨y, hy⟩ := vecAt_lt h
  refine ⟨y, fun x => ?_⟩
  rw [vecAt_ok (by omega)] at hy
  rw [vecAt_ok (by simp; omega), List.drop_append_of_le_length (by omega), hy,
    List.drop_append_of_le_length (by omega), List.append_assoc]

theorem slice_both {d : Bytes} {i n : Nat} (h : i + n ≤ d.length) : ∃ y, ∀ x, slice (d ++ x) i n = .ok y := by
  obtain ⟨y, hy⟩ := slice_lt h
  refine ⟨y, fun x => ?_⟩
  rw [slice_ok (by omega)] at hy
  rw [slice_ok (by simp; omega)]
  refine ⟨hy.1, ?_⟩
  rw [List.drop_append_of_le_length (by omega), hy.2, List.drop_append_of_le_length (by omega), List.append_assoc]

theorem at_nil {α : Type} {f : Bytes → α} {d : Bytes} {r : α} (h : ∀ x, f (d ++ x) = r) : f d = r := by
  have := h []
  rwa [List.append_nil] at this

theorem clamp32_toNat (m : Nat) : (clamp32 m).toNat = min m 4294967295 := by
  unfold clamp32
  by_cases h : m ≤ 4294967295
  · rw [if_pos h]; simp; omega
  · rw [if_neg h]
    show 4294967295 = _
    omega

/-- the outcome `r` of parsing the body of a complete PDU. -/
def BodyOut (d : Bytes) (len : UInt32) (f : Bytes → Except RtrErr Pdu) : Prop :=
  ∃ r, (∀ x, f (d ++ x) = r) ∧ ∀ e, r = .error e → RtrFault d len.toNat e

theorem bodyOut_error {d : Bytes} {len : UInt32} {f : Bytes → Except RtrErr Pdu} {e : RtrErr}
    (h : ∀ x, f (d ++ x) = .error e) (hf : RtrFault d len.toNat e) : BodyOut d len f :=
  ⟨.error e, h, fun e' he => by cases he; exact hf⟩

theorem bodyOut_ok {d : Bytes} {len : UInt32} {f : Bytes → Except RtrErr Pdu} {p : Pdu}
    (h : ∀ x, f (d ++ x) = .ok p) : BodyOut d len f :=
  ⟨.ok p, h, fun e' he => by cases he⟩

theorem validLength_ne {a e : UInt32} {t : UInt8} (h : a ≠ e) : validLength a e t = .error (.badLength e a t) := by
  unfold validLength; rw [if_pos h]

theorem validLength_self {e : UInt32} {t : UInt8} : validLength e e t = .ok () := by
  unfold validLength; rw [if_neg (by simp)]

theorem fault_length {d : Bytes} {v : RtrVersion} {ty : RtrType} {x : UInt16} {len k : UInt32} {t : Bytes}
    (hd : d = rtrStart v ty.toU8 (n16 x.toNat) len.toNat ++ t)
    (hk : rtrFixedLen v ty.toU8 = some k.toNat) (hl : len ≠ k) :
    RtrFault d len.toNat (.badLength k len ty.toU8) := by
  have : len.toNat ≠ k.toNat := by
    intro h; exact hl (UInt32.toNat_inj.mp h)
  exact .length v _ _ _ _ _ hd hk this rfl rfl

theorem parsePduBody_out {d : Bytes} {v : RtrVersion} {ty : RtrType} {x : UInt16} {len : UInt32}
    (h8 : 8 ≤ d.length) (hd : len.toNat ≤ d.length)
    (hh : d = rtrStart v ty.toU8 (n16 x.toNat) len.toNat ++ d.drop 8) :
    BodyOut d len (fun d => parsePduBody d v ty ty.toU8 x len) := by
  have l12 : (12 : UInt32).toNat = 12 := rfl
  have l8 : (8 : UInt32).toNat = 8 := rfl
  have l20 : (20 : UInt32).toNat = 20 := rfl
  have l32 : (32 : UInt32).toNat = 32 := rfl
  cases ty with
  | serialNotify =>
    by_cases hl : len = 12
    · subst hl
      obtain ⟨n, hn⟩ := idx32_both (d := d) (i := 8) (by omega)
      exact bodyOut_ok (p := .serialNotify v x n) fun z => by simp only [parsePduBody, validLength_self, hn]; rfl
    · exact bodyOut_error (fun z => by simp only [parsePduBody]; rw [validLength_ne hl]; rfl) (fault_length hh rfl hl)
  | serialQuery =>
    by_cases hl : len = 12
    · subst hl
      obtain ⟨n, hn⟩ := idx32_both (d := d) (i := 8) (by omega)
      exact bodyOut_ok (p := .serialQuery v x n) fun z => by simp only [parsePduBody, validLength_self, hn]; rfl
    · exact bodyOut_error (fun z => by simp only [parsePduBody]; rw [validLength_ne hl]; rfl) (fault_length hh rfl hl)
  | resetQuery =>
    by_cases hl : len = 8
    · subst hl
      exact bodyOut_ok (p := .resetQuery v) fun z => by simp only [parsePduBody, validLength_self]; rfl
    · exact bodyOut_error (fun z => by simp only [parsePduBody]; rw [validLength_ne hl]; rfl) (fault_length hh rfl hl)
  | cacheResponse =>
    by_cases hl : len = 8
    · subst hl
      exact bodyOut_ok (p := .cacheResponse v x) fun z => by simp only [parsePduBody, validLength_self]; rfl
    · exact bodyOut_error (fun z => by simp only [parsePduBody]; rw [validLength_ne hl]; rfl) (fault_length hh rfl hl)
  | cacheReset =>
    by_cases hl : len = 8
    · subst hl
      exact bodyOut_ok (p := .cacheReset v) fun z => by simp only [parsePduBody, validLength_self]; rfl
    · exact bodyOut_error (fun z => by simp only [parsePduBody]; rw [validLength_ne hl]; rfl) (fault_length hh rfl hl)
  | ipv4Prefix =>
    by_cases hl : len = 20
    · subst hl
      obtain ⟨f, hf⟩ := idx_both (d := d) (i := 8) (by omega)
      obtain ⟨l, hl⟩ := idx_both (d := d) (i := 9) (by omega)
      obtain ⟨m, hm⟩ := idx_both (d := d) (i := 10) (by omega)
      obtain ⟨q, hq⟩ := vecAt_both (d := d) (i := 12) (n := 4) (by omega)
      obtain ⟨a, ha⟩ := idx32_both (d := d) (i := 16) (by omega)
      by_cases hv : l > m ∨ m > 32
      · refine bodyOut_error (e := .badPrefixLength l m 32)
          (fun z => by simp only [parsePduBody, validLength_self, hf, hl, hm, ex_ok_bind, validPrefixLength]; rw [if_pos hv]; rfl) ?_
        have f1 := at_nil (f := fun d => idx d 8) hf
        have f2 := at_nil (f := fun d => idx d 9) hl
        have f3 := at_nil (f := fun d => idx d 10) hm
        simp only [idx_ok] at f1 f2 f3
        refine .prefix_ v 4 32 l m f (n16 x.toNat) (d.drop 11) rfl (.inl ⟨rfl, rfl, rfl⟩) ?_ ?_
        · rw [f1, f2, f3] at hh; exact hh
        · simp only [gt_iff_lt, UInt8.lt_iff_toNat_lt] at hv
          exact hv
      · exact bodyOut_ok (p := .ipv4Prefix v f l m q a) fun z => by
          simp only [parsePduBody, validLength_self, hf, hl, hm, ex_ok_bind, validPrefixLength]; rw [if_neg hv]
          simp only [hq, ha]; rfl
    · exact bodyOut_error (fun z => by simp only [parsePduBody]; rw [validLength_ne hl]; rfl) (fault_length hh rfl hl)
  | ipv6Prefix =>
    by_cases hl : len = 32
    · subst hl
      obtain ⟨f, hf⟩ := idx_both (d := d) (i := 8) (by omega)
      obtain ⟨l, hl⟩ := idx_both (d := d) (i := 9) (by omega)
      obtain ⟨m, hm⟩ := idx_both (d := d) (i := 10) (by omega)
      obtain ⟨q, hq⟩ := vecAt_both (d := d) (i := 12) (n := 16) (by omega)
      obtain ⟨a, ha⟩ := idx32_both (d := d) (i := 28) (by omega)
      by_cases hv : l > m ∨ m > 128
      · refine bodyOut_error (e := .badPrefixLength l m 128)
          (fun z => by simp only [parsePduBody, validLength_self, hf, hl, hm, ex_ok_bind, validPrefixLength]; rw [if_pos hv]; rfl) ?_
        have f1 := at_nil (f := fun d => idx d 8) hf
        have f2 := at_nil (f := fun d => idx d 9) hl
        have f3 := at_nil (f := fun d => idx d 10) hm
        simp only [idx_ok] at f1 f2 f3
        refine .prefix_ v 6 128 l m f (n16 x.toNat) (d.drop 11) rfl (.inr ⟨rfl, rfl, rfl⟩) ?_ ?_
        · rw [f1, f2, f3] at hh; exact hh
        · simp only [gt_iff_lt, UInt8.lt_iff_toNat_lt] at hv
          exact hv
      · exact bodyOut_ok (p := .ipv6Prefix v f l m q a) fun z => by
          simp only [parsePduBody, validLength_self, hf, hl, hm, ex_ok_bind, validPrefixLength]; rw [if_neg hv]
          simp only [hq, ha]; rfl
    · exact bodyOut_error (fun z => by simp only [parsePduBody]; rw [validLength_ne hl]; rfl) (fault_length hh rfl hl)
  | endOfData =>
    by_cases hl : len = endOfDataLen v
    · subst hl
      cases v with
      | v0 =>
        have : (endOfDataLen .v0).toNat = 12 := rfl
        obtain ⟨n, hn⟩ := idx32_both (d := d) (i := 8) (by omega)
        exact bodyOut_ok (p := .endOfData .v0 x n none none none) fun z => by
          simp only [parsePduBody, validLength_self, hn]; rfl
      | v1 =>
        have : (endOfDataLen .v1).toNat = 24 := rfl
        obtain ⟨n, hn⟩ := idx32_both (d := d) (i := 8) (by omega)
        obtain ⟨r, hr⟩ := idx32_both (d := d) (i := 12) (by omega)
        obtain ⟨t, ht⟩ := idx32_both (d := d) (i := 16) (by omega)
        obtain ⟨e, he⟩ := idx32_both (d := d) (i := 20) (by omega)
        exact bodyOut_ok (p := .endOfData .v1 x n (some r) (some t) (some e)) fun z => by
          simp only [parsePduBody, validLength_self, hn, parseIntervals, hr, ht, he]; rfl
    · exact bodyOut_error (fun z => by simp only [parsePduBody]; rw [validLength_ne hl]; rfl)
        (fault_length hh (by cases v <;> rfl) hl)
  | routerKey =>
    cases v with
    | v0 => exact bodyOut_error (e := .routerKeyInV0) (fun z => rfl) (.keyInV0 _ _ hh)
    | v1 =>
      have l34 : (34 : UInt32).toNat = 34 := rfl
      by_cases hl : len < 34
      · refine bodyOut_error (e := .badLength 34 len 9) (fun z => ?_) ?_
        · simp only [parsePduBody, parseRouterKey]; rw [if_neg (by decide), if_pos hl]; rfl
        · rw [UInt32.lt_iff_toNat_lt] at hl
          exact .keyShort _ _ _ _ hh (by omega) rfl rfl
      · have hl' := hl
        rw [UInt32.lt_iff_toNat_lt] at hl
        obtain ⟨f, hf⟩ := idx_both (d := d) (i := 8) (by omega)
        obtain ⟨k, hk⟩ := vecAt_both (d := d) (i := 10) (n := 20) (by omega)
        obtain ⟨a, ha⟩ := idx32_both (d := d) (i := 30) (by omega)
        obtain ⟨s, hs⟩ := slice_both (d := d) (i := 34) (n := len.toNat - 34) (by omega)
        exact bodyOut_ok (p := .routerKey .v1 f k a s) fun z => by
          simp only [parsePduBody, parseRouterKey]; rw [if_neg (by decide), if_neg hl']
          simp only [hf, hk, ha, hs]; rfl
  | errorReport =>
    have l16 : (16 : UInt32).toNat = 16 := rfl
    by_cases hl : len < 16
    · refine bodyOut_error (e := .badLength 16 len 10) (fun z => ?_) ?_
      · simp only [parsePduBody, parseErrorReport]; rw [if_pos hl]; rfl
      · rw [UInt32.lt_iff_toNat_lt] at hl
        exact .reportShort v _ _ _ _ hh (by omega) rfl rfl
    · have hl' := hl
      rw [UInt32.lt_iff_toNat_lt] at hl
      cases hc : RtrCode.ofU16? x with
      | none =>
        refine bodyOut_error (e := .badCode x) (fun z => ?_) ?_
        · simp only [parsePduBody, parseErrorReport]; rw [if_neg hl', hc]
        · rw [codeOf_none] at hc
          exact .code v _ _ hh (by omega) hc
      | some c =>
        obtain ⟨el, he⟩ := idx32_both (d := d) (i := 8) (by omega)
        have he' := at_nil (f := fun d => idx32 d 8) he
        simp only [idx32_ok] at he'
        by_cases hn : el.toNat > len.toNat - 16
        · refine bodyOut_error (e := .badLength (clamp32 (el.toNat + 16)) len 10) (fun z => ?_) ?_
          · simp only [parsePduBody, parseErrorReport]; rw [if_neg hl', hc]
            simp only [he]
            show (if _ then _ else _) = _
            rw [if_pos hn]; rfl
          · rw [he'] at hh
            exact .encap v _ el _ _ _ hh (by omega) (by rw [clamp32_toNat, Nat.add_comm]) rfl
        · obtain ⟨p, hp⟩ := slice_both (d := d) (i := 12) (n := el.toNat) (by omega)
          obtain ⟨tl, ht⟩ := idx32_both (d := d) (i := 12 + el.toNat) (by omega)
          have hp' := at_nil (f := fun d => slice d 12 el.toNat) hp
          have ht' := at_nil (f := fun d => idx32 d (12 + el.toNat)) ht
          simp only [idx32_ok] at ht'
          rw [slice_ok (by omega)] at hp'
          have lay : d = rtrStart v 10 (n16 x.toNat) len.toNat ++
              (n32 p.length ++ (p ++ (n32 tl.toNat ++ d.drop (12 + el.toNat + 4)))) := by
            rw [he', hp'.2, ht'] at hh
            rw [hp'.1]; exact hh
          by_cases hm : tl.toNat > len.toNat - (12 + el.toNat + 4)
          · refine bodyOut_error (e := .badLength (clamp32 (12 + el.toNat + 4 + tl.toNat)) len 10) (fun z => ?_) ?_
            · simp only [parsePduBody, parseErrorReport]; rw [if_neg hl', hc]
              simp only [he]
              show (if _ then _ else _) = _
              rw [if_neg hn]
              simp only [hp, ht]
              show (if _ then _ else _) = _
              rw [if_pos hm]; rfl
            · exact .text v _ p tl _ _ _ lay (by omega) (by omega)
                (by rw [clamp32_toNat, hp'.1, show 12 + el.toNat + 4 = 16 + el.toNat by omega]) rfl
          · by_cases hz : tl.toNat > 0
            · obtain ⟨t, hs⟩ := slice_both (d := d) (i := 12 + el.toNat + 4) (n := tl.toNat) (by omega)
              have hs' := at_nil (f := fun d => slice d (12 + el.toNat + 4) tl.toNat) hs
              rw [slice_ok (by omega)] at hs'
              by_cases hu : utf8Ok t = true
              · exact bodyOut_ok (p := .errorReport v c p t) fun z => by
                  simp only [parsePduBody, parseErrorReport]; rw [if_neg hl', hc]
                  simp only [he]
                  show (if _ then _ else _) = _
                  rw [if_neg hn]
                  simp only [hp, ht]
                  show (if _ then _ else _) = _
                  rw [if_neg hm, if_pos hz, hs]
                  show (if _ then _ else _) = _
                  rw [if_pos hu]; rfl
              · refine bodyOut_error (e := .badUtf8) (fun z => ?_) ?_
                · simp only [parsePduBody, parseErrorReport]; rw [if_neg hl', hc]
                  simp only [he]
                  show (if _ then _ else _) = _
                  rw [if_neg hn]
                  simp only [hp, ht]
                  show (if _ then _ else _) = _
                  rw [if_neg hm, if_pos hz, hs]
                  show (if _ then _ else _) = _
                  rw [if_neg hu]
                · rw [hs'.2] at lay
                  refine .utf8 v _ p t _ (by rw [hs'.1]; exact lay) (by omega) (by simpa using hu)
            · exact bodyOut_ok (p := .errorReport v c p []) fun z => by
                simp only [parsePduBody, parseErrorReport]; rw [if_neg hl', hc]
                simp only [he]
                show (if _ then _ else _) = _
                rw [if_neg hn]
                simp only [hp, ht]
                show (if _ then _ else _) = _
                rw [if_neg hm, if_neg hz]; rfl

/-- parsing a byte string with at least a header. -/
theorem parsePdu_out {d : Bytes} (h8 : 8 ≤ d.length) :
    ∃ (vb tb : UInt8) (x : UInt16) (len : UInt32), d = vb :: tb :: (n16 x.toNat ++ (n32 len.toNat ++ d.drop 8)) ∧
      (d.length < len.toNat → parsePdu d = .error (.incomplete d.length len.toNat)) ∧
      (len.toNat ≤ d.length → ∃ r, (∀ z, parsePdu (d ++ z) = r) ∧ (∀ e, r = .error e → RtrFault d len.toNat e)) := by
  obtain ⟨vb, hv⟩ := idx_both (d := d) (i := 0) (by omega)
  obtain ⟨tb, ht⟩ := idx_both (d := d) (i := 1) (by omega)
  obtain ⟨x1, h1⟩ := idx_both (d := d) (i := 2) (by omega)
  obtain ⟨x2, h2⟩ := idx_both (d := d) (i := 3) (by omega)
  obtain ⟨len, hl⟩ := idx32_both (d := d) (i := 4) (by omega)
  have g0 := at_nil (f := fun d => idx d 0) hv
  have g1 := at_nil (f := fun d => idx d 1) ht
  have g2 := at_nil (f := fun d => idx d 2) h1
  have g3 := at_nil (f := fun d => idx d 3) h2
  have g4 := at_nil (f := fun d => idx32 d 4) hl
  have e : d = vb :: tb :: (n16 (u16of x1 x2).toNat ++ (n32 len.toNat ++ d.drop 8)) := by
    simp only [idx_ok] at g0 g1 g2 g3
    simp only [idx32_ok] at g4
    rw [← be16_n16, be16_u16of, ← be32_n32]
    have e : d = d.drop 0 := rfl
    conv => lhs; rw [e, g0, g1, g2, g3, g4]
    rfl
  refine ⟨vb, tb, u16of x1 x2, len, e, ?_, ?_⟩
  · intro hd
    unfold parsePdu
    rw [if_neg (by omega)]
    simp only [g0, g1, g2, g3, g4]
    show (if _ then _ else _) = _
    rw [if_pos hd]
  · intro hd
    have start : ∀ z, parsePdu (d ++ z) = (match RtrVersion.ofU8? vb with
      | none => .error (.badVersion vb)
      | some v =>
        match RtrType.ofU8? tb with
        | none => .error (.badType tb)
        | some ty => do
          let p ← parsePduBody (d ++ z) v ty tb (u16of x1 x2) len
          pure (p, len.toNat)) := by
      intro z
      unfold parsePdu
      rw [if_neg (by simp; omega)]
      simp only [hv, ht, h1, h2, hl]
      show (if _ then _ else _) = _
      rw [if_neg (by simp; omega)]
      rfl
    cases ev : RtrVersion.ofU8? vb with
    | none =>
      refine ⟨.error (.badVersion vb), fun z => by rw [start, ev], ?_⟩
      intro e' he
      cases he
      exact .version vb _ e ((versionOf_none vb).1 ev)
    | some v =>
      have ev' := versionOf_num.1 ev
      cases et : RtrType.ofU8? tb with
      | none =>
        refine ⟨.error (.badType tb), fun z => by rw [start, ev, et], ?_⟩
        intro e' he
        cases he
        exact .type v tb _ (by rw [← ev']; exact e) ((typeOf_none tb).1 et)
      | some ty =>
        have et' := (typeOf_num tb).1 et
        subst ev' et'
        have hh : d = rtrStart v ty.toU8 (n16 (u16of x1 x2).toNat) len.toNat ++ d.drop 8 := by
          show d = rtrVersionNum v :: ty.toU8 :: _ ++ _
          simpa using e
        obtain ⟨r, hr, hf⟩ := parsePduBody_out h8 hd hh
        cases r with
        | ok p =>
          refine ⟨.ok (p, len.toNat), fun z => ?_, fun e he => by cases he⟩
          rw [start, ev, et]
          simp only [hr]; rfl
        | error e =>
          refine ⟨.error e, fun z => ?_, fun e' he => by cases he; exact hf e rfl⟩
          rw [start, ev, et]
          simp only [hr]; rfl

/-! ### completeness of parsing -/

theorem parsePdu_of {d t f : Bytes} {v : RtrVersion} {ty : RtrType} {n : Nat}
    (hd : d = rtrStart v ty.toU8 f n ++ t) (hf : f.length = 2) (hn : n < 4294967296) (hl : n ≤ d.length)
    {p : Pdu} (hp : ∀ x1 x2, f = [x1, x2] → parsePduBody d v ty ty.toU8 (u16of x1 x2) (UInt32.ofNat n) = .ok p) :
    parsePdu d = .ok (p, n) := by
  match f, hf with
  | [x1, x2], _ =>
    have hp := hp x1 x2 rfl
    have e : (UInt32.ofNat n).toNat = n := by simp; omega
    have d0 : d = rtrVersionNum v :: ty.toU8 :: x1 :: x2 :: (be32 (UInt32.ofNat n) ++ t) := by
      rw [hd, be32_n32, e]; simp [rtrStart]
    have i0 : idx d 0 = .ok (rtrVersionNum v) := by rw [d0]; rfl
    have i1 : idx d 1 = .ok ty.toU8 := by rw [d0]; rfl
    have i2 : idx d 2 = .ok x1 := by rw [d0]; rfl
    have i3 : idx d 3 = .ok x2 := by rw [d0]; rfl
    have i4 : idx32 d 4 = .ok (UInt32.ofNat n) := by
      rw [idx32_ok]; rw [d0]; rfl
    unfold parsePdu
    rw [if_neg (by rw [d0]; simp)]
    simp only [i0, i1, i2, i3, i4, ex_ok_bind, e]
    rw [if_neg (by omega), versionOf_num.2 rfl, (typeOf_num _).2 rfl]
    simp only [hp]
    rfl

theorem at_drop32 {d : Bytes} {i : Nat} {x : UInt32} {t : Bytes} (h : d.drop i = n32 x.toNat ++ t) :
    idx32 d i = .ok x ∧ d.drop (i + 4) = t := by
  have e : d.drop (i + 4) = t := by rw [← List.drop_drop, h]; rfl
  exact ⟨by rw [idx32_ok, h, e]; rfl, e⟩

theorem at_drop {d : Bytes} {i : Nat} {x : UInt8} {t : Bytes} (h : d.drop i = x :: t) :
    idx d i = .ok x ∧ d.drop (i + 1) = t := by
  have e : d.drop (i + 1) = t := by rw [← List.drop_drop, h]; rfl
  exact ⟨by rw [idx_ok, h, e], e⟩

theorem at_dropVec {d : Bytes} {i n : Nat} {v : Vector UInt8 n} {t : Bytes} (hi : i ≤ d.length)
    (h : d.drop i = v.toList ++ t) : vecAt d i n = .ok v ∧ d.drop (i + n) = t := by
  have e : d.drop (i + n) = t := by rw [← List.drop_drop, h]; simp
  exact ⟨by rw [vecAt_ok hi, h, e], e⟩

theorem at_dropSlice {d : Bytes} {i n : Nat} {b t : Bytes} (hi : i ≤ d.length) (hn : b.length = n)
    (h : d.drop i = b ++ t) : slice d i n = .ok b ∧ d.drop (i + n) = t := by
  have e : d.drop (i + n) = t := by rw [← List.drop_drop, h, ← hn]; simp
  exact ⟨by rw [slice_ok hi, h, e]; exact ⟨hn, rfl⟩, e⟩

theorem length_rtrStart {v : RtrVersion} {ty : UInt8} {f : Bytes} {n : Nat} (h : f.length = 2) :
    (rtrStart v ty f n).length = 8 := by
  simp [rtrStart, n32, h]

theorem drop_start {v : RtrVersion} {ty : UInt8} {f t : Bytes} {n : Nat} (h : f.length = 2) :
    (rtrStart v ty f n ++ t).drop 8 = t := by
  rw [List.drop_left' (length_rtrStart h)]

theorem u16of_n16 {a : UInt16} {x1 x2 : UInt8} (h : n16 a.toNat = [x1, x2]) : u16of x1 x2 = a := by
  rw [← be16_n16] at h
  have := be16_u16of x1 x2
  rw [← h] at this
  have g := congrArg (fun b => rdU16 (b ++ [])) this
  simp only [rdU16_be16] at g
  injection g with g
  injection g

theorem parsePdu_complete {p : Pdu} {b : Bytes} (h : PduBytes p b) (z : Bytes) :
    parsePdu (b ++ z) = .ok (p, b.length) := by
  generalize hd : b ++ z = d
  cases h with
  | serialNotify v s n =>
    rw [List.append_assoc] at hd
    have g := drop_start (v := v) (ty := 0) (f := n16 s.toNat) (n := 12) (t := n32 n.toNat ++ z) rfl
    rw [hd] at g
    obtain ⟨g1, -⟩ := at_drop32 g
    refine parsePdu_of (ty := .serialNotify) hd.symm rfl (by decide) (by rw [← hd]; simp [rtrStart, n16, n32]) ?_
    intro x1 x2 hx
    simp only [parsePduBody]
    rw [u16of_n16 hx]
    show (validLength 12 12 _ >>= _) = _
    rw [validLength_self]
    simp only [ex_ok_bind, g1]; rfl
  | serialQuery v s n =>
    rw [List.append_assoc] at hd
    have g := drop_start (v := v) (ty := 1) (f := n16 s.toNat) (n := 12) (t := n32 n.toNat ++ z) rfl
    rw [hd] at g
    obtain ⟨g1, -⟩ := at_drop32 g
    refine parsePdu_of (ty := .serialQuery) hd.symm rfl (by decide) (by rw [← hd]; simp [rtrStart, n16, n32]) ?_
    intro x1 x2 hx
    simp only [parsePduBody]
    rw [u16of_n16 hx]
    show (validLength 12 12 _ >>= _) = _
    rw [validLength_self]
    simp only [ex_ok_bind, g1]; rfl
  | resetQuery v y hy =>
    rw [length_rtrStart hy]
    refine parsePdu_of (ty := .resetQuery) hd.symm hy (by decide) (by rw [← hd]; simp [length_rtrStart hy]) ?_
    intro x1 x2 hx
    rfl
  | cacheResponse v s =>
    refine parsePdu_of (ty := .cacheResponse) hd.symm rfl (by decide) (by rw [← hd]; simp [rtrStart, n16, n32]) ?_
    intro x1 x2 hx
    rw [u16of_n16 hx]
    rfl
  | cacheReset v y hy =>
    rw [length_rtrStart hy]
    refine parsePdu_of (ty := .cacheReset) hd.symm hy (by decide) (by rw [← hd]; simp [length_rtrStart hy]) ?_
    intro x1 x2 hx
    rfl
  | ipv4Prefix v f l m q a w y h1 h2 hw =>
    have hl : (rtrStart v 4 w 20 ++ (f :: l :: m :: y :: (q.toList ++ n32 a.toNat))).length = 20 := by
      rw [List.length_append, length_rtrStart hw]; simp [n32]
    have hL : 20 ≤ d.length := by rw [← hd, List.length_append]; omega
    rw [hl]
    rw [List.append_assoc] at hd
    simp only [List.cons_append, List.append_assoc] at hd
    have g := drop_start (v := v) (ty := 4) (f := w) (n := 20) (t := f :: l :: m :: y :: (q.toList ++ (n32 a.toNat ++ z))) hw
    rw [hd] at g
    obtain ⟨g1, g⟩ := at_drop g
    obtain ⟨g2, g⟩ := at_drop g
    obtain ⟨g3, g⟩ := at_drop g
    obtain ⟨-, g⟩ := at_drop g
    obtain ⟨g4, g⟩ := at_dropVec (by omega) g
    obtain ⟨g5, g⟩ := at_drop32 g
    refine parsePdu_of (ty := .ipv4Prefix) hd.symm hw (by decide) hL ?_
    intro x1 x2 hx
    simp only [parsePduBody]
    show (validLength 20 20 _ >>= _) = _
    rw [validLength_self]
    simp only [ex_ok_bind, g1, g2, g3]
    rw [validPrefixLength_ok.2 ⟨h1, by exact h2⟩]
    simp only [ex_ok_bind, g4, g5]; rfl
  | ipv6Prefix v f l m q a w y h1 h2 hw =>
    have hl : (rtrStart v 6 w 32 ++ (f :: l :: m :: y :: (q.toList ++ n32 a.toNat))).length = 32 := by
      rw [List.length_append, length_rtrStart hw]; simp [n32]
    have hL : 32 ≤ d.length := by rw [← hd, List.length_append]; omega
    rw [hl]
    rw [List.append_assoc] at hd
    simp only [List.cons_append, List.append_assoc] at hd
    have g := drop_start (v := v) (ty := 6) (f := w) (n := 32) (t := f :: l :: m :: y :: (q.toList ++ (n32 a.toNat ++ z))) hw
    rw [hd] at g
    obtain ⟨g1, g⟩ := at_drop g
    obtain ⟨g2, g⟩ := at_drop g
    obtain ⟨g3, g⟩ := at_drop g
    obtain ⟨-, g⟩ := at_drop g
    obtain ⟨g4, g⟩ := at_dropVec (by omega) g
    obtain ⟨g5, g⟩ := at_drop32 g
    refine parsePdu_of (ty := .ipv6Prefix) hd.symm hw (by decide) hL ?_
    intro x1 x2 hx
    simp only [parsePduBody]
    show (validLength 32 32 _ >>= _) = _
    rw [validLength_self]
    simp only [ex_ok_bind, g1, g2, g3]
    rw [validPrefixLength_ok.2 ⟨h1, by exact h2⟩]
    simp only [ex_ok_bind, g4, g5]; rfl
  | endOfDataV0 s n =>
    rw [List.append_assoc] at hd
    have g := drop_start (v := .v0) (ty := 7) (f := n16 s.toNat) (n := 12) (t := n32 n.toNat ++ z) rfl
    rw [hd] at g
    obtain ⟨g1, -⟩ := at_drop32 g
    refine parsePdu_of (ty := .endOfData) hd.symm rfl (by decide) (by rw [← hd]; simp [rtrStart, n16, n32]) ?_
    intro x1 x2 hx
    simp only [parsePduBody]
    rw [u16of_n16 hx]
    show (validLength 12 12 _ >>= _) = _
    rw [validLength_self]
    simp only [ex_ok_bind, g1]; rfl
  | endOfDataV1 s n r t e =>
    simp only [List.append_assoc] at hd
    have g := drop_start (v := .v1) (ty := 7) (f := n16 s.toNat) (n := 24)
      (t := n32 n.toNat ++ (n32 r.toNat ++ (n32 t.toNat ++ (n32 e.toNat ++ z)))) rfl
    rw [hd] at g
    obtain ⟨g1, g⟩ := at_drop32 g
    obtain ⟨g2, g⟩ := at_drop32 g
    obtain ⟨g3, g⟩ := at_drop32 g
    obtain ⟨g4, g⟩ := at_drop32 g
    refine parsePdu_of (ty := .endOfData) hd.symm rfl (by decide) (by rw [← hd]; simp [rtrStart, n16, n32]) ?_
    intro x1 x2 hx
    simp only [parsePduBody]
    rw [u16of_n16 hx]
    show (validLength 24 24 _ >>= _) = _
    rw [validLength_self]
    simp only [ex_ok_bind, g1, parseIntervals, g2, g3, g4]; rfl
  | routerKey f k a spki w y hw hs =>
    have hl : (rtrStart .v1 9 w (34 + spki.length) ++ (f :: y :: (k.toList ++ (n32 a.toNat ++ spki)))).length =
        34 + spki.length := by
      rw [List.length_append, length_rtrStart hw]; simp [n32]; omega
    have hL : 34 + spki.length ≤ d.length := by rw [← hd, List.length_append]; omega
    rw [hl]
    rw [List.append_assoc] at hd
    simp only [List.cons_append, List.append_assoc] at hd
    have g := drop_start (v := .v1) (ty := 9) (f := w) (n := 34 + spki.length)
      (t := f :: y :: (k.toList ++ (n32 a.toNat ++ (spki ++ z)))) hw
    rw [hd] at g
    obtain ⟨g1, g⟩ := at_drop g
    obtain ⟨-, g⟩ := at_drop g
    obtain ⟨g2, g⟩ := at_dropVec (by omega) g
    obtain ⟨g3, g⟩ := at_drop32 g
    have g4 := (at_dropSlice (by omega) rfl g).1
    refine parsePdu_of (ty := .routerKey) hd.symm hw hs hL ?_
    intro x1 x2 hx
    have e : (UInt32.ofNat (34 + spki.length)).toNat = 34 + spki.length := by simp; omega
    have l34 : (34 : UInt32).toNat = 34 := rfl
    simp only [parsePduBody, parseRouterKey]
    rw [if_neg (by decide), if_neg (by rw [UInt32.lt_iff_toNat_lt, e]; omega), e,
      show 34 + spki.length - 34 = spki.length by omega]
    simp only [g1, g2, g3, g4, ex_ok_bind]; rfl
  | errorReport v c q t slack hu hs =>
    have hl : (rtrStart v 10 (n16 (rtrCodeNum c)) (16 + q.length + t.length + slack.length) ++
          (n32 q.length ++ (q ++ (n32 t.length ++ (t ++ slack))))).length = 16 + q.length + t.length + slack.length := by
      rw [List.length_append, length_rtrStart rfl]; simp [n32]; omega
    have hL : 16 + q.length + t.length + slack.length ≤ d.length := by rw [← hd, List.length_append]; omega
    rw [hl]
    have el : (UInt32.ofNat q.length).toNat = q.length := by simp; omega
    have tl : (UInt32.ofNat t.length).toNat = t.length := by simp; omega
    simp only [List.append_assoc] at hd
    have g := drop_start (v := v) (ty := 10) (f := n16 (rtrCodeNum c)) (n := 16 + q.length + t.length + slack.length)
      (t := n32 q.length ++ (q ++ (n32 t.length ++ (t ++ (slack ++ z))))) rfl
    rw [hd] at g
    rw [← el, ← tl] at g
    obtain ⟨g1, g⟩ := at_drop32 g
    obtain ⟨g2, g⟩ := at_dropSlice (by omega) rfl g
    obtain ⟨g3, g⟩ := at_drop32 g
    have g4 := (at_dropSlice (by omega) rfl g).1
    refine parsePdu_of (ty := .errorReport) hd.symm rfl hs hL ?_
    intro x1 x2 hx
    have e : (UInt32.ofNat (16 + q.length + t.length + slack.length)).toNat = 16 + q.length + t.length + slack.length := by
      simp; omega
    have l16 : (16 : UInt32).toNat = 16 := rfl
    have hc : RtrCode.ofU16? (u16of x1 x2) = some c := by
      have : u16of x1 x2 = c.toU16 := by
        apply u16of_n16
        rw [← be16_n16, be16_code]; exact hx
      rw [this, codeOf_num]; cases c <;> rfl
    simp only [parsePduBody, parseErrorReport]
    rw [if_neg (by rw [UInt32.lt_iff_toNat_lt, e]; omega), hc]
    simp only [g1, ex_ok_bind, e, el]
    rw [if_neg (by omega)]
    simp only [g2, g3, ex_ok_bind, tl]
    rw [if_neg (by omega)]
    by_cases hz : t.length > 0
    · rw [if_pos hz, g4]
      simp only [ex_ok_bind]
      rw [if_pos hu]; rfl
    · rw [if_neg hz]
      have : t = [] := by cases t <;> simp at hz ⊢
      rw [this]; rfl

theorem rtrHead_start (v : RtrVersion) (t : RtrType) (x : UInt16) (len : UInt32) :
    rtrHead v t x len = rtrStart v t.toU8 (n16 x.toNat) len.toNat := by
  rw [rtrHead, versionToU8]; rfl

theorem encodePdu_layout (p : Pdu) (h : PduOk p) :
    ∃ b, encodePdu p = .ok b ∧ PduBytes p b := by
  cases p with
  | serialNotify v s n =>
    refine ⟨_, rfl, ?_⟩
    have := PduBytes.serialNotify v s n
    rw [rtrHead_start]; exact this
  | serialQuery v s n =>
    refine ⟨_, rfl, ?_⟩
    have := PduBytes.serialQuery v s n
    rw [rtrHead_start]; exact this
  | resetQuery v =>
    refine ⟨_, rfl, ?_⟩
    have := PduBytes.resetQuery v [0, 0] rfl
    rw [rtrHead_start]; exact this
  | cacheResponse v s =>
    refine ⟨_, rfl, ?_⟩
    have := PduBytes.cacheResponse v s
    rw [rtrHead_start]; exact this
  | ipv4Prefix v f l m q a =>
    refine ⟨_, rfl, ?_⟩
    have := PduBytes.ipv4Prefix v f l m q a [0, 0] 0 h.1 h.2 rfl
    rw [rtrHead_start]; exact this
  | ipv6Prefix v f l m q a =>
    refine ⟨_, rfl, ?_⟩
    have := PduBytes.ipv6Prefix v f l m q a [0, 0] 0 h.1 h.2 rfl
    rw [rtrHead_start]; exact this
  | endOfData v s n r t e =>
    cases v with
    | v0 =>
      obtain ⟨rfl, rfl, rfl⟩ := h
      refine ⟨_, rfl, ?_⟩
      have := PduBytes.endOfDataV0 s n
      rw [if_neg (by decide), List.append_nil]
      rw [rtrHead_start]; exact this
    | v1 =>
      obtain ⟨h1, h2, h3⟩ := h
      cases r with
      | none => simp at h1
      | some r =>
      cases t with
      | none => simp at h2
      | some t =>
      cases e with
      | none => simp at h3
      | some e =>
      refine ⟨_, rfl, ?_⟩
      have := PduBytes.endOfDataV1 s n r t e
      rw [if_pos rfl]
      rw [rtrHead_start]; exact this
  | cacheReset v =>
    refine ⟨_, rfl, ?_⟩
    have := PduBytes.cacheReset v [0, 0] rfl
    rw [rtrHead_start]; exact this
  | routerKey v f k a spki =>
    obtain ⟨rfl, h2⟩ := h
    have e : (UInt32.ofNat (34 + spki.length)).toNat = 34 + spki.length := by simp; omega
    refine ⟨_, by simp only [encodePdu]; rw [if_neg (by rw [Nat.mod_eq_of_lt (by omega)]; omega)], ?_⟩
    have := PduBytes.routerKey f k a spki [0, 0] 0 rfl h2
    rw [rtrHead_start, e]; exact this
  | errorReport v c q t =>
    obtain ⟨h1, h2⟩ := h
    have e : (UInt32.ofNat (16 + q.length + t.length)).toNat = 16 + q.length + t.length := by simp; omega
    have e1 : (UInt32.ofNat q.length).toNat = q.length := by simp; omega
    have e2 : (UInt32.ofNat t.length).toNat = t.length := by simp; omega
    refine ⟨_, rfl, ?_⟩
    have := PduBytes.errorReport v c q t [] h1 (by simpa using h2)
    simp only [List.length_nil, Nat.add_zero, List.append_nil] at this
    rw [rtrHead_start, e, be32_n32, be32_n32, e1, e2, ← be16_n16, be16_code]; exact this

end Verif
