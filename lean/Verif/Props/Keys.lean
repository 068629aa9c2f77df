import Verif.Spec.Keys
/-
C104. Values as keys: equality, order and hash.
-/
namespace Verif.Props
open Spec

/-! ### doubles -/

/-- the value of a double without its sign, in multiples of 2^-1074. -/
def magUnits (m : Nat) : Nat := if m / 2 ^ 52 = 0 then m % 2 ^ 52 else (2 ^ 52 + m % 2 ^ 52) * 2 ^ (m / 2 ^ 52 - 1)

theorem magUnits_succ (m : Nat) : magUnits m < magUnits (m + 1) := by
  unfold magUnits
  by_cases h : m % 2 ^ 52 + 1 < 2 ^ 52
  · have h1 : (m + 1) / 2 ^ 52 = m / 2 ^ 52 := by omega
    have h2 : (m + 1) % 2 ^ 52 = m % 2 ^ 52 + 1 := by omega
    rw [h1, h2]
    by_cases h0 : m / 2 ^ 52 = 0
    · rw [if_pos h0, if_pos h0]; omega
    · rw [if_neg h0, if_neg h0]; exact Nat.mul_lt_mul_of_pos_right (by omega) (Nat.two_pow_pos _)
  · have h1 : (m + 1) / 2 ^ 52 = m / 2 ^ 52 + 1 := by omega
    have h2 : (m + 1) % 2 ^ 52 = 0 := by omega
    have h3 : m % 2 ^ 52 < 2 ^ 52 := Nat.mod_lt _ (by decide)
    rw [h1, h2, if_neg (c := m / 2 ^ 52 + 1 = 0) (by omega)]
    by_cases h0 : m / 2 ^ 52 = 0
    · rw [if_pos h0, h0]; omega
    · rw [if_neg h0, Nat.add_sub_cancel]
      generalize m / 2 ^ 52 = e at h0
      cases e with
      | zero => exact absurd rfl h0
      | succ k =>
        have : 2 ^ (k + 1) = 2 * 2 ^ k := by rw [Nat.pow_succ, Nat.mul_comm]
        rw [Nat.add_sub_cancel, this, ← Nat.mul_assoc]
        exact Nat.mul_lt_mul_of_pos_right (by omega) (Nat.two_pow_pos _)

theorem magUnits_lt {a b : Nat} (h : a < b) : magUnits a < magUnits b := by
  induction b with
  | zero => omega
  | succ b ih =>
    rcases Nat.lt_succ_iff_lt_or_eq.mp h with h | rfl
    · exact Nat.lt_trans (ih h) (magUnits_succ b)
    · exact magUnits_succ a

theorem magUnits_lt_iff {a b : Nat} : magUnits a < magUnits b ↔ a < b := by
  refine ⟨fun h => ?_, magUnits_lt⟩
  rcases Nat.lt_trichotomy a b with h1 | h1 | h1
  · exact h1
  · subst h1; omega
  · have := magUnits_lt h1; omega

theorem magUnits_inj {a b : Nat} (h : magUnits a = magUnits b) : a = b := by
  rcases Nat.lt_trichotomy a b with h1 | h1 | h1
  · have := magUnits_lt h1; omega
  · exact h1
  · have := magUnits_lt h1; omega

theorem magUnits_zero : magUnits 0 = 0 := by decide

theorem floatVal_eq (b : UInt64) : floatVal b =
    if f64Mag b < 2047 * 2 ^ 52 then .num (if 2 ^ 63 ≤ b.toNat then -(magUnits (f64Mag b) : Int) else magUnits (f64Mag b))
    else if f64Mag b = 2047 * 2 ^ 52 then .inf (2 ^ 63 ≤ b.toNat) else .nan := by
  have hb := b.toNat_lt
  unfold floatVal f64Mag magUnits
  have e1 : b.toNat / 2 ^ 52 % 2048 = b.toNat % 2 ^ 63 / 2 ^ 52 := by omega
  have e2 : b.toNat % 2 ^ 52 = b.toNat % 2 ^ 63 % 2 ^ 52 := by omega
  have e3 : (b.toNat / 2 ^ 63 = 1) = (2 ^ 63 ≤ b.toNat) := by apply propext; omega
  dsimp only
  rw [e1, e2]
  simp only [e3]
  by_cases h1 : b.toNat % 2 ^ 63 < 2047 * 2 ^ 52
  · rw [if_pos h1, if_neg (by omega)]
    congr 1
    by_cases h2 : b.toNat % 2 ^ 63 / 2 ^ 52 = 0
    · simp only [h2, if_pos]
      by_cases h3 : 2 ^ 63 ≤ b.toNat <;> simp [h3]
    · simp only [h2, if_false]
      by_cases h3 : 2 ^ 63 ≤ b.toNat <;> simp [h3]
  · rw [if_neg h1, if_pos (by omega)]
    by_cases h2 : b.toNat % 2 ^ 63 = 2047 * 2 ^ 52
    · rw [if_pos h2, if_pos (by omega)]
    · rw [if_neg h2, if_neg (by omega)]

theorem nan_iff (b : UInt64) : f64IsNan b = true ↔ floatVal b = .nan := by
  rw [floatVal_eq]
  unfold f64IsNan
  rw [decide_eq_true_eq]
  repeat' split
  all_goals simp; omega

theorem u64_of_parts {a b : UInt64} (h1 : f64Mag a = f64Mag b) (h2 : 2 ^ 63 ≤ a.toNat ↔ 2 ^ 63 ≤ b.toNat) : a = b := by
  apply UInt64.toNat_inj.mp
  have ha := a.toNat_lt
  have hb := b.toNat_lt
  unfold f64Mag at h1
  omega

/-- Supports the model of `f64`: `==` is equality of the values, except that NaN equals nothing. -/
theorem f64_eq_values (a b : UInt64) : f64BitsEq a b = true ↔ floatVal a ≠ .nan ∧ floatVal a = floatVal b := by
  unfold f64BitsEq
  rw [Bool.and_eq_true, Bool.and_eq_true, Bool.not_eq_true', Bool.not_eq_true', ← Bool.not_eq_true, ← Bool.not_eq_true,
    nan_iff, nan_iff, Bool.or_eq_true, Bool.and_eq_true, beq_iff_eq, beq_iff_eq, beq_iff_eq]
  constructor
  · rintro ⟨⟨ha, hb⟩, rfl | ⟨h1, h2⟩⟩
    · exact ⟨ha, rfl⟩
    · refine ⟨ha, ?_⟩
      rw [floatVal_eq, floatVal_eq, h1, h2, magUnits_zero]
      simp
  · rintro ⟨ha, h⟩
    refine ⟨⟨ha, h ▸ ha⟩, ?_⟩
    rw [floatVal_eq, floatVal_eq] at h
    rw [floatVal_eq] at ha
    by_cases a1 : f64Mag a < 2047 * 2 ^ 52
    · rw [if_pos a1] at h
      by_cases b1 : f64Mag b < 2047 * 2 ^ 52
      · rw [if_pos b1] at h
        injection h with h
        by_cases sa : 2 ^ 63 ≤ a.toNat <;> by_cases sb : 2 ^ 63 ≤ b.toNat
        · rw [if_pos sa, if_pos sb] at h
          exact .inl (u64_of_parts (magUnits_inj (by omega)) (by omega))
        · rw [if_pos sa, if_neg sb] at h
          have h1 : magUnits (f64Mag a) = magUnits 0 := by rw [magUnits_zero]; omega
          have h2 : magUnits (f64Mag b) = magUnits 0 := by rw [magUnits_zero]; omega
          exact .inr ⟨magUnits_inj h1, magUnits_inj h2⟩
        · rw [if_neg sa, if_pos sb] at h
          have h1 : magUnits (f64Mag a) = magUnits 0 := by rw [magUnits_zero]; omega
          have h2 : magUnits (f64Mag b) = magUnits 0 := by rw [magUnits_zero]; omega
          exact .inr ⟨magUnits_inj h1, magUnits_inj h2⟩
        · rw [if_neg sa, if_neg sb] at h
          exact .inl (u64_of_parts (magUnits_inj (by omega)) (by omega))
      · rw [if_neg b1] at h
        by_cases b2 : f64Mag b = 2047 * 2 ^ 52
        · rw [if_pos b2] at h; cases h
        · rw [if_neg b2] at h; cases h
    · rw [if_neg a1] at h ha
      by_cases a2 : f64Mag a = 2047 * 2 ^ 52
      · rw [if_pos a2] at h
        by_cases b1 : f64Mag b < 2047 * 2 ^ 52
        · rw [if_pos b1] at h; cases h
        · rw [if_neg b1] at h
          by_cases b2 : f64Mag b = 2047 * 2 ^ 52
          · rw [if_pos b2] at h
            injection h with h
            refine .inl (u64_of_parts (a2.trans b2.symm) ?_)
            by_cases sa : 2 ^ 63 ≤ a.toNat <;> by_cases sb : 2 ^ 63 ≤ b.toNat <;> simp [sa, sb] at h ⊢
          · rw [if_neg b2] at h; cases h
      · rw [if_neg a2] at ha; exact absurd rfl ha

theorem f64Key_lt (a b : UInt64) (ha : floatVal a ≠ .nan) (hb : floatVal b ≠ .nan) :
    f64Key a < f64Key b ↔ FloatLt (floatVal a) (floatVal b) := by
  have magl := fun x y : Nat => @magUnits_lt_iff x y
  have mag0 := magUnits_zero
  have ma0 := @magUnits_lt_iff 0 (f64Mag a)
  have mb0 := @magUnits_lt_iff 0 (f64Mag b)
  have mab := @magUnits_lt_iff (f64Mag a) (f64Mag b)
  have mba := @magUnits_lt_iff (f64Mag b) (f64Mag a)
  rw [mag0] at ma0 mb0
  rw [floatVal_eq] at ha hb ⊢
  rw [floatVal_eq b]
  unfold f64Key
  by_cases a1 : f64Mag a < 2047 * 2 ^ 52
  · rw [if_pos a1]
    by_cases b1 : f64Mag b < 2047 * 2 ^ 52
    · rw [if_pos b1]
      constructor
      · intro h
        refine .num _ _ ?_
        by_cases sa : 2 ^ 63 ≤ a.toNat <;> by_cases sb : 2 ^ 63 ≤ b.toNat <;> simp only [sa, sb, if_true, if_false] at h ⊢ <;> omega
      · intro h
        cases h with
        | num _ _ h =>
          by_cases sa : 2 ^ 63 ≤ a.toNat <;> by_cases sb : 2 ^ 63 ≤ b.toNat <;> simp only [sa, sb, if_true, if_false] at h ⊢ <;> omega
    · rw [if_neg b1] at hb ⊢
      by_cases b2 : f64Mag b = 2047 * 2 ^ 52
      · rw [if_pos b2]
        by_cases sb : 2 ^ 63 ≤ b.toNat
        · simp only [sb, if_true, decide_true]
          refine ⟨fun h => ?_, fun h => by cases h⟩
          exfalso
          by_cases sa : 2 ^ 63 ≤ a.toNat <;> simp only [sa, if_true, if_false] at h <;> omega
        · simp only [sb, if_false, decide_false]
          refine ⟨fun _ => .above _, fun _ => ?_⟩
          by_cases sa : 2 ^ 63 ≤ a.toNat <;> simp only [sa, if_true, if_false] <;> omega
      · rw [if_neg b2] at hb; exact absurd rfl hb
  · rw [if_neg a1] at ha ⊢
    by_cases a2 : f64Mag a = 2047 * 2 ^ 52
    · rw [if_pos a2]
      by_cases b1 : f64Mag b < 2047 * 2 ^ 52
      · rw [if_pos b1]
        by_cases sa : 2 ^ 63 ≤ a.toNat
        · simp only [sa, if_true, decide_true]
          refine ⟨fun _ => .below _, fun _ => ?_⟩
          by_cases sb : 2 ^ 63 ≤ b.toNat <;> simp only [sb, if_true, if_false] <;> omega
        · simp only [sa, if_false, decide_false]
          refine ⟨fun h => ?_, fun h => by cases h⟩
          exfalso
          by_cases sb : 2 ^ 63 ≤ b.toNat <;> simp only [sb, if_true, if_false] at h <;> omega
      · rw [if_neg b1] at hb ⊢
        by_cases b2 : f64Mag b = 2047 * 2 ^ 52
        · rw [if_pos b2]
          by_cases sa : 2 ^ 63 ≤ a.toNat <;> by_cases sb : 2 ^ 63 ≤ b.toNat <;>
            simp only [sa, sb, if_true, if_false, decide_true, decide_false, a2, b2]
          · exact ⟨fun h => by omega, fun h => by cases h⟩
          · exact ⟨fun _ => .infs, fun _ => by omega⟩
          · exact ⟨fun h => by omega, fun h => by cases h⟩
          · exact ⟨fun h => by omega, fun h => by cases h⟩
        · rw [if_neg b2] at hb; exact absurd rfl hb
    · rw [if_neg a2] at ha; exact absurd rfl ha

theorem f64Key_eq (a b : UInt64) (ha : floatVal a ≠ .nan) (hb : floatVal b ≠ .nan) :
    (¬ f64Key a < f64Key b ∧ ¬ f64Key b < f64Key a) ↔ floatVal a = floatVal b := by
  constructor
  · rintro ⟨h1, h2⟩
    apply ((f64_eq_values a b).mp ?_).2
    unfold f64BitsEq
    have na : f64IsNan a = false := by rw [← Bool.not_eq_true, nan_iff]; exact ha
    have nb : f64IsNan b = false := by rw [← Bool.not_eq_true, nan_iff]; exact hb
    rw [na, nb]
    simp only [Bool.not_false, Bool.true_and, Bool.or_eq_true, Bool.and_eq_true, beq_iff_eq]
    unfold f64Key at h1 h2
    by_cases sa : 2 ^ 63 ≤ a.toNat <;> by_cases sb : 2 ^ 63 ≤ b.toNat <;> simp only [sa, sb, if_true, if_false] at h1 h2
    · exact .inl (u64_of_parts (by omega) (by omega))
    · exact .inr (by omega)
    · exact .inr (by omega)
    · exact .inl (u64_of_parts (by omega) (by omega))
  · intro h
    rw [f64Key_lt a b ha hb, f64Key_lt b a hb ha, h]
    have : ¬ FloatLt (floatVal b) (floatVal b) := by
      intro h; generalize hx : floatVal b = x at h
      generalize hy : x = y at h
      have hyx : y = x := hy.symm
      cases h with
      | num a b h => cases hyx; omega
    exact ⟨this, this⟩

/-- Supports the model of `f64`: `partial_cmp` compares the values; with NaN there is no answer. -/
theorem f64_cmp_values (a b : UInt64) :
    (f64PartialCmp a b = none ↔ floatVal a = .nan ∨ floatVal b = .nan) ∧
    (f64PartialCmp a b = some .lt ↔ FloatLt (floatVal a) (floatVal b)) ∧
    (f64PartialCmp a b = some .gt ↔ FloatLt (floatVal b) (floatVal a)) ∧
    (f64PartialCmp a b = some .eq ↔ floatVal a ≠ .nan ∧ floatVal a = floatVal b) := by
  have nolt : ∀ x, ¬ FloatLt .nan x := by intro x h; cases h
  have nolt' : ∀ x, ¬ FloatLt x .nan := by intro x h; cases h
  unfold f64PartialCmp
  by_cases ha : floatVal a = .nan
  · have na := (nan_iff a).mpr ha
    simp [na, ha, nolt, nolt']
  by_cases hb : floatVal b = .nan
  · have nb := (nan_iff b).mpr hb
    simp [nb, hb, nolt, nolt']
  have na : f64IsNan a = false := by rw [← Bool.not_eq_true, nan_iff]; exact ha
  have nb : f64IsNan b = false := by rw [← Bool.not_eq_true, nan_iff]; exact hb
  have h1 := f64Key_lt a b ha hb
  have h2 := f64Key_lt b a hb ha
  have h3 := f64Key_eq a b ha hb
  rw [← h1, ← h2, ← h3]
  simp only [na, nb, Bool.or_false, Bool.false_eq_true, if_false, ha, hb, or_self, not_false_eq_true, ne_eq, true_and]
  refine ⟨by simp, ?_, ?_, ?_⟩
  all_goals by_cases k1 : f64Key a < f64Key b <;> by_cases k2 : f64Key b < f64Key a <;> simp [k1, k2] <;> omega

theorem magUnits_exists (k : Nat) : ∀ m, m < 2 ^ 53 → ∃ x, x < (k + 2) * 2 ^ 52 ∧ magUnits x = m * 2 ^ k := by
  induction k with
  | zero =>
    intro m hm
    refine ⟨m, by omega, ?_⟩
    unfold magUnits
    by_cases h : m / 2 ^ 52 = 0
    · rw [if_pos h]; omega
    · have h1 : m / 2 ^ 52 = 1 := by omega
      rw [if_neg h, h1]
      omega
  | succ k ih =>
    intro m hm
    by_cases h : m < 2 ^ 52
    · obtain ⟨x, h1, h2⟩ := ih (2 * m) (by omega)
      refine ⟨x, Nat.lt_of_lt_of_le h1 (Nat.mul_le_mul_right _ (by omega)), ?_⟩
      rw [h2, Nat.pow_add, Nat.mul_comm 2 m, Nat.mul_assoc, Nat.mul_comm 2]
    · refine ⟨(k + 2) * 2 ^ 52 + (m - 2 ^ 52), by omega, ?_⟩
      have h1 : ((k + 2) * 2 ^ 52 + (m - 2 ^ 52)) / 2 ^ 52 = k + 2 := by omega
      have h2 : ((k + 2) * 2 ^ 52 + (m - 2 ^ 52)) % 2 ^ 52 = m - 2 ^ 52 := by omega
      unfold magUnits
      have h3 : 2 ^ 52 + (m - 2 ^ 52) = m := by omega
      rw [h1, h2, if_neg (Nat.succ_ne_zero _), h3]
      rfl

/-- Supports the model of `f64`: every number from zero on with 53 significant bits, up to the greatest double, has bits without
a minus sign. -/
theorem f64_has_bits (m k : Nat) (hm : m < 2 ^ 53) (hk : k ≤ 2045) : ∃ b, PlainStamp b ∧ floatVal b = .num (m * 2 ^ k : Nat) := by
  obtain ⟨x, h1, h2⟩ := magUnits_exists k m hm
  have h4 : x < 2047 * 2 ^ 52 := Nat.lt_of_lt_of_le h1 (Nat.mul_le_mul_right _ (by omega))
  clear h1
  have hx : x < 2 ^ 64 := by omega
  have ht : (UInt64.ofNat x).toNat = x := by
    rw [UInt64.toNat_ofNat']; exact Nat.mod_eq_of_lt hx
  have hmag : f64Mag (UInt64.ofNat x) = x := by unfold f64Mag; rw [ht]; omega
  have hv : floatVal (UInt64.ofNat x) = .num (m * 2 ^ k : Nat) := by
    have h5 : ¬ 2 ^ 63 ≤ x := by clear h2; omega
    rw [floatVal_eq, hmag, ht, if_pos h4, if_neg h5, h2]
  have h6 : x < 2 ^ 63 := by clear h2 hv; omega
  exact ⟨_, ⟨by rw [ht]; exact h6, _, hv⟩, hv⟩

/-! ### BMP per-peer headers -/

theorem peerKey_eq_iff (a b : PeerKey) : a.eq b = true ↔
    a.peerType = b.peerType ∧ a.flags = b.flags ∧ a.distinguisher = b.distinguisher ∧ a.ip = b.ip ∧ a.asn.asn = b.asn.asn ∧
      a.bgpId = b.bgpId ∧ floatVal a.stamp ≠ .nan ∧ floatVal a.stamp = floatVal b.stamp := by
  unfold PeerKey.eq AsnRaw.eq
  rw [Bool.and_eq_true, Bool.and_eq_true, Bool.and_eq_true, Bool.and_eq_true, Bool.and_eq_true, Bool.and_eq_true, f64_eq_values]
  simp only [beq_iff_eq, and_assoc]

/-- C104. Equality of per-peer headers is symmetric and transitive; a header equals itself unless its time is NaN. -/
theorem c104_peer_equality (a b c : PeerKey) :
    (a.eq b = true → b.eq a = true) ∧ (a.eq b = true → b.eq c = true → a.eq c = true) ∧
      (a.eq a = true ↔ floatVal a.stamp ≠ .nan) := by
  rw [peerKey_eq_iff, peerKey_eq_iff, peerKey_eq_iff, peerKey_eq_iff a c, peerKey_eq_iff a a]
  refine ⟨?_, ?_, ?_⟩
  · rintro ⟨h1, h2, h3, h4, h5, h6, h7, h8⟩
    exact ⟨h1.symm, h2.symm, h3.symm, h4.symm, h5.symm, h6.symm, h8 ▸ h7, h8.symm⟩
  · rintro ⟨h1, h2, h3, h4, h5, h6, h7, h8⟩ ⟨g1, g2, g3, g4, g5, g6, g7, g8⟩
    exact ⟨h1.trans g1, h2.trans g2, h3.trans g3, h4.trans g4, h5.trans g5, h6.trans g6, h7, h8.trans g8⟩
  · exact ⟨fun h => h.2.2.2.2.2.2.1, fun h => ⟨rfl, rfl, rfl, rfl, rfl, rfl, h, rfl⟩⟩

/-- C104. Equal headers hash alike, unless their times are the two zeros. -/
theorem c104_peer_hash_partial (a b : PeerKey) (h : a.eq b = true) :
    a.hash = b.hash ∨ (floatVal a.stamp = .num 0 ∧ floatVal b.stamp = .num 0 ∧ a.stamp ≠ b.stamp) := by
  have h' := h
  obtain ⟨h1, h2, h3, h4, h5, h6, h7, h8⟩ := (peerKey_eq_iff a b).mp h
  have hs : f64BitsEq a.stamp b.stamp = true := (f64_eq_values _ _).mpr ⟨h7, h8⟩
  unfold f64BitsEq at hs
  rw [Bool.and_eq_true, Bool.or_eq_true, Bool.and_eq_true, Bool.and_eq_true] at hs
  simp only [beq_iff_eq] at hs
  by_cases he : a.stamp = b.stamp
  · left
    unfold PeerKey.hash AsnRaw.hashFeed
    rw [h1, h2, h3, h4, h5, h6, he]
  · right
    rcases hs.2 with hs | ⟨z1, z2⟩
    · exact absurd hs he
    · refine ⟨?_, ?_, he⟩
      · rw [floatVal_eq, z1, magUnits_zero]; simp
      · rw [floatVal_eq, z2, magUnits_zero]; simp

/-- C104. Headers whose times are numbers from zero on and without a minus sign, as those read from a message are, can be keys:
equality is an equivalence, and equal headers hash alike. -/
theorem c104_peer_keys (a b : PeerKey) (ha : PlainStamp a.stamp) (hb : PlainStamp b.stamp) :
    a.eq a = true ∧ (a.eq b = true → a.hash = b.hash) ∧
      (a.eq b = true ↔ a.peerType = b.peerType ∧ a.flags = b.flags ∧ a.distinguisher = b.distinguisher ∧ a.ip = b.ip ∧
        a.asn.asn = b.asn.asn ∧ a.bgpId = b.bgpId ∧ a.stamp = b.stamp) := by
  obtain ⟨pa, na, va⟩ := ha
  obtain ⟨pb, nb, vb⟩ := hb
  have hst : ∀ h : floatVal a.stamp = floatVal b.stamp, a.stamp = b.stamp := by
    intro h
    have hs : f64BitsEq a.stamp b.stamp = true := (f64_eq_values _ _).mpr ⟨by rw [va]; simp, h⟩
    unfold f64BitsEq at hs
    rw [Bool.and_eq_true, Bool.or_eq_true, Bool.and_eq_true, Bool.and_eq_true] at hs
    simp only [beq_iff_eq] at hs
    rcases hs.2 with hs | ⟨z1, z2⟩
    · exact hs
    · exact u64_of_parts (z1.trans z2.symm) (by omega)
  refine ⟨(c104_peer_equality a a a).2.2.mpr (by rw [va]; simp), fun h => ?_, ?_⟩
  · rcases c104_peer_hash_partial a b h with h | ⟨h1, h2, h3⟩
    · exact h
    · exact absurd (hst (h1.trans h2.symm)) h3
  · rw [peerKey_eq_iff]
    constructor
    · rintro ⟨h1, h2, h3, h4, h5, h6, h7, h8⟩
      exact ⟨h1, h2, h3, h4, h5, h6, hst h8⟩
    · rintro ⟨h1, h2, h3, h4, h5, h6, h7⟩
      exact ⟨h1, h2, h3, h4, h5, h6, by rw [va]; simp, by rw [h7]⟩

/-- C104. Stripped headers can always be keys, and are equal exactly if they differ in nothing but time and width. -/
theorem c104_stripped (a b : PeerKey) :
    (a.strip.eq b.strip = true ↔ a.peerType = b.peerType ∧ a.flags = b.flags ∧ a.distinguisher = b.distinguisher ∧
      a.ip = b.ip ∧ a.asn.asn = b.asn.asn ∧ a.bgpId = b.bgpId) ∧
    (a.strip.eq b.strip = true ↔ a.strip.hash = b.strip.hash) := by
  have h0 : floatVal 0 = .num 0 := by decide
  have hp : PlainStamp 0 := ⟨by decide, 0, h0⟩
  obtain ⟨_, _, h⟩ := c104_peer_keys a.strip b.strip hp hp
  constructor
  · rw [h]
    simp [PeerKey.strip]
  · rw [h]
    simp only [PeerKey.strip, PeerKey.hash, AsnRaw.hashFeed, PeerFeed.mk.injEq]

/-- a per-peer header with the given time. -/
def exPeerKey (stamp : UInt64) : PeerKey := ⟨.global, .peer 0, 0, .v4 #v[10, 0, 0, 1], ⟨7, true⟩, #v[1, 1, 1, 1], stamp⟩

/-- C104, refuted for headers made by hand: with 0.0 and -0.0 as times they are equal and hash differently; with NaN a header
does not equal itself. -/
theorem c104_peer_violated :
    ((exPeerKey 0).eq (exPeerKey 0x8000000000000000) = true ∧ (exPeerKey 0).hash ≠ (exPeerKey 0x8000000000000000).hash) ∧
    (exPeerKey 0x7FF8000000000000).eq (exPeerKey 0x7FF8000000000000) = false := by decide

/-- 1.5 seconds. -/
example : PlainStamp 0x3FF8000000000000 ∧ floatVal 0x3FF8000000000000 = .num (3 * 2 ^ 1073) := by
  have h : floatVal 0x3FF8000000000000 = .num (3 * 2 ^ 1073) := by decide +kernel
  exact ⟨⟨by decide, _, h⟩, h⟩
example : floatVal 0xBFF0000000000000 = .num (-(2 ^ 1074)) ∧ floatVal 0x7FF0000000000000 = .inf false ∧ floatVal 1 = .num 1 := by
  decide +kernel

/-! ### elements -/

/-- C104. Elements can be compared unless one of the times is NaN, in which case the comparison panics; times are
compared first, then addresses. -/
theorem c104_elem_cmp (a b : UInt64 × Ip) :
    (elemCmpBits a b = none ↔ floatVal a.1 = .nan ∨ floatVal b.1 = .nan) ∧
    (FloatLt (floatVal a.1) (floatVal b.1) → elemCmpBits a b = some .lt) ∧
    (FloatLt (floatVal b.1) (floatVal a.1) → elemCmpBits a b = some .gt) ∧
    (floatVal a.1 ≠ .nan → floatVal a.1 = floatVal b.1 → elemCmpBits a b = some (a.2.cmp b.2)) := by
  obtain ⟨h1, h2, h3, h4⟩ := f64_cmp_values a.1 b.1
  unfold elemCmpBits
  refine ⟨?_, fun h => ?_, fun h => ?_, fun h g => ?_⟩
  · rw [Option.map_eq_none_iff, h1]
  · rw [h2.mpr h]; rfl
  · rw [h3.mpr h]; rfl
  · rw [h4.mpr ⟨h, g⟩]; rfl

/-! ### attribute types -/

/-- C104. A type code is what it was read from, and the order of types is that of their codes. Types read from octets are
equal exactly if they compare as equal. -/
theorem c104_attr_types (c d : UInt8) (a b : AttrType) :
    (AttrType.ofU8 c).toU8 = c ∧ (a.cmp b = .lt ↔ a.toU8.toNat < b.toU8.toNat) ∧ (a.cmp b = .eq ↔ a.toU8 = b.toU8) ∧
    ((AttrType.ofU8 c).cmp (AttrType.ofU8 d) = .eq ↔ AttrType.ofU8 c = AttrType.ofU8 d) := by
  have h1 : ∀ c, (AttrType.ofU8 c).toU8 = c := by
    intro c; unfold AttrType.ofU8; split <;> rfl
  have h2 : ∀ a b : AttrType, a.cmp b = .eq ↔ a.toU8 = b.toU8 := by
    intro a b
    unfold AttrType.cmp
    rw [Nat.compare_eq_eq]
    exact UInt8.toNat_inj
  refine ⟨h1 c, ?_, h2 a b, ?_⟩
  · unfold AttrType.cmp; rw [Nat.compare_eq_lt]
  · rw [h2, h1, h1]
    exact ⟨fun h => by rw [h], fun h => by rw [← h1 c, h, h1]⟩

/-- C104. A type is the one its code stands for unless it is `Unknown` with a code that has a name. -/
theorem c104_attr_type_back (a : AttrType) : AttrType.ofU8 a.toU8 = a ↔ ∀ c, a = .unknown c → c ∉ knownAttrCodes := by
  unfold AttrType.ofU8
  cases a with
  | named c h => simp [AttrType.toU8, h]
  | unknown c =>
    by_cases h : c ∈ knownAttrCodes
    · simp [AttrType.toU8, h]
    · simp [AttrType.toU8, h]

/-- C104, refuted for types made by hand: `Unknown(1)` and ORIGIN compare as equal and are not equal. -/
theorem c104_attr_type_violated : ∃ a b : AttrType, a.cmp b = .eq ∧ a ≠ b :=
  ⟨.unknown 1, .named 1 (by decide), by decide, by simp⟩

/-! ### record headers -/

/-- C104. Equality of record headers is an equivalence; it looks at everything but the length. -/
theorem c104_header_equality (a b c : Header) :
    a.same a = true ∧ (a.same b = true → b.same a = true) ∧ (a.same b = true → b.same c = true → a.same c = true) ∧
      (a.same b = true ↔ ∃ n, a = { b with length := n }) := by
  have h : ∀ a b : Header, a.same b = true ↔ ∃ n, a = { b with length := n } := by
    rintro ⟨a1, a2, a3, a4, a5⟩ ⟨b1, b2, b3, b4, b5⟩
    simp only [Header.same, Bool.and_eq_true, beq_iff_eq, Header.mk.injEq, and_assoc]
    exact ⟨fun ⟨h1, h2, h3, h4⟩ => ⟨a5, h1, h2, h3, h4, rfl⟩, fun ⟨_, h1, h2, h3, h4, _⟩ => ⟨h1, h2, h3, h4⟩⟩
  refine ⟨(h a a).mpr ⟨a.length, rfl⟩, fun g => ?_, fun g1 g2 => ?_, h a b⟩
  · obtain ⟨n, rfl⟩ := (h a b).mp g
    exact (h _ _).mpr ⟨b.length, rfl⟩
  · obtain ⟨n, rfl⟩ := (h a b).mp g1
    obtain ⟨m, rfl⟩ := (h b c).mp g2
    exact (h _ _).mpr ⟨n, rfl⟩

/-! ### AS numbers and integers -/

/-- C104. AS numbers and unsigned integers: the number is kept, comparison with an integer is comparison of numbers; a `u16`
made from an AS number is the AS number exactly if it is below 65536. What is made from a `u32` is written in four octets, what
is made from a `u16` in two. -/
theorem c104_asn_unsigned (a : AsnRaw) (n : UInt32) (k : UInt16) :
    (AsnRaw.ofU32 n).toU32 = n ∧ (AsnRaw.ofU16 k).toU16 = k ∧ (AsnRaw.ofU16 k).toU32.toNat = k.toNat ∧
    (a.eqU32 n = true ↔ a.asn.toNat = n.toNat) ∧ (a.eqU16 k = true ↔ a.asn.toNat = k.toNat) ∧
    a.toU16.toNat = a.asn.toNat % 65536 ∧ ((AsnRaw.ofU16 a.toU16).eq a = true ↔ a.asn.toNat < 65536) ∧
    (AsnRaw.ofU32 n).encode = be32 n ∧ (AsnRaw.ofU16 k).encode = be16 k := by
  have hk := k.toNat_lt
  refine ⟨rfl, ?_, ?_, ?_, ?_, ?_, ?_, rfl, ?_⟩
  · apply UInt16.toNat_inj.mp
    simp [AsnRaw.ofU16, AsnRaw.toU16]
  · simp [AsnRaw.ofU16, AsnRaw.toU32]
  · unfold AsnRaw.eqU32; rw [beq_iff_eq]; exact UInt32.toNat_inj.symm
  · unfold AsnRaw.eqU16; rw [beq_iff_eq, ← UInt32.toNat_inj]; simp
  · simp [AsnRaw.toU16]
  · unfold AsnRaw.eq AsnRaw.ofU16 AsnRaw.toU16
    rw [beq_iff_eq, ← UInt32.toNat_inj]
    simp
  · simp [AsnRaw.encode, AsnRaw.ofU16]

/-- C104. AS numbers and signed integers: an integer and its AS number agree modulo 2^32, so that from zero on they are the
same number and below zero an integer equals the AS number 2^32 above it. -/
theorem c104_asn_signed (a : AsnRaw) (n : Int32) :
    (AsnRaw.ofI32 n).toI32 = n ∧ (a.eqI32 n = true ↔ (a.asn.toNat : Int) = n.toInt % 4294967296) ∧
    (AsnRaw.ofI32 a.toI32).eq a = true ∧ (a.toI32.toInt = a.asn.toNat ↔ a.asn.toNat < 2147483648) := by
  have hu : ∀ n : Int32, (n.toUInt32.toNat : Int) = n.toInt % 4294967296 := by
    intro n
    have h1 : n.toUInt32.toNat = n.toBitVec.toNat := rfl
    have h2 : n.toInt = n.toBitVec.toInt := rfl
    have h3 := n.toBitVec.isLt
    rw [h1, h2, BitVec.toInt_eq_toNat_cond]
    split <;> omega
  refine ⟨rfl, ?_, ?_, ?_⟩
  · unfold AsnRaw.eqI32
    rw [beq_iff_eq, ← UInt32.toNat_inj, ← hu]
    omega
  · unfold AsnRaw.eq AsnRaw.ofI32 AsnRaw.toI32
    rw [beq_iff_eq]
    rfl
  · have h2 : a.toI32.toInt = a.asn.toBitVec.toInt := rfl
    have h1 : a.asn.toNat = a.asn.toBitVec.toNat := rfl
    have h3 := a.asn.toBitVec.isLt
    rw [h2, h1, BitVec.toInt_eq_toNat_cond]
    split <;> omega

/-- C104. Equal AS numbers can be written differently: the width is not part of the number. -/
theorem c104_asn_encode (a b : AsnRaw) (h : a.eq b = true) : a.encode = b.encode ↔ a.fourByte = b.fourByte := by
  have h : a.asn = b.asn := by unfold AsnRaw.eq at h; exact beq_iff_eq.mp h
  unfold AsnRaw.encode
  rw [h]
  cases a.fourByte <;> cases b.fourByte <;> simp [be16, be32]

example : (⟨7, true⟩ : AsnRaw).eq ⟨7, false⟩ = true := by decide

end Verif.Props
