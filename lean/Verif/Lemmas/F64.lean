import Verif.Model.F64
/-
Rounding errors of the modelled `f64` arithmetic.
-/
namespace Verif

theorem roundEven_err (x : Rat) : x - 1/2 ≤ (roundEven x : Rat) ∧ (roundEven x : Rat) ≤ x + 1/2 := by
  have h1 := Rat.floor_le x
  have h2 := Rat.lt_floor_add_one x
  have h3 : ((x.floor + 1 : Int) : Rat) = (x.floor : Rat) + 1 := by simp [Rat.intCast_add]
  rw [h3] at h2
  unfold roundEven
  split
  · grind
  · split
    · rw [h3]; grind
    · split
      · grind
      · rw [h3]; grind

theorem roundEven_int (n : Int) : roundEven (n : Rat) = n := by
  unfold roundEven
  rw [Rat.floor_intCast, Rat.sub_self, if_pos (by decide +kernel)]

theorem rat_pow_pos (e : Int) : (0 : Rat) < 2 ^ e := Rat.zpow_pos (by decide +kernel)

theorem rat_pow_add (a b : Int) : (2 : Rat) ^ (a + b) = 2 ^ a * 2 ^ b := Rat.zpow_add (by decide +kernel) a b

theorem rat_pow_nat (n : Nat) : (2 : Rat) ^ (n : Int) = ((2 ^ n : Nat) : Rat) := by
  rw [Rat.zpow_natCast, Rat.natCast_pow]; rfl

theorem rat_num_den {x : Rat} : x * (x.den : Rat) = (x.num : Rat) := by
  have hd : (x.den : Rat) ≠ 0 := by
    have := x.den_pos
    intro h
    have : ((x.den : Nat) : Rat) = ((0 : Nat) : Rat) := h
    rw [Rat.natCast_inj] at this
    omega
  conv => lhs; lhs; rw [← Rat.mkRat_self x]
  rw [Rat.mkRat_eq_div, Rat.div_mul_cancel hd]

/-- numerator and denominator of a positive number. -/
theorem rat_pos_num {x : Rat} (h : 0 < x) : (0 : Rat) < (x.den : Rat) ∧ x.num.natAbs ≠ 0 ∧
    x * (x.den : Rat) = ((x.num.natAbs : Nat) : Rat) := by
  have hd : (0 : Rat) < (x.den : Rat) := Rat.natCast_pos.mpr x.den_pos
  have hn : 0 < x.num := by
    have := Rat.mul_pos h hd
    rw [rat_num_den] at this
    exact Rat.intCast_pos.mp this
  refine ⟨hd, by omega, ?_⟩
  rw [rat_num_den]
  have : (x.num : Rat) = (((x.num.natAbs : Nat) : Int) : Rat) := by
    congr 1; omega
  rw [this]; rfl

/-- the exponent is the one claimed. -/
theorem expo_le {x : Rat} (h : 0 < x) : (2 : Rat) ^ expo x ≤ x := by
  unfold expo
  dsimp only
  split
  · assumption
  · obtain ⟨hd, hn, he⟩ := rat_pos_num h
    have h1 : (2 ^ Nat.log2 x.num.natAbs : Nat) ≤ x.num.natAbs := Nat.log2_self_le hn
    have h2 : x.den < 2 ^ (Nat.log2 x.den + 1) := Nat.lt_log2_self
    have h1' := Rat.natCast_le_natCast.mpr h1
    have h2' := Rat.natCast_lt_natCast.mpr h2
    rw [← rat_pow_nat] at h1' h2'
    generalize Nat.log2 x.num.natAbs = a at *
    generalize Nat.log2 x.den = b at *
    have e : (2 : Rat) ^ ((a : Int) - (b : Int) - 1) * 2 ^ ((b + 1 : Nat) : Int) = 2 ^ (a : Int) := by
      rw [← rat_pow_add]; congr 1; omega
    refine Rat.le_of_mul_le_mul_right (c := (x.den : Rat)) ?_ hd
    rw [he]
    have := Rat.mul_le_mul_of_nonneg_left (Rat.le_of_lt h2') (Rat.le_of_lt (rat_pow_pos ((a : Int) - b - 1)))
    rw [e] at this
    exact Rat.le_trans this h1'

theorem expo_lt {x : Rat} (h : 0 < x) : x < (2 : Rat) ^ (expo x + 1) := by
  unfold expo
  dsimp only
  split
  · obtain ⟨hd, hn, he⟩ := rat_pos_num h
    have h1 : x.num.natAbs < 2 ^ (Nat.log2 x.num.natAbs + 1) := Nat.lt_log2_self
    have h2 : 2 ^ Nat.log2 x.den ≤ x.den := Nat.log2_self_le (by have := x.den_pos; omega)
    have h1' := Rat.natCast_lt_natCast.mpr h1
    have h2' := Rat.natCast_le_natCast.mpr h2
    rw [← rat_pow_nat] at h1' h2'
    generalize Nat.log2 x.num.natAbs = a at *
    generalize Nat.log2 x.den = b at *
    have e : (2 : Rat) ^ ((a : Int) - (b : Int) + 1) * 2 ^ (b : Int) = 2 ^ ((a + 1 : Nat) : Int) := by
      rw [← rat_pow_add]; congr 1; omega
    refine Rat.lt_of_mul_lt_mul_right (c := (x.den : Rat)) ?_ (Rat.le_of_lt hd)
    rw [he]
    have := Rat.mul_le_mul_of_nonneg_left h2' (Rat.le_of_lt (rat_pow_pos ((a : Int) - b + 1)))
    rw [e] at this
    grind
  · rename_i hk
    rw [Int.sub_add_cancel]
    exact Rat.not_le.mp hk

/-- the absolute value used by the rounding. -/
theorem abs_pos' {x : Rat} (h : x ≠ 0) : 0 < (if x < 0 then -x else x) := by
  split
  · grind
  · grind

/-- the rounding error is at most one part in `2^53`. -/
theorem f64Round_err (x b : Rat) (h1 : -b ≤ x) (h2 : x ≤ b) :
    x - b / 9007199254740992 ≤ f64Round x ∧ f64Round x ≤ x + b / 9007199254740992 := by
  unfold f64Round
  split
  · rename_i h; subst h; grind
  · rename_i hx
    dsimp only
    have hp := abs_pos' hx
    have hb : (if x < 0 then -x else x) ≤ b := by split <;> grind
    generalize (if x < 0 then -x else x) = y at *
    have hl := expo_le hp
    generalize expo y = e at *
    have eu : (2 : Rat) ^ (e - 52) * 4503599627370496 = 2 ^ e := by
      have : (4503599627370496 : Rat) = 2 ^ (52 : Int) := by decide +kernel
      rw [this, ← rat_pow_add]; congr 1; omega
    have hu := rat_pow_pos (e - 52)
    generalize (2 : Rat) ^ (e - 52) = u at *
    generalize (2 : Rat) ^ e = w at *
    obtain ⟨r1, r2⟩ := roundEven_err (x / u)
    have hxu : x / u * u = x := Rat.div_mul_cancel (by grind)
    generalize x / u = q at *
    have r1' := Rat.mul_le_mul_of_nonneg_right r1 (Rat.le_of_lt hu)
    have r2' := Rat.mul_le_mul_of_nonneg_right r2 (Rat.le_of_lt hu)
    generalize (roundEven q : Rat) * u = v at *
    have d1 : (q - 1/2) * u = x - u / 2 := by rw [← hxu]; grind
    have d2 : (q + 1/2) * u = x + u / 2 := by rw [← hxu]; grind
    rw [d1] at r1'; rw [d2] at r2'
    grind

/-- no integer is nearer than the rounded one. -/
theorem roundEven_nearest (x : Rat) (n : Int) :
    (roundEven x : Rat) - x ≤ (n : Rat) - x ∨ (roundEven x : Rat) - x ≤ x - (n : Rat) := by
  have h1 := Rat.floor_le x
  have h2 := Rat.lt_floor_add_one x
  have h3 : ((x.floor + 1 : Int) : Rat) = (x.floor : Rat) + 1 := by simp [Rat.intCast_add]
  rw [h3] at h2
  rcases Int.lt_or_le x.floor n with h | h
  · have h4 : ((x.floor + 1 : Int) : Rat) ≤ (n : Rat) := Rat.intCast_le_intCast.mpr (by omega)
    rw [h3] at h4
    left
    unfold roundEven
    split
    · grind
    · split
      · rw [h3]; grind
      · split
        · grind
        · rw [h3]; grind
  · have h4 : ((n : Int) : Rat) ≤ (x.floor : Rat) := Rat.intCast_le_intCast.mpr h
    unfold roundEven
    split
    · right; grind
    · split
      · right; rw [h3]; grind
      · split
        · right; grind
        · right; rw [h3]; grind

theorem roundEven_nearest' (x : Rat) (n : Int) :
    x - (roundEven x : Rat) ≤ (n : Rat) - x ∨ x - (roundEven x : Rat) ≤ x - (n : Rat) := by
  have h1 := Rat.floor_le x
  have h2 := Rat.lt_floor_add_one x
  have h3 : ((x.floor + 1 : Int) : Rat) = (x.floor : Rat) + 1 := by simp [Rat.intCast_add]
  rw [h3] at h2
  rcases Int.lt_or_le x.floor n with h | h
  · have h4 : ((x.floor + 1 : Int) : Rat) ≤ (n : Rat) := Rat.intCast_le_intCast.mpr (by omega)
    rw [h3] at h4
    left
    unfold roundEven
    split
    · grind
    · split
      · rw [h3]; grind
      · split
        · grind
        · rw [h3]; grind
  · have h4 : ((n : Int) : Rat) ≤ (x.floor : Rat) := Rat.intCast_le_intCast.mpr h
    unfold roundEven
    split
    · right; grind
    · split
      · right; rw [h3]; grind
      · split
        · right; grind
        · right; rw [h3]; grind

/-- whole numbers below `2^53` are doubles. -/
theorem f64Round_nat (n : Nat) (h : n < 9007199254740992) : f64Round (n : Rat) = n := by
  unfold f64Round
  split
  · rename_i h; exact h.symm
  · rename_i hx
    dsimp only
    rw [if_neg (by have := @Rat.natCast_nonneg n; grind)]
    have hp : (0 : Rat) < n := by have := @Rat.natCast_nonneg n; grind
    have hl := expo_le hp
    generalize expo (n : Rat) = e at *
    have he : e ≤ 52 := by
      rcases Int.lt_or_le 52 e with h' | h'
      · exfalso
        have e1 : (2 : Rat) ^ e = 2 ^ (e - 53) * 9007199254740992 := by
          have : (9007199254740992 : Rat) = 2 ^ (53 : Int) := by decide +kernel
          rw [this, ← rat_pow_add]; congr 1; omega
        obtain ⟨k, hk⟩ : ∃ k : Nat, e - 53 = k := ⟨(e - 53).toNat, by omega⟩
        have h1 : (1 : Rat) ≤ 2 ^ (e - 53) := by
          rw [hk, rat_pow_nat]
          have : ((1 : Nat) : Rat) ≤ ((2 ^ k : Nat) : Rat) := Rat.natCast_le_natCast.mpr (Nat.one_le_two_pow)
          exact this
        have h2 : (n : Rat) < ((9007199254740992 : Nat) : Rat) := Rat.natCast_lt_natCast.mpr h
        have h3 : ((9007199254740992 : Nat) : Rat) = 9007199254740992 := rfl
        rw [h3] at h2
        grind
      · exact h'
    obtain ⟨k, hk⟩ : ∃ k : Nat, 52 - e = k := ⟨(52 - e).toNat, by omega⟩
    have e2 : (2 : Rat) ^ (e - 52) * ((2 ^ k : Nat) : Rat) = 1 := by
      rw [← rat_pow_nat, ← hk, ← rat_pow_add]
      have : e - 52 + (52 - e) = 0 := by omega
      rw [this]; rfl
    have hu := rat_pow_pos (e - 52)
    generalize (2 : Rat) ^ (e - 52) = u at *
    have e3 : (n : Rat) / u = (((n * 2 ^ k : Nat) : Int) : Rat) := by
      have : (((n * 2 ^ k : Nat) : Int) : Rat) = (n : Rat) * ((2 ^ k : Nat) : Rat) := by
        show ((n * 2 ^ k : Nat) : Rat) = _
        rw [Rat.natCast_mul]
      rw [this]
      generalize ((2 ^ k : Nat) : Rat) = p at *
      have : (n : Rat) = (n : Rat) * p * u := by grind
      conv => lhs; rw [this]
      exact Rat.mul_div_cancel (by grind)
    rw [e3, roundEven_int, ← e3, Rat.div_mul_cancel (by grind)]

end Verif
