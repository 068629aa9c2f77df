import Verif.Lemmas.F64
/-
Timestamps as `f64`: seconds and microseconds to a double and back.
-/
namespace Verif.Props
open Verif

/-- a number that double precision can represent (exponent range aside): 53 significant bits. -/
def IsDouble (v : Rat) : Prop := ∃ (m e : Int), m.natAbs ≤ 2 ^ 53 ∧ v = (m : Rat) * 2 ^ e

/-- Supports the model of `f64`: the result of rounding is a double, and no double is nearer. -/
theorem f64Round_spec (x : Rat) (hx : 0 ≤ x) : IsDouble (f64Round x) ∧
    ∀ v, IsDouble v → (f64Round x - x ≤ v - x ∨ f64Round x - x ≤ x - v) ∧ (x - f64Round x ≤ v - x ∨ x - f64Round x ≤ x - v) := by
  unfold f64Round
  split
  · rename_i h
    subst h
    exact ⟨⟨0, 0, by decide, by decide +kernel⟩, fun v _ => by grind⟩
  · rename_i h0
    have hp : 0 < x := by grind
    dsimp only
    rw [if_neg (by grind)]
    have hl := expo_le hp
    have hh := expo_lt hp
    generalize expo x = e at *
    have eu : (2 : Rat) ^ (e - 52) * 4503599627370496 = 2 ^ e := by
      have : (4503599627370496 : Rat) = 2 ^ (52 : Int) := by decide +kernel
      rw [this, ← rat_pow_add]; congr 1; omega
    have eu1 : (2 : Rat) ^ (e + 1) = 2 ^ e * 2 := rat_pow_add e 1
    have hu := rat_pow_pos (e - 52)
    have hxu : x / 2 ^ (e - 52) * 2 ^ (e - 52) = x := Rat.div_mul_cancel (by grind)
    have near : ∀ n : Int, ((roundEven (x / 2 ^ (e - 52)) : Rat) * 2 ^ (e - 52) - x ≤ (n : Rat) * 2 ^ (e - 52) - x ∨
        (roundEven (x / 2 ^ (e - 52)) : Rat) * 2 ^ (e - 52) - x ≤ x - (n : Rat) * 2 ^ (e - 52)) ∧
        (x - (roundEven (x / 2 ^ (e - 52)) : Rat) * 2 ^ (e - 52) ≤ (n : Rat) * 2 ^ (e - 52) - x ∨
        x - (roundEven (x / 2 ^ (e - 52)) : Rat) * 2 ^ (e - 52) ≤ x - (n : Rat) * 2 ^ (e - 52)) := by
      intro n
      have n1 := roundEven_nearest (x / 2 ^ (e - 52)) n
      have n2 := roundEven_nearest' (x / 2 ^ (e - 52)) n
      generalize (2 : Rat) ^ (e - 52) = u at *
      generalize x / u = q at *
      have hu' := Rat.le_of_lt hu
      have m1 : ∀ a b : Rat, a ≤ b → a * u ≤ b * u := fun a b h => Rat.mul_le_mul_of_nonneg_right h hu'
      refine ⟨n1.imp (fun h => ?_) (fun h => ?_), n2.imp (fun h => ?_) (fun h => ?_)⟩ <;>
        (have := m1 _ _ h; grind)
    refine ⟨⟨roundEven (x / 2 ^ (e - 52)), e - 52, ?_, rfl⟩, ?_⟩
    · generalize (2 : Rat) ^ (e - 52) = u at *
      obtain ⟨r1, r2⟩ := roundEven_err (x / u)
      have q1 : 0 ≤ x / u := by
        apply Rat.not_lt.mp
        intro hn
        have := (Rat.mul_lt_mul_right hu).mpr hn
        grind
      have q2 : x / u < 9007199254740992 := by
        rw [Rat.div_lt_iff hu]; grind
      generalize x / u = q at *
      have z1 : ((-1 : Int) : Rat) < (roundEven q : Rat) := by
        have : ((-1 : Int) : Rat) = -1 := rfl
        rw [this]; grind
      have z2 : (roundEven q : Rat) < ((9007199254740993 : Int) : Rat) := by
        have : ((9007199254740993 : Int) : Rat) = 9007199254740993 := rfl
        rw [this]; grind
      rw [Rat.intCast_lt_intCast] at z1 z2
      omega
    · rintro v ⟨m, f, hm, rfl⟩
      rcases Int.lt_or_le f (e - 52) with hf | hf
      · -- a coarser bound: the candidate is at most `2^e`
        have hb : (m : Rat) * 2 ^ f ≤ 2 ^ e := by
          have e1 : (2 : Rat) ^ e = 2 ^ (e - 53 - f) * 9007199254740992 * 2 ^ f := by
            have : (9007199254740992 : Rat) = 2 ^ (53 : Int) := by decide +kernel
            rw [this, ← rat_pow_add, ← rat_pow_add]; congr 1; omega
          rw [e1]
          refine Rat.mul_le_mul_of_nonneg_right ?_ (Rat.le_of_lt (rat_pow_pos f))
          obtain ⟨k, hk⟩ : ∃ k : Nat, e - 53 - f = k := ⟨(e - 53 - f).toNat, by omega⟩
          have h1 : (1 : Rat) ≤ 2 ^ (e - 53 - f) := by
            rw [hk, rat_pow_nat]
            have : ((1 : Nat) : Rat) ≤ ((2 ^ k : Nat) : Rat) := Rat.natCast_le_natCast.mpr (Nat.one_le_two_pow)
            exact this
          have h2 : (m : Rat) ≤ ((9007199254740992 : Int) : Rat) := Rat.intCast_le_intCast.mpr (by omega)
          have h3 : ((9007199254740992 : Int) : Rat) = 9007199254740992 := rfl
          rw [h3] at h2
          grind
        have h4 := near 4503599627370496
        have h5 : ((4503599627370496 : Int) : Rat) = 4503599627370496 := rfl
        rw [h5, Rat.mul_comm 4503599627370496, eu] at h4
        generalize (roundEven (x / 2 ^ (e - 52)) : Rat) * 2 ^ (e - 52) = w at *
        generalize (m : Rat) * 2 ^ f = v at *
        grind
      · obtain ⟨k, hk⟩ : ∃ k : Nat, f - (e - 52) = k := ⟨(f - (e - 52)).toNat, by omega⟩
        have e1 : (m : Rat) * 2 ^ f = ((m * (2 ^ k : Nat) : Int) : Rat) * 2 ^ (e - 52) := by
          rw [Rat.intCast_mul]
          have : (((2 ^ k : Nat) : Int) : Rat) = 2 ^ (k : Int) := (rat_pow_nat k).symm
          rw [this, Rat.mul_assoc, ← rat_pow_add, ← hk]
          congr 2; omega
        rw [e1]
        exact near _

/-- the number of microseconds since the epoch. -/
def micros (sec usec : UInt32) : Nat := sec.toNat * 1000000 + usec.toNat

theorem micros_rat (sec usec : UInt32) :
    (sec.toNat : Rat) + (usec.toNat : Rat) / 1000000 = ((micros sec usec : Nat) : Rat) / 1000000 := by
  unfold micros
  rw [Rat.natCast_add, Rat.natCast_mul]
  have : ((1000000 : Nat) : Rat) = 1000000 := rfl
  rw [this]; grind

theorem u32_rat (x : UInt32) : (0 : Rat) ≤ (x.toNat : Rat) ∧ (x.toNat : Rat) < 4294967296 := by
  refine ⟨Rat.natCast_nonneg, ?_⟩
  have : ((4294967296 : Nat) : Rat) = 4294967296 := rfl
  rw [← this]
  exact Rat.natCast_lt_natCast.mpr x.toNat_lt

/-- C62. The timestamp of a message is within half a microsecond of the time sent. -/
theorem c62_error (sec usec : UInt32) :
    (micros sec usec : Rat) - 1/2 < stampOf sec usec * 1000000 ∧ stampOf sec usec * 1000000 < (micros sec usec : Rat) + 1/2 := by
  have hm := micros_rat sec usec
  obtain ⟨a1, a2⟩ := u32_rat sec
  obtain ⟨b1, b2⟩ := u32_rat usec
  unfold stampOf f64Add f64Div
  generalize (sec.toNat : Rat) = s at *
  generalize (usec.toNat : Rat) = u at *
  generalize ((micros sec usec : Nat) : Rat) = m at *
  obtain ⟨c1, c2⟩ := f64Round_err (u / 1000000) 4295 (by grind) (by grind)
  generalize f64Round (u / 1000000) = d at *
  obtain ⟨e1, e2⟩ := f64Round_err (s + d) 4294971592 (by grind) (by grind)
  generalize f64Round (s + d) = t at *
  grind

/-- C62. A later time sent is a later timestamp. -/
theorem c62_later (sec usec sec' usec' : UInt32) (h : micros sec usec < micros sec' usec') :
    stampOf sec usec < stampOf sec' usec' := by
  obtain ⟨a1, a2⟩ := c62_error sec usec
  obtain ⟨b1, b2⟩ := c62_error sec' usec'
  have : ((micros sec usec + 1 : Nat) : Rat) ≤ ((micros sec' usec' : Nat) : Rat) := Rat.natCast_le_natCast.mpr h
  rw [Rat.natCast_add] at this
  have e1 : ((1 : Nat) : Rat) = 1 := rfl
  rw [e1] at this
  generalize ((micros sec usec : Nat) : Rat) = m at *
  generalize ((micros sec' usec' : Nat) : Rat) = m' at *
  grind

/-- C62. With less than a million microseconds, timestamps compare as doubles exactly as the times sent compare; in
particular different times give different timestamps. -/
theorem c62_order (sec usec sec' usec' : UInt32) (hu : usec.toNat < 1000000) (hu' : usec'.toNat < 1000000) :
    (stampOf sec usec < stampOf sec' usec' ↔ micros sec usec < micros sec' usec') ∧
    (stampOf sec usec = stampOf sec' usec' ↔ sec = sec' ∧ usec = usec') := by
  have key : micros sec usec = micros sec' usec' → sec = sec' ∧ usec = usec' := by
    intro h
    unfold micros at h
    exact ⟨UInt32.toNat_inj.mp (by omega), UInt32.toNat_inj.mp (by omega)⟩
  have l1 := c62_later sec usec sec' usec'
  have l2 := c62_later sec' usec' sec usec
  rcases Nat.lt_trichotomy (micros sec usec) (micros sec' usec') with h | h | h
  · have := l1 h
    refine ⟨⟨fun _ => h, fun _ => this⟩, fun e => ?_, ?_⟩
    · rw [e] at this; exact absurd this Rat.lt_irrefl
    · rintro ⟨rfl, rfl⟩; rfl
  · obtain ⟨rfl, rfl⟩ := key h
    exact ⟨⟨fun h => absurd h Rat.lt_irrefl, fun h => absurd h (Nat.lt_irrefl _)⟩, fun _ => ⟨rfl, rfl⟩, fun _ => rfl⟩
  · have := l2 h
    refine ⟨⟨fun h' => ?_, fun h' => ?_⟩, fun e => ?_, ?_⟩
    · exfalso; grind
    · omega
    · rw [e] at this; exact absurd this Rat.lt_irrefl
    · rintro ⟨rfl, rfl⟩; rfl

example : stampOf 1609459200 999999 < stampOf 1609459201 0 := by decide +kernel
example : stampOf 1 5 = stampOf 1 5 ∧ stampOf 4294967295 999998 ≠ stampOf 4294967295 999999 := by decide +kernel

theorem f64ToU32_of (x : Rat) (n : Nat) (hn : n < 4294967296) (h1 : (n : Rat) ≤ x) (h2 : x < (n : Rat) + 1) :
    (f64ToU32 x).toNat = n := by
  have h0 : ¬ x < 0 := by have := @Rat.natCast_nonneg n; grind
  have hf : x.floor = (n : Int) := by
    have a : (n : Int) ≤ x.floor := Rat.le_floor_iff.mpr h1
    have b : x.floor < (n : Int) + 1 := by
      rw [Rat.floor_lt_iff, Rat.intCast_add]; exact h2
    omega
  unfold f64ToU32
  rw [if_neg h0, hf, if_pos (by omega)]
  simp only [Int.toNat_natCast, UInt32.toNat_ofNat']
  omega

/-- C62. Splitting a timestamp into seconds and microseconds gives the seconds sent, and the microseconds sent or one
less. (The full property would be that the microseconds come back as sent; `c62_convert_loses` shows that they do not.) -/
theorem c62_convert_partial (sec usec : UInt32) (h : micros sec usec < 4294967296 * 1000000) :
    (convertTimestamp (stampOf sec usec)).1.toNat = micros sec usec / 1000000 ∧
    ((convertTimestamp (stampOf sec usec)).2.toNat = micros sec usec % 1000000 ∨
     (convertTimestamp (stampOf sec usec)).2.toNat + 1 = micros sec usec % 1000000) := by
  obtain ⟨a1, a2⟩ := c62_error sec usec
  have hS : micros sec usec / 1000000 < 4294967296 := by omega
  have hm : micros sec usec = micros sec usec / 1000000 * 1000000 + micros sec usec % 1000000 := by omega
  have hU : micros sec usec % 1000000 < 1000000 := Nat.mod_lt _ (by omega)
  have h0 : micros sec usec % 1000000 = 0 → stampOf sec usec = ((micros sec usec / 1000000 : Nat) : Rat) := by
    intro hz
    have hk : usec.toNat = usec.toNat / 1000000 * 1000000 := by unfold micros at hz; omega
    have hs : micros sec usec / 1000000 = sec.toNat + usec.toNat / 1000000 := by unfold micros; omega
    have e1 : (usec.toNat : Rat) / 1000000 = ((usec.toNat / 1000000 : Nat) : Rat) := by
      conv => lhs; rw [hk, Rat.natCast_mul]
      exact Rat.mul_div_cancel (by decide +kernel)
    unfold stampOf f64Add f64Div
    rw [e1, f64Round_nat _ (by have := usec.toNat_lt; omega), ← Rat.natCast_add, ← hs, f64Round_nat _ (by omega)]
  generalize micros sec usec = m at *
  generalize stampOf sec usec = t at *
  generalize m / 1000000 = S at *
  generalize m % 1000000 = U at *
  have hmr : (m : Rat) = (S : Rat) * 1000000 + (U : Rat) := by
    rw [hm, Rat.natCast_add, Rat.natCast_mul]; rfl
  have hUr : (U : Rat) ≤ 999999 := by
    have : ((U : Nat) : Rat) ≤ ((999999 : Nat) : Rat) := Rat.natCast_le_natCast.mpr (by omega)
    exact this
  have hU0 := @Rat.natCast_nonneg U
  unfold convertTimestamp
  dsimp only
  rcases Nat.eq_zero_or_pos U with hz | hz
  · rw [h0 hz]
    have hc : (f64ToU32 ((S : Nat) : Rat)).toNat = S := f64ToU32_of _ S hS Rat.le_refl (by grind)
    refine ⟨hc, .inl ?_⟩
    rw [hc, hz]
    unfold f64Sub f64Mul
    rw [Rat.sub_self]
    decide +kernel
  · have hz' : (1 : Rat) ≤ (U : Rat) := by
      have : ((1 : Nat) : Rat) ≤ ((U : Nat) : Rat) := Rat.natCast_le_natCast.mpr hz
      exact this
    have hc : (f64ToU32 t).toNat = S := f64ToU32_of _ S hS (by grind) (by grind)
    refine ⟨hc, ?_⟩
    rw [hc]
    unfold f64Sub f64Mul
    obtain ⟨c1, c2⟩ := f64Round_err (t - (S : Rat)) 1 (by grind) (by grind)
    generalize f64Round (t - (S : Rat)) = d at *
    obtain ⟨e1, e2⟩ := f64Round_err (d * 1000000) 2000000 (by grind) (by grind)
    generalize f64Round (d * 1000000) = p at *
    have hp1 : (U : Rat) - 1 ≤ p := by grind
    have hp2 : p < (U : Rat) + 1 := by grind
    obtain ⟨V, rfl⟩ : ∃ V, U = V + 1 := ⟨U - 1, by omega⟩
    have hV : ((V + 1 : Nat) : Rat) = (V : Rat) + 1 := by rw [Rat.natCast_add]; rfl
    rcases @Rat.le_total ((V + 1 : Nat) : Rat) p with hle | hle
    · exact .inl (f64ToU32_of p (V + 1) (by omega) hle hp2)
    · by_cases heq : p = ((V + 1 : Nat) : Rat)
      · exact .inl (f64ToU32_of p (V + 1) (by omega) (by grind) hp2)
      · right
        rw [f64ToU32_of p V (by omega) (by grind) (by grind)]

example : convertTimestamp (stampOf 1609459200 123456) = (1609459200, 123456) := by decide +kernel

/-- C62 fails here: two microseconds past midnight of 1 January 2021 come back as one. -/
theorem c62_convert_loses :
    micros 1609459200 2 < 4294967296 * 1000000 ∧ convertTimestamp (stampOf 1609459200 2) = (1609459200, 1) := by
  decide +kernel

/-- C62. Seconds that do not fit 32 bits saturate: below zero at 0, above at 2^32 - 1. -/
theorem c62_saturates (t : Rat) : (t < 0 → (convertTimestamp t).1.toNat = 0) ∧
    (4294967296 ≤ t → (convertTimestamp t).1.toNat = 4294967295) := by
  refine ⟨fun h => ?_, fun h => ?_⟩
  · show (f64ToU32 t).toNat = 0
    unfold f64ToU32
    rw [if_pos h]; rfl
  · show (f64ToU32 t).toNat = 4294967295
    unfold f64ToU32
    have h1 : (4294967296 : Int) ≤ t.floor := Rat.le_floor_iff.mpr h
    rw [if_neg (by grind), if_neg (by omega)]; rfl

example : convertTimestamp 5000000000 = (4294967295, 4294967295) ∧ convertTimestamp (-1) = (0, 0) := by decide +kernel

end Verif.Props
