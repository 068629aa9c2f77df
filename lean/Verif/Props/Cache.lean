import Verif.Model.Cache
import Verif.Model.TextDump
import Verif.Spec.Cache
/-
C92: the names of cached files.
-/
namespace Verif.Props
open Spec

/-! ### the register -/

theorem shift_bit (x : BitVec 32) (i : Nat) (hi : i < 32) :
    (crcShift x).getLsbD i = (x.getLsbD (i + 1) ^^ (x.getLsbD 0 && (0xedb88320#32).getLsbD i)) := by
  have h1 : (x &&& 1 = 1) ↔ x.getLsbD 0 = true := by
    constructor
    · intro h
      have := congrArg (fun y : BitVec 32 => y.getLsbD 0) h
      simpa using this
    · intro h
      apply BitVec.eq_of_getLsbD_eq
      intro j hj
      by_cases h0 : j = 0
      · subst h0; simp [h]
      · rw [BitVec.getLsbD_and]
        have : (1 : BitVec 32).getLsbD j = false := by
          have := BitVec.getLsbD_one (w := 32) (i := j)
          simp_all
        rw [this, Bool.and_false]
  unfold crcShift
  by_cases h : x.getLsbD 0 = true
  · rw [if_pos (h1.mpr h), BitVec.getLsbD_xor, BitVec.getLsbD_ushiftRight, h, Nat.add_comm, Bool.true_and]
  · rw [if_neg (fun k => h (h1.mp k)), BitVec.getLsbD_ushiftRight, Nat.add_comm]
    simp [Bool.not_eq_true] at h
    simp [h]

theorem shift_xor (x y : BitVec 32) : crcShift (x ^^^ y) = crcShift x ^^^ crcShift y := by
  apply BitVec.eq_of_getLsbD_eq
  intro i hi
  rw [BitVec.getLsbD_xor, shift_bit _ _ hi, shift_bit _ _ hi, shift_bit _ _ hi, BitVec.getLsbD_xor, BitVec.getLsbD_xor]
  cases x.getLsbD (i + 1) <;> cases y.getLsbD (i + 1) <;> cases x.getLsbD 0 <;> cases y.getLsbD 0 <;>
    cases (0xedb88320#32).getLsbD i <;> rfl

theorem shift_zero {z : BitVec 32} (h : crcShift z = 0) : z = 0 := by
  have h0 : z.getLsbD 0 = false := by
    have := congrArg (fun y : BitVec 32 => y.getLsbD 31) h
    simp only [shift_bit z 31 (by omega)] at this
    have e1 : z.getLsbD (31 + 1) = false := BitVec.getLsbD_of_ge _ _ (by omega)
    have e2 : (0xedb88320#32).getLsbD 31 = true := by decide
    rw [e1, e2] at this
    simpa using this
  apply BitVec.eq_of_getLsbD_eq
  intro i hi
  cases i with
  | zero => rw [h0]; rfl
  | succ i =>
    have := congrArg (fun y : BitVec 32 => y.getLsbD i) h
    simp only [shift_bit z i (by omega), h0, Bool.false_and, Bool.xor_false] at this
    rw [this]
    simp

theorem shift_inj {x y : BitVec 32} (h : crcShift x = crcShift y) : x = y := by
  have : crcShift (x ^^^ y) = 0 := by rw [shift_xor, h, BitVec.xor_self]; rfl
  exact BitVec.xor_eq_zero_iff.mp (shift_zero this)

theorem shifts_xor (n : Nat) : ∀ x y : BitVec 32, crcShifts n (x ^^^ y) = crcShifts n x ^^^ crcShifts n y := by
  induction n with
  | zero => intro x y; rfl
  | succ n ih => intro x y; simp only [crcShifts, shift_xor, ih]

theorem shifts_inj (n : Nat) : ∀ {x y : BitVec 32}, crcShifts n x = crcShifts n y → x = y := by
  induction n with
  | zero => intro x y h; exact h
  | succ n ih => intro x y h; exact shift_inj (ih h)

theorem shifts_add (m n : Nat) : ∀ x, crcShifts (m + n) x = crcShifts n (crcShifts m x) := by
  induction m with
  | zero => intro x; rw [Nat.zero_add]; rfl
  | succ m ih => intro x; rw [Nat.succ_add]; exact ih _

/-- shifting out zeros. -/
theorem shifts_low (n : Nat) : ∀ x : BitVec 32, (∀ i, i < n → x.getLsbD i = false) → crcShifts n x = x >>> n := by
  induction n with
  | zero => intro x _; simp [crcShifts]
  | succ n ih =>
    intro x h
    have e : crcShift x = x >>> 1 := by
      apply BitVec.eq_of_getLsbD_eq
      intro i hi
      rw [shift_bit _ _ hi, h 0 (by omega), BitVec.getLsbD_ushiftRight, Nat.add_comm]
      simp
    simp only [crcShifts]
    rw [e, ih (x >>> 1) (fun i hi => by rw [BitVec.getLsbD_ushiftRight]; exact h _ (by omega)), ← BitVec.shiftRight_add, Nat.add_comm]

theorem byte_bit (b : UInt8) (i : Nat) (h : 8 ≤ i) : (BitVec.ofNat 32 b.toNat).getLsbD i = false := by
  rw [BitVec.getLsbD_ofNat]
  have : b.toNat < 2 ^ i := Nat.lt_of_lt_of_le b.toNat_lt (Nat.pow_le_pow_right (by omega) h)
  rw [Nat.testBit_lt_two_pow this, Bool.and_false]

theorem crcByte_eq (crc : BitVec 32) (b : UInt8) : crcByte crc b = crcShifts 8 (crc ^^^ BitVec.ofNat 32 b.toNat) := by
  unfold crcByte
  generalize hx : crc ^^^ BitVec.ofNat 32 b.toNat = x
  have hs : crc >>> 8 = x >>> 8 := by
    apply BitVec.eq_of_getLsbD_eq
    intro i hi
    rw [← hx, BitVec.getLsbD_ushiftRight, BitVec.getLsbD_ushiftRight, BitVec.getLsbD_xor, byte_bit b _ (by omega), Bool.xor_false]
  have hlow : ∀ i, (0xff#32).getLsbD i = decide (i < 8) := by
    intro i
    by_cases hi : i < 32
    · have : ∀ i : Fin 32, (0xff#32).getLsbD i = decide (i.val < 8) := by decide
      exact this ⟨i, hi⟩
    · rw [BitVec.getLsbD_of_ge _ _ (by omega)]; simp; omega
  have hlt : (x &&& 0xff#32).toNat < 256 := by
    rw [BitVec.toNat_and]
    exact Nat.lt_of_le_of_lt Nat.and_le_right (by decide)
  have ht : crcTable.getD (x &&& 0xff#32).toNat 0 = crcShifts 8 (x &&& 0xff#32) := by
    unfold crcTable
    rw [List.getD_eq_getElem?_getD, List.getElem?_map, List.getElem?_range hlt]
    simp
  have hd : x = (x &&& 0xff#32) ^^^ ((x >>> 8) <<< 8) := by
    apply BitVec.eq_of_getLsbD_eq
    intro i hi
    rw [BitVec.getLsbD_xor, BitVec.getLsbD_and, hlow, BitVec.getLsbD_shiftLeft, BitVec.getLsbD_ushiftRight]
    by_cases h8 : i < 8
    · simp [h8]
    · simp [h8, hi]; congr 1; omega
  have hh : crcShifts 8 ((x >>> 8) <<< 8) = x >>> 8 := by
    rw [shifts_low 8 _ (fun i hi => by rw [BitVec.getLsbD_shiftLeft]; simp [hi])]
    apply BitVec.eq_of_getLsbD_eq
    intro i hi
    rw [BitVec.getLsbD_ushiftRight, BitVec.getLsbD_shiftLeft, BitVec.getLsbD_ushiftRight, BitVec.getLsbD_ushiftRight]
    by_cases h24 : 8 + i < 32
    · simp [h24]
    · simp [h24]; exact BitVec.getLsbD_of_ge x _ (by omega)
  simp only
  rw [hs, ht]
  conv => rhs; rw [hd]
  rw [shifts_xor, hh, BitVec.xor_comm]

/-! ### C92: the checksum is CRC-32 -/

/-- one bit of the message. -/
def bitStep (s : BitVec 32) (b : Bool) : BitVec 32 := crcShift (s ^^^ BitVec.ofNat 32 b.toNat)

/-- bits as a number, lowest first. -/
def wordOf : List Bool → BitVec 32
  | [] => 0
  | b :: bs => BitVec.ofNat 32 b.toNat ^^^ (wordOf bs <<< 1)

theorem wordOf_bit (bs : List Bool) : ∀ i, i < 32 → (wordOf bs).getLsbD i = bs.getD i false := by
  induction bs with
  | nil => intro i _; simp [wordOf]
  | cons b bs ih =>
    intro i hi
    simp only [wordOf]
    rw [BitVec.getLsbD_xor, BitVec.getLsbD_shiftLeft]
    cases i with
    | zero => cases b <;> simp
    | succ i =>
      have : (BitVec.ofNat 32 b.toNat).getLsbD (i + 1) = false := by
        rw [BitVec.getLsbD_ofNat]
        have : b.toNat < 2 ^ (i + 1) := by
          have := Bool.toNat_lt b
          have := Nat.pow_le_pow_right (n := 2) (by omega) (show 1 ≤ i + 1 by omega)
          omega
        rw [Nat.testBit_lt_two_pow this, Bool.and_false]
      rw [this, show i + 1 - 1 = i by omega, ih i (by omega)]
      simp [hi]

theorem shift_up (w : BitVec 32) (h : w.getLsbD 31 = false) : crcShift (w <<< 1) = w := by
  have := shifts_low 1 (w <<< 1) (fun i hi => by rw [BitVec.getLsbD_shiftLeft]; simp [hi])
  simp only [crcShifts] at this
  rw [this]
  apply BitVec.eq_of_getLsbD_eq
  intro i hi
  rw [BitVec.getLsbD_ushiftRight, BitVec.getLsbD_shiftLeft]
  by_cases h31 : i = 31
  · subst h31; rw [h]; simp
  · have : 1 + i < 32 := by omega
    simp [this]

theorem bits_fold (bs : List Bool) : ∀ s : BitVec 32, bs.length ≤ 32 → bs.foldl bitStep s = crcShifts bs.length (s ^^^ wordOf bs) := by
  induction bs with
  | nil => intro s _; simp [crcShifts, wordOf]
  | cons b bs ih =>
    intro s h
    simp only [List.length_cons] at h
    have hw : (wordOf bs).getLsbD 31 = false := by
      rw [wordOf_bit bs 31 (by omega), List.getD_eq_getElem?_getD, List.getElem?_eq_none (by omega)]
      rfl
    rw [List.foldl_cons, ih _ (by omega), List.length_cons]
    simp only [crcShifts, bitStep, wordOf]
    rw [← BitVec.xor_assoc, shift_xor _ (wordOf bs <<< 1), shift_up _ hw]

theorem byteBits_length (b : UInt8) : (byteBits b).length = 8 := by simp [byteBits]

theorem wordOf_byte (b : UInt8) : wordOf (byteBits b) = BitVec.ofNat 32 b.toNat := by
  have : ∀ n : Fin 256, wordOf ((List.range 8).map n.val.testBit) = BitVec.ofNat 32 n.val := by decide +kernel
  exact this ⟨b.toNat, b.toNat_lt⟩

theorem crcByte_bits (s : BitVec 32) (b : UInt8) : crcByte s b = (byteBits b).foldl bitStep s := by
  rw [crcByte_eq, bits_fold _ _ (by rw [byteBits_length]; omega), byteBits_length, wordOf_byte]

theorem crc_fold (m : Bytes) : ∀ s : BitVec 32, m.foldl crcByte s = (messageBits m).foldl bitStep s := by
  induction m with
  | nil => intro s; rfl
  | cons b m ih =>
    intro s
    rw [List.foldl_cons, ih, crcByte_bits]
    simp only [messageBits, List.flatMap_cons, List.foldl_append]

theorem messageBits_length (m : Bytes) : (messageBits m).length = 8 * m.length := by
  induction m with
  | nil => rfl
  | cons b m ih =>
    simp only [messageBits, List.flatMap_cons, List.length_append, byteBits_length, List.length_cons] at ih ⊢
    omega

theorem timesPoly_snoc (g : Nat) (q : List Bool) (t : Bool) : timesPoly g (q ++ [t]) = (timesPoly g q <<< 1) ^^^ (if t then g else 0) := by
  induction q with
  | nil => simp [timesPoly]
  | cons b q ih =>
    simp only [List.cons_append, timesPoly, ih, List.length_append, List.length_singleton]
    rw [Nat.shiftLeft_xor_distrib, Nat.xor_assoc]
    congr 1
    cases b
    · simp
    · simp [Nat.shiftLeft_add]

theorem polyOf_snoc (bs : List Bool) (t : Bool) : polyOf (bs ++ [t]) = (polyOf bs <<< 1) ^^^ t.toNat := by
  induction bs with
  | nil => simp [polyOf]
  | cons b bs ih =>
    simp only [List.cons_append, polyOf, ih, List.length_append, List.length_singleton]
    rw [Nat.shiftLeft_xor_distrib, Nat.xor_assoc]
    congr 1
    rw [Nat.shiftLeft_add]

theorem rev_bit (s : BitVec 32) (i : Nat) : s.reverse.toNat.testBit i = (decide (i < 32) && s.getLsbD (31 - i)) := by
  rw [BitVec.testBit_toNat, BitVec.getLsbD_reverse, BitVec.getMsbD_eq_getLsbD]

theorem step_rev (s : BitVec 32) (b : Bool) :
    (bitStep s b).reverse.toNat = (s.reverse.toNat <<< 1) ^^^ (b.toNat <<< 32) ^^^ (if (s.getLsbD 0 ^^ b) = true then 0x104C11DB7 else 0) := by
  have hb0 : (BitVec.ofNat 32 b.toNat).getLsbD 0 = b := by cases b <;> simp
  have hbi : ∀ i, (BitVec.ofNat 32 b.toNat).getLsbD (i + 1) = false := by
    intro i
    have := wordOf_bit [b]
    rw [BitVec.getLsbD_ofNat]
    have : b.toNat < 2 ^ (i + 1) := by
      have := Bool.toNat_lt b
      have := Nat.pow_le_pow_right (n := 2) (by omega) (show 1 ≤ i + 1 by omega)
      omega
    rw [Nat.testBit_lt_two_pow this, Bool.and_false]
  have hG : ∀ i : Fin 32, (0x104C11DB7).testBit i.val = (0xedb88320#32).getLsbD (31 - i.val) := by decide
  apply Nat.eq_of_testBit_eq
  intro i
  have hif : ∀ c : Bool, (if c = true then 0x104C11DB7 else 0).testBit i = (c && (0x104C11DB7).testBit i) := by
    intro c; cases c <;> simp
  rw [Nat.testBit_xor, Nat.testBit_xor, hif, rev_bit, Nat.testBit_shiftLeft, Nat.testBit_shiftLeft, rev_bit]
  by_cases hi : i < 32
  · unfold bitStep
    rw [shift_bit _ _ (by omega), BitVec.getLsbD_xor, BitVec.getLsbD_xor, hb0, hbi, Bool.xor_false, ← hG ⟨i, hi⟩]
    cases i with
    | zero =>
      simp only [Nat.sub_zero]
      have : s.getLsbD (31 + 1) = false := BitVec.getLsbD_of_ge _ _ (by omega)
      rw [this]
      simp
    | succ j =>
      have : 31 - (j + 1) + 1 = 31 - j := by omega
      have h32 : ¬ j + 1 ≥ 32 := by omega
      have h33 : j < 32 := by omega
      rw [this]
      simp [hi, h32, h33]
  · by_cases h32 : i = 32
    · subst h32
      have : (0x104C11DB7).testBit 32 = true := by decide
      rw [this]
      simp
      cases b <;> cases s[0] <;> rfl
    · have h1 : (0x104C11DB7).testBit i = false := Nat.testBit_lt_two_pow (Nat.lt_of_lt_of_le (by decide : 0x104C11DB7 < 2 ^ 33) (Nat.pow_le_pow_right (by omega) (by omega)))
      have h2 : b.toNat.testBit (i - 32) = false := by
        apply Nat.testBit_lt_two_pow
        have := Bool.toNat_lt b
        have := Nat.pow_le_pow_right (n := 2) (by omega) (show 1 ≤ i - 32 by omega)
        omega
      have h3 : ¬ i - 1 < 32 := by omega
      rw [h1, h2]
      simp [hi, h3]

theorem register (bs : List Bool) : ∃ q, q.length = bs.length ∧
    (polyOf bs <<< 32) ^^^ (0xFFFFFFFF <<< bs.length) = timesPoly 0x104C11DB7 q ^^^ (bs.foldl bitStep (~~~ 0#32)).reverse.toNat := by
  suffices h : ∀ (rb : List Bool), ∃ q, q.length = rb.length ∧ (polyOf rb.reverse <<< 32) ^^^ (0xFFFFFFFF <<< rb.length) =
      timesPoly 0x104C11DB7 q ^^^ (rb.reverse.foldl bitStep (~~~ 0#32)).reverse.toNat by
    obtain ⟨q, h1, h2⟩ := h bs.reverse
    rw [List.reverse_reverse, List.length_reverse] at h2
    exact ⟨q, by rw [h1, List.length_reverse], h2⟩
  intro rb
  induction rb with
  | nil => exact ⟨[], rfl, by decide +kernel⟩
  | cons b rb ih =>
    rw [List.reverse_cons]
    rw [← List.length_reverse] at ih
    rw [show (b :: rb).length = (rb.reverse ++ [b]).length by simp]
    generalize rb.reverse = bs at *
    obtain ⟨q, h1, h2⟩ := ih
    refine ⟨q ++ [(bs.foldl bitStep (~~~ 0#32)).getLsbD 0 ^^ b], by simp [h1], ?_⟩
    rw [timesPoly_snoc, polyOf_snoc, List.foldl_append, List.foldl_cons, List.foldl_nil, step_rev, List.length_append]
    have := congrArg (· <<< 1) h2
    simp only [Nat.shiftLeft_xor_distrib] at this ⊢
    rw [← Nat.shiftLeft_add, ← Nat.shiftLeft_add] at this
    rw [← Nat.shiftLeft_add, Nat.add_comm 1 32, List.length_singleton]
    generalize timesPoly 0x104C11DB7 q <<< 1 = A at *
    generalize (bs.foldl bitStep (~~~ 0#32)).reverse.toNat <<< 1 = B at *
    generalize (if ((bs.foldl bitStep (~~~ 0#32)).getLsbD 0 ^^ b) = true then 0x104C11DB7 else 0) = C at *
    generalize polyOf bs <<< (32 + 1) = D at *
    generalize 0xFFFFFFFF <<< (bs.length + 1) = E at *
    generalize b.toNat <<< 32 = F at *
    apply Nat.eq_of_testBit_eq
    intro i
    have hi := congrArg (fun n => n.testBit i) this
    simp only [Nat.testBit_xor] at hi ⊢
    revert hi
    cases A.testBit i <;> cases B.testBit i <;> cases C.testBit i <;> cases D.testBit i <;> cases E.testBit i <;> cases F.testBit i <;> decide

/-- C92: the checksum is CRC-32, for every text. -/
theorem c92_crc (m : Bytes) : IsCrc32 m (crcOf m) := by
  obtain ⟨q, _, h⟩ := register (messageBits m)
  rw [messageBits_length] at h
  refine ⟨q, _, h, BitVec.isLt _, ?_⟩
  intro i hi
  unfold crcOf
  rw [crc_fold, rev_bit, BitVec.getLsbD_not]
  have h1 : 31 - i < 32 := by omega
  have h2 : 31 - (31 - i) = i := by omega
  simp [hi, h1, h2]

theorem timesPoly_pad (g n : Nat) (q : List Bool) : timesPoly g (List.replicate n false ++ q) = timesPoly g q := by
  induction n with
  | zero => rfl
  | succ n ih => simp [List.replicate_succ, timesPoly, ih]

theorem timesPoly_xor (g : Nat) (p : List Bool) : ∀ q : List Bool, p.length = q.length →
    timesPoly g (p.zipWith (· ^^ ·) q) = timesPoly g p ^^^ timesPoly g q := by
  induction p with
  | nil => intro q h; cases q <;> simp_all [timesPoly]
  | cons a p ih =>
    intro q h
    cases q with
    | nil => cases h
    | cons b q =>
      simp only [List.length_cons, Nat.add_right_cancel_iff] at h
      simp only [List.zipWith_cons_cons, timesPoly, ih q h, List.length_zipWith, h, Nat.min_self]
      apply Nat.eq_of_testBit_eq
      intro i
      simp only [Nat.testBit_xor]
      cases a <;> cases b <;> simp only [Bool.xor_false, Bool.xor_true, Bool.not_true, Bool.not_false, Bool.false_eq_true, if_true, if_false, Nat.zero_testBit]
      all_goals (cases (g <<< q.length).testBit i <;> cases (timesPoly g p).testBit i <;> cases (timesPoly g q).testBit i <;> rfl)

theorem timesPoly_lt (q : List Bool) : timesPoly 0x104C11DB7 q < 2 ^ (32 + q.length) := by
  induction q with
  | nil => decide
  | cons b q ih =>
    simp only [timesPoly, List.length_cons]
    apply Nat.xor_lt_two_pow
    · cases b
      · simp; exact Nat.two_pow_pos _
      · simp only [if_true, Nat.shiftLeft_eq]
        rw [show 32 + (q.length + 1) = 33 + q.length by omega, Nat.pow_add]
        exact Nat.mul_lt_mul_of_pos_right (by decide) (Nat.two_pow_pos _)
    · exact Nat.lt_of_lt_of_le ih (Nat.pow_le_pow_right (by omega) (by omega))

theorem timesPoly_small (q : List Bool) (h : timesPoly 0x104C11DB7 q < 2 ^ 32) : timesPoly 0x104C11DB7 q = 0 := by
  induction q with
  | nil => rfl
  | cons b q ih =>
    cases b with
    | false => simp only [timesPoly, Bool.false_eq_true, if_false, Nat.zero_xor] at h ⊢; exact ih h
    | true =>
      exfalso
      have h1 : (timesPoly 0x104C11DB7 (true :: q)).testBit (32 + q.length) = true := by
        simp only [timesPoly, if_true]
        rw [Nat.testBit_xor, Nat.testBit_lt_two_pow (timesPoly_lt q), Nat.testBit_shiftLeft]
        simp
        decide
      rw [Nat.testBit_lt_two_pow (Nat.lt_of_lt_of_le h (Nat.pow_le_pow_right (by omega) (by omega)))] at h1
      cases h1

/-- C92: there is only one CRC-32 of a text. -/
theorem c92_crc_unique {m : Bytes} {c d : BitVec 32} (hc : IsCrc32 m c) (hd : IsCrc32 m d) : c = d := by
  obtain ⟨p, r, h1, h2, h3⟩ := hc
  obtain ⟨q, s, k1, k2, k3⟩ := hd
  rw [h1] at k1
  have hx : timesPoly 0x104C11DB7 ((List.replicate q.length false ++ p).zipWith (· ^^ ·) (List.replicate p.length false ++ q)) = r ^^^ s := by
    rw [timesPoly_xor _ _ _ (by simp [Nat.add_comm]), timesPoly_pad, timesPoly_pad]
    apply Nat.eq_of_testBit_eq
    intro i
    have := congrArg (fun n => n.testBit i) k1
    simp only [Nat.testBit_xor] at this ⊢
    revert this
    cases (timesPoly 0x104C11DB7 p).testBit i <;> cases (timesPoly 0x104C11DB7 q).testBit i <;> cases r.testBit i <;> cases s.testBit i <;> decide
  have h0 := timesPoly_small _ (by rw [hx]; exact Nat.xor_lt_two_pow h2 k2)
  rw [hx] at h0
  have hrs : r = s := by
    apply Nat.eq_of_testBit_eq
    intro i
    have := congrArg (fun n => n.testBit i) h0
    simp only [Nat.testBit_xor, Nat.zero_testBit] at this
    revert this
    cases r.testBit i <;> cases s.testBit i <;> decide
  subst hrs
  apply BitVec.eq_of_getLsbD_eq
  intro i hi
  rw [h3 i hi, k3 i hi]

/-- C92: two texts of the same length that differ, and only within four bytes in a row, have different checksums. -/
theorem c92_crc_burst (a c d e : Bytes) (h : d.length = e.length) (h4 : d.length ≤ 4) (hne : d ≠ e) :
    crcOf (a ++ d ++ c) ≠ crcOf (a ++ e ++ c) := by
  intro hc
  unfold crcOf at hc
  have hc := BitVec.not_inj.mp hc
  simp only [List.foldl_append] at hc
  have inj : ∀ (m : Bytes) (s t : BitVec 32), m.foldl crcByte s = m.foldl crcByte t → s = t := by
    intro m
    induction m with
    | nil => intro s t h; exact h
    | cons b m ih =>
      intro s t h
      have := ih _ _ h
      rw [crcByte_eq, crcByte_eq] at this
      exact (BitVec.xor_left_inj _).mp (shifts_inj 8 this)
  have := inj c _ _ hc
  have l1 := messageBits_length d
  have l2 := messageBits_length e
  rw [crc_fold d, crc_fold e, bits_fold _ _ (by omega), bits_fold _ _ (by omega), l1, l2, h] at this
  have hw := (BitVec.xor_right_inj _).mp (shifts_inj _ this)
  have hbits : messageBits d = messageBits e := by
    apply List.ext_getElem?
    intro i
    by_cases hi : i < 8 * d.length
    · have := congrArg (fun w : BitVec 32 => w.getLsbD i) hw
      simp only [wordOf_bit _ i (show i < 32 by omega), List.getD_eq_getElem?_getD] at this
      rw [List.getElem?_eq_getElem (by omega), List.getElem?_eq_getElem (by omega)] at this ⊢
      simpa using this
    · rw [List.getElem?_eq_none (by omega), List.getElem?_eq_none (by omega)]
  have binj : ∀ (d e : Bytes), messageBits d = messageBits e → d = e := by
    intro d
    induction d with
    | nil =>
      intro e h
      cases e with
      | nil => rfl
      | cons y e =>
        have := congrArg List.length h
        rw [messageBits_length, messageBits_length] at this
        simp at this
    | cons x d ih =>
      intro e h
      cases e with
      | nil =>
        have := congrArg List.length h
        rw [messageBits_length, messageBits_length] at this
        simp at this
      | cons y e =>
        simp only [messageBits, List.flatMap_cons] at h
        obtain ⟨h1, h2⟩ := List.append_inj h (by rw [byteBits_length, byteBits_length])
        have hxy : x = y := by
          have := congrArg wordOf h1
          rw [wordOf_byte, wordOf_byte] at this
          have := congrArg BitVec.toNat this
          simp only [BitVec.toNat_ofNat] at this
          have hx := x.toNat_lt
          have hy := y.toNat_lt
          rw [Nat.mod_eq_of_lt (by omega), Nat.mod_eq_of_lt (by omega)] at this
          exact UInt8.toNat_inj.mp this
        rw [hxy, ih e h2]
  exact hne (binj d e hbits)

/-- C92: it is written as eight hexadecimal digits. -/
theorem c92_hex (m : Bytes) : IsHex8 (crcOf m) (crc32 m) := by
  unfold crc32
  generalize hn : (crcOf m).toNat = n
  have hlt : n < 2 ^ 32 := hn ▸ (crcOf m).isLt
  refine ⟨rfl, ?_, ?_⟩
  · intro b hb
    have key : ∀ k : Fin 16, (48 ≤ lowerHex k.val ∧ lowerHex k.val ≤ 57) ∨ (97 ≤ lowerHex k.val ∧ lowerHex k.val ≤ 102) := by decide
    unfold hex8 at hb
    obtain ⟨k, _, rfl⟩ := List.mem_map.mp hb
    exact key ⟨(n >>> k) % 16, Nat.mod_lt _ (by omega)⟩
  · have key : ∀ k : Fin 16, (if lowerHex k.val ≤ 57 then (lowerHex k.val).toNat - 48 else (lowerHex k.val).toNat - 87) = k.val := by decide
    have k2 : ∀ x : Nat, (if lowerHex (x % 16) ≤ 57 then (lowerHex (x % 16)).toNat - 48 else (lowerHex (x % 16)).toNat - 87) = x % 16 :=
      fun x => key ⟨x % 16, Nat.mod_lt _ (by omega)⟩
    rw [hn]
    simp only [hex8, List.map_cons, List.map_nil, List.foldl_cons, List.foldl_nil, k2]
    simp only [Nat.shiftRight_eq_div_pow]
    omega

/-! ### C92: the name -/

theorem split_none {sep : UInt8} {s : Bytes} (h : sep ∉ s) : splitAtByte sep s = [s] := by
  induction s with
  | nil => rfl
  | cons b s ih =>
    simp only [List.mem_cons, not_or] at h
    unfold splitAtByte
    rw [if_neg (fun e => h.1 e.symm), ih h.2]

theorem split_ne (sep : UInt8) (s : Bytes) : splitAtByte sep s ≠ [] := by
  cases s with
  | nil => simp [splitAtByte]
  | cons b s =>
    unfold splitAtByte
    split
    · simp
    · split <;> simp

theorem split_last {sep : UInt8} {a s : Bytes} (h : sep ∉ s) : splitAtByte sep (a ++ sep :: s) = splitAtByte sep a ++ [s] := by
  induction a with
  | nil =>
    rw [List.nil_append]
    simp [splitAtByte, split_none h]
  | cons b a ih =>
    rw [List.cons_append, splitAtByte, ih, splitAtByte]
    split
    · rfl
    · cases hs : splitAtByte sep a with
      | nil => exact absurd hs (split_ne sep a)
      | cons p ps => rfl

theorem join_split (sep : UInt8) (a : Bytes) (s : Bytes) : joinWithByte sep (splitAtByte sep a ++ [s]) = a ++ sep :: s := by
  induction a with
  | nil => rfl
  | cons b a ih =>
    rw [splitAtByte]
    split
    · rename_i hb
      cases hs : splitAtByte sep a with
      | nil => exact absurd hs (split_ne sep a)
      | cons p ps =>
        rw [hs] at ih
        simp only [List.cons_append, joinWithByte] at ih ⊢
        rw [ih, hb]
        rfl
    · cases hs : splitAtByte sep a with
      | nil => exact absurd hs (split_ne sep a)
      | cons p ps =>
        rw [hs] at ih
        cases ps with
        | nil => simp only [List.cons_append, List.nil_append, joinWithByte] at ih ⊢; rw [ih]
        | cons p' ps => simp only [List.cons_append, joinWithByte] at ih ⊢; rw [ih]

/-- a text is without the byte, or it has a last one. -/
theorem last_sep (sep : UInt8) (s : Bytes) : sep ∉ s ∨ ∃ a b, s = a ++ sep :: b ∧ sep ∉ b := by
  induction s with
  | nil => exact .inl (by simp)
  | cons x s ih =>
    rcases ih with h | ⟨a, b, rfl, hb⟩
    · by_cases hx : x = sep
      · subst hx; exact .inr ⟨[], s, rfl, h⟩
      · exact .inl (by simp [h, Ne.symm hx])
    · exact .inr ⟨x :: a, b, rfl, hb⟩

theorem addSuffix_spec (name suffix : Bytes) : Suffixed suffix name (addSuffix name suffix) := by
  rcases last_sep 46 name with h | ⟨a, b, rfl, hb⟩
  · unfold addSuffix
    rw [split_none h]
    exact .plain h
  · unfold addSuffix
    rw [split_last hb]
    have : (splitAtByte 46 a ++ [b]).length > 1 := by
      have := List.length_pos_iff.mpr (split_ne 46 a)
      simp; omega
    simp only [this, if_true, List.getLast?_append, List.getLast?_singleton, List.dropLast_concat, Option.some_or]
    rw [join_split]
    exact .dotted hb

/-- C92: the name under which a file is cached is `cache-` and the name of the file, that is, what follows the last slash of its
path, with the checksum of the whole path before the last dot, or at the end if there is no dot. -/
theorem c92_name (path name : Bytes) (h : FileName path name) :
    ∃ t, Suffixed (crc32 path) name t ∧ cacheName path = ascii "cache-" ++ t := by
  refine ⟨_, addSuffix_spec name (crc32 path), ?_⟩
  have e : ascii "cache-" = [99, 97, 99, 104, 101, 45] := by decide
  unfold cacheName
  rw [e]
  obtain ⟨hn, rfl | ⟨dir, rfl⟩⟩ := h
  · rw [split_none hn]; rfl
  · rw [split_last hn]; simp

/-- every path has a file name, and only one. -/
theorem c92_file_name (path : Bytes) : ∃ name, FileName path name ∧ ∀ n, FileName path n → n = name := by
  have uniq : ∀ {m n : Bytes}, FileName path m → FileName path n → m = n := by
    rintro m n ⟨h1, h2⟩ ⟨k1, k2⟩
    have key : ∀ {x}, (47 : UInt8) ∉ x → (path = x ∨ ∃ dir, path = dir ++ 47 :: x) → (splitAtByte 47 path).getLast? = some x := by
      rintro x hx (rfl | ⟨dir, rfl⟩)
      · rw [split_none hx]; rfl
      · rw [split_last hx]; simp
    have a := key h1 h2
    have b := key k1 k2
    rw [a] at b
    cases b
    rfl
  rcases last_sep 47 path with h | ⟨a, b, h, hb⟩
  · exact ⟨path, ⟨h, .inl rfl⟩, fun n hn => uniq hn ⟨h, .inl rfl⟩⟩
  · exact ⟨b, ⟨hb, .inr ⟨a, h⟩⟩, fun n hn => uniq hn ⟨hb, .inr ⟨a, h⟩⟩⟩

theorem crc32_no (m : Bytes) (b : UInt8) (hb : b < 48) : b ∉ crc32 m := by
  intro h
  rcases (c92_hex m).2.1 b h with ⟨h1, _⟩ | ⟨h1, _⟩
  · exact absurd (UInt8.lt_of_lt_of_le hb h1) (UInt8.lt_irrefl _)
  · exact absurd (UInt8.lt_of_lt_of_le hb (UInt8.le_trans (by decide) h1)) (UInt8.lt_irrefl _)

/-- C92: the name stays within the cache directory: it has no slash, and it is longer than the name of the file. -/
theorem c92_inside (path name : Bytes) (h : FileName path name) :
    (47 : UInt8) ∉ cacheName path ∧ (cacheName path).length = name.length + 15 := by
  obtain ⟨t, ht, he⟩ := c92_name path name h
  have hs := crc32_no path 47 (by decide)
  have e : ascii "cache-" = [99, 97, 99, 104, 101, 45] := by decide
  have h8 := (c92_hex path).1
  rw [he, e]
  have hn := h.1
  cases ht with
  | plain h1 =>
    constructor
    · simp [hn, hs]
    · simp [h8]
  | dotted h1 =>
    simp at hn
    constructor
    · simp [hn, hs]
    · simp [h8]; omega

theorem sep_inj {sep : UInt8} {a b c d : Bytes} (h : a ++ sep :: b = c ++ sep :: d) (hb : sep ∉ b) (hd : sep ∉ d) : a = c ∧ b = d := by
  have h1 := split_last (a := a) hb
  have h2 := split_last (a := c) hd
  rw [h] at h1
  rw [h1] at h2
  obtain ⟨_, h3⟩ := List.append_inj_right' h2 rfl |> fun x => (⟨trivial, x⟩ : True ∧ _)
  cases h3
  exact ⟨List.append_cancel_right h, rfl⟩

/-- C92: two paths are cached under the same name if and only if their files have the same name and they have the same
checksum. -/
theorem c92_same (p q m n : Bytes) (hp : FileName p m) (hq : FileName q n) : cacheName p = cacheName q ↔ m = n ∧ crcOf p = crcOf q := by
  have hexinj : crc32 p = crc32 q ↔ crcOf p = crcOf q := by
    constructor
    · intro h
      apply BitVec.eq_of_toNat_eq
      rw [(c92_hex p).2.2, (c92_hex q).2.2, h]
    · intro h; unfold crc32; rw [h]
  obtain ⟨s, hs, es⟩ := c92_name p m hp
  obtain ⟨t, ht, et⟩ := c92_name q n hq
  have dp := crc32_no p 46 (by decide)
  have dq := crc32_no q 46 (by decide)
  rw [es, et, List.append_cancel_left_eq, ← hexinj]
  generalize crc32 p = x at *
  generalize crc32 q = y at *
  constructor
  · rintro rfl
    generalize hg : s = u at ht
    cases hs with
    | plain h1 =>
      cases ht with
      | plain k1 => exact sep_inj hg dp dq
      | dotted k1 =>
        rename_i stem ext
        rw [show stem ++ 46 :: (y ++ 46 :: ext) = (stem ++ 46 :: y) ++ 46 :: ext by simp] at hg
        obtain ⟨g1, _⟩ := sep_inj hg dp k1
        rw [g1] at h1
        simp at h1
    | dotted h1 =>
      rename_i stem ext
      rw [show stem ++ 46 :: (x ++ 46 :: ext) = (stem ++ 46 :: x) ++ 46 :: ext by simp] at hg
      cases ht with
      | plain k1 =>
        obtain ⟨g1, _⟩ := sep_inj hg h1 dq
        rw [← g1] at k1
        simp at k1
      | dotted k1 =>
        rename_i stem' ext'
        rw [show stem' ++ 46 :: (y ++ 46 :: ext') = (stem' ++ 46 :: y) ++ 46 :: ext' by simp] at hg
        obtain ⟨g1, g2⟩ := sep_inj hg h1 k1
        obtain ⟨g3, g4⟩ := sep_inj g1 dp dq
        rw [g2, g3, g4]
        exact ⟨rfl, rfl⟩
  · rintro ⟨rfl, rfl⟩
    cases hs with
    | plain h1 =>
      generalize hg : m = u at ht
      cases ht with
      | plain k1 => rfl
      | dotted k1 => rw [hg] at h1; simp at h1
    | dotted h1 =>
      rename_i stem ext
      generalize hg : stem ++ 46 :: ext = u at ht
      cases ht with
      | plain k1 => rw [← hg] at k1; simp at k1
      | dotted k1 =>
        obtain ⟨g1, g2⟩ := sep_inj hg h1 k1
        rw [g1, g2]

/-- C92: of two paths of the same length that differ only within four bytes in a row, each has its own cached file. -/
theorem c92_distinct_partial (a c d e : Bytes) (h : d.length = e.length) (h4 : d.length ≤ 4) (hne : d ≠ e) :
    cacheName (a ++ d ++ c) ≠ cacheName (a ++ e ++ c) := by
  intro hc
  obtain ⟨m, hm, _⟩ := c92_file_name (a ++ d ++ c)
  obtain ⟨n, hn, _⟩ := c92_file_name (a ++ e ++ c)
  exact c92_crc_burst a c d e h h4 hne ((c92_same _ _ m n hm hn).mp hc).2

/-- Not every path has its own: these two are cached under one name. -/
theorem c92_collision : cacheName (ascii "http://uejgtcuo.net/a.gz") = cacheName (ascii "http://iiwucoup.net/a.gz") ∧
    cacheName (ascii "http://uejgtcuo.net/a.gz") = ascii "cache-a.6860f2d6.gz" := by decide +kernel

/-- The name never is the one that is documented: `cache-<crc32>-<file name>`, whatever the checksum is taken of. -/
theorem c92_not_documented (path name sum : Bytes) (h : FileName path name) (hs : (45 : UInt8) ∉ sum) :
    cacheName path ≠ ascii "cache-" ++ (sum ++ 45 :: name) := by
  obtain ⟨t, ht, he⟩ := c92_name path name h
  have hc : (crc32 path).count 45 = 0 := List.count_eq_zero_of_not_mem (crc32_no path 45 (by decide))
  have hs := List.count_eq_zero_of_not_mem hs
  rw [he]
  intro e
  have e := List.append_cancel_left e
  have := congrArg (List.count 45) e
  cases ht <;> simp [List.count_append, hc, hs] at this <;> omega

/-- the example of the documentation. -/
example : cacheName (ascii "http://archive.routeviews.org/route-views.chile/bgpdata/2023.03/RIBS/rib.20230326.0600.bz2") =
    ascii "cache-rib.20230326.0600.77b9230e.bz2" := by decide +kernel

/-- the documented checksum is that of the file name. -/
example : crc32 (ascii "rib.20230326.0600.bz2") = ascii "682cb1eb" := by decide +kernel

/-- the test of the repository. -/
example : crc32 (ascii "Hello, World!") = ascii "ec4ac3d0" := by decide +kernel

/-- two collectors: the paths differ in one byte. -/
example : cacheName (ascii "http://h/rrc00/x.gz") ≠ cacheName (ascii "http://h/rrc01/x.gz") :=
  c92_distinct_partial (ascii "http://h/rrc0") (ascii "/x.gz") (ascii "0") (ascii "1") (by decide) (by decide) (by decide)

example : FileName (ascii "a/b/c.gz") (ascii "c.gz") := ⟨by decide, .inr ⟨ascii "a/b", by decide⟩⟩

end Verif.Props
