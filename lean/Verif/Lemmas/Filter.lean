import Verif.Spec.Filter
/-
Prefixes as intervals of numbers.
-/
namespace Verif
open Spec

/-! ### bits and numbers -/

/-- bits, most significant first, as a number after `acc`. -/
def bitsFrom (acc : Nat) (l : List Bool) : Nat := l.foldl (fun n b => 2 * n + b.toNat) acc
def bitsVal (l : List Bool) : Nat := bitsFrom 0 l

theorem bitsFrom_eq (l : List Bool) : ∀ acc, bitsFrom acc l = acc * 2 ^ l.length + bitsVal l := by
  induction l with
  | nil => intro acc; simp [bitsFrom, bitsVal]
  | cons b l ih =>
    intro acc
    have h1 : bitsFrom acc (b :: l) = bitsFrom (2 * acc + b.toNat) l := rfl
    have h2 : bitsVal (b :: l) = bitsFrom (2 * 0 + b.toNat) l := rfl
    rw [h1, h2, ih, ih (2 * 0 + b.toNat), List.length_cons, Nat.pow_succ]
    have e : (2 * acc + b.toNat) * 2 ^ l.length = acc * (2 ^ l.length * 2) + b.toNat * 2 ^ l.length := by
      rw [Nat.add_mul]; congr 1; rw [Nat.mul_comm 2 acc, Nat.mul_assoc, Nat.mul_comm 2]
    rw [e]; simp only [Nat.mul_zero, Nat.zero_add]; omega

theorem bitsVal_append (l m : List Bool) : bitsVal (l ++ m) = bitsVal l * 2 ^ m.length + bitsVal m := by
  unfold bitsVal
  have : bitsFrom 0 (l ++ m) = bitsFrom (bitsFrom 0 l) m := by simp [bitsFrom, List.foldl_append]
  rw [this, bitsFrom_eq]; rfl

theorem bitsVal_cons (b : Bool) (l : List Bool) : bitsVal (b :: l) = b.toNat * 2 ^ l.length + bitsVal l := by
  have := bitsVal_append [b] l
  simpa [bitsVal, bitsFrom] using this

theorem bitsVal_lt (l : List Bool) : bitsVal l < 2 ^ l.length := by
  induction l with
  | nil => simp [bitsVal, bitsFrom]
  | cons b l ih =>
    rw [bitsVal_cons, List.length_cons, Nat.pow_succ]
    cases b <;> simp only [Bool.toNat_true, Bool.toNat_false] <;> omega

theorem bitsVal_inj {l m : List Bool} (hl : l.length = m.length) (h : bitsVal l = bitsVal m) : l = m := by
  induction l generalizing m with
  | nil => cases m with
    | nil => rfl
    | cons _ _ => cases hl
  | cons b l ih =>
    cases m with
    | nil => cases hl
    | cons c m =>
      simp only [List.length_cons, Nat.add_right_cancel_iff] at hl
      rw [bitsVal_cons, bitsVal_cons, hl] at h
      have h1 := bitsVal_lt l
      have h2 := bitsVal_lt m
      rw [hl] at h1
      have hp : 0 < 2 ^ m.length := Nat.pow_pos (by omega)
      cases b <;> cases c <;> simp only [Bool.toNat_true, Bool.toNat_false] at h
      · rw [ih hl (by omega)]
      · omega
      · omega
      · rw [ih hl (by omega)]

theorem bitsVal_false {l : List Bool} (h : ∀ b ∈ l, b = false) : bitsVal l = 0 := by
  induction l with
  | nil => rfl
  | cons b l ih =>
    rw [bitsVal_cons, h b (by simp), ih fun x hx => h x (List.mem_cons_of_mem _ hx)]
    simp

theorem octetBits_val (b : UInt8) (acc : Nat) : bitsFrom acc (octetBits b) = acc * 256 + b.toNat := by
  rw [bitsFrom_eq]
  have hl : (octetBits b).length = 8 := by simp [octetBits]
  rw [hl]
  have : bitsVal (octetBits b) = b.toNat := by
    have : ∀ n : Fin 256, bitsVal ((List.range 8).map fun i => n.val.testBit (7 - i)) = n.val := by decide +kernel
    have h2 := this b.toFin
    exact h2
  rw [this]

theorem bytes_bits (bs : Bytes) : ∀ acc, bs.foldl (fun n b => n * 256 + b.toNat) acc = bitsFrom acc (bs.flatMap octetBits) := by
  induction bs with
  | nil => intro acc; rfl
  | cons b bs ih =>
    intro acc
    rw [List.foldl_cons, ih, List.flatMap_cons]
    have : bitsFrom acc (octetBits b ++ bs.flatMap octetBits) = bitsFrom (bitsFrom acc (octetBits b)) (bs.flatMap octetBits) := by
      simp [bitsFrom, List.foldl_append]
    rw [this, octetBits_val]

theorem Ip.num_bits (a : Ip) : a.num = bitsVal (addrBits a) := bytes_bits a.octets 0

theorem flatMap_octetBits_length (bs : Bytes) : (bs.flatMap octetBits).length = 8 * bs.length := by
  induction bs with
  | nil => rfl
  | cons b bs ih => rw [List.flatMap_cons, List.length_append, ih, List.length_cons]; simp [octetBits]; omega

theorem addrBits_length (a : Ip) : (addrBits a).length = a.maxLen := by
  unfold addrBits
  rw [flatMap_octetBits_length]
  cases a <;> simp [Ip.octets, Ip.maxLen]

theorem Ip.num_lt (a : Ip) : a.num < 2 ^ a.maxLen := by
  rw [a.num_bits, ← addrBits_length]; exact bitsVal_lt _

/-- every number is that of some octets. -/
theorem bytes_of_num (n : Nat) : ∀ x, x < 256 ^ n →
    ∃ bs : Bytes, bs.length = n ∧ bs.foldl (fun n b => n * 256 + b.toNat) 0 = x := by
  induction n with
  | zero => intro x h; exact ⟨[], rfl, by simp at h; simp [h]⟩
  | succ n ih =>
    intro x h
    obtain ⟨bs, h1, h2⟩ := ih (x / 256) (by rw [Nat.pow_succ] at h; omega)
    refine ⟨bs ++ [UInt8.ofNat (x % 256)], by simp [h1], ?_⟩
    rw [List.foldl_append, h2]
    simp only [List.foldl_cons, List.foldl_nil, UInt8.toNat_ofNat']
    omega

theorem ip_of_num (a : Ip) (x : Nat) (h : x < 2 ^ a.maxLen) : ∃ b : Ip, b.isV4 = a.isV4 ∧ b.num = x := by
  cases a with
  | v4 o =>
    obtain ⟨bs, h1, h2⟩ := bytes_of_num 4 x (by simpa [Ip.maxLen] using h)
    exact ⟨.v4 ⟨bs.toArray, by simp [h1]⟩, rfl, by simpa [Ip.num, Ip.octets] using h2⟩
  | v6 o =>
    obtain ⟨bs, h1, h2⟩ := bytes_of_num 16 x (by simpa [Ip.maxLen] using h)
    exact ⟨.v6 ⟨bs.toArray, by simp [h1]⟩, rfl, by simpa [Ip.num, Ip.octets] using h2⟩

theorem maxLen_of_isV4 {a b : Ip} (h : a.isV4 = b.isV4) : a.maxLen = b.maxLen := by
  cases a <;> cases b <;> simp [Ip.isV4] at h <;> rfl

theorem ip_num_inj {a b : Ip} (hf : a.isV4 = b.isV4) (h : a.num = b.num) : a = b := by
  rw [a.num_bits, b.num_bits] at h
  have hb := bitsVal_inj (by rw [addrBits_length, addrBits_length, maxLen_of_isV4 hf]) h
  have oct : ∀ x y : UInt8, octetBits x = octetBits y → x = y := by
    intro x y he
    have := congrArg (bitsFrom 0) he
    rw [octetBits_val, octetBits_val] at this
    exact UInt8.toNat_inj.1 (by omega)
  have key : ∀ (l m : Bytes), l.length = m.length → l.flatMap octetBits = m.flatMap octetBits → l = m := by
    intro l
    induction l with
    | nil => intro m hl _; cases m with
      | nil => rfl
      | cons _ _ => cases hl
    | cons x l ih =>
      intro m hl he
      cases m with
      | nil => cases hl
      | cons y m =>
        rw [List.flatMap_cons, List.flatMap_cons] at he
        obtain ⟨h1, h2⟩ := List.append_inj he (by simp [octetBits])
        rw [oct x y h1, ih m (by simpa using hl) h2]
  unfold addrBits at hb
  cases a <;> cases b <;> simp [Ip.isV4] at hf
  · have := key _ _ (by simp [Ip.octets]) hb
    rw [Ip.v4.injEq]; exact Vector.toList_inj.1 this
  · have := key _ _ (by simp [Ip.octets]) hb
    rw [Ip.v6.injEq]; exact Vector.toList_inj.1 this

/-! ### intervals -/

/-- the lowest and the highest address of a prefix. -/
def IpNet.lo (n : IpNet) : Nat := bitsVal ((addrBits n.addr).take n.len.toNat) * 2 ^ (n.addr.maxLen - n.len.toNat)
def IpNet.hi (n : IpNet) : Nat := n.lo + (2 ^ (n.addr.maxLen - n.len.toNat) - 1)

theorem num_split (a : Ip) (k : Nat) :
    a.num = bitsVal ((addrBits a).take k) * 2 ^ (a.maxLen - k) + bitsVal ((addrBits a).drop k) := by
  conv => lhs; rw [a.num_bits, ← List.take_append_drop k (addrBits a)]
  rw [bitsVal_append, List.length_drop, addrBits_length]

theorem drop_lt (a : Ip) (k : Nat) : bitsVal ((addrBits a).drop k) < 2 ^ (a.maxLen - k) := by
  have := bitsVal_lt ((addrBits a).drop k)
  rwa [List.length_drop, addrBits_length] at this

theorem covers_iff (n : IpNet) (a : Ip) : Covers n a ↔ a.isV4 = n.addr.isV4 ∧ n.lo ≤ a.num ∧ a.num ≤ n.hi := by
  unfold Covers
  refine and_congr_right fun hf => ?_
  have hw := maxLen_of_isV4 hf
  have h1 := num_split a n.len.toNat
  have h2 := drop_lt a n.len.toNat
  have hp : 0 < 2 ^ (n.addr.maxLen - n.len.toNat) := Nat.pow_pos (by omega)
  unfold IpNet.hi IpNet.lo
  rw [hw] at h1 h2
  generalize 2 ^ (n.addr.maxLen - n.len.toNat) = M at *
  constructor
  · intro h
    rw [h] at h1
    omega
  · intro ⟨g1, g2⟩
    refine bitsVal_inj (by simp [addrBits_length, hw]) ?_
    generalize bitsVal (List.take n.len.toNat (addrBits a)) = A at *
    generalize bitsVal (List.take n.len.toNat (addrBits n.addr)) = B at *
    rcases Nat.lt_trichotomy A B with h | h | h
    · have := Nat.mul_le_mul_right M (show A + 1 ≤ B from h)
      rw [Nat.add_mul] at this; omega
    · exact h
    · have := Nat.mul_le_mul_right M (show B + 1 ≤ A from h)
      rw [Nat.add_mul] at this; omega

theorem hi_lt (n : IpNet) : n.hi < 2 ^ n.addr.maxLen := by
  unfold IpNet.hi IpNet.lo
  have h1 := bitsVal_lt ((addrBits n.addr).take n.len.toNat)
  have hp : 0 < 2 ^ (n.addr.maxLen - n.len.toNat) := Nat.pow_pos (by omega)
  rw [List.length_take, addrBits_length] at h1
  generalize bitsVal (List.take n.len.toNat (addrBits n.addr)) = A at *
  have h2 := Nat.mul_le_mul_right (2 ^ (n.addr.maxLen - n.len.toNat)) (show A + 1 ≤ _ from h1)
  rw [← Nat.pow_add, Nat.add_mul] at h2
  have h3 : min n.len.toNat n.addr.maxLen + (n.addr.maxLen - n.len.toNat) = n.addr.maxLen := by omega
  rw [h3] at h2
  omega

theorem lo_le_hi (n : IpNet) : n.lo ≤ n.hi := by unfold IpNet.hi; omega

theorem within_iff (m i : IpNet) : Within m i ↔ m.addr.isV4 = i.addr.isV4 ∧ i.lo ≤ m.lo ∧ m.hi ≤ i.hi := by
  constructor
  · intro h
    obtain ⟨a, ha, hn⟩ := ip_of_num m.addr m.lo (Nat.lt_of_le_of_lt (lo_le_hi m) (hi_lt m))
    obtain ⟨b, hb, hm⟩ := ip_of_num m.addr m.hi (hi_lt m)
    have h1 := (covers_iff _ _).1 (h a ((covers_iff _ _).2 ⟨ha, by omega, by have := lo_le_hi m; omega⟩))
    have h2 := (covers_iff _ _).1 (h b ((covers_iff _ _).2 ⟨hb, by have := lo_le_hi m; omega, by omega⟩))
    exact ⟨ha.symm.trans h1.1, by omega, by omega⟩
  · rintro ⟨h1, h2, h3⟩ a ha
    obtain ⟨g1, g2, g3⟩ := (covers_iff _ _).1 ha
    exact (covers_iff _ _).2 ⟨g1.trans h1, by omega, by omega⟩

theorem canonical_num {n : IpNet} (h : Canonical n) : n.addr.num = n.lo := by
  rw [num_split n.addr n.len.toNat, bitsVal_false h.2]; rfl

theorem canonical_broadcast {n : IpNet} (h : Canonical n) : n.broadcast = n.hi := by
  unfold IpNet.broadcast IpNet.hi
  rw [canonical_num h]
  unfold IpNet.lo
  have hp : 0 < 2 ^ (n.addr.maxLen - n.len.toNat) := Nat.pow_pos (by omega)
  rw [Nat.mul_comm, ← Nat.two_pow_add_eq_or_of_lt (by omega)]

/-- prefixes with the same addresses are the same prefix. -/
theorem canonical_ext {m i : IpNet} (hm : Canonical m) (hi : Canonical i) (h1 : Within m i) (h2 : Within i m) : m = i := by
  obtain ⟨f, a1, a2⟩ := (within_iff _ _).1 h1
  obtain ⟨_, b1, b2⟩ := (within_iff _ _).1 h2
  have ha : m.addr = i.addr := ip_num_inj f (by rw [canonical_num hm, canonical_num hi]; omega)
  have e : m.hi - m.lo = i.hi - i.lo := by omega
  unfold IpNet.hi at e
  rw [← ha] at e
  have p1 : 0 < 2 ^ (m.addr.maxLen - m.len.toNat) := Nat.pow_pos (by omega)
  have p2 : 0 < 2 ^ (m.addr.maxLen - i.len.toNat) := Nat.pow_pos (by omega)
  have e2 : 2 ^ (m.addr.maxLen - m.len.toNat) = 2 ^ (m.addr.maxLen - i.len.toNat) := by omega
  have e3 := (Nat.pow_right_inj (by omega)).1 e2
  have l1 := hm.1
  have l2 := hi.1
  rw [← ha] at l2
  have : m.len = i.len := UInt8.toNat_inj.1 (by omega)
  cases m; cases i; simp_all

theorem prefixMatch_num (m i : IpNet) (t : MatchType) : prefixMatch m i t = true ↔
    i = m ∨ m.addr.isV4 = i.addr.isV4 ∧
      match t with
      | .exact => False
      | .super => i.addr.num ≤ m.addr.num ∧ m.broadcast ≤ i.broadcast
      | .sub => m.addr.num ≤ i.addr.num ∧ i.broadcast ≤ m.broadcast
      | .superSub => (i.addr.num ≤ m.addr.num ∧ m.broadcast ≤ i.broadcast) ∨ (m.addr.num ≤ i.addr.num ∧ i.broadcast ≤ m.broadcast) := by
  unfold prefixMatch sameFamily
  by_cases h : i = m
  · subst h; cases t <;> simp
  · have hb : (i == m) = false := by simpa using h
    by_cases hf : m.addr.isV4 = i.addr.isV4
    · have hfb : (m.addr.isV4 == i.addr.isV4) = true := by simpa using hf
      cases t <;> simp [h, hf, hb, hfb]
    · have hfb : (m.addr.isV4 == i.addr.isV4) = false := by simpa using hf
      cases t <;> simp [h, hf, hb, hfb]

theorem prefixMatch_iff {m i : IpNet} (hm : Canonical m) (hi : Canonical i) (t : MatchType) :
    prefixMatch m i t = true ↔ PrefixPasses m i t := by
  rw [prefixMatch_num, canonical_num hm, canonical_num hi, canonical_broadcast hm, canonical_broadcast hi]
  have refl : ∀ p : IpNet, Within p p := fun p a h => h
  cases t with
  | exact => simp [PrefixPasses]
  | super =>
    simp only [PrefixPasses, within_iff]
    constructor
    · rintro (rfl | h)
      · exact ⟨rfl, by omega, by omega⟩
      · exact h
    · intro h; exact .inr h
  | sub =>
    simp only [PrefixPasses, within_iff]
    constructor
    · rintro (rfl | h)
      · exact ⟨rfl, by omega, by omega⟩
      · exact ⟨h.1.symm, h.2⟩
    · intro h; exact .inr ⟨h.1.symm, h.2⟩
  | superSub =>
    simp only [PrefixPasses, within_iff]
    constructor
    · rintro (rfl | ⟨h, h' | h'⟩)
      · exact .inl ⟨rfl, by omega, by omega⟩
      · exact .inl ⟨h, h'⟩
      · exact .inr ⟨h.symm, h'⟩
    · rintro (h | h)
      · exact .inr ⟨h.1, .inl h.2⟩
      · exact .inr ⟨h.1.symm, .inr h.2⟩

end Verif
