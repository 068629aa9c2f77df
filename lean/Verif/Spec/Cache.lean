import Verif.Model.Bytes
/-
CRC-32 (ISO-HDLC) as division of polynomials over two elements, and the name of a cached file.
-/
namespace Verif.Spec

/-- The polynomial `g` times the polynomial with these coefficients, highest first. Polynomials are numbers, with the coefficient
of `x^i` as bit `i`. -/
def timesPoly (g : Nat) : List Bool → Nat
  | [] => 0
  | b :: q => (if b then g <<< q.length else 0) ^^^ timesPoly g q

/-- The polynomial with these coefficients, highest first. -/
def polyOf : List Bool → Nat
  | [] => 0
  | b :: bs => (b.toNat <<< bs.length) ^^^ polyOf bs

/-- the bits of a byte, lowest first, as CRC-32 takes them. -/
def byteBits (b : UInt8) : List Bool := (List.range 8).map b.toNat.testBit

/-- the bits of a message. -/
def messageBits (m : Bytes) : List Bool := m.flatMap byteBits

/-- The CRC-32 of a message: append 32 zero bits, add ones to the first 32 bits, take the remainder by
x^32 + x^26 + x^23 + x^22 + x^16 + x^12 + x^11 + x^10 + x^8 + x^7 + x^5 + x^4 + x^2 + x + 1, reverse and invert it. -/
def IsCrc32 (m : Bytes) (c : BitVec 32) : Prop :=
  ∃ q r, (polyOf (messageBits m) <<< 32) ^^^ (0xFFFFFFFF <<< (8 * m.length)) = timesPoly 0x104C11DB7 q ^^^ r ∧ r < 2 ^ 32 ∧
    ∀ i, i < 32 → c.getLsbD i = !r.testBit (31 - i)

/-- the number as eight lower case hexadecimal digits. -/
def IsHex8 (c : BitVec 32) (t : Bytes) : Prop :=
  t.length = 8 ∧ (∀ b ∈ t, (48 ≤ b ∧ b ≤ 57) ∨ (97 ≤ b ∧ b ≤ 102)) ∧
    c.toNat = t.foldl (fun n b => 16 * n + (if b ≤ 57 then b.toNat - 48 else b.toNat - 87)) 0

/-- what follows the last slash. -/
def FileName (path name : Bytes) : Prop := (47 : UInt8) ∉ name ∧ (path = name ∨ ∃ dir, path = dir ++ 47 :: name)

/-- `cache-` and the file name with the suffix before the last dot, or at the end if there is no dot. -/
inductive Suffixed (suffix : Bytes) : Bytes → Bytes → Prop where
  | plain {name} : (46 : UInt8) ∉ name → Suffixed suffix name (name ++ 46 :: suffix)
  | dotted {stem ext} : (46 : UInt8) ∉ ext → Suffixed suffix (stem ++ 46 :: ext) (stem ++ 46 :: (suffix ++ 46 :: ext))

end Verif.Spec
