import Verif.Model.Keys
/-
What the bits of a double mean (IEEE 754, binary64), and what users of hash maps, sets and sorting rely on.
-/
namespace Verif.Spec

/-- The values of doubles. A number is given as a multiple of 2^-1074, the smallest positive double. -/
inductive FloatVal where
  | nan
  | inf (negative : Bool)
  | num (n : Int)
deriving DecidableEq

/-- The value of 64 bits: one of sign, eleven of exponent, 52 of fraction. -/
def floatVal (b : UInt64) : FloatVal :=
  let negative : Bool := b.toNat / 2 ^ 63 = 1
  let e : Nat := b.toNat / 2 ^ 52 % 2048
  let f : Nat := b.toNat % 2 ^ 52
  if e = 2047 then if f = 0 then .inf negative else .nan
  else
    let m : Nat := if e = 0 then f else (2 ^ 52 + f) * 2 ^ (e - 1)
    .num (if negative then -(m : Int) else m)

/-- one value is below the other. -/
inductive FloatLt : FloatVal → FloatVal → Prop where
  | num (a b : Int) : a < b → FloatLt (.num a) (.num b)
  | below (a : Int) : FloatLt (.inf true) (.num a)
  | above (a : Int) : FloatLt (.num a) (.inf false)
  | infs : FloatLt (.inf true) (.inf false)

/-- the bits of a number from zero on, without a minus sign. -/
def PlainStamp (b : UInt64) : Prop := b.toNat < 2 ^ 63 ∧ ∃ n, floatVal b = .num n

end Verif.Spec
