/-
IEEE 754 double precision as used for timestamps: a non-negative finite `f64` is the rational number it denotes, and every
operation rounds its exact result to 53 significant bits, ties to even. Subnormal numbers, infinities, NaN and signed
zeros are not modelled: no timestamp computed from the 32-bit fields of a message reaches them.
-/
namespace Verif

/-- Round to the nearest integer, ties to even. -/
def roundEven (x : Rat) : Int :=
  if x - x.floor < 1/2 then x.floor
  else if 1/2 < x - x.floor then x.floor + 1
  else if x.floor % 2 = 0 then x.floor else x.floor + 1

/-- The exponent `e` with `2^e ≤ x < 2^(e+1)`, for positive `x`. -/
def expo (x : Rat) : Int :=
  let k : Int := (Nat.log2 x.num.natAbs : Int) - Nat.log2 x.den
  if (2 : Rat) ^ k ≤ x then k else k - 1

/-- Round to 53 significant bits. -/
def f64Round (x : Rat) : Rat :=
  if x = 0 then 0 else
  let u : Rat := 2 ^ (expo (if x < 0 then -x else x) - 52)
  (roundEven (x / u) : Rat) * u

/-- `a + b` on `f64`. -/
def f64Add (a b : Rat) : Rat := f64Round (a + b)
/-- `a - b` on `f64`. -/
def f64Sub (a b : Rat) : Rat := f64Round (a - b)
/-- `a * b` on `f64`. -/
def f64Mul (a b : Rat) : Rat := f64Round (a * b)
/-- `a / b` on `f64`. -/
def f64Div (a b : Rat) : Rat := f64Round (a / b)

/-- `x as u32` for an `f64`: towards zero, saturating. -/
def f64ToU32 (x : Rat) : UInt32 :=
  if x < 0 then 0 else if x.floor < 4294967296 then UInt32.ofNat x.floor.toNat else 4294967295

/-- `sec as f64 + (usec as f64) / 1_000_000.0` (src/parser/bmp/messages/headers.rs 348, 393; src/parser/bmp/openbmp.rs 94;
and, for extended-timestamp records, src/parser/mrt/mrt_elem.rs 504-513, src/parser/iters/route.rs 135, update.rs 224, 337). A `u32` is an `f64` exactly. -/
def stampOf (sec usec : UInt32) : Rat :=
  f64Add (sec.toNat : Rat) (f64Div (usec.toNat : Rat) 1000000)

/-- `convert_timestamp` (src/parser/utils.rs 402-406). -/
def convertTimestamp (t : Rat) : UInt32 × UInt32 :=
  let seconds := f64ToU32 t
  (seconds, f64ToU32 (f64Mul (f64Sub t (seconds.toNat : Rat)) 1000000))

end Verif
