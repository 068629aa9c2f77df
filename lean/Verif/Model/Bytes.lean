/-
Byte strings, errors and the checked reader of `/repo/src/parser/utils.rs` (trait `ReadUtils`).
-/
namespace Verif

/-- `bytes::Bytes` / `&[u8]`: a finite byte string. -/
abbrev Bytes := List UInt8

/-- `ParserError` (src/error.rs 12-37). The message strings carried by the variants are not modelled.
`OneIoError` (decompression / network) is not modelled. `IoError` is `ioEof` if the kind of the `io::Error` is
`UnexpectedEof`, else `io`; `EofError` always has that kind (error.rs 181-188). `panic` is not a Rust value: it stands for a Rust panic
(slice index out of range, `split_to` past the end, `unreachable!`, failed `assert!`, overflow in a debug build).
The last line holds the variants of `ParserBmpError` (src/parser/bmp/error.rs 12-20) that do not wrap a `ParserError`, so
that the BMP parsers can use the same reader; only they produce them. -/
inductive Err where
  | io | ioEof | eof | eofExpected | parse | truncated | unsupported | filter
  | invalidLabeledNlriLength | truncatedLabeledNlri | truncatedPrefix
  | maxLabelStackDepthExceeded | peerMaxLabelsExceeded | invalidPrefix
  | panic
  | bmpHeader | bmpUnsupported | bmpTlvType | bmpTlvValue | bmpCorrupted
deriving DecidableEq, Repr

/-- `EncodingError` (src/error.rs 48-65). `panic` stands for a Rust panic on the encoding path. -/
inductive EncErr where
  | tooLarge (actual max : Nat)
  | unencodable
  | panic
deriving DecidableEq, Repr

deriving instance DecidableEq for Except

/-- `check_max` (src/error.rs 85-94). -/
def checkMax (actual max : Nat) : Except EncErr Nat :=
  if actual > max then .error (.tooLarge actual max) else .ok actual

/-- A parser over a `Bytes` cursor: `&mut Bytes` becomes the returned rest. On error the cursor position is not
modelled here (the places where it is observable model it explicitly). -/
structure Rd (α : Type) where
  run : Bytes → Except Err (α × Bytes)

instance : CoeFun (Rd α) (fun _ => Bytes → Except Err (α × Bytes)) := ⟨Rd.run⟩

namespace Rd

def pure (a : α) : Rd α := .mk fun s => .ok (a, s)

def bind (p : Rd α) (f : α → Rd β) : Rd β := .mk fun s =>
  match p s with
  | .ok (a, r) => f a r
  | .error e => .error e

def fail (e : Err) : Rd α := .mk fun _ => .error e

/-- `?` on a plain `Result` value. -/
def lift (x : Except Err α) : Rd α := .mk fun s =>
  match x with
  | .ok a => .ok (a, s)
  | .error e => .error e

instance : Monad Rd where
  pure := Rd.pure
  bind := Rd.bind

/-- `self.remaining()` -/
def remaining : Rd Nat := .mk fun s => .ok (s.length, s)

/-- the whole remaining buffer without consuming it (`self.chunk()`, `as_ref()`). -/
def peek : Rd Bytes := .mk fun s => .ok (s, s)

/-- Run a sub-parser on its own buffer (`parse(data.split_to(n))`, or a moved `Bytes` argument): the sub-parser's
leftover is dropped. -/
def runOn (p : Rd α) (buf : Bytes) : Except Err α :=
  match p buf with
  | .ok (a, _) => .ok a
  | .error e => .error e

end Rd

/-- `has_n_remaining` (src/parser/utils.rs 24-34). -/
def needN (n : Nat) : Rd Unit := .mk fun s =>
  if s.length < n then .error .truncated else .ok ((), s)

/-- `read_u8` (src/parser/utils.rs 36-40). -/
def rdU8 : Rd UInt8 := .mk fun s =>
  match s with
  | a :: r => .ok (a, r)
  | _ => .error .truncated

/-- big-endian value of two bytes (`Buf::get_u16`). -/
def u16of (a b : UInt8) : UInt16 := UInt16.ofNat (a.toNat * 256 + b.toNat)

/-- big-endian value of four bytes (`Buf::get_u32`, `u32::from_be_bytes`). -/
def u32of (a b c d : UInt8) : UInt32 :=
  UInt32.ofNat (a.toNat * 16777216 + b.toNat * 65536 + c.toNat * 256 + d.toNat)

/-- `read_u16` (src/parser/utils.rs 42-46). -/
def rdU16 : Rd UInt16 := .mk fun s =>
  match s with
  | a :: b :: r => .ok (u16of a b, r)
  | _ => .error .truncated

/-- `read_u32` (src/parser/utils.rs 48-52). -/
def rdU32 : Rd UInt32 := .mk fun s =>
  match s with
  | a :: b :: c :: d :: r => .ok (u32of a b c d, r)
  | _ => .error .truncated

/-- `read_u64` (src/parser/utils.rs 54-58): eight bytes, big-endian, read here as two 32-bit halves. -/
def rdU64 : Rd UInt64 := do
  needN 8
  let hi ← rdU32
  let lo ← rdU32
  pure (UInt64.ofNat (hi.toNat * 4294967296 + lo.toNat))

/-- `read_n_bytes` (src/parser/utils.rs 176-179), and `has_n_remaining(n)?; split_to(n)`. -/
def rdN (n : Nat) : Rd Bytes := .mk fun s =>
  if s.length < n then .error .truncated else .ok (s.take n, s.drop n)

/-- `read_exact` into `[u8; n]` (src/parser/utils.rs 60-64). -/
def rdVec (n : Nat) : Rd (Vector UInt8 n) := .mk fun s =>
  if h : s.length < n then .error .truncated
  else .ok (⟨(s.take n).toArray, by simp; omega⟩, s.drop n)

/-- `Bytes::split_to(n)` without a preceding check: panics past the end. -/
def splitTo (n : Nat) : Rd Bytes := .mk fun s =>
  if s.length < n then .error .panic else .ok (s.take n, s.drop n)

/-- `Buf::advance(n)` without a preceding check: panics past the end. -/
def advance (n : Nat) : Rd Unit := .mk fun s =>
  if s.length < n then .error .panic else .ok ((), s.drop n)

/-- `BufMut::put_u16` -/
def be16 (x : UInt16) : Bytes := [UInt8.ofNat (x.toNat / 256), UInt8.ofNat x.toNat]

/-- `BufMut::put_u32` -/
def be32 (x : UInt32) : Bytes :=
  [UInt8.ofNat (x.toNat / 16777216), UInt8.ofNat (x.toNat / 65536), UInt8.ofNat (x.toNat / 256), UInt8.ofNat x.toNat]

/-- `BufMut::put_u64` -/
def be64 (x : UInt64) : Bytes :=
  be32 (UInt32.ofNat (x.toNat / 4294967296)) ++ be32 (UInt32.ofNat x.toNat)

/-- `while input.remaining() > 0 { out.push(p(&mut input)?) }` on an owned buffer. Fuel: the buffer length, which is
sufficient when `p` consumes at least one byte per round (proved at each use); running out is reported as `panic`. -/
def manyFuel (p : Rd α) : Nat → Bytes → Except Err (List α)
  | _, [] => .ok []
  | 0, _ :: _ => .error .panic
  | fuel + 1, b :: bs =>
    match p (b :: bs) with
    | .ok (a, r) =>
      match manyFuel p fuel r with
      | .ok as => .ok (a :: as)
      | .error e => .error e
    | .error e => .error e

def many (p : Rd α) (s : Bytes) : Except Err (List α) := manyFuel p s.length s

end Verif
