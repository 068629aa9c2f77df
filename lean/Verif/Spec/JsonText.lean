import Verif.Model.JsonText
import Verif.Spec.RisLive
/-
How JSON text is read (RFC 8259).
-/
namespace Verif.Spec

/-- white space (RFC 8259, section 2). -/
def skipWhite : List Char → List Char
  | c :: cs => if c = ' ' ∨ c = '\t' ∨ c = '\n' ∨ c = '\r' then skipWhite cs else c :: cs
  | [] => []

/-- the value of a hexadecimal digit. -/
def hexNumber (c : Char) : Option Nat :=
  if '0' ≤ c ∧ c ≤ '9' then some (c.toNat - 48)
  else if 'a' ≤ c ∧ c ≤ 'f' then some (c.toNat - 87)
  else if 'A' ≤ c ∧ c ≤ 'F' then some (c.toNat - 55)
  else none

/-- the character of an escape of one letter (section 7). -/
def escaped : Char → Option Char
  | '"' => some '"'
  | '\\' => some '\\'
  | '/' => some '/'
  | 'b' => some (Char.ofNat 8)
  | 'f' => some (Char.ofNat 12)
  | 'n' => some (Char.ofNat 10)
  | 'r' => some (Char.ofNat 13)
  | 't' => some (Char.ofNat 9)
  | _ => none

/-- The rest of a string after the opening quotation mark: its characters up to the next mark that is not escaped, and what
follows. Escapes of surrogate pairs are left out. -/
def readString : List Char → Option (List Char × List Char)
  | [] => none
  | '"' :: r => some ([], r)
  | '\\' :: 'u' :: a :: b :: c :: d :: r =>
    match hexNumber a, hexNumber b, hexNumber c, hexNumber d, readString r with
    | some a, some b, some c, some d, some (s, r) => some (Char.ofNat (a * 4096 + b * 256 + c * 16 + d) :: s, r)
    | _, _, _, _, _ => none
  | '\\' :: e :: r =>
    match escaped e, readString r with
    | some c, some (s, r) => some (c :: s, r)
    | _, _ => none
  | c :: r =>
    if c.toNat < 32 then none
    else
      match readString r with
      | some (s, r) => some (c :: s, r)
      | none => none

/-- the characters of numbers (section 6). -/
def numberChar (c : Char) : Bool := c.isDigit || c == '-' || c == '+' || c == '.' || c == 'e' || c == 'E'

/-- a natural number without leading zeros. -/
def wholeNumber (t : List Char) : Option Nat :=
  if t = [] ∨ ¬ t.all Char.isDigit ∨ (t.head? = some '0' ∧ t ≠ ['0']) then none
  else some (t.foldl (fun n c => n * 10 + (c.toNat - 48)) 0)

/-- A number: an integer of 64 bits, or a real number, whose reading is a parameter. -/
def readNumber (real : List Char → Option Rat) (t : List Char) : Option Json :=
  if t.all fun c => c.isDigit || c == '-' then
    if t.head? = some '-' then
      match wholeNumber t.tail with
      | some n => if 0 < n ∧ n ≤ 9223372036854775808 then some (.int (-n)) else (real t).map .float
      | none => none
    else
      match wholeNumber t with
      | some n => if n < 18446744073709551616 then some (.int n) else (real t).map .float
      | none => none
  else (real t).map .float

mutual
/-- A value, and what follows. The number bounds the nesting and the number of items. -/
def jsonValue (real : List Char → Option Rat) : Nat → List Char → Option (Json × List Char)
  | 0, _ => none
  | n + 1, cs =>
    match skipWhite cs with
    | 'n' :: 'u' :: 'l' :: 'l' :: r => some (.null, r)
    | 't' :: 'r' :: 'u' :: 'e' :: r => some (.bool true, r)
    | 'f' :: 'a' :: 'l' :: 's' :: 'e' :: r => some (.bool false, r)
    | '"' :: r => (readString r).map fun (s, r) => (.str (String.ofList s), r)
    | '[' :: r =>
      match skipWhite r with
      | ']' :: r => some (.arr [], r)
      | _ => (jsonItems real n r).map fun (xs, r) => (.arr xs, r)
    | '{' :: r =>
      match skipWhite r with
      | '}' :: r => some (.obj [], r)
      | _ => (jsonEntries real n r).map fun (xs, r) => (.obj xs, r)
    | r => (readNumber real (r.takeWhile numberChar)).map fun j => (j, r.dropWhile numberChar)
/-- one or more items and the closing bracket. -/
def jsonItems (real : List Char → Option Rat) : Nat → List Char → Option (List Json × List Char)
  | 0, _ => none
  | n + 1, cs =>
    match jsonValue real n cs with
    | none => none
    | some (x, r) =>
      match skipWhite r with
      | ',' :: r => (jsonItems real n r).map fun (xs, r) => (x :: xs, r)
      | ']' :: r => some ([x], r)
      | _ => none
/-- one or more entries and the closing brace. -/
def jsonEntries (real : List Char → Option Rat) : Nat → List Char → Option (List (String × Json) × List Char)
  | 0, _ => none
  | n + 1, cs =>
    match skipWhite cs with
    | '"' :: r =>
      match readString r with
      | none => none
      | some (k, r) =>
        match skipWhite r with
        | ':' :: r =>
          match jsonValue real n r with
          | none => none
          | some (v, r) =>
            match skipWhite r with
            | ',' :: r => (jsonEntries real n r).map fun (kvs, r) => ((String.ofList k, v) :: kvs, r)
            | '}' :: r => some ([(String.ofList k, v)], r)
            | _ => none
        | _ => none
    | _ => none
end

/-- a JSON document: one value. -/
def readJson (real : List Char → Option Rat) (cs : List Char) : Option Json :=
  match jsonValue real (cs.length + 1) cs with
  | some (j, r) => if skipWhite r = [] then some j else none
  | none => none

/-- a number that a double can hold: 53 bits, shifted. The range of exponents is not limited. -/
def Double (x : Rat) : Prop := ∃ (m : Int) (e : Nat), m.natAbs ≤ 2 ^ 53 ∧ (x = m * 2 ^ e ∨ x * 2 ^ e = m)

/-- What is assumed of the texts of real numbers (`ryu`, and serde_json reading them): they are made of the characters of numbers,
are not in the form of an integer and, for doubles, are read as the same number. -/
structure RealText (write : Rat → List Char) (read : List Char → Option Rat) : Prop where
  chars : ∀ x, (write x).all numberChar = true
  form : ∀ x, (write x).all (fun c => c.isDigit || c == '-') = false
  back : ∀ x, Double x → read (write x) = some x

mutual
/-- Integers have 64 bits, other numbers are doubles, and no object has two entries with one key. -/
def Proper : Json → Prop
  | .int z => -9223372036854775808 ≤ z ∧ z < 18446744073709551616
  | .arr xs => ProperItems xs
  | .obj kvs => ProperEntries kvs
  | .float x => Double x
  | .null | .bool _ | .str _ => True
/-- see `Proper`. -/
def ProperItems : List Json → Prop
  | [] => True
  | x :: xs => Proper x ∧ ProperItems xs
/-- see `Proper`. -/
def ProperEntries : List (String × Json) → Prop
  | [] => True
  | (k, v) :: kvs => Proper v ∧ (∀ kv ∈ kvs, kv.1 ≠ k) ∧ ProperEntries kvs
end

/-- a number. -/
def IsNumber (j : Json) : Prop := (∃ z, j = .int z) ∨ ∃ x, j = .float x

/-- What is assumed of times and `f32` in documents: they are numbers, or null for an `f32`, and nothing else is read as one. -/
structure NumbersOk (env : JsonEnv) : Prop where
  time : ∀ t, Proper (env.time t) ∧ IsNumber (env.time t)
  f32 : ∀ r, Proper (env.f32 r) ∧ (IsNumber (env.f32 r) ∨ env.f32 r = .null)
  timeOf : ∀ j t, env.timeOf j = some t → IsNumber j
  f32Of : ∀ j r, env.f32Of j = some r → IsNumber j

/-- the lines of a text, without their line feeds. -/
def textLines : List Char → List (List Char)
  | [] => []
  | c :: t =>
    if c = '\n' then [] :: textLines t
    else
      match textLines t with
      | [] => [[c]]
      | l :: ls => (c :: l) :: ls

end Verif.Spec
