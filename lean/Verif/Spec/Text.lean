import Verif.Model.Bytes
/-
Text as bytes: blanks, words, decimal numbers, pieces of a line.
-/
namespace Verif.Spec

/-- The code points with the Unicode property White_Space. -/
def whiteSpace : List Nat :=
  [0x09, 0x0A, 0x0B, 0x0C, 0x0D, 0x20, 0x85, 0xA0, 0x1680, 0x2000, 0x2001, 0x2002, 0x2003, 0x2004, 0x2005, 0x2006, 0x2007,
    0x2008, 0x2009, 0x200A, 0x2028, 0x2029, 0x202F, 0x205F, 0x3000]

/-- The bytes are one white space character in UTF-8. -/
def IsSpace (w : Bytes) : Prop := ∃ c : Char, c.toNat ∈ whiteSpace ∧ w = String.utf8EncodeChar c

/-- The bytes are white space characters, any number of them. -/
def Blank (s : Bytes) : Prop := ∃ ws : List Bytes, (∀ w ∈ ws, IsSpace w) ∧ s = ws.flatten

/-- It does not start with white space. -/
def NoSpaceFirst (s : Bytes) : Prop := ∀ w, IsSpace w → ¬ w <+: s

/-- It does not end with white space. -/
def NoSpaceLast (s : Bytes) : Prop := ∀ w, IsSpace w → ¬ w <:+ s

/-- `t` is `s` without the white space around it. -/
def Trimmed (s t : Bytes) : Prop := ∃ l r, Blank l ∧ Blank r ∧ s = l ++ t ++ r ∧ NoSpaceFirst t ∧ NoSpaceLast t

/-- `t` is `s` without the white space at its end. -/
def TrimmedEnd (s t : Bytes) : Prop := ∃ r, Blank r ∧ s = t ++ r ∧ NoSpaceLast t

/-- The words of a text: what is between white space. -/
inductive Words : Bytes → List Bytes → Prop where
  | nil {s : Bytes} : Blank s → Words s []
  | cons {l w rest : Bytes} {ws : List Bytes} : Blank l → w ≠ [] → (∀ c, IsSpace c → ¬ c <:+: w) →
      (rest = [] ∨ ¬ NoSpaceFirst rest) → Words rest ws → Words (l ++ w ++ rest) (w :: ws)

/-- A decimal number: digits, and the number they stand for. -/
def Digits (t : Bytes) (n : Nat) : Prop :=
  t ≠ [] ∧ (∀ b ∈ t, 48 ≤ b.toNat ∧ b.toNat ≤ 57) ∧ n = t.foldl (fun n b => 10 * n + (b.toNat - 48)) 0

/-- the lines of a text, each with its line feed; the last one may lack it. -/
def linesOf : Bytes → List Bytes
  | [] => []
  | b :: r =>
    if b = 10 then [b] :: linesOf r
    else
      match linesOf r with
      | [] => [[b]]
      | l :: ls => (b :: l) :: ls

end Verif.Spec
