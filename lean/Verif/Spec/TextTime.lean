import Verif.Spec.Text
/-
Dates in file names.
-/
namespace Verif.Spec

/-- leap years of the Gregorian calendar. -/
def LeapYear (y : Nat) : Prop := 4 ∣ y ∧ (¬ 100 ∣ y ∨ 400 ∣ y)

instance (y : Nat) : Decidable (LeapYear y) := inferInstanceAs (Decidable (_ ∧ _))

/-- the number of days of a month. -/
def monthLength (y : Nat) : Nat → Nat
  | 2 => if LeapYear y then 29 else 28
  | 4 => 30
  | 6 => 30
  | 9 => 30
  | 11 => 30
  | _ => 31

/-- year, month, day. -/
structure Date where
  y : Nat
  m : Nat
  d : Nat
deriving DecidableEq, Repr

/-- There is such a day. -/
def DateOk (t : Date) : Prop := 1 ≤ t.m ∧ t.m ≤ 12 ∧ 1 ≤ t.d ∧ t.d ≤ monthLength t.y t.m

/-- The day after. -/
inductive NextDate : Date → Date → Prop where
  | day {y m d} : DateOk ⟨y, m, d + 1⟩ → 1 ≤ d → NextDate ⟨y, m, d⟩ ⟨y, m, d + 1⟩
  | month {y m} : 1 ≤ m → m < 12 → NextDate ⟨y, m, monthLength y m⟩ ⟨y, m + 1, 1⟩
  | year {y} : NextDate ⟨y, 12, 31⟩ ⟨y + 1, 1, 1⟩

/-- The number of days since 1 January 1970. -/
inductive DayNumber : Date → Int → Prop where
  | epoch : DayNumber ⟨1970, 1, 1⟩ 0
  | next {a b n} : DayNumber a n → NextDate a b → DayNumber b (n + 1)
  | prev {a b n} : DayNumber b (n + 1) → NextDate a b → DayNumber a n

/-- Seconds since 1970 (UTC) of a minute. -/
def TimeOf (t : Date) (hh mm : Nat) (s : Int) : Prop :=
  hh < 24 ∧ mm < 60 ∧ ∃ n, DayNumber t n ∧ s = 86400 * n + 3600 * hh + 60 * mm

/-- `n` digits and the number they stand for. -/
def DigitsN (n : Nat) (t : Bytes) (v : Nat) : Prop := t.length = n ∧ Digits t v

/-- At `i` the path has `YYYY-MM-DD-HHMM`, not after a digit, and that is the time `s`. -/
def MinuteStamp (path : Bytes) (i : Nat) (s : Int) : Prop :=
  ∃ a ys ms ds hs ns z y m d hh mm, path = a ++ ys ++ [45] ++ ms ++ [45] ++ ds ++ [45] ++ hs ++ ns ++ z ∧ a.length = i ∧
    DigitsN 4 ys y ∧ DigitsN 2 ms m ∧ DigitsN 2 ds d ∧ DigitsN 2 hs hh ∧ DigitsN 2 ns mm ∧
    (∀ b, a.getLast? = some b → ¬ (48 ≤ b.toNat ∧ b.toNat ≤ 57)) ∧ TimeOf ⟨y, m, d⟩ hh mm s

/-- At `i` the path has `YYYY.MM.DD`, the date `t`, if there is such a day. -/
def DayStamp (path : Bytes) (i : Nat) (t : Date) : Prop :=
  ∃ a ys ms ds z, path = a ++ ys ++ [46] ++ ms ++ [46] ++ ds ++ z ∧ a.length = i ∧
    DigitsN 4 ys t.y ∧ DigitsN 2 ms t.m ∧ DigitsN 2 ds t.d

end Verif.Spec
