import Verif.Model.TextDump
import Verif.Spec.TextTime
/-
Dates in file names.
-/
namespace Verif
open Spec

/-! ### the calendar -/

/-- the number of a day, as the model counts. -/
def dayNo (t : Date) : Int :=
  ((365 * t.y + (t.y + 3) / 4 - (t.y + 99) / 100 + (t.y + 399) / 400 + daysBeforeMonth t.y t.m + (t.d - 1) : Nat) : Int) - 719528

theorem monthDays_eq (y m : Nat) : monthDays y m = monthLength y m := by
  unfold monthDays monthLength LeapYear
  simp only [Nat.dvd_iff_mod_eq_zero]
  split
  · subst_vars; rfl
  · split
    · rename_i h; rcases h with rfl | rfl | rfl | rfl <;> rfl
    · rename_i h1 h2
      split <;> first | rfl | omega

theorem daysBeforeMonth_succ (y m : Nat) (h : 1 ≤ m) : daysBeforeMonth y (m + 1) = daysBeforeMonth y m + monthLength y m := by
  rw [← monthDays_eq]
  cases m with
  | zero => omega
  | succ m => rfl

theorem yearDays (y : Nat) : daysBeforeMonth y 12 = 334 + (if LeapYear y then 1 else 0) := by
  have h : ∀ m, 1 ≤ m → daysBeforeMonth y (m + 1) = daysBeforeMonth y m + monthLength y m := fun m hm => daysBeforeMonth_succ y m hm
  rw [h 11 (by omega), h 10 (by omega), h 9 (by omega), h 8 (by omega), h 7 (by omega), h 6 (by omega), h 5 (by omega), h 4 (by omega),
    h 3 (by omega), h 2 (by omega), h 1 (by omega)]
  simp only [monthLength, daysBeforeMonth]
  split <;> rfl

theorem dayNo_next {a b : Date} (h : NextDate a b) : dayNo b = dayNo a + 1 := by
  cases h with
  | day h1 h2 => unfold dayNo; simp only; omega
  | month h1 h2 =>
    rename_i y m
    unfold dayNo
    simp only [daysBeforeMonth_succ y m h1]
    have : 1 ≤ monthLength y m := by unfold monthLength; split <;> first | omega | (split <;> omega)
    omega
  | year =>
    rename_i y
    unfold dayNo
    simp only [yearDays, daysBeforeMonth]
    have e1 : (y + 1 + 3) / 4 = (y + 3) / 4 + (if y % 4 = 0 then 1 else 0) := by split <;> omega
    have e2 : (y + 1 + 99) / 100 = (y + 99) / 100 + (if y % 100 = 0 then 1 else 0) := by split <;> omega
    have e3 : (y + 1 + 399) / 400 = (y + 399) / 400 + (if y % 400 = 0 then 1 else 0) := by split <;> omega
    have e4 : (y + 99) / 100 ≤ 365 * y := by omega
    have l1 : y % 100 = 0 → y % 4 = 0 := by omega
    have l2 : y % 400 = 0 → y % 100 = 0 := by omega
    rw [e1, e2, e3]
    generalize (y + 3) / 4 = p at *
    generalize (y + 99) / 100 = q at *
    generalize (y + 399) / 400 = r at *
    clear e1 e2 e3
    unfold LeapYear
    simp only [Nat.dvd_iff_mod_eq_zero]
    by_cases h4 : y % 4 = 0 <;> by_cases h1 : y % 100 = 0 <;> by_cases h5 : y % 400 = 0 <;>
      simp only [h4, h1, h5, if_true, if_false, not_true, not_false_iff, true_and, false_and, or_true, true_or, false_or] <;>
      first | omega | exact absurd (l1 h1) h4 | exact absurd (l2 h5) h1

theorem next_ok {a b : Date} (h : NextDate a b) : DateOk a ∧ DateOk b := by
  have pos : ∀ y m, 28 ≤ monthLength y m := by
    intro y m; unfold monthLength; split <;> first | omega | (split <;> omega)
  cases h with
  | day h1 h2 =>
    obtain ⟨a, b, c, d⟩ := h1
    simp only at a b c d
    exact ⟨⟨a, b, h2, by simp only; omega⟩, ⟨a, b, c, d⟩⟩
  | month h1 h2 =>
    rename_i y m
    have := pos y m
    have := pos y (m + 1)
    refine ⟨⟨h1, ?_, ?_, ?_⟩, ⟨?_, ?_, ?_, ?_⟩⟩ <;> simp only <;> omega
  | year =>
    rename_i y
    have := pos (y + 1) 1
    refine ⟨⟨?_, ?_, ?_, ?_⟩, ⟨?_, ?_, ?_, ?_⟩⟩ <;> simp only <;> try omega
    show 31 ≤ monthLength y 12
    exact Nat.le_refl _

theorem dayNumber_no {t : Date} {n : Int} (h : DayNumber t n) : n = dayNo t ∧ DateOk t := by
  induction h with
  | epoch => exact ⟨by decide, by unfold DateOk; decide⟩
  | next _ hn ih => exact ⟨by rw [dayNo_next hn, ih.1], (next_ok hn).2⟩
  | prev _ hn ih => exact ⟨by have := dayNo_next hn; omega, (next_ok hn).1⟩

/-- both dates have numbers, or none. -/
def Conn (a b : Date) : Prop := ∀ n, DayNumber a n ↔ DayNumber b (n + (dayNo b - dayNo a))

theorem conn_refl (a : Date) : Conn a a := by
  intro n; rw [show n + (dayNo a - dayNo a) = n by omega]

theorem conn_trans {a b c : Date} (h : Conn a b) (g : Conn b c) : Conn a c := by
  intro n
  rw [h n, g _]
  rw [show n + (dayNo b - dayNo a) + (dayNo c - dayNo b) = n + (dayNo c - dayNo a) by omega]

theorem conn_symm {a b : Date} (h : Conn a b) : Conn b a := by
  intro n
  have := h (n + (dayNo a - dayNo b))
  rw [show n + (dayNo a - dayNo b) + (dayNo b - dayNo a) = n by omega] at this
  exact this.symm

theorem conn_next {a b : Date} (h : NextDate a b) : Conn a b := by
  intro n
  have := dayNo_next h
  rw [show n + (dayNo b - dayNo a) = n + 1 by omega]
  exact ⟨fun g => .next g h, fun g => .prev g h⟩

theorem conn_day (y m : Nat) (h1 : 1 ≤ m) (h2 : m ≤ 12) : ∀ d, d + 1 ≤ monthLength y m → Conn ⟨y, m, 1⟩ ⟨y, m, d + 1⟩
  | 0, _ => conn_refl _
  | d + 1, h => conn_trans (conn_day y m h1 h2 d (by omega)) (conn_next (.day ⟨h1, h2, by simp, h⟩ (by omega)))

theorem conn_month (y : Nat) : ∀ m, m + 1 ≤ 12 → Conn ⟨y, 1, 1⟩ ⟨y, m + 1, 1⟩
  | 0, _ => conn_refl _
  | m + 1, h => by
    have pos : 28 ≤ monthLength y (m + 1) := by unfold monthLength; split <;> first | omega | (split <;> omega)
    have := conn_day y (m + 1) (by omega) (by omega) (monthLength y (m + 1) - 1) (by omega)
    rw [show monthLength y (m + 1) - 1 + 1 = monthLength y (m + 1) by omega] at this
    exact conn_trans (conn_month y m (by omega)) (conn_trans this (conn_next (.month (by omega) (by omega))))

theorem conn_year : ∀ y, Conn ⟨0, 1, 1⟩ ⟨y, 1, 1⟩
  | 0 => conn_refl _
  | y + 1 => conn_trans (conn_year y) (conn_trans (conn_month y 11 (by omega))
      (conn_trans (conn_day y 12 (by omega) (by omega) 30 (Nat.le_refl _)) (conn_next .year)))

theorem dayNumber_exists {t : Date} (h : DateOk t) : DayNumber t (dayNo t) := by
  obtain ⟨y, m, d⟩ := t
  obtain ⟨h1, h2, h3, h4⟩ := h
  simp only at h1 h2 h3 h4
  have c1 := conn_month y (m - 1) (by omega)
  have c2 := conn_day y m h1 h2 (d - 1) (by omega)
  rw [show m - 1 + 1 = m by omega] at c1
  rw [show d - 1 + 1 = d by omega] at c2
  have c := conn_trans (conn_symm (conn_year 1970)) (conn_trans (conn_year y) (conn_trans c1 c2))
  have := (c 0).mp .epoch
  rw [show dayNo ⟨1970, 1, 1⟩ = 0 by decide] at this
  rw [show (0 : Int) + (dayNo ⟨y, m, d⟩ - 0) = dayNo ⟨y, m, d⟩ by omega] at this
  exact this

instance (t : Date) : Decidable (DateOk t) := inferInstanceAs (Decidable (_ ∧ _))

theorem unixTime_iff (y m d hh mm : Nat) (s : Int) : unixTime y m d hh mm = some s ↔ TimeOf ⟨y, m, d⟩ hh mm s := by
  have e : unixTime y m d hh mm = if DateOk ⟨y, m, d⟩ ∧ hh < 24 ∧ mm < 60 then
      some (dayNo ⟨y, m, d⟩ * 86400 + (hh * 3600 + mm * 60 : Nat)) else none := by
    unfold unixTime DateOk dayNo
    simp only [monthDays_eq, and_assoc]
  rw [e]
  constructor
  · intro h
    split at h
    · rename_i hv
      simp only [Option.some.injEq] at h
      exact ⟨hv.2.1, hv.2.2, _, dayNumber_exists hv.1, by omega⟩
    · simp at h
  · rintro ⟨h1, h2, n, hn, rfl⟩
    obtain ⟨rfl, hv⟩ := dayNumber_no hn
    rw [if_pos ⟨hv, h1, h2⟩]
    congr 1
    omega

/-! ### shapes -/

theorem asciiDigit_iff (b : UInt8) : asciiDigit b = true ↔ 48 ≤ b.toNat ∧ b.toNat ≤ 57 := by
  unfold asciiDigit
  simp only [Bool.and_eq_true, decide_eq_true_eq, UInt8.le_iff_toNat_le]
  exact Iff.rfl

theorem digitsValue_eq (t : Bytes) : digitsValue t = t.foldl (fun n b => 10 * n + (b.toNat - 48)) 0 := by
  unfold digitsValue
  congr 1
  funext n b
  omega

theorem digitsN_iff (n : Nat) (t : Bytes) (v : Nat) (hn : 0 < n) : DigitsN n t v ↔ t.length = n ∧ (∀ b ∈ t, asciiDigit b = true) ∧ v = digitsValue t := by
  unfold DigitsN Digits
  rw [digitsValue_eq]
  simp only [asciiDigit_iff]
  constructor
  · rintro ⟨h1, _, h3, h4⟩; exact ⟨h1, h3, h4⟩
  · rintro ⟨h1, h3, h4⟩; exact ⟨h1, by rintro rfl; simp at h1; omega, h3, h4⟩

theorem shape_digits (p : Bytes) : ∀ (n : Nat) (w : Bytes), matchesShape (List.replicate n 48 ++ p) w = true ↔
    ∃ x y, w = x ++ y ∧ x.length = n ∧ (∀ b ∈ x, asciiDigit b = true) ∧ matchesShape p y = true
  | 0, w => by
    constructor
    · intro h; exact ⟨[], w, rfl, rfl, by simp, h⟩
    · rintro ⟨x, y, rfl, hx, _, h⟩
      obtain rfl := List.length_eq_zero_iff.mp hx
      exact h
  | n + 1, [] => by
    constructor
    · intro h; simp [List.replicate_succ, matchesShape] at h
    · rintro ⟨x, y, h, hx, _⟩
      obtain ⟨rfl, rfl⟩ := List.append_eq_nil_iff.mp h.symm
      simp at hx
  | n + 1, b :: w => by
    have ih := shape_digits p n w
    rw [List.replicate_succ, List.cons_append]
    rw [matchesShape]
    simp only [if_true, Bool.and_eq_true, ih]
    constructor
    · rintro ⟨hb, x, y, rfl, hx, hd, h⟩
      exact ⟨b :: x, y, rfl, by simp [hx], by simpa using ⟨hb, hd⟩, h⟩
    · rintro ⟨x, y, h1, hx, hd, h⟩
      cases x with
      | nil => simp at hx
      | cons c x =>
        simp only [List.cons_append, List.cons.injEq] at h1
        obtain ⟨rfl, rfl⟩ := h1
        exact ⟨hd b (by simp), x, y, rfl, by simpa using hx, fun z hz => hd z (by simp [hz]), h⟩

theorem shape_byte {c : UInt8} (hc : c ≠ 48) (p w : Bytes) : matchesShape (c :: p) w = true ↔ ∃ y, w = c :: y ∧ matchesShape p y = true := by
  cases w with
  | nil => simp [matchesShape]
  | cons b w =>
    rw [matchesShape, if_neg hc]
    simp only [Bool.and_eq_true, beq_iff_eq, List.cons.injEq]
    constructor
    · rintro ⟨rfl, h⟩; exact ⟨w, ⟨rfl, rfl⟩, h⟩
    · rintro ⟨y, ⟨rfl, rfl⟩, h⟩; exact ⟨rfl, h⟩

theorem shape_nil (w : Bytes) : matchesShape [] w = true ↔ w = [] := by
  cases w <;> simp [matchesShape]

/-- all digits, `n` of them. -/
def AllDigits (n : Nat) (t : Bytes) : Prop := t.length = n ∧ ∀ b ∈ t, asciiDigit b = true

theorem shape_minute (w : Bytes) : matchesShape (ascii "0000-00-00-0000") w = true ↔
    ∃ ys ms ds hs ns, w = ys ++ [45] ++ ms ++ [45] ++ ds ++ [45] ++ hs ++ ns ∧ AllDigits 4 ys ∧ AllDigits 2 ms ∧ AllDigits 2 ds ∧
      AllDigits 2 hs ∧ AllDigits 2 ns := by
  have e : ascii "0000-00-00-0000" = List.replicate 4 48 ++ (45 :: (List.replicate 2 48 ++ (45 :: (List.replicate 2 48 ++ (45 ::
    (List.replicate 2 48 ++ (List.replicate 2 48 ++ []))))))) := by decide
  rw [e]
  simp only [shape_digits, shape_byte (show (45 : UInt8) ≠ 48 by decide), shape_nil]
  constructor
  · rintro ⟨ys, _, rfl, y1, y2, _, rfl, ms, _, rfl, m1, m2, _, rfl, ds, _, rfl, d1, d2, _, rfl, hs, _, rfl, h1, h2, ns, _, rfl, n1, n2, rfl⟩
    exact ⟨ys, ms, ds, hs, ns, by simp, ⟨y1, y2⟩, ⟨m1, m2⟩, ⟨d1, d2⟩, ⟨h1, h2⟩, ⟨n1, n2⟩⟩
  · rintro ⟨ys, ms, ds, hs, ns, rfl, ⟨y1, y2⟩, ⟨m1, m2⟩, ⟨d1, d2⟩, ⟨h1, h2⟩, ⟨n1, n2⟩⟩
    exact ⟨ys, _, by simp only [List.append_assoc]; rfl, y1, y2, _, rfl, ms, _, rfl, m1, m2, _, rfl, ds, _, rfl, d1, d2, _, rfl, hs, ns, rfl, h1, h2, ns, [], by simp, n1, n2, rfl⟩

theorem shape_day (w : Bytes) : matchesShape (ascii "0000.00.00") w = true ↔
    ∃ ys ms ds, w = ys ++ [46] ++ ms ++ [46] ++ ds ∧ AllDigits 4 ys ∧ AllDigits 2 ms ∧ AllDigits 2 ds := by
  have e : ascii "0000.00.00" = List.replicate 4 48 ++ (46 :: (List.replicate 2 48 ++ (46 :: (List.replicate 2 48 ++ [])))) := by decide
  rw [e]
  simp only [shape_digits, shape_byte (show (46 : UInt8) ≠ 48 by decide), shape_nil]
  constructor
  · rintro ⟨ys, _, rfl, y1, y2, _, rfl, ms, _, rfl, m1, m2, _, rfl, ds, _, rfl, d1, d2, rfl⟩
    exact ⟨ys, ms, ds, by simp, ⟨y1, y2⟩, ⟨m1, m2⟩, ⟨d1, d2⟩⟩
  · rintro ⟨ys, ms, ds, rfl, ⟨y1, y2⟩, ⟨m1, m2⟩, ⟨d1, d2⟩⟩
    exact ⟨ys, _, by simp only [List.append_assoc]; rfl, y1, y2, _, rfl, ms, _, rfl, m1, m2, _, rfl, ds, [], by simp, d1, d2, rfl⟩

/-! ### the searches -/

/-- the byte before, after `a`. -/
def lastOr (prev : Option UInt8) (a : Bytes) : Option UInt8 := match a.getLast? with | some b => some b | none => prev

theorem lastOr_cons (prev : Option UInt8) (b : UInt8) (a : Bytes) : lastOr prev (b :: a) = lastOr (some b) a := by
  unfold lastOr
  cases a with
  | nil => rfl
  | cons c a => rw [List.getLast?_cons_cons, List.getLast?_eq_some_getLast (by simp : c :: a ≠ [])]

/-- a time at the front of `s`. -/
def MinuteHere (prev : Option UInt8) (s : Bytes) (t : Int) : Prop :=
  ∃ ys ms ds hs ns z, s = ys ++ [45] ++ ms ++ [45] ++ ds ++ [45] ++ hs ++ ns ++ z ∧ AllDigits 4 ys ∧ AllDigits 2 ms ∧ AllDigits 2 ds ∧
    AllDigits 2 hs ∧ AllDigits 2 ns ∧ (prev.map asciiDigit).getD false = false ∧
    TimeOf ⟨digitsValue ys, digitsValue ms, digitsValue ds⟩ (digitsValue hs) (digitsValue ns) t

/-- the test of the first loop at one place. -/
def minuteTest (prev : Option UInt8) (s : Bytes) : Option Int :=
  if matchesShape (ascii "0000-00-00-0000") (s.take 15) = true ∧ (prev.map asciiDigit).getD false = false then
    unixTime (digitsValue ((s.take 15).take 4)) (digitsValue (((s.take 15).drop 5).take 2)) (digitsValue (((s.take 15).drop 8).take 2))
      (digitsValue (((s.take 15).drop 11).take 2)) (digitsValue (((s.take 15).drop 13).take 2))
  else none

theorem fields {ys ms ds hs ns : Bytes} (h1 : ys.length = 4) (h2 : ms.length = 2) (h3 : ds.length = 2) (h4 : hs.length = 2)
    (h5 : ns.length = 2) (sep : UInt8) :
    let w := ys ++ [sep] ++ ms ++ [sep] ++ ds ++ [sep] ++ hs ++ ns
    w.length = 15 ∧ w.take 4 = ys ∧ (w.drop 5).take 2 = ms ∧ (w.drop 8).take 2 = ds ∧ (w.drop 11).take 2 = hs ∧ (w.drop 13).take 2 = ns := by
  match ys, h1, ms, h2, ds, h3, hs, h4, ns, h5 with
  | [a, b, c, d], _, [e, f], _, [g, h], _, [i, j], _, [k, l], _ => exact ⟨rfl, rfl, rfl, rfl, rfl, rfl⟩

theorem fieldsDay {ys ms ds : Bytes} (h1 : ys.length = 4) (h2 : ms.length = 2) (h3 : ds.length = 2) (sep : UInt8) :
    let w := ys ++ [sep] ++ ms ++ [sep] ++ ds
    w.length = 10 ∧ w.take 4 = ys ∧ (w.drop 5).take 2 = ms ∧ (w.drop 8).take 2 = ds := by
  match ys, h1, ms, h2, ds, h3 with
  | [a, b, c, d], _, [e, f], _, [g, h], _ => exact ⟨rfl, rfl, rfl, rfl⟩

theorem minuteTest_iff (prev : Option UInt8) (s : Bytes) (t : Int) : minuteTest prev s = some t ↔ MinuteHere prev s t := by
  unfold minuteTest
  constructor
  · intro h
    split at h
    · rename_i hh
      obtain ⟨ys, ms, ds, hs, ns, hw, h1, h2, h3, h4, h5⟩ := (shape_minute _).mp hh.1
      obtain ⟨_, f1, f2, f3, f4, f5⟩ := fields h1.1 h2.1 h3.1 h4.1 h5.1 45
      rw [hw, f1, f2, f3, f4, f5, unixTime_iff] at h
      refine ⟨ys, ms, ds, hs, ns, s.drop 15, ?_, h1, h2, h3, h4, h5, hh.2, h⟩
      rw [← hw, List.take_append_drop]
    · simp at h
  · rintro ⟨ys, ms, ds, hs, ns, z, rfl, h1, h2, h3, h4, h5, h6, h7⟩
    obtain ⟨f0, f1, f2, f3, f4, f5⟩ := fields h1.1 h2.1 h3.1 h4.1 h5.1 45
    have ht : (ys ++ [45] ++ ms ++ [45] ++ ds ++ [45] ++ hs ++ ns ++ z).take 15 = ys ++ [45] ++ ms ++ [45] ++ ds ++ [45] ++ hs ++ ns := by
      rw [← f0, List.take_left]
    rw [ht, if_pos ⟨(shape_minute _).mpr ⟨ys, ms, ds, hs, ns, rfl, h1, h2, h3, h4, h5⟩, h6⟩, f1, f2, f3, f4, f5, unixTime_iff]
    exact h7

theorem inferMinute_cons (prev : Option UInt8) (b : UInt8) (r : Bytes) : inferMinute prev (b :: r) =
    match minuteTest prev (b :: r) with
    | some t => some t
    | none => inferMinute (some b) r := rfl

theorem inferMinute_none : ∀ (s : Bytes) (prev : Option UInt8), (∀ a s' t, s = a ++ s' → ¬ MinuteHere (lastOr prev a) s' t) → inferMinute prev s = none
  | [], _, _ => rfl
  | b :: r, prev, h => by
    rw [inferMinute_cons]
    have h0 : minuteTest prev (b :: r) = none := by
      cases hm : minuteTest prev (b :: r) with
      | none => rfl
      | some t => exact absurd ((minuteTest_iff _ _ _).mp hm) (h [] _ t rfl)
    rw [h0]
    exact inferMinute_none r (some b) fun a s' t e hm => h (b :: a) s' t (by rw [e]; rfl) (by rw [lastOr_cons]; exact hm)

theorem inferMinute_some : ∀ (a s : Bytes) (prev : Option UInt8) (t : Int), MinuteHere (lastOr prev a) s t →
    (∀ x y t', a ++ s = x ++ y → x.length < a.length → ¬ MinuteHere (lastOr prev x) y t') → inferMinute prev (a ++ s) = some t
  | [], s, prev, t, h, _ => by
    have hm := (minuteTest_iff _ _ _).mpr h
    cases s with
    | nil =>
      obtain ⟨ys, ms, ds, hs, ns, z, e, _⟩ := h
      simp at e
    | cons b r =>
      rw [List.nil_append, inferMinute_cons]
      simp only [lastOr, List.getLast?_nil] at hm
      rw [hm]
  | b :: a, s, prev, t, h, hno => by
    rw [List.cons_append, inferMinute_cons]
    have h0 : minuteTest prev (b :: (a ++ s)) = none := by
      cases hm : minuteTest prev (b :: (a ++ s)) with
      | none => rfl
      | some t => exact absurd ((minuteTest_iff _ _ _).mp hm) (hno [] _ t rfl (by simp))
    rw [h0]
    refine inferMinute_some a s (some b) t (by rw [← lastOr_cons (prev := prev)]; exact h) ?_
    intro x y t' e hx hm
    exact hno (b :: x) y t' (by rw [List.cons_append, e]; rfl) (by simp; omega) (by rw [lastOr_cons]; exact hm)

/-- a date at the front of `s`. -/
def DayHere (s : Bytes) (t : Date) : Prop :=
  ∃ ys ms ds z, s = ys ++ [46] ++ ms ++ [46] ++ ds ++ z ∧ DigitsN 4 ys t.y ∧ DigitsN 2 ms t.m ∧ DigitsN 2 ds t.d

theorem dayShape_iff (s : Bytes) : matchesShape (ascii "0000.00.00") (s.take 10) = true ↔ ∃ t, DayHere s t := by
  constructor
  · intro h
    obtain ⟨ys, ms, ds, hw, h1, h2, h3⟩ := (shape_day _).mp h
    refine ⟨⟨digitsValue ys, digitsValue ms, digitsValue ds⟩, ys, ms, ds, s.drop 10, ?_, ?_, ?_, ?_⟩
    · rw [← hw, List.take_append_drop]
    · exact (digitsN_iff 4 _ _ (by omega)).mpr ⟨h1.1, h1.2, rfl⟩
    · exact (digitsN_iff 2 _ _ (by omega)).mpr ⟨h2.1, h2.2, rfl⟩
    · exact (digitsN_iff 2 _ _ (by omega)).mpr ⟨h3.1, h3.2, rfl⟩
  · rintro ⟨t, ys, ms, ds, z, rfl, h1, h2, h3⟩
    rw [digitsN_iff _ _ _ (by omega)] at h1 h2 h3
    obtain ⟨f0, _⟩ := fieldsDay h1.1 h2.1 h3.1 46
    rw [shape_day]
    refine ⟨ys, ms, ds, ?_, ⟨h1.1, h1.2.1⟩, ⟨h2.1, h2.2.1⟩, ⟨h3.1, h3.2.1⟩⟩
    rw [← f0, List.take_left]

theorem inferDay_none : ∀ (s : Bytes), (∀ a s' t, s = a ++ s' → ¬ DayHere s' t) → inferDay s = none
  | [], _ => rfl
  | b :: r, h => by
    unfold inferDay
    simp only
    rw [if_neg fun hm => by obtain ⟨t, ht⟩ := (dayShape_iff _).mp hm; exact h [] _ t rfl ht]
    exact inferDay_none r fun a s' t e => h (b :: a) s' t (by rw [e]; rfl)

theorem inferDay_first : ∀ (a s : Bytes) (t : Date), DayHere s t → (∀ x y t', a ++ s = x ++ y → x.length < a.length → ¬ DayHere y t') →
    inferDay (a ++ s) = unixTime t.y t.m t.d 12 0
  | [], s, t, h, _ => by
    have hm := (dayShape_iff _).mpr ⟨t, h⟩
    obtain ⟨ys, ms, ds, z, rfl, h1, h2, h3⟩ := h
    rw [digitsN_iff _ _ _ (by omega)] at h1 h2 h3
    obtain ⟨f0, f1, f2, f3⟩ := fieldsDay h1.1 h2.1 h3.1 46
    have ht : (ys ++ [46] ++ ms ++ [46] ++ ds ++ z).take 10 = ys ++ [46] ++ ms ++ [46] ++ ds := by
      rw [← f0, List.take_left]
    rw [List.nil_append]
    cases hs : ys ++ [46] ++ ms ++ [46] ++ ds ++ z with
    | nil => simp at hs
    | cons b r =>
      unfold inferDay
      rw [← hs]
      simp only
      rw [if_pos hm, ht, f1, f2, f3, h1.2.2, h2.2.2, h3.2.2]
  | b :: a, s, t, h, hno => by
    rw [List.cons_append]
    unfold inferDay
    simp only
    rw [if_neg fun hm => by obtain ⟨t', ht⟩ := (dayShape_iff _).mp hm; exact hno [] _ t' rfl (by simp) ht]
    exact inferDay_first a s t h fun x y t' e hx => hno (b :: x) y t' (by rw [List.cons_append, e]; rfl) (by simp; omega)

/-! ### paths -/

theorem minuteStamp_iff (path : Bytes) (i : Nat) (t : Int) : MinuteStamp path i t ↔ ∃ a s, path = a ++ s ∧ a.length = i ∧ MinuteHere (lastOr none a) s t := by
  have hlast : ∀ a : Bytes, (∀ b, a.getLast? = some b → ¬ (48 ≤ b.toNat ∧ b.toNat ≤ 57)) ↔ ((lastOr none a).map asciiDigit).getD false = false := by
    intro a
    unfold lastOr
    cases a.getLast? with
    | none => simp
    | some b =>
      simp only [Option.some.injEq, forall_eq', Option.map_some, Option.getD_some, ← asciiDigit_iff]
      simp
  constructor
  · rintro ⟨a, ys, ms, ds, hs, ns, z, y, m, d, hh, mm, rfl, h0, h1, h2, h3, h4, h5, h6, h7⟩
    rw [digitsN_iff _ _ _ (by omega)] at h1 h2 h3 h4 h5
    refine ⟨a, _, by simp only [List.append_assoc]; rfl, h0, ys, ms, ds, hs, ns, z, by simp, ⟨h1.1, h1.2.1⟩, ⟨h2.1, h2.2.1⟩, ⟨h3.1, h3.2.1⟩, ⟨h4.1, h4.2.1⟩,
      ⟨h5.1, h5.2.1⟩, (hlast a).mp h6, ?_⟩
    rw [← h1.2.2, ← h2.2.2, ← h3.2.2, ← h4.2.2, ← h5.2.2]
    exact h7
  · rintro ⟨a, s, rfl, h0, ys, ms, ds, hs, ns, z, rfl, h1, h2, h3, h4, h5, h6, h7⟩
    refine ⟨a, ys, ms, ds, hs, ns, z, _, _, _, _, _, by simp, h0, ?_, ?_, ?_, ?_, ?_, (hlast a).mpr h6, h7⟩
    · exact (digitsN_iff 4 _ _ (by omega)).mpr ⟨h1.1, h1.2, rfl⟩
    · exact (digitsN_iff 2 _ _ (by omega)).mpr ⟨h2.1, h2.2, rfl⟩
    · exact (digitsN_iff 2 _ _ (by omega)).mpr ⟨h3.1, h3.2, rfl⟩
    · exact (digitsN_iff 2 _ _ (by omega)).mpr ⟨h4.1, h4.2, rfl⟩
    · exact (digitsN_iff 2 _ _ (by omega)).mpr ⟨h5.1, h5.2, rfl⟩

theorem dayStamp_iff (path : Bytes) (i : Nat) (t : Date) : DayStamp path i t ↔ ∃ a s, path = a ++ s ∧ a.length = i ∧ DayHere s t := by
  constructor
  · rintro ⟨a, ys, ms, ds, z, rfl, h0, h1, h2, h3⟩
    exact ⟨a, _, by simp only [List.append_assoc]; rfl, h0, ys, ms, ds, z, by simp, h1, h2, h3⟩
  · rintro ⟨a, s, rfl, h0, ys, ms, ds, z, rfl, h1, h2, h3⟩
    exact ⟨a, ys, ms, ds, z, by simp, h0, h1, h2, h3⟩

end Verif
