import Verif.Props.TextDump
import Verif.Lemmas.TextTime
import Verif.Props.Mrt
/-
C72, C73: detection of text dumps, times in file names.
-/
namespace Verif.Props
open Spec

/-! ### C72: detection -/

/-- C72: if the first chunk of the reader (up to 256 bytes of it) does not look like a text dump, the parser reads MRT data from a
reader that delivers exactly what the given one does: no byte is lost or repeated. -/
theorem c72_mrt (env : DumpEnv) (b : UInt8) (bs : Bytes) (r : List Ev) (k : Option Bool) (time : Option Nat)
    (h : ¬ TextHead ((b :: bs).take 256)) :
    ∃ s', fromAutoReader env ⟨.data b bs :: r, k⟩ time = .ok (.mrt s') ∧ SameDelivery s' ⟨.data b bs :: r, k⟩ := by
  have hl : looksText ((b :: bs).take 256) = false := by
    cases hx : looksText ((b :: bs).take 256) with
    | false => rfl
    | true => exact absurd ((looksText_iff _).mp hx) h
  unfold fromAutoReader detectText
  simp only [Src.read, hl, Bool.false_eq_true, if_false]
  refine ⟨_, rfl, ?_, rfl⟩
  simp only [toks_push, ← List.append_assoc, ← byteToks_append, List.take_append_drop]
  rfl

/-- C72: so the records are those of a parser made without detection. -/
theorem c72_mrt_records (env : DumpEnv) (b : UInt8) (bs : Bytes) (r : List Ev) (k : Option Bool) (time : Option Nat)
    (h : ¬ TextHead ((b :: bs).take 256)) {σ : Type} (f : Keep σ) (q : σ) (pol pol' : Pol) (n : Nat) :
    ∃ s', fromAutoReader env ⟨.data b bs :: r, k⟩ time = .ok (.mrt s') ∧
      (forLoop (fallibleIter f pol) n (q, s')).1 = (forLoop (fallibleIter f pol') n (q, ⟨.data b bs :: r, k⟩)).1 := by
  obtain ⟨s', h1, h2⟩ := c72_mrt env b bs r k time h
  exact ⟨s', h1, (c24_fallible f q pol pol' s' _ h2 n).1⟩

/-- C72: if it looks like a text dump, the parser gives the elements that one for text dumps made from the reader gives, or fails
as that one does. -/
theorem c72_text (env : DumpEnv) (b : UInt8) (bs : Bytes) (r : List Ev) (k : Option Bool) (time : Option Nat)
    (h : TextHead ((b :: bs).take 256)) :
    (∃ e, fromAutoReader env ⟨.data b bs :: r, k⟩ time = .error e ∧ fromTextReader env ⟨.data b bs :: r, k⟩ (time.getD 0) = .error e) ∨
    ∃ it it', fromAutoReader env ⟨.data b bs :: r, k⟩ time = .ok (.text it) ∧
      fromTextReader env ⟨.data b bs :: r, k⟩ (time.getD 0) = .ok (.text it') ∧
      ∀ es, Gives (TextIter.next env) it es ↔ Gives (TextIter.next env) it' es := by
  have hl := (looksText_iff _).mpr h
  unfold fromAutoReader detectText fromTextReader
  simp only [Src.read, hl, if_true]
  have hsd : SameDelivery ⟨push ((b :: bs).take 256) (push ((b :: bs).drop 256) r), k⟩ ⟨.data b bs :: r, k⟩ := by
    refine ⟨?_, rfl⟩
    simp only [toks_push, ← List.append_assoc, ← byteToks_append, List.take_append_drop]
    rfl
  rcases new_same (env := env) hsd (time.getD 0) with ⟨e, h1, h2⟩ | ⟨it, it', h1, h2, h3⟩
  · left
    exact ⟨e, by rw [h1]; rfl, by rw [h2]; rfl⟩
  · right
    exact ⟨it, it', by rw [h1]; rfl, by rw [h2]; rfl, fun es => ⟨fun g => yields_same g h3, fun g => yields_same g h3.symm⟩⟩

/-- C72: an empty reader is read as MRT data. -/
theorem c72_empty (env : DumpEnv) (time : Option Nat) : fromAutoReader env ⟨[], none⟩ time = .ok (.mrt ⟨[], none⟩) := rfl

/-- C72: a reader that fails at once makes the construction fail with an I/O error. -/
theorem c72_fails (env : DumpEnv) (e : Bool) (r : List Ev) (k : Option Bool) (time : Option Nat) :
    fromAutoReader env ⟨.fail e :: r, k⟩ time = .error .io := rfl

/-- the start of the example looks like a text dump. -/
theorem exDump_head : TextHead (exDumpBytes.take 256) := (looksText_iff _).mp (by decide +kernel)

/-- the start of an MRT file does not. -/
theorem exMrt_head : ¬ TextHead ([101, 0, 0, 0, 0, 13, 0, 1].take 256) := by
  rw [← looksText_iff]; decide +kernel

/-- C72 fails for short reads: if the first chunk has one byte, a text dump is read as MRT data. -/
theorem c72_violated_short (env : DumpEnv) (bs : Bytes) (time : Option Nat) :
    ∃ s', fromAutoReader env ⟨[.data 66 [], .data 71 bs], none⟩ time = .ok (.mrt s') := by
  obtain ⟨s', h, _⟩ := c72_mrt env 66 [] [.data 71 bs] none time (by rw [← looksText_iff]; decide)
  exact ⟨s', h⟩

/-- C72 fails for a character that lies across byte 128: a text dump is read as MRT data. -/
theorem c72_violated_cut (env : DumpEnv) (time : Option Nat) (bs : Bytes) :
    ∃ s', fromAutoReader env ⟨[.data 66 (ascii "GP table version is 1" ++ List.replicate 105 120 ++ [0xC3, 0xA9] ++ bs)], none⟩ time =
      .ok (.mrt s') := by
  obtain ⟨s', h, _⟩ := c72_mrt env 66 (ascii "GP table version is 1" ++ List.replicate 105 120 ++ [0xC3, 0xA9] ++ bs) [] none time (by
    rintro ⟨_, h, _⟩
    rw [← utf8_exact, List.take_take] at h
    have e : (66 :: (ascii "GP table version is 1" ++ List.replicate 105 120 ++ [0xC3, 0xA9] ++ bs)).take (min 128 256) =
        66 :: (ascii "GP table version is 1" ++ List.replicate 105 120 ++ [0xC3]) := by rfl
    rw [e] at h
    revert h
    decide +kernel)
  exact ⟨s', h⟩

/-- C72 fails for an interruption before the first byte: the construction fails although reading again would have worked. -/
theorem c72_violated_interrupted (env : DumpEnv) (r : List Ev) (k : Option Bool) (time : Option Nat) :
    fromAutoReader env ⟨.interrupted :: r, k⟩ time = .error .io := rfl

/-- an MRT record: a peer index table of 2023 with the view name `BGP table` and no peers. -/
def exViewName : Bytes :=
  [0x65, 0x01, 0x02, 0x03, 0, 13, 0, 1, 0, 0, 0, 17, 10, 0, 0, 1, 0, 9] ++ ascii "BGP table" ++ [0, 0]

/-- C72 fails for MRT data with one of the phrases near the start: this record is taken for text, and the construction fails;
without detection it is read. -/
theorem c72_violated_mrt :
    (match fromAutoReader exDumpEnv ⟨[.data 0x65 (exViewName.drop 1)], none⟩ none with | .error e => e == .io | .ok _ => false) = true ∧
    (match (nextRecord (fun _ _ => 1) (⟨[.data 0x65 (exViewName.drop 1)], none⟩ : Src)).1 with | .ok _ => true | .error _ => false) = true := by
  decide +kernel

/-! ### C73: times in file names -/

/-- C73: the time of a path is that of the first `YYYY-MM-DD-HHMM` in it that does not follow a digit and is a date and time of the
calendar. -/
theorem c73_minute {path : Bytes} {i : Nat} {t : Int} (h : MinuteStamp path i t) (hno : ∀ j < i, ∀ t', ¬ MinuteStamp path j t') :
    inferTime path = some t := by
  obtain ⟨a, s, rfl, h0, h1⟩ := (minuteStamp_iff _ _ _).mp h
  unfold inferTime
  rw [inferMinute_some a s none t h1 fun x y t' e hx hm =>
    hno x.length (by omega) t' ((minuteStamp_iff _ _ _).mpr ⟨x, y, e, rfl, hm⟩)]

/-- C73: if there is none, it is noon of the first `YYYY.MM.DD`, or nothing if that is no date of the calendar. -/
theorem c73_day {path : Bytes} (hno : ∀ j t, ¬ MinuteStamp path j t) {i : Nat} {d : Date} (h : DayStamp path i d)
    (hno' : ∀ j < i, ∀ d', ¬ DayStamp path j d') (t : Int) : inferTime path = some t ↔ TimeOf d 12 0 t := by
  obtain ⟨a, s, rfl, h0, h1⟩ := (dayStamp_iff _ _ _).mp h
  unfold inferTime
  rw [inferMinute_none _ none fun x y t e hm => hno x.length t ((minuteStamp_iff _ _ _).mpr ⟨x, y, e, rfl, hm⟩)]
  simp only
  rw [inferDay_first a s d h1 fun x y d' e hx hm => hno' x.length (by omega) d' ((dayStamp_iff _ _ _).mpr ⟨x, y, e, rfl, hm⟩)]
  exact unixTime_iff _ _ _ _ _ _

/-- C73: if there is neither, there is no time. -/
theorem c73_none {path : Bytes} (hno : ∀ j t, ¬ MinuteStamp path j t) (hno' : ∀ j d, ¬ DayStamp path j d) : inferTime path = none := by
  unfold inferTime
  rw [inferMinute_none _ none fun x y t e hm => hno x.length t ((minuteStamp_iff _ _ _).mpr ⟨x, y, e, rfl, hm⟩)]
  exact inferDay_none _ fun x y d e hm => hno' x.length d ((dayStamp_iff _ _ _).mpr ⟨x, y, e, rfl, hm⟩)

/-- C73: the calendar. Every date has exactly one day number, and dates outside the calendar have none. -/
theorem c73_calendar (d : Date) : (∃ n, DayNumber d n) ↔ DateOk d := by
  constructor
  · rintro ⟨n, h⟩; exact (dayNumber_no h).2
  · intro h; exact ⟨_, dayNumber_exists h⟩

/-- C73: the day number is unique. -/
theorem c73_unique {d : Date} {n n' : Int} (h : DayNumber d n) (h' : DayNumber d n') : n = n' := by
  rw [(dayNumber_no h).1, (dayNumber_no h').1]

/-- 1 July 2026. -/
theorem exDay : DayNumber ⟨2026, 7, 1⟩ 20635 := by
  have := dayNumber_exists (t := ⟨2026, 7, 1⟩) (by unfold DateOk; decide)
  rw [show dayNo ⟨2026, 7, 1⟩ = 20635 by decide] at this
  exact this

/-- the hypotheses of `c73_minute`. -/
example : MinuteStamp (ascii "oix-full-snapshot-2026-07-01-0000.bz2") 18 1782864000 := by
  refine ⟨ascii "oix-full-snapshot-", ascii "2026", ascii "07", ascii "01", ascii "00", ascii "00", ascii ".bz2", 2026, 7, 1, 0, 0,
    by decide +kernel, rfl, ⟨rfl, ?_⟩, ⟨rfl, ?_⟩, ⟨rfl, ?_⟩, ⟨rfl, ?_⟩, ⟨rfl, ?_⟩, ?_, ⟨by decide, by decide, _, exDay, by decide⟩⟩
  · exact ⟨by decide, by decide, by decide⟩
  · exact ⟨by decide, by decide, by decide⟩
  · exact ⟨by decide, by decide, by decide⟩
  · exact ⟨by decide, by decide, by decide⟩
  · exact ⟨by decide, by decide, by decide⟩
  · intro b hb
    have : (ascii "oix-full-snapshot-").getLast? = some 45 := by decide
    rw [this] at hb
    simp only [Option.some.injEq] at hb
    subst hb
    decide

/-- the hypotheses of `c73_day`. -/
example : DayStamp (ascii "2026.07/rib-ipv4.2026.07.01.gz") 17 ⟨2026, 7, 1⟩ := by
  refine ⟨ascii "2026.07/rib-ipv4.", ascii "2026", ascii "07", ascii "01", ascii ".gz", by decide +kernel, rfl, ⟨rfl, ?_⟩, ⟨rfl, ?_⟩, ⟨rfl, ?_⟩⟩
  · exact ⟨by decide, by decide, by decide⟩
  · exact ⟨by decide, by decide, by decide⟩
  · exact ⟨by decide, by decide, by decide⟩

/-- a time that is not in the calendar does not count; the next one does. -/
example : inferTime (ascii "2026-13-01-0000_2026-07-01-0000") = some 1782864000 := by decide +kernel

/-- C73 fails for dates: after one that is not in the calendar, the next one does not count. -/
theorem c73_violated : inferTime (ascii "2026.13.01/rib-ipv4.2026.07.01.gz") = none ∧
    inferTime (ascii "rib-ipv4.2026.07.01.gz") = some 1782907200 := by decide +kernel

end Verif.Props
