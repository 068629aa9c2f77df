import Verif.Spec.Cli
import Verif.Props.FilterIter
import Verif.Props.FilterText
import Verif.Props.Display

/-!
C85: what the command writes. The options choose what is shown; each element or record that passes the filters is shown
once, in order, and nothing else; totals are the numbers of what passes; recovery is summed up; a reader that goes away ends
the command quietly.
-/

namespace Verif.Props

open Spec

variable {ε α : Type}

theorem linesText_append (a b : List (List Char)) : linesText (a ++ b) = linesText a ++ linesText b := List.flatMap_append

/-- one step of a run with a general start. -/
structure LoopWrote (w : Nat → WriteRes) (st : CliState) (outs : List (List Char)) (evs : List (Except ε (Event α)))
    (recovering : Bool) (r : CliRun ε) (k : Nat) : Prop where
  le : k ≤ outs.length
  ok : ∀ i, i < k → w (st.index + i) = .ok
  lines : r.lines = st.lines ++ outs.take k
  totals : r.totals = []
  rest : (k = outs.length ∧ r.gaps = st.gaps ++ shownGaps evs ∧ r.ending = endingOf (firstError evs) ∧
      r.summary = (if recovering then some (st.gapCount + (gapTotals (shownGaps evs)).1, st.skipped + (gapTotals (shownGaps evs)).2) else none)) ∨
    (k < outs.length ∧ (∃ gs, gs <+: shownGaps evs ∧ r.gaps = st.gaps ++ gs) ∧ r.summary = none ∧
      (w (st.index + k) = .brokenPipe ∧ r.ending = .closed ∨ w (st.index + k) = .failed ∧ r.ending = .writeFailed))

theorem LoopWrote.gap {w : Nat → WriteRes} {st : CliState} {outs : List (List Char)} {evs : List (Except ε (Event α))} {rec : Bool}
    {r : CliRun ε} {k : Nat} {g : Gap} (h : LoopWrote w (st.observe g) outs evs rec r k) :
    LoopWrote w st outs (.ok (.gap g) :: evs) rec r k where
  le := h.le
  ok := h.ok
  lines := h.lines
  totals := h.totals
  rest := by
    rcases h.rest with ⟨h1, h2, h3, h4⟩ | ⟨h1, ⟨gs, h2, h3⟩, h4, h5⟩
    · refine .inl ⟨h1, ?_, h3, ?_⟩
      · rw [h2]; simp [CliState.observe, shownGaps]
      · rw [h4]; cases rec <;> simp [CliState.observe, gapTotals, shownGaps, Gap.skipped] <;> omega
    · refine .inr ⟨h1, ⟨g :: gs, ?_, ?_⟩, h4, h5⟩
      · exact List.cons_prefix_cons.2 ⟨rfl, h2⟩
      · rw [h3]; simp [CliState.observe]

theorem LoopWrote.item {w : Nat → WriteRes} {st : CliState} {outs : List (List Char)} {evs : List (Except ε (Event α))} {rec : Bool}
    {r : CliRun ε} {k : Nat} {t : List Char} {a : α} {st' : CliState} (h : LoopWrote w st' outs evs rec r k)
    (hl : st'.lines = st.lines ++ [t]) (hi : st'.index = st.index + 1) (hg : st'.gaps = st.gaps) (hc : st'.gapCount = st.gapCount)
    (hs : st'.skipped = st.skipped) (hw : w st.index = .ok) : LoopWrote w st (t :: outs) (.ok (.item a) :: evs) rec r (k + 1) where
  le := by simpa using h.le
  ok := by
    intro i hik
    cases i with
    | zero => exact hw
    | succ i =>
      have := h.ok i (by omega)
      rw [hi] at this
      rw [← this]; congr 1; omega
  lines := by rw [h.lines, hl]; simp
  totals := h.totals
  rest := by
    have he : st.index + (k + 1) = st'.index + k := by omega
    rw [he]
    rcases h.rest with ⟨h1, h2, h3, h4⟩ | ⟨h1, ⟨gs, h2, h3⟩, h4, h5⟩
    · exact .inl ⟨by simp [h1], by rw [h2, hg]; rfl, h3, by rw [h4, hc, hs]; rfl⟩
    · exact .inr ⟨by simpa using h1, ⟨gs, h2, by rw [h3, hg]⟩, h4, h5⟩

theorem LoopWrote.stop {w : Nat → WriteRes} {st st' : CliState} {outs : List (List Char)} {evs : List (Except ε (Event α))} {rec : Bool}
    {t : List Char} {e : Ending ε} (hl : st'.lines = st.lines) (hg : st'.gaps = st.gaps)
    (hw : w st.index = .brokenPipe ∧ e = .closed ∨ w st.index = .failed ∧ e = .writeFailed) :
    LoopWrote w st (t :: outs) evs rec (st'.stop e) 0 where
  le := Nat.zero_le _
  ok := fun i h => absurd h (Nat.not_lt_zero _)
  lines := by simp [CliState.stop, hl]
  totals := rfl
  rest := .inr ⟨by simp, ⟨[], List.nil_prefix, by simp [CliState.stop, hg]⟩, rfl, hw⟩

theorem LoopWrote.done {w : Nat → WriteRes} {st : CliState} {evs : List (Except ε (Event α))} {rec : Bool} {r : CliRun ε}
    (h1 : r.lines = st.lines) (h2 : r.gaps = st.gaps) (h3 : r.totals = []) (h4 : r.summary = st.summary rec)
    (h5 : r.ending = endingOf (firstError evs)) (h6 : shownGaps evs = []) : LoopWrote w st [] evs rec r 0 where
  le := Nat.le_refl _
  ok := fun i h => absurd h (Nat.not_lt_zero _)
  lines := by simp [h1]
  totals := h3
  rest := .inl ⟨rfl, by rw [h6, h2]; simp, h5, by rw [h6, h4]; rfl⟩

theorem LoopWrote.wrote {w : Nat → WriteRes} {outs : List (List Char)} {evs : List (Except ε (Event α))} {rec : Bool} {r : CliRun ε} {k : Nat}
    (h : LoopWrote w {} outs evs rec r k) {n : Nat} (hn : outs.length = n) (text : Nat → List Char)
    (ht : ∀ j, j ≤ n → linesText (outs.take j) = text j) : Wrote w n text evs rec r := by
  subst hn
  have hout : stdoutOf r = text k := by
    unfold stdoutOf
    rw [h.lines, h.totals, List.append_nil, List.nil_append]
    exact ht k h.le
  have hok : ∀ i, i < k → w i = .ok := fun i hi => by simpa using h.ok i hi
  rcases h.rest with ⟨h1, h2, h3, h4⟩ | ⟨h1, ⟨gs, h2, h3⟩, h4, h5⟩
  · subst h1
    exact .all hok hout (by simpa using h2) h3 (by simpa using h4)
  · exact .cut k h1 hok hout (by simpa using h5) (by rw [h3]; simpa using h2) h4

/-! ### elements -/

/-- the texts of the elements, with their numbers. -/
def numbered (t : Nat → α → List Char) (i : Nat) : List α → List (List Char)
  | [] => []
  | x :: l => t i x :: numbered t (i + 1) l

theorem numbered_length (t : Nat → α → List Char) (l : List α) : ∀ i, (numbered t i l).length = l.length := by
  induction l with
  | nil => intro i; rfl
  | cons x l ih => intro i; simp [numbered, ih]

theorem numbered_take (t : Nat → α → List Char) (l : List α) : ∀ i k, (numbered t i l).take k = numbered t i (l.take k) := by
  induction l with
  | nil => intro i k; simp [numbered]
  | cons x l ih =>
    intro i k
    cases k with
    | zero => rfl
    | succ k => simp [numbered, ih]

theorem numbered_const {t : Nat → α → List Char} {f : α → List Char} (l : List α) : ∀ i, (∀ j x, i ≤ j → t j x = f x) →
    numbered t i l = l.map f := by
  induction l with
  | nil => intro i _; rfl
  | cons x l ih =>
    intro i h
    simp only [numbered, List.map_cons, h i x (Nat.le_refl _)]
    rw [ih (i + 1) fun j x hj => h j x (by omega)]

theorem elemsLoop_write (w : Nat → WriteRes) (fmt : Nat → BgpElem → Option (List Char)) (t : Nat → BgpElem → List Char)
    (ht : ∀ i e, fmt i e = some (t i e)) (rec : Bool) (evs : List (Except ε (Event BgpElem))) : ∀ st,
    ∃ k, LoopWrote w st (numbered t st.index (shownItems evs)) evs rec (elemsLoop w fmt false rec evs st) k := by
  induction evs with
  | nil => intro st; exact ⟨0, .done rfl rfl rfl rfl rfl rfl⟩
  | cons x l ih =>
    intro st
    match x with
    | .error e => exact ⟨0, .done rfl rfl rfl rfl rfl rfl⟩
    | .ok (.gap g) =>
      obtain ⟨k, h⟩ := ih (st.observe g)
      exact ⟨k, h.gap⟩
    | .ok (.item e) =>
      show ∃ k, LoopWrote w st (t st.index e :: numbered t (st.index + 1) (shownItems l)) _ rec _ k
      simp only [elemsLoop, ht, Bool.false_eq_true, if_false]
      cases hw : w st.index with
      | ok =>
        obtain ⟨k, h⟩ := ih { st with elems := st.elems + 1, lines := st.lines ++ [t st.index e], index := st.index + 1 }
        exact ⟨k + 1, h.item rfl rfl rfl rfl rfl hw⟩
      | brokenPipe => exact ⟨0, .stop rfl rfl (.inl ⟨hw, rfl⟩)⟩
      | failed => exact ⟨0, .stop rfl rfl (.inr ⟨hw, rfl⟩)⟩

theorem elemsLoop_count (w : Nat → WriteRes) (fmt : Nat → BgpElem → Option (List Char)) (rec : Bool)
    (evs : List (Except ε (Event BgpElem))) : ∀ st,
    elemsLoop w fmt true rec evs st = ⟨st.lines, st.gaps ++ shownGaps evs,
      [lit "total elems: " ++ decText (st.elems + (shownItems evs).length)],
      if rec then some (st.gapCount + (gapTotals (shownGaps evs)).1, st.skipped + (gapTotals (shownGaps evs)).2) else none,
      endingOf (firstError evs)⟩ := by
  induction evs with
  | nil => intro st; simp [elemsLoop, elemsEnd, shownGaps, shownItems, gapTotals, firstError, endingOf, CliState.summary]
  | cons x l ih =>
    intro st
    match x with
    | .error e => simp [elemsLoop, elemsEnd, shownGaps, shownItems, gapTotals, firstError, endingOf, CliState.summary]
    | .ok (.gap g) =>
      rw [elemsLoop, ih]
      simp [CliState.observe, shownGaps, shownItems, gapTotals, firstError, Gap.skipped]
      cases rec <;> simp <;> omega
    | .ok (.item e) =>
      rw [elemsLoop]
      simp only [if_true]
      rw [ih]
      simp [shownGaps, shownItems, firstError, Nat.add_assoc, Nat.add_comm 1]

/-- C85: each element is shown once, in order, in the format chosen; PSV has one header. -/
theorem c85_elements (sh : ShowEnv) (oe : OutEnv) (w : Nat → WriteRes) (f : OutFormat) (hf : f ≠ .text) (recovering : Bool)
    (evs : List (Except ε (Event BgpElem))) :
    Wrote w (shownItems evs).length (fun k => linesText (elemLines sh oe f ((shownItems evs).take k))) evs recovering
      (runElems sh oe w f false recovering evs) := by
  let t : Nat → BgpElem → List Char := fun i e => if f = .psv ∧ i = 0 then psvHeader ++ ['\n'] ++ e.psv sh else elemLine sh oe f e
  have ht : ∀ i e, formatElem sh oe f i e = some (t i e) := by
    intro i e
    cases f <;> simp_all [formatElem, t, elemLine]
  obtain ⟨k, h⟩ := elemsLoop_write w _ t ht recovering evs {}
  refine h.wrote (numbered_length ..) _ ?_
  intro j _
  show linesText ((numbered t 0 _).take j) = linesText (elemLines sh oe f _)
  rw [numbered_take]
  generalize (shownItems evs).take j = l
  cases l with
  | nil => simp [numbered, elemLines]
  | cons e l =>
    rw [numbered, numbered_const (f := elemLine sh oe f) l 1 (fun j x hj => if_neg (by omega))]
    by_cases hp : f = .psv
    · subst hp; simp [t, elemLines, linesText, elemLine]
    · simp [t, elemLines, linesText, hp]

/-- C85: the total of elements. -/
theorem c85_elements_count (sh : ShowEnv) (oe : OutEnv) (w : Nat → WriteRes) (f : OutFormat) (recovering : Bool)
    (evs : List (Except ε (Event BgpElem))) :
    Counted [lit "total elems: " ++ decText (shownItems evs).length] evs recovering (runElems sh oe w f true recovering evs) := by
  unfold runElems
  rw [elemsLoop_count]
  constructor <;> simp [stdoutOf, linesText]

/-! ### records -/

theorem recordsLoop_write (w : Nat → WriteRes) (fmt : MrtRecord → List Char) (rec : Bool) (evs : List (Except ε (Event MrtRecord))) :
    ∀ st, ∃ k, LoopWrote w st ((shownItems evs).map fmt) evs rec (recordsLoop w fmt false false rec evs st) k := by
  induction evs with
  | nil => intro st; exact ⟨0, .done rfl rfl rfl rfl rfl rfl⟩
  | cons x l ih =>
    intro st
    match x with
    | .error e => exact ⟨0, .done rfl rfl rfl rfl rfl rfl⟩
    | .ok (.gap g) =>
      obtain ⟨k, h⟩ := ih (st.observe g)
      exact ⟨k, h.gap⟩
    | .ok (.item e) =>
      show ∃ k, LoopWrote w st (fmt e :: (shownItems l).map fmt) _ rec _ k
      simp only [recordsLoop, Bool.false_eq_true, if_false]
      cases hw : w st.index with
      | ok =>
        obtain ⟨k, h⟩ := ih { st with records := st.records + 1, lines := st.lines ++ [fmt e], index := st.index + 1 }
        exact ⟨k + 1, h.item rfl rfl rfl rfl rfl hw⟩
      | brokenPipe => exact ⟨0, .stop rfl rfl (.inl ⟨hw, rfl⟩)⟩
      | failed => exact ⟨0, .stop rfl rfl (.inr ⟨hw, rfl⟩)⟩

theorem elemsFrom_after (rs : List MrtRecord) (r : MrtRecord) (hist : List MrtRecord) :
    (elemsFrom hist (r :: rs)).length = ((after hist).recordToElems r).1.length + (elemsFrom (hist ++ [r]) rs).length := by
  rw [elemsFrom, List.length_append]; rfl

theorem recordsLoop_count (w : Nat → WriteRes) (fmt : MrtRecord → List Char) (ec rc rec : Bool) (hc : ec = true ∨ rc = true)
    (evs : List (Except ε (Event MrtRecord))) : ∀ st hist, (ec = true → st.elementor = after hist) →
    ∃ r, recordsLoop w fmt ec rc rec evs st = recordsEnd ec rc rec r (endingOf (firstError evs)) ∧ r.lines = st.lines ∧
      r.gaps = st.gaps ++ shownGaps evs ∧ r.records = st.records + (shownItems evs).length ∧
      (ec = true → r.elems = st.elems + (elemsFrom hist (shownItems evs)).length) ∧
      r.gapCount = st.gapCount + (gapTotals (shownGaps evs)).1 ∧ r.skipped = st.skipped + (gapTotals (shownGaps evs)).2 := by
  induction evs with
  | nil => intro st hist _; exact ⟨st, rfl, rfl, (List.append_nil _).symm, rfl, fun _ => rfl, rfl, rfl⟩
  | cons x l ih =>
    intro st hist hst
    match x with
    | .error e => exact ⟨st, rfl, rfl, (List.append_nil _).symm, rfl, fun _ => rfl, rfl, rfl⟩
    | .ok (.gap g) =>
      obtain ⟨r, h1, h2, h3, h4, h5, h6, h7⟩ := ih (st.observe g) hist hst
      refine ⟨r, h1, h2, ?_, h4, h5, ?_, ?_⟩
      · rw [h3]; simp [CliState.observe, shownGaps]
      · rw [h6]; simp [CliState.observe, shownGaps, gapTotals]; omega
      · rw [h7]; simp [CliState.observe, shownGaps, gapTotals, Gap.skipped]; omega
    | .ok (.item m) =>
      cases ec with
      | true =>
        obtain ⟨r, h1, h2, h3, h4, h5, h6, h7⟩ := ih { st with records := st.records + 1, elems := st.elems + (st.elementor.recordToElems m).1.length, elementor := (st.elementor.recordToElems m).2 } (hist ++ [m])
          (fun _ => by show (st.elementor.recordToElems m).2 = _; rw [hst rfl, after_append])
        refine ⟨r, h1, h2, h3, ?_, fun _ => ?_, h6, h7⟩
        · rw [h4]; simp only [shownItems, List.length_cons]; omega
        · rw [h5 rfl]
          simp only [shownItems]
          rw [elemsFrom_after, hst rfl]
          omega
      | false =>
        have hrc : rc = true := by simpa using hc
        subst hrc
        obtain ⟨r, h1, h2, h3, h4, h5, h6, h7⟩ := ih { st with records := st.records + 1 } hist (fun h => nomatch h)
        refine ⟨r, h1, h2, h3, ?_, (fun h => nomatch h), h6, h7⟩
        rw [h4]; simp only [shownItems, List.length_cons]; omega

/-- C85: each record is shown once, in order, in the format chosen. -/
theorem c85_records (oe : OutEnv) (w : Nat → WriteRes) (f : OutFormat) (recovering : Bool) (evs : List (Except ε (Event MrtRecord))) :
    Wrote w (shownItems evs).length (fun k => linesText (((shownItems evs).take k).map fun r => formatRecord oe f r none)) evs recovering
      (runRecords oe w f false false recovering evs) := by
  obtain ⟨k, h⟩ := recordsLoop_write w (fun r => formatRecord oe f r none) recovering evs {}
  exact h.wrote (List.length_map ..) _ fun j _ => by rw [List.map_take]

/-- C85: the totals of the records that are shown, and of all the elements in them. -/
theorem c85_records_count (oe : OutEnv) (w : Nat → WriteRes) (f : OutFormat) (ec rc recovering : Bool) (hc : ec = true ∨ rc = true)
    (evs : List (Except ε (Event MrtRecord))) :
    Counted (totalLines ec rc (shownItems evs)) evs recovering (runRecords oe w f ec rc recovering evs) := by
  obtain ⟨r, h1, h2, h3, h4, h5, h6, h7⟩ :=
    recordsLoop_count w (fun r => formatRecord oe f r none) ec rc recovering hc evs {} [] (fun _ => rfl)
  unfold runRecords
  rw [h1]
  have hl : r.lines = [] := h2
  have hr : r.records = (shownItems evs).length := by rw [h4]; exact Nat.zero_add _
  refine ⟨?_, by simpa [recordsEnd] using h3, rfl, ?_⟩
  · cases ec with
    | true =>
      have he : r.elems = elemTotal (shownItems evs) := by rw [h5 rfl]; exact Nat.zero_add _
      cases rc <;> simp [stdoutOf, linesText, totalLines, recordsEnd, hl, hr, he]
    | false =>
      cases rc <;> simp [stdoutOf, linesText, totalLines, recordsEnd, hl, hr]
  · have hg : r.gapCount = (gapTotals (shownGaps evs)).1 := by rw [h6]; exact Nat.zero_add _
    have hk : r.skipped = (gapTotals (shownGaps evs)).2 := by rw [h7]; exact Nat.zero_add _
    simp only [recordsEnd, CliState.summary, hg, hk]

/-! ### records with their bytes -/

theorem smallHex_encode (bs : Bytes) : SmallHex (hexEncode bs) bs := by
  induction bs with
  | nil => exact .nil
  | cons b bs ih =>
    have hd : ∀ i, i < 16 → "0123456789abcdef".toList[i]? = some ("0123456789abcdef".toList.getD i ' ') := by
      intro i hi
      rw [List.getD_eq_getElem?_getD]
      have : i < "0123456789abcdef".toList.length := by simpa using hi
      rw [List.getElem?_eq_getElem this]; rfl
    have hb := b.toNat_lt
    exact .cons (hd _ (by omega)) (hd _ (by omega)) ih

theorem smallHex_unique {a b : List Char} {bs : Bytes} (h : SmallHex a bs) : SmallHex b bs → a = b := by
  induction h generalizing b with
  | nil => intro h'; cases h'; rfl
  | cons h1 h2 _ ih =>
    intro h'
    cases h' with
    | cons g1 g2 g3 =>
      rw [h1] at g1; rw [h2] at g2
      cases g1; cases g2
      rw [ih g3]

theorem hexLoop_write (oe : OutEnv) (w : Nat → WriteRes) (f : OutFormat) (l : List (Raw × MrtRecord)) : ∀ st,
    ∃ k, LoopWrote w st (l.map fun p => formatRecord oe f p.2 (some (hexEncode p.1.bytes)))
      (l.map fun p => (.ok (.item p.2) : Except ε (Event MrtRecord))) false (hexLoop oe w f l st : CliRun ε) k := by
  induction l with
  | nil => intro st; exact ⟨0, .done rfl rfl rfl rfl rfl rfl⟩
  | cons p l ih =>
    obtain ⟨raw, r⟩ := p
    intro st
    simp only [List.map_cons, hexLoop]
    cases hw : w st.index with
    | ok =>
      obtain ⟨k, h⟩ := ih { st with lines := st.lines ++ [formatRecord oe f r (some (hexEncode raw.bytes))], index := st.index + 1 }
      exact ⟨k + 1, h.item rfl rfl rfl rfl rfl hw⟩
    | brokenPipe => exact ⟨0, .stop rfl rfl (.inl ⟨hw, rfl⟩)⟩
    | failed => exact ⟨0, .stop rfl rfl (.inr ⟨hw, rfl⟩)⟩

/-- C85: with `--hex` each record is shown with its bytes, two small hexadecimal digits for each. -/
theorem c85_hex (oe : OutEnv) (w : Nat → WriteRes) (f : OutFormat) (l : List (Raw × MrtRecord)) (hx : Bytes → List Char)
    (hhx : ∀ bs, SmallHex (hx bs) bs) :
    Wrote w l.length (fun k => linesText ((l.take k).map fun p => formatRecord oe f p.2 (some (hx p.1.bytes))))
      ([] : List (Except ε (Event MrtRecord))) false (runHex oe w f l) := by
  obtain ⟨k, h⟩ := hexLoop_write (ε := ε) oe w f l {}
  have hg : ∀ l : List (Raw × MrtRecord), shownGaps (l.map fun p => (.ok (.item p.2) : Except ε (Event MrtRecord))) = [] ∧
      firstError (l.map fun p => (.ok (.item p.2) : Except ε (Event MrtRecord))) = none := by
    intro l
    induction l with
    | nil => exact ⟨rfl, rfl⟩
    | cons p l ih => exact ih
  have h' := h.wrote (n := l.length) (List.length_map ..) (fun k => linesText ((l.take k).map fun p => formatRecord oe f p.2 (some (hx p.1.bytes)))) (by
    intro j _
    simp only [List.map_take]
    congr 2
    exact List.map_congr_left fun p _ => by rw [smallHex_unique (hhx p.1.bytes) (smallHex_encode _)])
  rcases h' with ⟨a1, a2, a3, a4, a5⟩ | ⟨k, a1, a2, a3, a4, a5, a6⟩
  · exact .all a1 a2 (a3.trans (hg l).1) (a4.trans (by rw [(hg l).2]; rfl)) (by rw [(hg l).1] at a5; exact a5)
  · exact .cut k a1 a2 a3 a4 (by rw [(hg l).1] at a5; exact a5) a6

/-! ### the whole command -/

theorem shown_items (l : List α) : shownItems (l.map fun a => (.ok (.item a) : Except ε (Event α))) = l ∧
    shownGaps (l.map fun a => (.ok (.item a) : Except ε (Event α))) = [] ∧
    firstError (l.map fun a => (.ok (.item a) : Except ε (Event α))) = none := by
  induction l with
  | nil => exact ⟨rfl, rfl, rfl⟩
  | cons a l ih => exact ⟨congrArg (a :: ·) ih.1, ih.2⟩

theorem wrote_forget {w : Nat → WriteRes} {n : Nat} {text : Nat → List Char} {l : List α} {r : CliRun ε}
    (h : Wrote w n text (l.map fun a => (.ok (.item a) : Except ε (Event α))) false r) :
    Wrote w n text ([] : List (Except ε (Event α))) false r := by
  obtain ⟨_, h2, h3⟩ := shown_items (ε := ε) l
  rcases h with ⟨a1, a2, a3, a4, a5⟩ | ⟨k, a1, a2, a3, a4, a5, a6⟩
  · exact .all a1 a2 (a3.trans h2) (a4.trans (by rw [h3]; rfl)) a5
  · exact .cut k a1 a2 a3 a4 (by rw [h2] at a5; exact a5) a6

theorem pipeline_elems {o : CliOpts} (h : o.hex = false) (h1 : o.counting = false) (h2 : o.records = false) (h3 : o.out ≠ .text) :
    o.pipeline = .ok (.elems o.recover) ∧ o.elemsCount = false := by
  have hc : o.elemsCount = false ∧ o.recordsCount = false := by simpa [CliOpts.counting] using h1
  simp [CliOpts.pipeline, CliOpts.elemStream, h, h2, hc.1, hc.2, h3]

theorem pipeline_records {o : CliOpts} (h : o.hex = false) (h1 : o.counting = false) (h2 : o.records = true ∨ o.out = .text) :
    o.pipeline = .ok (.records o.recover) ∧ o.elemsCount = false ∧ o.recordsCount = false := by
  have hc : o.elemsCount = false ∧ o.recordsCount = false := by simpa [CliOpts.counting] using h1
  have he : o.elemStream = false := by
    rcases h2 with h2 | h2 <;> simp [CliOpts.elemStream, h2, hc.1, hc.2]
  simp [CliOpts.pipeline, he, h, hc.1, hc.2]

theorem pipeline_elem_count {o : CliOpts} (h1 : o.elemsCount = true) (h2 : o.recordsCount = false) (h3 : o.out ≠ .text) :
    o.pipeline = .ok (.elems o.recover) := by
  simp [CliOpts.pipeline, CliOpts.elemStream, CliOpts.counting, h1, h2, h3]

theorem pipeline_record_count {o : CliOpts} (h1 : o.recordsCount = true) : o.pipeline = .ok (.records o.recover) := by
  simp [CliOpts.pipeline, CliOpts.elemStream, CliOpts.counting, h1]

/-- C85: by default the command shows the elements of the file that pass the filters, in order, and ends well. -/
theorem c85_main_elements (env : TextEnv) (sh : ShowEnv) (oe : OutEnv) (w : Nat → WriteRes) (pol pol' : Pol) (fo : FilterOpts)
    (o : CliOpts) (s : Src) (fs : List (Filter env.Rx)) (hfs : fo.all env sh = .ok fs)
    (ho : o.hex = false ∧ o.counting = false ∧ o.records = false ∧ o.out ≠ .text ∧ o.recover = false)
    (m n : Nat) (hm : (toks s.evs).length < m) :
    let wanted := (elemsFrom [] (forLoop (defaultIter keepAll false pol') m ((), s)).1).filter fun e => e.matchFilters env fs
    wanted.length < n →
    ∃ r, cliMain env sh oe w pol n fo o s = .ok r ∧
      Wrote w wanted.length (fun k => linesText (elemLines sh oe o.out (wanted.take k))) ([] : List (Except RecoveryError (Event BgpElem)))
        false r := by
  intro wanted hn
  obtain ⟨hp, hec⟩ := pipeline_elems ho.1 ho.2.1 ho.2.2.1 ho.2.2.2.1
  rw [ho.2.2.2.2] at hp
  refine ⟨_, by simp only [cliMain, hfs, hp]; rfl, ?_⟩
  have hk := (c37_elems env fs false pol pol' s m hm n).1
  rw [hk, hec, List.take_of_length_le (by show wanted.length ≤ n; omega)]
  have := c85_elements (ε := RecoveryError) sh oe w o.out ho.2.2.2.1 false (wanted.map fun e => .ok (.item e))
  rw [(shown_items wanted).1] at this
  exact wrote_forget this

/-- C85: `--elems-count` counts the elements of the file that pass the filters. -/
theorem c85_main_elements_count (env : TextEnv) (sh : ShowEnv) (oe : OutEnv) (w : Nat → WriteRes) (pol pol' : Pol) (fo : FilterOpts)
    (o : CliOpts) (s : Src) (fs : List (Filter env.Rx)) (hfs : fo.all env sh = .ok fs)
    (ho : o.elemsCount = true ∧ o.recordsCount = false ∧ o.out ≠ .text ∧ o.recover = false)
    (m n : Nat) (hm : (toks s.evs).length < m) :
    let wanted := (elemsFrom [] (forLoop (defaultIter keepAll false pol') m ((), s)).1).filter fun e => e.matchFilters env fs
    wanted.length < n →
    ∃ r, cliMain env sh oe w pol n fo o s = .ok r ∧ stdoutOf r = linesText [lit "total elems: " ++ decText wanted.length] ∧
      r.status = 0 := by
  intro wanted hn
  have hp := pipeline_elem_count ho.1 ho.2.1 ho.2.2.1
  rw [ho.2.2.2] at hp
  refine ⟨_, by simp only [cliMain, hfs, hp]; rfl, ?_⟩
  have hk := (c37_elems env fs false pol pol' s m hm n).1
  rw [hk, ho.1, List.take_of_length_le (by show wanted.length ≤ n; omega)]
  have := c85_elements_count (ε := RecoveryError) sh oe w o.out false (wanted.map fun e => .ok (.item e))
  have h3 := this.ending
  have h1 := this.out
  rw [(shown_items wanted).2.2] at h3
  rw [(shown_items wanted).1] at h1
  refine ⟨h1, ?_⟩
  unfold CliRun.status
  rw [h3]; rfl

/-- the records of the file that the filters leave: all of them if there is no filter. -/
def Left (env : TextEnv) (fs : List (Filter env.Rx)) (all out : List MrtRecord) : Prop :=
  (fs ≠ [] → Kept (fun e => e.matchFilters env fs = true) [] all out) ∧ (fs = [] → out = all)

/-- C85: with `--level records`, or in the text format, the command shows the records of the file that have an element
that passes the filters, and peer index tables. -/
theorem c85_main_records (env : TextEnv) (sh : ShowEnv) (oe : OutEnv) (w : Nat → WriteRes) (pol pol' : Pol) (fo : FilterOpts)
    (o : CliOpts) (s : Src) (fs : List (Filter env.Rx)) (hfs : fo.all env sh = .ok fs)
    (ho : o.hex = false ∧ o.counting = false ∧ (o.records = true ∨ o.out = .text) ∧ o.recover = false)
    (m n : Nat) (hm : (toks s.evs).length < m) (hn : (toks s.evs).length < n) :
    ∃ r wanted, cliMain env sh oe w pol n fo o s = .ok r ∧
      Left env fs (forLoop (defaultIter keepAll false pol') m ((), s)).1 wanted ∧
      Wrote w wanted.length (fun k => linesText ((wanted.take k).map fun r => formatRecord oe o.out r none))
        ([] : List (Except RecoveryError (Event MrtRecord))) false r := by
  obtain ⟨hp, hec, hrc⟩ := pipeline_records ho.1 ho.2.1 ho.2.2.1
  rw [ho.2.2.2] at hp
  refine ⟨_, _, by simp only [cliMain, hfs, hp]; rfl, c37_records env fs false pol pol' s n m hn hm, ?_⟩
  generalize (forLoop (defaultIter (filterKeep env fs) false pol) n (Elementor.new, s)).1 = wanted
  rw [hec, hrc]
  have := c85_records (ε := RecoveryError) oe w o.out false (wanted.map fun e => .ok (.item e))
  rw [(shown_items wanted).1] at this
  exact wrote_forget this

/-- C85: `--records-count` counts those records, and with `--elems-count` also all the elements in them. -/
theorem c85_main_records_count (env : TextEnv) (sh : ShowEnv) (oe : OutEnv) (w : Nat → WriteRes) (pol pol' : Pol) (fo : FilterOpts)
    (o : CliOpts) (s : Src) (fs : List (Filter env.Rx)) (hfs : fo.all env sh = .ok fs)
    (ho : o.recordsCount = true ∧ o.recover = false)
    (m n : Nat) (hm : (toks s.evs).length < m) (hn : (toks s.evs).length < n) :
    ∃ r wanted, cliMain env sh oe w pol n fo o s = .ok r ∧
      Left env fs (forLoop (defaultIter keepAll false pol') m ((), s)).1 wanted ∧
      stdoutOf r = linesText (totalLines o.elemsCount true wanted) ∧ r.status = 0 := by
  have hp := pipeline_record_count ho.1
  rw [ho.2] at hp
  refine ⟨_, _, by simp only [cliMain, hfs, hp]; rfl, c37_records env fs false pol pol' s n m hn hm, ?_⟩
  generalize (forLoop (defaultIter (filterKeep env fs) false pol) n (Elementor.new, s)).1 = wanted
  rw [ho.1]
  have := c85_records_count (ε := RecoveryError) oe w o.out o.elemsCount true false (.inr rfl) (wanted.map fun e => .ok (.item e))
  have h3 := this.ending
  have h1 := this.out
  rw [(shown_items wanted).2.2] at h3
  rw [(shown_items wanted).1] at h1
  refine ⟨h1, ?_⟩
  unfold CliRun.status
  rw [h3]; rfl

/-- C85: with `--hex` (in JSON or text, without recovery or counting) the same records are shown, each with the bytes it was
read from: they are bytes that give this record. -/
theorem c85_main_hex (env : TextEnv) (sh : ShowEnv) (oe : OutEnv) (w : Nat → WriteRes) (pol pol' : Pol) (fo : FilterOpts)
    (o : CliOpts) (s : Src) (fs : List (Filter env.Rx)) (hfs : fo.all env sh = .ok fs)
    (ho : o.hex = true ∧ o.counting = false ∧ (o.out = .json ∨ o.out = .jsonPretty ∨ o.out = .text) ∧ o.recover = false)
    (m n : Nat) (hm : (toks s.evs).length < m) (hn : (toks s.evs).length < n) (hx : Bytes → List Char)
    (hhx : ∀ bs, SmallHex (hx bs) bs) :
    ∃ r, ∃ wanted : List (Raw × MrtRecord), cliMain env sh oe w pol n fo o s = .ok r ∧
      Left env fs (forLoop (defaultIter keepAll false pol') m ((), s)).1 (wanted.map Prod.snd) ∧
      (∀ p ∈ wanted, p.1.parse = .ok p.2 ∧ Frame p.1 p.1.bytes) ∧
      Wrote w wanted.length (fun k => linesText ((wanted.take k).map fun p => formatRecord oe o.out p.2 (some (hx p.1.bytes))))
        ([] : List (Except RecoveryError (Event MrtRecord))) false r := by
  have hp : o.pipeline = .ok .hex := by
    obtain ⟨h1, h2, h3, h4⟩ := ho
    rcases h3 with h3 | h3 | h3 <;> simp [CliOpts.pipeline, h1, h2, h3, h4]
  refine ⟨_, _, by simp only [cliMain, hfs, hp]; rfl, c37_raw_records env fs false pol pol' s n m hn hm,
    (c25_filtered_raw (filterKeep env fs) Elementor.new false pol s n).2, ?_⟩
  exact c85_hex oe w o.out _ hx hhx

/-- C85: with `--recover` the elements or records are those of the recovering iterators, with its gaps, and the end says how
many gaps there were and how many bytes were skipped. -/
theorem c85_main_recovering (env : TextEnv) (sh : ShowEnv) (oe : OutEnv) (w : Nat → WriteRes) (pol : Pol) (fo : FilterOpts)
    (o : CliOpts) (s : Src) (n : Nat) (fs : List (Filter env.Rx)) (hfs : fo.all env sh = .ok fs)
    (ho : o.hex = false ∧ o.counting = false ∧ o.recover = true) :
    ∃ r, cliMain env sh oe w pol n fo o s = .ok r ∧
      (o.records = false ∧ o.out ≠ .text →
        let evs := (forLoop (recoveringElemNext env fs {} pol) n (.new false s)).1
        Wrote w (shownItems evs).length (fun k => linesText (elemLines sh oe o.out ((shownItems evs).take k))) evs true r) ∧
      (o.records = true ∨ o.out = .text →
        let evs := (forLoop (recoveringNext (filterKeep env fs) {} pol) n (.new false .new s)).1
        Wrote w (shownItems evs).length (fun k => linesText (((shownItems evs).take k).map fun r => formatRecord oe o.out r none)) evs true r) := by
  by_cases h : o.records = true ∨ o.out = .text
  · obtain ⟨hp, hec, hrc⟩ := pipeline_records ho.1 ho.2.1 h
    rw [ho.2.2] at hp
    refine ⟨_, by simp only [cliMain, hfs, hp]; rfl, ?_, fun _ => ?_⟩
    · rintro ⟨h1, h2⟩
      rcases h with h | h
      · rw [h] at h1; cases h1
      · exact absurd h h2
    · rw [hec, hrc]
      exact c85_records oe w o.out true _
  · have h1 : o.records = false := by
      cases hr : o.records with
      | false => rfl
      | true => exact absurd (.inl hr) h
    have h2 : o.out ≠ .text := fun ht => h (.inr ht)
    obtain ⟨hp, hec⟩ := pipeline_elems ho.1 ho.2.1 h1 h2
    rw [ho.2.2] at hp
    refine ⟨_, by simp only [cliMain, hfs, hp]; rfl, fun _ => ?_, fun h' => absurd h' h⟩
    rw [hec]
    exact c85_elements sh oe w o.out h2 true _

/-- C85: `--hex` is refused, before anything is read, where it cannot be shown. -/
theorem c85_hex_refused (env : TextEnv) (sh : ShowEnv) (oe : OutEnv) (w : Nat → WriteRes) (pol : Pol) (fo : FilterOpts) (o : CliOpts)
    (s : Src) (n : Nat) (fs : List (Filter env.Rx)) (hfs : fo.all env sh = .ok fs) (h : o.hex = true) (hc : o.counting = false) :
    cliMain env sh oe w pol n fo o s = .error .exit ↔ o.recover = true ∨ o.out = .psv ∨ o.out = .default := by
  simp only [cliMain, hfs]
  cases hout : o.out <;> cases hr : o.recover <;> simp [CliOpts.pipeline, h, hc, hout, hr]

/-- C85: the command never reaches its `unreachable!`. -/
theorem c85_no_panic (env : TextEnv) (sh : ShowEnv) (oe : OutEnv) (w : Nat → WriteRes) (pol : Pol) (fo : FilterOpts) (o : CliOpts)
    (s : Src) (n : Nat) (r : CliRun RecoveryError) (h : cliMain env sh oe w pol n fo o s = .ok r) : r.ending ≠ .panic := by
  have hw : ∀ {α : Type} {n : Nat} {t : Nat → List Char} {evs : List (Except RecoveryError (Event α))} {b : Bool} {r : CliRun RecoveryError},
      Wrote w n t evs b r → r.ending ≠ .panic := by
    intro α n t evs b r h
    rcases h with ⟨_, _, _, h, _⟩ | ⟨_, _, _, _, h, _⟩
    · rw [h]; cases firstError evs <;> exact nofun
    · rcases h with ⟨_, h⟩ | ⟨_, h⟩ <;> rw [h] <;> exact nofun
  have hcn : ∀ {α : Type} {t : List (List Char)} {evs : List (Except RecoveryError (Event α))} {b : Bool} {r : CliRun RecoveryError},
      Counted t evs b r → r.ending ≠ .panic := by
    intro α t evs b r h
    rw [h.ending]; cases firstError evs <;> exact nofun
  have helems : ∀ evs b, (o.out ≠ .text) → (runElems sh oe w o.out o.elemsCount b evs).ending ≠ (.panic : Ending RecoveryError) := by
    intro evs b hf
    cases o.elemsCount with
    | true => exact hcn (c85_elements_count sh oe w o.out b evs)
    | false => exact hw (c85_elements sh oe w o.out hf b evs)
  have hrecs : ∀ evs b, (runRecords oe w o.out o.elemsCount o.recordsCount b evs).ending ≠ (.panic : Ending RecoveryError) := by
    intro evs b
    cases he : o.elemsCount with
    | true => exact hcn (c85_records_count oe w o.out true o.recordsCount b (.inl rfl) evs)
    | false =>
      cases hr : o.recordsCount with
      | true => exact hcn (c85_records_count oe w o.out false true b (.inr rfl) evs)
      | false => exact hw (c85_records oe w o.out b evs)
  unfold cliMain at h
  cases hf : fo.all env sh with
  | error e => rw [hf] at h; cases h
  | ok fs =>
    rw [hf] at h
    simp only at h
    have htext : ∀ b, o.pipeline = .ok (.elems b) → o.out ≠ .text := by
      intro b hp ht
      unfold CliOpts.pipeline at hp
      have : o.elemStream = false := by simp [CliOpts.elemStream, ht]
      rw [this] at hp
      split at hp <;> try cases hp
      split at hp <;> try cases hp
      split at hp <;> try cases hp
    cases hp : o.pipeline with
    | error e => rw [hp] at h; cases h
    | ok p =>
      rw [hp] at h
      match p with
      | .hex => cases h; exact hw (c85_hex oe w o.out _ hexEncode smallHex_encode)
      | .elems true => cases h; exact helems _ _ (htext _ hp)
      | .elems false => cases h; exact helems _ _ (htext _ hp)
      | .records true => cases h; exact hrecs _ _
      | .records false => cases h; exact hrecs _ _

/-- Which format is used. -/
theorem c85_format (o : CliOpts) (f : OutFormat) : o.out = f ↔ FormatOf o f := by
  have h : FormatOf o o.out := by
    unfold CliOpts.out
    cases h1 : o.pretty with
    | true => exact .pretty h1
    | false =>
      cases h2 : o.json with
      | true => exact .json h1 h2
      | false =>
        cases h3 : o.psv with
        | true => exact .psv h1 h2 h3
        | false => exact .named h1 h2 h3
  constructor
  · rintro rfl
    exact h
  · intro g
    cases g <;> simp_all [CliOpts.out]

/-- The exit status of a run that writes: 0 if all is written and there was no error, or if the reader has gone away; 1 if the iterator ended
with an error or a write failed. -/
theorem c85_status {w : Nat → WriteRes} {total : Nat} {text : Nat → List Char} {evs : List (Except ε (Event α))} {recovering : Bool} {r : CliRun ε}
    (h : Wrote w total text evs recovering r) :
    ((∀ i, i < total → w i = .ok) → (firstError evs = none → r.status = 0) ∧ (firstError evs ≠ none → r.status = 1)) ∧
      ∀ k, k < total → (∀ i, i < k → w i = .ok) → (w k = .brokenPipe → r.status = 0) ∧ (w k = .failed → r.status = 1) := by
  cases h with
  | all h1 _ _ h2 _ =>
    constructor
    · intro _
      unfold CliRun.status
      rw [h2]
      cases firstError evs with
      | none => exact ⟨fun _ => rfl, fun h => absurd rfl h⟩
      | some e => exact ⟨(fun h => nomatch h), fun _ => rfl⟩
    · intro k hk _
      rw [h1 k hk]
      exact ⟨(fun h => nomatch h), (fun h => nomatch h)⟩
  | cut j hj h1 _ h2 _ _ =>
    constructor
    · intro h
      rw [h j hj] at h2
      rcases h2 with ⟨h2, _⟩ | ⟨h2, _⟩ <;> cases h2
    · intro k hk hok
      rcases Nat.lt_trichotomy k j with h | rfl | h
      · rw [h1 k h]
        exact ⟨(fun h => nomatch h), (fun h => nomatch h)⟩
      · unfold CliRun.status
        rcases h2 with ⟨h2, h3⟩ | ⟨h2, h3⟩ <;> rw [h2, h3]
        · exact ⟨fun _ => rfl, (fun h => nomatch h)⟩
        · exact ⟨(fun h => nomatch h), fun _ => rfl⟩
      · rw [hok j h] at h2
        rcases h2 with ⟨h2, _⟩ | ⟨h2, _⟩ <;> cases h2

/-! ### examples, and where the totals differ -/

/-- a BGP4MP record whose update announces 11.0.0.0/8 and withdraws 10.0.0.0/8. -/
def c85Bytes : Bytes :=
  [0, 0, 0, 9, 0, 16, 0, 4, 0, 0, 0, 47] ++ [0, 0, 0, 1, 0, 0, 0, 2, 0, 0, 0, 1, 192, 0, 2, 1, 192, 0, 2, 2] ++
  List.replicate 16 255 ++ [0, 27, 2, 0, 2, 8, 10, 0, 0, 8, 11]

def c85Env : OutEnv := ⟨fun _ => [], fun _ => [], fun _ _ => [], fun _ _ => [], fun _ _ => [], fun _ => lit "record"⟩

/-- the standard output of a run on `c85Bytes` (its first byte is the 0 of the event), read with all writes successful up to the `k`th, which finds the pipe closed. -/
def c85Run (k : Nat) (fo : FilterOpts) (o : CliOpts) : Except CliStop (List Char × Nat) :=
  (cliMain exEnv showEnv c85Env (fun i => if i = k then .brokenPipe else .ok) (fun n _ => n) 99 fo o ⟨[.data 0 (c85Bytes.drop 1)], none⟩).map
    fun r => (stdoutOf r, r.status)

/-- PSV: a header, and one line for each element. A closed pipe is no error. -/
theorem c85_example :
    (c85Run 99 {} { psv := true }).map (fun r => (r.1.count '\n', r.2)) = .ok (3, 0) ∧
    (c85Run 1 {} { psv := true }).map (fun r => (r.1.count '\n', r.2)) = .ok (2, 0) ∧
    (c85Run 99 { elemType := some "w".toList } { psv := true }).map (fun r => (r.1.count '\n', r.2)) = .ok (2, 0) ∧
    c85Run 99 {} { records := true } = .ok ("record\n".toList, 0) ∧
    c85Run 99 {} { hex := true } = .error .exit := by decide +kernel

/-- C85 fails here: `-e` counts the elements that pass the filters, but not if the text format is chosen: then, as with `-r`,
it counts all the elements of the records that are left. -/
theorem c85_violation_count :
    c85Run 99 { elemType := some "w".toList } { elemsCount := true } = .ok ("total elems: 1\n".toList, 0) ∧
    c85Run 99 { elemType := some "w".toList } { elemsCount := true, format := .text } = .ok ("total elems: 2\n".toList, 0) ∧
    c85Run 99 { elemType := some "w".toList } { elemsCount := true, recordsCount := true } =
      .ok ("total records: 1\ntotal elems:   2\n".toList, 0) := by decide +kernel

end Verif.Props
