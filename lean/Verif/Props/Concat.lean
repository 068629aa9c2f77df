import Verif.Spec.Concat
import Verif.Props.Route
import Verif.Props.Updates
import Verif.Props.Mrt
import Verif.Lemmas.NoEof
/-
C101: files one behind the other.
-/
namespace Verif.Props
open Spec

/-! ### iterators and their lists -/

/-- An iterator gives one list only. -/
theorem c101_unique {next : S → Option α × S} {s : S} {l l' : List α} (h : HandsOut next s l) (h' : HandsOut next s l') : l = l' := by
  have h1 := (h (l.length + l'.length)).1
  have h2 := (h' (l.length + l'.length)).1
  rw [h1, List.take_of_length_le (by omega), List.take_of_length_le (by omega)] at h2
  exact h2

/-! ### tokens -/

theorem chunkT_end : ∃ e t, chunkT none [] = (.error e, t) ∧ e.error = .eofExpected := ⟨_, _, rfl, rfl⟩

theorem joined_nextT_end : ∃ e t, nextT none [] = (.error e, t) ∧ e.error = .eofExpected := ⟨_, _, rfl, rfl⟩

theorem joined_byteToks_append (a b : Bytes) : byteToks (a ++ b) = byteToks a ++ byteToks b := by simp [byteToks]

theorem goesOn_passed {cd : Bool} {raw : Raw} (h : Passed cd raw) {e : Err} (he : raw.parse = .error e) : goesOn cd e = true := by
  obtain ⟨h1, h2⟩ := h e he
  cases e <;> first
    | rfl
    | (exfalso; revert h1; decide)
    | (cases cd with
       | false => rfl
       | true => exact absurd rfl (h2 rfl))

theorem nextT_frame (k : Option Bool) {t : List Tok} {r : Raw} {b : Bytes} (h : Frame r b) :
    nextT k (byteToks b ++ t) = match r.parse with
      | .ok m => (.ok m, t)
      | .error e => (.error ⟨e, some r.bytes⟩, t) := by
  rw [nextT, chunkT_complete k h]
  rfl

theorem rawsD_append {cd : Bool} {k : Option Bool} {t : List Tok} {l : List Raw} {rs : List Raw} {b : Bytes} (hb : Blocks Frame rs b)
    (h : RawsD cd k t l) : RawsD cd k (byteToks b ++ t) (rs ++ l) := by
  induction hb with
  | nil => exact h
  | cons hf _ ih =>
    rw [joined_byteToks_append, List.append_assoc]
    exact .ok (chunkT_complete k hf) ih

theorem recsD_append {cd : Bool} {k : Option Bool} {t : List Tok} {l : List Item} {rs : List Raw} {b : Bytes} (hb : Blocks Frame rs b)
    (hq : ∀ r ∈ rs, Passed cd r) (h : RecsD cd k t l) : RecsD cd k (byteToks b ++ t) ((rs.flatMap recordsOf).map .ok ++ l) := by
  induction hb with
  | nil => exact h
  | @cons r rs c s hf _ ih =>
    have ih := ih (fun r hr => hq r (List.mem_cons_of_mem _ hr))
    rw [joined_byteToks_append, List.append_assoc]
    have hn := nextT_frame k (t := byteToks s ++ t) hf
    cases hp : r.parse with
    | ok m =>
      rw [hp] at hn
      have : (r :: rs).flatMap recordsOf = m :: rs.flatMap recordsOf := by simp [recordsOf, hp]
      rw [this]
      exact .ok hn ih
    | error e =>
      rw [hp] at hn
      have : (r :: rs).flatMap recordsOf = rs.flatMap recordsOf := by simp [recordsOf, hp]
      rw [this]
      exact .skip hn (goesOn_passed (hq r List.mem_cons_self) hp) ih

/-- what fallible iteration says about a raw record. -/
def itemOf (raw : Raw) : Item :=
  match raw.parse with
  | .ok r => .ok r
  | .error e => .error ⟨e, some raw.bytes⟩

/-- no record is taken for the end of the file. -/
theorem parse_not_end (raw : Raw) : raw.parse ≠ .error .eofExpected := rawParse_noEof raw

theorem recsF_append {k : Option Bool} {t : List Tok} {l : List Item} {rs : List Raw} {b : Bytes} (hb : Blocks Frame rs b)
    (h : RecsF k t l) : RecsF k (byteToks b ++ t) (rs.map itemOf ++ l) := by
  induction hb with
  | nil => exact h
  | @cons r rs c s hf _ ih =>
    rw [joined_byteToks_append, List.append_assoc]
    have hn := nextT_frame k (t := byteToks s ++ t) hf
    simp only [List.map_cons, List.cons_append, itemOf]
    cases hp : r.parse with
    | ok m => rw [hp] at hn; exact .ok hn ih
    | error e =>
      rw [hp] at hn
      exact .error hn (by rintro rfl; exact parse_not_end r hp) ih

theorem rawsF_append {k : Option Bool} {t : List Tok} {l : List (Except RecErr Raw)} {rs : List Raw} {b : Bytes} (hb : Blocks Frame rs b)
    (h : RawsF k t l) : RawsF k (byteToks b ++ t) (rs.map .ok ++ l) := by
  induction hb with
  | nil => exact h
  | cons hf _ ih =>
    rw [joined_byteToks_append, List.append_assoc]
    exact .ok (chunkT_complete k hf) ih

theorem rawsD_file {cd : Bool} {rs : List Raw} {b : Bytes} (hb : Blocks Frame rs b) : RawsD cd none (byteToks b) rs := by
  obtain ⟨e, t, h1, h2⟩ := chunkT_end
  have := rawsD_append (cd := cd) hb (.stop h1 (by rw [h2]; rfl))
  simpa using this

theorem joined_recsD_file {cd : Bool} {rs : List Raw} {b : Bytes} (hb : Blocks Frame rs b) (hq : ∀ r ∈ rs, Passed cd r) :
    RecsD cd none (byteToks b) ((rs.flatMap recordsOf).map .ok) := by
  obtain ⟨e, t, h1, h2⟩ := joined_nextT_end
  have := recsD_append hb hq (.stop h1 (by rw [h2]; rfl))
  simpa using this

theorem recsF_file {rs : List Raw} {b : Bytes} (hb : Blocks Frame rs b) : RecsF none (byteToks b) (rs.map itemOf) := by
  obtain ⟨e, t, h1, h2⟩ := joined_nextT_end
  have := recsF_append hb (.stop h1 h2)
  simpa using this

theorem rawsF_file {rs : List Raw} {b : Bytes} (hb : Blocks Frame rs b) : RawsF none (byteToks b) (rs.map .ok) := by
  obtain ⟨e, t, h1, h2⟩ := chunkT_end
  have := rawsF_append hb (.stop h1 h2)
  simpa using this

/-! ### the elementor -/

theorem elems_indep (el el' : Elementor) (r : MrtRecord) (h : ∀ t, r.message ≠ .tableDumpV2 (.ribAfi t)) :
    (el.recordToElems r).1 = (el'.recordToElems r).1 := by
  obtain ⟨hd, m⟩ := r
  cases m with
  | tableDumpV2 m =>
    cases m with
    | ribAfi t => exact absurd rfl (h t)
    | _ => rfl
  | bgp4mp m => cases m <;> rfl
  | legacyBgp m => cases m <;> rfl
  | _ => rfl

theorem state_same (el : Elementor) (r : MrtRecord) (h : ¬ IsTable r) : (el.recordToElems r).2 = el := by
  unfold Elementor.recordToElems
  split
  · rename_i t ht
    exact absurd ⟨t, ht⟩ h
  · split <;> rfl

theorem state_table (el el' : Elementor) (r : MrtRecord) (h : IsTable r) : (el.recordToElems r).2 = (el'.recordToElems r).2 := by
  obtain ⟨hd, m⟩ := r
  obtain ⟨t, rfl⟩ := h
  rfl

theorem ownTable_head {r : MrtRecord} {rs : List MrtRecord} (h : OwnTable (r :: rs)) : ∀ t, r.message ≠ .tableDumpV2 (.ribAfi t) := by
  intro t ht
  obtain ⟨hd, m⟩ := r
  cases ht
  obtain ⟨x, hx, _⟩ := h [] hd t rs rfl
  cases hx

theorem ownTable_tail {r : MrtRecord} {rs : List MrtRecord} (h : OwnTable (r :: rs)) (hr : ¬ IsTable r) : OwnTable rs := by
  intro pre hd t post e
  obtain ⟨x, hx, hx'⟩ := h (r :: pre) hd t post (by rw [e]; rfl)
  rcases List.mem_cons.1 hx with rfl | hx
  · exact absurd hx' hr
  · exact ⟨x, hx, hx'⟩

/-- the state of the elementor does not matter to a file with its own table. -/
theorem state_cases {el el' : Elementor} {r : MrtRecord} {rs : List MrtRecord} (h : el = el' ∨ OwnTable (r :: rs)) :
    (el.recordToElems r).1 = (el'.recordToElems r).1 ∧ ((el.recordToElems r).2 = (el'.recordToElems r).2 ∨ OwnTable rs) := by
  rcases h with rfl | h
  · exact ⟨rfl, .inl rfl⟩
  · refine ⟨elems_indep el el' r (ownTable_head h), ?_⟩
    by_cases hr : IsTable r
    · exact .inl (state_table el el' r hr)
    · exact .inr (ownTable_tail h hr)

theorem joined_elemsFrom_append (hist rs rs' : List MrtRecord) : elemsFrom hist (rs ++ rs') = elemsFrom hist rs ++ elemsFrom (hist ++ rs) rs' := by
  induction rs generalizing hist with
  | nil => simp [elemsFrom]
  | cons r rs ih => simp [elemsFrom, ih]

theorem elemsFrom_indep (rs : List MrtRecord) : ∀ hist hist', (after hist = after hist' ∨ OwnTable rs) → elemsFrom hist rs = elemsFrom hist' rs := by
  induction rs with
  | nil => intros; rfl
  | cons r rs ih =>
    intro hist hist' h
    obtain ⟨h1, h2⟩ := state_cases h
    simp only [elemsFrom]
    rw [ih (hist ++ [r]) (hist' ++ [r]) (by rw [after_append, after_append]; exact h2)]
    congr 1

theorem after_noTable (rs : List MrtRecord) (h : NoTable rs) : after rs = after [] := by
  rcases after_table rs Elementor.new with ⟨_, h2⟩ | ⟨t, h1, _⟩
  · exact h2
  · cases h1 with
    | some pre hd t post _ => exact absurd ⟨t, rfl⟩ (h ⟨hd, _⟩ (by simp))

theorem elemsFromItems_append (hist : List MrtRecord) (l l' : List Item) :
    elemsFromItems hist (l ++ l') = elemsFromItems hist l ++ elemsFromItems (hist ++ okItems l) l' := by
  induction l generalizing hist with
  | nil => simp [elemsFromItems, okItems]
  | cons x l ih => cases x <;> simp [elemsFromItems, okItems, ih]

theorem elemsFromItems_indep (l : List Item) : ∀ hist hist', (after hist = after hist' ∨ OwnTable (okItems l)) →
    elemsFromItems hist l = elemsFromItems hist' l := by
  induction l with
  | nil => intros; rfl
  | cons x l ih =>
    intro hist hist' h
    cases x with
    | error e => simp only [elemsFromItems]; rw [ih hist hist' h]
    | ok r =>
      obtain ⟨h1, h2⟩ := state_cases h
      simp only [elemsFromItems]
      rw [ih (hist ++ [r]) (hist' ++ [r]) (by rw [after_append, after_append]; exact h2)]
      congr 2

/-! ### records -/

/-- **C101** Raw records: those of the first file, then those of the second. -/
theorem c101_raw (cd : Bool) (pol : Pol) {rs : List Raw} {s₁ s₂ s : Src} (j : Joined rs s₁ s₂ s) : JoinsUp (rawIter cd pol) id s₁ s₂ s := by
  obtain ⟨b₁, b₂, hb, h1, h2, h3⟩ := j.files
  obtain ⟨l, hl, _⟩ := rawsD_exists cd none _ (byteToks b₂) (Nat.le_refl _)
  refine ⟨rs, l, ?_, ?_, ?_⟩
  · exact forLoop_raws pol s₁ (by rw [h1.1, h1.2]; exact rawsD_file hb)
  · exact forLoop_raws pol s₂ (by rw [h2.1, h2.2]; exact hl)
  · exact forLoop_raws pol s (by rw [h3.1, h3.2, joined_byteToks_append]; exact rawsD_append hb hl)

theorem records_handsOut {cd : Bool} {pol : Pol} {s : Src} {l : List MrtRecord} (h : RecsD cd s.stuck (toks s.evs) (l.map .ok)) :
    HandsOut (defaultIter keepAll cd pol) ((), s) l := fun n =>
  forLoop_records keepAll cd pol s.stuck s _ _ (At.self s) h () l (recItems_keepAll _) n

/-- **C101** (part) Records of the default iterator, if no record of the first file ends the iteration. -/
theorem c101_records_partial (cd : Bool) (pol : Pol) {rs : List Raw} {s₁ s₂ s : Src} (j : Joined rs s₁ s₂ s) (hq : ∀ r ∈ rs, Passed cd r) :
    JoinsUp (defaultIter keepAll cd pol) (fun s => ((), s)) s₁ s₂ s := by
  obtain ⟨b₁, b₂, hb, h1, h2, h3⟩ := j.files
  obtain ⟨l, hl, _⟩ := recsD_exists cd none _ (byteToks b₂) (Nat.le_refl _)
  obtain ⟨l, rfl⟩ := recsD_all hl
  refine ⟨rs.flatMap recordsOf, l, ?_, ?_, ?_⟩
  · exact records_handsOut (by rw [h1.1, h1.2]; exact joined_recsD_file hb hq)
  · exact records_handsOut (by rw [h2.1, h2.2]; exact hl)
  · refine records_handsOut ?_
    rw [h3.1, h3.2, joined_byteToks_append, List.map_append]
    exact recsD_append hb hq hl

/-- what the default iterators do at a record that is not passed. -/
theorem not_passed {cd : Bool} {raw : Raw} (h : ¬ Passed cd raw) : ∃ e, raw.parse = .error e ∧ goesOn cd e = false := by
  cases hp : raw.parse with
  | ok m => exact absurd (fun e he => by rw [hp] at he; cases he) h
  | error e =>
    refine ⟨e, rfl, ?_⟩
    cases hg : goesOn cd e with
    | false => rfl
    | true =>
      refine absurd (fun e' he => ?_) h
      rw [hp] at he
      cases he
      revert hg
      cases e <;> cases cd <;> decide

/-- **C101** The hypothesis that no record of the first file ends the iteration is needed: behind a record that is not passed the default
iterator gives nothing, neither the rest of the first file nor the second. -/
theorem c101_lost (cd : Bool) (pol : Pol) {pre post : List Raw} {bad : Raw} {s₁ s₂ s : Src} (j : Joined (pre ++ bad :: post) s₁ s₂ s)
    (hq : ∀ r ∈ pre, Passed cd r) (hb : ¬ Passed cd bad) :
    HandsOut (defaultIter keepAll cd pol) ((), s) (pre.flatMap recordsOf) := by
  obtain ⟨b₁, b₂, h, h1, h2, h3⟩ := j.files
  obtain ⟨c₁, c₂, g1, g2, rfl⟩ : ∃ c₁ c₂, Blocks Frame pre c₁ ∧ Blocks Frame (bad :: post) c₂ ∧ b₁ = c₁ ++ c₂ := by
    clear hq h1 h2 h3 j
    induction pre generalizing b₁ with
    | nil => exact ⟨[], b₁, .nil, h, rfl⟩
    | cons r pre ih =>
      cases h with
      | cons hf ht =>
        obtain ⟨c₁, c₂, g1, g2, rfl⟩ := ih _ ht
        exact ⟨_, c₂, .cons hf g1, g2, (List.append_assoc ..).symm⟩
  refine records_handsOut ?_
  rw [h3.1, h3.2]
  cases g2 with
  | @cons _ _ c d hf ht =>
    obtain ⟨e, he, hg⟩ := not_passed hb
    rw [List.append_assoc, joined_byteToks_append, List.append_assoc, joined_byteToks_append c]
    have hn := nextT_frame none (t := byteToks (d ++ b₂)) hf
    rw [he] at hn
    have := recsD_append (cd := cd) g1 hq (.stop hn hg)
    simpa using this

theorem fallible_handsOut {pol : Pol} {s : Src} {l : List Item} (h : RecsF s.stuck (toks s.evs) l) :
    HandsOut (fallibleIter keepAll pol) ((), s) l := fun n => by
  have := forLoop_fallibleRecords keepAll pol s.stuck s _ _ (At.self s) h () n
  rwa [recItems_keepAll] at this

/-- **C101** Records and errors of the fallible iterator, whatever records the first file has. -/
theorem c101_fallible (pol : Pol) {rs : List Raw} {s₁ s₂ s : Src} (j : Joined rs s₁ s₂ s) :
    JoinsUp (fallibleIter keepAll pol) (fun s => ((), s)) s₁ s₂ s := by
  obtain ⟨b₁, b₂, hb, h1, h2, h3⟩ := j.files
  obtain ⟨l, hl, _⟩ := recsF_exists none (by decide) _ (byteToks b₂) (Nat.le_refl _)
  refine ⟨rs.map itemOf, l, ?_, ?_, ?_⟩
  · exact fallible_handsOut (by rw [h1.1, h1.2]; exact recsF_file hb)
  · exact fallible_handsOut (by rw [h2.1, h2.2]; exact hl)
  · refine fallible_handsOut ?_
    rw [h3.1, h3.2, joined_byteToks_append]
    exact recsF_append hb hl

/-! ### elements -/

theorem handsOut_full {next : S → Option α × S} {s : S} {l : List α} (h : HandsOut next s l) {n : Nat} (hn : l.length ≤ n) :
    (forLoop next n s).1 = l := by
  rw [(h n).1, List.take_of_length_le hn]

theorem elems_handsOut (env : TextEnv) (fs : List (Filter env.Rx)) {cd : Bool} {pol : Pol} {s : Src} {l : List MrtRecord}
    (h : HandsOut (defaultIter keepAll cd pol) ((), s) l) :
    HandsOut (elemNext env fs cd pol) (ElemIter.new s) ((elemsFrom [] l).filter fun e => e.matchFilters env fs) := fun n => by
  have := c37_elems env fs cd pol pol s ((toks s.evs).length + l.length + 1) (by omega) n
  rwa [handsOut_full h (by omega)] at this

/-- **C101** (part) Elements with any filters: those of the first file, then those of the second, unless the second has RIB records without a peer index
table of its own, and the first has a table. -/
theorem c101_elems_partial (env : TextEnv) (fs : List (Filter env.Rx)) (cd : Bool) (pol : Pol) {rs : List Raw} {s₁ s₂ s : Src}
    (j : Joined rs s₁ s₂ s) (hq : ∀ r ∈ rs, Passed cd r)
    (ht : NoTable (rs.flatMap recordsOf) ∨ ∀ l, HandsOut (defaultIter keepAll cd pol) ((), s₂) l → OwnTable l) :
    JoinsUp (elemNext env fs cd pol) ElemIter.new s₁ s₂ s := by
  obtain ⟨l₁, l₂, h1, h2, h3⟩ := c101_records_partial cd pol j hq
  have e1 : l₁ = rs.flatMap recordsOf := by
    obtain ⟨b₁, b₂, hb, d1, _, _⟩ := j.files
    exact c101_unique h1 (records_handsOut (by rw [d1.1, d1.2]; exact joined_recsD_file hb hq))
  refine ⟨_, _, elems_handsOut env fs h1, elems_handsOut env fs h2, ?_⟩
  have := elems_handsOut env fs h3
  rwa [joined_elemsFrom_append, List.nil_append, elemsFrom_indep l₂ l₁ [] (ht.imp (fun h => by rw [e1]; exact after_noTable _ h) (fun h => h _ h2)),
    List.filter_append] at this

theorem fallibleElems_handsOut (env : TextEnv) (fs : List (Filter env.Rx)) {pol : Pol} {s : Src} (hs : s.stuck = none) {l : List Item}
    (h : HandsOut (fallibleIter keepAll pol) ((), s) l) :
    HandsOut (fallibleElemNext env fs pol) (ElemIter.new s)
      ((elemsFromItems [] l).filter fun | .ok e => e.matchFilters env fs | .error _ => true) := fun n => by
  have := c37_fallible_elems env fs pol pol s (by rw [hs]; decide) ((toks s.evs).length + l.length + 1) (by omega) n
  rwa [handsOut_full h (by omega)] at this

theorem okItems_itemOf (rs : List Raw) : okItems (rs.map itemOf) = rs.flatMap recordsOf := by
  induction rs with
  | nil => rfl
  | cons r rs ih =>
    simp only [List.map_cons, List.flatMap_cons, itemOf, recordsOf]
    cases r.parse <;> simp [okItems, ih]

/-- **C101** The same with the errors, whatever records the first file has. -/
theorem c101_fallible_elems (env : TextEnv) (fs : List (Filter env.Rx)) (pol : Pol) {rs : List Raw} {s₁ s₂ s : Src} (j : Joined rs s₁ s₂ s)
    (ht : NoTable (rs.flatMap recordsOf) ∨ ∀ l, HandsOut (fallibleIter keepAll pol) ((), s₂) l → OwnTable (okItems l)) :
    JoinsUp (fallibleElemNext env fs pol) ElemIter.new s₁ s₂ s := by
  obtain ⟨l₁, l₂, h1, h2, h3⟩ := c101_fallible pol j
  obtain ⟨b₁, b₂, hb, d1, d2, d3⟩ := j.files
  have e1 : okItems l₁ = rs.flatMap recordsOf := by
    rw [← okItems_itemOf]
    exact congrArg okItems (c101_unique h1 (fallible_handsOut (by rw [d1.1, d1.2]; exact recsF_file hb)))
  refine ⟨_, _, fallibleElems_handsOut env fs d1.2 h1, fallibleElems_handsOut env fs d2.2 h2, ?_⟩
  have := fallibleElems_handsOut env fs d3.2 h3
  rwa [elemsFromItems_append, List.nil_append,
    elemsFromItems_indep l₂ (okItems l₁) [] (ht.imp (fun h => by rw [e1]; exact after_noTable _ h) (fun h => h _ h2)),
    List.filter_append] at this

/-! ### announcements -/

/-- **C101** (part) Announcements. -/
theorem c101_updates_partial (cd : Bool) (pol : Pol) {rs : List Raw} {s₁ s₂ s : Src} (j : Joined rs s₁ s₂ s) (hq : ∀ r ∈ rs, Passed cd r) :
    JoinsUp (updatesNext cd pol) (UpdatesIter.new false) s₁ s₂ s := by
  obtain ⟨l₁, l₂, h1, h2, h3⟩ := c101_records_partial cd pol j hq
  have key : ∀ {s l}, HandsOut (defaultIter keepAll cd pol) ((), s) l → HandsOut (updatesNext cd pol) (.new false s) (l.flatMap updatesOf) := by
    intro s l h n
    have := c69_updates cd pol pol s ((toks s.evs).length + l.length + 1) (by omega) n
    rwa [handsOut_full h (by omega)] at this
  refine ⟨_, _, key h1, key h2, ?_⟩
  rw [← List.flatMap_append]
  exact key h3

/-- **C101** Announcements and errors. -/
theorem c101_fallible_updates (pol : Pol) {rs : List Raw} {s₁ s₂ s : Src} (j : Joined rs s₁ s₂ s) :
    JoinsUp (fallibleUpdatesNext pol) (UpdatesIter.new false) s₁ s₂ s := by
  obtain ⟨l₁, l₂, h1, h2, h3⟩ := c101_fallible pol j
  obtain ⟨b₁, b₂, hb, d1, d2, d3⟩ := j.files
  have key : ∀ {s : Src} {l}, s.stuck = none → HandsOut (fallibleIter keepAll pol) ((), s) l →
      HandsOut (fallibleUpdatesNext pol) (.new false s) (updateItems l) := by
    intro s l hs h n
    have := c69_fallible pol pol s (by rw [hs]; decide) ((toks s.evs).length + l.length + 1) (by omega) n
    rwa [handsOut_full h (by omega)] at this
  refine ⟨_, _, key d1.2 h1, key d2.2 h2, ?_⟩
  have : updateItems l₁ ++ updateItems l₂ = updateItems (l₁ ++ l₂) := by simp [updateItems]
  rw [this]
  exact key d3.2 h3

/-! ### routes -/

theorem lastTable_exists (hist : List MrtRecord) : ∃ o, LastTable hist o ∧ after hist = ⟨o⟩ := by
  rcases after_table hist Elementor.new with ⟨h1, h2⟩ | ⟨t, h1, h2⟩
  · exact ⟨_, h1, h2⟩
  · exact ⟨_, h1, h2⟩

theorem lastTable_same {hist hist' : List MrtRecord} (h : after hist = after hist') {o : Option PeerIndexTable} (ho : LastTable hist o) :
    LastTable hist' o := by
  obtain ⟨a, ha, ha'⟩ := lastTable_exists hist
  obtain ⟨b, hb, hb'⟩ := lastTable_exists hist'
  cases lastTable_unique ho ha
  rw [ha', hb'] at h
  cases h
  exact hb

theorem messageRoutes_indep {hist hist' : List MrtRecord} {t : Nat} {m : MrtMessage} {xs : List RouteElem}
    (h : after hist = after hist' ∨ ∀ r, m ≠ .tableDumpV2 (.ribAfi r)) (hm : MessageRoutes hist t m xs) : MessageRoutes hist' t m xs := by
  cases hm with
  | peers tab => exact .peers tab
  | geo g => exact .geo g
  | rib r tab xs h1 h2 =>
    rcases h with h | h
    · exact .rib r tab xs (lastTable_same h h1) h2
    · exact absurd rfl (h r)
  | orphan r h1 =>
    rcases h with h | h
    · exact .orphan r (lastTable_same h h1)
    · exact absurd rfl (h r)
  | state m => exact .state m
  | bgp m xs h => exact .bgp m xs h
  | oldState m => exact .oldState m
  | oldBgp m xs h => exact .oldBgp m xs h

theorem streamRoutes_indep {hist : List MrtRecord} {raws : List Raw} {xs : List RouteElem} (hs : StreamRoutes hist raws xs) :
    ∀ hist', (after hist = after hist' ∨ OwnTable (raws.flatMap recordsOf)) → StreamRoutes hist' raws xs := by
  induction hs with
  | nil hist => exact fun hist' _ => .nil hist'
  | cons hist raw raws xs ys h1 _ ih =>
    intro hist' h
    have hrec : ∀ m, raw.parse = .ok m → (after hist = after hist' ∨ ∀ t, m.message ≠ .tableDumpV2 (.ribAfi t)) := by
      intro m hm
      rcases h with h | h
      · exact .inl h
      · have : (raw :: raws).flatMap recordsOf = m :: raws.flatMap recordsOf := by simp [recordsOf, hm]
        rw [this] at h
        exact .inr (ownTable_head h)
    refine .cons hist' raw raws xs ys ?_ (ih _ ?_)
    · cases h1 with
      | parsed r xs a b c => exact .parsed _ r xs a b (messageRoutes_indep (hrec r b) c)
      | unparsed e a b => exact .unparsed _ e a b
      | dump v4 view seq good rest ms xs a b c d e f => exact .dump _ v4 view seq good rest ms xs a b c d e f
      | noDump a b => exact .noDump _ a b
    · cases hp : raw.parse with
      | error e =>
        have e1 : recordsOf raw = [] := by simp [recordsOf, hp]
        have e2 : (raw :: raws).flatMap recordsOf = raws.flatMap recordsOf := by simp [recordsOf, hp]
        rw [e1, List.append_nil, List.append_nil]
        rw [e2] at h
        exact h
      | ok m =>
        have e1 : recordsOf raw = [m] := by simp [recordsOf, hp]
        have e2 : (raw :: raws).flatMap recordsOf = m :: raws.flatMap recordsOf := by simp [recordsOf, hp]
        rw [e1, after_append, after_append]
        rw [e2] at h
        exact (state_cases h).2

theorem streamRoutes_append {hist : List MrtRecord} {raws raws' : List Raw} {xs ys : List RouteElem} (hx : StreamRoutes hist raws xs) :
    StreamRoutes (hist ++ raws.flatMap recordsOf) raws' ys → StreamRoutes hist (raws ++ raws') (xs ++ ys) := by
  induction hx with
  | nil hist => intro h; simpa using h
  | cons hist raw raws xs zs h1 _ ih =>
    intro h
    rw [List.append_assoc, List.cons_append]
    refine .cons _ _ _ _ _ h1 (ih ?_)
    simpa using h

/-- **C101** Routes with any filters, whatever records the first file has. -/
theorem c101_routes (env : TextEnv) (fs : List (Filter env.Rx)) (pol : Pol) {rs : List Raw} {s₁ s₂ s : Src} (j : Joined rs s₁ s₂ s)
    (ht : NoTable (rs.flatMap recordsOf) ∨ ∀ raws, HandsOut (rawIter false pol) s₂ raws → OwnTable (raws.flatMap recordsOf)) :
    JoinsUp (routeIter env fs false pol) RouteState.new s₁ s₂ s := by
  obtain ⟨l₁, l₂, h1, h2, h3⟩ := c101_raw false pol j
  have e1 : l₁ = rs := by
    obtain ⟨b₁, b₂, hb, d1, _, _⟩ := j.files
    exact c101_unique h1 (forLoop_raws pol s₁ (by rw [d1.1, d1.2]; exact rawsD_file hb))
  have key : ∀ {s : Src} {l}, HandsOut (rawIter false pol) s l → ∃ all, StreamRoutes [] l all ∧
      HandsOut (routeIter env fs false pol) (RouteState.new s) (all.filter fun x => x.matchFilters env fs) := by
    intro s l h
    obtain ⟨all, g1, g2⟩ := c66_routes env fs pol pol s ((toks s.evs).length + l.length + 1) (by omega)
    rw [handsOut_full h (by omega)] at g1
    exact ⟨all, g1, g2⟩
  obtain ⟨a₁, g1, k1⟩ := key h1
  obtain ⟨a₂, g2, k2⟩ := key h2
  obtain ⟨a, g3, k3⟩ := key h3
  refine ⟨_, _, k1, k2, ?_⟩
  have : a = a₁ ++ a₂ := by
    refine c66_unique g3 (streamRoutes_append g1 (streamRoutes_indep g2 _ ?_))
    rw [List.nil_append, e1]
    exact ht.imp (fun h => (after_noTable _ h).symm) (fun h => h _ h2)
  rw [this, List.filter_append] at k3
  exact k3

/-! ### examples -/

/-- a peer index table with one peer, of AS 7; and a route for 10.0.0.0/8 of peer 0. -/
def c101Table : Raw := ⟨⟨9, none, .tableDumpV2, 1, 19⟩, [0, 0, 0, 9, 0, 13, 0, 1, 0, 0, 0, 19],
  [1, 1, 1, 1, 0, 0, 0, 1, 0, 9, 9, 9, 9, 10, 0, 0, 1, 0, 7]⟩
def c101Rib : Raw := ⟨⟨9, none, .tableDumpV2, 2, 16⟩, [0, 0, 0, 9, 0, 13, 0, 2, 0, 0, 0, 16],
  [0, 0, 0, 0, 8, 10, 0, 1, 0, 0, 0, 0, 0, 5, 0, 0]⟩

theorem c101_frames : Frame c101Table c101Table.bytes ∧ Frame c101Rib c101Rib.bytes := by
  refine ⟨⟨⟨by decide, by decide⟩, by decide, rfl, ?_⟩, ⟨⟨by decide, by decide⟩, by decide, rfl, ?_⟩⟩
  · rw [if_neg (by rintro ⟨h, _⟩; cases h)]; rfl
  · rw [if_neg (by rintro ⟨h, _⟩; cases h)]; rfl

/-- the source that gives these octets at once. -/
def c101Src (b : Bytes) : Src := ⟨b.map fun x => .data x [], none⟩

theorem c101Src_delivers (b : Bytes) : Delivers (c101Src b) b := by
  refine ⟨?_, rfl⟩
  induction b with
  | nil => rfl
  | cons x b ih => simpa [c101Src, toks, byteToks] using ih

theorem c101_two : Joined [c101Table, c101Rib] (c101Src (c101Table.bytes ++ (c101Rib.bytes ++ []))) (c101Src (c101Table.bytes ++ c101Rib.bytes))
    (c101Src ((c101Table.bytes ++ (c101Rib.bytes ++ [])) ++ (c101Table.bytes ++ c101Rib.bytes))) :=
  ⟨_, _, .cons c101_frames.1 (.cons c101_frames.2 .nil), c101Src_delivers _, c101Src_delivers _, c101Src_delivers _⟩

/-- the hypotheses of the theorems: two files, each a table and a route; no record ends the iteration, and the second file has its own table. -/
example : (∀ r ∈ [c101Table, c101Rib], Passed true r) ∧ OwnTable ([c101Table, c101Rib].flatMap recordsOf) ∧
    NoTable ([c101Rib].flatMap recordsOf) ∧ ¬ NoTable ([c101Table].flatMap recordsOf) := by
  have h1 : c101Table.parse.isOk = true := by decide +kernel
  have h2 : c101Rib.parse.isOk = true := by decide +kernel
  cases p1 : c101Table.parse with
  | error e => rw [p1] at h1; cases h1
  | ok m1 =>
    cases p2 : c101Rib.parse with
    | error e => rw [p2] at h2; cases h2
    | ok m2 =>
      have k1 : (match c101Table.parse with | .ok ⟨_, .tableDumpV2 (.peerIndexTable _)⟩ => true | _ => false) = true := by decide +kernel
      have k2 : (match c101Rib.parse with | .ok ⟨_, .tableDumpV2 (.peerIndexTable _)⟩ => true | _ => false) = false := by decide +kernel
      have e1 : recordsOf c101Table = [m1] := by simp [recordsOf, p1]
      have e2 : recordsOf c101Rib = [m2] := by simp [recordsOf, p2]
      have t1 : IsTable m1 := by
        rw [p1] at k1
        obtain ⟨hd, m⟩ := m1
        revert k1
        split
        · rename_i heq; cases heq; exact fun _ => ⟨_, rfl⟩
        · intro h; cases h
      have t2 : ¬ IsTable m2 := by
        rw [p2] at k2
        obtain ⟨hd, m⟩ := m2
        rintro ⟨t, rfl⟩
        cases k2
      refine ⟨?_, ?_, ?_, ?_⟩
      · intro r hr e he
        rcases List.mem_cons.1 hr with rfl | hr
        · rw [p1] at he; cases he
        · rw [List.mem_singleton.1 hr, p2] at he; cases he
      · simp only [List.flatMap_cons, List.flatMap_nil, e1, e2]
        intro pre hd r post e
        cases pre with
        | nil =>
          obtain ⟨t, ht⟩ := t1
          cases e
          cases ht
        | cons x pre =>
          have hx : x = m1 := (List.cons.inj e).1.symm
          exact ⟨x, List.mem_cons_self, hx ▸ t1⟩
      · simpa [NoTable, e2] using t2
      · simpa [NoTable, e1] using t1

/-- **C101** Files one behind the other, the violations. A RIB file without a table of its own gives nothing alone; behind another file its
routes are given to the peers of that file. And behind a file with one bad record nothing of the second file is given. -/
theorem c101_not_independent (env : TextEnv) :
    (forLoop (elemNext env [] false (fun n _ => n)) 9 (ElemIter.new (c101Src c101Table.bytes))).1 = [] ∧
    (forLoop (elemNext env [] false (fun n _ => n)) 9 (ElemIter.new (c101Src c101Rib.bytes))).1 = [] ∧
    ((forLoop (elemNext env [] false (fun n _ => n)) 9 (ElemIter.new (c101Src (c101Table.bytes ++ c101Rib.bytes)))).1.map (·.peerAsn)) = [7] ∧
    (forLoop (defaultIter keepAll false (fun n _ => n)) 9 ((), c101Src c25Good)).1.length = 1 ∧
    (forLoop (defaultIter keepAll false (fun n _ => n)) 9 ((), c101Src (c25Bad ++ c25Good))).1 = [] := by
  have key : ∀ b : Bytes, (toks (c101Src b).evs).length < 99 → (forLoop (elemNext env [] false (fun n _ => n)) 9 (ElemIter.new (c101Src b))).1 =
      (elemsFrom [] (forLoop (defaultIter keepAll false (fun n _ => n)) 99 ((), c101Src b)).1).take 9 := by
    intro b hb
    have h := (c37_elems env [] false (fun n _ => n) (fun n _ => n) (c101Src b) 99 hb 9).1
    have hid : ∀ l : List BgpElem, l.filter (fun e => e.matchFilters env []) = l := fun l => List.filter_eq_self.2 fun e _ => rfl
    rwa [hid] at h
  rw [key _ (by decide +kernel), key _ (by decide +kernel), key _ (by decide +kernel)]
  decide +kernel

end Verif.Props
