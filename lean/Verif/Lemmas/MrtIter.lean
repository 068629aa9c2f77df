import Verif.Lemmas.MrtChunk
/-
The record iterators as functions of what the reader delivers.
-/
namespace Verif
open Spec

theorem toks_length (s : Src) : (toks s.evs).length ≤ s.size := by
  obtain ⟨evs, k⟩ := s
  simp only
  induction evs with
  | nil => simp [toks]
  | cons e r ih =>
    cases e <;> simp [toks, Src.size, byteToks] at ih ⊢ <;> omega

/-- a chunk error without the header. -/
def ChunkErr.toRec (e : ChunkErr) : RecErr := ⟨e.error, e.bytes⟩

/-- `nextRecord` on a delivery. -/
def nextT (k : Option Bool) (t : List Tok) : Except RecErr MrtRecord × List Tok :=
  match chunkT k t with
  | (.error e, t) => (.error e.toRec, t)
  | (.ok raw, t) =>
    match raw.parse with
    | .ok r => (.ok r, t)
    | .error e => (.error ⟨e, some raw.bytes⟩, t)

theorem chunk_eqG [LReader ρ] (pol : Pol) (s : ρ) :
    ∃ s', chunk pol s = (match (chunkT (stk s) (del s)).1 with | .error e => .error e.toRec | .ok r => .ok r, s') ∧
      del s' = (chunkT (stk s) (del s)).2 ∧ stk s' = stk s := by
  obtain ⟨s', h1, h2, h3⟩ := chunkCtx_eqG pol s
  refine ⟨s', ?_, h2, h3⟩
  unfold chunk
  rw [h1]
  cases (chunkT (stk s) (del s)).1 <;> rfl

theorem chunk_eq (pol : Pol) (s : Src) :
    ∃ s', chunk pol s = (match (chunkT s.stuck (toks s.evs)).1 with | .error e => .error e.toRec | .ok r => .ok r, s') ∧
      toks s'.evs = (chunkT s.stuck (toks s.evs)).2 ∧ s'.stuck = s.stuck := chunk_eqG pol s

theorem nextRecord_eqG [LReader ρ] (pol : Pol) (s : ρ) :
    ∃ s', nextRecord pol s = ((nextT (stk s) (del s)).1, s') ∧
      del s' = (nextT (stk s) (del s)).2 ∧ stk s' = stk s := by
  obtain ⟨s', h1, h2, h3⟩ := chunk_eqG pol s
  refine ⟨s', ?_, ?_, h3⟩
  · unfold nextRecord nextT
    rw [h1]
    generalize chunkT (stk s) (del s) = x
    obtain ⟨x, t⟩ := x
    cases x with
    | error e => rfl
    | ok raw => simp only; cases raw.parse <;> rfl
  · rw [h2]
    unfold nextT
    generalize chunkT (stk s) (del s) = x
    obtain ⟨x, t⟩ := x
    cases x with
    | error e => rfl
    | ok raw => simp only; cases raw.parse <;> rfl

theorem nextRecord_eq (pol : Pol) (s : Src) :
    ∃ s', nextRecord pol s = ((nextT s.stuck (toks s.evs)).1, s') ∧
      toks s'.evs = (nextT s.stuck (toks s.evs)).2 ∧ s'.stuck = s.stuck := nextRecord_eqG pol s

theorem goesOn_body (cd : Bool) (st : Stop) : goesOn cd (bodyErr st) = false := by
  cases st with
  | failed z => cases z <;> rfl
  | _ => rfl

theorem goesOn_stop (cd : Bool) (st : Stop) : goesOn cd (stopErr st) = false := by
  cases st with
  | failed z => cases z <;> rfl
  | _ => rfl

theorem Frame_length {r : Raw} {b : Bytes} (h : Frame r b) : 12 ≤ b.length := by
  have := HeaderBytes_ge h.1
  rw [h.2.2.1, List.length_append]; omega

theorem byteToks_length (b : Bytes) : (byteToks b).length = b.length := by simp [byteToks]

theorem chunkT_progress {k : Option Bool} {t t' : List Tok} {x : Except ChunkErr Raw} (h : chunkT k t = (x, t')) :
    t'.length + 12 ≤ t.length ∨ ∃ e, x = .error e ∧ ∀ cd, goesOn cd e.error = false := by
  cases x with
  | ok r =>
    obtain ⟨h1, h2⟩ := chunkT_ok h
    left
    rw [h2, List.length_append, byteToks_length]
    have := Frame_length h1
    omega
  | error e =>
    rcases chunkT_error h with ⟨b, _, h2, h3, _⟩ | ⟨b, e', st, h1, h2, h3, h4⟩
    · left
      rw [h2, List.length_append, byteToks_length]; omega
    · right
      refine ⟨e, rfl, fun cd => ?_⟩
      rcases h4 with ⟨h, _⟩ | ⟨h, _⟩ | ⟨h, _⟩
      · rw [h]; rfl
      · rw [h]; exact goesOn_stop cd st
      · rw [h]; exact goesOn_body cd st

theorem nextT_progress {k : Option Bool} {t t' : List Tok} {x : Except RecErr MrtRecord} (h : nextT k t = (x, t')) :
    t'.length + 12 ≤ t.length ∨ ∃ e, x = .error e ∧ ∀ cd, goesOn cd e.error = false := by
  unfold nextT at h
  cases hc : chunkT k t with
  | mk y t1 =>
    rw [hc] at h
    have hp := chunkT_progress hc
    cases y with
    | error e =>
      simp only [Prod.mk.injEq] at h
      obtain ⟨rfl, rfl⟩ := h
      rcases hp with hp | ⟨e', he, hp⟩
      · exact .inl hp
      · cases he; exact .inr ⟨_, rfl, hp⟩
    | ok raw =>
      rcases hp with hp | ⟨e', he, hp⟩
      · simp only at h
        cases hr : raw.parse with
        | ok r => rw [hr] at h; simp only [Prod.mk.injEq] at h; rw [← h.2]; exact .inl hp
        | error e => rw [hr] at h; simp only [Prod.mk.injEq] at h; rw [← h.2]; exact .inl hp
      · cases he

/-! ### the iterators on a delivery -/

/-- `rawNext` on a delivery. -/
def rawT (cd : Bool) (k : Option Bool) (t : List Tok) : Option Raw × List Tok :=
  match h : chunkT k t with
  | (.ok r, t') => (some r, t')
  | (.error e, t') => if hg : goesOn cd e.error = true then rawT cd k t' else (none, t')
termination_by t.length
decreasing_by
  rcases chunkT_progress h with hp | ⟨e', he, hp⟩
  · omega
  · cases he; rw [hp cd] at hg; cases hg

/-- `defaultNext` on a delivery. -/
def defaultT (f : Keep σ) (cd : Bool) (k : Option Bool) (q : σ) (t : List Tok) : Option MrtRecord × σ × List Tok :=
  match h : nextT k t with
  | (.ok r, t') => if (f.step q r).1 = true then (some r, (f.step q r).2, t') else defaultT f cd k (f.step q r).2 t'
  | (.error e, t') => if hg : goesOn cd e.error = true then defaultT f cd k q t' else (none, q, t')
termination_by t.length
decreasing_by
  · rcases nextT_progress h with hp | ⟨e', he, hp⟩
    · omega
    · cases he
  · rcases nextT_progress h with hp | ⟨e', he, hp⟩
    · omega
    · cases he; rw [hp cd] at hg; cases hg

/-- `fallibleNext` on a delivery. -/
def fallibleT (f : Keep σ) (k : Option Bool) (q : σ) (t : List Tok) :
    Option (Except RecErr MrtRecord) × σ × List Tok :=
  match h : nextT k t with
  | (.ok r, t') => if (f.step q r).1 = true then (some (.ok r), (f.step q r).2, t') else fallibleT f k (f.step q r).2 t'
  | (.error e, t') => if e.error = .eofExpected then (none, q, t') else (some (.error e), q, t')
termination_by t.length
decreasing_by
  rcases nextT_progress h with hp | ⟨e', he, hp⟩
  · omega
  · cases he

theorem defaultT_of_ok (f : Keep σ) (cd : Bool) {k : Option Bool} (q : σ) {t t' : List Tok} {r : MrtRecord}
    (hc : nextT k t = (.ok r, t')) : defaultT f cd k q t =
      if (f.step q r).1 = true then (some r, (f.step q r).2, t') else defaultT f cd k (f.step q r).2 t' := by
  rw [defaultT]
  split
  · next hc' => rw [hc] at hc'; cases hc'; rfl
  · next hc' => rw [hc] at hc'; cases hc'

theorem defaultT_of_error (f : Keep σ) (cd : Bool) {k : Option Bool} (q : σ) {t t' : List Tok} {e : RecErr}
    (hc : nextT k t = (.error e, t')) : defaultT f cd k q t =
      if goesOn cd e.error = true then defaultT f cd k q t' else (none, q, t') := by
  rw [defaultT]
  split
  · next hc' => rw [hc] at hc'; cases hc'
  · next hc' => rw [hc] at hc'; cases hc'; rfl

theorem fallibleT_of_ok (f : Keep σ) {k : Option Bool} (q : σ) {t t' : List Tok} {r : MrtRecord}
    (hc : nextT k t = (.ok r, t')) : fallibleT f k q t =
      if (f.step q r).1 = true then (some (.ok r), (f.step q r).2, t') else fallibleT f k (f.step q r).2 t' := by
  rw [fallibleT]
  split
  · next hc' => rw [hc] at hc'; cases hc'; rfl
  · next hc' => rw [hc] at hc'; cases hc'

theorem fallibleT_of_error (f : Keep σ) {k : Option Bool} (q : σ) {t t' : List Tok} {e : RecErr}
    (hc : nextT k t = (.error e, t')) : fallibleT f k q t =
      if e.error = .eofExpected then (none, q, t') else (some (.error e), q, t') := by
  rw [fallibleT]
  split
  · next hc' => rw [hc] at hc'; cases hc'
  · next hc' => rw [hc] at hc'; cases hc'; rfl

theorem rawNext_eq (cd : Bool) (pol : Pol) (fuel : Nat) : ∀ s : Src, (toks s.evs).length < fuel →
    ∃ s', rawNext cd pol fuel s = ((rawT cd s.stuck (toks s.evs)).1, s') ∧
      toks s'.evs = (rawT cd s.stuck (toks s.evs)).2 ∧ s'.stuck = s.stuck := by
  induction fuel with
  | zero => intro s h; omega
  | succ fuel ih =>
    intro s hf
    obtain ⟨s1, h1, h2, h3⟩ := chunk_eq pol s
    rw [rawT]
    simp only [rawNext, h1]
    cases hc : chunkT s.stuck (toks s.evs) with
    | mk x t1 =>
      rw [hc] at h2
      simp only at h2
      cases x with
      | ok r => exact ⟨s1, rfl, h2, h3⟩
      | error e =>
        simp only
        have te : e.toRec.error = e.error := rfl
        by_cases hg : goesOn cd e.error = true
        · rw [if_pos (te ▸ hg), dif_pos hg]
          have hl : (toks s1.evs).length < fuel := by
            rw [h2]
            rcases chunkT_progress hc with hp | ⟨e', he, hp⟩
            · omega
            · cases he; rw [hp cd] at hg; cases hg
          obtain ⟨s2, g1, g2, g3⟩ := ih s1 hl
          rw [h2, h3] at g1 g2
          exact ⟨s2, g1, g2, g3.trans h3⟩
        · rw [if_neg (te ▸ hg), dif_neg hg]
          exact ⟨s1, rfl, h2, h3⟩

theorem defaultNext_eq (f : Keep σ) (cd : Bool) (pol : Pol) (fuel : Nat) : ∀ (q : σ) (s : Src), (toks s.evs).length < fuel →
    ∃ s', defaultNext f cd pol fuel (q, s) =
        ((defaultT f cd s.stuck q (toks s.evs)).1, (defaultT f cd s.stuck q (toks s.evs)).2.1, s') ∧
      toks s'.evs = (defaultT f cd s.stuck q (toks s.evs)).2.2 ∧ s'.stuck = s.stuck := by
  induction fuel with
  | zero => intro q s h; omega
  | succ fuel ih =>
    intro q s hf
    obtain ⟨s1, h1, h2, h3⟩ := nextRecord_eq pol s
    rw [defaultT]
    simp only [defaultNext, h1]
    cases hc : nextT s.stuck (toks s.evs) with
    | mk x t1 =>
      rw [hc] at h2
      simp only at h2
      have hp := nextT_progress hc
      cases x with
      | ok r =>
        simp only
        have hl : (toks s1.evs).length < fuel := by
          rw [h2]
          rcases hp with hp | ⟨e', he, hp⟩
          · omega
          · cases he
        obtain ⟨s2, g1, g2, g3⟩ := ih (f.step q r).2 s1 hl
        rw [h2, h3] at g1 g2
        rcases hs : f.step q r with ⟨b, q'⟩
        rw [hs] at g1 g2
        cases b with
        | true => exact ⟨s1, rfl, h2, h3⟩
        | false => exact ⟨s2, g1, g2, g3.trans h3⟩
      | error e =>
        simp only
        by_cases hg : goesOn cd e.error = true
        · rw [if_pos hg, dif_pos hg]
          have hl : (toks s1.evs).length < fuel := by
            rw [h2]
            rcases hp with hp | ⟨e', he, hp⟩
            · omega
            · cases he; rw [hp cd] at hg; cases hg
          obtain ⟨s2, g1, g2, g3⟩ := ih q s1 hl
          rw [h2, h3] at g1 g2
          exact ⟨s2, g1, g2, g3.trans h3⟩
        · rw [if_neg hg, dif_neg hg]
          exact ⟨s1, rfl, h2, h3⟩

theorem fallibleNext_eq (f : Keep σ) (pol : Pol) (fuel : Nat) : ∀ (q : σ) (s : Src), (toks s.evs).length < fuel →
    ∃ s', fallibleNext f pol fuel (q, s) =
        ((fallibleT f s.stuck q (toks s.evs)).1, (fallibleT f s.stuck q (toks s.evs)).2.1, s') ∧
      toks s'.evs = (fallibleT f s.stuck q (toks s.evs)).2.2 ∧ s'.stuck = s.stuck := by
  induction fuel with
  | zero => intro q s h; omega
  | succ fuel ih =>
    intro q s hf
    obtain ⟨s1, h1, h2, h3⟩ := nextRecord_eq pol s
    rw [fallibleT]
    simp only [fallibleNext, h1]
    cases hc : nextT s.stuck (toks s.evs) with
    | mk x t1 =>
      rw [hc] at h2
      simp only at h2
      have hp := nextT_progress hc
      cases x with
      | ok r =>
        simp only
        have hl : (toks s1.evs).length < fuel := by
          rw [h2]
          rcases hp with hp | ⟨e', he, hp⟩
          · omega
          · cases he
        obtain ⟨s2, g1, g2, g3⟩ := ih (f.step q r).2 s1 hl
        rw [h2, h3] at g1 g2
        rcases hs : f.step q r with ⟨b, q'⟩
        rw [hs] at g1 g2
        cases b with
        | true => exact ⟨s1, rfl, h2, h3⟩
        | false => exact ⟨s2, g1, g2, g3.trans h3⟩
      | error e =>
        simp only
        by_cases hg : e.error = .eofExpected
        · rw [if_pos hg, if_pos hg]; exact ⟨s1, rfl, h2, h3⟩
        · rw [if_neg hg, if_neg hg]; exact ⟨s1, rfl, h2, h3⟩

/-! ### one step at a time -/

theorem rawT_progress (cd : Bool) (k : Option Bool) (n : Nat) : ∀ t t' raw, t.length ≤ n → rawT cd k t = (some raw, t') →
    Frame raw raw.bytes ∧ t'.length + 12 ≤ t.length := by
  induction n with
  | zero =>
    intro t t' raw hl h
    rw [rawT] at h
    split at h
    · next r t1 hc =>
      rcases chunkT_progress hc with hp | ⟨e', he, hp⟩
      · omega
      · cases he
    · next e t1 hc =>
      split at h
      · next hg =>
        rcases chunkT_progress hc with hp | ⟨e', he, hp⟩
        · omega
        · cases he; rw [hp cd] at hg; cases hg
      · cases h
  | succ n ih =>
    intro t t' raw hl h
    rw [rawT] at h
    split at h
    · next r t1 hc =>
      rcases chunkT_progress hc with hp | ⟨e', he, hp⟩
      · simp only [Prod.mk.injEq, Option.some.injEq] at h
        obtain ⟨rfl, rfl⟩ := h
        exact ⟨(chunkT_ok hc).1, hp⟩
      · cases he
    · next e t1 hc =>
      split at h
      · next hg =>
        rcases chunkT_progress hc with hp | ⟨e', he, hp⟩
        · have := ih _ _ _ (by omega) h
          exact ⟨this.1, by omega⟩
        · cases he; rw [hp cd] at hg; cases hg
      · cases h

/-- The default iterator is the raw iterator followed by parsing. -/
theorem defaultT_raw (f : Keep σ) (cd : Bool) (k : Option Bool) (q : σ) (n : Nat) : ∀ t, t.length ≤ n →
    defaultT f cd k q t =
      match rawT cd k t with
      | (none, t') => (none, q, t')
      | (some raw, t') =>
        match raw.parse with
        | .ok r => if (f.step q r).1 = true then (some r, (f.step q r).2, t') else defaultT f cd k (f.step q r).2 t'
        | .error e => if goesOn cd e = true then defaultT f cd k q t' else (none, q, t') := by
  induction n with
  | zero =>
    intro t hl
    rw [defaultT, rawT]
    unfold nextT
    cases hc : chunkT k t with
    | mk x t1 =>
      rcases chunkT_progress hc with hp | ⟨e', rfl, hp⟩
      · omega
      · have hg : ¬ goesOn cd e'.error = true := by rw [hp cd]; simp
        simp only [dif_neg hg]
        rw [dif_neg (by exact hg)]
  | succ n ih =>
    intro t hl
    rw [defaultT, rawT]
    unfold nextT
    cases hc : chunkT k t with
    | mk x t1 =>
      cases x with
      | ok raw =>
        simp only
        cases hr : raw.parse with
        | ok r => rfl
        | error e => rfl
      | error e =>
        simp only
        by_cases hg : goesOn cd e.error = true
        · rw [dif_pos (by exact hg), dif_pos hg]
          rcases chunkT_progress hc with hp | ⟨e', he, hp⟩
          · exact ih t1 (by omega)
          · cases he; rw [hp cd] at hg; cases hg
        · rw [dif_neg (by exact hg), dif_neg hg]

theorem filteredRawNext_eq (f : Keep σ) (cd : Bool) (pol : Pol) (fuel : Nat) : ∀ (q : σ) (s : Src),
    (toks s.evs).length < fuel →
    ∃ x s', filteredRawNext f cd pol fuel (q, s) = (x, (defaultT f cd s.stuck q (toks s.evs)).2.1, s') ∧
      x.map Prod.snd = (defaultT f cd s.stuck q (toks s.evs)).1 ∧
      (∀ raw r, x = some (raw, r) → raw.parse = .ok r ∧ Frame raw raw.bytes) ∧
      toks s'.evs = (defaultT f cd s.stuck q (toks s.evs)).2.2 ∧ s'.stuck = s.stuck := by
  induction fuel with
  | zero => intro q s h; omega
  | succ fuel ih =>
    intro q s hf
    obtain ⟨s1, h1, h2, h3⟩ := rawNext_eq cd pol (s.size + 1) s (by have := toks_length s; omega)
    rw [defaultT_raw f cd s.stuck q _ _ (Nat.le_refl _)]
    simp only [filteredRawNext, h1]
    cases hc : rawT cd s.stuck (toks s.evs) with
    | mk x t1 =>
      rw [hc] at h2
      simp only at h2
      cases x with
      | none => exact ⟨none, s1, rfl, rfl, by simp, h2, h3⟩
      | some raw =>
        obtain ⟨hfr, hl⟩ := rawT_progress cd s.stuck _ _ _ _ (Nat.le_refl _) hc
        simp only
        cases hr : raw.parse with
        | error e =>
          simp only
          by_cases hg : goesOn cd e = true
          · rw [if_pos hg, if_pos hg]
            obtain ⟨x, s2, g1, g2, g3, g4, g5⟩ := ih q s1 (by rw [h2]; omega)
            rw [h2, h3] at g1 g2 g4
            exact ⟨x, s2, g1, g2, g3, g4, g5.trans h3⟩
          · rw [if_neg hg, if_neg hg]
            exact ⟨none, s1, rfl, rfl, by simp, h2, h3⟩
        | ok r =>
          simp only
          obtain ⟨x, s2, g1, g2, g3, g4, g5⟩ := ih (f.step q r).2 s1 (by rw [h2]; omega)
          rw [h2, h3] at g1 g2 g4
          rcases hs : f.step q r with ⟨b, q'⟩
          rw [hs] at g1 g2 g4
          cases b with
          | true =>
            refine ⟨some (raw, r), s1, rfl, rfl, ?_, h2, h3⟩
            intro raw' r' he
            cases he
            exact ⟨hr, hfr⟩
          | false => exact ⟨x, s2, g1, g2, g3, g4, g5.trans h3⟩

/-! ### loops -/

/-- Two iterators in step with each other: related states give the same items and related states. -/
theorem forLoop_sim {next : S → Option α × S} {next' : T → Option β × T} (R : S → T → Prop) (P : α → β → Prop)
    (h : ∀ s t, R s t → R (next s).2 (next' t).2 ∧
      ((next s).1 = none ∧ (next' t).1 = none ∨ ∃ a b, (next s).1 = some a ∧ (next' t).1 = some b ∧ P a b)) :
    ∀ (n : Nat) (s : S) (t : T), R s t → Pairwise2 P (forLoop next n s).1 (forLoop next' n t).1 ∧
      (forLoop next n s).2.1 = (forLoop next' n t).2.1 ∧ R (forLoop next n s).2.2 (forLoop next' n t).2.2 := by
  intro n
  induction n with
  | zero => intro s t hr; exact ⟨.nil, rfl, hr⟩
  | succ n ih =>
    intro s t hr
    obtain ⟨h1, h2⟩ := h s t hr
    simp only [forLoop]
    cases hs : next s with
    | mk x s' =>
      cases ht : next' t with
      | mk y t' =>
        rw [hs, ht] at h1 h2
        simp only at h1 h2
        rcases h2 with ⟨rfl, rfl⟩ | ⟨a, b, rfl, rfl, hp⟩
        · exact ⟨.nil, rfl, h1⟩
        · obtain ⟨g1, g2, g3⟩ := ih s' t' h1
          exact ⟨.cons hp g1, g2, g3⟩

theorem Pairwise2_eq {as bs : List α} (h : Pairwise2 (· = ·) as bs) : as = bs := by
  induction h with
  | nil => rfl
  | cons h _ ih => rw [h, ih]

end Verif
