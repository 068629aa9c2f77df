import Verif.Spec.RawRuns
import Verif.Props.Settings
/-
C93: raw records with filters. C94: files of raw records.
-/
namespace Verif.Props
open Spec

variable {env : TextEnv}

/-- two runs that differ in the remark about Zebra records at most. -/
structure SameBut (p : Parser env) (w : World) (p' : Parser env) (w' : World) : Prop where
  input : p'.input = p.input
  filters : p'.filters = p.filters
  dumps : p'.coreDump = p.coreDump
  warnings : p'.showWarnings = p.showWarnings
  talk : Talk w'.log = Talk w.log
  dump : w'.dump = w.dump
  warned : p.warnedZebra = true → p'.warnedZebra = true
  zebras : (Zebras w'.log).length + p.warnedZebra.toNat = (Zebras w.log).length + p'.warnedZebra.toNat

theorem handleError_same {p p' : Parser env} {w w' : World} (h : SameBut p w p' w') (e : RecErr) :
    (p'.handleError w' e).1 = (p.handleError w e).1 ∧ SameBut p (p.handleError w e).2 p' (p'.handleError w' e).2 := by
  obtain ⟨h1, h2, h3, h4, h5, h6, h7, h8⟩ := h
  have h5' := h5
  unfold Talk at h5'
  simp only [ne_eq, decide_not] at h5'
  unfold Zebras at h8
  refine ⟨by unfold Parser.handleError; rw [h3]; cases e.error <;> rfl, h1, h2, h3, h4, ?_, ?_, h7, ?_⟩ <;>
  · unfold Parser.handleError
    rw [h3, h4]
    cases hc : p.coreDump <;> cases hsw : p.showWarnings <;> cases e.error <;> cases e.bytes <;>
      simp [World.warn, World.fail, World.writeDump, Talk, Zebras, List.filter_append, h5', h6, h8]

theorem warnZebra_left {p p' : Parser env} {w w' : World} (h : SameBut p w p' w') :
    SameBut p w (p'.warnZebra w').1 (p'.warnZebra w').2 := by
  obtain ⟨h1, h2, h3, h4, h5, h6, h7, h8⟩ := h
  unfold Parser.warnZebra
  cases hs : p'.showWarnings <;> cases hz : p'.warnedZebra <;> simp
  · exact ⟨h1, h2, h3, h4, h5, h6, h7, h8⟩
  · exact ⟨h1, h2, h3, h4, h5, h6, h7, h8⟩
  · refine ⟨h1, h2, h3, by rw [← h4, hs], by simpa [Talk] using h5, h6, fun _ => rfl, ?_⟩
    rw [hz] at h8
    simp [Zebras] at h8 ⊢
    omega
  · exact ⟨h1, h2, h3, h4, h5, h6, h7, h8⟩

theorem warnZebra_both {p p' : Parser env} {w w' : World} (h : SameBut p w p' w') :
    SameBut (p.warnZebra w).1 (p.warnZebra w).2 (p'.warnZebra w').1 (p'.warnZebra w').2 := by
  obtain ⟨h1, h2, h3, h4, h5, h6, h7, h8⟩ := h
  unfold Parser.warnZebra
  rw [h4]
  cases hs : p.showWarnings
  · simp only [Bool.false_and, Bool.false_eq_true, if_false]
    exact ⟨h1, h2, h3, h4, h5, h6, h7, h8⟩
  · cases hz : p.warnedZebra
    · rw [hz] at h8
      cases hz' : p'.warnedZebra
      · rw [hz'] at h8
        simp
        exact ⟨h1, h2, h3, by simp [h4, hs], by simpa [Talk] using h5, h6, fun _ => rfl, by simp [Zebras] at h8 ⊢; omega⟩
      · rw [hz'] at h8
        simp
        exact ⟨h1, h2, h3, by simp [h4, hs], by simpa [Talk] using h5, h6, fun _ => hz', by simp [Zebras, hz'] at h8 ⊢; omega⟩
    · have hz' := h7 hz
      simp [hz']
      exact ⟨h1, h2, h3, h4, h5, h6, h7, h8⟩

theorem chunk_next (pol : Pol) (s : Src) :
    (toks (chunk pol s).2.evs).length + 12 ≤ (toks s.evs).length ∨
    ∃ e, (chunk pol s).1 = .error e ∧ ∀ cd, goesOn cd e.error = false := by
  obtain ⟨s', h1, h2, h3⟩ := chunk_eq pol s
  rw [h1]
  simp only
  rcases hc : chunkT s.stuck (toks s.evs) with ⟨x, t⟩
  rw [hc] at h2
  rcases chunkT_progress hc with h | ⟨e, rfl, h⟩
  · left; rw [h2]; exact h
  · right; exact ⟨e.toRec, rfl, h⟩

/-- the raw loop does not depend on spare fuel. -/
theorem rawLoop_fuel (pol : Pol) (n : Nat) : ∀ (it : RawRun env) (s : Src), it.parser.input = .mrt s → (toks s.evs).length < n →
    ∀ m, (toks s.evs).length < m → it.loop pol n = it.loop pol m := by
  induction n with
  | zero => intro it s _ h; omega
  | succ n ih =>
    intro it s hs hn m hm
    cases m with
    | zero => omega
    | succ m =>
      simp only [RawRun.loop, hs]
      have hp := chunk_next pol s
      rcases hx : chunk pol s with ⟨x, s1⟩
      rw [hx] at hp
      cases x with
      | ok r => rfl
      | error e =>
        have hg := handleError_goesOn it.parser it.world e
        rcases hh : it.parser.handleError it.world e with ⟨g, w⟩
        rw [hh] at hg
        simp only [hh]
        cases g with
        | false => rfl
        | true =>
          rcases hp with hp | ⟨e', he, hp⟩
          · simp only at hp
            exact ih ⟨{ it.parser with input := .mrt s1 }, w⟩ s1 rfl (by omega) m (by omega)
          · cases he; rw [hp] at hg; cases hg

theorem rawNext_fuel (pol : Pol) (it : RawRun env) (s : Src) (hs : it.parser.input = .mrt s) (n : Nat) (hn : (toks s.evs).length < n) :
    it.next pol = it.loop pol n := by
  have hsz := toks_length s
  have : it.next pol = it.loop pol (s.size + 1) := by unfold RawRun.next; simp only [hs, Input.size]
  rw [this]
  exact rawLoop_fuel pol _ it s hs (by omega) n hn

/-- one call of both iterators. -/
theorem call_same (pol : Pol) (n : Nat) : ∀ (it : RecordRun env) (ft : FilteredRun env) (s : Src), it.parser.input = .mrt s →
    SameBut it.parser it.world ft.inner.parser ft.inner.world → ft.filters = it.parser.filters → ft.elementor = it.elementor →
    (toks s.evs).length < n → ∀ m, (toks s.evs).length < m →
    (it.loop pol n).1 = (ft.loop pol m).1.map Prod.snd ∧ (∀ x, (ft.loop pol m).1 = some x → x.1.parse = .ok x.2 ∧ Frame x.1 x.1.bytes) ∧
      SameBut (it.loop pol n).2.parser (it.loop pol n).2.world (ft.loop pol m).2.inner.parser (ft.loop pol m).2.inner.world ∧
      (ft.loop pol m).2.filters = (it.loop pol n).2.parser.filters ∧ (ft.loop pol m).2.elementor = (it.loop pol n).2.elementor := by
  induction n with
  | zero => intro it ft s _ _ _ _ h; omega
  | succ n ih =>
    rintro ⟨p, el, w⟩ ⟨⟨p', w'⟩, el', fs⟩ s hs hsame hf he hn m hm
    simp only at hs hsame hf he
    subst hf he
    have hs' : p'.input = .mrt s := hsame.input.trans hs
    cases m with
    | zero => omega
    | succ m =>
      have hp := chunk_next pol s
      have hraw := rawNext_fuel pol (⟨p', w'⟩ : RawRun env) s hs' _ (Nat.lt_succ_self _)
      simp only [RawRun.loop, hs'] at hraw
      rcases hx : chunk pol s with ⟨x, s1⟩
      rw [hx] at hp hraw
      have hmove : ∀ {q q' : Parser env} {v v' : World}, SameBut q v q' v' →
          SameBut { q with input := .mrt s1 } v { q' with input := .mrt s1 } v' := fun h =>
        ⟨rfl, h.filters, h.dumps, h.warnings, h.talk, h.dump, h.warned, h.zebras⟩
      cases x with
      | error e =>
        obtain ⟨k1, k2⟩ := handleError_same hsame e
        have hin : ∀ v : World, ({ p with input := .mrt s1 } : Parser env).handleError v e = p.handleError v e := fun v => rfl
        have hg := handleError_goesOn p w e
        simp only [RecordRun.loop, Parser.nextRecord, hs, hx, hin]
        rcases hh : p.handleError w e with ⟨g, w1⟩
        rcases hh' : p'.handleError w' e with ⟨g', w1'⟩
        rw [hh, hh'] at k1 k2
        rw [hh] at hg
        simp only at k1 k2 hg
        subst k1
        simp only [hh'] at hraw
        cases g' with
        | false =>
          simp only at hraw
          simp only [FilteredRun.loop, hraw]
          exact ⟨rfl, fun x h => by (cases h), hmove k2, trivial, trivial⟩
        | true =>
          have hp : (toks s1.evs).length + 12 ≤ (toks s.evs).length := by
            rcases hp with hp | ⟨e', h1, h2⟩
            · exact hp
            · cases h1; rw [h2] at hg; cases hg
          simp only at hraw
          rw [← rawNext_fuel pol ⟨{ p' with input := .mrt s1 }, w1'⟩ s1 rfl _ (by omega)] at hraw
          have hl : FilteredRun.loop pol (m + 1) ⟨⟨p', w'⟩, el', p.filters⟩ =
              FilteredRun.loop pol (m + 1) ⟨⟨{ p' with input := .mrt s1 }, w1'⟩, el', p.filters⟩ := by
            simp only [FilteredRun.loop, hraw]
          rw [hl]
          exact ih ⟨{ p with input := .mrt s1 }, el', w1⟩ ⟨⟨{ p' with input := .mrt s1 }, w1'⟩, el', p.filters⟩ s1 rfl (hmove k2) rfl rfl
            (by omega) _ (by omega)
      | ok raw =>
        have hp : (toks s1.evs).length + 12 ≤ (toks s.evs).length := by
          rcases hp with hp | ⟨e', h1, h2⟩
          · exact hp
          · cases h1
        have hfr : Frame raw raw.bytes := by
          obtain ⟨s2, k1, _, _⟩ := chunk_eq pol s
          rw [hx] at k1
          rcases hc : chunkT s.stuck (toks s.evs) with ⟨y, t⟩
          rw [hc] at k1
          cases y with
          | error er => cases congrArg Prod.fst k1
          | ok r' => cases congrArg Prod.fst k1; exact (chunkT_ok hc).1
        simp only at hraw
        have hsame1 := hmove hsame
        simp only [RecordRun.loop, FilteredRun.loop, Parser.nextRecord, hs, hx, hraw]
        cases hpr : raw.parse with
        | error e =>
          simp only
          have hz : ∃ p2 w2, (if raw.zebra = true then ({ p' with input := .mrt s1 } : Parser env).warnZebra w' else ({ p' with input := .mrt s1 }, w')) = (p2, w2) ∧
              SameBut { p with input := .mrt s1 } w p2 w2 := by
            by_cases hz : raw.zebra = true
            · rw [if_pos hz]; exact ⟨_, _, rfl, warnZebra_left hsame1⟩
            · rw [if_neg hz]; exact ⟨_, _, rfl, hsame1⟩
          obtain ⟨p2, w2, hz1, hz2⟩ := hz
          rw [hz1]
          simp only
          obtain ⟨k1, k2⟩ := handleError_same hz2 ⟨e, some raw.bytes⟩
          rcases hh : ({ p with input := .mrt s1 } : Parser env).handleError w ⟨e, some raw.bytes⟩ with ⟨g, w3⟩
          rcases hh' : p2.handleError w2 ⟨e, some raw.bytes⟩ with ⟨g', w3'⟩
          rw [hh, hh'] at k1 k2
          simp only at k1 k2
          subst k1
          cases g' with
          | false => exact ⟨rfl, fun x h => by (cases h), k2, rfl, rfl⟩
          | true =>
            exact ih ⟨{ p with input := .mrt s1 }, el', w3⟩ ⟨⟨p2, w3'⟩, el', p.filters⟩ s1 rfl k2 rfl rfl (by omega) _ (by omega)
        | ok r =>
          simp only
          have hz : ∃ p1 w1 p2 w2, (if raw.zebra = true then ({ p with input := .mrt s1 } : Parser env).warnZebra w else ({ p with input := .mrt s1 }, w)) = (p1, w1) ∧
              (if raw.zebra = true then ({ p' with input := .mrt s1 } : Parser env).warnZebra w' else ({ p' with input := .mrt s1 }, w')) = (p2, w2) ∧
              SameBut p1 w1 p2 w2 ∧ p1.input = .mrt s1 ∧ p1.filters = p.filters := by
            by_cases hz : raw.zebra = true
            · simp only [if_pos hz]; exact ⟨_, _, _, _, rfl, rfl, warnZebra_both hsame1, (warnZebra_input _ _).1, (warnZebra_input _ _).2.1⟩
            · simp only [if_neg hz]; exact ⟨_, _, _, _, rfl, rfl, hsame1, rfl, rfl⟩
          obtain ⟨p1, w1, p2, w2, hz1, hz2, hz3, hz4, hz5⟩ := hz
          rw [hz1, hz2]
          simp only [hz5]
          by_cases hE : p.filters.isEmpty = true
          · have hst : (filterKeep env p.filters).step el' r = (true, el') := by
              simp only [filterKeep, hE, if_true]
            simp only [hE, if_true, hst]
            refine ⟨rfl, fun x h => by (cases h; exact ⟨hpr, hfr⟩), hz3, hz5.symm, ?_⟩
            trivial
          · simp only [hE, Bool.false_eq_true, if_false]
            rcases (filterKeep env p.filters).step el' r with ⟨b, el2⟩
            cases b with
            | true => exact ⟨rfl, fun x h => by (cases h; exact ⟨hpr, hfr⟩), hz3, hz5.symm, rfl⟩
            | false => exact ih ⟨p1, el2, w1⟩ ⟨⟨p2, w2⟩, el2, p.filters⟩ s1 hz4 hz3 hz5.symm rfl (by omega) _ (by omega)

theorem filtered_next (pol : Pol) (ft : FilteredRun env) (s : Src) (hs : ft.inner.parser.input = .mrt s) :
    ft.next pol = ft.loop pol (s.size + 1) := by
  unfold FilteredRun.next
  rw [hs]
  rfl

theorem raw_next_text (pol : Pol) (it : RawRun env) (t : TextIter) (ht : it.parser.input = .text t) : it.next pol = (none, it) := by
  unfold RawRun.next
  rw [ht]

/-- both iterators run to their end. -/
theorem run_same (pol : Pol) (m : Nat) : ∀ (it : RecordRun env) (ft : FilteredRun env) (s : Src), it.parser.input = .mrt s →
    SameBut it.parser it.world ft.inner.parser ft.inner.world → ft.filters = it.parser.filters → ft.elementor = it.elementor →
    (toks s.evs).length = m → ∃ pairs it' ft', Gives (filteredStep pol) ft pairs ∧ Leaves (filteredStep pol) ft ft' ∧
      Gives (recordStep pol) it (pairs.map Prod.snd) ∧ Leaves (recordStep pol) it it' ∧
      (∀ x ∈ pairs, x.1.parse = .ok x.2 ∧ Frame x.1 x.1.bytes) ∧
      SameBut it'.parser it'.world ft'.inner.parser ft'.inner.world := by
  induction m using Nat.strongRecOn with
  | _ m ih =>
    intro it ft s hs hsame hf he hm
    have hsz := toks_length s
    have hs' : ft.inner.parser.input = .mrt s := hsame.input.trans hs
    obtain ⟨h1, h2, h3, h4, h5⟩ := call_same pol ((toks s.evs).length + 1) it ft s hs hsame hf he (by omega) (s.size + 1) (by omega)
    obtain ⟨s', g1, g2⟩ := next_progress pol ((toks s.evs).length + 1) it s hs
    rw [← next_eq_loop pol it s hs _ (Nat.lt_succ_self _)] at h1 h3 h4 h5 g1 g2
    rw [← filtered_next pol ft s hs'] at h1 h2 h3 h4 h5
    cases hx : (ft.next pol).1 with
    | none =>
      rw [hx] at h1
      exact ⟨[], _, _, .done (by rw [filteredStep, hx]), .done (by rw [filteredStep, hx]), .done (by rw [recordStep, h1]; rfl),
        .done (by rw [recordStep, h1]; rfl), by simp, h3⟩
    | some x =>
      rw [hx] at h1
      have hlt := g2 x.2 h1
      obtain ⟨pairs, it', ft', k1, k2, k3, k4, k5, k6⟩ := ih (toks s'.evs).length (by omega) (it.next pol).2 (ft.next pol).2 s' g1 h3 h4 h5 rfl
      exact ⟨x :: pairs, it', ft', .item (by rw [filteredStep, hx]) k1, .item (e := x) (by rw [filteredStep, hx]) k2,
        .item (by rw [recordStep, h1]; rfl) k3, .item (e := x.2) (by rw [recordStep, h1]; rfl) k4,
        List.forall_mem_cons.mpr ⟨h2 x hx, k5⟩, k6⟩

theorem zebra_count (l : List LogLine) : l.count .zebra = (Zebras l).length := by
  rw [List.count_eq_countP, List.countP_eq_length_filter]
  unfold Zebras
  have e : (fun x : LogLine => x == .zebra) = fun x => decide (x = .zebra) := rfl
  rw [e]

/-- C93: whatever the reader does, the filtered raw iterator gives the records of the record iterator, each with the bytes it was
parsed from, and leaves behind the same core dump and the same log. Missing from the full property: the remark about Zebra records, which
need not be at the same place and is not always in both logs (`c93_zebra`, `c91_file`, `c93_zebra_differs`). -/
theorem c93_same_partial (pol : Pol) (p : Parser env) (w : World) (s : Src) (hs : p.input = .mrt s) :
    ∃ pairs it ft, Gives (filteredStep pol) (p.filteredRaws w) pairs ∧ Leaves (filteredStep pol) (p.filteredRaws w) ft ∧
      Gives (recordStep pol) (p.records w) (pairs.map Prod.snd) ∧ Leaves (recordStep pol) (p.records w) it ∧
      (∀ x ∈ pairs, x.1.parse = .ok x.2 ∧ Frame x.1 x.1.bytes) ∧
      ft.inner.world.dump = it.world.dump ∧
      ft.inner.world.log.filter (· ≠ .zebra) = it.world.log.filter (· ≠ .zebra) := by
  obtain ⟨pairs, it, ft, h1, h2, h3, h4, h5, h6⟩ := run_same pol _ (p.records w) (p.filteredRaws w) s hs
    ⟨rfl, rfl, rfl, rfl, rfl, rfl, id, rfl⟩ rfl rfl rfl
  exact ⟨pairs, it, ft, h1, h2, h3, h4, h5, h6.dump, h6.talk⟩

/-! ### files -/

theorem raw_next_ok (pol : Pol) (it : RawRun env) (s s1 : Src) (hs : it.parser.input = .mrt s) {raw : Raw} (h : chunk pol s = (.ok raw, s1)) :
    it.next pol = (some raw, { it with parser := { it.parser with input := .mrt s1 } }) := by
  rw [rawNext_fuel pol it s hs _ (Nat.lt_succ_self _)]
  simp only [RawRun.loop, hs, h]

theorem raw_next_stop (pol : Pol) (it : RawRun env) (s s1 : Src) (hs : it.parser.input = .mrt s) {e : RecErr} (h : chunk pol s = (.error e, s1))
    (hg : goesOn it.parser.coreDump e.error = false) :
    it.next pol = (none, ⟨{ it.parser with input := .mrt s1 }, (it.parser.handleError it.world e).2⟩) := by
  rw [rawNext_fuel pol it s hs _ (Nat.lt_succ_self _)]
  rw [← handleError_goesOn it.parser it.world e] at hg
  simp only [RawRun.loop, hs, h]
  rcases hh : it.parser.handleError it.world e with ⟨g, w1⟩
  rw [hh] at hg
  simp only at hg
  subst hg
  rfl

/-- a run of the raw iterator over records and something that ends it. -/
theorem raw_run (pol : Pol) {rs : List Raw} {b tail : Bytes} {er : ChunkErr} {t' : List Tok} (hb : Blocks Frame rs b)
    (ht : chunkT none (byteToks tail) = (.error er, t')) : ∀ (it : RawRun env) (s : Src), it.parser.input = .mrt s →
    goesOn it.parser.coreDump er.error = false → Delivers s (b ++ tail) →
    Gives (rawStep pol) it rs ∧ ∃ it', Leaves (rawStep pol) it it' ∧ it'.world = (it.parser.handleError it.world er.toRec).2 := by
  induction hb with
  | nil =>
    intro it s hs hg hd
    obtain ⟨s1, k1, _, _⟩ := chunk_eq pol s
    rw [hd.1, hd.2, List.nil_append, ht] at k1
    have hn := raw_next_stop pol it s s1 hs k1 hg
    exact ⟨.done (by rw [rawStep, hn]), _, .done (by rw [rawStep, hn]), by rw [rawStep, hn]⟩
  | @cons raw rs b0 rest hf _ ih =>
    intro it s hs hg hd
    obtain ⟨s1, g1, g2, g3⟩ := c21_record_read pol s raw b0 (byteToks (rest ++ tail)) hf (by rw [hd.1, List.append_assoc, byteToks_append])
    have hn := raw_next_ok pol it s s1 hs g1
    obtain ⟨k1, it', k2, k3⟩ := ih { it with parser := { it.parser with input := .mrt s1 } } s1 rfl hg ⟨g2, g3.trans hd.2⟩
    exact ⟨.item (by rw [rawStep, hn]) (by rw [rawStep, hn]; exact k1), it', .item (e := raw) (by rw [rawStep, hn]) (by rw [rawStep, hn]; exact k2), k3⟩

theorem torn_chunk {raw : Raw} {part : Bytes} (hf : Frame raw raw.bytes) (hp : Torn raw part) :
    ∃ er t', chunkT none (byteToks part) = (.error er, t') ∧ er.bytes = some part ∧ (er.error = .eof ∨ er.error = .ioEof) := by
  obtain ⟨h0, rest, h1, h2⟩ := hp
  have hc := chunkT_complete none (t' := []) hf
  rw [List.append_nil, h2, byteToks_append] at hc
  rcases hx : chunkT none (byteToks part) with ⟨x, t⟩
  cases x with
  | ok r' =>
    obtain ⟨k1, k2⟩ := chunkT_ok hx
    have := chunkT_complete none (t' := t ++ byteToks rest) k1
    rw [← List.append_assoc, ← k2, hc] at this
    have := congrArg Prod.snd this
    simp only at this
    have := congrArg List.length this
    rw [List.length_append, byteToks_length] at this
    have := List.length_pos_iff.mpr h1
    simp at *
    omega
  | error er =>
    refine ⟨er, t, rfl, ?_⟩
    rcases chunkT_error hx with ⟨b, g1, g2, g3, ⟨_, g4⟩ | ⟨_, h, g4, g5⟩⟩ | ⟨b, e, st, g1, g2, g3, g4⟩
    · rw [g2, List.append_assoc, chunkT_bad none _ g4] at hc
      cases hc
    · rw [g2, List.append_assoc, chunkT_long none _ g4 g5] at hc
      cases hc
    · have hst := ends_none g2 g3
      obtain ⟨k1, _⟩ := byteToks_ends g2 g3
      subst k1 hst
      rcases g4 with ⟨_, _, h, _⟩ | ⟨h, h', _⟩ | ⟨h, h', _⟩
      · exact absurd h h0
      · exact ⟨h', .inl h⟩
      · exact ⟨h', .inr h⟩

/-- C93: iterating over the raw records of a file gives all of them, whether they parse or not, and leaves the log and the core
dump alone. -/
theorem c93_raw {rs : List Raw} {b : Bytes} (hb : Blocks Frame rs b) : ReadsAs b rs := by
  intro env pol p w s hs hd
  have h0 : chunkT none (byteToks []) = (.error ⟨.eofExpected, none, none⟩, []) := rfl
  exact raw_run pol hb h0 (p.raws w) s hs (by cases h : (p.raws w).parser.coreDump <;> rfl) (by rwa [List.append_nil])

/-- C93: a text dump has no raw records, and nothing happens. -/
theorem c93_text (pol : Pol) (p : Parser env) (w : World) (t : TextIter) (ht : p.input = .text t) :
    Gives (rawStep pol) (p.raws w) [] ∧ Gives (filteredStep pol) (p.filteredRaws w) [] ∧
    Leaves (rawStep pol) (p.raws w) (p.raws w) ∧ Leaves (filteredStep pol) (p.filteredRaws w) (p.filteredRaws w) := by
  have h1 := raw_next_text pol (p.raws w) t ht
  have h2 : (p.filteredRaws w).next pol = (none, p.filteredRaws w) := by
    unfold FilteredRun.next
    simp only [FilteredRun.loop]
    have : (p.filteredRaws w).inner = p.raws w := rfl
    simp only [this, h1]
    rfl
  have e1 : rawStep pol (p.raws w) = (.ok none, p.raws w) := by rw [rawStep, h1]
  have e2 : filteredStep pol (p.filteredRaws w) = (.ok none, p.filteredRaws w) := by rw [filteredStep, h2]
  have k1 := Leaves.done (next := rawStep pol) (s := p.raws w) (by rw [e1])
  have k2 := Leaves.done (next := filteredStep pol) (s := p.filteredRaws w) (by rw [e2])
  rw [e1] at k1
  rw [e2] at k2
  exact ⟨.done (by rw [e1]), .done (by rw [e2]), k1, k2⟩

/-! ### the remark about Zebra records -/

theorem shortShape_iff (raw : Raw) : ShortShape raw ↔ raw.zebra = true := by
  have ht : (raw.header.type = .bgp4mp ∨ raw.header.type = .bgp4mpEt) ∧ usesZebraCompat raw.header.subtype raw.body = true ↔
      raw.zebra = true := by
    unfold Raw.zebra
    cases raw.header.type <;> simp
  rw [← ht]
  have hu : usesZebraCompat raw.header.subtype raw.body = true ↔
      (raw.header.subtype = 0 ∧ raw.body.length = 8 ∨
     (raw.header.subtype = 1 ∨ raw.header.subtype = 6 ∨ raw.header.subtype = 8 ∨ raw.header.subtype = 10) ∧
       ∃ asns len rest, raw.body = asns ++ List.replicate 16 0xFF ++ len ++ 1 :: rest ∧ asns.length = 4 ∧ len.length = 2) := by
    rw [← short_open]
    unfold usesZebraCompat MpType.ofU16?
    generalize raw.header.subtype = x
    by_cases h0 : x = 0
    · subst h0; simp
    by_cases h1 : x = 1
    · subst h1; simp
    by_cases h4 : x = 4
    · subst h4; simp
    by_cases h5 : x = 5
    · subst h5; simp
    by_cases h6 : x = 6
    · subst h6; simp
    by_cases h7 : x = 7
    · subst h7; simp
    by_cases h8 : x = 8
    · subst h8; simp
    by_cases h9 : x = 9
    · subst h9; simp
    by_cases h10 : x = 10
    · subst h10; simp
    by_cases h11 : x = 11
    · subst h11; simp
    simp [h0, h1, h4, h5, h6, h7, h8, h9, h10, h11]
  rw [hu]
  exact Iff.rfl

theorem rawLoop_progress (pol : Pol) (n : Nat) : ∀ (it : RawRun env) (s : Src), it.parser.input = .mrt s →
    ∃ s', (it.loop pol n).2.parser.input = .mrt s' ∧ ((it.loop pol n).1.isSome = true → (toks s'.evs).length + 12 ≤ (toks s.evs).length) := by
  induction n with
  | zero => intro it s hs; exact ⟨s, hs, fun h => by cases h⟩
  | succ n ih =>
    intro it s hs
    have hp := chunk_next pol s
    simp only [RawRun.loop, hs]
    rcases hx : chunk pol s with ⟨x, s1⟩
    rw [hx] at hp
    cases x with
    | ok r =>
      rcases hp with hp | ⟨e, he, _⟩
      · exact ⟨s1, rfl, fun _ => hp⟩
      · cases he
    | error e =>
      have hg := handleError_goesOn it.parser it.world e
      rcases hh : it.parser.handleError it.world e with ⟨g, w⟩
      rw [hh] at hg
      simp only [hh]
      cases g with
      | false => exact ⟨s1, rfl, fun h => by cases h⟩
      | true =>
        obtain ⟨s', k1, k2⟩ := ih ⟨{ it.parser with input := .mrt s1 }, w⟩ s1 rfl
        rcases hp with hp | ⟨e', he, hp⟩
        · simp only at hp
          exact ⟨s', k1, fun h => by have := k2 h; omega⟩
        · cases he; rw [hp] at hg; cases hg

theorem filtered_fuel (pol : Pol) (n : Nat) : ∀ (ft : FilteredRun env) (s : Src), ft.inner.parser.input = .mrt s →
    (toks s.evs).length < n → ∀ m, (toks s.evs).length < m → ft.loop pol n = ft.loop pol m := by
  induction n with
  | zero => intro ft s _ h; omega
  | succ n ih =>
    intro ft s hs hn m hm
    cases m with
    | zero => omega
    | succ m =>
      obtain ⟨s', k1, k2⟩ := rawLoop_progress pol ((toks s.evs).length + 1) ft.inner s hs
      rw [← rawNext_fuel pol ft.inner s hs _ (Nat.lt_succ_self _)] at k1 k2
      simp only [FilteredRun.loop]
      rcases hx : ft.inner.next pol with ⟨x, inner⟩
      rw [hx] at k1 k2
      cases x with
      | none => rfl
      | some raw =>
        have hlt := k2 rfl
        simp only
        have hz : ∃ p w, (if raw.zebra = true then inner.parser.warnZebra inner.world else (inner.parser, inner.world)) = (p, w) ∧ p.input = .mrt s' := by
          by_cases hz : raw.zebra = true
          · rw [if_pos hz]; exact ⟨_, _, rfl, (warnZebra_input _ _).1.trans k1⟩
          · rw [if_neg hz]; exact ⟨_, _, rfl, k1⟩
        obtain ⟨p, w, hz1, hz2⟩ := hz
        rw [hz1]
        simp only
        cases raw.parse with
        | error e =>
          simp only
          rcases p.handleError w ⟨e, some raw.bytes⟩ with ⟨g, w'⟩
          cases g with
          | false => rfl
          | true => exact ih _ s' hz2 (by omega) m (by omega)
        | ok r =>
          simp only
          by_cases hE : ft.filters.isEmpty = true
          · simp only [hE, if_true]
          · simp only [hE, Bool.false_eq_true, if_false]
            rcases (filterKeep env ft.filters).step ft.elementor r with ⟨b, el⟩
            cases b with
            | true => rfl
            | false => exact ih _ s' hz2 (by omega) m (by omega)

theorem filtered_next' (pol : Pol) (ft : FilteredRun env) (s : Src) (hs : ft.inner.parser.input = .mrt s) (n : Nat) (hn : (toks s.evs).length < n) :
    ft.next pol = ft.loop pol n := by
  have hsz := toks_length s
  rw [filtered_next pol ft s hs]
  exact filtered_fuel pol _ ft s hs (by omega) n hn

theorem filtered_stays {pol : Pol} {a b : FilteredRun env} (h : a.next pol = b.next pol) {c : FilteredRun env} (hl : Leaves (filteredStep pol) b c) :
    Leaves (filteredStep pol) a c := by
  have : filteredStep pol a = filteredStep pol b := by unfold filteredStep; rw [h]
  exact (leaves_same this).mpr hl

/-- what the filtered iterator does at one record of a file. -/
theorem filtered_record (pol : Pol) (ft : FilteredRun env) (s s1 : Src) (hs : ft.inner.parser.input = .mrt s) {raw : Raw}
    (h : chunk pol s = (.ok raw, s1)) (hlt : (toks s1.evs).length < (toks s.evs).length) :
    ∃ p w, (if raw.zebra = true then ({ ft.inner.parser with input := .mrt s1 } : Parser env).warnZebra ft.inner.world
        else ({ ft.inner.parser with input := .mrt s1 }, ft.inner.world)) = (p, w) ∧
      match raw.parse with
      | .error e => if goesOn p.coreDump e = true
          then ∀ c, Leaves (filteredStep pol) { ft with inner := ⟨p, (p.handleError w ⟨e, some raw.bytes⟩).2⟩ } c → Leaves (filteredStep pol) ft c
          else Leaves (filteredStep pol) ft { ft with inner := ⟨p, (p.handleError w ⟨e, some raw.bytes⟩).2⟩ }
      | .ok _ => ∃ el, ∀ c, Leaves (filteredStep pol) { ft with inner := ⟨p, w⟩, elementor := el } c → Leaves (filteredStep pol) ft c := by
  have hn := filtered_next' pol ft s hs _ (Nat.lt_succ_self _)
  have hr := raw_next_ok pol ft.inner s s1 hs h
  simp only [FilteredRun.loop, hr] at hn
  rcases hz : (if raw.zebra = true then ({ ft.inner.parser with input := .mrt s1 } : Parser env).warnZebra ft.inner.world
        else ({ ft.inner.parser with input := .mrt s1 }, ft.inner.world)) with ⟨p, w⟩
  have hpi : p.input = .mrt s1 := by
    by_cases hz' : raw.zebra = true
    · rw [if_pos hz'] at hz
      have := (warnZebra_input ({ ft.inner.parser with input := .mrt s1 } : Parser env) ft.inner.world).1
      rw [hz] at this; exact this
    · rw [if_neg hz'] at hz; cases hz; rfl
  rw [hz] at hn
  refine ⟨p, w, rfl, ?_⟩
  cases hp : raw.parse with
  | error e =>
    simp only [hp] at hn ⊢
    rw [← handleError_goesOn p w ⟨e, some raw.bytes⟩]
    rcases hh : p.handleError w ⟨e, some raw.bytes⟩ with ⟨g, w'⟩
    rw [hh] at hn
    cases g with
    | true =>
      simp only at hn
      rw [← filtered_next' pol _ s1 hpi _ hlt] at hn
      rw [if_pos rfl]
      exact fun c hc => filtered_stays hn hc
    | false =>
      simp only at hn
      rw [if_neg (by simp)]
      have := Leaves.done (next := filteredStep pol) (s := ft) (by rw [filteredStep, hn])
      rwa [filteredStep, hn] at this
  | ok r =>
    simp only [hp] at hn ⊢
    by_cases hE : ft.filters.isEmpty = true
    · simp only [hE, if_true] at hn
      exact ⟨ft.elementor, fun c hc => .item (e := (raw, r)) (by rw [filteredStep, hn]) (by rw [filteredStep, hn]; exact hc)⟩
    · simp only [hE, Bool.false_eq_true, if_false] at hn
      rcases hk : (filterKeep env ft.filters).step ft.elementor r with ⟨b, el⟩
      rw [hk] at hn
      cases b with
      | true => exact ⟨el, fun c hc => .item (e := (raw, r)) (by rw [filteredStep, hn]) (by rw [filteredStep, hn]; exact hc)⟩
      | false =>
        simp only at hn
        rw [← filtered_next' pol _ s1 hpi _ hlt] at hn
        exact ⟨el, fun c hc => filtered_stays hn hc⟩

theorem zebra_run (pol : Pol) {rs : List Raw} {b : Bytes} (hb : Blocks Frame rs b) : ∀ (ft : FilteredRun env) (s : Src),
    ft.inner.parser.input = .mrt s → Delivers s b → ∃ ft', Leaves (filteredStep pol) ft ft' ∧
      (Zebras ft'.inner.world.log).length + ft.inner.parser.warnedZebra.toNat =
        (Zebras ft.inner.world.log).length + ft'.inner.parser.warnedZebra.toNat ∧
      (ft'.inner.parser.warnedZebra = true ↔ ft.inner.parser.warnedZebra = true ∨
        ft.inner.parser.showWarnings = true ∧ ∃ r ∈ lookedAt ft.inner.parser.coreDump rs, ShortShape r) := by
  induction hb with
  | nil =>
    intro ft s hs hd
    obtain ⟨s1, k1, _, _⟩ := chunk_eq pol s
    rw [hd.1, hd.2] at k1
    have k1 : chunk pol s = (.error ⟨.eofExpected, none⟩, s1) := k1
    have hn := filtered_next' pol ft s hs _ (Nat.lt_succ_self _)
    have hr := raw_next_stop pol ft.inner s s1 hs k1 (by cases h : ft.inner.parser.coreDump <;> rfl)
    simp only [FilteredRun.loop, hr] at hn
    have := Leaves.done (next := filteredStep pol) (s := ft) (by rw [filteredStep, hn])
    rw [filteredStep, hn] at this
    refine ⟨_, this, ?_, ?_⟩
    · simp only; rfl
    · simp [lookedAt]
  | @cons raw rs b0 rest hf _ ih =>
    intro ft s hs hd
    obtain ⟨s1, g1, g2, g3⟩ := c21_record_read pol s raw b0 (byteToks rest) hf (by rw [hd.1, byteToks_append])
    have hd1 : Delivers s1 rest := ⟨g2, g3.trans hd.2⟩
    have hlt : (toks s1.evs).length < (toks s.evs).length := by
      have := Frame_length hf
      rw [g2, hd.1, byteToks_length, byteToks_length, List.length_append]
      omega
    obtain ⟨p, w, hz, hrec⟩ := filtered_record pol ft s s1 hs g1 hlt
    have hq : p.input = .mrt s1 ∧ p.coreDump = ft.inner.parser.coreDump ∧ p.showWarnings = ft.inner.parser.showWarnings ∧
        (Zebras w.log).length + ft.inner.parser.warnedZebra.toNat = (Zebras ft.inner.world.log).length + p.warnedZebra.toNat ∧
        (p.warnedZebra = true ↔ ft.inner.parser.warnedZebra = true ∨ ft.inner.parser.showWarnings = true ∧ ShortShape raw) := by
      rw [shortShape_iff]
      by_cases hz' : raw.zebra = true
      · rw [if_pos hz'] at hz
        unfold Parser.warnZebra at hz
        simp only at hz
        cases h1 : ft.inner.parser.showWarnings <;> cases h2 : ft.inner.parser.warnedZebra <;> simp [h1, h2] at hz <;>
          obtain ⟨rfl, rfl⟩ := hz <;> simp [h1, h2, hz', Zebras]
      · rw [if_neg hz'] at hz
        cases hz
        simp [hz']
    obtain ⟨q1, q2, q3, q4, q5⟩ := hq
    cases hp : raw.parse with
    | ok r =>
      have hl : ¬ LastRead ft.inner.parser.coreDump raw := by rintro ⟨e, h, _⟩; rw [hp] at h; cases h
      simp only [hp] at hrec
      obtain ⟨el, hrec⟩ := hrec
      obtain ⟨ft', k1, k2, k3⟩ := ih { ft with inner := ⟨p, w⟩, elementor := el } s1 q1 hd1
      refine ⟨ft', hrec _ k1, by simp only at k2; omega, ?_⟩
      simp only at k3
      rw [k3, q5, q2, q3]
      simp only [lookedAt, if_neg hl, List.mem_cons, exists_eq_or_imp]
      constructor
      · rintro ((h | ⟨h, h'⟩) | ⟨h, h'⟩)
        · exact .inl h
        · exact .inr ⟨h, .inl h'⟩
        · exact .inr ⟨h, .inr h'⟩
      · rintro (h | ⟨h, h' | h'⟩)
        · exact .inl (.inl h)
        · exact .inl (.inr ⟨h, h'⟩)
        · exact .inr ⟨h, h'⟩
    | error e =>
      have hnz : Zebras (p.handleError w ⟨e, some raw.bytes⟩).2.log = Zebras w.log := by
        unfold Parser.handleError
        cases p.coreDump <;> cases p.showWarnings <;> cases e <;> simp [World.warn, World.fail, World.writeDump, Zebras, List.filter_append]
      simp only [hp] at hrec
      rw [q2] at hrec
      by_cases hg : goesOn ft.inner.parser.coreDump e = true
      · have hl : ¬ LastRead ft.inner.parser.coreDump raw := by
          rintro ⟨e', h, h'⟩; rw [hp] at h; cases h
          rw [(goesOn_fatal _ _).mpr h'] at hg; cases hg
        rw [if_pos hg] at hrec
        obtain ⟨ft', k1, k2, k3⟩ := ih { ft with inner := ⟨p, (p.handleError w ⟨e, some raw.bytes⟩).2⟩ } s1 q1 hd1
        refine ⟨ft', hrec _ k1, by simp only [hnz] at k2; omega, ?_⟩
        simp only at k3
        rw [k3, q5, q2, q3]
        simp only [lookedAt, if_neg hl, List.mem_cons, exists_eq_or_imp]
        constructor
        · rintro ((h | ⟨h, h'⟩) | ⟨h, h'⟩)
          · exact .inl h
          · exact .inr ⟨h, .inl h'⟩
          · exact .inr ⟨h, .inr h'⟩
        · rintro (h | ⟨h, h' | h'⟩)
          · exact .inl (.inl h)
          · exact .inl (.inr ⟨h, h'⟩)
          · exact .inr ⟨h, h'⟩
      · have hl : LastRead ft.inner.parser.coreDump raw := ⟨e, hp, (goesOn_fatal _ _).mp (by simpa using hg)⟩
        rw [if_neg hg] at hrec
        refine ⟨_, hrec, by simp only [hnz]; omega, ?_⟩
        simp only [lookedAt, if_pos hl, List.mem_singleton, exists_eq_left]
        exact q5

/-- C93: the remark about Zebra records, over a file of records: once if warnings are on and one of the records looked at has the short
shape, parsed or not; otherwise not at all. -/
theorem c93_zebra (pol : Pol) {rs : List Raw} {b : Bytes} (hb : Blocks Frame rs b) (p : Parser env) (w : World) (s : Src)
    (hs : p.input = .mrt s) (hd : Delivers s b) :
    ∃ ft, Leaves (filteredStep pol) (p.filteredRaws w) ft ∧
      (p.warnedZebra = false → p.showWarnings = true → (∃ r ∈ lookedAt p.coreDump rs, ShortShape r) →
        ft.inner.world.log.count .zebra = w.log.count .zebra + 1) ∧
      ((p.warnedZebra = true ∨ p.showWarnings = false ∨ ∀ r ∈ lookedAt p.coreDump rs, ¬ ShortShape r) →
        ft.inner.world.log.count .zebra = w.log.count .zebra) := by
  obtain ⟨ft, h1, h2, h3⟩ := zebra_run pol hb (p.filteredRaws w) s hs hd
  have e1 : (p.filteredRaws w).inner.parser = p := rfl
  have e2 : (p.filteredRaws w).inner.world = w := rfl
  rw [e1, e2] at h2
  rw [e1] at h3
  refine ⟨ft, h1, ?_, ?_⟩ <;> rw [zebra_count, zebra_count]
  · intro a b c
    have := h3.mpr (.inr ⟨b, c⟩)
    rw [this, a] at h2
    simpa using h2
  · rintro a
    cases hw : p.warnedZebra with
    | true =>
      have := h3.mpr (.inl hw)
      rw [this, hw] at h2
      omega
    | false =>
      have : ft.inner.parser.warnedZebra = false := by
        cases hh : ft.inner.parser.warnedZebra with
        | false => rfl
        | true =>
          rcases h3.mp hh with h | ⟨h, r, hr, hr'⟩
          · rw [hw] at h; cases h
          · rcases a with a | a | a
            · rw [hw] at a; cases a
            · rw [a] at h; cases h
            · exact absurd hr' (a r hr)
      rw [this, hw] at h2
      omega

/-! ### C94 files of raw records -/

theorem writeAll_spec (d : Disk) (b : Bytes) : ∃ part rest d', d.writeAll b = (decide (rest = []), d') ∧ b = part ++ rest ∧
    d'.file = d.file ++ part ∧ (rest ≠ [] → d'.room = some 0) := by
  unfold Disk.writeAll
  cases hr : d.room with
  | none => exact ⟨b, [], ⟨d.file ++ b, none⟩, by simp, by simp, rfl, by simp⟩
  | some k =>
    simp only
    by_cases hk : b.length ≤ k
    · rw [if_pos hk]; exact ⟨b, [], ⟨d.file ++ b, some (k - b.length)⟩, by simp, by simp, rfl, by simp⟩
    · rw [if_neg hk]
      refine ⟨b.take k, b.drop k, ⟨d.file ++ b.take k, some 0⟩, ?_, (List.take_append_drop k b).symm, rfl, fun _ => rfl⟩
      have : b.drop k ≠ [] := by rw [ne_eq, List.drop_eq_nil_iff]; omega
      simp [this]

theorem put_spec (r : Raw) (d : Disk) : ∃ part rest d', r.put d = (decide (rest = []), d') ∧ r.bytes = part ++ rest ∧
    d'.file = d.file ++ part := by
  obtain ⟨p1, q1, d1, h1, h2, h3, _⟩ := writeAll_spec d r.headerBytes
  obtain ⟨p2, q2, d2, g1, g2, g3, _⟩ := writeAll_spec d1 r.body
  unfold Raw.put
  rw [h1]
  by_cases hq : q1 = []
  · subst hq
    simp only [decide_true, g1]
    rw [List.append_nil] at h2
    exact ⟨r.headerBytes ++ p2, q2, d2, rfl, by rw [Raw.bytes, List.append_assoc, ← g2], by rw [g3, h3, h2, List.append_assoc]⟩
  · simp only [hq, decide_false]
    exact ⟨p1, q1 ++ r.body, d1, by simp [hq], by rw [Raw.bytes, h2, List.append_assoc], h3⟩

theorem readsAsThen {rs : List Raw} {b part : Bytes} {raw : Raw} (hb : Blocks Frame rs b) (hf : Frame raw raw.bytes) (hp : Torn raw part) :
    ReadsAsThen (b ++ part) rs part := by
  intro env pol p w s hs hd
  obtain ⟨er, t', h1, h2, h3⟩ := torn_chunk hf hp
  obtain ⟨k1, it, k2, k3⟩ := raw_run pol hb h1 (p.raws w) s hs (by rcases h3 with h3 | h3 <;> rw [h3] <;> rfl) hd
  refine ⟨k1, it, k2, ?_⟩
  have hw : (p.raws w).world = w := rfl
  have hp' : (p.raws w).parser = p := rfl
  rw [k3, hw, hp']
  unfold Parser.handleError
  have e1 : er.toRec.error = er.error := rfl
  have e2 : er.toRec.bytes = some part := h2
  rw [e1, e2]
  rcases h3 with h3 | h3 <;> rw [h3] <;> cases p.coreDump <;> simp [World.fail, World.writeDump]

/-- C94: a record written to a file, whatever was in it before: if the call returns `Ok` the file holds this record and nothing
else. If it does not, the file is empty or holds a part of the record, and reading it gives no record. -/
theorem c94_write (r : Raw) (hf : Frame r r.bytes) (d d' : Disk) :
    (r.writeFile d = (true, d') → d'.file = r.bytes ∧ ReadsAs d'.file [r]) ∧
    (r.writeFile d = (false, d') → d'.file = [] ∧ ReadsAs d'.file [] ∨ Torn r d'.file ∧ ReadsAsThen d'.file [] d'.file) := by
  obtain ⟨part, rest, d1, h1, h2, h3⟩ := put_spec r { d with file := [] }
  simp only [List.nil_append] at h3
  unfold Raw.writeFile
  rw [h1]
  constructor
  · intro h
    simp only [Prod.mk.injEq, decide_eq_true_eq] at h
    obtain ⟨hr, rfl⟩ := h
    subst hr
    rw [List.append_nil] at h2
    refine ⟨by rw [h3, h2], ?_⟩
    rw [h3, ← h2]
    have : Blocks Frame [r] (r.bytes ++ []) := .cons hf .nil
    rw [List.append_nil] at this
    exact c93_raw this
  · intro h
    simp only [Prod.mk.injEq, decide_eq_false_iff_not] at h
    obtain ⟨hr, rfl⟩ := h
    rw [h3]
    cases part with
    | nil => left; exact ⟨rfl, c93_raw .nil⟩
    | cons x xs =>
      right
      have ht : Torn r (x :: xs) := ⟨by simp, rest, hr, h2⟩
      exact ⟨ht, readsAsThen .nil hf ht⟩

theorem blocks_snoc {α : Type} {P : α → Bytes → Prop} {rs : List α} {b c : Bytes} {r : α} (h : Blocks P rs b) (hr : P r c) :
    Blocks P (rs ++ [r]) (b ++ c) := by
  induction h with
  | nil => have := Blocks.cons hr (.nil (R := P)); simpa using this
  | cons h _ ih => rw [List.append_assoc]; exact .cons h ih

/-- C94: records appended one after the other to a file of records. If all calls return `Ok`, reading the file gives the old records
and the new ones. If one does not, because the medium is full or the process ends at any point, all records before it are still
read, in order; of the one that was not finished, nothing or a part is in the file, which is reported as an early end. Missing from the full property: records that are appended
later, behind a part of a record, are not always found again (`c94_behind_torn`). -/
theorem c94_append_partial (rs : List Raw) : ∀ (old : List Raw) (f : Bytes) (room : Option Nat) (d : Disk) (ok : Bool), Blocks Frame old f →
    (∀ r ∈ rs, Frame r r.bytes) → appendFiles rs ⟨f, room⟩ = (ok, d) →
    (ok = true → ReadsAs d.file (old ++ rs)) ∧
    (ok = false → ∃ done r left, rs = done ++ r :: left ∧
      (ReadsAs d.file (old ++ done) ∨ ∃ part, Torn r part ∧ ReadsAsThen d.file (old ++ done) part)) := by
  induction rs with
  | nil =>
    intro old f room d ok hb _ h
    cases h
    exact ⟨fun _ => by rw [List.append_nil]; exact c93_raw hb, fun h => by cases h⟩
  | cons r rs ih =>
    intro old f room d ok hb hf h
    obtain ⟨part, rest, d1, h1, h2, h3⟩ := put_spec r ⟨f, room⟩
    simp only at h3
    unfold appendFiles Raw.appendFile at h
    rw [h1] at h
    by_cases hr : rest = []
    · subst hr
      simp only [decide_true] at h
      rw [List.append_nil] at h2
      obtain ⟨f1, room1⟩ := d1
      simp only at h3
      rw [← h2] at h3
      obtain ⟨k1, k2⟩ := ih (old ++ [r]) f1 room1 d ok (by rw [h3]; exact blocks_snoc hb (hf r (by simp)))
        (fun x hx => hf x (List.mem_cons_of_mem _ hx)) h
      simp only [List.append_assoc, List.singleton_append] at k1 k2
      refine ⟨k1, fun ho => ?_⟩
      obtain ⟨done, x, left, e1, e2⟩ := k2 ho
      exact ⟨r :: done, x, left, by rw [e1]; rfl, e2⟩
    · simp only [hr, decide_false, Prod.mk.injEq] at h
      obtain ⟨rfl, rfl⟩ := h
      refine ⟨fun h => (by cases h), fun _ => ⟨[], r, rs, rfl, ?_⟩⟩
      rw [List.append_nil, h3]
      cases part with
      | nil => left; rw [List.append_nil]; exact c93_raw hb
      | cons x xs =>
        right
        have ht : Torn r (x :: xs) := ⟨by simp, rest, hr, h2⟩
        exact ⟨_, ht, readsAsThen hb (hf r (by simp)) ht⟩

/-! ### examples -/

/-- a state change in eight octets, as early Zebra versions wrote it, with a state that does not exist; and a good one. -/
def c93Odd : Raw := ⟨⟨0, none, .bgp4mp, 0, 8⟩, [0, 0, 0, 0, 0, 16, 0, 0, 0, 0, 0, 8], [0, 1, 0, 2, 0, 9, 0, 2]⟩

theorem c93_frames : Blocks Frame [c93Odd, c91Zebra] (c93Odd.bytes ++ (c91Zebra.bytes ++ [])) := by
  refine .cons ⟨?_, by decide, rfl, ?_⟩ (.cons ⟨?_, by decide, rfl, ?_⟩ .nil)
  · exact ⟨by decide, by decide⟩
  · rw [if_neg (fun h => by cases h.1)]; rfl
  · exact ⟨by decide, by decide⟩
  · rw [if_neg (fun h => by cases h.1)]; rfl

def c93Parser (bs : Bytes) : Parser exEnv := Parser.new exEnv (.mrt ⟨[.data 0 (bs.drop 1)], none⟩)

example : Delivers ⟨[.data 0 ((c93Odd.bytes ++ c91Zebra.bytes).drop 1)], none⟩ (c93Odd.bytes ++ (c91Zebra.bytes ++ [])) :=
  ⟨by decide, rfl⟩

example : ShortShape c93Odd ∧ ¬ ShortForm c93Odd ∧ c93Odd.parse = .error .parse := by
  have h : c93Odd.parse = .error .parse := by decide +kernel
  exact ⟨⟨.inl rfl, .inl ⟨rfl, rfl⟩⟩, fun ⟨⟨m, hm⟩, _⟩ => by (rw [h] at hm; cases hm), h⟩

/-- C93: the logs differ in one respect. A record in the short form that does not parse makes the filtered raw iterator remark on
Zebra records; the record iterator is silent about it. -/
theorem c93_zebra_differs :
    ((c93Parser c93Odd.bytes).filteredRaws ⟨[], none⟩ |>.next (fun n _ => n)).2.inner.world.log = [.zebra, .failure .parse] ∧
    ((c93Parser c93Odd.bytes).records ⟨[], none⟩ |>.next (fun n _ => n)).2.world.log = [.failure .parse] := by
  decide +kernel

/-- with both records the logs differ in their order only. -/
example :
    ((c93Parser (c93Odd.bytes ++ c91Zebra.bytes)).filteredRaws ⟨[], none⟩ |>.next (fun n _ => n)).1.map (·.1.body) = some c91Zebra.body ∧
    ((c93Parser (c93Odd.bytes ++ c91Zebra.bytes)).filteredRaws ⟨[], none⟩ |>.next (fun n _ => n)).2.inner.world.log = [.zebra, .failure .parse] ∧
    ((c93Parser (c93Odd.bytes ++ c91Zebra.bytes)).records ⟨[], none⟩ |>.next (fun n _ => n)).2.world.log = [.failure .parse, .zebra] := by
  decide +kernel

/-- the medium is full after 38 octets: two records of three are there, and a part of the third. -/
example : appendFiles [c91Ospf, c91Zebra, c91Bad] ⟨[], some 38⟩ =
    (false, ⟨c91Ospf.bytes ++ c91Zebra.bytes ++ [0, 0, 0, 0], some 0⟩) ∧ Torn c91Bad [0, 0, 0, 0] ∧
    appendFiles [c91Ospf, c91Zebra, c91Bad] ⟨[], some 47⟩ = (true, ⟨c91Ospf.bytes ++ c91Zebra.bytes ++ c91Bad.bytes, some 0⟩) :=
  ⟨by decide +kernel, ⟨by decide, c91Bad.bytes.drop 4, by decide, by decide⟩, by decide +kernel⟩

example : (c91Ospf.writeFile ⟨[1, 2, 3], none⟩) = (true, ⟨c91Ospf.bytes, none⟩) ∧
    (c91Ospf.writeFile ⟨[1, 2, 3], some 13⟩) = (false, ⟨c91Ospf.bytes.take 13, some 0⟩) := by decide +kernel

/-- C94 ends with the first failure: what is appended behind a part of a record is not found again. Here the third call returns
`Ok`, but reading the file gives the first record, and then one made of the header of the second and the start of the third. -/
theorem c94_behind_torn :
    ∃ d1 d2, appendFiles [c91Ospf, c91Zebra] ⟨[], some 26⟩ = (false, d1) ∧
      c91Bad.appendFile { d1 with room := none } = (true, d2) ∧
      (forLoop (RawRun.next (fun n _ => n)) 9 ((c93Parser d2.file).raws ⟨[], none⟩)).1.map Raw.bytes =
        [c91Ospf.bytes, c91Zebra.bytes.take 12 ++ c91Bad.bytes.take 8] := ⟨_, _, rfl, rfl, by decide +kernel⟩

end Verif.Props
