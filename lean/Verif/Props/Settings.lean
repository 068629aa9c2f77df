import Verif.Lemmas.Settings
import Verif.Props.TextDump
/-
C90: the settings of a parser. C91: log lines and core dumps.
-/
namespace Verif.Props
open Spec

variable {env : TextEnv}

/-! ### C90 settings -/

theorem set_effect {p p' : Parser env} {c : Setting env} (h : p.set c = .ok p') :
    p'.input = p.input ∧ p'.warnedZebra = p.warnedZebra ∧ (p'.coreDump = true ↔ p.coreDump = true ∨ c = .enableCoreDump) ∧
    (p'.showWarnings = true ↔ p.showWarnings = true ∧ c ≠ .disableWarnings) := by
  cases c with
  | addFilter ty v =>
    unfold Parser.set at h
    cases hf : Filter.new env ty v with
    | error e => simp [hf] at h
    | ok f => simp only [hf, Except.ok.injEq] at h; subst h; simp
  | _ => unfold Parser.set at h; simp only [Except.ok.injEq] at h; subst h; simp

/-- C90: a chain of calls never touches the input. Core dumps are on if and only if they were or one of the calls enables them;
warnings are on if and only if they were and none of the calls disables them. -/
theorem c90_flags (cs : List (Setting env)) : ∀ {p p' : Parser env}, p.configure cs = .ok p' →
    p'.input = p.input ∧ p'.warnedZebra = p.warnedZebra ∧
    (p'.coreDump = true ↔ p.coreDump = true ∨ .enableCoreDump ∈ cs) ∧
    (p'.showWarnings = true ↔ p.showWarnings = true ∧ .disableWarnings ∉ cs) := by
  induction cs with
  | nil => intro p p' h; cases h; simp
  | cons c cs ih =>
    intro p p' h
    unfold Parser.configure at h
    cases hs : p.set c with
    | error e => rw [hs] at h; cases h
    | ok p1 =>
      rw [hs] at h
      obtain ⟨g1, g2, g3, g4⟩ := ih h
      obtain ⟨k1, k2, k3, k4⟩ := set_effect hs
      refine ⟨g1.trans k1, g2.trans k2, ?_, ?_⟩
      · rw [g3, k3, List.mem_cons, or_assoc, eq_comm (a := c)]
      · rw [g4, k4, List.mem_cons, not_or, and_assoc, ne_eq, eq_comm (a := c)]

/-- C90: the filters of the parser are those in effect: everything added since the last call that replaces them, in order. -/
theorem c90_filters (cs : List (Setting env)) : ∀ {p p' : Parser env}, p.configure cs = .ok p' → InEffect p.filters cs p'.filters := by
  induction cs with
  | nil =>
    intro p p' h
    cases h
    have := InEffect.kept (start := p.filters) (cs := []) (parts := []) (by simp) .nil
    simpa using this
  | cons c cs ih =>
    intro p p' h
    unfold Parser.configure at h
    cases hs : p.set c with
    | error e => rw [hs] at h; cases h
    | ok p1 =>
      rw [hs] at h
      have key : ∀ add, ¬ Replaces c → Adds c add → p1.filters = p.filters ++ add → InEffect p.filters (c :: cs) p'.filters := by
        intro add hr ha hf
        have := ih h
        rw [hf] at this
        generalize hg : p'.filters = gs at this ⊢
        cases this with
        | kept h1 h2 =>
          rw [List.append_assoc, ← List.flatten_cons]
          exact .kept (List.forall_mem_cons.mpr ⟨hr, h1⟩) (.cons ha h2)
        | @replaced before fs cs' parts h1 h2 =>
          exact InEffect.replaced (before := c :: before) h1 h2
      cases c with
      | enableCoreDump => cases hs; exact key [] (fun h => h) rfl (by simp)
      | disableWarnings => cases hs; exact key [] (fun h => h) rfl (by simp)
      | addFilter ty v =>
        unfold Parser.set at hs
        cases hf : Filter.new env ty v with
        | error e => simp [hf] at hs
        | ok f =>
          simp only [hf, Except.ok.injEq] at hs
          subst hs
          exact key [f] (fun h => h) ⟨f, hf, rfl⟩ rfl
      | addFilters fs => cases hs; exact key fs (fun h => h) rfl rfl
      | withFilters fs =>
        cases hs
        have := ih h
        simp only at this
        generalize hg : p'.filters = gs at this ⊢
        cases this with
        | kept h1 h2 => exact InEffect.replaced (before := []) h1 h2
        | @replaced before fs' cs' parts h1 h2 => exact InEffect.replaced (before := .withFilters fs :: before) h1 h2

/-- C90: a new parser after a chain of calls. Core dumps are off unless enabled, warnings are on unless disabled, there are no
filters but those of the calls, and no remark has been made. -/
theorem c90_new (i : Input) (cs : List (Setting env)) {p : Parser env} (h : (Parser.new env i).configure cs = .ok p) :
    p.input = i ∧ (p.coreDump = true ↔ .enableCoreDump ∈ cs) ∧ (p.showWarnings = true ↔ .disableWarnings ∉ cs) ∧
    p.warnedZebra = false ∧ InEffect [] cs p.filters := by
  obtain ⟨h1, h2, h3, h4⟩ := c90_flags cs h
  have h5 := c90_filters cs h
  simp only [Parser.new, Bool.false_eq_true, false_or, true_and] at h1 h2 h3 h4 h5
  exact ⟨h1, h3, h4, h2, h5⟩

/-- C90: a chain of calls fails if and only if one of them has a text that is not a filter, with the error of the first such
call. -/
theorem c90_fails (cs : List (Setting env)) (e : Err) : ∀ p : Parser env, p.configure cs = .error e ↔
    ∃ before c after, cs = before ++ c :: after ∧ Refused e c ∧ ∀ b ∈ before, ∀ e', ¬ Refused e' b := by
  induction cs with
  | nil => intro p; simp [Parser.configure]
  | cons c cs ih =>
    intro p
    unfold Parser.configure
    have hset : (∃ p1, p.set c = .ok p1 ∧ ∀ e', ¬ Refused e' c) ∨ ∃ e1, p.set c = .error e1 ∧ Refused e1 c := by
      cases c with
      | addFilter ty v =>
        cases hf : Filter.new env ty v with
        | error e => exact .inr ⟨e, by simp [Parser.set, hf], hf⟩
        | ok f => exact .inl ⟨{ p with filters := p.filters ++ [f] }, by simp [Parser.set, hf], fun e' h => (by simp [Refused, hf] at h)⟩
      | _ => exact .inl ⟨_, rfl, fun e' h => h⟩
    rcases hset with ⟨p1, h1, h2⟩ | ⟨e1, h1, h2⟩
    · rw [h1]
      simp only [ih p1]
      constructor
      · rintro ⟨before, c', after, rfl, g2, g3⟩
        exact ⟨c :: before, c', after, rfl, g2, List.forall_mem_cons.mpr ⟨h2, g3⟩⟩
      · rintro ⟨before, c', after, g1, g2, g3⟩
        cases before with
        | nil => simp only [List.nil_append, List.cons.injEq] at g1; rw [← g1.1] at g2; exact absurd g2 (h2 e)
        | cons b bs =>
          simp only [List.cons_append, List.cons.injEq] at g1
          exact ⟨bs, c', after, g1.2, g2, fun x hx => g3 x (List.mem_cons_of_mem _ hx)⟩
    · rw [h1]
      simp only [Except.error.injEq]
      constructor
      · rintro rfl
        exact ⟨[], c, cs, rfl, h2, by simp⟩
      · rintro ⟨before, c', after, g1, g2, g3⟩
        cases before with
        | nil =>
          simp only [List.nil_append, List.cons.injEq] at g1
          rw [← g1.1] at g2
          cases c with
          | addFilter ty v => simp only [Refused] at h2 g2; rw [h2] at g2; injection g2
          | _ => exact absurd h2 id
        | cons b bs =>
          simp only [List.cons_append, List.cons.injEq] at g1
          rw [g1.1] at h2
          exact absurd h2 (g3 b (by simp) e1)

theorem next_erase (pol : Pol) (fuel : Nat) : ∀ (it : RecordRun env) (s : Src), it.parser.input = .mrt s →
    ∃ it', it.loop pol fuel = ((defaultNext (filterKeep env it.parser.filters) it.parser.coreDump pol fuel (it.elementor, s)).1, it') ∧
      it'.parser.input = .mrt (defaultNext (filterKeep env it.parser.filters) it.parser.coreDump pol fuel (it.elementor, s)).2.2 ∧
      it'.elementor = (defaultNext (filterKeep env it.parser.filters) it.parser.coreDump pol fuel (it.elementor, s)).2.1 ∧
      it'.parser.filters = it.parser.filters ∧ it'.parser.coreDump = it.parser.coreDump := by
  induction fuel with
  | zero => intro it s hs; exact ⟨it, rfl, hs, rfl, rfl, rfl⟩
  | succ fuel ih =>
    intro it s hs
    obtain ⟨h1, h2, h3, h4, _⟩ := parser_nextRecord pol it.parser it.world s hs
    simp only [RecordRun.loop, defaultNext]
    rcases hx : it.parser.nextRecord pol it.world with ⟨x, p, w⟩
    rw [hx] at h1 h2 h3 h4
    simp only at h1 h2 h3 h4
    rcases hy : nextRecord pol s with ⟨y, s1⟩
    rw [hy] at h1 h2
    subst h1
    cases x with
    | ok r =>
      simp only
      rw [h3]
      rcases (filterKeep env it.parser.filters).step it.elementor r with ⟨b, el⟩
      cases b with
      | true => exact ⟨_, rfl, h2, rfl, h3, h4⟩
      | false =>
        obtain ⟨it', g1, g2, g3, g4, g5⟩ := ih ⟨p, el, w⟩ s1 h2
        simp only [h3, h4] at g1 g2 g3 g4 g5
        exact ⟨it', g1, g2, g3, g4, g5⟩
    | error e =>
      simp only
      have hg := handleError_goesOn p w e
      rw [h4] at hg
      rw [← hg]
      rcases p.handleError w e with ⟨g, w'⟩
      cases g with
      | false => exact ⟨_, rfl, h2, rfl, h3, h4⟩
      | true =>
        obtain ⟨it', g1, g2, g3, g4, g5⟩ := ih ⟨p, it.elementor, w'⟩ s1 h2
        simp only [h3, h4] at g1 g2 g3 g4 g5
        exact ⟨it', g1, g2, g3, g4, g5⟩

/-- an element iterator and the same without effects. -/
def SameRun (fs : List (Filter env.Rx)) (cd : Bool) (it : ElemRun env) (jt : ElemIter) : Prop :=
  it.cache = jt.cache ∧ it.elementor = jt.elementor ∧ it.records.elementor = jt.records.1 ∧
    it.records.parser.input = .mrt jt.records.2 ∧ it.records.parser.filters = fs ∧ it.records.parser.coreDump = cd

theorem refill_erase (pol : Pol) (fs : List (Filter env.Rx)) (cd : Bool) (fuel : Nat) : ∀ (it : ElemRun env) (jt : ElemIter),
    SameRun fs cd it jt → ∃ it', it.refill pol fuel = ((refill env fs cd pol fuel jt).1, it') ∧
      SameRun fs cd it' (refill env fs cd pol fuel jt).2 := by
  induction fuel with
  | zero => intro it jt h; exact ⟨it, rfl, h⟩
  | succ fuel ih =>
    rintro it ⟨cache, elementor, el2, s⟩ ⟨h1, h2, h3, h4, h5, h6⟩
    simp only at h1 h2 h3 h4
    obtain ⟨rs, g1, g2, g3, g4, g5⟩ := next_erase pol (s.size + 1) it.records s h4
    have hn : it.records.next pol = ((defaultIter (filterKeep env fs) cd pol (el2, s)).1, rs) := by
      unfold RecordRun.next
      rw [h4]
      simp only [Input.size, g1, defaultIter, h3, h5, h6]
    rw [h3, h5, h6] at g2 g3
    simp only [ElemRun.refill, refill, hn]
    rcases hd : defaultIter (filterKeep env fs) cd pol (el2, s) with ⟨x, q, s1⟩
    have hd' : defaultNext (filterKeep env fs) cd pol (s.size + 1) (el2, s) = (x, q, s1) := hd
    rw [hd'] at g2 g3
    cases x with
    | none => exact ⟨_, rfl, h1, h2, g3, g2, g4.trans h5, g5.trans h6⟩
    | some r =>
      simp only [h1, h2]
      rcases elementor.recordToElems r with ⟨es, el⟩
      simp only
      by_cases hE : es.isEmpty = true
      · simp only [hE, if_true]
        exact ih ⟨cache, el, rs⟩ ⟨cache, el, q, s1⟩ ⟨rfl, rfl, g3, g2, g4.trans h5, g5.trans h6⟩
      · simp only [hE, Bool.false_eq_true, if_false]
        rw [g4, h5]
        rcases popMatch (fun e => BgpElem.matchFilters env e fs) es.length es.reverse with ⟨y, c⟩
        cases y with
        | some e => exact ⟨_, rfl, rfl, rfl, g3, g2, g4.trans h5, g5.trans h6⟩
        | none => exact ih ⟨c, el, rs⟩ ⟨c, el, q, s1⟩ ⟨rfl, rfl, g3, g2, g4.trans h5, g5.trans h6⟩

theorem elem_erase (denv : DumpEnv) (pol : Pol) (fs : List (Filter env.Rx)) (cd : Bool) (it : ElemRun env) (jt : ElemIter)
    (h : SameRun fs cd it jt) : ∃ it', it.next denv pol = (.ok (elemNext env fs cd pol jt).1, it') ∧
      SameRun fs cd it' (elemNext env fs cd pol jt).2 := by
  obtain ⟨h1, h2, h3, h4, h5, h6⟩ := h
  unfold ElemRun.next elemNext
  simp only [h4, h5, h1]
  rcases popMatch (fun e => BgpElem.matchFilters env e fs) jt.cache.length jt.cache with ⟨y, c⟩
  cases y with
  | some e => exact ⟨_, rfl, rfl, h2, h3, h4, h5, h6⟩
  | none =>
    obtain ⟨it', g1, g2⟩ := refill_erase pol fs cd (jt.records.2.size + 1) { it with cache := c } { jt with cache := c }
      ⟨rfl, h2, h3, h4, h5, h6⟩
    exact ⟨it', by simp only [g1], g2⟩

theorem gives_of_loop (denv : DumpEnv) (pol : Pol) (fs : List (Filter env.Rx)) (cd : Bool) (n : Nat) : ∀ (it : ElemRun env) (jt : ElemIter),
    SameRun fs cd it jt → (forLoop (elemNext env fs cd pol) n jt).2.1 = true →
    Gives (ElemRun.next denv pol) it (forLoop (elemNext env fs cd pol) n jt).1 := by
  induction n with
  | zero => intro it jt _ h; cases h
  | succ n ih =>
    intro it jt hs h
    obtain ⟨it', g1, g2⟩ := elem_erase denv pol fs cd it jt hs
    simp only [forLoop] at h ⊢
    rcases hx : elemNext env fs cd pol jt with ⟨x, jt'⟩
    rw [hx] at h g1 g2
    cases x with
    | none => exact .done (by rw [g1])
    | some e =>
      simp only at h ⊢
      refine .item (by rw [g1]) ?_
      rw [g1]
      exact ih it' jt' g2 h

theorem gives_det {next : σ → Except Err (Option α) × σ} {s : σ} {as bs : List α} (h : Gives next s as) (h' : Gives next s bs) : as = bs := by
  induction h generalizing bs with
  | done h1 =>
    cases h' with
    | done _ => rfl
    | item h2 _ => rw [h1] at h2; cases h2
  | item h1 _ ih =>
    cases h' with
    | done h2 => rw [h1] at h2; cases h2
    | item h2 h3 => rw [h1] at h2; cases h2; rw [ih h3]

/-- C90: iterating over a parser gives the elements of all its records that match all its filters, in order, and then ends; this
determines what the iteration gives. -/
theorem c90_elems (denv : DumpEnv) (pol pol' : Pol) (p : Parser env) (w : World) (s : Src) (hs : p.input = .mrt s) (m : Nat)
    (hm : (toks s.evs).length < m) (es : List BgpElem) : Gives (ElemRun.next denv pol) (p.elems w) es ↔
      es = (elemsFrom [] (forLoop (defaultIter keepAll p.coreDump pol') m ((), s)).1).filter
        fun e => p.filters.all (e.matchFilter env) := by
  have hg : Gives (ElemRun.next denv pol) (p.elems w) ((elemsFrom [] (forLoop (defaultIter keepAll p.coreDump pol') m ((), s)).1).filter
        fun e => p.filters.all (e.matchFilter env)) := by
    generalize hout : ((elemsFrom [] (forLoop (defaultIter keepAll p.coreDump pol') m ((), s)).1).filter
        fun e => p.filters.all (e.matchFilter env)) = out
    obtain ⟨h1, h2⟩ := c37_elems env p.filters p.coreDump pol pol' s m hm (out.length + 1)
    change (forLoop (elemNext env p.filters p.coreDump pol) (out.length + 1) (ElemIter.new s)).1 = List.take _ (List.filter (fun e : BgpElem => p.filters.all (e.matchFilter env)) _) at h1
    change _ ↔ (List.filter (fun e : BgpElem => p.filters.all (e.matchFilter env)) _).length < _ at h2
    rw [hout] at h1 h2
    have := gives_of_loop denv pol p.filters p.coreDump (out.length + 1) (p.elems w) (ElemIter.new s)
      ⟨rfl, rfl, rfl, hs, rfl, rfl⟩ (h2.mpr (Nat.lt_succ_self _))
    rwa [h1, List.take_of_length_le (Nat.le_succ _)] at this
  exact ⟨fun h => gives_det h hg, fun h => h ▸ hg⟩

/-- C90: two parsers over the same input that have the same filters, in whatever order and however often, and the same setting
for core dumps give the same elements; other settings make no difference. -/
theorem c90_same (denv : DumpEnv) (pol pol' : Pol) (p p' : Parser env) (w w' : World) (s : Src) (hs : p.input = .mrt s)
    (hs' : p'.input = .mrt s) (hf : ∀ f, f ∈ p.filters ↔ f ∈ p'.filters) (hc : p.coreDump = p'.coreDump) (es : List BgpElem) :
    Gives (ElemRun.next denv pol) (p.elems w) es ↔ Gives (ElemRun.next denv pol') (p'.elems w') es := by
  rw [c90_elems denv pol pol p w s hs _ (Nat.lt_succ_self _), c90_elems denv pol' pol p' w' s hs' _ (Nat.lt_succ_self _), hc]
  have : (fun e : BgpElem => p.filters.all (e.matchFilter env)) = fun e => p'.filters.all (e.matchFilter env) := by
    funext e
    rw [Bool.eq_iff_iff, List.all_eq_true, List.all_eq_true]
    exact ⟨fun h f hf' => h f ((hf f).mpr hf'), fun h f hf' => h f ((hf f).mp hf')⟩
  rw [this]

/-- C90, for text dumps: the elements are filtered in the same way; there are no records: reading one is an error, and iterating
over records gives nothing, and neither changes anything. -/
theorem c90_text (denv : DumpEnv) (pol : Pol) (p : Parser env) (w : World) (t : TextIter) (ht : p.input = .text t) :
    (∀ es', Gives (ElemRun.next denv pol) (p.elems w) es' ↔
      ∃ es, Gives (TextIter.next denv) t es ∧ es' = es.filter fun e => p.filters.all (e.matchFilter env)) ∧
    p.nextRecord pol w = (.error ⟨.unsupported, none⟩, p, w) ∧ (p.records w).next pol = (none, p.records w) := by
  refine ⟨fun es' => ?_, by unfold Parser.nextRecord; rw [ht], by unfold RecordRun.next Parser.records; simp only [ht]⟩
  refine Iff.trans ?_ (c74_filter denv env p.filters t es')
  have sim : ∀ (it : ElemRun env) (t : TextIter), it.records.parser.input = .text t → it.records.parser.filters = p.filters →
      ∃ it', it.next denv pol = ((textElemNext denv env p.filters t).1, it') ∧
        it'.records.parser.input = .text (textElemNext denv env p.filters t).2 ∧ it'.records.parser.filters = p.filters := by
    intro it t h1 h2
    unfold ElemRun.next
    simp only [h1, h2]
    exact ⟨_, rfl, rfl, rfl⟩
  constructor
  · intro h
    have : ∀ {it : ElemRun env} {es}, Gives (ElemRun.next denv pol) it es → ∀ t, it.records.parser.input = .text t →
        it.records.parser.filters = p.filters → Gives (textElemNext denv env p.filters) t es := by
      intro it es h
      induction h with
      | done h1 =>
        intro t g1 g2
        obtain ⟨it', k1, _, _⟩ := sim _ t g1 g2
        rw [k1] at h1
        exact .done h1
      | item h1 _ ih =>
        intro t g1 g2
        obtain ⟨it', k1, k2, k3⟩ := sim _ t g1 g2
        rw [k1] at h1 ih
        exact .item h1 (ih _ k2 k3)
    exact this h t ht rfl
  · intro h
    have : ∀ {t : TextIter} {es}, Gives (textElemNext denv env p.filters) t es → ∀ it : ElemRun env, it.records.parser.input = .text t →
        it.records.parser.filters = p.filters → Gives (ElemRun.next denv pol) it es := by
      intro t es h
      induction h with
      | done h1 =>
        intro it g1 g2
        obtain ⟨it', k1, _, _⟩ := sim it _ g1 g2
        exact .done (by rw [k1]; exact h1)
      | item h1 _ ih =>
        intro it g1 g2
        obtain ⟨it', k1, k2, k3⟩ := sim it _ g1 g2
        refine .item (by rw [k1]; exact h1) ?_
        rw [k1]
        exact ih it' k2 k3
    exact this h (p.elems w) ht rfl

/-! ### C91 log lines and core dumps -/

theorem next_progress (pol : Pol) (n : Nat) : ∀ (it : RecordRun env) (s : Src), it.parser.input = .mrt s →
    ∃ s', (it.loop pol n).2.parser.input = .mrt s' ∧
      (∀ r, (it.loop pol n).1 = some r → (toks s'.evs).length < (toks s.evs).length) := by
  induction n with
  | zero => intro it s hs; exact ⟨s, hs, fun r h => by cases h⟩
  | succ n ih =>
    intro it s hs
    have hp := parser_progress pol it.parser it.world s hs
    have hi := (parser_nextRecord pol it.parser it.world s hs).2.1
    simp only [RecordRun.loop]
    rcases hx : it.parser.nextRecord pol it.world with ⟨x, p, w⟩
    rw [hx] at hp hi
    simp only at hp hi
    cases x with
    | ok r =>
      have hp : (toks (nextRecord pol s).2.evs).length + 12 ≤ (toks s.evs).length := by
        rcases hp with hp | ⟨e, he, _⟩
        · exact hp
        · cases he
      simp only
      rcases (filterKeep env p.filters).step it.elementor r with ⟨b, el⟩
      cases b with
      | true => exact ⟨_, hi, fun _ _ => by omega⟩
      | false =>
        obtain ⟨s', g1, g2⟩ := ih ⟨p, el, w⟩ _ hi
        exact ⟨s', g1, fun r h => by have := g2 r h; omega⟩
    | error e =>
      have hg := handleError_goesOn p w e
      simp only
      rcases hh : p.handleError w e with ⟨g, w'⟩
      rw [hh] at hg
      cases g with
      | false => exact ⟨_, hi, fun r h => by cases h⟩
      | true =>
        have hp : (toks (nextRecord pol s).2.evs).length + 12 ≤ (toks s.evs).length := by
          rcases hp with hp | ⟨e', he, hf⟩
          · exact hp
          · cases he; rw [hf] at hg; cases hg
        obtain ⟨s', g1, g2⟩ := ih ⟨p, it.elementor, w'⟩ _ hi
        exact ⟨s', g1, fun r h => by have := g2 r h; omega⟩

theorem popMatch_shrinks {q : BgpElem → Bool} {n : Nat} : ∀ {c cc : List BgpElem} {e : BgpElem}, popMatch q n c = (some e, cc) →
    cc.length < c.length := by
  induction n with
  | zero => intro c cc e h; cases h
  | succ n ih =>
    intro c cc e h
    unfold popMatch at h
    cases hl : c.getLast? with
    | none => rw [hl] at h; cases h
    | some x =>
      rw [hl] at h
      have hc : c ≠ [] := by rintro rfl; cases hl
      have hpos := List.length_pos_iff.mpr hc
      by_cases hq : q x = true
      · simp only [hq, if_true, Prod.mk.injEq] at h
        rw [← h.2, List.length_dropLast]
        omega
      · simp only [hq, Bool.false_eq_true, if_false] at h
        have := ih h
        rw [List.length_dropLast] at this
        omega

theorem calls_grow (pol : Pol) (n : Nat) : ∀ (it : RecordRun env) (s : Src), it.parser.input = .mrt s →
    ∃ ls, Grows (Faulty s) it.parser it.world (afterCalls pol n it).parser (afterCalls pol n it).world ls := by
  induction n with
  | zero => intro it s _; exact ⟨[], .refl _ _ _⟩
  | succ n ih =>
    intro it s hs
    have hn := next_eq_loop pol it s hs _ (Nat.lt_succ_self _)
    obtain ⟨⟨l1, g1⟩, s', g2, g3⟩ := loop_grows pol ((toks s.evs).length + 1) it s hs
    rw [← hn] at g1 g2
    obtain ⟨l2, k⟩ := ih (it.next pol).2 s' g2
    refine ⟨l1 ++ l2, g1.trans ⟨k.log, k.settings, k.once, k.quiet, k.off, ?_⟩⟩
    rcases k.dump with h | ⟨d, h1, h2⟩
    · exact .inl h
    · exact .inr ⟨d, h1, h2.imp id g3⟩

/-- C91: however often the iterator of a parser is called, the log is what it was with lines added. The remark about Zebra
records is among the added lines at most once, and not at all if the parser has made it before. With warnings disabled every
added line is an error. -/
theorem c91_log (pol : Pol) (n : Nat) (p : Parser env) (w : World) (s : Src) (hs : p.input = .mrt s) :
    ∃ ls, (afterCalls pol n (p.records w)).world.log = w.log ++ ls ∧ ls.count .zebra ≤ 1 ∧
      (p.warnedZebra = true → .zebra ∉ ls) ∧
      (p.showWarnings = false → ∀ l ∈ ls, ∃ e, l = .failure e) := by
  obtain ⟨ls, g⟩ := calls_grow pol n (p.records w) s hs
  have hc : ls.count .zebra + p.warnedZebra.toNat ≤ 1 := by
    rcases g.once with h | ⟨h, _⟩
    · have : ((afterCalls pol n (p.records w)).parser.warnedZebra).toNat ≤ 1 := Bool.toNat_le _
      rw [List.count_eq_countP, List.countP_eq_length_filter]
      have e : (fun x : LogLine => x == .zebra) = fun x => decide (x = .zebra) := rfl
      rw [e]
      exact Nat.le_trans h this
    · rw [List.count_eq_zero_of_not_mem h, Nat.zero_add]
      exact Bool.toNat_le _
  refine ⟨ls, g.log, by omega, fun hz => ?_, g.quiet⟩
  rw [hz] at hc
  exact List.count_eq_zero.mp (by simp at hc; omega)

/-- C91: the core dump file is not touched unless core dumps are enabled. If it is, what it then holds fails when it is read as a
file of its own, always with one and the same error and the same bytes, unless the reader of the parser itself reports an error. -/
theorem c91_dump (pol : Pol) (n : Nat) (p : Parser env) (w : World) (s : Src) (hs : p.input = .mrt s) :
    (p.coreDump = false → (afterCalls pol n (p.records w)).world.dump = w.dump) ∧
    ((afterCalls pol n (p.records w)).world.dump = w.dump ∨
      ∃ d, (afterCalls pol n (p.records w)).world.dump = some d ∧ ((∃ e, FailsAgain d e) ∨ Faulty s)) := by
  obtain ⟨ls, g⟩ := calls_grow pol n (p.records w) s hs
  exact ⟨g.off, g.dump⟩

theorem leaves_det {next : σ → Except Err (Option α) × σ} {a b c : σ} (h : Leaves next a b) (h' : Leaves next a c) : b = c := by
  induction h generalizing c with
  | done h1 =>
    cases h' with
    | done _ => rfl
    | item h2 _ => rw [h1] at h2; cases h2
  | item h1 _ ih =>
    cases h' with
    | done h2 => rw [h1] at h2; cases h2
    | item _ h3 => exact ih h3

/-- C91: what one run over a file of records leaves behind, exactly. Apart from the remark about Zebra records there is one line
for every record with a complaint, in order, up to the record at which the iteration stops. The remark is there once if
warnings are on and one of those records has the short form of early Zebra versions, and not otherwise. With core dumps the file
holds the last of those records that is worth a dump; without, or if there is none, it is as before. -/
theorem c91_file (pol : Pol) {rs : List Raw} {b : Bytes} (hb : Blocks Frame rs b) (p : Parser env) (w : World) (s : Src)
    (hs : p.input = .mrt s) (hd : Delivers s b) (hz : p.warnedZebra = false) :
    ∃ it, Leaves (recordStep pol) (p.records w) it ∧
      it.world.log.filter (· ≠ .zebra) =
        w.log.filter (· ≠ .zebra) ++ (lookedAt p.coreDump rs).filterMap (complaint p.showWarnings) ∧
      (p.showWarnings = true → (∃ r ∈ lookedAt p.coreDump rs, ShortForm r) → it.world.log.count .zebra = w.log.count .zebra + 1) ∧
      ((p.showWarnings = false ∨ ∀ r ∈ lookedAt p.coreDump rs, ¬ ShortForm r) → it.world.log.count .zebra = w.log.count .zebra) ∧
      (p.coreDump = false → it.world.dump = w.dump) ∧
      (p.coreDump = true → (∀ r ∈ lookedAt true rs, ¬ WorthDump r) → it.world.dump = w.dump) ∧
      (p.coreDump = true → ∀ before r after, lookedAt true rs = before ++ r :: after → WorthDump r → (∀ x ∈ after, ¬ WorthDump x) →
        it.world.dump = some r.bytes) := by
  obtain ⟨it, h1, h2, h3, h4, h5⟩ := run_file pol hb (p.records w) s hs hd
  have cnt : ∀ l : List LogLine, l.count .zebra = (Zebras l).length := fun l => by
    rw [List.count_eq_countP, List.countP_eq_length_filter]
    unfold Zebras
    have e : (fun x : LogLine => x == .zebra) = fun x => decide (x = .zebra) := rfl
    rw [e]
  refine ⟨it, h1, h2, ?_, ?_, ?_, ?_, ?_⟩
  · intro a b
    have := h3 ⟨a, hz, b⟩
    rw [cnt, cnt, this]
    simp [Parser.records]
  · intro a
    have := h4 (fun ⟨x, _, r, y, z⟩ => by
      rcases a with a | a
      · simp [Parser.records, a] at x
      · exact a r y z)
    rw [cnt, cnt, this]
    rfl
  · intro a
    rw [h5]
    simp [Parser.records, a]
  · intro a hn
    rw [h5]
    have : ((lookedAt (p.records w).parser.coreDump rs).filter fun x => decide (WorthDump x)) = [] := by
      rw [List.filter_eq_nil_iff]
      intro x hx
      simp only [Parser.records, a] at hx
      simpa using hn x hx
    rw [this]
    simp only [List.getLast?_nil, ite_self]
    rfl
  · intro a before r after e hr ha
    rw [h5]
    have h0 : (p.records w).parser.coreDump = true := a
    rw [h0, e]
    have : after.filter (fun x => decide (WorthDump x)) = [] := by
      rw [List.filter_eq_nil_iff]; intro x hx; simpa using ha x hx
    simp [List.filter_append, hr, this]

/-- C91: what the run leaves behind is determined, and iterating over elements leaves behind the same as iterating over records. -/
theorem c91_elems (denv : DumpEnv) (pol : Pol) (p : Parser env) (w : World) (s : Src) (hs : p.input = .mrt s) :
    ∃ it, Leaves (recordStep pol) (p.records w) it ∧ (∀ it', Leaves (recordStep pol) (p.records w) it' → it' = it) ∧
      ∃ et, Leaves (ElemRun.next denv pol) (p.elems w) et ∧ (∀ et', Leaves (ElemRun.next denv pol) (p.elems w) et' → et' = et) ∧
        et.records = it := by
  have refillStep : ∀ (n : Nat) (et : ElemRun env) (s : Src), et.records.parser.input = .mrt s → (toks s.evs).length < n →
      ((et.refill pol n).1 = none ∧ Leaves (recordStep pol) et.records (et.refill pol n).2.records) ∨
      ∃ e, (et.refill pol n).1 = some e ∧
        (∀ it, Leaves (recordStep pol) (et.refill pol n).2.records it → Leaves (recordStep pol) et.records it) ∧
        ∃ s', (et.refill pol n).2.records.parser.input = .mrt s' ∧ (toks s'.evs).length < (toks s.evs).length := by
    intro n
    induction n with
    | zero => intro et s _ h; omega
    | succ n ih =>
      intro et s hs hn
      have hne := next_eq_loop pol et.records s hs _ (Nat.lt_succ_self _)
      obtain ⟨s', g1, g2⟩ := next_progress pol ((toks s.evs).length + 1) et.records s hs
      rw [← hne] at g1 g2
      simp only [ElemRun.refill]
      rcases hx : et.records.next pol with ⟨x, rr⟩
      rw [hx] at g1 g2
      simp only at g1 g2
      cases x with
      | none =>
        left
        refine ⟨rfl, ?_⟩
        have := Leaves.done (next := recordStep pol) (s := et.records) (by simp [recordStep, hx])
        simpa [recordStep, hx] using this
      | some r =>
        have hlt := g2 r rfl
        have up : ∀ it, Leaves (recordStep pol) rr it → Leaves (recordStep pol) et.records it := fun it h =>
          .item (e := r) (by simp [recordStep, hx]) (by simpa [recordStep, hx] using h)
        have go : ∀ et' : ElemRun env, et'.records = rr →
            ((et'.refill pol n).1 = none ∧ Leaves (recordStep pol) et.records (et'.refill pol n).2.records) ∨
            ∃ e, (et'.refill pol n).1 = some e ∧
              (∀ it, Leaves (recordStep pol) (et'.refill pol n).2.records it → Leaves (recordStep pol) et.records it) ∧
              ∃ s', (et'.refill pol n).2.records.parser.input = .mrt s' ∧ (toks s'.evs).length < (toks s.evs).length := by
          intro et' he
          rcases ih et' s' (by rw [he]; exact g1) (by omega) with ⟨k1, k2⟩ | ⟨e, k1, k2, s2, k3, k4⟩
          · left; rw [he] at k2; exact ⟨k1, up _ k2⟩
          · right; rw [he] at k2; exact ⟨e, k1, fun it h => up _ (k2 it h), s2, k3, by omega⟩
        simp only
        rcases et.elementor.recordToElems r with ⟨es, el⟩
        simp only
        by_cases hE : es.isEmpty = true
        · simp only [hE, if_true]
          exact go _ rfl
        · simp only [hE, Bool.false_eq_true, if_false]
          rcases popMatch (fun e => BgpElem.matchFilters env e rr.parser.filters) es.length es.reverse with ⟨y, c⟩
          cases y with
          | some e => exact .inr ⟨e, rfl, up, s', g1, hlt⟩
          | none => exact go _ rfl
  have all : ∀ (m : Nat) (et : ElemRun env) (s : Src), et.records.parser.input = .mrt s → (toks s.evs).length = m →
      ∃ et', Leaves (ElemRun.next denv pol) et et' ∧ Leaves (recordStep pol) et.records et'.records := by
    intro m
    induction m using Nat.strongRecOn with
    | _ m ihm =>
      intro et
      induction hc : et.cache.length using Nat.strongRecOn generalizing et with
      | _ c ihc =>
        intro s hs hm
        have hnx : et.next denv pol = match popMatch (fun e => BgpElem.matchFilters env e et.records.parser.filters) et.cache.length et.cache with
            | (some e, c) => (.ok (some e), { et with cache := c })
            | (none, c) => (.ok (ElemRun.refill pol (s.size + 1) { et with cache := c }).1, (ElemRun.refill pol (s.size + 1) { et with cache := c }).2) := by
          unfold ElemRun.next
          simp only [hs]
          rcases popMatch (fun e => BgpElem.matchFilters env e et.records.parser.filters) et.cache.length et.cache with ⟨_ | _, _⟩ <;> rfl
        rcases hp : popMatch (fun e => BgpElem.matchFilters env e et.records.parser.filters) et.cache.length et.cache with ⟨y, cc⟩
        rw [hp] at hnx
        cases y with
        | some e =>
          have hlt : cc.length < et.cache.length := popMatch_shrinks hp
          obtain ⟨et', k1, k2⟩ := ihc cc.length (by omega) { et with cache := cc } rfl s hs hm
          exact ⟨et', .item (e := e) (by rw [hnx]) (by rw [hnx]; exact k1), k2⟩
        | none =>
          have hsz := toks_length s
          rcases refillStep (s.size + 1) { et with cache := cc } s hs (by omega) with ⟨k1, k2⟩ | ⟨e, k1, k2, s', k3, k4⟩
          · refine ⟨_, .done (by rw [hnx]; simp only [k1]), ?_⟩
            rw [hnx]
            exact k2
          · obtain ⟨et', j1, j2⟩ := ihm (toks s'.evs).length (by omega) _ s' k3 rfl
            exact ⟨et', .item (e := e) (by rw [hnx]; simp only [k1]) (by rw [hnx]; exact j1), k2 _ j2⟩
  obtain ⟨et, h1, h2⟩ := all _ (p.elems w) s hs rfl
  exact ⟨et.records, h2, fun it' h => leaves_det h h2, et, h1, fun et' h => leaves_det h h1, rfl⟩

theorem lookedAt_cut {cd : Bool} {before after : List Raw} {r : Raw} (hb : ∀ x ∈ before, ¬ LastRead cd x) (hr : LastRead cd r) :
    lookedAt cd (before ++ r :: after) = before ++ [r] := by
  induction before with
  | nil => simp only [List.nil_append, lookedAt, if_pos hr]
  | cons x before ih =>
    simp only [List.cons_append, lookedAt, if_neg (hb x (by simp)), ih fun y hy => hb y (by simp [hy])]

/-- C91: with core dumps, the run over a file stops at the first record that is damaged, if none before stops it, and the file
then holds exactly that record; read as a file of its own it gives the same error, with the same bytes. -/
theorem c91_damaged (pol : Pol) {before after : List Raw} {r : Raw} {b : Bytes} (hb : Blocks Frame (before ++ r :: after) b)
    (p : Parser env) (w : World) (s : Src) (hs : p.input = .mrt s) (hd : Delivers s b) (hz : p.warnedZebra = false)
    (hc : p.coreDump = true) (hp : r.parse = .error .parse) (hl : ∀ x ∈ before, ¬ LastRead true x) :
    ∃ it, Leaves (recordStep pol) (p.records w) it ∧ it.world.dump = some r.bytes ∧
      (it.world.log.filter (· ≠ .zebra)).getLast? = some (.failure .parse) ∧ FailsAgain r.bytes .parse := by
  obtain ⟨it, h1, h2, h3, h4, _, _, h5⟩ := c91_file pol hb p w s hs hd hz
  have hr : LastRead true r := ⟨.parse, hp, by simp [Fatal]⟩
  have hcut := lookedAt_cut (after := after) hl hr
  have hf : Frame r r.bytes := by
    have : ∀ {rs : List Raw} {b : Bytes}, Blocks Frame rs b → ∀ x ∈ rs, Frame x x.bytes := by
      intro rs b hb
      induction hb with
      | nil => intro x hx; cases hx
      | cons h _ ih =>
        intro x hx
        rcases List.mem_cons.mp hx with rfl | hx
        · have e := h.2.2.1
          unfold Raw.bytes
          rw [← e]
          exact h
        · exact ih x hx
    exact this hb r (by simp)
  refine ⟨it, h1, h5 hc before r [] hcut ⟨.parse, hp, .inl rfl⟩ (by simp), ?_, failsAgain_body hf hp⟩
  rw [h2, hc, hcut]
  have : complaint p.showWarnings r = some (.failure .parse) := by unfold complaint; rw [hp]
  simp [List.filterMap_append, this]

/-! ### examples -/

/-- three records: the short form of early Zebra versions (a state change in eight octets), an OSPF record, and a TABLE_DUMP_V2
record of an unassigned subtype. -/
def c91Zebra : Raw := ⟨⟨0, none, .bgp4mp, 0, 8⟩, [0, 0, 0, 0, 0, 16, 0, 0, 0, 0, 0, 8], [0, 1, 0, 2, 0, 1, 0, 2]⟩
def c91Ospf : Raw := ⟨⟨0, none, .ospfv2, 0, 2⟩, [0, 0, 0, 0, 0, 11, 0, 0, 0, 0, 0, 2], [1, 2]⟩
def c91Bad : Raw := ⟨⟨0, none, .tableDumpV2, 99, 1⟩, [0, 0, 0, 0, 0, 13, 0, 99, 0, 0, 0, 1], [7]⟩

theorem c91_frames : Blocks Frame [c91Zebra, c91Ospf, c91Bad] (c91Zebra.bytes ++ (c91Ospf.bytes ++ (c91Bad.bytes ++ []))) := by
  refine .cons ⟨?_, by decide, rfl, ?_⟩ (.cons ⟨?_, by decide, rfl, ?_⟩ (.cons ⟨?_, by decide, rfl, ?_⟩ .nil))
  · exact ⟨by decide, by decide⟩
  · rw [if_neg (fun h => by cases h.1)]; rfl
  · exact ⟨by decide, by decide⟩
  · rw [if_neg (fun h => by cases h.1)]; rfl
  · exact ⟨by decide, by decide⟩
  · rw [if_neg (fun h => by cases h.1)]; rfl

/-- a parser over them with core dumps enabled; the file arrives in two pieces. -/
def c91Parser : Parser exEnv :=
  { Parser.new exEnv (.mrt ⟨[.data 0 ((c91Zebra.bytes.drop 1)), .data 0 ((c91Ospf.bytes ++ c91Bad.bytes).drop 1)], none⟩) with
    coreDump := true }

example : Delivers ⟨[.data 0 ((c91Zebra.bytes.drop 1)), .data 0 ((c91Ospf.bytes ++ c91Bad.bytes).drop 1)], none⟩
    (c91Zebra.bytes ++ (c91Ospf.bytes ++ (c91Bad.bytes ++ []))) := ⟨by decide, rfl⟩

example : ShortForm c91Zebra ∧ WorthDump c91Ospf ∧ c91Bad.parse = .error .parse ∧ ¬ LastRead true c91Zebra ∧ ¬ LastRead true c91Ospf ∧
    LastRead true c91Bad ∧ ¬ LastRead false c91Bad := by
  refine ⟨⟨⟨_, rfl⟩, .inl rfl, .inl ⟨rfl, rfl⟩⟩, ?_⟩
  decide +kernel

/-- the run over them: one call gives the state change, the second ends. -/
example : (afterCalls (fun n _ => n) 2 (c91Parser.records ⟨[], none⟩)).world =
    ⟨[.zebra, .warning .unsupported, .failure .parse], some c91Bad.bytes⟩ := by decide +kernel

/-- without warnings and core dumps. -/
example : (afterCalls (fun n _ => n) 2 (Parser.records { c91Parser with showWarnings := false, coreDump := false } ⟨[], some [1]⟩)).world =
    ⟨[.failure .parse], some [1]⟩ := by decide +kernel

/-- settings: what was set before is replaced, what is added later stays. -/
example : ∃ p, c91Parser.configure [.disableWarnings, .addFilters [.peerAsn 1], .withFilters [.peerAsn 2], .addFilters [.peerAsn 3, .peerAsn 3]] =
    .ok p ∧ p.filters = [.peerAsn 2, .peerAsn 3, .peerAsn 3] ∧ p.showWarnings = false ∧ p.coreDump = true := ⟨_, rfl, rfl, rfl, rfl⟩

/-- a filter of an unknown kind is refused. -/
example : c91Parser.configure [.addFilters [.peerAsn 1], .addFilter "nonsense" ['1'], .disableWarnings] = .error .filter :=
  (c90_fails _ _ _).mpr ⟨[.addFilters [.peerAsn 1]], .addFilter "nonsense" ['1'], [.disableWarnings], rfl, rfl, fun b hb e' h => by
    cases hb with
    | head => exact h
    | tail _ hb => cases hb⟩

/-- the elements of the two records of C37, filtered. -/
example : (toks c37Src.evs).length < 100 ∧ ∃ p : Parser exEnv, (Parser.new exEnv (.mrt c37Src)).configure [.addFilters [.peerAsn 2]] = .ok p ∧
    p.input = .mrt c37Src ∧
    ((elemsFrom [] (forLoop (defaultIter keepAll p.coreDump (fun n _ => n)) 100 ((), c37Src)).1).filter
      fun e => p.filters.all (e.matchFilter exEnv)).map (·.peerAsn) = [2] := ⟨by decide +kernel, _, rfl, rfl, by decide +kernel⟩

end Verif.Props
