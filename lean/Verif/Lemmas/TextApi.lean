import Verif.Lemmas.TextPreamble
/-
Text dumps: construction, iteration, detection.
-/
namespace Verif
open Spec

/-! ### construction -/

/-- the first column header among at most `n` lines. -/
def FirstHeader (n : Nat) (ls : List Bytes) (c : Cols) : Prop :=
  ∃ pre hdr rows text, ls = pre ++ hdr :: rows ∧ pre.length < n ∧ (∀ l ∈ pre, IsUtf8 l ∧ ∀ t c, TrimmedEnd l t → ¬ ColumnsAt t c) ∧
    IsUtf8 hdr ∧ TrimmedEnd hdr text ∧ ColumnsAt text c

theorem headerLine_cols (env : DumpEnv) (h : DumpHeader) (l : Bytes) (hc : h.cols = none) :
    (headerLine env h l).cols = columnHeader (trimEnd l) := by
  have h1 : ∀ x, (versionLine env h x).cols = none := by
    intro x
    unfold versionLine
    split
    · split
      · exact hc
      · simp only
        split
        · exact hc
        · split <;> exact hc
    · exact hc
  have h2 : ∀ x, (localAsLine (versionLine env h x) x).cols = none := by
    intro x
    unfold localAsLine
    split
    · split
      · exact h1 x
      · exact h1 x
    · exact h1 x
  unfold headerLine
  simp only
  split
  · rename_i c hx; rw [hx]
  · rename_i hx; rw [hx]; exact h2 _

theorem firstHeader_nil (n : Nat) (c : Cols) : ¬ FirstHeader n [] c := by
  rintro ⟨pre, hdr, rows, text, h, _⟩
  simp at h

theorem firstHeader_cons (n : Nat) (l : Bytes) (ls : List Bytes) (c : Cols) : FirstHeader (n + 1) (l :: ls) c ↔
    utf8Ok l = true ∧ (columnHeader (trimEnd l) = some c ∨ columnHeader (trimEnd l) = none ∧ FirstHeader n ls c) := by
  constructor
  · rintro ⟨pre, hdr, rows, text, h1, h2, h3, h4, h5, h6⟩
    cases pre with
    | nil =>
      simp only [List.nil_append, List.cons.injEq] at h1
      obtain ⟨rfl, rfl⟩ := h1
      refine ⟨(Props.utf8_exact l).mpr h4, .inl ?_⟩
      rw [trimEnd_eq h5]; exact (columnHeader_iff _ _).mpr h6
    | cons p pre =>
      simp only [List.cons_append, List.cons.injEq] at h1
      obtain ⟨rfl, rfl⟩ := h1
      have hp := h3 l (by simp)
      refine ⟨(Props.utf8_exact l).mpr hp.1, .inr ⟨columnHeader_none fun c => hp.2 _ c (trimEnd_spec l), ?_⟩⟩
      exact ⟨pre, hdr, rows, text, rfl, by simp at h2; omega, fun x hx => h3 x (by simp [hx]), h4, h5, h6⟩
  · rintro ⟨hu, h | ⟨h, pre, hdr, rows, text, rfl, h2, h3, h4, h5, h6⟩⟩
    · exact ⟨[], l, ls, trimEnd l, rfl, by simp, by simp, (Props.utf8_exact l).mp hu, trimEnd_spec l, (columnHeader_iff _ _).mp h⟩
    · refine ⟨l :: pre, hdr, rows, text, rfl, by simp; omega, ?_, h4, h5, h6⟩
      intro x hx
      rcases List.mem_cons.mp hx with rfl | hx
      · refine ⟨(Props.utf8_exact x).mp hu, fun t c ht hc => ?_⟩
        rw [← trimEnd_eq ht, ← columnHeader_iff, h] at hc
        simp at hc
      · exact h3 x hx

theorem headerTxt_exact (env : DumpEnv) (c : Cols) (n : Nat) : ∀ (h : DumpHeader) (b : Bytes), h.cols = none →
    ((∃ h' t, headerTxt env none n h (byteToks b) = (some h', t) ∧ h'.cols = some c) ↔ FirstHeader n (linesOf b) c) := by
  induction n with
  | zero =>
    intro h b hc
    constructor
    · rintro ⟨h', t, h1, h2⟩
      simp only [headerTxt, Prod.mk.injEq, Option.some.injEq] at h1
      rw [← h1.1, hc] at h2
      simp at h2
    · rintro ⟨pre, hdr, rows, text, _, h2, _⟩
      simp at h2
  | succ n ih =>
    intro h b hc
    cases hl : linesOf b with
    | nil =>
      obtain rfl := linesOf_nil hl
      constructor
      · rintro ⟨h', t, h1, h2⟩
        unfold headerTxt at h1
        rw [lineT_nil] at h1
        simp only [Prod.mk.injEq, Option.some.injEq] at h1
        rw [← h1.1, hc] at h2
        simp at h2
      · exact fun h => absurd h (firstHeader_nil _ _)
    | cons l ls =>
      obtain ⟨g1, g2, g3⟩ := lineT_lines hl
      rw [firstHeader_cons]
      unfold headerTxt
      rw [g1]
      cases hu : utf8Ok l with
      | false => simp
      | true =>
        simp only [if_true, headerLine_cols env h l hc, true_and]
        cases hch : columnHeader (trimEnd l) with
        | some c' =>
          simp only [Option.isSome_some, if_true, Prod.mk.injEq, Option.some.injEq]
          constructor
          · rintro ⟨h', t, ⟨rfl, _⟩, h2⟩
            rw [headerLine_cols env h l hc, hch] at h2
            simp only [Option.some.injEq] at h2
            exact .inl h2
          · rintro (rfl | h)
            · exact ⟨_, _, ⟨rfl, rfl⟩, by rw [headerLine_cols env h l hc, hch]⟩
            · simp at h
        | none =>
          simp only [Option.isSome_none, Bool.false_eq_true, if_false, true_and, false_or, reduceCtorEq]
          have := ih (headerLine env h l) ls.flatten (by rw [headerLine_cols env h l hc, hch])
          rw [g2] at this
          exact this

/-! ### iteration -/

/-- two iterators in the same state. -/
def TextIter.Same (a b : TextIter) : Prop := a.Like b ∧ a.current = b.current ∧ SameDelivery a.src b.src

theorem TextIter.Like.symm {a b : TextIter} (h : a.Like b) : b.Like a := ⟨h.1.symm, h.2.1.symm, h.2.2.1.symm, h.2.2.2.1.symm, h.2.2.2.2.symm⟩

theorem TextIter.Like.trans {a b c : TextIter} (h : a.Like b) (g : b.Like c) : a.Like c :=
  ⟨h.1.trans g.1, h.2.1.trans g.2.1, h.2.2.1.trans g.2.2.1, h.2.2.2.1.trans g.2.2.2.1, h.2.2.2.2.trans g.2.2.2.2⟩

theorem nextT_like {env : DumpEnv} {a b : TextIter} (h : a.Like b) (k : Option Bool) (cur : Bytes) (t : List Tok) :
    a.nextT env k cur t = b.nextT env k cur t := nextTxt_like h k _ cur t

theorem next_same {env : DumpEnv} {a b : TextIter} (h : a.Same b) : (a.next env).1 = (b.next env).1 ∧ (a.next env).2.Same (b.next env).2 := by
  obtain ⟨h1, h2, h3, h4⟩ := h
  obtain ⟨a', a1, a2, a3, a4, a5⟩ := next_txt env a
  obtain ⟨b', b1, b2, b3, b4, b5⟩ := next_txt env b
  rw [nextT_like h1, h2, h3, h4] at a2 a3 a4
  rw [a2, b2]
  exact ⟨rfl, (a1.symm.trans h1).trans b1, by rw [a3, b3], by rw [a4, b4], by rw [a5, b5, h4]⟩

theorem new_same {env : DumpEnv} {s s' : Src} (h : SameDelivery s s') (time : Nat) :
    (∃ e, TextIter.new env s time = .error e ∧ TextIter.new env s' time = .error e) ∨
    ∃ it it', TextIter.new env s time = .ok it ∧ TextIter.new env s' time = .ok it' ∧ it.Same it' := by
  obtain ⟨u, h1, h2⟩ := dumpHeaderLoop_eq env 64 ⟨none, none, none, none⟩ s
  obtain ⟨v, g1, g2⟩ := dumpHeaderLoop_eq env 64 ⟨none, none, none, none⟩ s'
  rw [h.1, h.2] at h1 h2
  unfold TextIter.new parseDumpHeader
  rw [h1, g1]
  rcases hx : headerTxt env s'.stuck 64 ⟨none, none, none, none⟩ (toks s'.evs) with ⟨_ | hd, t⟩
  · exact .inl ⟨_, rfl, rfl⟩
  · rw [hx] at h2 g2
    simp only
    cases hc : hd.cols with
    | none => exact .inl ⟨_, rfl, rfl⟩
    | some c =>
      exact .inr ⟨_, _, rfl, rfl, ⟨rfl, rfl, rfl, rfl, rfl⟩, rfl, by rw [h2.1, g2.1], by rw [h2.2, g2.2]⟩

theorem new_io {env : DumpEnv} {s : Src} {time : Nat} {e : Err} (h : TextIter.new env s time = .error e) : e = .io := by
  unfold TextIter.new at h
  split at h
  · simpa using h.symm
  · split at h
    · simpa using h.symm
    · simp at h

theorem next_progress (env : DumpEnv) (it : TextIter) {e : BgpElem} (h : (it.next env).1 = .ok (some e)) :
    (toks (it.next env).2.src.evs).length < (toks it.src.evs).length := by
  obtain ⟨a', a1, a2, a3, a4, a5⟩ := next_txt env it
  rw [a2] at h ⊢
  simp only at h ⊢
  rw [a4]
  unfold TextIter.nextT at h ⊢
  exact nextTxt_progress env it it.src.stuck _ it.current _ _ _ e (Prod.ext h rfl)

theorem collect_same {env : DumpEnv} (n : Nat) : ∀ (m : Nat) {a b : TextIter}, a.Same b → (toks a.src.evs).length < n →
    (toks b.src.evs).length < m → a.collect env n = b.collect env m := by
  intro m a b h hn hm
  rw [collect_txt env n a hn, collect_txt env m b hm, dumpT_like h.1, h.2.1, h.2.2.1, h.2.2.2]

/-! ### what iterators yield -/

theorem yields_same {env : DumpEnv} {a : TextIter} {es : List BgpElem} (h : Gives (TextIter.next env) a es) :
    ∀ {b : TextIter}, a.Same b → Gives (TextIter.next env) b es := by
  induction h with
  | done h => intro b hs; exact .done ((next_same hs).1 ▸ h)
  | item h _ ih => intro b hs; exact .item ((next_same hs).1 ▸ h) (ih (next_same hs).2)

theorem TextIter.Same.symm {a b : TextIter} (h : a.Same b) : b.Same a := ⟨h.1.symm, h.2.1.symm, h.2.2.1.symm, h.2.2.2.symm⟩

theorem collect_yields (env : DumpEnv) (n : Nat) : ∀ (it : TextIter) (es : List BgpElem), (toks it.src.evs).length < n →
    (it.collect env n = .ok es ↔ Gives (TextIter.next env) it es) := by
  induction n with
  | zero => intro it es h; omega
  | succ n ih =>
    intro it es hn
    unfold TextIter.collect
    rcases hx : it.next env with ⟨r, it'⟩
    have hr : (it.next env).1 = r := by rw [hx]
    have hi : (it.next env).2 = it' := by rw [hx]
    rcases r with e | _ | e
    · simp only [reduceCtorEq, false_iff]
      intro h
      cases h with
      | done h => rw [hr] at h; simp at h
      | item h => rw [hr] at h; simp at h
    · simp only [Except.ok.injEq]
      constructor
      · rintro rfl; exact .done hr
      · intro h
        cases h with
        | done h => rfl
        | item h => rw [hr] at h; simp at h
    · have hp := next_progress env it hr
      rw [hi] at hp
      have ih' := fun es => ih it' es (by omega)
      simp only
      constructor
      · intro h
        cases hc : it'.collect env n with
        | error e => rw [hc] at h; simp [Except.map] at h
        | ok es' =>
          rw [hc] at h
          simp only [Except.map, Except.ok.injEq] at h
          subst h
          exact .item hr (by rw [hi]; exact (ih' es').mp hc)
      · intro h
        cases h with
        | done h => rw [hr] at h; simp at h
        | item h g =>
          rw [hr] at h
          simp only [Except.ok.injEq, Option.some.injEq] at h
          subst h
          rw [hi] at g
          rw [(ih' _).mpr g]
          rfl

theorem textFilterLoop_fuel (env : DumpEnv) (keep : BgpElem → Bool) (n : Nat) : ∀ (m : Nat) (it : TextIter),
    (toks it.src.evs).length < n → (toks it.src.evs).length < m → textFilterLoop env keep n it = textFilterLoop env keep m it := by
  induction n with
  | zero => intro m it h; omega
  | succ n ih =>
    intro m it hn hm
    cases m with
    | zero => omega
    | succ m =>
      unfold textFilterLoop
      rcases hx : it.next env with ⟨r, it'⟩
      have hr : (it.next env).1 = r := by rw [hx]
      have hi : (it.next env).2 = it' := by rw [hx]
      rcases r with e | _ | e
      · rfl
      · rfl
      · have hp := next_progress env it hr
        rw [hi] at hp
        simp only
        rw [ih m it' (by omega) (by omega)]

/-- the loop with the filters. -/
theorem textElemNext_step (env : DumpEnv) (tenv : TextEnv) (fs : List (Filter tenv.Rx)) (it : TextIter) :
    textElemNext env tenv fs it =
      match it.next env with
      | (.ok (some e), it') => if e.matchFilters tenv fs then (.ok (some e), it') else textElemNext env tenv fs it'
      | (r, it') => (r, it') := by
  unfold textElemNext
  conv => lhs; unfold textFilterLoop
  rcases hx : it.next env with ⟨r, it'⟩
  have hr : (it.next env).1 = r := by rw [hx]
  have hi : (it.next env).2 = it' := by rw [hx]
  rcases r with e | _ | e
  · rfl
  · rfl
  · have hp := next_progress env it hr
    rw [hi] at hp
    have h1 := toks_length it.src
    have h2 := toks_length it'.src
    simp only
    rw [textFilterLoop_fuel env _ it.src.size (it'.src.size + 1) it' (by omega) (by omega)]

theorem yields_filter (env : DumpEnv) (tenv : TextEnv) (fs : List (Filter tenv.Rx)) {it : TextIter} {es : List BgpElem}
    (h : Gives (TextIter.next env) it es) :
    Gives (textElemNext env tenv fs) it (es.filter fun e => e.matchFilters tenv fs) := by
  induction h with
  | done h =>
    rename_i it
    refine .done ?_
    rw [textElemNext_step]
    rcases hx : it.next env with ⟨r, it'⟩
    rw [hx] at h
    simp only at h
    subst h
    rfl
  | item h _ ih =>
    rename_i it e es _
    have hst := textElemNext_step env tenv fs it
    rcases hx : it.next env with ⟨r, it'⟩
    rw [hx] at h hst ih
    simp only at h ih
    subst h
    simp only at hst
    cases hm : e.matchFilters tenv fs with
    | true =>
      rw [hm] at hst
      rw [List.filter_cons, hm, if_pos rfl]
      exact .item (by rw [hst]; rfl) (by rw [hst]; exact ih)
    | false =>
      rw [hm] at hst
      simp only [Bool.false_eq_true, if_false] at hst
      rw [List.filter_cons_of_neg (by simp [hm])]
      generalize es.filter (fun e => e.matchFilters tenv fs) = fes at ih
      cases ih with
      | done h => exact .done (by rw [hst]; exact h)
      | item h g => exact .item (by rw [hst]; exact h) (by rw [hst]; exact g)

theorem filter_yields (env : DumpEnv) (tenv : TextEnv) (fs : List (Filter tenv.Rx)) (n : Nat) : ∀ (it : TextIter) (es' : List BgpElem),
    (toks it.src.evs).length < n → Gives (textElemNext env tenv fs) it es' →
    ∃ es, Gives (TextIter.next env) it es ∧ es' = es.filter fun e => e.matchFilters tenv fs := by
  induction n with
  | zero => intro it es h; omega
  | succ n ih =>
    intro it es' hn h
    have hst := textElemNext_step env tenv fs it
    rcases hx : it.next env with ⟨r, it'⟩
    have hr : (it.next env).1 = r := by rw [hx]
    have hi : (it.next env).2 = it' := by rw [hx]
    rw [hx] at hst
    rcases r with e | _ | e
    · simp only at hst
      cases h with
      | done h => rw [hst] at h; simp at h
      | item h => rw [hst] at h; simp at h
    · simp only at hst
      cases h with
      | done h => exact ⟨[], .done hr, rfl⟩
      | item h => rw [hst] at h; simp at h
    · have hp := next_progress env it hr
      rw [hi] at hp
      simp only at hst
      cases hm : e.matchFilters tenv fs with
      | true =>
        rw [hm] at hst
        simp only [if_true] at hst
        cases h with
        | done h => rw [hst] at h; simp at h
        | item h g =>
          rw [hst] at h g
          simp only [Except.ok.injEq, Option.some.injEq] at h
          subst h
          obtain ⟨es, h1, rfl⟩ := ih it' _ (by omega) g
          exact ⟨e :: es, .item hr (by rw [hi]; exact h1), by rw [List.filter_cons, hm, if_pos rfl]⟩
      | false =>
        rw [hm] at hst
        simp only [Bool.false_eq_true, if_false] at hst
        have g : Gives (textElemNext env tenv fs) it' es' := by
          cases h with
          | done h => exact .done (by rw [← hst]; exact h)
          | item h g => exact .item (by rw [← hst]; exact h) (by rw [← hst]; exact g)
        obtain ⟨es, h1, rfl⟩ := ih it' _ (by omega) g
        exact ⟨e :: es, .item hr (by rw [hi]; exact h1), by rw [List.filter_cons_of_neg (by simp [hm])]⟩

/-! ### detection -/

theorem strContains_iff (s pat : Bytes) (hp : pat ≠ []) : strContains s pat = true ↔ pat <:+: s := by
  unfold strContains
  constructor
  · intro h
    cases ho : splitOnce pat s with
    | none => rw [ho] at h; simp at h
    | some xy =>
      obtain ⟨x, y⟩ := xy
      exact ⟨x, y, (splitOnce_spec ho).symm⟩
  · rintro ⟨x, y, rfl⟩
    induction x with
    | nil =>
      cases hs : pat ++ y with
      | nil => simp [hp] at hs
      | cons b r =>
        rw [List.nil_append, hs]
        unfold splitOnce
        rw [if_pos (List.isPrefixOf_iff_prefix.mpr (by rw [← hs]; exact List.prefix_append _ _))]
        rfl
    | cons b x ih =>
      rw [List.cons_append, List.cons_append]
      unfold splitOnce
      split
      · rfl
      · rw [Option.isSome_map]; exact ih

theorem looksText_iff (h : Bytes) : looksText h = true ↔ TextHead h := by
  unfold looksText TextHead
  rw [Bool.and_eq_true, Bool.and_eq_true, Props.utf8_exact, Bool.or_eq_true, Bool.or_eq_true, strContains_iff _ _ (by decide),
    strContains_iff _ _ (by decide), strContains_iff _ _ (by decide), and_assoc, or_assoc]
  refine and_congr ?_ Iff.rfl
  cases h with
  | nil => simp
  | cons b r =>
    simp only [asciiGraphic, Bool.and_eq_true, decide_eq_true_eq, UInt8.le_iff_toNat_le, List.head?_cons, Option.some.injEq, exists_eq_left']
    exact Iff.rfl

/-! ### a line that cannot be read -/

/-- lines with their line feeds. -/
def FullLines (ls : List Bytes) : Prop := ∀ l ∈ ls, ∃ x, l = x ++ [10] ∧ 10 ∉ x

theorem linesOf_full : ∀ {ls : List Bytes}, FullLines ls → linesOf ls.flatten = ls
  | [], _ => rfl
  | l :: ls, h => by
    obtain ⟨x, rfl, hx⟩ := h l (by simp)
    have ih := linesOf_full (ls := ls) fun y hy => h y (by simp [hy])
    rw [List.flatten_cons]
    generalize ls.flatten = r at ih
    clear h
    induction x with
    | nil =>
      show linesOf (10 :: r) = _
      unfold linesOf
      rw [if_pos rfl, ih]; rfl
    | cons b x ihx =>
      have hb : b ≠ 10 := by rintro rfl; simp at hx
      have := ihx (fun hh => hx (by simp [hh]))
      show linesOf (b :: (x ++ [10] ++ r)) = _
      unfold linesOf
      rw [if_neg hb, this]
      rfl

theorem lineT_full (k : Option Bool) (t : List Tok) {l : Bytes} (h : ∃ x, l = x ++ [10] ∧ 10 ∉ x) :
    lineT k (byteToks l ++ t) = (if utf8Ok l = true then .line l else .failed, t) := by
  obtain ⟨x, rfl, hx⟩ := h
  unfold lineT
  rw [untilT_line k t x [] hx]
  simp

/-- what follows is read as the end or as a failure. -/
def Stops (k : Option Bool) (t : List Tok) : Prop := (∃ t', lineT k t = (.eof, t')) ∨ ∃ t', lineT k t = (.failed, t')

theorem dumpT_stops (env : DumpEnv) (it : TextIter) {k : Option Bool} {t : List Tok} (ht : Stops k t) : ∀ (ls : List Bytes), FullLines ls →
    ∀ (n : Nat) (cur : Bytes), (byteToks ls.flatten ++ t).length < n →
    dumpT env it k n cur (byteToks ls.flatten ++ t) = dumpLines env it cur ls
  | [], _, n, cur, hn => by
    cases n with
    | zero => omega
    | succ n =>
      unfold dumpT
      rcases ht with ⟨t', h⟩ | ⟨t', h⟩
      · simp [byteToks, h, dumpLines]
      · simp [byteToks, h, dumpLines]
  | l :: ls, hf, n, cur, hn => by
    have hl := hf l (by simp)
    have hpos : 0 < l.length := by obtain ⟨x, rfl, _⟩ := hl; simp
    cases n with
    | zero => omega
    | succ n =>
      have e : byteToks (l :: ls).flatten ++ t = byteToks l ++ (byteToks ls.flatten ++ t) := by
        rw [List.flatten_cons, byteToks_append, List.append_assoc]
      have hn' : (byteToks ls.flatten ++ t).length < n := by
        rw [e, List.length_append, byteToks_length] at hn; omega
      have ih := fun cur => dumpT_stops env it ht ls (fun y hy => hf y (by simp [hy])) n cur hn'
      unfold dumpT dumpLines
      rw [e, lineT_full k _ hl]
      cases hu : utf8Ok l with
      | false => simp
      | true => simp only [if_true, ih]; rfl

theorem headerTxt_stops (env : DumpEnv) {k : Option Bool} {t : List Tok} (n : Nat) : ∀ (ls : List Bytes), FullLines ls →
    ∀ (h h' : DumpHeader) (u : List Tok), h.cols = none → headerTxt env none n h (byteToks ls.flatten) = (some h', u) → h'.cols ≠ none →
    ∃ rs, rs <:+ ls ∧ u = byteToks rs.flatten ∧ headerTxt env k n h (byteToks ls.flatten ++ t) = (some h', byteToks rs.flatten ++ t) := by
  induction n with
  | zero =>
    intro ls _ h h' u hc h1 h2
    simp only [headerTxt, Prod.mk.injEq, Option.some.injEq] at h1
    rw [← h1.1] at h2; exact absurd hc h2
  | succ n ih =>
    intro ls hf h h' u hc h1 h2
    cases ls with
    | nil =>
      unfold headerTxt at h1
      rw [show byteToks (List.flatten []) = byteToks [] from rfl, lineT_nil] at h1
      simp only [Prod.mk.injEq, Option.some.injEq] at h1
      rw [← h1.1] at h2; exact absurd hc h2
    | cons l ls =>
      have hl := hf l (by simp)
      have e : byteToks (l :: ls).flatten = byteToks l ++ byteToks ls.flatten := by rw [List.flatten_cons, byteToks_append]
      unfold headerTxt at h1 ⊢
      rw [e, lineT_full none _ hl] at h1
      rw [e, List.append_assoc, lineT_full k _ hl]
      cases hu : utf8Ok l with
      | false => rw [hu] at h1; simp at h1
      | true =>
        rw [hu] at h1
        simp only [if_true] at h1 ⊢
        cases hcc : (headerLine env h l).cols.isSome with
        | true =>
          rw [hcc] at h1
          simp only [if_true, Prod.mk.injEq, Option.some.injEq] at h1 ⊢
          exact ⟨ls, List.suffix_cons _ _, h1.2.symm, h1.1, rfl⟩
        | false =>
          rw [hcc] at h1
          simp only [Bool.false_eq_true, if_false] at h1 ⊢
          obtain ⟨rs, r1, r2, r3⟩ := ih ls (fun y hy => hf y (by simp [hy])) _ h' u (by simpa using hcc) h1 h2
          exact ⟨rs, r1.trans (List.suffix_cons _ _), r2, r3⟩

theorem stops_nil : Stops none [] := .inl ⟨[], lineT_nil⟩

theorem stops_fail (k : Option Bool) (part : Bytes) (h : 10 ∉ part) (e : Bool) (t : List Tok) : Stops k (byteToks part ++ .fail e :: t) := by
  refine .inr ⟨t, ?_⟩
  unfold lineT
  rw [untilT_bytes k _ part [] h]
  rfl

theorem stops_utf8 (k : Option Bool) {l : Bytes} (h : ∃ x, l = x ++ [10] ∧ 10 ∉ x) (hu : utf8Ok l = false) (t : List Tok) :
    Stops k (byteToks l ++ t) := by
  refine .inr ⟨t, ?_⟩
  rw [lineT_full k t h, hu]
  simp

theorem parse_stops {env : DumpEnv} {ls : List Bytes} (hf : FullLines ls) {k : Option Bool} {t : List Tok} (ht : Stops k t) {time : Nat}
    {c : Cols} (hc : FirstHeader 64 ls c) :
    parseDumpT env k (byteToks ls.flatten ++ t) time = parseDumpT env none (byteToks ls.flatten) time := by
  have hl := linesOf_full hf
  obtain ⟨h', u, h1, h2⟩ := (headerTxt_exact env c 64 ⟨none, none, none, none⟩ ls.flatten rfl).mpr (by rw [hl]; exact hc)
  obtain ⟨rs, r1, rfl, r3⟩ := headerTxt_stops env (k := k) (t := t) 64 ls hf _ h' u rfl h1 (by rw [h2]; simp)
  have hrf : FullLines rs := fun x hx => hf x (r1.subset hx)
  unfold parseDumpT
  rw [h1, r3]
  simp only [h2]
  rw [dumpT_stops env _ ht rs hrf _ _ (by omega), dumpT_lines env _ _ rs.flatten [] (by rw [byteToks_length]; omega), linesOf_full hrf]

/-! ### no panic on ASCII -/

theorem wrappedPrefix_ascii {env : DumpEnv} {l : Bytes} (h : ∀ b ∈ l, b.toNat < 128) (n : Nat) : ∃ o, wrappedPrefix env l n = .ok o := by
  unfold wrappedPrefix
  simp only
  split
  · unfold strFrom
    rw [if_pos (charBoundary_ascii h (by omega))]
    simp only
    split
    · exact ⟨_, rfl⟩
    · exact ⟨_, rfl⟩
  · exact ⟨_, rfl⟩

theorem lineStep_ascii {env : DumpEnv} {it : TextIter} {l : Bytes} (h : ∀ b ∈ l, b.toNat < 128) : ∃ o c, it.lineStep env l = .ok (o, c) := by
  obtain ⟨o, ho⟩ := wrappedPrefix_ascii (env := env) h it.cols.nextHop
  unfold TextIter.lineStep
  simp only [ho]
  split
  · rename_i e _
    by_cases hc : (if e.prefix_.isEmpty = true then it.current else e.prefix_).isEmpty = true
    · rw [if_pos hc]; exact ⟨_, _, rfl⟩
    · rw [if_neg hc]; exact ⟨_, _, rfl⟩
  · cases o with
    | none => exact ⟨_, _, rfl⟩
    | some p => exact ⟨_, _, rfl⟩

theorem dumpLines_ascii {env : DumpEnv} {it : TextIter} : ∀ (ls : List Bytes) (cur : Bytes), (∀ l ∈ ls, ∀ b ∈ l, b.toNat < 128) →
    ∃ es, dumpLines env it cur ls = .ok es
  | [], _, _ => ⟨[], rfl⟩
  | l :: ls, cur, h => by
    have ih := fun c => dumpLines_ascii (env := env) (it := it) ls c fun x hx => h x (by simp [hx])
    unfold dumpLines
    split
    · split
      · exact ih cur
      · obtain ⟨o, c, hst⟩ := lineStep_ascii (env := env) (it := { it with current := cur })
          (fun b hb => h l (by simp) b ((trimEnd_isPrefix l).subset hb))
        obtain ⟨es, he⟩ := ih c
        rw [hst]
        cases o with
        | some e => exact ⟨e :: es, by simp only [he]; rfl⟩
        | none => exact ⟨es, he⟩
    · exact ⟨[], rfl⟩

theorem linesOf_flatten : ∀ (b : Bytes), (linesOf b).flatten = b
  | [] => rfl
  | b :: r => by
    have ih := linesOf_flatten r
    unfold linesOf
    split
    · simp [ih]
    · cases h : linesOf r with
      | nil => rw [h] at ih; simp at ih; simp [← ih]
      | cons l ls => rw [h] at ih; simp at ih ⊢; exact ih

theorem headerTxt_rest (env : DumpEnv) (n : Nat) : ∀ (h h' : DumpHeader) (b : Bytes) (u : List Tok),
    headerTxt env none n h (byteToks b) = (some h', u) → ∃ r, r <:+ b ∧ u = byteToks r := by
  induction n with
  | zero =>
    intro h h' b u h1
    simp only [headerTxt, Prod.mk.injEq] at h1
    exact ⟨b, List.suffix_refl _, h1.2.symm⟩
  | succ n ih =>
    intro h h' b u h1
    cases hl : linesOf b with
    | nil =>
      obtain rfl := linesOf_nil hl
      unfold headerTxt at h1
      rw [lineT_nil] at h1
      simp only [Prod.mk.injEq] at h1
      exact ⟨[], List.suffix_refl _, h1.2.symm⟩
    | cons l ls =>
      obtain ⟨g1, g2, g3⟩ := lineT_lines hl
      have hsuf : ls.flatten <:+ b := by
        rw [← linesOf_flatten b, hl, List.flatten_cons]; exact List.suffix_append _ _
      unfold headerTxt at h1
      rw [g1] at h1
      cases hu : utf8Ok l with
      | false => rw [hu] at h1; simp at h1
      | true =>
        rw [hu] at h1
        simp only [if_true] at h1
        split at h1
        · simp only [Prod.mk.injEq] at h1
          exact ⟨_, hsuf, h1.2.symm⟩
        · obtain ⟨r, r1, r2⟩ := ih _ _ _ _ h1
          exact ⟨r, r1.trans hsuf, r2⟩

theorem parse_ascii {env : DumpEnv} {b : Bytes} (h : ∀ x ∈ b, x.toNat < 128) (time : Nat) {e : Err}
    (he : parseDumpT env none (byteToks b) time = .error e) : e = .io := by
  unfold parseDumpT at he
  rcases hx : headerTxt env none 64 ⟨none, none, none, none⟩ (byteToks b) with ⟨_ | hd, t⟩
  · rw [hx] at he; simpa using he.symm
  · rw [hx] at he
    simp only at he
    cases hc : hd.cols with
    | none => rw [hc] at he; simpa using he.symm
    | some c =>
      rw [hc] at he
      obtain ⟨r, r1, rfl⟩ := headerTxt_rest env 64 _ _ _ _ hx
      simp only at he
      rw [dumpT_lines env _ _ r [] (by rw [byteToks_length]; omega)] at he
      obtain ⟨es, hes⟩ := dumpLines_ascii (env := env)
        (it := ⟨⟨[], none⟩, c, c.shiftLeft, hd.routerId.getD (.v4 #v[0, 0, 0, 0]), hd.localAs.getD 0, time, []⟩) (linesOf r) []
        (fun l hl x hxl => h x (r1.subset (by rw [← linesOf_flatten r]; exact List.mem_flatten.mpr ⟨l, hl, hxl⟩)))
      rw [hes] at he
      simp at he

end Verif
