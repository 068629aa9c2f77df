import Verif.Lemmas.RouteRec
import Verif.Lemmas.FilterIter
/-
The route iterators over a stream.
-/
namespace Verif
open Spec

theorem gather_noPanic (n : Nat) : ∀ it : RouteIter, (it.gather n).2 ≠ some .panic := by
  induction n with
  | zero => intro it; simp [RouteIter.gather]
  | succ n ih =>
    intro it
    have := next_noPanic it
    rw [RouteIter.gather]
    cases hn : it.next with
    | error e => rw [hn] at this; simpa using this
    | ok y =>
      obtain ⟨y, it'⟩ := y
      cases y with
      | none => simp
      | some x => exact ih it'

theorem collect_noPanic (it : RouteIter) : it.collect.2 ≠ some .panic := gather_noPanic _ it

/-- what taking pending routes gives. -/
theorem drain_spec (p : RouteElem → Bool) (fuel : Nat) : ∀ it : RouteIter, it.size < fuel →
    (it.collect.1.filter p = [] → it.collect.2 = none → ∃ it', drain p fuel it = .ok (none, it') ∧ it'.collect = ([], none)) ∧
    (it.collect.1.filter p = [] → ∀ e, it.collect.2 = some e → drain p fuel it = .error e) ∧
    (∀ x l, it.collect.1.filter p = x :: l → ∃ it', drain p fuel it = .ok (some x, it') ∧ it'.collect.1.filter p = l ∧
      it'.collect.2 = it.collect.2) := by
  induction fuel with
  | zero => intro it h; omega
  | succ fuel ih =>
    intro it hf
    rw [drain]
    cases hn : it.next with
    | error e =>
      rw [collect_error hn]
      exact ⟨fun _ h => (by cases h), fun _ e' h => (by cases h; rfl), fun x l h => (by cases h)⟩
    | ok y =>
      obtain ⟨y, it'⟩ := y
      cases y with
      | none =>
        rw [collect_none hn]
        exact ⟨fun _ _ => ⟨it', rfl, collect_none (next_ended hn)⟩, fun _ e h => (by cases h), fun x l h => (by cases h)⟩
      | some x =>
        have hs := next_size hn
        rw [collect_some hn]
        dsimp only
        by_cases hp : p x = true
        · rw [List.filter_cons_of_pos hp]
          rw [if_pos hp]
          refine ⟨fun h => (by cases h), fun h => (by cases h), fun y l h => ?_⟩
          cases h
          exact ⟨it', rfl, rfl, rfl⟩
        · rw [List.filter_cons_of_neg hp, if_neg hp]
          exact ih it' (by omega)

/-- the raw records of a delivery. -/
inductive RawsD (cd : Bool) (k : Option Bool) : List Tok → List Raw → Prop where
  | ok {t r t' l} : chunkT k t = (.ok r, t') → RawsD cd k t' l → RawsD cd k t (r :: l)
  | skip {t e t' l} : chunkT k t = (.error e, t') → goesOn cd e.error = true → RawsD cd k t' l → RawsD cd k t l
  | stop {t e t'} : chunkT k t = (.error e, t') → goesOn cd e.error = false → RawsD cd k t []

theorem rawsD_exists (cd : Bool) (k : Option Bool) (n : Nat) : ∀ t : List Tok, t.length ≤ n →
    ∃ l, RawsD cd k t l ∧ l.length ≤ t.length := by
  induction n with
  | zero =>
    intro t ht
    cases hc : chunkT k t with
    | mk x t' =>
      rcases chunkT_progress hc with hp | ⟨e, rfl, hp⟩
      · omega
      · exact ⟨[], .stop hc (hp cd), by simp⟩
  | succ n ih =>
    intro t ht
    cases hc : chunkT k t with
    | mk x t' =>
      rcases chunkT_progress hc with hp | ⟨e, rfl, hp⟩
      · obtain ⟨l, h1, h2⟩ := ih t' (by omega)
        cases x with
        | ok r => exact ⟨r :: l, .ok hc h1, by simp; omega⟩
        | error e =>
          by_cases hg : goesOn cd e.error = true
          · exact ⟨l, .skip hc hg h1, by omega⟩
          · exact ⟨[], .stop hc (by simpa using hg), by simp⟩
      · exact ⟨[], .stop hc (hp cd), by simp⟩

theorem rawsD_rawT {cd : Bool} {k : Option Bool} {t : List Tok} {l : List Raw} (h : RawsD cd k t l) :
    (l = [] → (rawT cd k t).1 = none) ∧ (∀ x l', l = x :: l' → ∃ t', rawT cd k t = (some x, t') ∧ RawsD cd k t' l') := by
  induction h with
  | @ok t r t' l hc hr ih =>
    refine ⟨fun h => (by cases h), fun x l' h => ?_⟩
    cases h
    refine ⟨t', ?_, hr⟩
    rw [rawT]
    split
    · next h' => rw [hc] at h'; cases h'; rfl
    · next h' => rw [hc] at h'; cases h'
  | @skip t e t' l hc hg hr ih =>
    have : rawT cd k t = rawT cd k t' := by
      rw [rawT]
      split
      · next h' => rw [hc] at h'; cases h'
      · next h' => rw [hc] at h'; cases h'; rw [dif_pos hg]
    rw [this]; exact ih
  | @stop t e t' hc hg =>
    refine ⟨fun _ => ?_, fun x l' h => by cases h⟩
    rw [rawT]
    split
    · next h' => rw [hc] at h'; cases h'
    · next h' => rw [hc] at h'; cases h'; rw [dif_neg (by rw [hg]; simp)]

theorem forLoop_raws {cd : Bool} (pol : Pol) (s : Src) {l : List Raw} (h : RawsD cd s.stuck (toks s.evs) l) (n : Nat) :
    (forLoop (rawIter cd pol) n s).1 = l.take n ∧ ((forLoop (rawIter cd pol) n s).2.1 = true ↔ l.length < n) := by
  obtain ⟨h1, h2, _⟩ := loop_raw cd pol s.stuck n s (toks s.evs) (At.self s)
  obtain ⟨g1, g2⟩ := forLoop_list (next := rawT cd s.stuck) (Says := RawsD cd s.stuck) (fun s l h => rawsD_rawT h) n _ _ h
  rw [h1, h2]
  exact ⟨g1, g2⟩

/-- the routes of a sequence of raw records. -/
def routesRun (cd : Bool) : Option (List Peer) → List Raw → List RouteElem
  | _, [] => []
  | table, raw :: raws =>
    match routeIterOf raw table with
    | (.error _, table) => if cd then [] else routesRun cd table raws
    | (.ok it, table) => it.collect.1 ++ (if cd && it.collect.2.isSome then [] else routesRun cd table raws)

/-- what an iterator has still to say. -/
def RouteSays (env : TextEnv) (fs : List (Filter env.Rx)) (cd : Bool) (k : Option Bool) (st : RouteState) (l : List RouteElem) : Prop :=
  ∃ t raws, At k st.src t ∧ RawsD cd k t raws ∧
    l = (st.pending.collect.1 ++ (if cd && st.pending.collect.2.isSome then [] else routesRun cd st.table raws)).filter
      fun x => x.matchFilters env fs

theorem routeNext_says (env : TextEnv) (fs : List (Filter env.Rx)) (cd : Bool) (pol : Pol) (k : Option Bool) (fuel : Nat) :
    ∀ (st : RouteState) (t : List Tok) (raws : List Raw), At k st.src t → RawsD cd k t raws →
      (2 * t.length + 2 ≤ fuel ∨ (st.pending = .empty ∧ 2 * t.length + 1 ≤ fuel)) → ∀ l,
      l = (st.pending.collect.1 ++ (if cd && st.pending.collect.2.isSome then [] else routesRun cd st.table raws)).filter
        (fun x => x.matchFilters env fs) →
      (l = [] → (routeNext env fs cd pol fuel st).1 = none) ∧
      (∀ x l', l = x :: l' → ∃ st', routeNext env fs cd pol fuel st = (some x, st') ∧ RouteSays env fs cd k st' l') := by
  induction fuel with
  | zero => intro st t raws _ _ hf; omega
  | succ fuel ih =>
    intro st t raws hat hr hf l hl
    obtain ⟨it, rb, table, s⟩ := st
    obtain ⟨d1, d2, d3⟩ := drain_spec (fun x => x.matchFilters env fs) (it.size + 1) it (Nat.lt_succ_self _)
    simp only at hat hf hl
    rw [List.filter_append] at hl
    rw [routeNext]
    dsimp only
    cases hfl : it.collect.1.filter (fun x => x.matchFilters env fs) with
    | cons x l0 =>
      obtain ⟨it', e1, e2, e3⟩ := d3 x l0 hfl
      rw [e1]
      dsimp only
      rw [hfl] at hl
      refine ⟨fun h => (by rw [h] at hl; cases hl), fun y l' h => ?_⟩
      rw [h] at hl
      cases hl
      refine ⟨_, rfl, t, raws, hat, hr, ?_⟩
      rw [List.filter_append, e2, e3]
      rfl
    | nil =>
      rw [hfl, List.nil_append] at hl
      cases hce : it.collect.2 with
      | some e =>
        rw [d2 hfl e hce]
        dsimp only
        have hnp : e ≠ .panic := by intro he; subst he; exact collect_noPanic it hce
        rw [hce] at hl
        cases cd with
        | true =>
          rw [Bool.true_or, if_pos rfl]
          refine ⟨fun _ => rfl, fun x l' h => ?_⟩
          rw [h] at hl; cases hl
        | false =>
          have : (false || e == Err.panic) = false := by simpa using hnp
          rw [this, if_neg (by simp)]
          refine ih ⟨.empty, none, table, s⟩ t raws hat hr ?_ l ?_
          · right
            refine ⟨rfl, ?_⟩
            rcases hf with hf | ⟨rfl, hf⟩
            · omega
            · rw [collect_empty] at hce; cases hce
          · simpa [collect_empty] using hl
      | none =>
        obtain ⟨it', e1, e2⟩ := d1 hfl hce
        rw [e1]
        dsimp only
        rw [hce] at hl
        simp only [Option.isSome_none, Bool.and_false, Bool.false_eq_true, if_false] at hl
        obtain ⟨rfl, rfl⟩ := hat
        obtain ⟨s', c1, c2, c3⟩ := chunk_eq pol s
        rw [c1]
        cases hr with
        | @ok _ raw t' raws' hc hr =>
          rw [hc] at c2 ⊢
          dsimp only at c2 ⊢
          rw [routesRun] at hl
          have hlen : t'.length + 12 ≤ (toks s.evs).length := by
            rcases chunkT_progress hc with hp | ⟨e, he, _⟩
            · exact hp
            · cases he
          have hnp := routeIterOf_noPanic raw table
          generalize routeIterOf raw table = y at hl hnp
          obtain ⟨y, table'⟩ := y
          cases y with
          | ok it2 =>
            exact ih ⟨it2, some raw.bytes, table', s'⟩ t' raws' ⟨c2, c3⟩ hr (.inl (by omega)) l hl
          | error e =>
            dsimp only at hl hnp ⊢
            cases cd with
            | true =>
              rw [Bool.true_or, if_pos rfl]
              refine ⟨fun _ => rfl, fun x l' h => ?_⟩
              rw [h] at hl; cases hl
            | false =>
              have : (false || e == Err.panic) = false := by simpa using hnp
              rw [this, if_neg (by simp)]
              refine ih ⟨it', none, table', s'⟩ t' raws' ⟨c2, c3⟩ hr (.inl (by omega)) l ?_
              rw [e2]; simpa using hl
        | @skip _ e t' _ hc hg hr =>
          rw [hc] at c2 ⊢
          dsimp only at c2 ⊢
          have hlen : t'.length + 12 ≤ (toks s.evs).length := by
            rcases chunkT_progress hc with hp | ⟨e, he, hp⟩
            · exact hp
            · cases he; rw [hp] at hg; cases hg
          rw [if_pos (show goesOn cd e.toRec.error = true from hg)]
          refine ih ⟨it', none, table, s'⟩ t' raws ⟨c2, c3⟩ hr (.inl (by omega)) l ?_
          rw [e2]; simpa using hl
        | @stop _ e t' hc hg =>
          rw [hc] at c2 ⊢
          dsimp only at c2 ⊢
          rw [if_neg (show ¬ goesOn cd e.toRec.error = true by
            have : goesOn cd e.toRec.error = false := hg
            rw [this]; simp)]
          refine ⟨fun _ => rfl, fun x l' h => ?_⟩
          rw [h] at hl; cases hl

theorem forLoop_routes (env : TextEnv) (fs : List (Filter env.Rx)) (cd : Bool) (pol : Pol) (s : Src) {raws : List Raw}
    (h : RawsD cd s.stuck (toks s.evs) raws) (n : Nat) :
    (forLoop (routeIter env fs cd pol) n (RouteState.new s)).1 = ((routesRun cd none raws).filter fun x => x.matchFilters env fs).take n ∧
    ((forLoop (routeIter env fs cd pol) n (RouteState.new s)).2.1 = true ↔
      ((routesRun cd none raws).filter fun x => x.matchFilters env fs).length < n) := by
  refine forLoop_list (Says := RouteSays env fs cd s.stuck) ?_ n _ _ ⟨_, raws, At.self s, h, ?_⟩
  · rintro st l ⟨t, raws, hat, hr, hl⟩
    refine routeNext_says env fs cd pol s.stuck _ st t raws hat hr (.inl ?_) l hl
    have := toks_length st.src
    rw [hat.1] at this
    omega
  · cases cd <;> simp [RouteState.new, collect_empty]

/-- the routes say what the specification says. -/
theorem routesRun_spec (raws : List Raw) : ∀ (hist : List MrtRecord) (table : Option (List Peer)), KeptTable hist table →
    StreamRoutes hist raws (routesRun false table raws) := by
  induction raws with
  | nil => intro hist table _; exact .nil hist
  | cons raw raws ih =>
    intro hist table hk
    obtain ⟨h1, h2⟩ := record_routes hk raw
    have := ih _ _ h2
    rw [routesRun]
    unfold routesOf at h1
    generalize routeIterOf raw table = y at h1 this
    obtain ⟨y, table'⟩ := y
    cases y with
    | ok it => exact .cons _ _ _ _ _ h1 (by simpa using this)
    | error e => exact .cons _ _ _ [] _ h1 (by simpa using this)

theorem routesRun_prefix (raws : List Raw) : ∀ table, routesRun true table raws <+: routesRun false table raws := by
  induction raws with
  | nil => intro table; exact List.prefix_rfl
  | cons raw raws ih =>
    intro table
    rw [routesRun, routesRun]
    generalize routeIterOf raw table = y
    obtain ⟨y, table'⟩ := y
    cases y with
    | error e => simp
    | ok it =>
      dsimp only
      refine List.prefix_append_right_inj _ |>.mpr ?_
      cases it.collect.2 with
      | none => simpa using ih table'
      | some e => simp

theorem keptTable_nil : KeptTable [] none := .none _ (by simp)

/-! ### the iterator that reports errors -/

/-- the raw records and errors of a delivery. -/
inductive RawsF (k : Option Bool) : List Tok → List (Except RecErr Raw) → Prop where
  | ok {t r t' l} : chunkT k t = (.ok r, t') → RawsF k t' l → RawsF k t (.ok r :: l)
  | error {t e t' l} : chunkT k t = (.error e, t') → e.error ≠ .eofExpected → RawsF k t' l → RawsF k t (.error e.toRec :: l)
  | stop {t e t'} : chunkT k t = (.error e, t') → e.error = .eofExpected → RawsF k t []

theorem chunkT_shrinks {k : Option Bool} (hk : k ≠ some false) {t t' : List Tok} {x : Except ChunkErr Raw} (hc : chunkT k t = (x, t'))
    (hx : ∀ e, x = .error e → e.error ≠ .eofExpected) : t'.length + 1 ≤ t.length := by
  cases x with
  | ok r =>
    rcases chunkT_progress hc with hp | ⟨e, he, _⟩
    · omega
    · cases he
  | error e =>
    have hn : nextT k t = (.error e.toRec, t') := by rw [nextT, hc]
    have hp := fallibleT_progress keepAll k hk t.length () t _ (Nat.le_refl _) rfl
    rw [fallibleT_of_error keepAll () hn, if_neg (show ¬ e.toRec.error = .eofExpected from hx e rfl)] at hp
    exact hp rfl

theorem rawsF_exists (k : Option Bool) (hk : k ≠ some false) (n : Nat) : ∀ t : List Tok, t.length ≤ n →
    ∃ l, RawsF k t l ∧ l.length ≤ t.length := by
  induction n with
  | zero =>
    intro t ht
    cases hc : chunkT k t with
    | mk x t' =>
      by_cases hx : ∃ e, x = .error e ∧ e.error = .eofExpected
      · obtain ⟨e, rfl, he⟩ := hx
        exact ⟨[], .stop hc he, by simp⟩
      · have := chunkT_shrinks hk hc (fun e h1 h2 => hx ⟨e, h1, h2⟩)
        omega
  | succ n ih =>
    intro t ht
    cases hc : chunkT k t with
    | mk x t' =>
      by_cases hx : ∃ e, x = .error e ∧ e.error = .eofExpected
      · obtain ⟨e, rfl, he⟩ := hx
        exact ⟨[], .stop hc he, by simp⟩
      · have hl := chunkT_shrinks hk hc (fun e h1 h2 => hx ⟨e, h1, h2⟩)
        obtain ⟨l, h1, h2⟩ := ih t' (by omega)
        cases x with
        | ok r => exact ⟨_, .ok hc h1, by simp; omega⟩
        | error e => exact ⟨_, .error hc (fun he => hx ⟨e, rfl, he⟩) h1, by simp; omega⟩

theorem forLoop_chunks (pol : Pol) (s : Src) {l : List (Except RecErr Raw)} (h : RawsF s.stuck (toks s.evs) l) (n : Nat) :
    (forLoop (chunkLoop pol) n s).1 = l.take n ∧ ((forLoop (chunkLoop pol) n s).2.1 = true ↔ l.length < n) := by
  refine forLoop_list (Says := fun s' l => ∃ t, At s.stuck s' t ∧ RawsF s.stuck t l) ?_ n s l ⟨_, At.self s, h⟩
  rintro s' l ⟨t, ⟨rfl, hk⟩, hr⟩
  obtain ⟨s2, c1, c2, c3⟩ := chunk_eq pol s'
  unfold chunkLoop
  rw [c1]
  rw [hk] at c2 c3 ⊢
  cases hr with
  | @ok _ r t' l hc hr =>
    rw [hc] at c2 ⊢
    refine ⟨fun h => (by cases h), fun x l' h => ?_⟩
    cases h
    exact ⟨s2, rfl, t', ⟨c2, c3⟩, hr⟩
  | @error _ e t' l hc he hr =>
    rw [hc] at c2 ⊢
    dsimp only
    rw [if_neg (show ¬ e.toRec.error = .eofExpected from he)]
    refine ⟨fun h => (by cases h), fun x l' h => ?_⟩
    cases h
    exact ⟨s2, rfl, t', ⟨c2, c3⟩, hr⟩
  | @stop _ e t' hc he =>
    rw [hc] at c2 ⊢
    dsimp only
    rw [if_pos (show e.toRec.error = .eofExpected from he)]
    exact ⟨fun _ => rfl, fun x l' h => by cases h⟩

/-- the error a record ends with. -/
def errItems (rb : Option Bytes) (e : Option Err) : List (Except RecErr RouteElem) := e.toList.map fun e => .error ⟨e, rb⟩

/-- the routes and errors of a sequence of raw records and errors. -/
def fallRun : Option (List Peer) → List (Except RecErr Raw) → List (Except RecErr RouteElem)
  | _, [] => []
  | table, .error e :: l => .error e :: fallRun table l
  | table, .ok raw :: l =>
    match routeIterOf raw table with
    | (.error e, table) => .error ⟨e, some raw.bytes⟩ :: fallRun table l
    | (.ok it, table) => it.collect.1.map .ok ++ (errItems (some raw.bytes) it.collect.2 ++ fallRun table l)

/-- whether an item passes a filter: errors do. -/
def passRoute (p : RouteElem → Bool) : Except RecErr RouteElem → Bool
  | .ok x => p x
  | .error _ => true

theorem filter_passRoute (p : RouteElem → Bool) (l : List RouteElem) :
    (l.map Except.ok).filter (passRoute p) = (l.filter p).map Except.ok := by
  induction l with
  | nil => rfl
  | cons x l ih =>
    rw [List.map_cons]
    by_cases h : p x = true
    · rw [List.filter_cons_of_pos (show passRoute p (.ok x) = true from h), List.filter_cons_of_pos h, ih]; rfl
    · rw [List.filter_cons_of_neg (show ¬ passRoute p (.ok x) = true from h), List.filter_cons_of_neg h, ih]

/-- what an iterator has still to say. -/
def FallSays (env : TextEnv) (fs : List (Filter env.Rx)) (k : Option Bool) (st : RouteState) (l : List (Except RecErr RouteElem)) : Prop :=
  ∃ t items, At k st.src t ∧ RawsF k t items ∧
    l = (st.pending.collect.1.map (Except.ok (ε := RecErr)) ++ (errItems st.rawBytes st.pending.collect.2 ++ fallRun st.table items)).filter
      (passRoute fun x => x.matchFilters env fs)

theorem fallibleRouteNext_says (env : TextEnv) (fs : List (Filter env.Rx)) (pol : Pol) (k : Option Bool) (fuel : Nat) :
    ∀ (st : RouteState) (t : List Tok) (items : List (Except RecErr Raw)), At k st.src t → RawsF k t items → t.length < fuel → ∀ l,
      l = (st.pending.collect.1.map (Except.ok (ε := RecErr)) ++ (errItems st.rawBytes st.pending.collect.2 ++ fallRun st.table items)).filter
        (passRoute fun x => x.matchFilters env fs) →
      (l = [] → (fallibleRouteNext env fs pol fuel st).1 = none) ∧
      (∀ x l', l = x :: l' → ∃ st', fallibleRouteNext env fs pol fuel st = (some x, st') ∧ FallSays env fs k st' l') := by
  induction fuel with
  | zero => intro st t raws _ _ hf; omega
  | succ fuel ih =>
    intro st t items hat hr hf l hl
    obtain ⟨it, rb, table, s⟩ := st
    obtain ⟨d1, d2, d3⟩ := drain_spec (fun x => x.matchFilters env fs) (it.size + 1) it (Nat.lt_succ_self _)
    simp only at hat hf hl
    rw [List.filter_append, filter_passRoute] at hl
    rw [fallibleRouteNext]
    dsimp only
    cases hfl : it.collect.1.filter (fun x => x.matchFilters env fs) with
    | cons x l0 =>
      obtain ⟨it', e1, e2, e3⟩ := d3 x l0 hfl
      rw [e1]
      dsimp only
      rw [hfl] at hl
      refine ⟨fun h => (by rw [h] at hl; cases hl), fun y l' h => ?_⟩
      rw [h] at hl
      cases hl
      refine ⟨_, rfl, t, items, hat, hr, ?_⟩
      show _ = List.filter _ (it'.collect.1.map .ok ++ (errItems rb it'.collect.2 ++ fallRun table items))
      rw [e3, List.filter_append (it'.collect.1.map Except.ok), filter_passRoute, e2]
      rfl
    | nil =>
      rw [hfl, List.map_nil, List.nil_append] at hl
      cases hce : it.collect.2 with
      | some e =>
        rw [d2 hfl e hce]
        dsimp only
        rw [hce] at hl
        refine ⟨fun h => (by rw [h] at hl; cases hl), fun y l' h => ?_⟩
        rw [h] at hl
        cases hl
        exact ⟨_, rfl, t, items, hat, hr, by rw [collect_empty]; rfl⟩
      | none =>
        obtain ⟨it', e1, e2⟩ := d1 hfl hce
        rw [e1]
        dsimp only
        rw [hce] at hl
        replace hl : l = (fallRun table items).filter (passRoute fun x => x.matchFilters env fs) := hl
        obtain ⟨rfl, rfl⟩ := hat
        obtain ⟨s', c1, c2, c3⟩ := chunk_eq pol s
        rw [c1]
        cases hr with
        | @ok _ raw t' raws' hc hr =>
          rw [hc] at c2 ⊢
          dsimp only at c2 ⊢
          rw [fallRun] at hl
          have hlen : t'.length + 12 ≤ (toks s.evs).length := by
            rcases chunkT_progress hc with hp | ⟨e, he, _⟩
            · exact hp
            · cases he
          generalize routeIterOf raw table = y at hl
          obtain ⟨y, table'⟩ := y
          cases y with
          | ok it2 => exact ih ⟨it2, some raw.bytes, table', s'⟩ t' raws' ⟨c2, c3⟩ hr (by omega) l hl
          | error e =>
            dsimp only at hl ⊢
            refine ⟨fun h => (by rw [h] at hl; cases hl), fun y l' h => ?_⟩
            rw [h] at hl
            cases hl
            exact ⟨_, rfl, t', raws', ⟨c2, c3⟩, hr, by rw [e2]; rfl⟩
        | @error _ e t' items' hc he hr =>
          rw [hc] at c2 ⊢
          dsimp only at c2 ⊢
          rw [if_neg (show ¬ e.toRec.error = .eofExpected from he)]
          refine ⟨fun h => (by rw [h] at hl; cases hl), fun y l' h => ?_⟩
          rw [h] at hl
          cases hl
          exact ⟨_, rfl, t', items', ⟨c2, c3⟩, hr, by rw [e2]; rfl⟩
        | @stop _ e t' hc he =>
          rw [hc] at c2 ⊢
          dsimp only at c2 ⊢
          rw [if_pos (show e.toRec.error = .eofExpected from he)]
          refine ⟨fun _ => rfl, fun x l' h => ?_⟩
          rw [h] at hl; cases hl

theorem forLoop_fallRoutes (env : TextEnv) (fs : List (Filter env.Rx)) (pol : Pol) (s : Src) {items : List (Except RecErr Raw)}
    (h : RawsF s.stuck (toks s.evs) items) (n : Nat) :
    (forLoop (fallibleRouteIter env fs pol) n (RouteState.new s)).1 =
      ((fallRun none items).filter (passRoute fun x => x.matchFilters env fs)).take n ∧
    ((forLoop (fallibleRouteIter env fs pol) n (RouteState.new s)).2.1 = true ↔
      ((fallRun none items).filter (passRoute fun x => x.matchFilters env fs)).length < n) := by
  refine forLoop_list (Says := FallSays env fs s.stuck) ?_ n _ _ ⟨_, items, At.self s, h, rfl⟩
  rintro st l ⟨t, raws, hat, hr, hl⟩
  refine fallibleRouteNext_says env fs pol s.stuck _ st t raws hat hr ?_ l hl
  have := toks_length st.src
  rw [hat.1] at this
  omega

theorem fallRun_spec (items : List (Except RecErr Raw)) : ∀ (hist : List MrtRecord) (table : Option (List Peer)), KeptTable hist table →
    FallibleRoutes hist items (fallRun table items) := by
  induction items with
  | nil => intro hist table _; exact .nil hist
  | cons x items ih =>
    intro hist table hk
    cases x with
    | error e => exact .error _ _ _ _ (ih _ _ hk)
    | ok raw =>
      obtain ⟨h1, h2⟩ := record_routes hk raw
      have h3 : ∀ r, raw.parse = .ok r → Readable hist raw.body r.message →
          ∃ it, (routeIterOf raw table).1 = .ok it ∧ it.collect.2 = none := fun r a b => record_clean hk a b
      have h4 : ∀ r, raw.parse = .ok r → Broken hist r.message → ∃ e, (routeIterOf raw table).1 = .error e :=
        fun r a b => record_broken hk a b
      have h5 := record_unsupported raw table
      have := ih _ _ h2
      rw [fallRun]
      unfold routesOf at h1
      generalize routeIterOf raw table = y at h1 h3 h4 h5 this
      obtain ⟨y, table'⟩ := y
      cases y with
      | ok it =>
        dsimp only
        rw [← List.append_assoc]
        refine .record _ _ _ _ _ it.collect.2 h1 ?_ ?_ ?_ this
        · intro r hp hr
          obtain ⟨it', e1, e2⟩ := h3 r hp hr
          cases e1; exact e2
        · intro r hp hr
          obtain ⟨e, e1⟩ := h4 r hp hr
          cases e1
        · intro h; cases h5 h
      | error e =>
        refine .record _ _ _ [] _ (some e) h1 ?_ (fun _ _ _ => by simp) ?_ this
        · intro r hp hr
          obtain ⟨it', e1, e2⟩ := h3 r hp hr
          cases e1
        · intro h; cases h5 h; rfl

/-! ### the specification determines the routes -/

theorem lastOf_unique {P : α → AttrVal → Prop} (hP : ∀ x y v, P x v → P y v → x = y) {as : List Attribute} {o o' : Option α}
    (h : LastOf P as o) (h' : LastOf P as o') : o = o' := by
  cases o with
  | none =>
    cases o' with
    | none => rfl
    | some y =>
      obtain ⟨pre, a, post, rfl, hy, _⟩ := h'
      exact absurd hy (h a (by simp) y)
  | some x =>
    obtain ⟨pre, a, post, rfl, hx, hpost⟩ := h
    cases o' with
    | none => exact absurd hx (h' a (by simp) x)
    | some y =>
      obtain ⟨pre', a', post', he, hy, hpost'⟩ := h'
      rcases List.append_eq_append_iff.mp he with ⟨c, h1, h2⟩ | ⟨c, h1, h2⟩
      · cases c with
        | nil => simp only [List.nil_append] at h2; cases h2; rw [hP x y _ hx hy]
        | cons b c =>
          simp only [List.cons_append, List.cons.injEq] at h2
          exact absurd hy (hpost a' (by rw [h2.2]; simp) y)
      · cases c with
        | nil => simp only [List.nil_append] at h2; cases h2; rw [hP x y _ hx hy]
        | cons b c =>
          simp only [List.cons_append, List.cons.injEq] at h2
          exact absurd hx (hpost' a (by rw [h2.2]; simp) x)

theorem last_unique {mk : α → AttrVal} (hinj : ∀ x y, mk x = mk y → x = y) {as : List Attribute} {o o' : Option α}
    (h : Last mk as o) (h' : Last mk as o') : o = o' :=
  lastOf_unique (fun x y _ hx hy => hinj x y (hx.symm.trans hy)) h h'

theorem effectivePath_unique {p q r r' : Option AsPath} (h : EffectivePath p q r) (h' : EffectivePath p q r') : r = r' := by
  cases h with
  | neither => cases h'; rfl
  | plain => cases h'; rfl
  | four => cases h'; rfl
  | both p q m hm =>
    cases h' with
    | both _ _ m' hm' => rw [hm] at hm'; exact hm'

theorem pathOf_unique {as : List Attribute} {r r' : Option AsPath} (h : PathOf as r) (h' : PathOf as r') : r = r' := by
  obtain ⟨p, q, h1, h2, h3⟩ := h
  obtain ⟨p', q', h1', h2', h3'⟩ := h'
  have e1 := last_unique (fun x y h => by cases h; rfl) h1 h1'
  have e2 := last_unique (fun x y h => by cases h; rfl) h2 h2'
  subst e1; subst e2
  exact effectivePath_unique h3 h3'

theorem updateRoutes_unique {u : Update} {t : Nat} {ip : Ip} {asn : Asn} {xs xs' : List RouteElem} (h : UpdateRoutes u t ip asn xs)
    (h' : UpdateRoutes u t ip asn xs') : xs = xs' := by
  obtain ⟨r, w, p, h1, h2, h3, rfl⟩ := h
  obtain ⟨r', w', p', h1', h2', h3', rfl⟩ := h'
  have e1 := last_unique (fun x y h => by cases h; rfl) h1 h1'
  have e2 := last_unique (fun x y h => by cases h; rfl) h2 h2'
  subst e1; subst e2
  rw [pathOf_unique h3 h3']

theorem bgpRoutes_unique {t : Nat} {ip : Ip} {asn : Asn} {m : BgpMessage} {xs xs' : List RouteElem} (h : BgpRoutes t ip asn m xs)
    (h' : BgpRoutes t ip asn m xs') : xs = xs' := by
  cases h with
  | update u xs hb h =>
    cases h' with
    | update _ _ _ h' => exact updateRoutes_unique h h'
    | bad _ hb' => exact absurd hb' hb
    | other _ hn => exact absurd rfl (hn u)
  | bad u hb =>
    cases h' with
    | update _ _ hb' _ => exact absurd hb hb'
    | bad => rfl
    | other => rfl
  | other m hn =>
    cases h' with
    | update u _ _ _ => exact absurd rfl (hn u)
    | bad => rfl
    | other => rfl

theorem ribRoutes_unique {t : PeerIndexTable} {p : NetworkPrefix} {es : List RibEntry} {xs : List RouteElem} (h : RibRoutes t p es xs) :
    ∀ {xs'}, RibRoutes t p es xs' → xs = xs' := by
  induction h with
  | nil => intro xs' h'; cases h'; rfl
  | known e es peer path xs hp hpath _ ih =>
    intro xs' h'
    cases h' with
    | known _ _ peer' path' xs' hp' hpath' h' =>
      rw [hp] at hp'; cases hp'
      rw [pathOf_unique hpath hpath', ih h']
    | unknown _ _ _ hp' _ => rw [hp] at hp'; cases hp'
  | unknown e es xs hp _ ih =>
    intro xs' h'
    cases h' with
    | known _ _ peer' path' xs' hp' hpath' h' => rw [hp] at hp'; cases hp'
    | unknown _ _ _ hp' h' => exact ih h'

theorem messageRoutes_unique {hist : List MrtRecord} {t : Nat} {m : MrtMessage} {xs xs' : List RouteElem} (h : MessageRoutes hist t m xs)
    (h' : MessageRoutes hist t m xs') : xs = xs' := by
  cases h with
  | peers => cases h'; rfl
  | geo => cases h'; rfl
  | rib r tab xs hl h =>
    cases h' with
    | rib _ tab' _ hl' h' =>
      cases lastTable_unique hl hl'
      exact ribRoutes_unique h h'
    | orphan _ hl' => cases lastTable_unique hl hl'
  | orphan r hl =>
    cases h' with
    | rib _ tab' _ hl' h' => cases lastTable_unique hl hl'
    | orphan => rfl
  | state => cases h'; rfl
  | bgp m xs h => cases h' with | bgp _ _ h' => exact bgpRoutes_unique h h'
  | oldState => cases h'; rfl
  | oldBgp m xs h => cases h' with | oldBgp _ _ h' => exact bgpRoutes_unique h h'

theorem dumpRoutes_unique {ms : List TableDump} {xs : List RouteElem} (h : Pairwise2 DumpRoute ms xs) : ∀ {xs'}, Pairwise2 DumpRoute ms xs' → xs = xs' := by
  induction h with
  | nil => intro xs' h'; cases h'; rfl
  | cons h _ ih =>
    intro xs' h'
    cases h' with
    | cons h0 h' =>
      obtain ⟨p, h1, rfl⟩ := h
      obtain ⟨p', h1', rfl⟩ := h0
      rw [pathOf_unique h1 h1', ih h']

theorem blocks_unique {v4 : Bool} {view seq : UInt16} {ms : List TableDump} {good : Bytes} (h : Blocks (DumpEntryBytes v4 view seq) ms good) :
    ∀ {ms' good' rest rest'}, Blocks (DumpEntryBytes v4 view seq) ms' good' → good ++ rest = good' ++ rest' →
      (∀ m b r, rest = b ++ r → ¬ DumpEntryBytes v4 view seq m b) → (∀ m b r, rest' = b ++ r → ¬ DumpEntryBytes v4 view seq m b) →
      ms = ms' := by
  have hx := exact_rdTableDumpEntry v4 view seq
  induction h with
  | nil =>
    intro ms' good' rest rest' h' he hr hr'
    cases h' with
    | nil => rfl
    | @cons m ms c s hm hb =>
      exact absurd hm (hr m c (s ++ rest') (by simpa using he))
  | @cons m ms c s hm hb ih =>
    intro ms' good' rest rest' h' he hr hr'
    cases h' with
    | nil => exact absurd hm (hr' m c (s ++ rest) (by simpa using he.symm))
    | @cons m' ms' c' s' hm' hb' =>
      have e1 := (hx (c ++ (s ++ rest)) m (s ++ rest)).mpr ⟨c, rfl, hm⟩
      have e2 := (hx (c' ++ (s' ++ rest')) m' (s' ++ rest')).mpr ⟨c', rfl, hm'⟩
      rw [← List.append_assoc, he, List.append_assoc, e2] at e1
      simp only [Except.ok.injEq, Prod.mk.injEq] at e1
      obtain ⟨rfl, e3⟩ := e1
      rw [ih hb' e3.symm hr hr']

theorem recordRoutes_unique {hist : List MrtRecord} {raw : Raw} {xs xs' : List RouteElem} (h : RecordRoutes hist raw xs)
    (h' : RecordRoutes hist raw xs') : xs = xs' := by
  cases h with
  | parsed r _ ht hp h =>
    cases h' with
    | parsed r' _ ht' hp' h' => rw [hp] at hp'; cases hp'; exact messageRoutes_unique h h'
    | unparsed e ht' hp' => rw [hp] at hp'; cases hp'
    | dump v4 view seq good rest ms _ ht' => exact absurd ht' ht
    | noDump ht' => exact absurd ht' ht
  | unparsed e ht hp =>
    cases h' with
    | parsed r' _ ht' hp' h' => rw [hp] at hp'; cases hp'
    | unparsed => rfl
    | dump v4 view seq good rest ms _ ht' => exact absurd ht' ht
    | noDump => rfl
  | dump v4 view seq good rest ms _ ht hs hb hbl hr hd =>
    cases h' with
    | parsed r' _ ht' hp' h' => exact absurd ht ht'
    | unparsed e ht' hp' => exact absurd ht ht'
    | dump v4' view' seq' good' rest' ms' _ ht' hs' hb' hbl' hr' hd' =>
      have hv : v4 = v4' := by rw [hs] at hs'; cases v4 <;> cases v4' <;> first | rfl | exact absurd hs' (by decide)
      subst hv
      rw [hb] at hb'
      rw [← be16_n16, ← be16_n16, ← be16_n16, ← be16_n16, List.append_assoc, List.append_assoc] at hb'
      have e1 := congrArg rdU16.run hb'
      rw [rdU16_be16, rdU16_be16] at e1
      simp only [Except.ok.injEq, Prod.mk.injEq] at e1
      obtain ⟨rfl, e1⟩ := e1
      have e2 := congrArg rdU16.run e1
      rw [rdU16_be16, rdU16_be16] at e2
      simp only [Except.ok.injEq, Prod.mk.injEq] at e2
      obtain ⟨rfl, e2⟩ := e2
      have := blocks_unique hbl hbl' e2 hr hr'
      subst this
      exact dumpRoutes_unique hd hd'
    | noDump ht' hc =>
      exfalso
      rcases hc with hc | hc
      · rw [hs] at hc; cases v4 <;> simp at hc
      · rw [hb] at hc; simp [n16] at hc; omega
  | noDump ht hc =>
    cases h' with
    | parsed r' _ ht' hp' h' => exact absurd ht ht'
    | unparsed e ht' hp' => exact absurd ht ht'
    | dump v4' view' seq' good' rest' ms' _ ht' hs' hb' hbl' hr' hd' =>
      exfalso
      rcases hc with hc | hc
      · rw [hs'] at hc; cases v4' <;> simp at hc
      · rw [hb'] at hc; simp [n16] at hc; omega
    | noDump => rfl

theorem streamRoutes_unique {hist : List MrtRecord} {raws : List Raw} {xs : List RouteElem} (h : StreamRoutes hist raws xs) :
    ∀ {xs'}, StreamRoutes hist raws xs' → xs = xs' := by
  induction h with
  | nil => intro xs' h'; cases h'; rfl
  | cons hist raw raws xs ys hr _ ih =>
    intro xs' h'
    cases h' with
    | cons _ _ _ xs' ys' hr' h' => rw [recordRoutes_unique hr hr', ih h']

end Verif
