import Verif.Lemmas.FilterIter
import Verif.Props.Filter
import Verif.Props.MrtRecord
/-
C37: iterating with filters is iterating, then filtering.
-/
namespace Verif.Props
open Spec

theorem map_ok_inj (a : List MrtRecord) : ∀ b : List MrtRecord, a.map (Except.ok (ε := RecErr)) = b.map .ok → a = b := by
  induction a with
  | nil => intro b h; cases b <;> simp_all
  | cons x a ih =>
    intro b h
    cases b with
    | nil => cases h
    | cons y b =>
      simp only [List.map_cons, List.cons.injEq, Except.ok.injEq] at h
      rw [h.1, ih b h.2]

/-- all the records of a run without filters. -/
theorem all_records (cd : Bool) (pol : Pol) (s : Src) (m : Nat) (hm : (toks s.evs).length < m) (items : List Item)
    (h : RecsD cd s.stuck (toks s.evs) items) :
    (forLoop (defaultIter keepAll cd pol) m ((), s)).1.map .ok = items ∧
    (forLoop (defaultIter keepAll cd pol) m ((), s)).2.1 = true := by
  obtain ⟨rs, rfl⟩ := recsD_all h
  have hl := recsD_length h
  rw [List.length_map] at hl
  obtain ⟨h1, h2⟩ := forLoop_records keepAll cd pol s.stuck s _ _ (At.self s) h () rs (recItems_keepAll _) m
  exact ⟨by rw [h1, List.take_of_length_le (by omega)], h2.2 (by omega)⟩

/-- C37. The elements of an iterator with filters are the elements of all records, each converted after the records before
it, that match the filters, in order; the iterator ends after the last one. -/
theorem c37_elems (env : TextEnv) (fs : List (Filter env.Rx)) (cd : Bool) (pol pol' : Pol) (s : Src) (m : Nat)
    (hm : (toks s.evs).length < m) (n : Nat) :
    let all := elemsFrom [] (forLoop (defaultIter keepAll cd pol') m ((), s)).1
    let out := all.filter fun e => e.matchFilters env fs
    (forLoop (elemNext env fs cd pol) n (ElemIter.new s)).1 = out.take n ∧
    ((forLoop (elemNext env fs cd pol) n (ElemIter.new s)).2.1 = true ↔ out.length < n) := by
  obtain ⟨items, hi, hl, _⟩ := recsD_exists cd s.stuck _ (toks s.evs) (Nat.le_refl _)
  obtain ⟨ha, _⟩ := all_records cd pol' s m hm items hi
  refine forLoop_list (Says := fun it l => Future (RecsD cd s.stuck) env fs s.stuck it (l.map .ok)) ?_ n _ _ ?_
  · intro it l hf
    obtain ⟨g1, g2⟩ := elemNext_spec env fs cd pol s.stuck it _ hf
    refine ⟨fun h => g1 (by rw [h]; rfl), ?_⟩
    rintro x l' rfl
    obtain ⟨e, it', d1, d2, d3⟩ := g2 _ _ rfl
    cases d1
    exact ⟨it', d2, d3⟩
  · refine ⟨_, items, At.self s, hi, Nat.le_trans hl (toks_length s), .inr rfl, ?_⟩
    show _ = [] ++ (elemItems (after []) items).filter _
    rw [elemItems_after, ← ha, elemsFromItems_ok, filter_map_ok, List.nil_append]

/-- C37, as a relation between two runs: if a loop without filters runs to its end, then a loop with filters gives what it
gave, filtered. -/
theorem c37_two_runs (env : TextEnv) (fs : List (Filter env.Rx)) (cd : Bool) (pol pol' : Pol) (s : Src) (m n : Nat)
    (hm : (forLoop (elemNext env [] cd pol') m (ElemIter.new s)).2.1 = true) (hn : m ≤ n) :
    (forLoop (elemNext env fs cd pol) n (ElemIter.new s)).1 =
      (forLoop (elemNext env [] cd pol') m (ElemIter.new s)).1.filter (fun e => e.matchFilters env fs) ∧
    (forLoop (elemNext env fs cd pol) n (ElemIter.new s)).2.1 = true := by
  obtain ⟨h1, h2⟩ := c37_elems env fs cd pol pol s _ (Nat.lt_succ_self _) n
  obtain ⟨g1, g2⟩ := c37_elems env [] cd pol' pol s _ (Nat.lt_succ_self _) m
  have hid : ∀ l : List BgpElem, l.filter (fun e => e.matchFilters env []) = l := fun l =>
    List.filter_eq_self.2 fun e _ => rfl
  rw [hid] at g1 g2
  generalize elemsFrom [] (forLoop (defaultIter keepAll cd pol) ((toks s.evs).length + 1) ((), s)).1 = all at h1 h2 g1 g2
  rw [g2] at hm
  rw [h1, h2, g1, List.take_of_length_le (by omega : all.length ≤ m)]
  have := List.length_filter_le (fun e => BgpElem.matchFilters env e fs) all
  exact ⟨List.take_of_length_le (by omega), by omega⟩

/-- C37. Record iteration with filters leaves exactly the peer index tables and the records with an element that matches;
without filters, all records. -/
theorem c37_records (env : TextEnv) (fs : List (Filter env.Rx)) (cd : Bool) (pol pol' : Pol) (s : Src) (n m : Nat)
    (hn : (toks s.evs).length < n) (hm : (toks s.evs).length < m) :
    let all := (forLoop (defaultIter keepAll cd pol') m ((), s)).1
    let out := (forLoop (defaultIter (filterKeep env fs) cd pol) n (Elementor.new, s)).1
    (fs ≠ [] → Kept (fun e => e.matchFilters env fs = true) [] all out) ∧ (fs = [] → out = all) := by
  obtain ⟨items, hi, hl, _⟩ := recsD_exists cd s.stuck _ (toks s.evs) (Nat.le_refl _)
  obtain ⟨ha, _⟩ := all_records cd pol' s m hm items hi
  obtain ⟨rs, rfl⟩ := recsD_all hi
  obtain ⟨out, ho⟩ := recItems_ok (filterKeep env fs) rs Elementor.new
  have hlo : out.length ≤ rs.length := by
    have : ∀ (l : List Item) q, (recItems (filterKeep env fs) q l).length ≤ l.length := by
      intro l
      induction l with
      | nil => intro q; exact Nat.le_refl _
      | cons i l ih =>
        intro q
        cases i with
        | error e => simpa [recItems] using ih q
        | ok r =>
          simp only [recItems]
          have := ih ((filterKeep env fs).step q r).2
          split <;> simp <;> omega
    have := this (rs.map .ok) Elementor.new
    rw [ho] at this
    simpa using this
  rw [List.length_map] at hl
  obtain ⟨h1, _⟩ := forLoop_records (filterKeep env fs) cd pol s.stuck s _ _ (At.self s) hi Elementor.new out ho n
  have hr := map_ok_inj _ _ ha
  simp only
  rw [h1, hr, List.take_of_length_le (by omega)]
  refine ⟨fun hf => ?_, ?_⟩
  · apply kept_of_items
    rw [← ho]
    exact keptItems_recItems env fs hf _ []
  · rintro rfl
    have : ∀ (rs : List MrtRecord) q, recItems (filterKeep env []) q (rs.map .ok) = rs.map .ok := by
      intro rs
      induction rs with
      | nil => intro q; rfl
      | cons r rs ih =>
        intro q
        show (if true = true then Except.ok r :: recItems (filterKeep env []) q (rs.map .ok) else _) = _
        rw [if_pos rfl, ih]; rfl
    rw [this] at ho
    exact (map_ok_inj _ _ ho).symm

/-- C37, for the iterator over raw records with filters. -/
theorem c37_raw_records (env : TextEnv) (fs : List (Filter env.Rx)) (cd : Bool) (pol pol' : Pol) (s : Src) (n m : Nat)
    (hn : (toks s.evs).length < n) (hm : (toks s.evs).length < m) :
    let all := (forLoop (defaultIter keepAll cd pol') m ((), s)).1
    let out := (forLoop (filteredRawIter (filterKeep env fs) cd pol) n (Elementor.new, s)).1.map Prod.snd
    (fs ≠ [] → Kept (fun e => e.matchFilters env fs = true) [] all out) ∧ (fs = [] → out = all) := by
  simp only
  rw [(c25_filtered_raw (filterKeep env fs) Elementor.new cd pol s n).1]
  exact c37_records env fs cd pol pol' s n m hn hm

/-- C37, for the iterator that reports errors: the errors stay, the elements are filtered. It is to be used with a reader
that does not fail for ever (`c22_fallible_endless`). -/
theorem c37_fallible_elems (env : TextEnv) (fs : List (Filter env.Rx)) (pol pol' : Pol) (s : Src) (hs : s.stuck ≠ some false)
    (m : Nat) (hm : (toks s.evs).length < m) (n : Nat) :
    let all := elemsFromItems [] (forLoop (fallibleIter keepAll pol') m ((), s)).1
    let out := all.filter fun | .ok e => e.matchFilters env fs | .error _ => true
    (forLoop (fallibleElemNext env fs pol) n (ElemIter.new s)).1 = out.take n ∧
    ((forLoop (fallibleElemNext env fs pol) n (ElemIter.new s)).2.1 = true ↔ out.length < n) := by
  obtain ⟨items, hi, hl⟩ := recsF_exists s.stuck hs _ (toks s.evs) (Nat.le_refl _)
  have ha : (forLoop (fallibleIter keepAll pol') m ((), s)).1 = items := by
    obtain ⟨h1, _⟩ := forLoop_fallibleRecords keepAll pol' s.stuck s _ _ (At.self s) hi () m
    rw [h1, recItems_keepAll, List.take_of_length_le (by omega)]
  refine forLoop_list (Says := Future (RecsF s.stuck) env fs s.stuck) ?_ n _ _ ?_
  · intro it l hf
    exact fallibleElemNext_spec env fs pol s.stuck hs it _ hf
  · refine ⟨_, items, At.self s, hi, Nat.le_trans hl (toks_length s), .inr rfl, ?_⟩
    show _ = [] ++ (elemItems (after []) items).filter _
    rw [elemItems_after, ← ha, List.nil_append]
    congr 1
    funext x
    cases x <;> rfl

/-- C37, for the record iterator that reports errors. -/
theorem c37_fallible_records (env : TextEnv) (fs : List (Filter env.Rx)) (hf : fs ≠ []) (pol pol' : Pol) (s : Src)
    (hs : s.stuck ≠ some false) (n m : Nat) (hn : (toks s.evs).length < n) (hm : (toks s.evs).length < m) :
    KeptItems (fun e => e.matchFilters env fs = true) [] (forLoop (fallibleIter keepAll pol') m ((), s)).1
      (forLoop (fallibleIter (filterKeep env fs) pol) n (Elementor.new, s)).1 := by
  obtain ⟨items, hi, hl⟩ := recsF_exists s.stuck hs _ (toks s.evs) (Nat.le_refl _)
  have ha : (forLoop (fallibleIter keepAll pol') m ((), s)).1 = items := by
    obtain ⟨h1, _⟩ := forLoop_fallibleRecords keepAll pol' s.stuck s _ _ (At.self s) hi () m
    rw [h1, recItems_keepAll, List.take_of_length_le (by omega)]
  have hlo : ∀ (l : List Item) q, (recItems (filterKeep env fs) q l).length ≤ l.length := by
    intro l
    induction l with
    | nil => intro q; exact Nat.le_refl _
    | cons i l ih =>
      intro q
      cases i with
      | error e => simpa [recItems] using ih q
      | ok r =>
        simp only [recItems]
        have := ih ((filterKeep env fs).step q r).2
        split <;> simp <;> omega
  obtain ⟨h1, _⟩ := forLoop_fallibleRecords (filterKeep env fs) pol s.stuck s _ _ (At.self s) hi Elementor.new n
  have := hlo items Elementor.new
  rw [h1, ha, List.take_of_length_le (by omega)]
  exact keptItems_recItems env fs hf items []

/-! ### C36 for what an elementor makes -/

theorem update_take_origins (n : Nat) : ∀ it : UpdateIter, it.originAsns = it.path.map AsPath.iterOrigins →
    ∀ e ∈ it.take n, e.originAsns = e.asPath.map AsPath.iterOrigins := by
  induction n with
  | zero => intro it _ e he; cases he
  | succ n ih =>
    intro it hit e he
    obtain ⟨time, ip, asn, bid, otc, path, oa, o, nh, lp, md, cm, at', aa, ai, un, de, ann, wd, b⟩ := it
    simp only at hit
    subst hit
    unfold UpdateIter.take UpdateIter.next UpdateIter.nextWithdrawn at he
    cases b <;> cases ann <;> cases wd <;> simp [UpdateIter.announce, UpdateIter.withdraw] at he
    all_goals
      rcases he with rfl | he
      · rfl
      · exact ih _ (by rfl) e he

theorem record_take_origins (n : Nat) : ∀ it : RecordIter,
    (∀ u, it = .bgp4mp u → u.originAsns = u.path.map AsPath.iterOrigins) →
    (∀ x, it = .tableDump (some x) → x.originAsns = x.asPath.map AsPath.iterOrigins) →
    ∀ e ∈ it.take n, e.originAsns = e.asPath.map AsPath.iterOrigins := by
  induction n with
  | zero => intro it _ _ e he; cases he
  | succ n ih =>
    intro it h1 h2 e he
    cases it with
    | empty => simp [RecordIter.take, RecordIter.next] at he
    | tableDump x =>
      cases x with
      | none => simp [RecordIter.take, RecordIter.next] at he
      | some x =>
        simp only [RecordIter.take, RecordIter.next, List.mem_cons] at he
        rcases he with rfl | he
        · exact h2 _ rfl
        · exact ih _ (by simp) (by simp) e he
    | batch ms =>
      cases ms with
      | nil => simp [RecordIter.take, RecordIter.next] at he
      | cons m ms =>
        simp only [RecordIter.take, RecordIter.next, List.mem_cons] at he
        rcases he with rfl | he
        · rfl
        · exact ih _ (by simp) (by simp) e he
    | rib t p es =>
      cases es with
      | nil => simp [RecordIter.take, RecordIter.next] at he
      | cons x es =>
        simp only [RecordIter.take, RecordIter.next] at he
        cases ht : t.peer x.peerIndex with
        | none => rw [ht] at he; simp at he
        | some peer =>
          rw [ht] at he
          simp only [List.mem_cons] at he
          rcases he with rfl | he
          · rfl
          · exact ih _ (by simp) (by simp) e he
    | bgp4mp u =>
      have hu := update_take_origins 1 u (h1 u rfl)
      have hp : u.next.2.originAsns = u.originAsns ∧ u.next.2.path = u.path := by
        unfold UpdateIter.next UpdateIter.nextWithdrawn
        cases u.inWithdrawn <;> cases u.announced <;> cases u.withdrawn <;> exact ⟨rfl, rfl⟩
      simp only [RecordIter.take, RecordIter.next] at he
      cases hn : u.next with
      | mk x u' =>
        rw [hn] at he hp
        simp only at he hp
        cases x with
        | none => simp at he
        | some x =>
          simp only [List.mem_cons] at he
          rcases he with rfl | he
          · exact hu _ (by simp [UpdateIter.take, hn])
          · refine ih _ ?_ (by simp) e he
            intro v hv
            cases hv
            rw [hp.1, hp.2]; exact h1 u rfl

/-- C36. On everything that comes out of an MRT record, the answer on an element and on its route is the same for a filter
that does not look at attributes. -/
theorem c36_record_agrees (env : TextEnv) (el : Elementor) (r : MrtRecord) (e : BgpElem) (he : e ∈ (el.recordToElems r).1)
    (f : Filter env.Rx) (hf : ¬ NeedsElement f) : (routeOf e).matchFilter env f = e.matchFilter env f := by
  refine c36_agrees env e f hf ?_
  unfold Elementor.recordToElems at he
  split at he
  · cases he
  · split at he
    · next it hit =>
      refine record_take_origins _ it ?_ ?_ e he
      · intro u hu
        subst hu
        unfold Elementor.recordIter bgpRecordIter bgpToElemsIter at hit
        cases hm : r.message with
        | bgp4mp x =>
          cases x with
          | stateChange y => rw [hm] at hit; cases hit
          | message y =>
            rw [hm] at hit
            cases hb : y.message <;> simp only [hb] at hit <;> cases hit
            rfl
        | legacyBgp x =>
          cases x with
          | stateChange y => rw [hm] at hit; cases hit
          | message y =>
            rw [hm] at hit
            cases hb : y.message <;> simp only [hb] at hit <;> cases hit
            rfl
        | tableDump x => rw [hm] at hit; cases hit
        | tableDumpBatch x => rw [hm] at hit; cases hit
        | tableDumpV2 x =>
          rw [hm] at hit
          cases x with
          | ribAfi t => simp only at hit; cases ht : el.table <;> rw [ht] at hit <;> cases hit
          | _ => cases hit
      · intro x hx
        subst hx
        unfold Elementor.recordIter bgpRecordIter bgpToElemsIter at hit
        cases hm : r.message with
        | bgp4mp x =>
          cases x with
          | stateChange y => rw [hm] at hit; cases hit
          | message y =>
            rw [hm] at hit
            cases hb : y.message <;> simp only [hb] at hit <;> cases hit
        | legacyBgp x =>
          cases x with
          | stateChange y => rw [hm] at hit; cases hit
          | message y =>
            rw [hm] at hit
            cases hb : y.message <;> simp only [hb] at hit <;> cases hit
        | tableDump x => rw [hm] at hit; cases hit; rfl
        | tableDumpBatch x => rw [hm] at hit; cases hit
        | tableDumpV2 x =>
          rw [hm] at hit
          cases x with
          | ribAfi t => simp only at hit; cases ht : el.table <;> rw [ht] at hit <;> cases hit
          | _ => cases hit
    · cases he

/-- three records: a TABLE_DUMP entry of AS 1, one of AS 2, and a state change. -/
def c37Bytes : Bytes :=
  [0, 0, 0, 9, 0, 12, 0, 1, 0, 0, 0, 22] ++ [0, 0, 0, 0, 10, 0, 0, 0, 8, 1, 0, 0, 0, 0, 10, 0, 0, 1, 0, 1, 0, 0] ++
  [0, 0, 0, 9, 0, 12, 0, 1, 0, 0, 0, 22] ++ [0, 0, 0, 0, 10, 0, 0, 0, 8, 1, 0, 0, 0, 0, 10, 0, 0, 1, 0, 2, 0, 0] ++ c25Good

/-- their delivery, in two pieces, with an interruption. -/
def c37Src : Src := ⟨[.data 0 ((c37Bytes.take 30).drop 1), .interrupted, .data 0 (c37Bytes.drop 31)], none⟩

example : (toks c37Src.evs).length < 100 ∧ c37Src.stuck ≠ some false ∧
    (forLoop (elemNext exEnv [] false (fun n _ => n)) 9 (ElemIter.new c37Src)).2.1 = true ∧
    (forLoop (elemNext exEnv [] false (fun n _ => n)) 9 (ElemIter.new c37Src)).1.map (·.peerAsn) = [1, 2] ∧
    (forLoop (elemNext exEnv [.peerAsn 2] false (fun n _ => n)) 9 (ElemIter.new c37Src)).1.map (·.peerAsn) = [2] := by
  decide +kernel

example : ∃ (el : Elementor) (r : MrtRecord) (e : BgpElem) (f : Filter exEnv.Rx), e ∈ (el.recordToElems r).1 ∧ ¬ NeedsElement f ∧
    e.matchFilter exEnv f = true :=
  ⟨.new, ⟨exHeader, .tableDump ⟨0, 0, exPrefix 1, 0, 5, .v4 #v[10, 0, 0, 1], 7, .empty⟩⟩, _, .peerAsn 7,
    .head _, id, by decide +kernel⟩

end Verif.Props
