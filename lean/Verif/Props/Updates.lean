import Verif.Lemmas.Updates
import Verif.Props.FilterIter
import Verif.Props.Elem
import Verif.Props.Mrt
/-
C69: the iterators over announcements.
-/
namespace Verif.Props
open Spec

theorem updateItems_ok (rs : List MrtRecord) : updateItems (rs.map .ok) = (rs.flatMap updatesOf).map .ok := by
  induction rs with
  | nil => rfl
  | cons r rs ih => simp only [List.map_cons, List.flatMap_cons, updateItems, List.map_append] at ih ⊢; rw [ih]

/-- C69. The announcements are those of the records of default iteration, in order, and the iterator ends after the last. -/
theorem c69_updates (cd : Bool) (pol pol' : Pol) (s : Src) (m : Nat) (hm : (toks s.evs).length < m) (n : Nat) :
    let out := (forLoop (defaultIter keepAll cd pol') m ((), s)).1.flatMap updatesOf
    (forLoop (updatesNext cd pol) n (.new false s)).1 = out.take n ∧
    ((forLoop (updatesNext cd pol) n (.new false s)).2.1 = true ↔ out.length < n) := by
  obtain ⟨items, hi, hl, _⟩ := recsD_exists cd s.stuck _ (toks s.evs) (Nat.le_refl _)
  obtain ⟨ha, _⟩ := all_records cd pol' s m hm items hi
  refine forLoop_list (Says := fun it l => UpdatesLeft (RecsD cd s.stuck) s.stuck it (l.map .ok)) ?_ n _ _ ?_
  · intro it l hf
    have h0 : it.text = false := by obtain ⟨_, _, h, _⟩ := hf; exact h
    obtain ⟨g1, g2⟩ := updatesLoop_spec cd pol s.stuck (it.src.size + 1) it _ hf (by have := toks_length it.src; omega)
    unfold updatesNext
    simp only [h0, Bool.false_eq_true, if_false]
    refine ⟨fun h => g1 (by rw [h]; rfl), ?_⟩
    rintro x l' rfl
    obtain ⟨u, it', d1, d2, d3⟩ := g2 _ _ rfl
    cases d1
    exact ⟨it', d2, d3⟩
  · exact ⟨_, items, rfl, At.self s, hi, by rw [← ha, updateItems_ok]; rfl⟩

/-- C69, for the iterator that reports errors: the same, with the errors of the records between the announcements. It is to
be used with a reader that does not fail for ever. -/
theorem c69_fallible (pol pol' : Pol) (s : Src) (hs : s.stuck ≠ some false) (m : Nat) (hm : (toks s.evs).length < m) (n : Nat) :
    let out := updateItems (forLoop (fallibleIter keepAll pol') m ((), s)).1
    (forLoop (fallibleUpdatesNext pol) n (.new false s)).1 = out.take n ∧
    ((forLoop (fallibleUpdatesNext pol) n (.new false s)).2.1 = true ↔ out.length < n) := by
  obtain ⟨items, hi, hl⟩ := recsF_exists s.stuck hs _ (toks s.evs) (Nat.le_refl _)
  obtain ⟨ha, _⟩ := forLoop_fallibleRecords keepAll pol' s.stuck s _ _ (At.self s) hi () m
  rw [recItems_keepAll, List.take_of_length_le (by omega)] at ha
  refine forLoop_list (Says := UpdatesLeft (RecsF s.stuck) s.stuck) ?_ n _ _ ?_
  · intro it l hf
    have h0 : it.text = false := by obtain ⟨_, _, h, _⟩ := hf; exact h
    unfold fallibleUpdatesNext
    simp only [h0, Bool.false_eq_true, if_false]
    exact fallibleUpdatesLoop_spec pol s.stuck hs (it.src.size + 1) it _ hf (by have := toks_length it.src; omega)
  · exact ⟨_, items, rfl, At.self s, hi, by rw [ha]; rfl⟩

/-- C69. A parser on a text dump has no announcements. -/
theorem c69_text (cd : Bool) (pol : Pol) (s : Src) (n : Nat) :
    (forLoop (updatesNext cd pol) n (.new true s)).1 = [] ∧ (forLoop (fallibleUpdatesNext pol) n (.new true s)).1 = [] := by
  cases n <;> exact ⟨rfl, rfl⟩

theorem rib_collect (t : PeerIndexTable) (p : NetworkPrefix) (es : List RibEntry) : (RecordIter.rib t p es).collect = ribElems t p es := by
  unfold RecordIter.collect
  show (RecordIter.rib t p es).take (es.length + 1) = _
  induction es with
  | nil => rfl
  | cons e es ih =>
    rw [RecordIter.take, RecordIter.next, ribElems]
    cases t.peer e.peerIndex with
    | none => rfl
    | some peer => simp only [List.length_cons]; rw [ih]

theorem batch_collect (ms : List TableDump) : (RecordIter.batch ms).collect = ms.map tableDumpToElem := by
  unfold RecordIter.collect
  show (RecordIter.batch ms).take (ms.length + 1) = _
  induction ms with
  | nil => rfl
  | cons m ms ih =>
    rw [RecordIter.take, RecordIter.next]
    simp only [List.length_cons, List.map_cons]
    rw [ih]

theorem update_collect (it : UpdateIter) : (RecordIter.bgp4mp it).collect = it.collect := by
  unfold RecordIter.collect UpdateIter.collect
  show (RecordIter.bgp4mp it).take (it.sizeHint.2 + 1) = _
  generalize it.sizeHint.2 + 1 = n
  induction n generalizing it with
  | zero => rfl
  | succ n ih =>
    rw [RecordIter.take, UpdateIter.take, RecordIter.next]
    generalize it.next = y
    obtain ⟨_ | e, it'⟩ := y
    · rfl
    · simp only; rw [ih]

/-- C69. No route is lost and none is made up: the elements of a record are the elements of its announcements, with the most
recent peer index table. -/
theorem c69_elements (hist : List MrtRecord) (table : Option PeerIndexTable) (ht : LastTable hist table) (r : MrtRecord) :
    elemsAfter hist r = (updatesOf r).flatMap (elemsOfUpdate table) := by
  have ha : after hist = ⟨table⟩ := by
    rcases after_table hist Elementor.new with ⟨h1, h2⟩ | ⟨t, h1, h2⟩
    · rw [lastTable_unique ht h1]; exact h2
    · rw [lastTable_unique ht h1]; exact h2
  show ((after hist).recordToElems r).1 = _
  rw [ha]
  obtain ⟨h, m⟩ := r
  cases m with
  | tableDump m => rfl
  | tableDumpBatch ms =>
    show (RecordIter.batch ms).collect = _
    rw [batch_collect]
    induction ms with
    | nil => rfl
    | cons m ms ih => simp only [updatesOf, List.map_cons, List.flatMap_cons, elemsOfUpdate] at ih ⊢; rw [ih]; rfl
  | tableDumpV2 m =>
    cases m with
    | ribAfi t =>
      cases table with
      | none => rfl
      | some tab =>
        show (RecordIter.rib tab t.prefix_ t.entries).collect = _
        rw [rib_collect]
        simp [updatesOf, elemsOfUpdate]
    | _ => rfl
  | bgp4mp m =>
    cases m with
    | stateChange m => rfl
    | message m =>
      obtain ⟨a, b, c, d, e, f, g⟩ := m
      cases g with
      | update u =>
        show (RecordIter.bgp4mp (updateIter u h.micros e b)).collect = _
        rw [update_collect, micros_header]
        simp [updatesOf, elemsOfUpdate, updateToElems]
      | _ => rfl
  | legacyBgp m =>
    cases m with
    | stateChange m => rfl
    | message m =>
      obtain ⟨a, b, c, d, g⟩ := m
      cases g with
      | update u =>
        show (RecordIter.bgp4mp (updateIter u h.micros b a)).collect = _
        rw [update_collect, micros_header]
        simp [updatesOf, elemsOfUpdate, updateToElems]
      | _ => rfl

theorem elemsFrom_const (table : Option PeerIndexTable) (rs : List MrtRecord) : ∀ hist, LastTable hist table →
    (∀ r ∈ rs, ∀ t, r.message ≠ .tableDumpV2 (.peerIndexTable t)) →
    elemsFrom hist rs = (rs.flatMap updatesOf).flatMap (elemsOfUpdate table) := by
  induction rs with
  | nil => intro hist _ _; rfl
  | cons r rs ih =>
    intro hist ht hr
    rw [elemsFrom, c69_elements hist table ht, ih _ (lastTable_snoc ht r (hr r (List.mem_cons_self ..)))
      (fun x hx => hr x (List.mem_cons_of_mem _ hx))]
    simp

/-- C69, for a file of updates (no peer index table) and for a RIB file (one, at its start): a loop over the announcements
that makes the elements of each gives what the loop over the elements gives. -/
theorem c69_file (env : TextEnv) (cd : Bool) (pol pol' : Pol) (s : Src) (m n : Nat) (hm : (toks s.evs).length < m)
    (hn : (forLoop (updatesNext cd pol) n (.new false s)).2.1 = true) (table : Option PeerIndexTable)
    (ht : ∃ pre post : List MrtRecord, (forLoop (defaultIter keepAll cd pol') m ((), s)).1 = pre ++ post ∧ LastTable pre table ∧
      (∀ r ∈ pre, updatesOf r = []) ∧ ∀ r ∈ post, ∀ t, r.message ≠ .tableDumpV2 (.peerIndexTable t)) (k : Nat) :
    (forLoop (elemNext env [] cd pol) k (ElemIter.new s)).1 =
      ((forLoop (updatesNext cd pol) n (.new false s)).1.flatMap (elemsOfUpdate table)).take k := by
  obtain ⟨u1, u2⟩ := c69_updates cd pol pol' s m hm n
  obtain ⟨e1, _⟩ := c37_elems env [] cd pol pol' s m hm k
  obtain ⟨pre, post, h1, h2, h3, h4⟩ := ht
  rw [h1] at u1 u2 e1
  rw [u2] at hn
  rw [List.take_of_length_le (Nat.le_of_lt hn)] at u1
  rw [u1, e1]
  refine congrArg (List.take k) ?_
  have hid : ∀ l : List BgpElem, l.filter (fun e => e.matchFilters env []) = l := fun l => List.filter_eq_self.2 fun e _ => rfl
  rw [hid, List.flatMap_append, List.flatMap_eq_nil_iff.2 h3, List.nil_append]
  have key : ∀ (pre hist : List MrtRecord), LastTable (hist ++ pre) table → (∀ r ∈ pre, updatesOf r = []) →
      elemsFrom hist (pre ++ post) = elemsFrom (hist ++ pre) post := by
    intro pre
    induction pre with
    | nil => intro hist _ _; simp
    | cons r pre ih =>
      intro hist hl hp
      have hel : elemsAfter hist r = [] := by
        rcases after_table hist Elementor.new with ⟨g1, _⟩ | ⟨t, g1, _⟩
        all_goals rw [c69_elements _ _ g1, hp r (List.mem_cons_self ..)]; rfl
      rw [List.cons_append, elemsFrom, hel, List.nil_append, ih (hist ++ [r]) (by simpa using hl)
        (fun x hx => hp x (List.mem_cons_of_mem _ hx))]
      simp
  rw [key pre [] (by simpa using h2) h3, List.nil_append, elemsFrom_const table post pre h2 h4]

/-- C69. The announcements do not depend on how the reader cuts the bytes. -/
theorem c69_chunking (cd : Bool) (pol pol' : Pol) (s s' : Src) (h : SameDelivery s s') (n : Nat) :
    (forLoop (updatesNext cd pol) n (.new false s)).1 = (forLoop (updatesNext cd pol') n (.new false s')).1 ∧
    (forLoop (updatesNext cd pol) n (.new false s)).2.1 = (forLoop (updatesNext cd pol') n (.new false s')).2.1 := by
  obtain ⟨a1, a2⟩ := c69_updates cd pol pol s _ (Nat.lt_succ_self _) n
  obtain ⟨b1, b2⟩ := c69_updates cd pol' pol' s' ((toks s.evs).length + 1) (by rw [h.1]; exact Nat.lt_succ_self _) n
  have hc := (c24_default keepAll () cd pol pol' s s' h ((toks s.evs).length + 1)).1
  rw [← hc] at b1 b2
  refine ⟨by rw [a1, b1], ?_⟩
  rw [← b2] at a2
  exact Bool.eq_iff_iff.2 a2

/-- C69. The time of an announcement is that of its elements. -/
theorem c69_timestamp (table : Option PeerIndexTable) (u : MrtUpdate) (hr : ∀ a b c d e, u ≠ .rib a b c d e) (e : BgpElem)
    (he : e ∈ elemsOfUpdate table u) : e.time = u.timestamp := by
  have hu : ∀ (m : Update) t ip asn, e ∈ updateToElems m t ip asn → e.time = t := by
    intro m t ip asn he
    obtain ⟨reach, unreach, _, _, ann, h1, h2⟩ := c32_update_elems_partial m t ip asn
    rw [h2] at he
    rw [List.mem_append] at he
    rcases he with he | he
    · clear h2
      revert he
      generalize m.announced ++ prefixesOf reach = ps at h1
      induction h1 with
      | nil => intro he; cases he
      | cons h _ ih =>
        intro he
        rcases List.mem_cons.1 he with rfl | he
        · exact h.time
        · exact ih he
    · obtain ⟨p, _, rfl⟩ := List.mem_map.1 he
      rfl
  cases u with
  | bgp4mp t ip asn m => exact hu m t ip asn he
  | legacy t ip asn _ _ m => exact hu m t ip asn he
  | rib a b c d e => exact absurd rfl (hr a b c d e)
  | tableDump m =>
    simp only [elemsOfUpdate, List.mem_singleton] at he
    subst he; rfl

/-- hypotheses of the theorems of C69: two TABLE_DUMP entries and a state change, read in two pieces with an interruption; and
an UPDATE with a damaged record before it, which ends the iterator that skips errors. -/
example : (toks c37Src.evs).length < 100 ∧ c37Src.stuck ≠ some false ∧
    (forLoop (updatesNext false (fun n _ => n)) 9 (.new false c37Src)).2.1 = true ∧
    (forLoop (updatesNext false (fun n _ => n)) 9 (.new false c37Src)).1.map (fun | .tableDump m => m.peerAsn | _ => 0) = [1, 2] ∧
    LastTable [] none := by
  refine ⟨by decide +kernel, by decide, by decide +kernel, by decide +kernel, .none _ (by intro r h; cases h)⟩

/-- "All the records" stops early: one record whose body ends in an I/O error ends the iterator, although the announcement
behind it is still there, as the fallible iterator and the next call show. -/
theorem c69_one_bad_record_ends_iteration :
    ((forLoop (fallibleUpdatesNext (fun n _ => n)) 9 (.new false ⟨[.data 0 ((c25Bad ++ c37Bytes).drop 1)], none⟩)).1.map Except.isOk = [false, true, true]) ∧
    ((forLoop (updatesNext false (fun n _ => n)) 9 (.new false ⟨[.data 0 ((c25Bad ++ c37Bytes).drop 1)], none⟩)).1 = []) ∧
    (let it := (forLoop (updatesNext false (fun n _ => n)) 9 (.new false ⟨[.data 0 ((c25Bad ++ c37Bytes).drop 1)], none⟩)).2.2
     (forLoop (updatesNext false (fun n _ => n)) 9 it).1.length = 2) := by
  decide +kernel

end Verif.Props
