import Verif.Spec.ElemCalls
import Verif.Props.Updates
import Verif.Props.Elem
/-
C33. Calls of an `Elementor` in any order.
-/
namespace Verif.Props
open Spec

theorem setPeerTable_other (el : Elementor) {r : MrtRecord} (h : ∀ t, r.message ≠ .tableDumpV2 (.peerIndexTable t)) :
    el.setPeerTable r = (el, some .parse) := by
  unfold Elementor.setPeerTable
  split
  · next t ht => exact absurd ht (h t)
  · rfl

/-- C33. `set_peer_table` accepts exactly the peer index tables; with any other record it reports an error, and the table in use stays. -/
theorem c33_set_table (el : Elementor) (r : MrtRecord) :
    (∀ t, r.message = .tableDumpV2 (.peerIndexTable t) → el.setPeerTable r = (⟨some t⟩, none)) ∧
    ((∀ t, r.message ≠ .tableDumpV2 (.peerIndexTable t)) → ∃ e, el.setPeerTable r = (el, some e)) := by
  refine ⟨fun t ht => ?_, fun h => ⟨_, setPeerTable_other el h⟩⟩
  unfold Elementor.setPeerTable
  rw [ht]

/-- C33. After any calls of `set_peer_table` and `record_to_elems`, in any order and whether they failed or not, the table in use is the
last one passed to either. -/
theorem c33_calls (calls : List ElementorCall) : LastTable (calls.map (·.record)) (calls.foldl ElementorCall.run .new).table := by
  suffices H : ∀ (calls : List ElementorCall) (hist : List MrtRecord) (el : Elementor), LastTable hist el.table →
      LastTable (hist ++ calls.map (·.record)) (calls.foldl ElementorCall.run el).table by
    simpa using H calls [] .new (.none [] (by simp))
  intro calls
  induction calls with
  | nil => intro hist el h; simpa using h
  | cons c cs ih =>
    intro hist el h
    have key : LastTable (hist ++ [c.record]) (ElementorCall.run el c).table := by
      by_cases ht : IsTable c.record
      · obtain ⟨t, ht⟩ := ht
        have hr : (ElementorCall.run el c).table = some t := by
          cases c with
          | set r => simp only [ElementorCall.run, ((c33_set_table el r).1 t ht)]
          | convert r =>
            have := recordToElems_table el (r := r) ht
            simp only [ElementorCall.run, this]
        rw [hr]
        have hc : c.record = ⟨c.record.header, .tableDumpV2 (.peerIndexTable t)⟩ := by rw [← ht]
        rw [hc]
        exact .some hist _ t [] (by simp)
      · have hr : ElementorCall.run el c = el := by
          cases c with
          | set r =>
            have := setPeerTable_other el (r := r) fun t h => ht ⟨t, h⟩
            simp only [ElementorCall.run, this]
          | convert r => exact recordToElems_other el ht
        rw [hr]
        generalize el.table = o at h
        cases h with
        | none _ hn =>
          refine .none _ fun r hr t => ?_
          rcases List.mem_append.mp hr with hr | hr
          · exact hn r hr t
          · rw [List.mem_singleton.mp hr]; exact fun h => ht ⟨t, h⟩
        | some pre hd t post hn =>
          rw [List.append_assoc, List.cons_append]
          refine .some pre hd t _ fun r hr t => ?_
          rcases List.mem_append.mp hr with hr | hr
          · exact hn r hr t
          · rw [List.mem_singleton.mp hr]; exact fun h => ht ⟨t, h⟩
    have := ih _ _ key
    simpa using this

/-- C33. So the elements of a RIB record are those with the peers of that table, and there are none without a table. -/
theorem c33_calls_elems (calls : List ElementorCall) (h : Header) (r : RibAfi) :
    ∃ o, LastTable (calls.map (·.record)) o ∧
      match o with
      | none => ((calls.foldl ElementorCall.run .new).recordToElems ⟨h, .tableDumpV2 (.ribAfi r)⟩).1 = []
      | some t => ∃ known rest, r.entries = known ++ rest ∧
          Pairwise2 (EntryElem t r.prefix_) known ((calls.foldl ElementorCall.run .new).recordToElems ⟨h, .tableDumpV2 (.ribAfi r)⟩).1 ∧
          (rest = [] ∨ ∃ e l, rest = e :: l ∧ t.peer e.peerIndex = none) := by
  have hl := c33_calls calls
  generalize List.foldl ElementorCall.run .new calls = el at hl
  obtain ⟨o⟩ := el
  refine ⟨o, hl, ?_⟩
  cases o with
  | none => rfl
  | some t =>
    have : (Elementor.recordToElems ⟨some t⟩ ⟨h, .tableDumpV2 (.ribAfi r)⟩).1 = ribLeft t r.prefix_ r.entries :=
      RecordIter.collect_eq _
    show ∃ known rest, _ ∧ Pairwise2 _ known (Elementor.recordToElems ⟨some t⟩ ⟨h, .tableDumpV2 (.ribAfi r)⟩).1 ∧ _
    rw [this]
    exact ribLeft_spec t r.prefix_ r.entries

/-- a table that is set, another record that is refused, and a conversion: the table stays. -/
example (h : Header) (m : TableDump) :
    ([ElementorCall.set ⟨h, .tableDumpV2 (.peerIndexTable exTable)⟩, .set ⟨h, .tableDump m⟩, .convert ⟨h, .tableDump m⟩].foldl
      ElementorCall.run .new).table = some exTable := rfl

end Verif.Props
