import Verif.Model.RawRuns
/-
One elementor for many threads: `into_elementor_and_raw_record_iter` and `into_elementor_and_record_iter`
(src/parser/iters/mod.rs 403-463), and the way they are meant to be used (examples/parallel_records_to_elem.rs 69-118).
-/
namespace Verif

/-- `std::iter::Peekable`: the iterator and, if it was asked for, the item that comes next. -/
structure Peekable (σ α : Type) where
  inner : σ
  peeked : Option (Option α)

/-- `Iterator::peekable` (std). -/
def Peekable.new (it : σ) : Peekable σ α := ⟨it, none⟩

/-- `Peekable::next` (std). -/
def Peekable.next (next : σ → Option α × σ) (it : Peekable σ α) : Option α × Peekable σ α :=
  match it.peeked with
  | some x => (x, { it with peeked := none })
  | none => ((next it.inner).1, ⟨(next it.inner).2, none⟩)

/-- `Peekable::peek` (std). -/
def Peekable.peek (next : σ → Option α × σ) (it : Peekable σ α) : Option α × Peekable σ α :=
  match it.peeked with
  | some x => (x, it)
  | none => ((next it.inner).1, ⟨(next it.inner).2, some (next it.inner).1⟩)

/-- `Elementor::with_peer_table` (mrt_elem.rs 481-485). -/
def Elementor.withPeerTable (t : PeerIndexTable) : Elementor := ⟨some t⟩

/-- the table, if the record is one (the pattern of mod.rs 430-433, 451-454). -/
def MrtRecord.table (r : MrtRecord) : Option PeerIndexTable :=
  match r.message with
  | .tableDumpV2 (.peerIndexTable t) => some t
  | _ => none

/-- `into_elementor_and_raw_record_iter` (mod.rs 420-439). -/
def Parser.elementorAndRaws (pol : Pol) (p : Parser env) (w : World) : Elementor × Peekable (RawRun env) Raw :=
  let (first, it) := (Peekable.new (p.raws w)).peek (RawRun.next pol)
  match first.bind fun r => r.parse.toOption with
  | some r =>
    match r.table with
    | some t => (.withPeerTable t, (it.next (RawRun.next pol)).2)
    | none => (.new, it)
  | none => (.new, it)

/-- `into_elementor_and_record_iter` (mod.rs 448-463). -/
def Parser.elementorAndRecords (pol : Pol) (p : Parser env) (w : World) : Elementor × Peekable (RecordRun env) MrtRecord :=
  let (first, it) := (Peekable.new (p.records w)).peek (RecordRun.next pol)
  match first with
  | some r =>
    match r.table with
    | some t => (.withPeerTable t, (it.next (RecordRun.next pol)).2)
    | none => (.new, it)
  | none => (.new, it)

/-- the elements of one record: `if let Ok(elems) = elementor.record_to_elems_iter(record)` (example, 102-104). The elementor
is only read. -/
def Elementor.convert (el : Elementor) (r : MrtRecord) : List BgpElem :=
  match el.recordIter r with
  | .ok it => it.collect
  | .error _ => []

/-- the elements of one raw record: `if let Ok(record) = record.parse()` (example, 101-105). -/
def Elementor.convertRaw (el : Elementor) (r : Raw) : List BgpElem :=
  match r.parse with
  | .ok r => el.convert r
  | .error _ => []

/-- `it.by_ref().take(n).collect()` (example, 93-96). -/
def Peekable.takeN (next : σ → Option α × σ) : Nat → Peekable σ α → List α × Peekable σ α
  | 0, it => ([], it)
  | n + 1, it =>
    match it.next next with
    | (none, it) => ([], it)
    | (some x, it) => (x :: (Peekable.takeN next n it).1, (Peekable.takeN next n it).2)

/-- A worker thread (example, 86-113): the records it has taken and not yet converted, the elements it has made, and whether it
has left its loop. The example only counts the elements. -/
structure Worker where
  hand : List Raw
  made : List BgpElem
  left : Bool

/-- The threads and the iterator they share behind a mutex. The second `peekable()` of the example (line 80) is never asked to
peek and left out. -/
structure Pool (env : TextEnv) where
  records : Peekable (RawRun env) Raw
  workers : List Worker

/-- the pool as the threads start (example, 80-88). -/
def Pool.start (records : Peekable (RawRun env) Raw) (threads : Nat) : Pool env := ⟨records, List.replicate threads ⟨[], [], false⟩⟩

/-- One step of one thread: it locks the mutex and takes up to `size` records, and leaves if there are none (example, 91-99), or
converts a record that it has (100-107). Which thread comes next is open. -/
inductive Pool.Step (pol : Pol) (el : Elementor) (size : Nat) : Pool env → Pool env → Prop where
  | take {it ws made ws'} : Pool.Step pol el size ⟨it, ws ++ ⟨[], made, false⟩ :: ws'⟩
      ⟨(it.takeN (RawRun.next pol) size).2,
        ws ++ ⟨(it.takeN (RawRun.next pol) size).1, made, (it.takeN (RawRun.next pol) size).1.isEmpty⟩ :: ws'⟩
  | convert {it ws raw hand made left ws'} : Pool.Step pol el size ⟨it, ws ++ ⟨raw :: hand, made, left⟩ :: ws'⟩
      ⟨it, ws ++ ⟨hand, made ++ el.convertRaw raw, left⟩ :: ws'⟩

end Verif
