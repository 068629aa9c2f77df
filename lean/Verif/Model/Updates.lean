import Verif.Model.Elem
/-
The iterators over announcements: `/repo/src/parser/iters/update.rs`.
-/
namespace Verif

/-- `MrtUpdate` with `Bgp4MpUpdate`, `LegacyBgpUpdate`, `TableDumpV2Entry` (update.rs 61-129). Simplification: `timestamp` is
in microseconds, as in `BgpElem` (Model/Elem.lean). -/
inductive MrtUpdate where
  | bgp4mp (time : Nat) (peerIp : Ip) (peerAsn : Asn) (message : Update)
  | legacy (time : Nat) (peerIp : Ip) (peerAsn : Asn) (localIp : Ip) (localAsn : Asn) (message : Update)
  | rib (time : Nat) (ribType : V2Type) (seq : UInt32) (prefix_ : NetworkPrefix) (entries : List RibEntry)
  | tableDump (m : TableDump)
deriving DecidableEq, Repr

/-- `MrtUpdate::timestamp` (update.rs 133-140), in microseconds. -/
def MrtUpdate.timestamp : MrtUpdate → Nat
  | .bgp4mp t _ _ _ | .legacy t _ _ _ _ _ | .rib t _ _ _ _ => t
  | .tableDump m => m.time.toNat * 1000000

/-- `UpdateIterator` and `FallibleUpdateIterator` (update.rs 151-155, 304-308): the pending messages in the order of the
`Vec`, the elementor (only its peer table is ever set, and nothing reads it), the reader, and whether the parser reads a text
dump. -/
structure UpdatesIter where
  text : Bool
  pending : List TableDump
  elementor : Elementor
  src : Src

/-- `UpdateIterator::new`, `FallibleUpdateIterator::new` (update.rs 158-164, 311-317). -/
def UpdatesIter.new (text : Bool) (s : Src) : UpdatesIter := ⟨text, [], .new, s⟩

/-- what a record leads to: an item, or another round with new pending messages and elementor (`match record.message`,
update.rs 222-295, 334-401). -/
def recordUpdate (pending : List TableDump) (el : Elementor) (r : MrtRecord) : Option MrtUpdate × List TableDump × Elementor :=
  let timestamp := r.header.micros
  match r.message with
  | .bgp4mp (.message m) =>
    match m.message with
    | .update u => (some (.bgp4mp timestamp m.peerIp m.peerAsn u), pending, el)
    | _ => (none, pending, el)
  | .bgp4mp (.stateChange _) => (none, pending, el)
  | .legacyBgp (.message m) =>
    match m.message with
    | .update u => (some (.legacy timestamp m.peerIp m.peerAsn m.localIp m.localAsn u), pending, el)
    | _ => (none, pending, el)
  | .legacyBgp (.stateChange _) => (none, pending, el)
  | .tableDumpV2 (.peerIndexTable p) => (none, pending, ⟨some p⟩)
  | .tableDumpV2 (.ribAfi t) => (some (.rib timestamp t.ribType t.seq t.prefix_ t.entries), pending, el)
  | .tableDumpV2 (.ribGeneric _) => (none, pending, el)
  | .tableDumpV2 (.geo _) => (none, pending, el)
  | .tableDump m => (some (.tableDump m), pending, el)
  | .tableDumpBatch ms => (none, ms.reverse, el)

/-- the loop of `UpdateIterator::next` (update.rs 176-296). The reaction to errors is that of the other default iterators
(`goesOn`). Fuel: every round that does not return consumes input. -/
def updatesLoop (coreDump : Bool) (pol : Pol) : Nat → UpdatesIter → Option MrtUpdate × UpdatesIter
  | 0, it => (none, it)
  | fuel + 1, it =>
    match it.pending.getLast? with
    | some m => (some (.tableDump m), { it with pending := it.pending.dropLast })
    | none =>
      match nextRecord pol it.src with
      | (.error e, s) =>
        if goesOn coreDump e.error then updatesLoop coreDump pol fuel { it with src := s } else (none, { it with src := s })
      | (.ok r, s) =>
        match recordUpdate it.pending it.elementor r with
        | (some u, p, el) => (some u, ⟨it.text, p, el, s⟩)
        | (none, p, el) => updatesLoop coreDump pol fuel ⟨it.text, p, el, s⟩

/-- `UpdateIterator::next` (update.rs 170-297). -/
def updatesNext (coreDump : Bool) (pol : Pol) (it : UpdatesIter) : Option MrtUpdate × UpdatesIter :=
  if it.text then (none, it) else updatesLoop coreDump pol (it.src.size + 1) it

/-- the loop of `FallibleUpdateIterator::next` (update.rs 328-410). -/
def fallibleUpdatesLoop (pol : Pol) : Nat → UpdatesIter → Option (Except RecErr MrtUpdate) × UpdatesIter
  | 0, it => (none, it)
  | fuel + 1, it =>
    match it.pending.getLast? with
    | some m => (some (.ok (.tableDump m)), { it with pending := it.pending.dropLast })
    | none =>
      match nextRecord pol it.src with
      | (.ok r, s) =>
        match recordUpdate it.pending it.elementor r with
        | (some u, p, el) => (some (.ok u), ⟨it.text, p, el, s⟩)
        | (none, p, el) => fallibleUpdatesLoop pol fuel ⟨it.text, p, el, s⟩
      | (.error e, s) =>
        if e.error = .eofExpected then (none, { it with src := s }) else (some (.error e), { it with src := s })

/-- `FallibleUpdateIterator::next` (update.rs 323-411). -/
def fallibleUpdatesNext (pol : Pol) (it : UpdatesIter) : Option (Except RecErr MrtUpdate) × UpdatesIter :=
  if it.text then (none, it) else fallibleUpdatesLoop pol (it.src.size + 1) it

end Verif
