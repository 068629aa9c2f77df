import Verif.Model.Dissect
/-
The diagnostic iterators: `/repo/src/parser/iters/diagnostic.rs`.

`none` from a dissector stands for a panic (see Model/Dissect.lean), which the event `panic` keeps visible.
-/
namespace Verif

/-- `BgpValidationWarning` (src/error.rs), as far as any parser emits it: the findings about attributes and NLRI (`Warning`)
and those about ROUTE-REFRESH messages. -/
inductive Finding where
  | attr (w : Warning)
  | refresh (w : RefreshWarning)
deriving DecidableEq, Repr

/-- `update_warnings` (diagnostic.rs 226-232). -/
def messageFindings : BgpMessage → List Finding
  | .update u => u.attributes.warnings.map .attr
  | .routeRefresh r => r.warnings.map .refresh
  | _ => []

/-- `record_validation_warnings` (diagnostic.rs 208-224). -/
def recordFindings (r : MrtRecord) : List Finding :=
  match r.message with
  | .bgp4mp (.message m) => messageFindings m.message
  | .legacyBgp (.message m) => messageFindings m.message
  | .tableDump m => m.attributes.warnings.map .attr
  | .tableDumpBatch ms => ms.flatMap fun m => m.attributes.warnings.map .attr
  | .tableDumpV2 (.ribAfi rib) => rib.entries.flatMap fun e => e.attributes.warnings.map .attr
  | _ => []

/-- `DiagnosticEvent` (diagnostic.rs 26-49). -/
inductive DiagEvent where
  | record (r : MrtRecord) (raw : Raw) (findings : List Finding)
  | parseError (error : Err) (header : Option Header) (rawBytes : Option Bytes) (partialTree : Option Node)
  | panic

/-- `DiagnosticIterator` (diagnostic.rs 52-55): whether the parser reads a text dump, whether the iteration is over, and the
reader. -/
structure DiagIter where
  text : Bool
  terminated : Bool
  src : Src

/-- A `ParseError` event with the dissection of the bytes at hand (diagnostic.rs 98-103, 111-117). -/
def errorEvent (e : Err) (h : Option Header) (bytes : Option Bytes) : DiagEvent :=
  match bytes with
  | none => .parseError e h none none
  | some b =>
    match dissectMrtBytes b with
    | none => .panic
    | some t => .parseError e h (some b) (some t)

/-- `DiagnosticIterator::next` (diagnostic.rs 82-130); the warning about the Zebra format is not modelled. -/
def DiagIter.next (pol : Pol) (it : DiagIter) : Option DiagEvent × DiagIter :=
  if it.terminated || it.text then (none, it)
  else
    match chunkCtx pol it.src with
    | (.error e, s) =>
      if e.error = .eofExpected then (none, { it with terminated := true, src := s })
      else (some (errorEvent e.error e.header e.bytes), { it with terminated := true, src := s })
    | (.ok raw, s) =>
      match raw.parse with
      | .error e => (some (errorEvent e (some raw.header) (some raw.bytes)), { it with src := s })
      | .ok r => (some (.record r raw (recordFindings r)), { it with src := s })

/-! ### byte ranges of findings -/

/-- `attr_span` (diagnostic.rs 262-266). -/
def attrSpan (t : Node) (code : UInt8) (occurrence : Nat) : Option (Nat × Nat) :=
  ((t.findAll (attrField code))[occurrence]?).map Node.span

/-- `section_span` (diagnostic.rs 276). -/
def sectionSpan (t : Node) (field : String) : Option (Nat × Nat) := (t.find field).map Node.span

/-- `duplicate_counts`: a map from type codes to counts, as a function (`get(..).unwrap_or(0)`). -/
abbrev DupCounts := UInt8 → Nat

/-- `locate_warning_span` (diagnostic.rs 255-312), with the counts it leaves behind. The arms for warnings that no parser
emits (`InvalidOriginAttribute`, `InvalidNextHopAttribute`, `MalformedAsPath`, `UnrecognizedWellKnownAttribute`,
`InvalidNetworkField`, `MalformedNlri` other than "withdrawn" and "announced") are left out. -/
def locateSpan (t : Node) (counts : DupCounts) (f : Finding) : (Nat × Nat) × DupCounts :=
  let pathAttributes := sectionSpan t "bgp.update.path_attributes"
  match f with
  | .attr (.flags c _ _) | .attr (.length c _ _) | .attr (.optional c) | .attr (.partial_ c) =>
    (((attrSpan t c (counts c)).or pathAttributes).getD t.span, counts)
  | .attr (.duplicate c) =>
    let n := counts c + 1
    (((attrSpan t c n).or pathAttributes).getD t.span, fun x => if x = c then n else counts x)
  | .attr (.missing _) | .attr .malformedList => (pathAttributes.getD t.span, counts)
  | .attr (.malformedNlri true _) => ((sectionSpan t "bgp.update.withdrawn_routes").getD t.span, counts)
  | .attr (.malformedNlri false _) => ((sectionSpan t "bgp.update.nlri").getD t.span, counts)
  | .attr (.unknownRouteRefreshSubtype _) | .refresh _ => ((sectionSpan t "bgp.route_refresh").getD t.span, counts)

/-- `span_record_warnings` (diagnostic.rs 241-253), the loop. -/
def spanLoop (t : Node) : DupCounts → List Finding → List ((Nat × Nat) × Finding)
  | _, [] => []
  | counts, f :: fs =>
    let (s, counts) := locateSpan t counts f
    (s, f) :: spanLoop t counts fs

/-- `span_record_warnings` (diagnostic.rs 241-253). -/
def spanFindings (fs : List Finding) (t : Node) : List ((Nat × Nat) × Finding) := spanLoop t (fun _ => 0) fs

/-- `DissectedDiagnosticEvent` (diagnostic.rs 139-163). -/
inductive DissectedEvent where
  | record (r : MrtRecord) (raw : Raw) (findings : List ((Nat × Nat) × Finding)) (tree : Node)
  | parseError (error : Err) (header : Option Header) (rawBytes : Option Bytes) (partialTree : Option Node)
  | panic

/-- the closure of `DissectingDiagnosticIterator::next` (diagnostic.rs 174-200). -/
def dissectEvent : DiagEvent → DissectedEvent
  | .record r raw fs =>
    match dissectMrtRecord raw with
    | none => .panic
    | some t => .record r raw (spanFindings fs t) t
  | .parseError e h b t => .parseError e h b t
  | .panic => .panic

/-- `DissectingDiagnosticIterator::next` (diagnostic.rs 170-202). -/
def DiagIter.nextDissected (pol : Pol) (it : DiagIter) : Option DissectedEvent × DiagIter :=
  match it.next pol with
  | (none, it) => (none, it)
  | (some e, it) => (some (dissectEvent e), it)

end Verif
