import Verif.Model.Diagnostic
import Verif.Spec.MrtFrame
import Verif.Spec.Dissect
/-
What a diagnostic iteration over a file should report, record by record.
-/
namespace Verif.Spec

/-- the dissection tree of these bytes: the nodes of their parts, below a node for all of them. -/
def TreeOf (b : Bytes) (t : Node) : Prop :=
  ∃ ps, MrtParts ps ∧ partsBytes ps = b ∧ t = .mk "mrt" 0 b.length (partsNodes 0 ps)

/-- the attribute lists in a record, in order. -/
def attributeLists : MrtMessage → List Attributes
  | .tableDump m => [m.attributes]
  | .tableDumpBatch ms => ms.map (·.attributes)
  | .tableDumpV2 (.ribAfi r) => r.entries.map (·.attributes)
  | .tableDumpV2 (.ribGeneric r) => r.entries.map (·.attributes)
  | .bgp4mp (.message m) => (match m.message with | .update u => [u.attributes] | _ => [])
  | .legacyBgp (.message m) => (match m.message with | .update u => [u.attributes] | _ => [])
  | _ => []

/-- the ROUTE-REFRESH message in a record. -/
def refreshOf : MrtMessage → Option RouteRefresh
  | .bgp4mp (.message m) => (match m.message with | .routeRefresh r => some r | _ => none)
  | .legacyBgp (.message m) => (match m.message with | .routeRefresh r => some r | _ => none)
  | _ => none

/-- all validation findings in a record. -/
def findingsOf (m : MrtMessage) : List Finding :=
  (attributeLists m).flatMap (fun a => a.warnings.map .attr) ++
    (match refreshOf m with | some r => r.warnings.map .refresh | none => [])

/-- What is reported about a record of the file: the parsed record with its bytes and findings, or the error with the
header, the bytes and the tree. -/
def Reported (r : Raw) (e : DiagEvent) : Prop :=
  match r.parse with
  | .ok m => e = .record m r (findingsOf m.message)
  | .error x => ∃ t, TreeOf r.bytes t ∧ e = .parseError x (some r.header) (some r.bytes) (some t)

/-- Bytes that do not start with a record: the error, the header if there is one, and the bytes that were consumed. -/
inductive BrokenAt (c : Bytes) : Err → Option Header → Bytes → Prop where
  /-- an unassigned type, or BGP4MP_ET with a length below four -/
  | bad (b rest : Bytes) : c = b ++ rest → BadHeader b → BrokenAt c .parse none b
  /-- more than 16 MiB are announced -/
  | long (b rest : Bytes) (h : Header) : c = b ++ rest → HeaderBytes h b → 16777216 < h.length.toNat →
      BrokenAt c .unsupported (some h) b
  /-- the file ends inside the header -/
  | header : c ≠ [] → (∀ b rest, c = b ++ rest → ¬ BadHeader b ∧ ∀ h, ¬ HeaderBytes h b) → BrokenAt c .eof none c
  /-- the file ends inside the body -/
  | body (b rest : Bytes) (h : Header) : c = b ++ rest → HeaderBytes h b → h.length.toNat ≤ 16777216 →
      (∀ r b rest, c = b ++ rest → ¬ Frame r b) → BrokenAt c .ioEof (some h) c

/-- The events of a file: one per record; if something is left that is no record, one last event about it. -/
inductive Diagnosed : Bytes → List DiagEvent → Prop where
  | done : Diagnosed [] []
  | record {r : Raw} {b rest : Bytes} {e : DiagEvent} {es : List DiagEvent} :
      Frame r b → Reported r e → Diagnosed rest es → Diagnosed (b ++ rest) (e :: es)
  | broken {c b : Bytes} {x : Err} {h : Option Header} {t : Node} : BrokenAt c x h b → TreeOf b t →
      Diagnosed c [.parseError x h (some b) (some t)]

/-- the iterator at the beginning of an MRT file. -/
def diagStart (s : Src) : DiagIter := ⟨false, false, s⟩

end Verif.Spec
