import Verif.Model.Updates
import Verif.Spec.Elem
/-
The announcements of a file, and how they relate to its elements.
-/
namespace Verif.Spec

/-- The announcements of a record: the UPDATE of a BGP4MP or type 5 record, with the time of the record and the peer; a RIB
record as a whole; and each entry of a TABLE_DUMP record. -/
def updatesOf (r : MrtRecord) : List MrtUpdate :=
  match r.message with
  | .bgp4mp (.message ⟨_, peerAsn, _, _, peerIp, _, .update u⟩) => [.bgp4mp (headerMicros r.header) peerIp peerAsn u]
  | .legacyBgp (.message ⟨peerAsn, peerIp, localAsn, localIp, .update u⟩) =>
    [.legacy (headerMicros r.header) peerIp peerAsn localIp localAsn u]
  | .tableDumpV2 (.ribAfi ⟨ribType, seq, prefix_, entries⟩) => [.rib (headerMicros r.header) ribType seq prefix_ entries]
  | .tableDump m => [.tableDump m]
  | .tableDumpBatch ms => ms.map .tableDump
  | _ => []

/-- the announcements of records among which there are errors. -/
def updateItems : List (Except RecErr MrtRecord) → List (Except RecErr MrtUpdate) :=
  List.flatMap fun
    | .ok r => (updatesOf r).map .ok
    | .error e => [.error e]

/-- The elements that a user makes of the entries of a RIB record with a peer index table, up to an unknown peer. -/
def ribElems (t : PeerIndexTable) (p : NetworkPrefix) : List RibEntry → List BgpElem
  | [] => []
  | e :: es =>
    match t.peer e.peerIndex with
    | some peer => ribEntryToElem p peer e :: ribElems t p es
    | none => []

/-- The elements that a user makes of an announcement, with `bgp_update_to_elems` for an UPDATE and the peer index table in
force for a RIB record. -/
def elemsOfUpdate (table : Option PeerIndexTable) : MrtUpdate → List BgpElem
  | .bgp4mp t ip asn u => updateToElems u t ip asn
  | .legacy t ip asn _ _ u => updateToElems u t ip asn
  | .rib _ _ _ p es => match table with
    | some t => ribElems t p es
    | none => []
  | .tableDump m => [tableDumpToElem m]

end Verif.Spec
