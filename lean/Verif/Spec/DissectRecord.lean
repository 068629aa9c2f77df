import Verif.Spec.DissectLabels
import Verif.Spec.MrtFrame
import Verif.Model.DissectRecord
/-
What a reader of a dissected MRT record should see above its body.
-/
namespace Verif.Spec

/-- the names used for record types; the others have none. -/
def entryShown : EntryType → List Char
  | .tableDump => "TABLE_DUMP (12)".toList
  | .tableDumpV2 => "TABLE_DUMP_V2 (13)".toList
  | .bgp4mp => "BGP4MP (16)".toList
  | .bgp4mpEt => "BGP4MP_ET (17)".toList
  | .isis => "ISIS (32)".toList
  | .isisEt => "ISIS_ET (33)".toList
  | .ospfv3 => "OSPFv3 (48)".toList
  | .ospfv3Et => "OSPFv3_ET (49)".toList
  | t => "UNKNOWN (".toList ++ num (entryNum t) ++ ")".toList

/-- time, type, subtype, the length field (which counts the microseconds), and the microseconds if there are any. -/
def headerShown (h : Header) : List (List Char) :=
  ["Timestamp: ".toList ++ num h.time.toNat, "Type: ".toList ++ entryShown h.type, "Subtype: ".toList ++ num h.subtype.toNat,
    "Length: ".toList ++ num (h.length.toNat + if h.micro = none then 0 else 4)] ++
  (match h.micro with | none => [] | some m => ["Microsecond timestamp: ".toList ++ num m.toNat])

/-- the body of BGP4MP by its kind, of others by its length; nothing for an empty one. -/
def bodyShown (h : Header) (body : Bytes) : List (List Char) :=
  if body = [] then []
  else if h.type = .bgp4mp ∨ h.type = .bgp4mpEt then
    [(if h.subtype = 0 ∨ h.subtype = 5 then "BGP4MP state change (".toList else "BGP4MP message (".toList) ++
      num h.subtype.toNat ++ ")".toList]
  else ["Message body (".toList ++ num body.length ++ " bytes)".toList]

/-- the whole. -/
def recordShown (r : Raw) : RecordLabels :=
  ⟨"MRT record (".toList ++ num (r.headerBytes.length + r.body.length) ++ " bytes)".toList, ["Common header".toList],
    headerShown r.header, bodyShown r.header r.body⟩

end Verif.Spec
