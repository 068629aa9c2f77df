import Verif.Model.DissectLabels
import Verif.Model.Bgp
/-
The labels of a dissected BGP message outside UPDATE: `/repo/src/parser/bgp/dissect.rs`. The optional parameters of OPEN are
in Model/DissectOpen.lean.
-/
namespace Verif

/-- the message type names (bgp/dissect.rs 154-161). -/
def msgTypeTitle (ty : UInt8) : List Char :=
  lit (match ty.toNat with
    | 1 => "OPEN" | 2 => "UPDATE" | 3 => "NOTIFICATION" | 4 => "KEEPALIVE" | 5 => "ROUTE-REFRESH" | _ => "UNKNOWN")

/-- the marker (bgp/dissect.rs 136-147). -/
def markerLabel (marker : Bytes) : List Char :=
  if marker.all (· == 0xFF) then lit "Marker (all ones)" else lit "Marker (NOT all ones — invalid per RFC 4271)"

/-- `dissect_bgp_message_base` (bgp/dissect.rs 97-216) without the node of the body: the label of the root, those of the
nodes under the header, and those of the nodes about a length that does not fit the data. -/
def messageLabels (d : Bytes) : List Char × List (List Char) × List (List Char) :=
  match d.drop 16 with
  | a :: b :: ty :: rest =>
    let length := (u16of a b).toNat
    let declared := length - 19
    let body := min declared rest.length
    (lit "BGP message (" ++ decText (19 + body) ++ lit " bytes)",
      [markerLabel (d.take 16), lit "Length: " ++ decText length,
        lit "Type: " ++ msgTypeTitle ty ++ lit " (" ++ decText ty.toNat ++ lit ")"],
      (if rest.length < declared then [lit "Declared length " ++ decText length ++ lit " exceeds the " ++ decText d.length ++
          lit " available bytes"] else []) ++
      (if body < rest.length then [lit "Trailing bytes beyond the declared message (" ++ decText (rest.length - body) ++
          lit " bytes)"] else []))
  | _ => (lit "BGP message (truncated, " ++ decText d.length ++ lit " of 19 header bytes)", [],
      if d.isEmpty then [] else [lit "Header (truncated, " ++ decText d.length ++ lit " of 19 bytes)"])

/-- `dissect_notification` (bgp/dissect.rs 1009-1037). -/
def notificationLabels (d : Bytes) : List (List Char) :=
  match d with
  | [] => []
  | [c] => [lit "Error code: " ++ decText c.toNat]
  | c :: s :: r => [lit "Error code: " ++ decText c.toNat, lit "Error subcode: " ++ decText s.toNat] ++
      (if 0 < r.length then [lit "Data (" ++ decText r.length ++ lit " bytes)"] else [])

/-- `dissect_route_refresh` (bgp/dissect.rs 1039-1076). -/
def refreshLabels (d : Bytes) : List (List Char) :=
  match d with
  | a :: b :: t :: s :: r => [lit "AFI: " ++ decText (u16of a b).toNat, lit "Subtype: " ++ decText t.toNat,
      lit "SAFI: " ++ decText s.toNat] ++ (if 0 < r.length then [lit "ORF data (" ++ decText r.length ++ lit " bytes)"] else [])
  | _ => []

/-- the fixed fields of `dissect_open` (bgp/dissect.rs 828-878). -/
def openLabels (d : Bytes) : List (List Char) :=
  match d with
  | v :: a :: b :: h :: k :: i :: j :: m :: n :: o :: _ => [lit "Version: " ++ decText v.toNat,
      lit "My AS: " ++ decText (u16of a b).toNat, lit "Hold time: " ++ decText (u16of h k).toNat ++ lit "s",
      lit "BGP identifier: " ++ v4Text #v[i, j, m, n], lit "Optional parameters length: " ++ decText o.toNat]
  | [] => []
  | _ => [lit "Truncated OPEN (" ++ decText d.length ++ lit " of 10 fixed bytes)"]

end Verif
