import Verif.Model.DissectMessages
import Verif.Model.Dissect
import Verif.Model.Mrt
/-
The labels of a dissected MRT record above its body: `/repo/src/parser/mrt/dissect.rs`.
-/
namespace Verif

/-- the labels of the root, of the header node, of the nodes under it, and of the body node. -/
structure RecordLabels where
  root : List Char
  header : List (List Char)
  fields : List (List Char)
  body : List (List Char)
deriving DecidableEq, Repr

/-- `entry_type_name` (mrt/dissect.rs 14-26). -/
def entryTitle (ty : Nat) : List Char :=
  lit (match ty with
    | 12 => "TABLE_DUMP" | 13 => "TABLE_DUMP_V2" | 16 => "BGP4MP" | 17 => "BGP4MP_ET" | 32 => "ISIS" | 33 => "ISIS_ET"
    | 48 => "OSPFv3" | 49 => "OSPFv3_ET" | _ => "UNKNOWN")

/-- the label of the body node (mrt/dissect.rs 132-145, and 168-181 for BGP4MP). -/
def bodyLabel (ty sub : Nat) (body : Bytes) : List (List Char) :=
  if body.isEmpty then []
  else if ty = 16 ∨ ty = 17 then
    [lit "BGP4MP " ++ (if sub = 0 ∨ sub = 5 then lit "state change" else lit "message") ++ lit " (" ++ decText sub ++ lit ")"]
  else [lit "Message body (" ++ decText body.length ++ lit " bytes)"]

/-- `dissect_mrt_bytes` (mrt/dissect.rs 43-148) without the nodes under the body. -/
def recordLabels (d : Bytes) : RecordLabels :=
  let root := lit "MRT record (" ++ decText d.length ++ lit " bytes)"
  match d with
  | a :: b :: c :: e :: t :: u :: s :: v :: l :: m :: n :: o :: r =>
    let ty := (u16of t u).toNat
    let sub := (u16of s v).toNat
    let fields := [lit "Timestamp: " ++ decText (u32of a b c e).toNat,
      lit "Type: " ++ entryTitle ty ++ lit " (" ++ decText ty ++ lit ")", lit "Subtype: " ++ decText sub,
      lit "Length: " ++ decText (u32of l m n o).toNat]
    if ty = 17 ∨ ty = 33 ∨ ty = 49 then
      match r with
      | w :: x :: y :: z :: r => ⟨root, [lit "Common header"],
          fields ++ [lit "Microsecond timestamp: " ++ decText (u32of w x y z).toNat], bodyLabel ty sub r⟩
      | r => ⟨root, [lit "Common header"],
          fields ++ [lit "Microsecond timestamp (truncated: " ++ decText r.length ++ lit " of 4 bytes)"], []⟩
    else ⟨root, [lit "Common header"], fields, bodyLabel ty sub r⟩
  | [] => ⟨root, [], [], []⟩
  | _ => ⟨root, [lit "Common header (truncated, " ++ decText d.length ++ lit " of 12 bytes)"], [], []⟩

end Verif
