import Verif.Model.DissectLabels
/-
The labels of the nodes directly under a dissected UPDATE, each with the labels of the prefixes under it:
`/repo/src/parser/bgp/dissect.rs`. A position in the message is the octets from there on. The nodes of the attributes
are not listed; `attrLabels` is their values.
-/
namespace Verif

/-- `dissect_update` after the withdrawn routes (bgp/dissect.rs 266-322). -/
def updateTailLabels (env : ShowEnv) (addPath : Bool) (s : Bytes) : List (List Char × List (List Char)) :=
  match s with
  | [] => []
  | [_] => [(lit "Total path attribute length (truncated)", [])]
  | a :: b :: r =>
    let al := (u16of a b).toNat
    [(lit "Total path attribute length: " ++ decText al, [])] ++
    (if 0 < al ∧ 0 < r.length then [(lit "Path attributes (" ++ decText al ++ lit " bytes)", [])]
      else if 0 < al then [(lit "Path attributes (truncated: declared " ++ decText al ++ lit " bytes)", [])] else []) ++
    (if al < r.length then
      [(lit "Network Layer Reachability Information (" ++ decText (r.length - al) ++ lit " bytes)",
        nlriLabels env true addPath (r.drop al))]
      else [])

/-- `dissect_update` (bgp/dissect.rs 218-323). -/
def updateLabels (env : ShowEnv) (addPath : Bool) (d : Bytes) : List (List Char × List (List Char)) :=
  match d with
  | [] => []
  | [_] => [(lit "Withdrawn routes length (truncated)", [])]
  | a :: b :: r =>
    let wl := (u16of a b).toNat
    let head := (lit "Withdrawn routes length: " ++ decText wl, [])
    if r.length < wl then
      [head, (lit "Withdrawn routes (truncated: " ++ decText r.length ++ lit " of " ++ decText wl ++ lit " bytes)", [])]
    else
      [head] ++
      (if 0 < wl then [(lit "Withdrawn routes (" ++ decText wl ++ lit " bytes)", nlriLabels env true addPath (r.take wl))] else []) ++
      updateTailLabels env addPath (r.drop wl)

end Verif
