import Verif.Model.DissectMessages
/-
The labels of the optional parameters of a dissected OPEN: `/repo/src/parser/bgp/dissect.rs`. A position in the message is
the octets from there on.
-/
namespace Verif

/-- one parameter node: its label, those of the type and length nodes, and the nodes of its value, each with the labels of
the nodes under it. -/
structure ParamTree where
  head : List Char
  fields : List (List Char)
  inner : List (List Char × List (List Char))
deriving DecidableEq, Repr

/-- `capability_name` (bgp/dissect.rs 992-1007). -/
def capTitle (code : UInt8) : List Char :=
  lit (match code.toNat with
    | 1 => "Multiprotocol Extensions" | 2 => "Route Refresh" | 4 => "Multiple Routes to a Destination"
    | 5 => "Extended Next Hop Encoding" | 6 => "BGP Extended Message" | 7 => "BGP Role" | 64 => "Graceful Restart"
    | 65 => "Support for 4-octet AS Number" | 66 => "Support for Add-Path" | 67 => "Enhanced Route Refresh"
    | 68 => "Long-Lived Graceful Restart" | _ => "Unknown")

/-- the loop over the capabilities of a parameter (bgp/dissect.rs 945-975). Fuel: more than the number of octets. -/
def capTreesLoop : Nat → Bytes → List (List Char × List (List Char))
  | fuel + 1, c :: n :: r =>
    if r.length < n.toNat then []
    else (lit "Capability: " ++ capTitle c ++ lit " (" ++ decText c.toNat ++ lit ")",
        [lit "Code: " ++ decText c.toNat ++ lit " (" ++ capTitle c ++ lit ")", lit "Length: " ++ decText n.toNat]) ::
      capTreesLoop fuel (r.drop n.toNat)
  | _, _ => []

/-- type and length of the parameter at the front, and what follows them; `none` where the loop ends
(bgp/dissect.rs 886-917). -/
def paramTreeHead (ext : Bool) (s : Bytes) : Option (UInt8 × Nat × Bytes) :=
  match s with
  | ty :: a :: r =>
    if ext then
      match r with
      | b :: r => some (ty, (u16of a b).toNat, r)
      | [] => none
    else some (ty, a.toNat, r)
  | _ => none

/-- the loop over the parameters (bgp/dissect.rs 886-986) after its first check. Fuel: more than the number of octets. -/
def paramTreesLoop (ext : Bool) : Nat → Bytes → List ParamTree
  | 0, _ => []
  | fuel + 1, s =>
    match paramTreeHead ext s with
    | none => []
    | some (ty, n, r) =>
      if r.length < n then []
      else ⟨if ty = 2 then lit "Capabilities (RFC 3392)" else lit "Optional parameter (type " ++ decText ty.toNat ++ lit ")",
          [lit "Type: " ++ decText ty.toNat, lit "Length: " ++ decText n],
          if ty = 2 then capTreesLoop (n + 1) (r.take n) else [(lit "Value (" ++ decText n ++ lit " bytes)", [])]⟩ ::
        paramTreesLoop ext fuel (r.drop n)

/-- the nodes of `dissect_open` after the fixed fields (bgp/dissect.rs 880-988): the label about the extended length, if that
node exists, and the parameters. -/
def openParamTrees (optLen : UInt8) (s : Bytes) : Option (List Char) × List ParamTree :=
  match s with
  | ty :: a :: r =>
    if ty = 255 ∧ optLen ≠ 0 then
      match r with
      | [] => (none, [])
      | b :: r => (some (lit "Extended optional parameters length: " ++ decText (u16of a b).toNat ++ lit " (RFC 9072)"),
          if u16of a b = 0 then [] else paramTreesLoop true (r.length + 1) r)
    else (none, paramTreesLoop false (s.length + 1) s)
  | _ => (none, [])

/-- those nodes of a whole OPEN (bgp/dissect.rs 828-989). -/
def openTrees (d : Bytes) : Option (List Char) × List ParamTree :=
  match d.drop 9 with
  | o :: r => openParamTrees o r
  | [] => (none, [])

end Verif
