import Verif.Model.DissectLabels
/-
The labels of the nodes of a dissected list of path attributes: `/repo/src/parser/bgp/dissect.rs`. A position in the list
is the octets from there on.
-/
namespace Verif

/-- one attribute node: its label, those of the nodes under it, and those of the nodes under its value. -/
structure AttrTree where
  head : List Char
  fields : List (List Char)
  value : List (List Char)
deriving DecidableEq, Repr

/-- `attr_name` (bgp/dissect.rs 15-48). -/
def attrTitle (code : UInt8) : List Char :=
  lit (match code.toNat with
    | 1 => "ORIGIN" | 2 => "AS_PATH" | 3 => "NEXT_HOP" | 4 => "MULTI_EXIT_DISC" | 5 => "LOCAL_PREF"
    | 6 => "ATOMIC_AGGREGATE" | 7 => "AGGREGATOR" | 8 => "COMMUNITIES" | 9 => "ORIGINATOR_ID" | 10 => "CLUSTER_LIST"
    | 14 => "MP_REACH_NLRI" | 15 => "MP_UNREACH_NLRI" | 16 => "EXTENDED_COMMUNITIES" | 17 => "AS4_PATH"
    | 18 => "AS4_AGGREGATOR" | 22 => "PMSI_TUNNEL" | 23 => "TUNNEL_ENCAPSULATION" | 24 => "TRAFFIC_ENGINEERING"
    | 25 => "IPV6_EXTENDED_COMMUNITIES" | 26 => "AIGP" | 27 => "PE_DISTINGUISHER_LABELS" | 29 => "BGP-LS"
    | 32 => "LARGE_COMMUNITY" | 33 => "BGPSEC_PATH" | 35 => "ONLY_TO_CUSTOMER" | 37 => "SFP" | 38 => "BFD_DISCRIMINATOR"
    | 40 => "BGP_PREFIX_SID" | 41 => "BIER" | _ => "ATTRIBUTE")

/-- flags, code and length of the attribute at the front, and what follows them; `none` where the loop of
`dissect_attributes` ends (bgp/dissect.rs 339-356). -/
def attrTreeHead (s : Bytes) : Option (UInt8 × UInt8 × Nat × Bytes) :=
  match s with
  | flags :: code :: a :: r =>
    if flags &&& 0x10 != 0 then
      match r with
      | b :: r => some (flags, code, (u16of a b).toNat, r)
      | [] => none
    else some (flags, code, a.toNat, r)
  | _ => none

/-- the loop of `dissect_attributes` (bgp/dissect.rs 339-426). Fuel: more than the number of octets. -/
def attrTreesLoop (env : ShowEnv) (asnSize : Nat) (addPath : Bool) : Nat → Bytes → List AttrTree
  | 0, _ => []
  | fuel + 1, s =>
    match attrTreeHead s with
    | none => []
    | some (flags, code, n, r) =>
      if r.length < n then
        [⟨attrTitle code ++ lit " (type " ++ decText code.toNat ++ lit ") — truncated (" ++ decText r.length ++ lit " of " ++
          decText n ++ lit " value bytes)", [lit "Flags: 0x" ++ hex2 flags], []⟩]
      else
        ⟨attrTitle code ++ lit " (type " ++ decText code.toNat ++ lit "), " ++ decText n ++ lit " bytes",
          [lit "Flags: 0x" ++ hex2 flags, lit "Type: " ++ decText code.toNat ++ lit " (" ++ attrTitle code ++ lit ")",
            lit "Length: " ++ decText n, lit "Value (" ++ decText n ++ lit " bytes)"],
          attrLabels env code (r.take n) asnSize addPath⟩ :: attrTreesLoop env asnSize addPath fuel (r.drop n)

/-- `dissect_attributes` (bgp/dissect.rs 326-429). -/
def attrTrees (env : ShowEnv) (asnSize : Nat) (addPath : Bool) (s : Bytes) : List AttrTree :=
  attrTreesLoop env asnSize addPath (s.length + 1) s

end Verif
