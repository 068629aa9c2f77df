import Verif.Spec.DissectMessages
import Verif.Model.DissectOpen
/-
What a reader of a dissected OPEN should see of its optional parameters.
-/
namespace Verif.Spec

/-- the registered names of the capability codes. -/
def capName : Nat → String
  | 1 => "Multiprotocol Extensions"
  | 2 => "Route Refresh"
  | 4 => "Multiple Routes to a Destination"
  | 5 => "Extended Next Hop Encoding"
  | 6 => "BGP Extended Message"
  | 7 => "BGP Role"
  | 64 => "Graceful Restart"
  | 65 => "Support for 4-octet AS Number"
  | 66 => "Support for Add-Path"
  | 67 => "Enhanced Route Refresh"
  | 68 => "Long-Lived Graceful Restart"
  | _ => "Unknown"

/-- the label of a capability. -/
def capShown (c : Capability) : List Char :=
  "Capability: ".toList ++ (capName c.ty.toNat).toList ++ " (".toList ++ num c.ty.toNat ++ ")".toList

/-- the labels under a capability whose value takes `n` octets. -/
def capFieldsShown (c : Capability) (n : Nat) : List (List Char) :=
  ["Code: ".toList ++ num c.ty.toNat ++ " (".toList ++ (capName c.ty.toNat).toList ++ ")".toList, "Length: ".toList ++ num n]

/-- a capability and the entry shown for it: its octets are code, length and value. -/
def CapShows (c : Capability) (t : List Char × List (List Char)) (octets : Bytes) : Prop :=
  t.1 = capShown c ∧ ∃ v : Bytes, v.length < 256 ∧ octets = c.ty :: UInt8.ofNat v.length :: v ∧ t.2 = capFieldsShown c v.length

/-- one entry of the second list for each of the first, in order; the octets are cut into one piece for each, and fewer
than two are left. -/
inductive EachShown (R : α → β → Bytes → Prop) : List α → List β → Bytes → Prop
  | nil {t} : t.length < 2 → EachShown R [] [] t
  | cons {a b o as bs s} : R a b o → EachShown R as bs s → EachShown R (a :: as) (b :: bs) (o ++ s)

/-- the length field of a parameter: one octet, or two in the extended format. -/
def paramLength (extended : Bool) (n : Nat) : Bytes := if extended then n16 n else [UInt8.ofNat n]

/-- a parameter and the entry shown for it: type and length; capabilities under their own title, one entry for each; any
other by its number and length. -/
def ParamShows (extended : Bool) (p : OptParam) (t : ParamTree) (octets : Bytes) : Prop :=
  ∃ v : Bytes, v.length < (if extended then 65536 else 256) ∧ octets = [p.type] ++ paramLength extended v.length ++ v ∧
    t.fields = ["Type: ".toList ++ num p.type.toNat, "Length: ".toList ++ num v.length] ∧
    match p.value with
    | .caps cs => p.type = 2 ∧ t.head = "Capabilities (RFC 3392)".toList ∧ EachShown CapShows cs t.inner v
    | .raw b => p.type ≠ 2 ∧ b = v ∧ t.head = "Optional parameter (type ".toList ++ num p.type.toNat ++ ")".toList ∧
        t.inner = [("Value (".toList ++ num v.length ++ " bytes)".toList, [])]

end Verif.Spec
