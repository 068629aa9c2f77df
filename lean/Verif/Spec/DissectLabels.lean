import Verif.Model.Attr
import Verif.Model.Display
import Verif.Spec.LsAccess
/-
What a reader of a dissection should see for each attribute value, in terms of the value the parser returns.
-/
namespace Verif.Spec

/-- a decimal number. -/
def num (n : Nat) : List Char := Nat.toDigits 10 n

/-- entries numbered from `i` on: `name [i]: text`. -/
def entriesFrom (name : String) (text : α → List Char) : Nat → List α → List (List Char)
  | _, [] => []
  | i, x :: xs => (name.toList ++ " [".toList ++ num i ++ "]: ".toList ++ text x) :: entriesFrom name text (i + 1) xs

/-- entries numbered from 1 on. -/
def entries (name : String) (text : α → List Char) (xs : List α) : List (List Char) := entriesFrom name text 1 xs

/-- an AS path segment: its kind and its AS numbers in order. -/
def segShown (s : Seg) : List Char :=
  (match s with
    | .set _ => "AS_SET: " | .seq _ => "AS_SEQUENCE: " | .confedSeq _ => "AS_CONFED_SEQUENCE: "
    | .confedSet _ => "AS_CONFED_SET: " : String).toList ++ joinSep [' '] (s.asns.map fun a => num a.toNat)

/-- the two halves of the 32-bit value of a community. -/
def communityShown : Community → List Char
  | .noExport => "65535:65281".toList
  | .noAdvertise => "65535:65282".toList
  | .noExportSubConfed => "65535:65283".toList
  | .custom a v => num a.toNat ++ ":".toList ++ num v.toNat

/-- two hexadecimal digits. -/
def hexOf (b : UInt8) : List Char := [hexUpper (b.toNat / 16), hexUpper (b.toNat % 16)]

/-- type and subtype in front of an extended community. -/
def extHead (t st : UInt8) : List Char := "type 0x".toList ++ hexOf t ++ " subtype 0x".toList ++ hexOf st ++ ": ".toList

/-- `administrator:value`. -/
def pair (a b : List Char) : List Char := a ++ ":".toList ++ b

/-- the octets of an opaque value. -/
def hexList (bs : Bytes) : List Char := joinSep [' '] (bs.map hexOf)

/-- an extended community; `none` for the two kinds whose value does not keep all eight octets, and for those kept as
eight raw octets. -/
def extShown : ExtCommunity → Option (List Char)
  | .twoOctetAs st a l => some (extHead 0x00 st ++ pair (num a.toNat) (num (numOf l.toList)))
  | .ntTwoOctetAs st a l => some (extHead 0x40 st ++ pair (num a.toNat) (num (numOf l.toList)))
  | .redirect st a l => some (extHead 0x40 st ++ pair (num a.toNat) (num (numOf l.toList)))
  | .trafficRate a r => some (extHead 0x40 6 ++ pair (num a.toNat) (num r.toNat))
  | .linkBandwidth g b tr => some (extHead (if tr then 0x00 else 0x40) 4 ++ pair (num g.toNat) (num b.toNat))
  | .ipv4Addr st a l => some (extHead 0x01 st ++ pair (v4Text a) (num (numOf l.toList)))
  | .ntIpv4Addr st a l => some (extHead 0x41 st ++ pair (v4Text a) (num (numOf l.toList)))
  | .fourOctetAs st a l => some (extHead 0x02 st ++ pair (num a.toNat) (num (numOf l.toList)))
  | .ntFourOctetAs st a l => some (extHead 0x42 st ++ pair (num a.toNat) (num (numOf l.toList)))
  | .opaq st v => some (extHead 0x03 st ++ hexList v.toList)
  | .ntOpaque st v => some (extHead 0x43 st ++ hexList v.toList)
  | .trafficAction .. | .trafficMarking .. | .raw _ => none

/-- IANA names of the two address families with prefixes. -/
def afiShown (a : Afi) : List Char :=
  match a with
  | .ipv4 => "AFI: 1 (IPv4)".toList
  | .ipv6 => "AFI: 2 (IPv6)".toList
  | .linkState => "AFI: 16388 (unknown)".toList

/-- octets of a next hop. -/
def hopLen : Option NextHop → Nat
  | none => 0
  | some (.v4 _) => 4
  | some (.v6 _) => 16
  | some (.v6ll ..) => 32
  | some (.vpn6 ..) => 24
  | some (.vpn6ll ..) => 48

/-- the numbers of the SAFIs. -/
def safiShown (s : Safi) : List Char := "SAFI: ".toList ++ num s.toU8.toNat

/-- the family has plain prefixes, and whether they have path identifiers is as configured: no prefix was read with an
identifier that the configuration does not announce. -/
def PlainPrefixes (addPath : Bool) (n : Nlri) : Prop :=
  (n.afi = .ipv4 ∨ n.afi = .ipv6) ∧ n.safi ≠ .mplsLabel ∧ ∀ p ∈ n.prefixes, p.pathId.isSome = addPath

instance (addPath : Bool) (n : Nlri) : Decidable (PlainPrefixes addPath n) := by unfold PlainPrefixes; infer_instance

/-- all the texts, if all are there. -/
def allOf (f : α → Option (List Char)) : List α → Option (List (List Char))
  | [] => some []
  | x :: xs => match f x, allOf f xs with
    | some t, some ts => some (t :: ts)
    | _, _ => none

/-- the lines shown for an attribute value, in order; `none` for the values this specification says nothing about. -/
def valueShown (env : ShowEnv) (addPath : Bool) : AttrVal → Option (List (List Char))
  | .origin o => some ["Origin: ".toList ++ (match o with
      | .igp => "IGP (0)" | .egp => "EGP (1)" | .incomplete => "INCOMPLETE (2)" : String).toList]
  | .asPath p => some (p.map segShown)
  | .as4Path p => some (p.map segShown)
  | .nextHop (.v4 a) => some ["Next hop: ".toList ++ v4Text a]
  | .med v => some ["Multi-exit discriminator: ".toList ++ num v.toNat]
  | .localPref v => some ["Local preference: ".toList ++ num v.toNat]
  | .otc a => some ["Only to customer: ".toList ++ num a.toNat]
  | .atomic => some []
  | .aggregator a i => some ["Aggregator ASN: ".toList ++ num a.toNat, "Aggregator router ID: ".toList ++ v4Text i]
  | .as4Aggregator a i => some ["Aggregator ASN: ".toList ++ num a.toNat, "Aggregator router ID: ".toList ++ v4Text i]
  | .communities cs => some (entries "Community" communityShown cs)
  | .extCommunities cs => (allOf extShown cs).map (entries "Extended community" id)
  | .ipv6ExtCommunities cs => some ((List.range cs.length).map fun i =>
      "IPv6 extended community [".toList ++ num (i + 1) ++ "]".toList)
  | .largeCommunities cs => some (entries "Large community" (fun c => num c.globalAdmin.toNat ++ ":".toList ++
      num c.local1.toNat ++ ":".toList ++ num c.local2.toNat) cs)
  | .originatorId i => some ["Originator ID: ".toList ++ v4Text i]
  | .clusters cs => some (entries "Cluster ID" (fun c => num c.toNat) cs)
  | .aigp ts => some (ts.map fun t =>
      "AIGP TLV: type ".toList ++ num t.type.toNat ++ ", ".toList ++ num (3 + t.value.length) ++ " bytes".toList)
  | .mpReach n =>
    if PlainPrefixes addPath n then
      some ([afiShown n.afi, safiShown n.safi, "Next hop length: ".toList ++ num (hopLen n.nextHop)] ++
        (if n.nextHop = none then [] else ["Next hop (".toList ++ num (hopLen n.nextHop) ++ " bytes)".toList]) ++
        ["Reserved".toList] ++ n.prefixes.map (NetworkPrefix.text env))
    else none
  | .mpUnreach n =>
    if PlainPrefixes addPath n then
      some (["AFI: ".toList ++ num n.afi.toU16.toNat, safiShown n.safi] ++ n.prefixes.map (NetworkPrefix.text env))
    else none
  | _ => none

end Verif.Spec
