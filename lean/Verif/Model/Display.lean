import Verif.Model.Filter
/-
Text output of elements and their fields (`Display`), PSV lines, parsing of AS numbers, and the order of elements.
A text is the list of its characters.
-/
namespace Verif

/-- The output functions of std that are not modelled, as arbitrary functions: `Display` of `Ipv6Addr`, of the `f64` nearest to a
number of microseconds, and of an `f32` given by its bits. -/
structure ShowEnv where
  v6 : V6 → List Char
  time : Nat → List Char
  f32 : UInt32 → List Char

/-- `Display` of the unsigned integers (std). -/
def decText (n : Nat) : List Char := Nat.toDigits 10 n

/-- the characters of a literal. -/
def lit (s : String) : List Char := s.toList

/-- texts with a separator between them (`join`). -/
def joinSep (sep : List Char) : List (List Char) → List Char
  | [] => []
  | [x] => x
  | x :: y :: r => x ++ sep ++ joinSep sep (y :: r)

/-- a hexadecimal digit of `{:X}` (std). -/
def hexUpper (n : Nat) : Char := if n < 10 then Char.ofNat (48 + n) else Char.ofNat (55 + n)

/-- `ToHexString` (community.rs 334-343). -/
def hexText (bs : Bytes) : List Char := bs.flatMap fun b => [hexUpper (b.toNat / 16), hexUpper (b.toNat % 16)]

/-- `Display` of `Ipv4Addr` (std). -/
def v4Text (a : V4) : List Char := joinSep ['.'] (a.toList.map fun b => decText b.toNat)

/-- `Display` of `IpAddr` (std). -/
def Ip.text (env : ShowEnv) : Ip → List Char
  | .v4 a => v4Text a
  | .v6 a => env.v6 a

/-- `Display` of `IpNet` (ipnet). -/
def IpNet.text (env : ShowEnv) (n : IpNet) : List Char := n.addr.text env ++ ['/'] ++ decText n.len.toNat

/-- `Display for NetworkPrefix` (prefix.rs 93-97). -/
def NetworkPrefix.text (env : ShowEnv) (p : NetworkPrefix) : List Char := p.prefix_.text env

/-- `Debug for NetworkPrefix` (prefix.rs 16-23). -/
def NetworkPrefix.debugText (env : ShowEnv) (p : NetworkPrefix) : List Char :=
  match p.pathId with
  | some i => p.prefix_.text env ++ ['#'] ++ decText i.toNat
  | none => p.prefix_.text env

/-- `Display for Asn` (asn.rs 261-265). -/
def asnText (a : Asn) : List Char := decText a.toNat

/-- `FromStr for Asn` (asn.rs 274-285). -/
def asnParse (s : List Char) : Option Asn :=
  match s with
  | 'A' :: 'S' :: r => parseU32 r
  | _ => parseU32 s

/-- one segment of `Display for AsPath` (aspath.rs 793-816). -/
def segText : Seg → List Char
  | .seq xs => joinSep [' '] (xs.map asnText)
  | .confedSeq xs => joinSep [' '] (xs.map asnText)
  | .set xs => ['{'] ++ joinSep [','] (xs.map asnText) ++ ['}']
  | .confedSet xs => ['{'] ++ joinSep [','] (xs.map asnText) ++ ['}']

/-- `Display for AsPath` (aspath.rs 786-821). -/
def asPathText (p : AsPath) : List Char := joinSep [' '] (p.map segText)

/-- `Display for Origin` (origin.rs 18-26). -/
def originName : Origin → List Char
  | .igp => lit "IGP"
  | .egp => lit "EGP"
  | .incomplete => lit "INCOMPLETE"

/-- `Display for Community` (community.rs 345-354). -/
def plainText : Community → List Char
  | .noExport => lit "no-export"
  | .noAdvertise => lit "no-advertise"
  | .noExportSubConfed => lit "no-export-sub-confed"
  | .custom a v => asnText a ++ [':'] ++ decText v.toNat

/-- `Display for LargeCommunity` (community.rs 356-364). -/
def largeText (c : LargeCommunity) : List Char :=
  decText c.globalAdmin.toNat ++ [':'] ++ decText c.local1.toNat ++ [':'] ++ decText c.local2.toNat

/-- texts with colons between them, as in `write!(f, "{}:{}:{}", ..)`. -/
def colons (xs : List (List Char)) : List Char := joinSep [':'] xs

/-- `Display for ExtendedCommunity` (community.rs 366-447). -/
def extText (env : ShowEnv) (c : ExtCommunity) : List Char :=
  let ty := decText c.type.toU8.toNat
  match c with
  | .twoOctetAs st a l | .ntTwoOctetAs st a l => colons [ty, decText st.toNat, asnText a, hexText l.toList]
  | .ipv4Addr st a l | .ntIpv4Addr st a l => colons [ty, decText st.toNat, v4Text a, hexText l.toList]
  | .fourOctetAs st a l | .ntFourOctetAs st a l => colons [ty, decText st.toNat, asnText a, hexText l.toList]
  | .opaq st v | .ntOpaque st v => colons [ty, decText st.toNat, hexText v.toList]
  | .trafficRate a r => lit "rate:" ++ env.f32 r ++ lit " bytes/sec (AS " ++ decText a.toNat ++ lit ")"
  | .trafficAction a t s =>
    lit "action:" ++ joinSep [','] ((if t then [lit "terminal"] else []) ++ (if s then [lit "sample"] else [])) ++
      lit " (AS " ++ decText a.toNat ++ lit ")"
  | .redirect _ a l => lit "redirect:AS" ++ asnText a ++ [':'] ++ hexText l.toList
  | .trafficMarking a d => lit "mark:DSCP" ++ decText d.toNat ++ lit " (AS " ++ decText a.toNat ++ lit ")"
  | .linkBandwidth g b _ => colons [ty, decText 4, decText g.toNat, env.f32 b]
  | .raw b => hexText b.toList

/-- `Display for Ipv6AddrExtCommunity` (community.rs 449-460). -/
def ipv6ExtText (env : ShowEnv) (c : Ipv6ExtCommunity) : List Char :=
  colons [decText c.type.toU8.toNat, decText c.subtype.toNat, env.v6 c.addr, hexText c.loc.toList]

/-- `Display for MetaCommunity` (community.rs 462-471). -/
def communityText (env : ShowEnv) : MetaCommunity → List Char
  | .plain c => plainText c
  | .extended c => extText env c
  | .large c => largeText c
  | .ipv6Extended c => ipv6ExtText env c

/-- `OptionToStr` (elem.rs 257-266). -/
def optText (f : α → List Char) : Option α → List Char
  | none => []
  | some x => f x

/-- `option_to_string_communities` (elem.rs 291-298), and `OptionToStrVec` (elem.rs 273-289). -/
def optListText (f : α → List Char) : Option (List α) → List Char
  | none => []
  | some xs => joinSep [' '] (xs.map f)

/-- the letter of the type (elem.rs 302-305). -/
def typeText : ElemType → List Char
  | .announce => ['A']
  | .withdraw => ['W']

/-- `Display` of `bool` (std). -/
def boolText (b : Bool) : List Char := if b then lit "true" else lit "false"

/-- `Display for BgpElem` (elem.rs 300-325). -/
def BgpElem.text (env : ShowEnv) (e : BgpElem) : List Char :=
  joinSep ['|'] [typeText e.type, env.time e.time, e.peerIp.text env, asnText e.peerAsn, e.prefix_.text env, optText asPathText e.asPath,
    optText originName e.origin, optText (Ip.text env) e.nextHop, optText (fun n => decText n.toNat) e.localPref,
    optText (fun n => decText n.toNat) e.med, optListText (communityText env) e.communities, boolText e.atomic,
    optText asnText e.aggrAsn, optText v4Text e.aggrIp]

/-- `Display for BgpRouteElem` (elem.rs 327-345). -/
def RouteElem.text (env : ShowEnv) (e : RouteElem) : List Char :=
  joinSep ['|'] [typeText e.type, env.time e.time, e.peerIp.text env, asnText e.peerAsn, e.prefix_.text env, optText asPathText e.asPath]

/-- `get_psv_header` (elem.rs 376-397). -/
def psvHeader : List Char :=
  joinSep ['|'] (["type", "timestamp", "peer_ip", "peer_asn", "prefix", "as_path", "origin_asns", "origin", "next_hop", "local_pref",
    "med", "communities", "atomic", "aggr_asn", "aggr_ip", "only_to_customer"].map lit)

/-- `to_psv` (elem.rs 413-438). -/
def BgpElem.psv (env : ShowEnv) (e : BgpElem) : List Char :=
  joinSep ['|'] [typeText e.type, env.time e.time, e.peerIp.text env, asnText e.peerAsn, e.prefix_.text env, optText asPathText e.asPath,
    optListText asnText e.originAsns, optText originName e.origin, optText (Ip.text env) e.nextHop,
    optText (fun n => decText n.toNat) e.localPref, optText (fun n => decText n.toNat) e.med,
    optListText (communityText env) e.communities, boolText e.atomic, optText asnText e.aggrAsn, optText v4Text e.aggrIp,
    optText asnText e.otc]

/-- `get_origin_asn_opt` (elem.rs 357-360). -/
def BgpElem.originAsnOpt (e : BgpElem) : Option UInt32 :=
  match e.originAsns with
  | none => none
  | some xs => if xs.length = 1 then xs.head? else none

/-- comparison of octets (std: lexicographic order of arrays). -/
def cmpOctets : Bytes → Bytes → Ordering
  | [], [] => .eq
  | [], _ :: _ => .lt
  | _ :: _, [] => .gt
  | a :: as, b :: bs => if a < b then .lt else if b < a then .gt else cmpOctets as bs

/-- `Ord for IpAddr` (std): IPv4 before IPv6, then the octets. -/
def Ip.cmp : Ip → Ip → Ordering
  | .v4 a, .v4 b => cmpOctets a.toList b.toList
  | .v4 _, .v6 _ => .lt
  | .v6 _, .v4 _ => .gt
  | .v6 a, .v6 b => cmpOctets a.toList b.toList

/-- `f64::partial_cmp` (std) of two times, given in microseconds; the `f64`s are in the same order (C62). -/
def cmpTime (a b : Nat) : Ordering := if a < b then .lt else if b < a then .gt else .eq

/-- `Ord for BgpElem` (elem.rs 203-210). -/
def BgpElem.cmp (a b : BgpElem) : Ordering := (cmpTime a.time b.time).then (a.peerIp.cmp b.peerIp)

/-- `Ord for BgpRouteElem` (elem.rs 212-219). -/
def RouteElem.cmp (a b : RouteElem) : Ordering := (cmpTime a.time b.time).then (a.peerIp.cmp b.peerIp)

end Verif
