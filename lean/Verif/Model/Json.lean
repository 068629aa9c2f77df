import Verif.Model.Display
/-
JSON of AS paths, prefixes, communities and elements: the `serde` implementations of the models. A JSON document is a value of
`Json`; the step between text and value (`serde_json`) is not modelled. Only whether a document is accepted is modelled, not
the wording of errors.
-/
namespace Verif

/-- A JSON value as `serde_json` presents it to a `Deserializer`: integers that fit 64 bits, other numbers as the `f64` read,
objects with their entries in order (keys may repeat). -/
inductive Json where
  | null
  | bool (b : Bool)
  | int (z : Int)
  | float (x : Rat)
  | str (s : String)
  | arr (xs : List Json)
  | obj (kvs : List (String × Json))

namespace Json

/-- an unsigned integer below a bound (serde's `u8`, `u16`, `u32`). -/
def natBelow (bound : Nat) : Json → Option Nat
  | .int (.ofNat n) => if n < bound then some n else none
  | _ => none

/-- `u8::deserialize`. -/
def u8 (j : Json) : Option UInt8 := (j.natBelow 256).map UInt8.ofNat
/-- `u16::deserialize`. -/
def u16 (j : Json) : Option UInt16 := (j.natBelow 65536).map UInt16.ofNat
/-- `u32::deserialize`; also `Asn::deserialize` (`serde(from = "u32")`, src/models/network/asn.rs 33-42). -/
def u32 (j : Json) : Option UInt32 := (j.natBelow 4294967296).map UInt32.ofNat

/-- `bool::deserialize`. -/
def boolean : Json → Option Bool
  | .bool b => some b
  | _ => none

/-- `String::deserialize`. -/
def string : Json → Option String
  | .str s => some s
  | _ => none

/-- a type read from a string by `FromStr`. -/
def viaText (f : List Char → Option α) : Json → Option α
  | .str s => f s.toList
  | _ => none

/-- `Vec::<T>::deserialize`. -/
def list (f : Json → Option α) : Json → Option (List α)
  | .arr xs => xs.mapM f
  | _ => none

/-- `<[u8; n]>::deserialize`. -/
def octets (n : Nat) (j : Json) : Option (Vector UInt8 n) :=
  match j.list u8 with
  | some bs => if h : bs.length = n then some ⟨bs.toArray, by simpa using h⟩ else none
  | none => none

/-- the value of a key: at most one entry may have it (derived `Deserialize`: "duplicate field"). -/
def entry (kvs : List (String × Json)) (k : String) : Option (Option Json) :=
  match kvs.filter (fun kv => kv.1 == k) with
  | [] => some none
  | [kv] => some (some kv.2)
  | _ => none

/-- the fields of a struct with a derived `Deserialize`: from an object, in any order and ignoring other keys, or from an array
with as many values. -/
def fields (names : List String) : Json → Option (List (Option Json))
  | .obj kvs => names.mapM (entry kvs)
  | .arr xs => if xs.length = names.length then some (xs.map some) else none
  | _ => none

/-- a required field. -/
def req (f : Json → Option α) : Option Json → Option α
  | some j => f j
  | none => none

/-- an `Option` field: `None` if missing or null. -/
def opt (f : Json → Option α) : Option Json → Option (Option α)
  | none => some none
  | some .null => some none
  | some j => (f j).map some

/-- the variant of an externally tagged enum (derived `Deserialize`): its name, or an object with the name as its only key. -/
def variant : Json → Option (String × Option Json)
  | .str s => some (s, none)
  | .obj [(k, v)] => some (k, some v)
  | _ => none

/-- a variant without content. -/
def isUnit : Option Json → Bool
  | none => true
  | some .null => true
  | _ => false

end Json

/-- The conversions of std and serde_json that are not modelled, as arbitrary functions: output and parsing of addresses, the
timestamps of elements, and `f32` numbers given by their bits. -/
structure JsonEnv where
  out : ShowEnv
  ip : List Char → Option Ip
  v4 : List Char → Option V4
  v6 : List Char → Option V6
  net : List Char → Option IpNet
  time : Nat → Json
  timeOf : Json → Option Nat
  f32 : UInt32 → Json
  f32Of : Json → Option UInt32

/-! ### writing -/

/-- a text. -/
def textJson (t : List Char) : Json := .str (String.ofList t)

/-- a number. -/
def natJson (n : Nat) : Json := .int n

/-- `Asn::serialize` (`serde(into = "u32")`, asn.rs 33-42). -/
def asnJson (a : Asn) : Json := natJson a.toNat

/-- `Option::serialize`. -/
def optJson (f : α → Json) : Option α → Json
  | none => .null
  | some x => f x

/-- the names of `SegmentType` (src/models/bgp/attributes/aspath.rs 834-840). -/
def segTypeName : Seg → String
  | .seq _ => "AS_SEQUENCE"
  | .set _ => "AS_SET"
  | .confedSeq _ => "AS_CONFED_SEQUENCE"
  | .confedSet _ => "AS_CONFED_SET"

/-- `Serialize for AsPathSegment` (aspath.rs 848-867). -/
def segJson (s : Seg) : Json := .obj [("ty", .str (segTypeName s)), ("values", .arr (s.asns.map asnJson))]

/-- `simplified_format_len` (aspath.rs 890-908). -/
def simplifiedLen : List Seg → Bool → Nat → Option Nat
  | [], _, n => some n
  | .seq xs :: r, false, n => simplifiedLen r true (n + xs.length)
  | .set _ :: r, _, n => simplifiedLen r false (n + 1)
  | _ :: _, _, _ => none

/-- one segment in the simplified format (aspath.rs 963-972). -/
def segSimple : Seg → List Json
  | .seq xs => xs.map asnJson
  | s => [.arr (s.asns.map asnJson)]

/-- `Serialize for AsPath` (aspath.rs 953-979). -/
def asPathJson (p : AsPath) : Json :=
  match simplifiedLen p false 0 with
  | some _ => .arr (p.flatMap segSimple)
  | none => .arr (p.map segJson)

/-- `Serialize for NetworkPrefix` (src/models/network/prefix.rs 111-125). -/
def prefixJson (env : JsonEnv) (p : NetworkPrefix) : Json :=
  match p.pathId with
  | some i => .obj [("prefix", textJson (p.prefix_.text env.out)), ("path_id", natJson i.toNat)]
  | none => textJson (p.prefix_.text env.out)

/-- `Serialize for Origin` (derived; src/models/bgp/attributes/origin.rs 4-16). -/
def originJson : Origin → Json
  | .igp => .str "IGP"
  | .egp => .str "EGP"
  | .incomplete => .str "INCOMPLETE"

/-- `Serialize for ElemType` (derived; src/models/bgp/elem.rs 41-47. `rename = "lowercase"` names the type, not the variants). -/
def elemTypeJson : ElemType → Json
  | .announce => .str "ANNOUNCE"
  | .withdraw => .str "WITHDRAW"

/-- `[u8; n]` and `Bytes`. -/
def bytesJson (bs : Bytes) : Json := .arr (bs.map fun b => natJson b.toNat)

/-- `Serialize for Community` (derived; src/models/bgp/community.rs 16-24). -/
def plainJson : Community → Json
  | .noExport => .str "NoExport"
  | .noAdvertise => .str "NoAdvertise"
  | .noExportSubConfed => .str "NoExportSubConfed"
  | .custom a v => .obj [("Custom", .arr [asnJson a, natJson v.toNat])]

/-- `Serialize for LargeCommunity` (derived; community.rs 31-37). -/
def largeJson (c : LargeCommunity) : Json :=
  .obj [("global_admin", natJson c.globalAdmin.toNat), ("local_data", .arr [natJson c.local1.toNat, natJson c.local2.toNat])]

/-- `Serialize for ExtendedCommunityType` (derived; community.rs 49-72). -/
def extTypeJson : ExtType → Json
  | .twoOctetAs => .str "TransitiveTwoOctetAs"
  | .ipv4Addr => .str "TransitiveIpv4Addr"
  | .fourOctetAs => .str "TransitiveFourOctetAs"
  | .opaq => .str "TransitiveOpaque"
  | .ntTwoOctetAs => .str "NonTransitiveTwoOctetAs"
  | .ntIpv4Addr => .str "NonTransitiveIpv4Addr"
  | .ntFourOctetAs => .str "NonTransitiveFourOctetAs"
  | .ntOpaque => .str "NonTransitiveOpaque"
  | .unknown c => .obj [("Unknown", natJson c.toNat)]

/-- `TwoOctetAsExtCommunity` and `FourOctetAsExtCommunity` (derived; community.rs 165-187). -/
def asExtJson (st : UInt8) (a : Asn) (l : Bytes) : Json :=
  .obj [("subtype", natJson st.toNat), ("global_admin", asnJson a), ("local_admin", bytesJson l)]

/-- `Ipv4AddrExtCommunity` (derived; community.rs 192-200). -/
def v4ExtJson (st : UInt8) (a : V4) (l : Bytes) : Json :=
  .obj [("subtype", natJson st.toNat), ("global_admin", textJson (v4Text a)), ("local_admin", bytesJson l)]

/-- `OpaqueExtCommunity` (derived; community.rs 205-212). -/
def opaqueExtJson (st : UInt8) (v : Bytes) : Json := .obj [("subtype", natJson st.toNat), ("value", bytesJson v)]

/-- `Serialize for ExtendedCommunity` (derived; community.rs 97-122, and the structs 214-289). -/
def extJson (env : JsonEnv) : ExtCommunity → Json
  | .twoOctetAs st a l => .obj [("TransitiveTwoOctetAs", asExtJson st a l.toList)]
  | .ipv4Addr st a l => .obj [("TransitiveIpv4Addr", v4ExtJson st a l.toList)]
  | .fourOctetAs st a l => .obj [("TransitiveFourOctetAs", asExtJson st a l.toList)]
  | .opaq st v => .obj [("TransitiveOpaque", opaqueExtJson st v.toList)]
  | .ntTwoOctetAs st a l => .obj [("NonTransitiveTwoOctetAs", asExtJson st a l.toList)]
  | .ntIpv4Addr st a l => .obj [("NonTransitiveIpv4Addr", v4ExtJson st a l.toList)]
  | .ntFourOctetAs st a l => .obj [("NonTransitiveFourOctetAs", asExtJson st a l.toList)]
  | .ntOpaque st v => .obj [("NonTransitiveOpaque", opaqueExtJson st v.toList)]
  | .trafficRate a r => .obj [("FlowSpecTrafficRate", .obj [("as_number", natJson a.toNat), ("rate_bytes_per_sec", env.f32 r)])]
  | .trafficAction a t s =>
    .obj [("FlowSpecTrafficAction", .obj [("as_number", natJson a.toNat), ("terminal", .bool t), ("sample", .bool s)])]
  | .redirect st a l => .obj [("FlowSpecRedirect", asExtJson st a l.toList)]
  | .trafficMarking a d => .obj [("FlowSpecTrafficMarking", .obj [("as_number", natJson a.toNat), ("dscp", natJson d.toNat)])]
  | .linkBandwidth g b t =>
    .obj [("LinkBandwidth", .obj [("global_admin", natJson g.toNat), ("bandwidth", env.f32 b), ("transitive", .bool t)])]
  | .raw b => .obj [("Raw", bytesJson b.toList)]

/-- `Serialize for Ipv6AddrExtCommunity` (derived; community.rs 150-160). -/
def ipv6ExtJson (env : JsonEnv) (c : Ipv6ExtCommunity) : Json :=
  .obj [("community_type", extTypeJson c.type), ("subtype", natJson c.subtype.toNat), ("global_admin", textJson (env.out.v6 c.addr)),
    ("local_admin", bytesJson c.loc.toList)]

/-- `Serialize for MetaCommunity` (derived, untagged; community.rs 6-15). -/
def communityJson (env : JsonEnv) : MetaCommunity → Json
  | .plain c => plainJson c
  | .extended c => extJson env c
  | .ipv6Extended c => ipv6ExtJson env c
  | .large c => largeJson c

/-- `Serialize for AttrRaw` (derived; src/models/bgp/attributes/mod.rs 917-925). -/
def attrRawJson (a : AttrRaw) : Json := .obj [("code", natJson a.code.toNat), ("bytes", bytesJson a.bytes)]

/-- the keys of `BgpElem` (elem.rs 100-157). -/
def elemKeys : List String :=
  ["timestamp", "type", "peer_ip", "peer_asn", "peer_bgp_id", "prefix", "next_hop", "as_path", "origin_asns", "origin", "local_pref",
   "med", "communities", "atomic", "aggr_asn", "aggr_ip", "only_to_customer", "unknown", "deprecated"]

/-- `Serialize for BgpElem` (derived; elem.rs 100-157). -/
def elemJson (env : JsonEnv) (e : BgpElem) : Json :=
  .obj (elemKeys.zip
    [env.time e.time, elemTypeJson e.type, textJson (e.peerIp.text env.out), asnJson e.peerAsn,
     optJson (fun a => textJson (v4Text a)) e.peerBgpId, prefixJson env e.prefix_,
     optJson (fun a => textJson (a.text env.out)) e.nextHop, optJson asPathJson e.asPath,
     optJson (fun xs => .arr (xs.map asnJson)) e.originAsns, optJson originJson e.origin,
     optJson (fun n => natJson n.toNat) e.localPref, optJson (fun n => natJson n.toNat) e.med,
     optJson (fun cs => .arr (cs.map (communityJson env))) e.communities, .bool e.atomic,
     optJson asnJson e.aggrAsn, optJson (fun a => textJson (v4Text a)) e.aggrIp, optJson asnJson e.otc,
     optJson (fun xs => .arr (xs.map attrRawJson)) e.unknown, optJson (fun xs => .arr (xs.map attrRawJson)) e.deprecated])

/-- the keys of `BgpRouteElem` (elem.rs 165-186). -/
def routeKeys : List String := ["timestamp", "type", "peer_ip", "peer_asn", "prefix", "as_path"]

/-- `Serialize for BgpRouteElem` (derived; elem.rs 165-186). -/
def routeJson (env : JsonEnv) (e : RouteElem) : Json :=
  .obj (routeKeys.zip
    [env.time e.time, elemTypeJson e.type, textJson (e.peerIp.text env.out), asnJson e.peerAsn, prefixJson env e.prefix_,
     optJson asPathJson e.asPath])

/-! ### reading -/

/-- the variant of `SegmentType` (aspath.rs 834-840) and the match of `Deserialize for AsPathSegment` (aspath.rs 876-882). -/
def segOfType (name : String) (xs : List Asn) : Option Seg :=
  if name = "AS_SET" then some (.set xs)
  else if name = "AS_SEQUENCE" then some (.seq xs)
  else if name = "AS_CONFED_SEQUENCE" then some (.confedSeq xs)
  else if name = "AS_CONFED_SET" then some (.confedSet xs)
  else none

/-- `Deserialize for AsPathSegment` (aspath.rs 869-884) with `VerboseSegment` (842-846). -/
def segOfJson (j : Json) : Option Seg := do
  match ← Json.fields ["ty", "values"] j with
  | [ty, values] =>
    let (name, content) ← Json.req Json.variant ty
    let xs ← Json.req (Json.list Json.u32) values
    if Json.isUnit content then segOfType name xs else none
  | _ => none

/-- `PathElement` (aspath.rs 998-1004). -/
inductive PathItem where
  | hop (a : Asn)
  | set (xs : List Asn)
  | verbose (s : Seg)

/-- `PathElement::deserialize` (derived, untagged): the first variant that accepts the value. -/
def pathItemOf (j : Json) : Option PathItem :=
  match j.u32 with
  | some a => some (.hop a)
  | none =>
    match j.list Json.u32 with
    | some xs => some (.set xs)
    | none => (segOfJson j).map .verbose

/-- one round of the loop of `visit_seq` (aspath.rs 1008-1035). `append_new_sequence` is never set. -/
def pushItem (segs : List Seg) : PathItem → List Seg
  | .hop a =>
    match segs.getLast? with
    | some (.seq xs) => segs.dropLast ++ [.seq (xs ++ [a])]
    | _ => segs ++ [.seq [a]]
  | .set xs => segs ++ [.set xs]
  | .verbose s => segs ++ [s]

/-- `Deserialize for AsPath` (aspath.rs 981-1050). -/
def asPathOf (j : Json) : Option AsPath := (j.list pathItemOf).map fun items => items.foldl pushItem []

/-- `Deserialize for NetworkPrefix` (prefix.rs 127-142) with `SerdeNetworkPrefixRepr` (104-109): a string, or an object
without other keys. -/
def prefixOf (env : JsonEnv) (j : Json) : Option NetworkPrefix :=
  match j.viaText env.net with
  | some n => some ⟨n, none⟩
  | none =>
    match j with
    | .obj kvs =>
      if kvs.all (fun kv => kv.1 == "prefix" || kv.1 == "path_id") then do
        let n ← (← Json.entry kvs "prefix")
        let i ← (← Json.entry kvs "path_id")
        return ⟨← n.viaText env.net, some (← i.u32)⟩
      else none
    | _ => none

/-- `Deserialize for Origin` (derived; origin.rs 4-16). -/
def originOf (j : Json) : Option Origin := do
  let (name, content) ← j.variant
  if !Json.isUnit content then none
  else if name = "IGP" then some .igp
  else if name = "EGP" then some .egp
  else if name = "INCOMPLETE" then some .incomplete
  else none

/-- `Deserialize for ElemType` (derived; elem.rs 41-47). -/
def elemTypeOf (j : Json) : Option ElemType := do
  let (name, content) ← j.variant
  if !Json.isUnit content then none
  else if name = "ANNOUNCE" then some .announce
  else if name = "WITHDRAW" then some .withdraw
  else none

/-- `Bytes::deserialize` from an array. Simplification: the `bytes` crate also takes a string. -/
def bytesOf (j : Json) : Option Bytes := j.list Json.u8

/-- `Deserialize for Community` (derived; community.rs 16-24). -/
def plainOfJson (j : Json) : Option Community := do
  let (name, content) ← j.variant
  if name = "Custom" then
    match content with
    | some (.arr [a, v]) => return .custom (← a.u32) (← v.u16)
    | _ => none
  else if !Json.isUnit content then none
  else if name = "NoExport" then some .noExport
  else if name = "NoAdvertise" then some .noAdvertise
  else if name = "NoExportSubConfed" then some .noExportSubConfed
  else none

/-- `Deserialize for LargeCommunity` (derived; community.rs 31-37). -/
def largeOfJson (j : Json) : Option LargeCommunity := do
  match ← Json.fields ["global_admin", "local_data"] j with
  | [g, l] =>
    let g ← Json.req Json.u32 g
    match ← Json.req (Json.list Json.u32) l with
    | [a, b] => some ⟨g, a, b⟩
    | _ => none
  | _ => none

/-- `Deserialize for ExtendedCommunityType` (derived; community.rs 49-72). -/
def extTypeOf (j : Json) : Option ExtType := do
  let (name, content) ← j.variant
  if name = "Unknown" then return .unknown (← Json.req Json.u8 content)
  else if !Json.isUnit content then none
  else if name = "TransitiveTwoOctetAs" then some .twoOctetAs
  else if name = "TransitiveIpv4Addr" then some .ipv4Addr
  else if name = "TransitiveFourOctetAs" then some .fourOctetAs
  else if name = "TransitiveOpaque" then some .opaq
  else if name = "NonTransitiveTwoOctetAs" then some .ntTwoOctetAs
  else if name = "NonTransitiveIpv4Addr" then some .ntIpv4Addr
  else if name = "NonTransitiveFourOctetAs" then some .ntFourOctetAs
  else if name = "NonTransitiveOpaque" then some .ntOpaque
  else none

/-- `TwoOctetAsExtCommunity` and `FourOctetAsExtCommunity` (derived; community.rs 165-187). -/
def asExtOf (n : Nat) (f : UInt8 → Asn → Vector UInt8 n → ExtCommunity) (j : Json) : Option ExtCommunity := do
  match ← Json.fields ["subtype", "global_admin", "local_admin"] j with
  | [s, a, l] => return f (← Json.req Json.u8 s) (← Json.req Json.u32 a) (← Json.req (Json.octets n) l)
  | _ => none

/-- `Ipv4AddrExtCommunity` (derived; community.rs 192-200). -/
def v4ExtOf (env : JsonEnv) (f : UInt8 → V4 → Vector UInt8 2 → ExtCommunity) (j : Json) : Option ExtCommunity := do
  match ← Json.fields ["subtype", "global_admin", "local_admin"] j with
  | [s, a, l] => return f (← Json.req Json.u8 s) (← Json.req (Json.viaText env.v4) a) (← Json.req (Json.octets 2) l)
  | _ => none

/-- `OpaqueExtCommunity` (derived; community.rs 205-212). -/
def opaqueExtOf (f : UInt8 → Vector UInt8 6 → ExtCommunity) (j : Json) : Option ExtCommunity := do
  match ← Json.fields ["subtype", "value"] j with
  | [s, v] => return f (← Json.req Json.u8 s) (← Json.req (Json.octets 6) v)
  | _ => none

/-- `Deserialize for ExtendedCommunity` (derived; community.rs 97-122, and the structs 214-289). -/
def extOf (env : JsonEnv) (j : Json) : Option ExtCommunity := do
  let (name, content) ← j.variant
  let c ← content
  if name = "TransitiveTwoOctetAs" then asExtOf 4 .twoOctetAs c
  else if name = "TransitiveIpv4Addr" then v4ExtOf env .ipv4Addr c
  else if name = "TransitiveFourOctetAs" then asExtOf 2 .fourOctetAs c
  else if name = "TransitiveOpaque" then opaqueExtOf .opaq c
  else if name = "NonTransitiveTwoOctetAs" then asExtOf 4 .ntTwoOctetAs c
  else if name = "NonTransitiveIpv4Addr" then v4ExtOf env .ntIpv4Addr c
  else if name = "NonTransitiveFourOctetAs" then asExtOf 2 .ntFourOctetAs c
  else if name = "NonTransitiveOpaque" then opaqueExtOf .ntOpaque c
  else if name = "FlowSpecTrafficRate" then
    match ← Json.fields ["as_number", "rate_bytes_per_sec"] c with
    | [a, r] => return .trafficRate (← Json.req Json.u16 a) (← Json.req env.f32Of r)
    | _ => none
  else if name = "FlowSpecTrafficAction" then
    match ← Json.fields ["as_number", "terminal", "sample"] c with
    | [a, t, s] => return .trafficAction (← Json.req Json.u16 a) (← Json.req Json.boolean t) (← Json.req Json.boolean s)
    | _ => none
  else if name = "FlowSpecRedirect" then asExtOf 4 .redirect c
  else if name = "FlowSpecTrafficMarking" then
    match ← Json.fields ["as_number", "dscp"] c with
    | [a, d] => return .trafficMarking (← Json.req Json.u16 a) (← Json.req Json.u8 d)
    | _ => none
  else if name = "LinkBandwidth" then
    match ← Json.fields ["global_admin", "bandwidth", "transitive"] c with
    | [g, b, t] => return .linkBandwidth (← Json.req Json.u16 g) (← Json.req env.f32Of b) (← Json.req Json.boolean t)
    | _ => none
  else if name = "Raw" then return .raw (← c.octets 8)
  else none

/-- `Deserialize for Ipv6AddrExtCommunity` (derived; community.rs 150-160). -/
def ipv6ExtOf (env : JsonEnv) (j : Json) : Option Ipv6ExtCommunity := do
  match ← Json.fields ["community_type", "subtype", "global_admin", "local_admin"] j with
  | [t, s, a, l] =>
    return ⟨← Json.req extTypeOf t, ← Json.req Json.u8 s, ← Json.req (Json.viaText env.v6) a, ← Json.req (Json.octets 2) l⟩
  | _ => none

/-- `Deserialize for MetaCommunity` (derived, untagged; community.rs 6-15): the first kind that accepts the value. -/
def communityOf (env : JsonEnv) (j : Json) : Option MetaCommunity :=
  match plainOfJson j with
  | some c => some (.plain c)
  | none =>
    match extOf env j with
    | some c => some (.extended c)
    | none =>
      match ipv6ExtOf env j with
      | some c => some (.ipv6Extended c)
      | none => (largeOfJson j).map .large

/-- `Deserialize for AttrRaw` (derived; mod.rs 917-925). -/
def attrRawOf (j : Json) : Option AttrRaw := do
  match ← Json.fields ["code", "bytes"] j with
  | [c, b] => return ⟨← Json.req Json.u8 c, ← Json.req bytesOf b⟩
  | _ => none

/-- `Deserialize for BgpElem` (derived; elem.rs 100-157). -/
def elemOf (env : JsonEnv) (j : Json) : Option BgpElem := do
  match ← Json.fields elemKeys j with
  | [time, type, peerIp, peerAsn, peerBgpId, pfx, nextHop, asPath, originAsns, origin, localPref, med, communities, atomic,
     aggrAsn, aggrIp, otc, unknown, deprecated] =>
    return {
      time := ← Json.req env.timeOf time, type := ← Json.req elemTypeOf type, peerIp := ← Json.req (Json.viaText env.ip) peerIp,
      peerAsn := ← Json.req Json.u32 peerAsn, peerBgpId := ← Json.opt (Json.viaText env.v4) peerBgpId,
      prefix_ := ← Json.req (prefixOf env) pfx, nextHop := ← Json.opt (Json.viaText env.ip) nextHop,
      asPath := ← Json.opt asPathOf asPath, originAsns := ← Json.opt (Json.list Json.u32) originAsns,
      origin := ← Json.opt originOf origin, localPref := ← Json.opt Json.u32 localPref, med := ← Json.opt Json.u32 med,
      communities := ← Json.opt (Json.list (communityOf env)) communities, atomic := ← Json.req Json.boolean atomic,
      aggrAsn := ← Json.opt Json.u32 aggrAsn, aggrIp := ← Json.opt (Json.viaText env.v4) aggrIp, otc := ← Json.opt Json.u32 otc,
      unknown := ← Json.opt (Json.list attrRawOf) unknown, deprecated := ← Json.opt (Json.list attrRawOf) deprecated }
  | _ => none

/-- `Deserialize for BgpRouteElem` (derived; elem.rs 165-186). -/
def routeOfJson (env : JsonEnv) (j : Json) : Option RouteElem := do
  match ← Json.fields routeKeys j with
  | [time, type, peerIp, peerAsn, pfx, asPath] =>
    return {
      time := ← Json.req env.timeOf time, type := ← Json.req elemTypeOf type, peerIp := ← Json.req (Json.viaText env.ip) peerIp,
      peerAsn := ← Json.req Json.u32 peerAsn, prefix_ := ← Json.req (prefixOf env) pfx, asPath := ← Json.opt asPathOf asPath }
  | _ => none

end Verif
