import Verif.Model.JsonAttrs
import Verif.Spec.Json
/-
When path attributes, UPDATE messages, RIB entries and announcements survive being written as JSON.
-/
namespace Verif.Spec

/-! ### what the types of the code guarantee -/

/-- A prefix is no longer than its address (`IpNet`). -/
def NetOk (n : IpNet) : Prop := n.len.toNat ≤ n.addr.maxLen

/-- A map of link-state attributes: keys of the enum, each once. -/
def LsMapOk (codes : List UInt16) (m : List (UInt16 × Bytes)) : Prop := (m.map (·.1)).Nodup ∧ ∀ e ∈ m, e.1 ∈ codes

/-- A link-state NLRI: types of the enums, and prefixes. -/
def LsNlriOk (n : LsNlri) : Prop :=
  n.type.toNat ≤ 7 ∧ n.proto.toNat ≤ 9 ∧ ∀ d, n.pfx = some d → ∀ p, d.reach = some p → NetOk p.prefix_

/-- A component of a flow specification: prefixes. -/
def FsNetOk : FsComp → Prop
  | .dstPrefix p | .srcPrefix p | .dstPrefix6 _ p | .srcPrefix6 _ p => NetOk p.prefix_
  | .numeric _ _ | .bitmask _ _ => True

/-- Reachability information: prefixes, labels of 20 bits, link-state NLRI and flow specifications. -/
structure NlriOk (n : Nlri) : Prop where
  prefixes : ∀ p ∈ n.prefixes, NetOk p.prefix_
  labeled : ∀ ps, n.labeled = some ps → ∀ p ∈ ps, NetOk p.prefix_ ∧ ∀ l ∈ p.labels, l.toNat < 2 ^ 20
  linkState : ∀ ps, n.linkState = some ps → ∀ p ∈ ps, LsNlriOk p
  flowspec : ∀ fs, n.flowspec = some fs → ∀ f ∈ fs, ∀ c ∈ f, FsNetOk c

/-- What holds of a value because of its type in the code: enums, prefixes, labels of 20 bits. ATTR_SET, which no parser makes,
is excluded. -/
def ValueOk : AttrVal → Prop
  | .mpReach n | .mpUnreach n => NlriOk n
  | .linkState a => LsMapOk (0 :: nodeAttrCodes) a.node ∧ LsMapOk (0 :: linkAttrCodes) a.link ∧ LsMapOk (0 :: prefixAttrCodes) a.pfx
  | .tunnel ts => ∀ t ∈ ts, t.type.toNat ≤ 22 ∧ ∀ s ∈ t.subs, s.type.toNat ≤ 20 ∨ s.type = 128 ∨ s.type = 129
  | .attrSet _ _ => False
  | _ => True

/-- the same for each attribute. -/
def AttributesOk (a : Attributes) : Prop := ∀ x ∈ a.inner, ValueOk x.value

/-- the same for an UPDATE message. -/
structure UpdateTyped (m : Update) : Prop where
  withdrawn : ∀ p ∈ m.withdrawn, NetOk p.prefix_
  attributes : AttributesOk m.attributes
  announced : ∀ p ∈ m.announced, NetOk p.prefix_

/-- the same for an announcement. -/
def MrtUpdateTyped : MrtUpdate → Prop
  | .bgp4mp _ _ _ m | .legacy _ _ _ _ _ m => UpdateTyped m
  | .rib _ _ _ p es => NetOk p.prefix_ ∧ ∀ e ∈ es, AttributesOk e.attributes
  | .tableDump m => NetOk m.prefix_.prefix_ ∧ AttributesOk m.attributes

/-! ### what JSON loses -/

/-- the `f32`s in a value, as their bits. -/
def valueFloats : AttrVal → List UInt32
  | .extCommunities cs => cs.filterMap fun c => communityFloat (.extended c)
  | .trafficEng t => t.bandwidth.toList
  | _ => []

/-- the AS path of a value. -/
def valuePath : AttrVal → Option AsPath
  | .asPath p | .as4Path p => some p
  | _ => none

/-- All numbers in the attributes are neither infinite nor NaN. -/
def FloatsFinite (a : Attributes) : Prop := ∀ x ∈ a.inner, ∀ r ∈ valueFloats x.value, FiniteF32 r

open Classical in
/-- the path that is read of a path that was written: in the flat form the sequences without AS numbers are lost. -/
noncomputable def pathRead (p : AsPath) : AsPath := if Flat p then p.filter fun s => s ≠ .seq [] else p

/-- the value that is read. -/
noncomputable def valueRead : AttrVal → AttrVal
  | .asPath p => .asPath (pathRead p)
  | .as4Path p => .as4Path (pathRead p)
  | v => v

/-- the attributes that are read: the values, the flags, and the set of types of the attributes; no warnings. -/
noncomputable def attributesRead (a : Attributes) : Attributes :=
  { inner := a.inner.map fun x => { x with value := valueRead x.value }
    warnings := []
    mask := Attributes.computeMask a.inner }

/-- What is assumed of `serde_json` for `f32`: a finite number is read as it was written; for the others null is written, which
is not read as a number. -/
structure FloatOk (env : JsonEnv) : Prop extends NullForNaN env where
  finite : ∀ r, FiniteF32 r → env.f32Of (env.f32 r) = some r

/-- the attributes of each message replaced. -/
def onUpdate (f : Attributes → Attributes) (m : Update) : Update := { m with attributes := f m.attributes }
def onRibEntry (f : Attributes → Attributes) (e : RibEntry) : RibEntry := { e with attributes := f e.attributes }
def onMrtUpdate (f : Attributes → Attributes) : MrtUpdate → MrtUpdate
  | .bgp4mp t i n m => .bgp4mp t i n (onUpdate f m)
  | .legacy t i n li ln m => .legacy t i n li ln (onUpdate f m)
  | .rib t y s p es => .rib t y s p (es.map (onRibEntry f))
  | .tableDump m => .tableDump { m with attributes := f m.attributes }

/-- the attribute lists in an announcement. -/
def mrtAttributeLists : MrtUpdate → List Attributes
  | .bgp4mp _ _ _ m | .legacy _ _ _ _ _ m => [m.attributes]
  | .rib _ _ _ _ es => es.map (·.attributes)
  | .tableDump m => [m.attributes]

/-- The attributes that JSON keeps: finite numbers, no warnings of the parser, a set of types that is that of the attributes, and
paths that are kept (C79). -/
structure AttrsKept (a : Attributes) : Prop where
  floats : FloatsFinite a
  warnings : a.warnings = []
  mask : a.mask = Attributes.computeMask a.inner
  paths : ∀ x ∈ a.inner, PathKept (valuePath x.value)

/-! ### documents -/

/-- the names of attribute values in JSON. -/
def valueName : AttrVal → String
  | .origin _ => "Origin" | .asPath _ => "AsPath" | .as4Path _ => "As4Path" | .nextHop _ => "NextHop"
  | .med _ => "MultiExitDiscriminator" | .localPref _ => "LocalPreference" | .otc _ => "OnlyToCustomer"
  | .atomic => "AtomicAggregate" | .aggregator _ _ => "Aggregator" | .as4Aggregator _ _ => "As4Aggregator"
  | .communities _ => "Communities" | .extCommunities _ => "ExtendedCommunities"
  | .ipv6ExtCommunities _ => "Ipv6AddressSpecificExtendedCommunities" | .largeCommunities _ => "LargeCommunities"
  | .originatorId _ => "OriginatorId" | .clusters _ => "Clusters" | .mpReach _ => "MpReachNlri" | .mpUnreach _ => "MpUnreachNlri"
  | .linkState _ => "LinkState" | .tunnel _ => "TunnelEncapsulation" | .trafficEng _ => "TrafficEngineering"
  | .bfd _ => "BfdDiscriminator" | .prefixSid _ => "BgpPrefixSid" | .bier _ => "Bier" | .sfp _ => "Sfp"
  | .development _ => "Development" | .raw _ _ => "Raw" | .deprecated _ _ => "Deprecated" | .unknown _ _ => "Unknown"
  | .aigp _ => "Aigp" | .attrSet _ _ => "AttrSet"

/-- the names of the flags of RFC 4271, from the high bit. -/
def flagWords (f : UInt8) : List String :=
  (if f.toNat ≥ 128 then ["OPTIONAL"] else []) ++ (if f.toNat / 64 % 2 = 1 then ["TRANSITIVE"] else []) ++
    (if f.toNat / 32 % 2 = 1 then ["PARTIAL"] else []) ++ (if f.toNat / 16 % 2 = 1 then ["EXTENDED"] else [])

/-- the bits that have no name, as a hexadecimal number. -/
def flagRest (f : UInt8) : List String :=
  if f.toNat % 16 = 0 then [] else ["0x" ++ String.ofList (Nat.toDigits 16 (f.toNat % 16))]

/-- the names of address families and types of RIB records in JSON. -/
def afiWord : Afi → String
  | .ipv4 => "Ipv4" | .ipv6 => "Ipv6" | .linkState => "LinkState"
def safiWord : Safi → String
  | .unicast => "Unicast" | .multicast => "Multicast" | .unicastMulticast => "UnicastMulticast" | .mplsLabel => "MplsLabel"
  | .linkState => "LinkState" | .linkStateVpn => "LinkStateVpn" | .mplsVpn => "MplsVpn" | .multicastVpn => "MulticastVpn"
  | .flowSpec => "FlowSpec" | .flowSpecL3Vpn => "FlowSpecL3Vpn"
def ribWord : V2Type → String
  | .peerIndexTable => "PeerIndexTable" | .v4Uni => "RibIpv4Unicast" | .v4Multi => "RibIpv4Multicast" | .v6Uni => "RibIpv6Unicast"
  | .v6Multi => "RibIpv6Multicast" | .generic => "RibGeneric" | .geo => "GeoPeerTable" | .v4UniAp => "RibIpv4UnicastAddPath"
  | .v4MultiAp => "RibIpv4MulticastAddPath" | .v6UniAp => "RibIpv6UnicastAddPath" | .v6MultiAp => "RibIpv6MulticastAddPath"
  | .genericAp => "RibGenericAddPath"

/-- Where a document has a variant: the name and the content. -/
def IsVariant (j : Json) (name : String) : Prop := j = .str name ∨ ∃ c, j = .obj [(name, c)]

end Verif.Spec
