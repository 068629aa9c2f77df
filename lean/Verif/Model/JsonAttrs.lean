import Verif.Model.Json
import Verif.Model.Updates
/-
JSON of path attributes, UPDATE messages, RIB entries and announcements: the `serde` implementations of the models, derived
except where noted. As in Model/Json.lean a document is a value of `Json`, and only whether it is accepted is modelled.
-/
namespace Verif

/-! ### helpers -/

/-- `u64::deserialize`. -/
def Json.u64 (j : Json) : Option UInt64 := (j.natBelow 18446744073709551616).map UInt64.ofNat

/-- a unit variant (derived `Serialize`): its name. The table has the variants by their discriminant (or value); nothing else
exists in the code. -/
def enumJson [BEq α] (table : List (α × String)) (x : α) : Json :=
  .str (((table.find? fun e => e.1 == x).map (·.2)).getD "")

/-- a unit variant (derived `Deserialize`). -/
def enumOf (table : List (α × String)) (j : Json) : Option α := do
  let (name, content) ← j.variant
  if !Json.isUnit content then none
  else (table.find? fun e => e.2 == name).map (·.1)

/-- a variant with content. -/
def tagJson (name : String) (j : Json) : Json := .obj [(name, j)]

/-- a tuple of two (derived, or std). -/
def pairOf (f : Json → Option α) (g : Json → Option β) : Json → Option (α × β)
  | .arr [x, y] => do return (← f x, ← g y)
  | _ => none

/-! ### flags -/

/-- the names of `AttrFlags` (src/models/bgp/attributes/mod.rs 48-53). -/
def flagNames : List (UInt8 × String) :=
  [(0x80, "OPTIONAL"), (0x40, "TRANSITIVE"), (0x20, "PARTIAL"), (0x10, "EXTENDED")]

/-- `bitflags::parser::to_writer` (bitflags 2, a dependency): the names of the flags set, then the other bits in hexadecimal,
joined by " | ". There are four other bits, hence one digit. -/
def flagsText (f : UInt8) : List Char :=
  let names := (flagNames.filter fun e => f &&& e.1 == e.1).map fun e => e.2.toList
  let rest := f &&& 0x0F
  let parts := names ++ (if rest = 0 then [] else [['0', 'x', Nat.digitChar rest.toNat]])
  " | ".toList.intercalate parts

/-- a hexadecimal digit. -/
def flagDigit (c : Char) : Option Nat :=
  if '0' ≤ c ∧ c ≤ '9' then some (c.toNat - 48)
  else if 'a' ≤ c ∧ c ≤ 'f' then some (c.toNat - 87)
  else if 'A' ≤ c ∧ c ≤ 'F' then some (c.toNat - 55)
  else none

/-- `u8::from_str_radix(_, 16)`. Simplification: a leading `+` is not accepted here. -/
def hexU8 (t : List Char) : Option UInt8 := do
  if t = [] then none
  else
    let ds ← t.mapM flagDigit
    let n := ds.foldl (fun a d => a * 16 + d) 0
    if n < 256 then some (UInt8.ofNat n) else none

/-- `str::trim`, for ASCII spaces. -/
def flagTrim (t : List Char) : List Char :=
  ((t.dropWhile Char.isWhitespace).reverse.dropWhile Char.isWhitespace).reverse

/-- `str::split('|')`. -/
def splitBar : List Char → List (List Char)
  | [] => [[]]
  | c :: r =>
    if c = '|' then [] :: splitBar r
    else match splitBar r with
      | [] => [[c]]
      | p :: ps => (c :: p) :: ps

/-- one flag of `bitflags::parser::from_str`. -/
def flagPart (t : List Char) : Option UInt8 :=
  match flagTrim t with
  | [] => none
  | '0' :: 'x' :: h => hexU8 h
  | n => (flagNames.find? fun e => e.2.toList == n).map (·.1)

/-- `bitflags::parser::from_str`: flags that are not named are kept (`from_bits_retain`). -/
def flagsOfText (t : List Char) : Option UInt8 :=
  if flagTrim t = [] then some 0
  else ((splitBar t).mapM flagPart).map fun fs => fs.foldl (· ||| ·) 0

/-! ### tables of names -/

/-- `Afi` (src/models/network/afi.rs 7-16). -/
def afiNames : List (Afi × String) := [(.ipv4, "Ipv4"), (.ipv6, "Ipv6"), (.linkState, "LinkState")]

/-- `Safi` (afi.rs 39-66). -/
def safiNames : List (Safi × String) :=
  [(.unicast, "Unicast"), (.multicast, "Multicast"), (.unicastMulticast, "UnicastMulticast"), (.mplsLabel, "MplsLabel"),
   (.linkState, "LinkState"), (.linkStateVpn, "LinkStateVpn"), (.mplsVpn, "MplsVpn"), (.multicastVpn, "MulticastVpn"),
   (.flowSpec, "FlowSpec"), (.flowSpecL3Vpn, "FlowSpecL3Vpn")]

/-- `NlriType` (src/models/bgp/linkstate.rs 9-22). -/
def nlriTypeNames : List (UInt16 × String) :=
  [(0, "Reserved"), (1, "Node"), (2, "Link"), (3, "Ipv4TopologyPrefix"), (4, "Ipv6TopologyPrefix"),
   (5, "SrPolicyCandidatePath"), (6, "Srv6Sid"), (7, "StubLink")]

/-- `ProtocolId` (linkstate.rs 25-40). -/
def protocolNames : List (UInt8 × String) :=
  [(0, "Reserved"), (1, "IsisL1"), (2, "IsisL2"), (3, "Ospfv2"), (4, "Direct"), (5, "Static"), (6, "Ospfv3"), (7, "Bgp"),
   (8, "RsvpTe"), (9, "SegmentRouting")]

/-- `NodeAttributeType` (linkstate.rs 82-100). -/
def nodeAttrNames : List (UInt16 × String) :=
  [(0, "Reserved"), (1024, "NodeFlagBits"), (1025, "OpaqueNodeAttribute"), (1026, "NodeName"), (1027, "IsisAreaIdentifier"),
   (1028, "Ipv4RouterIdOfLocalNode"), (1029, "Ipv6RouterIdOfLocalNode"), (1034, "SrCapabilities"), (1035, "SrAlgorithm"),
   (1036, "SrLocalBlock"), (1037, "SrmsPreference")]

/-- `LinkAttributeType` (linkstate.rs 101-146). -/
def linkAttrNames : List (UInt16 × String) :=
  [(0, "Reserved"), (1028, "Ipv4RouterIdOfLocalNode"), (1029, "Ipv6RouterIdOfLocalNode"), (1030, "Ipv4RouterIdOfRemoteNode"),
   (1031, "Ipv6RouterIdOfRemoteNode"), (1088, "AdministrativeGroup"), (1089, "MaximumLinkBandwidth"),
   (1090, "MaxReservableLinkBandwidth"), (1091, "UnreservedBandwidth"), (1092, "TeDefaultMetric"), (1093, "LinkProtectionType"),
   (1094, "MplsProtocolMask"), (1095, "IgpMetric"), (1096, "SharedRiskLinkGroups"), (1097, "OpaqueLinkAttribute"),
   (1098, "LinkName"), (1099, "SrAdjacencySid"), (1100, "SrLanAdjacencySid"), (1101, "PeerNodeSid"), (1102, "PeerAdjacencySid"),
   (1103, "PeerSetSid"), (1114, "UnidirectionalLinkDelay"), (1115, "MinMaxUnidirectionalLinkDelay"),
   (1116, "UnidirectionalDelayVariation"), (1117, "UnidirectionalLinkLoss"), (1118, "UnidirectionalResidualBandwidth"),
   (1119, "UnidirectionalAvailableBandwidth"), (1120, "UnidirectionalUtilizedBandwidth"), (1172, "L2BundleMemberAttributes"),
   (1122, "ApplicationSpecificLinkAttributes")]

/-- `PrefixAttributeType` (linkstate.rs 148-172). -/
def prefixAttrNames : List (UInt16 × String) :=
  [(0, "Reserved"), (1152, "IgpFlags"), (1153, "IgpRouteTag"), (1154, "IgpExtendedRouteTag"), (1155, "PrefixMetric"),
   (1156, "OspfForwardingAddress"), (1157, "OpaquePrefixAttribute"), (1158, "PrefixSid"), (1159, "RangeSid"),
   (1161, "SidLabelIndex"), (1162, "SidLabelBinding"), (1163, "Srv6LocatorTlv"), (1170, "PrefixAttributeFlags"),
   (1171, "SourceRouterIdentifier"), (1174, "SourceOspfRouterId")]

/-- `TunnelType` (src/models/bgp/tunnel_encap.rs 7-57). -/
def tunnelNames : List (UInt16 × String) :=
  [(0, "Reserved"), (1, "L2tpv3OverIp"), (2, "Gre"), (3, "TransmitTunnelEndpoint"), (4, "IpsecTunnelMode"),
   (5, "IpInIpWithIpsecTransport"), (6, "MplsInIpWithIpsecTransport"), (7, "IpInIp"), (8, "Vxlan"), (9, "Nvgre"), (10, "Mpls"),
   (11, "MplsInGre"), (12, "VxlanGpe"), (13, "MplsInUdp"), (14, "Ipv6Tunnel"), (15, "SrPolicy"), (16, "Bare"), (17, "SrTunnel"),
   (18, "CloudSecurity"), (19, "Geneve"), (20, "AnyEncapsulation"), (21, "GtpTunnel"), (22, "DpsTunnel")]

/-- `SubTlvType` (tunnel_encap.rs 60-110). -/
def subTlvNames : List (UInt8 × String) :=
  [(0, "Reserved"), (1, "Encapsulation"), (2, "ProtocolType"), (3, "IpsecTunnelAuthenticator"), (4, "Color"),
   (5, "LoadBalancingBlock"), (6, "TunnelEgressEndpoint"), (7, "DsField"), (8, "UdpDestinationPort"),
   (9, "EmbeddedLabelHandling"), (10, "MplsLabelStack"), (11, "PrefixSid"), (12, "Preference"), (13, "BindingSid"), (14, "Enlp"),
   (15, "Priority"), (16, "SpiSiRepresentation"), (17, "Ipv6SidStructure"), (18, "Ipv4Sid"), (19, "Ipv6Sid"),
   (20, "Srv6BindingSid"), (128, "SegmentList"), (129, "PolicyCandidatePathName")]

/-- `FlowSpecComponent`, the variants with numeric operators (src/models/bgp/flowspec/mod.rs 28-49). -/
def FsKindNum.jsonName : FsKindNum → String
  | .ipProtocol => "IpProtocol" | .port => "Port" | .destinationPort => "DestinationPort" | .sourcePort => "SourcePort"
  | .icmpType => "IcmpType" | .icmpCode => "IcmpCode" | .packetLength => "PacketLength" | .dscp => "Dscp"
  | .flowLabel => "FlowLabel"

/-- `FlowSpecComponent`, the variants with bitmask operators (flowspec/mod.rs 40-47). -/
def FsKindBit.jsonName : FsKindBit → String
  | .tcpFlags => "TcpFlags" | .fragment => "Fragment"

/-- `TableDumpV2Type` (src/models/mrt/table_dump_v2.rs 8-36). -/
def v2Names : List (V2Type × String) :=
  [(.peerIndexTable, "PeerIndexTable"), (.v4Uni, "RibIpv4Unicast"), (.v4Multi, "RibIpv4Multicast"),
   (.v6Uni, "RibIpv6Unicast"), (.v6Multi, "RibIpv6Multicast"), (.generic, "RibGeneric"),
   (.geo, "GeoPeerTable"), (.v4UniAp, "RibIpv4UnicastAddPath"),
   (.v4MultiAp, "RibIpv4MulticastAddPath"), (.v6UniAp, "RibIpv6UnicastAddPath"),
   (.v6MultiAp, "RibIpv6MulticastAddPath"), (.genericAp, "RibGenericAddPath")]

/-! ### TLVs -/

/-- `RawTlv8`, `RawTlv8Ext` (src/models/bgp/attributes/mod.rs 595-608). -/
def tlv8Json (t : Tlv8) : Json := .obj (["tlv_type", "value"].zip [natJson t.type.toNat, bytesJson t.value])
def tlv8Of (j : Json) : Option Tlv8 := do
  match ← Json.fields ["tlv_type", "value"] j with
  | [t, v] => return ⟨← Json.req Json.u8 t, ← Json.req bytesOf v⟩
  | _ => none

/-- `RawTlv16` (attributes/mod.rs 611-616), `Tlv` (linkstate.rs 175-180). -/
def tlv16Json (t : Tlv16) : Json := .obj (["tlv_type", "value"].zip [natJson t.type.toNat, bytesJson t.value])
def tlv16Of (j : Json) : Option Tlv16 := do
  match ← Json.fields ["tlv_type", "value"] j with
  | [t, v] => return ⟨← Json.req Json.u16 t, ← Json.req bytesOf v⟩
  | _ => none

/-- `AigpTlv` (attributes/mod.rs 551-558). -/
def aigpTlvJson (t : AigpTlv) : Json :=
  .obj (["tlv_type", "length", "value"].zip [natJson t.type.toNat, natJson t.length.toNat, bytesJson t.value])
def aigpTlvOf (j : Json) : Option AigpTlv := do
  match ← Json.fields ["tlv_type", "length", "value"] j with
  | [t, l, v] => return ⟨← Json.req Json.u8 t, ← Json.req Json.u16 l, ← Json.req bytesOf v⟩
  | _ => none

/-- `SubTlv` (tunnel_encap.rs 113-118). -/
def subTlvJson (t : Tlv8) : Json := .obj (["sub_tlv_type", "value"].zip [enumJson subTlvNames t.type, bytesJson t.value])
def subTlvOf (j : Json) : Option Tlv8 := do
  match ← Json.fields ["sub_tlv_type", "value"] j with
  | [t, v] => return ⟨← Json.req (enumOf subTlvNames) t, ← Json.req bytesOf v⟩
  | _ => none

/-- `TunnelEncapTlv` (tunnel_encap.rs 130-135). -/
def tunnelTlvJson (t : TunnelTlv) : Json :=
  .obj (["tunnel_type", "sub_tlvs"].zip [enumJson tunnelNames t.type, .arr (t.subs.map subTlvJson)])
def tunnelTlvOf (j : Json) : Option TunnelTlv := do
  match ← Json.fields ["tunnel_type", "sub_tlvs"] j with
  | [t, v] => return ⟨← Json.req (enumOf tunnelNames) t, ← Json.req (Json.list subTlvOf) v⟩
  | _ => none

/-- a struct with one field, a list: `Aigp`, `BgpPrefixSidAttribute`, `BierAttribute`, `SfpAttribute` (attributes/mod.rs 564-567,
627-647), `TunnelEncapAttribute` (tunnel_encap.rs 224-229), `FlowSpecNlri` (flowspec/mod.rs 13-18). -/
def listJson (key : String) (f : α → Json) (xs : List α) : Json := .obj ([key].zip [.arr (xs.map f)])
def listOf (key : String) (f : Json → Option α) (j : Json) : Option (List α) := do
  match ← Json.fields [key] j with
  | [v] => Json.req (Json.list f) v
  | _ => none

/-! ### link state -/

/-- `HashMap<_, Vec<u8>>` with keys that are unit variants. The model's maps are lists in the order of insertion; the order in
which the code writes the entries is that of the hash table. -/
def mapJson (table : List (UInt16 × String)) (m : List (UInt16 × Bytes)) : Json :=
  .obj (m.map fun e => (((table.find? fun t => t.1 == e.1).map (·.2)).getD "", bytesJson e.2))
def mapOf (table : List (UInt16 × String)) : Json → Option (List (UInt16 × Bytes))
  | .obj kvs => kvs.foldlM (fun m kv => do
      let k ← (table.find? fun t => t.2 == kv.1).map (·.1)
      let v ← bytesOf kv.2
      return mapInsert k v m) []
  | _ => none

/-- the keys of the struct below. -/
def lsAttrKeys : List String := ["node_attributes", "link_attributes", "prefix_attributes", "unknown_attributes"]
/-- `LinkStateAttribute` (linkstate.rs 293-300). -/
def lsAttrJson (a : LsAttr) : Json :=
  .obj (lsAttrKeys.zip [mapJson nodeAttrNames a.node, mapJson linkAttrNames a.link, mapJson prefixAttrNames a.pfx,
    .arr (a.unknown.map tlv16Json)])
def lsAttrOf (j : Json) : Option LsAttr := do
  match ← Json.fields lsAttrKeys j with
  | [n, l, p, u] =>
    return ⟨← Json.req (mapOf nodeAttrNames) n, ← Json.req (mapOf linkAttrNames) l, ← Json.req (mapOf prefixAttrNames) p,
      ← Json.req (Json.list tlv16Of) u⟩
  | _ => none

/-- the keys of the struct below. -/
def nodeDescKeys : List String := ["autonomous_system", "bgp_ls_identifier", "ospf_area_id", "igp_router_id", "unknown_tlvs"]
/-- `NodeDescriptor` (linkstate.rs 189-198). -/
def nodeDescJson (d : NodeDesc) : Json :=
  .obj (nodeDescKeys.zip [optJson (fun n : UInt32 => natJson n.toNat) d.asn, optJson (fun n : UInt32 => natJson n.toNat) d.lsId,
    optJson (fun n : UInt32 => natJson n.toNat) d.area, optJson bytesJson d.router, .arr (d.unknown.map tlv16Json)])
def nodeDescOf (j : Json) : Option NodeDesc := do
  match ← Json.fields nodeDescKeys j with
  | [a, l, o, r, u] =>
    return ⟨← Json.opt Json.u32 a, ← Json.opt Json.u32 l, ← Json.opt Json.u32 o, ← Json.opt bytesOf r,
      ← Json.req (Json.list tlv16Of) u⟩
  | _ => none

/-- the keys of the struct below. -/
def linkDescKeys : List String :=
  ["link_local_remote_identifiers", "ipv4_interface_address", "ipv4_neighbor_address", "ipv6_interface_address",
   "ipv6_neighbor_address", "multi_topology_id", "unknown_tlvs"]
/-- `LinkDescriptor` (linkstate.rs 201-212). -/
def linkDescJson (env : JsonEnv) (d : LinkDesc) : Json :=
  .obj (linkDescKeys.zip [optJson (fun p : UInt32 × UInt32 => .arr [natJson p.1.toNat, natJson p.2.toNat]) d.ids,
    optJson (fun a => textJson (v4Text a)) d.v4if, optJson (fun a => textJson (v4Text a)) d.v4nb,
    optJson (fun a => textJson (env.out.v6 a)) d.v6if, optJson (fun a => textJson (env.out.v6 a)) d.v6nb,
    optJson (fun n : UInt16 => natJson n.toNat) d.mt, .arr (d.unknown.map tlv16Json)])
def linkDescOf (env : JsonEnv) (j : Json) : Option LinkDesc := do
  match ← Json.fields linkDescKeys j with
  | [i, a, b, c, d, m, u] =>
    return ⟨← Json.opt (pairOf Json.u32 Json.u32) i, ← Json.opt (Json.viaText env.v4) a, ← Json.opt (Json.viaText env.v4) b,
      ← Json.opt (Json.viaText env.v6) c, ← Json.opt (Json.viaText env.v6) d, ← Json.opt Json.u16 m,
      ← Json.req (Json.list tlv16Of) u⟩
  | _ => none

/-- the keys of the struct below. -/
def prefixDescKeys : List String := ["multi_topology_id", "ospf_route_type", "ip_reachability_information", "unknown_tlvs"]
/-- `PrefixDescriptor` (linkstate.rs 215-223). -/
def prefixDescJson (env : JsonEnv) (d : PrefixDesc) : Json :=
  .obj (prefixDescKeys.zip [optJson (fun n : UInt16 => natJson n.toNat) d.mt, optJson (fun n : UInt8 => natJson n.toNat) d.routeType,
    optJson (prefixJson env) d.reach, .arr (d.unknown.map tlv16Json)])
def prefixDescOf (env : JsonEnv) (j : Json) : Option PrefixDesc := do
  match ← Json.fields prefixDescKeys j with
  | [m, r, p, u] =>
    return ⟨← Json.opt Json.u16 m, ← Json.opt Json.u8 r, ← Json.opt (prefixOf env) p, ← Json.req (Json.list tlv16Of) u⟩
  | _ => none

/-- the keys of the struct below. -/
def lsNlriKeys : List String :=
  ["nlri_type", "protocol_id", "identifier", "local_node_descriptors", "remote_node_descriptors", "link_descriptors",
   "prefix_descriptors"]
/-- `LinkStateNlri` (linkstate.rs 226-236). -/
def lsNlriJson (env : JsonEnv) (n : LsNlri) : Json :=
  .obj (lsNlriKeys.zip [enumJson nlriTypeNames n.type, enumJson protocolNames n.proto, natJson n.ident.toNat, nodeDescJson n.loc,
    optJson nodeDescJson n.remote, optJson (linkDescJson env) n.link, optJson (prefixDescJson env) n.pfx])
def lsNlriOf (env : JsonEnv) (j : Json) : Option LsNlri := do
  match ← Json.fields lsNlriKeys j with
  | [t, p, i, l, r, k, x] =>
    return ⟨← Json.req (enumOf nlriTypeNames) t, ← Json.req (enumOf protocolNames) p, ← Json.req Json.u64 i,
      ← Json.req nodeDescOf l, ← Json.opt nodeDescOf r, ← Json.opt (linkDescOf env) k, ← Json.opt (prefixDescOf env) x⟩
  | _ => none

/-! ### flow specifications -/

/-- the keys of the struct below. -/
def numOpKeys : List String := ["end_of_list", "and_with_next", "value_length", "less_than", "greater_than", "equal", "value"]
/-- `NumericOperator` (src/models/bgp/flowspec/operators.rs 4-21). -/
def numOpJson (o : NumOp) : Json :=
  .obj (numOpKeys.zip [.bool o.eol, .bool o.andNext, natJson o.valueLen.toNat, .bool o.lt, .bool o.gt, .bool o.eq,
    natJson o.value.toNat])
def numOpOf (j : Json) : Option NumOp := do
  match ← Json.fields numOpKeys j with
  | [e, a, l, x, y, z, v] =>
    return ⟨← Json.req Json.boolean e, ← Json.req Json.boolean a, ← Json.req Json.u8 l, ← Json.req Json.boolean x,
      ← Json.req Json.boolean y, ← Json.req Json.boolean z, ← Json.req Json.u64 v⟩
  | _ => none

/-- the keys of the struct below. -/
def bitOpKeys : List String := ["end_of_list", "and_with_next", "value_length", "not", "match_flag", "bitmask"]
/-- `BitmaskOperator` (operators.rs 24-39). -/
def bitOpJson (o : BitOp) : Json :=
  .obj (bitOpKeys.zip [.bool o.eol, .bool o.andNext, natJson o.valueLen.toNat, .bool o.not_, .bool o.matchFlag,
    natJson o.bitmask.toNat])
def bitOpOf (j : Json) : Option BitOp := do
  match ← Json.fields bitOpKeys j with
  | [e, a, l, x, y, v] =>
    return ⟨← Json.req Json.boolean e, ← Json.req Json.boolean a, ← Json.req Json.u8 l, ← Json.req Json.boolean x,
      ← Json.req Json.boolean y, ← Json.req Json.u64 v⟩
  | _ => none

/-- the content of `DestinationIpv6Prefix`, `SourceIpv6Prefix` (flowspec/mod.rs 50-52). -/
def offsetJson (env : JsonEnv) (o : UInt8) (p : NetworkPrefix) : Json :=
  .obj (["offset", "prefix"].zip [natJson o.toNat, prefixJson env p])
def offsetOf (env : JsonEnv) (f : UInt8 → NetworkPrefix → FsComp) (j : Json) : Option FsComp := do
  match ← Json.fields ["offset", "prefix"] j with
  | [o, p] => return f (← Json.req Json.u8 o) (← Json.req (prefixOf env) p)
  | _ => none

/-- `FlowSpecComponent` (flowspec/mod.rs 20-53). -/
def fsCompJson (env : JsonEnv) : FsComp → Json
  | .dstPrefix p => tagJson "DestinationPrefix" (prefixJson env p)
  | .srcPrefix p => tagJson "SourcePrefix" (prefixJson env p)
  | .numeric k ops => tagJson k.jsonName (.arr (ops.map numOpJson))
  | .bitmask k ops => tagJson k.jsonName (.arr (ops.map bitOpJson))
  | .dstPrefix6 o p => tagJson "DestinationIpv6Prefix" (offsetJson env o p)
  | .srcPrefix6 o p => tagJson "SourceIpv6Prefix" (offsetJson env o p)
def fsCompOf (env : JsonEnv) (j : Json) : Option FsComp := do
  let (name, content) ← j.variant
  let c ← content
  let num (k : FsKindNum) : Option FsComp := (c.list numOpOf).map (.numeric k)
  let bit (k : FsKindBit) : Option FsComp := (c.list bitOpOf).map (.bitmask k)
  if name = "DestinationPrefix" then (prefixOf env c).map .dstPrefix
  else if name = "SourcePrefix" then (prefixOf env c).map .srcPrefix
  else if name = "IpProtocol" then num .ipProtocol
  else if name = "Port" then num .port
  else if name = "DestinationPort" then num .destinationPort
  else if name = "SourcePort" then num .sourcePort
  else if name = "IcmpType" then num .icmpType
  else if name = "IcmpCode" then num .icmpCode
  else if name = "TcpFlags" then bit .tcpFlags
  else if name = "PacketLength" then num .packetLength
  else if name = "Dscp" then num .dscp
  else if name = "Fragment" then bit .fragment
  else if name = "FlowLabel" then num .flowLabel
  else if name = "DestinationIpv6Prefix" then offsetOf env .dstPrefix6 c
  else if name = "SourceIpv6Prefix" then offsetOf env .srcPrefix6 c
  else none

/-! ### multiprotocol NLRI -/

/-- `Deserialize for MplsLabel` (src/models/network/mpls.rs 118-127, written by hand): through `try_new`. -/
def labelOf (j : Json) : Option Label := j.u32.bind Label.tryNew

/-- the keys of the struct below. -/
def labeledKeys : List String := ["prefix", "labels", "path_id"]
/-- `LabeledNetworkPrefix` (mpls.rs 263-273), with `Serialize for MplsLabel` (109-116). Reading does not go through `try_new`. -/
def labeledJson (env : JsonEnv) (p : LabeledPrefix) : Json :=
  .obj (labeledKeys.zip [textJson (p.prefix_.text env.out), .arr (p.labels.map fun l : Label => natJson l.toNat),
    optJson (fun n : UInt32 => natJson n.toNat) p.pathId])
def labeledOfJson (env : JsonEnv) (j : Json) : Option LabeledPrefix := do
  match ← Json.fields labeledKeys j with
  | [p, l, i] => return ⟨← Json.req (Json.viaText env.net) p, ← Json.req (Json.list labelOf) l, ← Json.opt Json.u32 i⟩
  | _ => none

/-- `NextHopAddress` (src/models/network/nexthop.rs 35-48) with `RouteDistinguisher` (6-9). -/
def nextHopJson (env : JsonEnv) : NextHop → Json
  | .v4 a => tagJson "Ipv4" (textJson (v4Text a))
  | .v6 a => tagJson "Ipv6" (textJson (env.out.v6 a))
  | .v6ll a b => tagJson "Ipv6LinkLocal" (.arr [textJson (env.out.v6 a), textJson (env.out.v6 b)])
  | .vpn6 r a => tagJson "VpnIpv6" (.arr [bytesJson r.toList, textJson (env.out.v6 a)])
  | .vpn6ll r a s b =>
    tagJson "VpnIpv6LinkLocal" (.arr [bytesJson r.toList, textJson (env.out.v6 a), bytesJson s.toList, textJson (env.out.v6 b)])
def nextHopOf (env : JsonEnv) (j : Json) : Option NextHop := do
  let (name, content) ← j.variant
  let c ← content
  if name = "Ipv4" then (c.viaText env.v4).map .v4
  else if name = "Ipv6" then (c.viaText env.v6).map .v6
  else if name = "Ipv6LinkLocal" then
    match c with
    | .arr [a, b] => return .v6ll (← a.viaText env.v6) (← b.viaText env.v6)
    | _ => none
  else if name = "VpnIpv6" then
    match c with
    | .arr [r, a] => return .vpn6 (← r.octets 8) (← a.viaText env.v6)
    | _ => none
  else if name = "VpnIpv6LinkLocal" then
    match c with
    | .arr [r, a, s, b] => return .vpn6ll (← r.octets 8) (← a.viaText env.v6) (← s.octets 8) (← b.viaText env.v6)
    | _ => none
  else none

/-- the keys of the struct below. -/
def nlriKeys : List String :=
  ["afi", "safi", "next_hop", "prefixes", "labeled_prefixes", "link_state_nlris", "flowspec_nlris"]
/-- `Nlri` (src/models/bgp/attributes/nlri.rs 7-32). -/
def nlriJson (env : JsonEnv) (n : Nlri) : Json :=
  .obj (nlriKeys.zip [enumJson afiNames n.afi, enumJson safiNames n.safi, optJson (nextHopJson env) n.nextHop,
    .arr (n.prefixes.map (prefixJson env)), optJson (fun xs => .arr (xs.map (labeledJson env))) n.labeled,
    optJson (fun xs => .arr (xs.map (lsNlriJson env))) n.linkState,
    optJson (fun xs => .arr (xs.map (listJson "components" (fsCompJson env)))) n.flowspec])
def nlriOf (env : JsonEnv) (j : Json) : Option Nlri := do
  match ← Json.fields nlriKeys j with
  | [a, s, h, p, l, k, f] =>
    return ⟨← Json.req (enumOf afiNames) a, ← Json.req (enumOf safiNames) s, ← Json.opt (nextHopOf env) h,
      ← Json.req (Json.list (prefixOf env)) p, ← Json.opt (Json.list (labeledOfJson env)) l, ← Json.opt (Json.list (lsNlriOf env)) k,
      ← Json.opt (Json.list (listOf "components" (fsCompOf env))) f⟩
  | _ => none

/-! ### attributes -/

/-- the keys of the struct below. -/
def teKeys : List String := ["switching_capability", "encoding", "reserved", "max_lsp_bandwidth", "switching_capability_specific"]
/-- `TrafficEngineering` (attributes/mod.rs 650-671). -/
def teJson (env : JsonEnv) (t : TrafficEng) : Json :=
  .obj (teKeys.zip [natJson t.switchCap.toNat, natJson t.encoding.toNat, natJson t.reserved.toNat,
    .arr (t.bandwidth.toList.map env.f32), bytesJson t.specific])
/-- `<[f32; 8]>::deserialize`. -/
def floats8Of (env : JsonEnv) (j : Json) : Option (Vector UInt32 8) :=
  match j.list env.f32Of with
  | some xs => if h : xs.length = 8 then some ⟨xs.toArray, by simpa using h⟩ else none
  | none => none
def teOf (env : JsonEnv) (j : Json) : Option TrafficEng := do
  match ← Json.fields teKeys j with
  | [s, e, r, b, v] =>
    return ⟨← Json.req Json.u8 s, ← Json.req Json.u8 e, ← Json.req Json.u16 r, ← Json.req (floats8Of env) b, ← Json.req bytesOf v⟩
  | _ => none

/-- `BfdDiscriminatorAttribute` (attributes/mod.rs 619-625). -/
def bfdJson (b : Bfd) : Json :=
  .obj (["mode", "discriminator", "tlvs"].zip [natJson b.mode.toNat, natJson b.disc.toNat, .arr (b.tlvs.map tlv8Json)])
def bfdOf (j : Json) : Option Bfd := do
  match ← Json.fields ["mode", "discriminator", "tlvs"] j with
  | [m, d, t] => return ⟨← Json.req Json.u8 m, ← Json.req Json.u32 d, ← Json.req (Json.list tlv8Of) t⟩
  | _ => none

/-- the content of `Aggregator`, `As4Aggregator` (attributes/mod.rs 744-754). -/
def aggrJson (a : Asn) (i : V4) : Json := .obj (["asn", "id"].zip [asnJson a, textJson (v4Text i)])
def aggrOf (env : JsonEnv) (f : Asn → V4 → AttrVal) (j : Json) : Option AttrVal := do
  match ← Json.fields ["asn", "id"] j with
  | [a, i] => return f (← Json.req Json.u32 a) (← Json.req (Json.viaText env.v4) i)
  | _ => none

/-- `AttributeValue` (attributes/mod.rs 714-793). `AttrSet` is not modelled: the nested attributes are not in the model of the
value (Model/Attr.lean); no parser makes it. -/
def attrValJson (env : JsonEnv) : AttrVal → Json
  | .origin o => tagJson "Origin" (originJson o)
  | .asPath p => tagJson "AsPath" (asPathJson p)
  | .as4Path p => tagJson "As4Path" (asPathJson p)
  | .nextHop a => tagJson "NextHop" (textJson (a.text env.out))
  | .med v => tagJson "MultiExitDiscriminator" (natJson v.toNat)
  | .localPref v => tagJson "LocalPreference" (natJson v.toNat)
  | .otc a => tagJson "OnlyToCustomer" (asnJson a)
  | .atomic => .str "AtomicAggregate"
  | .aggregator a i => tagJson "Aggregator" (aggrJson a i)
  | .as4Aggregator a i => tagJson "As4Aggregator" (aggrJson a i)
  | .communities cs => tagJson "Communities" (.arr (cs.map plainJson))
  | .extCommunities cs => tagJson "ExtendedCommunities" (.arr (cs.map (extJson env)))
  | .ipv6ExtCommunities cs => tagJson "Ipv6AddressSpecificExtendedCommunities" (.arr (cs.map (ipv6ExtJson env)))
  | .largeCommunities cs => tagJson "LargeCommunities" (.arr (cs.map largeJson))
  | .originatorId i => tagJson "OriginatorId" (textJson (v4Text i))
  | .clusters cs => tagJson "Clusters" (.arr (cs.map fun n : UInt32 => natJson n.toNat))
  | .mpReach n => tagJson "MpReachNlri" (nlriJson env n)
  | .mpUnreach n => tagJson "MpUnreachNlri" (nlriJson env n)
  | .linkState a => tagJson "LinkState" (lsAttrJson a)
  | .tunnel ts => tagJson "TunnelEncapsulation" (listJson "tunnel_tlvs" tunnelTlvJson ts)
  | .trafficEng t => tagJson "TrafficEngineering" (teJson env t)
  | .bfd b => tagJson "BfdDiscriminator" (bfdJson b)
  | .prefixSid ts => tagJson "BgpPrefixSid" (listJson "tlvs" tlv8Json ts)
  | .bier ts => tagJson "Bier" (listJson "tlvs" tlv16Json ts)
  | .sfp ts => tagJson "Sfp" (listJson "tlvs" tlv8Json ts)
  | .development b => tagJson "Development" (bytesJson b)
  | .raw c b => tagJson "Raw" (attrRawJson ⟨c, b⟩)
  | .deprecated c b => tagJson "Deprecated" (attrRawJson ⟨c, b⟩)
  | .unknown c b => tagJson "Unknown" (attrRawJson ⟨c, b⟩)
  | .aigp ts => tagJson "Aigp" (listJson "tlvs" aigpTlvJson ts)
  | .attrSet _ _ => tagJson "AttrSet" .null

/-- `AttributeValue`, read (attributes/mod.rs 714-793). -/
def attrValOf (env : JsonEnv) (j : Json) : Option AttrVal := do
  let (name, content) ← j.variant
  if name = "AtomicAggregate" then (if Json.isUnit content then some .atomic else none)
  else
  let c ← content
  if name = "Origin" then (originOf c).map .origin
  else if name = "AsPath" then (asPathOf c).map .asPath
  else if name = "As4Path" then (asPathOf c).map .as4Path
  else if name = "NextHop" then (c.viaText env.ip).map .nextHop
  else if name = "MultiExitDiscriminator" then c.u32.map .med
  else if name = "LocalPreference" then c.u32.map .localPref
  else if name = "OnlyToCustomer" then c.u32.map .otc
  else if name = "Aggregator" then aggrOf env .aggregator c
  else if name = "As4Aggregator" then aggrOf env .as4Aggregator c
  else if name = "Communities" then (c.list plainOfJson).map .communities
  else if name = "ExtendedCommunities" then (c.list (extOf env)).map .extCommunities
  else if name = "Ipv6AddressSpecificExtendedCommunities" then (c.list (ipv6ExtOf env)).map .ipv6ExtCommunities
  else if name = "LargeCommunities" then (c.list largeOfJson).map .largeCommunities
  else if name = "OriginatorId" then (c.viaText env.v4).map .originatorId
  else if name = "Clusters" then (c.list Json.u32).map .clusters
  else if name = "MpReachNlri" then (nlriOf env c).map .mpReach
  else if name = "MpUnreachNlri" then (nlriOf env c).map .mpUnreach
  else if name = "LinkState" then (lsAttrOf c).map .linkState
  else if name = "TunnelEncapsulation" then (listOf "tunnel_tlvs" tunnelTlvOf c).map .tunnel
  else if name = "TrafficEngineering" then (teOf env c).map .trafficEng
  else if name = "BfdDiscriminator" then (bfdOf c).map .bfd
  else if name = "BgpPrefixSid" then (listOf "tlvs" tlv8Of c).map .prefixSid
  else if name = "Bier" then (listOf "tlvs" tlv16Of c).map .bier
  else if name = "Sfp" then (listOf "tlvs" tlv8Of c).map .sfp
  else if name = "Development" then (bytesOf c).map .development
  else if name = "Raw" then (attrRawOf c).map fun r => .raw r.code r.bytes
  else if name = "Deprecated" then (attrRawOf c).map fun r => .deprecated r.code r.bytes
  else if name = "Unknown" then (attrRawOf c).map fun r => .unknown r.code r.bytes
  else if name = "Aigp" then (listOf "tlvs" aigpTlvOf c).map .aigp
  else none

/-- `Attribute` (attributes/mod.rs 513-521). -/
def attributeJson (env : JsonEnv) (a : Attribute) : Json :=
  .obj (["value", "flag"].zip [attrValJson env a.value, textJson (flagsText a.flag)])
def attributeOf (env : JsonEnv) (j : Json) : Option Attribute := do
  match ← Json.fields ["value", "flag"] j with
  | [v, f] => return ⟨← Json.req (Json.viaText flagsOfText) f, ← Json.req (attrValOf env) v⟩
  | _ => none

/-- `Serialize for Attributes` (attributes/mod.rs 487-494). -/
def attributesJson (env : JsonEnv) (a : Attributes) : Json := .arr (a.inner.map (attributeJson env))
/-- `Deserialize for Attributes` (attributes/mod.rs 496-510): the mask is computed, there are no warnings. -/
def attributesOf (env : JsonEnv) (j : Json) : Option Attributes :=
  (j.list (attributeOf env)).map fun inner => ⟨inner, [], Attributes.computeMask inner⟩

/-! ### messages -/

/-- the keys of the struct below. -/
def updateKeys : List String := ["withdrawn_prefixes", "attributes", "announced_prefixes"]
/-- `BgpUpdateMessage` (src/models/bgp/mod.rs 213-257). -/
def updateJson (env : JsonEnv) (m : Update) : Json :=
  .obj (updateKeys.zip [.arr (m.withdrawn.map (prefixJson env)), attributesJson env m.attributes,
    .arr (m.announced.map (prefixJson env))])
def updateOf (env : JsonEnv) (j : Json) : Option Update := do
  match ← Json.fields updateKeys j with
  | [w, a, n] =>
    return ⟨← Json.req (Json.list (prefixOf env)) w, ← Json.req (attributesOf env) a, ← Json.req (Json.list (prefixOf env)) n⟩
  | _ => none

/-- the keys of the struct below. -/
def ribEntryKeys : List String := ["peer_index", "originated_time", "path_id", "attributes"]
/-- `RibEntry` (src/models/mrt/table_dump_v2.rs 144-151). -/
def ribEntryJson (env : JsonEnv) (e : RibEntry) : Json :=
  .obj (ribEntryKeys.zip [natJson e.peerIndex.toNat, natJson e.time.toNat, optJson (fun n : UInt32 => natJson n.toNat) e.pathId,
    attributesJson env e.attributes])
def ribEntryOf (env : JsonEnv) (j : Json) : Option RibEntry := do
  match ← Json.fields ribEntryKeys j with
  | [p, t, i, a] =>
    return ⟨← Json.req Json.u16 p, ← Json.req Json.u32 t, ← Json.opt Json.u32 i, ← Json.req (attributesOf env) a⟩
  | _ => none

/-- the keys of the struct below. -/
def tableDumpKeys : List String :=
  ["view_number", "sequence_number", "prefix", "status", "originated_time", "peer_ip", "peer_asn", "attributes"]
/-- `TableDumpMessage` (src/models/mrt/table_dump.rs 6-17). -/
def tableDumpJson (env : JsonEnv) (m : TableDump) : Json :=
  .obj (tableDumpKeys.zip [natJson m.view.toNat, natJson m.seq.toNat, prefixJson env m.prefix_, natJson m.status.toNat,
    natJson m.time.toNat, textJson (m.peerIp.text env.out), asnJson m.peerAsn, attributesJson env m.attributes])
def tableDumpOf (env : JsonEnv) (j : Json) : Option TableDump := do
  match ← Json.fields tableDumpKeys j with
  | [v, s, p, st, t, i, n, a] =>
    return ⟨← Json.req Json.u16 v, ← Json.req Json.u16 s, ← Json.req (prefixOf env) p, ← Json.req Json.u8 st,
      ← Json.req Json.u64 t, ← Json.req (Json.viaText env.ip) i, ← Json.req Json.u32 n, ← Json.req (attributesOf env) a⟩
  | _ => none

/-- the keys of the struct below. -/
def bgp4mpKeys : List String := ["timestamp", "peer_ip", "peer_asn", "message"]
/-- the keys of the struct below. -/
def legacyKeys : List String := ["timestamp", "peer_ip", "peer_asn", "local_ip", "local_asn", "message"]
/-- the keys of the struct below. -/
def v2EntryKeys : List String := ["timestamp", "rib_type", "sequence_number", "prefix", "rib_entries"]

/-- `MrtUpdate` with its structs (src/parser/iters/update.rs 56-129). -/
def mrtUpdateJson (env : JsonEnv) : MrtUpdate → Json
  | .bgp4mp t i n m =>
    tagJson "Bgp4MpUpdate" (.obj (bgp4mpKeys.zip [env.time t, textJson (i.text env.out), asnJson n, updateJson env m]))
  | .legacy t i n li ln m =>
    tagJson "LegacyBgpUpdate" (.obj (legacyKeys.zip [env.time t, textJson (i.text env.out), asnJson n, textJson (li.text env.out),
      asnJson ln, updateJson env m]))
  | .rib t y s p es =>
    tagJson "TableDumpV2Entry" (.obj (v2EntryKeys.zip [env.time t, enumJson v2Names y, natJson s.toNat, prefixJson env p,
      .arr (es.map (ribEntryJson env))]))
  | .tableDump m => tagJson "TableDumpMessage" (tableDumpJson env m)

/-- `MrtUpdate`, read (update.rs 56-129). -/
def mrtUpdateOf (env : JsonEnv) (j : Json) : Option MrtUpdate := do
  let (name, content) ← j.variant
  let c ← content
  if name = "Bgp4MpUpdate" then
    match ← Json.fields bgp4mpKeys c with
    | [t, i, n, m] =>
      return .bgp4mp (← Json.req env.timeOf t) (← Json.req (Json.viaText env.ip) i) (← Json.req Json.u32 n) (← Json.req (updateOf env) m)
    | _ => none
  else if name = "LegacyBgpUpdate" then
    match ← Json.fields legacyKeys c with
    | [t, i, n, li, ln, m] =>
      return .legacy (← Json.req env.timeOf t) (← Json.req (Json.viaText env.ip) i) (← Json.req Json.u32 n)
        (← Json.req (Json.viaText env.ip) li) (← Json.req Json.u32 ln) (← Json.req (updateOf env) m)
    | _ => none
  else if name = "TableDumpV2Entry" then
    match ← Json.fields v2EntryKeys c with
    | [t, y, s, p, es] =>
      return .rib (← Json.req env.timeOf t) (← Json.req (enumOf v2Names) y) (← Json.req Json.u32 s) (← Json.req (prefixOf env) p)
        (← Json.req (Json.list (ribEntryOf env)) es)
    | _ => none
  else if name = "TableDumpMessage" then (tableDumpOf env c).map .tableDump
  else none

end Verif
