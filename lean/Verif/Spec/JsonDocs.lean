import Verif.Spec.JsonAttrs
/-
The JSON documents of the values of attributes, written out.
-/
namespace Verif.Spec

/-! ### names of numbers -/

/-- the names of the link-state NLRI types (RFC 9552, and later types). -/
def lsTypeWord (n : Nat) : String :=
  match n with
  | 0 => "Reserved" | 1 => "Node" | 2 => "Link" | 3 => "Ipv4TopologyPrefix" | 4 => "Ipv6TopologyPrefix"
  | 5 => "SrPolicyCandidatePath" | 6 => "Srv6Sid" | 7 => "StubLink" | _ => ""

/-- the names of the link-state protocols (RFC 9552). -/
def lsProtocolWord (n : Nat) : String :=
  match n with
  | 0 => "Reserved" | 1 => "IsisL1" | 2 => "IsisL2" | 3 => "Ospfv2" | 4 => "Direct" | 5 => "Static" | 6 => "Ospfv3" | 7 => "Bgp"
  | 8 => "RsvpTe" | 9 => "SegmentRouting" | _ => ""

/-- the names of the tunnel types (RFC 9012, IANA). -/
def tunnelWord (n : Nat) : String :=
  match n with
  | 0 => "Reserved" | 1 => "L2tpv3OverIp" | 2 => "Gre" | 3 => "TransmitTunnelEndpoint" | 4 => "IpsecTunnelMode"
  | 5 => "IpInIpWithIpsecTransport" | 6 => "MplsInIpWithIpsecTransport" | 7 => "IpInIp" | 8 => "Vxlan" | 9 => "Nvgre" | 10 => "Mpls"
  | 11 => "MplsInGre" | 12 => "VxlanGpe" | 13 => "MplsInUdp" | 14 => "Ipv6Tunnel" | 15 => "SrPolicy" | 16 => "Bare" | 17 => "SrTunnel"
  | 18 => "CloudSecurity" | 19 => "Geneve" | 20 => "AnyEncapsulation" | 21 => "GtpTunnel" | 22 => "DpsTunnel" | _ => ""

/-- the names of the sub-TLVs of tunnels (RFC 9012, IANA). -/
def subTlvWord (n : Nat) : String :=
  match n with
  | 0 => "Reserved" | 1 => "Encapsulation" | 2 => "ProtocolType" | 3 => "IpsecTunnelAuthenticator" | 4 => "Color"
  | 5 => "LoadBalancingBlock" | 6 => "TunnelEgressEndpoint" | 7 => "DsField" | 8 => "UdpDestinationPort"
  | 9 => "EmbeddedLabelHandling" | 10 => "MplsLabelStack" | 11 => "PrefixSid" | 12 => "Preference" | 13 => "BindingSid" | 14 => "Enlp"
  | 15 => "Priority" | 16 => "SpiSiRepresentation" | 17 => "Ipv6SidStructure" | 18 => "Ipv4Sid" | 19 => "Ipv6Sid"
  | 20 => "Srv6BindingSid" | 128 => "SegmentList" | 129 => "PolicyCandidatePathName" | _ => ""

/-- the names of the node attributes of link state. -/
def nodeAttrWord (n : Nat) : String :=
  match n with
  | 0 => "Reserved" | 1024 => "NodeFlagBits" | 1025 => "OpaqueNodeAttribute" | 1026 => "NodeName" | 1027 => "IsisAreaIdentifier"
  | 1028 => "Ipv4RouterIdOfLocalNode" | 1029 => "Ipv6RouterIdOfLocalNode" | 1034 => "SrCapabilities" | 1035 => "SrAlgorithm"
  | 1036 => "SrLocalBlock" | 1037 => "SrmsPreference" | _ => ""

/-- the names of the link attributes of link state. -/
def linkAttrWord (n : Nat) : String :=
  match n with
  | 0 => "Reserved" | 1028 => "Ipv4RouterIdOfLocalNode" | 1029 => "Ipv6RouterIdOfLocalNode" | 1030 => "Ipv4RouterIdOfRemoteNode"
  | 1031 => "Ipv6RouterIdOfRemoteNode" | 1088 => "AdministrativeGroup" | 1089 => "MaximumLinkBandwidth"
  | 1090 => "MaxReservableLinkBandwidth" | 1091 => "UnreservedBandwidth" | 1092 => "TeDefaultMetric" | 1093 => "LinkProtectionType"
  | 1094 => "MplsProtocolMask" | 1095 => "IgpMetric" | 1096 => "SharedRiskLinkGroups" | 1097 => "OpaqueLinkAttribute"
  | 1098 => "LinkName" | 1099 => "SrAdjacencySid" | 1100 => "SrLanAdjacencySid" | 1101 => "PeerNodeSid" | 1102 => "PeerAdjacencySid"
  | 1103 => "PeerSetSid" | 1114 => "UnidirectionalLinkDelay" | 1115 => "MinMaxUnidirectionalLinkDelay"
  | 1116 => "UnidirectionalDelayVariation" | 1117 => "UnidirectionalLinkLoss" | 1118 => "UnidirectionalResidualBandwidth"
  | 1119 => "UnidirectionalAvailableBandwidth" | 1120 => "UnidirectionalUtilizedBandwidth" | 1172 => "L2BundleMemberAttributes"
  | 1122 => "ApplicationSpecificLinkAttributes" | _ => ""

/-- the names of the prefix attributes of link state. -/
def prefixAttrWord (n : Nat) : String :=
  match n with
  | 0 => "Reserved" | 1152 => "IgpFlags" | 1153 => "IgpRouteTag" | 1154 => "IgpExtendedRouteTag" | 1155 => "PrefixMetric"
  | 1156 => "OspfForwardingAddress" | 1157 => "OpaquePrefixAttribute" | 1158 => "PrefixSid" | 1159 => "RangeSid"
  | 1161 => "SidLabelIndex" | 1162 => "SidLabelBinding" | 1163 => "Srv6LocatorTlv" | 1170 => "PrefixAttributeFlags"
  | 1171 => "SourceRouterIdentifier" | 1174 => "SourceOspfRouterId" | _ => ""

/-! ### parts of documents -/

/-- octets: an array of numbers. -/
def octetsDoc (b : Bytes) : Json := .arr (b.map fun x => .int x.toNat)
/-- an optional field. -/
def optDoc (f : α → Json) (x : Option α) : Json := (x.map f).getD .null
/-- an IPv4 address: dotted decimal. -/
def v4Doc (a : V4) : Json := textJson (v4Text a)
/-- an IPv6 address: its text. -/
def v6Doc (env : JsonEnv) (a : V6) : Json := textJson (env.out.v6 a)

/-- a TLV. -/
def tlvDoc (type : Nat) (value : Bytes) : Json := .obj [("tlv_type", .int type), ("value", octetsDoc value)]

/-- a map from named types to octets. -/
def attrMapDoc (word : Nat → String) (m : List (UInt16 × Bytes)) : Json := .obj (m.map fun e => (word e.1.toNat, octetsDoc e.2))

/-- a node of link state. -/
def nodeDescDoc (d : NodeDesc) : Json :=
  .obj [("autonomous_system", optDoc (fun n => .int n.toNat) d.asn), ("bgp_ls_identifier", optDoc (fun n => .int n.toNat) d.lsId),
    ("ospf_area_id", optDoc (fun n => .int n.toNat) d.area), ("igp_router_id", optDoc octetsDoc d.router),
    ("unknown_tlvs", .arr (d.unknown.map fun t => tlvDoc t.type.toNat t.value))]

/-- a link of link state. -/
def linkDescDoc (env : JsonEnv) (d : LinkDesc) : Json :=
  .obj [("link_local_remote_identifiers", optDoc (fun p => .arr [.int p.1.toNat, .int p.2.toNat]) d.ids),
    ("ipv4_interface_address", optDoc v4Doc d.v4if), ("ipv4_neighbor_address", optDoc v4Doc d.v4nb),
    ("ipv6_interface_address", optDoc (v6Doc env) d.v6if), ("ipv6_neighbor_address", optDoc (v6Doc env) d.v6nb),
    ("multi_topology_id", optDoc (fun n => .int n.toNat) d.mt),
    ("unknown_tlvs", .arr (d.unknown.map fun t => tlvDoc t.type.toNat t.value))]

/-- a prefix of link state. -/
def prefixDescDoc (env : JsonEnv) (d : PrefixDesc) : Json :=
  .obj [("multi_topology_id", optDoc (fun n => .int n.toNat) d.mt), ("ospf_route_type", optDoc (fun n => .int n.toNat) d.routeType),
    ("ip_reachability_information", optDoc (prefixJson env) d.reach),
    ("unknown_tlvs", .arr (d.unknown.map fun t => tlvDoc t.type.toNat t.value))]

/-- a link-state NLRI. -/
def lsNlriDoc (env : JsonEnv) (n : LsNlri) : Json :=
  .obj [("nlri_type", .str (lsTypeWord n.type.toNat)), ("protocol_id", .str (lsProtocolWord n.proto.toNat)),
    ("identifier", .int n.ident.toNat), ("local_node_descriptors", nodeDescDoc n.loc),
    ("remote_node_descriptors", optDoc nodeDescDoc n.remote), ("link_descriptors", optDoc (linkDescDoc env) n.link),
    ("prefix_descriptors", optDoc (prefixDescDoc env) n.pfx)]

/-- the operators of a flow specification. -/
def numOpDoc (o : NumOp) : Json :=
  .obj [("end_of_list", .bool o.eol), ("and_with_next", .bool o.andNext), ("value_length", .int o.valueLen.toNat),
    ("less_than", .bool o.lt), ("greater_than", .bool o.gt), ("equal", .bool o.eq), ("value", .int o.value.toNat)]
def bitOpDoc (o : BitOp) : Json :=
  .obj [("end_of_list", .bool o.eol), ("and_with_next", .bool o.andNext), ("value_length", .int o.valueLen.toNat),
    ("not", .bool o.not_), ("match_flag", .bool o.matchFlag), ("bitmask", .int o.bitmask.toNat)]

/-- a component of a flow specification. -/
def fsCompDoc (env : JsonEnv) : FsComp → Json
  | .dstPrefix p => .obj [("DestinationPrefix", prefixJson env p)]
  | .srcPrefix p => .obj [("SourcePrefix", prefixJson env p)]
  | .numeric k ops =>
    .obj [(match k with
      | .ipProtocol => "IpProtocol" | .port => "Port" | .destinationPort => "DestinationPort" | .sourcePort => "SourcePort"
      | .icmpType => "IcmpType" | .icmpCode => "IcmpCode" | .packetLength => "PacketLength" | .dscp => "Dscp"
      | .flowLabel => "FlowLabel", .arr (ops.map numOpDoc))]
  | .bitmask k ops => .obj [(match k with | .tcpFlags => "TcpFlags" | .fragment => "Fragment", .arr (ops.map bitOpDoc))]
  | .dstPrefix6 o p => .obj [("DestinationIpv6Prefix", .obj [("offset", .int o.toNat), ("prefix", prefixJson env p)])]
  | .srcPrefix6 o p => .obj [("SourceIpv6Prefix", .obj [("offset", .int o.toNat), ("prefix", prefixJson env p)])]

/-- a next hop. -/
def nextHopDoc (env : JsonEnv) : NextHop → Json
  | .v4 a => .obj [("Ipv4", v4Doc a)]
  | .v6 a => .obj [("Ipv6", v6Doc env a)]
  | .v6ll a b => .obj [("Ipv6LinkLocal", .arr [v6Doc env a, v6Doc env b])]
  | .vpn6 r a => .obj [("VpnIpv6", .arr [octetsDoc r.toList, v6Doc env a])]
  | .vpn6ll r a s b => .obj [("VpnIpv6LinkLocal", .arr [octetsDoc r.toList, v6Doc env a, octetsDoc s.toList, v6Doc env b])]

/-! ### the content of a value -/

/-- What is written of a value under its name. The documents of paths, origins and communities are those of C79, that of
multiprotocol reachability is in c108_nlri_document. -/
def valueContent (env : JsonEnv) : AttrVal → Json
  | .origin o => originJson o
  | .asPath p | .as4Path p => asPathJson p
  | .nextHop a => textJson (a.text env.out)
  | .med n | .localPref n | .otc n => .int n.toNat
  | .atomic => .null
  | .aggregator a i | .as4Aggregator a i => .obj [("asn", .int a.toNat), ("id", v4Doc i)]
  | .communities cs => .arr (cs.map plainJson)
  | .extCommunities cs => .arr (cs.map (extJson env))
  | .ipv6ExtCommunities cs => .arr (cs.map (ipv6ExtJson env))
  | .largeCommunities cs => .arr (cs.map largeJson)
  | .originatorId i => v4Doc i
  | .clusters cs => .arr (cs.map fun n => .int n.toNat)
  | .mpReach n | .mpUnreach n => nlriJson env n
  | .linkState a => .obj [("node_attributes", attrMapDoc nodeAttrWord a.node), ("link_attributes", attrMapDoc linkAttrWord a.link),
      ("prefix_attributes", attrMapDoc prefixAttrWord a.pfx),
      ("unknown_attributes", .arr (a.unknown.map fun t => tlvDoc t.type.toNat t.value))]
  | .tunnel ts => .obj [("tunnel_tlvs", .arr (ts.map fun t => .obj [("tunnel_type", .str (tunnelWord t.type.toNat)),
      ("sub_tlvs", .arr (t.subs.map fun s =>
        .obj [("sub_tlv_type", .str (subTlvWord s.type.toNat)), ("value", octetsDoc s.value)]))]))]
  | .trafficEng t => .obj [("switching_capability", .int t.switchCap.toNat), ("encoding", .int t.encoding.toNat),
      ("reserved", .int t.reserved.toNat), ("max_lsp_bandwidth", .arr (t.bandwidth.toList.map env.f32)),
      ("switching_capability_specific", octetsDoc t.specific)]
  | .bfd b => .obj [("mode", .int b.mode.toNat), ("discriminator", .int b.disc.toNat),
      ("tlvs", .arr (b.tlvs.map fun t => tlvDoc t.type.toNat t.value))]
  | .prefixSid ts | .sfp ts => .obj [("tlvs", .arr (ts.map fun t => tlvDoc t.type.toNat t.value))]
  | .bier ts => .obj [("tlvs", .arr (ts.map fun t => tlvDoc t.type.toNat t.value))]
  | .development b => octetsDoc b
  | .raw c b | .deprecated c b | .unknown c b => .obj [("code", .int c.toNat), ("bytes", octetsDoc b)]
  | .aigp ts => .obj [("tlvs", .arr (ts.map fun t =>
      .obj [("tlv_type", .int t.type.toNat), ("length", .int t.length.toNat), ("value", octetsDoc t.value)]))]
  | .attrSet _ _ => .null

end Verif.Spec
