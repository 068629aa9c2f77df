import Verif.Model.LinkState
import Verif.Model.MrtBody
/-
Building and reading link-state and tunnel attributes: the methods of `/repo/src/models/bgp/linkstate.rs` and
`/repo/src/models/bgp/tunnel_encap.rs`.
-/
namespace Verif

/-- `HashMap::get`. -/
def mapGet (k : UInt16) : List (UInt16 × Bytes) → Option Bytes
  | [] => none
  | (k', v) :: r => if k' = k then some v else mapGet k r

/-- `if bytes.len() >= 4 { Some(u32::from_be_bytes([bytes[0], .., bytes[3]])) } else { None }`, as in nine of the methods
below. An `f32` is represented by its 32 bits. -/
def firstU32 : Bytes → Option UInt32
  | a :: b :: c :: d :: _ => some (u32of a b c d)
  | _ => none

/-- `String::from_utf8(bytes.clone()).ok()`; a string is represented by its bytes. -/
def utf8Text (b : Bytes) : Option Bytes := if utf8Ok b then some b else none

/-- `LinkStateAttribute::new` (linkstate.rs 304-306). -/
def LsAttr.new : LsAttr := ⟨[], [], [], []⟩

/-- `add_node_attribute` (linkstate.rs 308-310). -/
def LsAttr.addNode (a : LsAttr) (k : UInt16) (v : Bytes) : LsAttr := { a with node := mapInsert k v a.node }

/-- `add_link_attribute` (linkstate.rs 312-314). -/
def LsAttr.addLink (a : LsAttr) (k : UInt16) (v : Bytes) : LsAttr := { a with link := mapInsert k v a.link }

/-- `add_prefix_attribute` (linkstate.rs 316-318). -/
def LsAttr.addPrefix (a : LsAttr) (k : UInt16) (v : Bytes) : LsAttr := { a with pfx := mapInsert k v a.pfx }

/-- `add_unknown_attribute` (linkstate.rs 320-322). -/
def LsAttr.addUnknown (a : LsAttr) (t : Tlv16) : LsAttr := { a with unknown := a.unknown ++ [t] }

/-- a call of one of the four methods; types by discriminant. -/
inductive LsCall where
  | node (k : UInt16) (v : Bytes)
  | link (k : UInt16) (v : Bytes)
  | prefix_ (k : UInt16) (v : Bytes)
  | unknown (t : Tlv16)
deriving DecidableEq, Repr

/-- the effect of a call (linkstate.rs 308-322). -/
def LsAttr.call (a : LsAttr) : LsCall → LsAttr
  | .node k v => a.addNode k v
  | .link k v => a.addLink k v
  | .prefix_ k v => a.addPrefix k v
  | .unknown t => a.addUnknown t

/-- `get_node_name` (linkstate.rs 324-328). -/
def LsAttr.nodeName (a : LsAttr) : Option Bytes := (mapGet 1026 a.node).bind utf8Text

/-- `get_link_name` (linkstate.rs 330-334). -/
def LsAttr.linkName (a : LsAttr) : Option Bytes := (mapGet 1098 a.link).bind utf8Text

/-- `get_node_flags` (linkstate.rs 336-340). -/
def LsAttr.nodeFlags (a : LsAttr) : Option UInt8 := (mapGet 1024 a.node).bind List.head?

/-- `get_administrative_group` (linkstate.rs 342-352). -/
def LsAttr.adminGroup (a : LsAttr) : Option UInt32 := (mapGet 1088 a.link).bind firstU32

/-- `get_maximum_link_bandwidth` (linkstate.rs 354-364). -/
def LsAttr.maxBandwidth (a : LsAttr) : Option UInt32 := (mapGet 1089 a.link).bind firstU32

/-- `get_igp_metric` (linkstate.rs 366-377). -/
def LsAttr.igpMetric (a : LsAttr) : Option UInt32 :=
  (mapGet 1095 a.link).bind fun v =>
    match v with
    | [x] => some x.toUInt32
    | [x, y] => some (u16of x y).toUInt32
    | [x, y, z] => some ((x.toUInt32 <<< 16) + (y.toUInt32 <<< 8) + z.toUInt32)
    | _ => none

/-- `get_prefix_metric` (linkstate.rs 379-389). -/
def LsAttr.prefixMetric (a : LsAttr) : Option UInt32 := (mapGet 1155 a.pfx).bind firstU32

/-- `get_unidirectional_link_delay` (linkstate.rs 392-402). -/
def LsAttr.linkDelay (a : LsAttr) : Option UInt32 :=
  (mapGet 1114 a.link).bind fun v => (firstU32 v).map (· &&& 0x00FFFFFF)

/-- `get_min_max_unidirectional_link_delay` (linkstate.rs 406-420). -/
def LsAttr.minMaxDelay (a : LsAttr) : Option (UInt32 × UInt32) :=
  (mapGet 1115 a.link).bind fun v =>
    match v with
    | b0 :: b1 :: b2 :: b3 :: b4 :: b5 :: b6 :: b7 :: _ =>
      some (u32of b0 b1 b2 b3 &&& 0x00FFFFFF, u32of b4 b5 b6 b7 &&& 0x00FFFFFF)
    | _ => none

/-- `get_unidirectional_delay_variation` (linkstate.rs 423-433). -/
def LsAttr.delayVariation (a : LsAttr) : Option UInt32 :=
  (mapGet 1116 a.link).bind fun v => (firstU32 v).map (· &&& 0x00FFFFFF)

/-- `get_unidirectional_link_loss` (linkstate.rs 437-449). Simplified: the number before it is multiplied by the `f32`
0.000003. -/
def LsAttr.linkLoss (a : LsAttr) : Option UInt32 :=
  (mapGet 1117 a.link).bind fun v => (firstU32 v).map (· &&& 0x00FFFFFF)

/-- `get_unidirectional_residual_bandwidth` (linkstate.rs 452-462). -/
def LsAttr.residualBandwidth (a : LsAttr) : Option UInt32 := (mapGet 1118 a.link).bind firstU32

/-- `get_unidirectional_available_bandwidth` (linkstate.rs 465-475). -/
def LsAttr.availableBandwidth (a : LsAttr) : Option UInt32 := (mapGet 1119 a.link).bind firstU32

/-- `get_unidirectional_utilized_bandwidth` (linkstate.rs 478-488). -/
def LsAttr.utilizedBandwidth (a : LsAttr) : Option UInt32 := (mapGet 1120 a.link).bind firstU32

/-! ### tunnels -/

/-- `self.sub_tlvs.iter().find(|tlv| tlv.sub_tlv_type == ..)` (tunnel_encap.rs 151-153, 172-174, 191-193, 205-207). -/
def TunnelTlv.sub (t : TunnelTlv) (k : UInt8) : Option Bytes := (t.subs.find? (·.type == k)).map Tlv8.value

/-- `get_tunnel_egress_endpoint` (tunnel_encap.rs 150-168). -/
def TunnelTlv.endpoint (t : TunnelTlv) : Option Ip :=
  (t.sub 6).bind fun v =>
    if h : v.length = 4 then some (.v4 ⟨v.toArray, by simpa using h⟩)
    else if h : v.length = 16 then some (.v6 ⟨v.toArray, by simpa using h⟩)
    else none

/-- `get_color` (tunnel_encap.rs 171-187). -/
def TunnelTlv.color (t : TunnelTlv) : Option UInt32 := (t.sub 4).bind firstU32

/-- `get_udp_destination_port` (tunnel_encap.rs 190-201). -/
def TunnelTlv.udpPort (t : TunnelTlv) : Option UInt16 :=
  (t.sub 8).bind fun v =>
    match v with
    | a :: b :: _ => some (u16of a b)
    | _ => none

/-- `get_preference` (tunnel_encap.rs 204-220). -/
def TunnelTlv.preference (t : TunnelTlv) : Option UInt32 := (t.sub 12).bind firstU32

/-- `TunnelEncapTlv::new` (tunnel_encap.rs 138-143). -/
def TunnelTlv.new (k : UInt16) : TunnelTlv := ⟨k, []⟩

/-- `add_sub_tlv` (tunnel_encap.rs 145-147). -/
def TunnelTlv.addSub (t : TunnelTlv) (s : Tlv8) : TunnelTlv := { t with subs := t.subs ++ [s] }

/-- `get_tunnels_by_type` (tunnel_encap.rs 240-245). -/
def tunnelsByType (ts : List TunnelTlv) (k : UInt16) : List TunnelTlv := ts.filter (·.type == k)

/-- `has_tunnel_type` (tunnel_encap.rs 248-252). -/
def hasTunnelType (ts : List TunnelTlv) (k : UInt16) : Bool := ts.any (·.type == k)

end Verif
