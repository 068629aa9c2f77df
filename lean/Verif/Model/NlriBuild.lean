import Verif.Model.Elem
/-
NLRI built by hand: `/repo/src/models/bgp/attributes/nlri.rs`, `/repo/src/models/network/nexthop.rs`. (`new_reachable` and
`new_unreachable` are in Elem.lean.)
-/
namespace Verif

/-- `Nlri::is_ipv4` (nlri.rs 37-39). -/
def Nlri.isIpv4 (n : Nlri) : Bool := n.afi == .ipv4

/-- `Nlri::is_ipv6` (nlri.rs 42-44). -/
def Nlri.isIpv6 (n : Nlri) : Bool := n.afi == .ipv6

/-- `Nlri::is_link_state` (nlri.rs 47-49). -/
def Nlri.isLinkState (n : Nlri) : Bool := n.afi == .linkState

/-- `Nlri::is_flowspec` (nlri.rs 52-54). -/
def Nlri.isFlowspec (n : Nlri) : Bool := n.safi == .flowSpec || n.safi == .flowSpecL3Vpn

/-- `Nlri::is_mpls_labeled` (nlri.rs 57-59). -/
def Nlri.isMplsLabeled (n : Nlri) : Bool := n.safi == .mplsLabel

/-- `Nlri::is_reachable` (nlri.rs 62-64). -/
def Nlri.isReachable (n : Nlri) : Bool := n.nextHop.isSome

/-- `Nlri::next_hop_addr` (nlri.rs 69-74); `none` is the panic. -/
def Nlri.nextHopAddr (n : Nlri) : Option Ip := n.nextHop.map NextHop.addr

/-- `Nlri::new_link_state_reachable` (nlri.rs 111-126). -/
def Nlri.newLinkStateReachable (nh : Option Ip) (f : Safi) (ls : List LsNlri) : Nlri :=
  ⟨.linkState, f, nh.map NextHop.ofIp, [], none, some ls, none⟩

/-- `Nlri::new_link_state_unreachable` (nlri.rs 128-141). -/
def Nlri.newLinkStateUnreachable (f : Safi) (ls : List LsNlri) : Nlri := ⟨.linkState, f, none, [], none, some ls, none⟩

/-- `Nlri::new_flowspec_reachable` (nlri.rs 144-160). -/
def Nlri.newFlowspecReachable (a : Afi) (f : Safi) (nh : Option Ip) (fs : List (List FsComp)) : Nlri :=
  ⟨a, f, nh.map NextHop.ofIp, [], none, none, some fs⟩

/-- `Nlri::new_flowspec_unreachable` (nlri.rs 163-177). -/
def Nlri.newFlowspecUnreachable (a : Afi) (f : Safi) (fs : List (List FsComp)) : Nlri := ⟨a, f, none, [], none, none, some fs⟩

/-- `Nlri::new_labeled_reachable` (nlri.rs 180-195). -/
def Nlri.newLabeledReachable (a : Afi) (nh : Option Ip) (ps : List LabeledPrefix) : Nlri :=
  ⟨a, .mplsLabel, nh.map NextHop.ofIp, [], some ps, none, none⟩

/-- `Nlri::new_labeled_unreachable` (nlri.rs 199-209). -/
def Nlri.newLabeledUnreachable (a : Afi) (ps : List NetworkPrefix) : Nlri := ⟨a, .mplsLabel, none, ps, none, none, none⟩

/-- `IntoIterator for Nlri` and for `&Nlri` (nlri.rs 218-251). -/
def Nlri.iter (n : Nlri) : List IpNet :=
  n.prefixes.map (·.prefix_) ++
    match n.labeled with
    | some ls => ls.map (·.prefix_)
    | none => []

/-- `x.segments()[0] & 0xffc0 == 0xfe80` (nexthop.rs 55, 57). -/
def v6LinkLocal (a : V6) : Bool := (a[0].toUInt16 <<< 8 ||| a[1].toUInt16) &&& 0xffc0 == 0xfe80

/-- `NextHopAddress::is_link_local` (nexthop.rs 52-60); `Ipv4Addr::is_link_local` of the standard library is "the first two octets
are 169 and 254". -/
def NextHop.isLinkLocal : NextHop → Bool
  | .v4 a => a[0] == 169 && a[1] == 254
  | .v6 a => v6LinkLocal a
  | .v6ll _ _ => true
  | .vpn6 _ a => v6LinkLocal a
  | .vpn6ll .. => true

/-- `LabeledNetworkPrefix::top_label` (mpls.rs 343-345). -/
def LabeledPrefix.topLabel (p : LabeledPrefix) : Option Label := p.labels.head?

/-- `LabeledNetworkPrefix::bottom_label` (mpls.rs 348-350). -/
def LabeledPrefix.bottomLabel (p : LabeledPrefix) : Option Label := p.labels.getLast?

/-- `LabeledNetworkPrefix::has_multiple_labels` (mpls.rs 353-355). -/
def LabeledPrefix.hasMultipleLabels (p : LabeledPrefix) : Bool := p.labels.length > 1

/-- `LabeledNetworkPrefix::label_count` (mpls.rs 358-360). -/
def LabeledPrefix.labelCount (p : LabeledPrefix) : Nat := p.labels.length

end Verif
