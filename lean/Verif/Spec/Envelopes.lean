import Verif.Model.Elem
import Verif.Spec.Mrt
import Verif.Spec.MrtFrame
/-
The ways a BGP message can reach the library: alone, in an MRT record, in a BMP message, in a message of RIS Live. What they
have in common is the message; what they add is a peer and a time.
-/
namespace Verif.Spec

/-- Elements as they are reported if they are heard at this time from this peer; nothing else about them changes. -/
def heard (time : Nat) (ip : Ip) (asn : Asn) (es : List BgpElem) : List BgpElem :=
  es.map fun e => { e with time := time, peerIp := ip, peerAsn := asn }

/-- These octets, alone, are a BGP message with these elements: `parse_bgp_message` reads them (with path identifiers or without,
AS numbers of this width), and `bgp_to_elems` gives the elements, for time zero and the peer 0.0.0.0, AS 0. -/
def Alone (addPath : Bool) (l : AsnLen) (d : Bytes) (es : List BgpElem) : Prop :=
  ∃ m r, parseBgpMessage addPath l d = .ok (m, r) ∧ es = bgpToElems m 0 (.v4 #v[0, 0, 0, 0]) 0

/-- A BGP4MP record in which the octets arrive: a message subtype with its AS number width and path identifiers, the peer, and
the octets behind the header. -/
structure CarriedByMrt (addPath : Bool) (l : AsnLen) (peerIp : Ip) (peerAsn : Asn) (raw : Raw) (d : Bytes) : Prop where
  type : raw.header.type = .bgp4mp ∨ raw.header.type = .bgp4mpEt
  body : ∃ t n localAsn iface localIp, mpMessageType t = some (n, l, addPath) ∧ raw.header.subtype = UInt16.ofNat n ∧
    AsnFits l peerAsn ∧ AsnFits l localAsn ∧ localIp.isV4 = peerIp.isV4 ∧
    raw.body = mpHeadBytes l peerAsn localAsn iface peerIp localIp ++ d

/-- A record of the deprecated type 5, subtype UPDATE, in which the octets arrive without the 19 octets of the BGP header. -/
def CarriedByLegacy (peerIp : Ip) (peerAsn : Asn) (raw : Raw) (payload : Bytes) : Prop :=
  raw.header.type = .bgp ∧ raw.header.subtype = 1 ∧ ∃ (p q : V4) (localAsn : UInt16), peerIp = .v4 p ∧ peerAsn.toNat < 65536 ∧
    raw.body = n16 peerAsn.toNat ++ p.toList ++ n16 localAsn.toNat ++ q.toList ++ payload

end Verif.Spec
