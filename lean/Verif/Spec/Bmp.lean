import Verif.Model.Bmp
import Verif.Spec.Layout
import Verif.Spec.Utf8
/-
BMP messages on the wire (RFC 7854, RFC 8671 for the O flag, RFC 9069 for the local RIB) and OpenBMP headers,
independently of the parser. BGP messages inside are those the parser of BGP messages reads (C15-C19).
-/
namespace Verif.Spec

/-- the number `n` in eight octets, most significant first. -/
def n64 (n : Nat) : Bytes := n32 (n / 4294967296) ++ n32 n

/-- RFC 7854 section 4.1: message types. -/
def bmpTypeNum : BmpMsgType → Nat
  | .routeMonitoring => 0
  | .statisticsReport => 1
  | .peerDown => 2
  | .peerUp => 3
  | .initiation => 4
  | .termination => 5
  | .routeMirroring => 6

/-- A message: version 3, total length, type, content. -/
def bmpFrame (t : UInt8) (content : Bytes) : Bytes := [3] ++ n32 (6 + content.length) ++ [t] ++ content

/-- RFC 7854 section 4.2, RFC 9069 section 4.1: peer types. -/
def bmpPeerNum : BmpPeerType → Nat
  | .global => 0
  | .rd => 1
  | .local => 2
  | .localRib => 3

/-- An address field of sixteen octets: IPv6, or IPv4 in the last four. -/
inductive AddrField : Ip → Bytes → Prop where
  | v6 (a : V6) : AddrField (.v6 a) a.toList
  | v4 (pad : Bytes) (a : V4) : pad.length = 12 → AddrField (.v4 a) (pad ++ a.toList)

/-- An AS number field of four octets: two octets of padding and a two-octet number, or a four-octet number. -/
inductive AsnField : AsnLen → Asn → Bytes → Prop where
  | as2 (pad : Bytes) (a : Asn) : pad.length = 2 → a.toNat < 65536 → AsnField .b16 a (pad ++ n16 a.toNat)
  | as4 (a : Asn) : AsnField .b32 a (n32 a.toNat)

/-- Is this an IPv6 address? -/
def isV6 : Ip → Bool
  | .v4 _ => false
  | .v6 _ => true

/-- The per-peer header. In the flags the top bit (V) tells the address family and the third (A) the size of AS numbers; for
the local RIB there is no address. -/
inductive PeerHeaderBytes : PerPeerHeader → Bytes → Prop where
  | peer {t : BmpPeerType} {f : UInt8} {d : UInt64} {ip : Ip} {asn : Asn} {id : V4} {sec usec : UInt32} {ab nb : Bytes} :
      t ≠ .localRib → isV6 ip = f.toNat.testBit 7 → AddrField ip ab →
      AsnField (if f.toNat.testBit 5 then .b16 else .b32) asn nb →
      PeerHeaderBytes ⟨t, .peer f, d, ip, asn, id, stampOf sec usec⟩
        ([UInt8.ofNat (bmpPeerNum t), f] ++ n64 d.toNat ++ ab ++ nb ++ id.toList ++ n32 sec.toNat ++ n32 usec.toNat)
  | localRib {f : UInt8} {d : UInt64} {asn : Asn} {id : V4} {sec usec : UInt32} {ab : Bytes} :
      ab.length = 16 →
      PeerHeaderBytes ⟨.localRib, .localRib f, d, .v4 #v[0, 0, 0, 0], asn, id, stampOf sec usec⟩
        ([3, f] ++ n64 d.toNat ++ ab ++ n32 asn.toNat ++ id.toList ++ n32 sec.toNat ++ n32 usec.toNat)

/-- the size of AS numbers in the BGP messages of a peer. -/
def bmpAsnLen (h : PerPeerHeader) : AsnLen :=
  match h.flags with
  | .peer f => if f.toNat.testBit 5 then .b16 else .b32
  | .localRib _ => .b32

/-- the BGP message in these octets (octets behind it do not matter). -/
def BgpIn (l : AsnLen) (m : BgpMessage) (b : Bytes) : Prop := ∃ r, parseBgpMessage false l b = .ok (m, r)

/-- A TLV with a text, one character for each octet. -/
def TlvBytes (t : BmpTlv) (b : Bytes) : Prop :=
  ∃ v, v.length = t.len.toNat ∧ t.info = latin1 v ∧ b = n16 t.type.toNat ++ n16 t.len.toNat ++ v

/-- RFC 7854 section 4.5, RFC 8671: termination reasons. -/
def termReasonNum : TermReason → Nat
  | .adminClosed => 0
  | .unspecified => 1
  | .outOfResources => 2
  | .redundant => 3
  | .permanentlyAdminClosed => 4

/-- A TLV of a termination message: text or a reason code of two octets. -/
inductive TermTlvBytes : TermTlv → Bytes → Prop where
  | string {len : UInt16} {v : Bytes} : v.length = len.toNat →
      TermTlvBytes (.string len (latin1 v)) (n16 0 ++ n16 len.toNat ++ v)
  | reason (r : TermReason) : TermTlvBytes (.reason 2 r) (n16 1 ++ n16 2 ++ n16 (termReasonNum r))

/-- RFC 7854 section 4.7: information codes. -/
def mirrorNum : MirrorInfo → Nat
  | .erroredPdu => 0
  | .messageLost => 1

/-- A TLV of a route mirroring message: a BGP message or a code of two octets. -/
inductive MirrorTlvBytes (l : AsnLen) : MirrorTlv → Bytes → Prop where
  | bgp {len : UInt16} {m : BgpMessage} {b : Bytes} : b.length = len.toNat → BgpIn l m b →
      MirrorTlvBytes l (.bgp len m) (n16 0 ++ n16 len.toNat ++ b)
  | info (i : MirrorInfo) : MirrorTlvBytes l (.info 2 i) (n16 1 ++ n16 2 ++ n16 (mirrorNum i))

/-- A statistic: the length tells the kind of value. -/
inductive StatBytes : StatCounter → Bytes → Prop where
  | counter (ty : UInt16) (v : UInt32) : StatBytes ⟨ty, 4, .counter v⟩ (n16 ty.toNat ++ n16 4 ++ n32 v.toNat)
  | gauge (ty : UInt16) (v : UInt64) : StatBytes ⟨ty, 8, .gauge v⟩ (n16 ty.toNat ++ n16 8 ++ n64 v.toNat)
  | afiSafi (ty afi : UInt16) (safi : UInt8) (v : UInt64) :
      StatBytes ⟨ty, 11, .afiSafiGauge afi safi v⟩ (n16 ty.toNat ++ n16 11 ++ n16 afi.toNat ++ [safi] ++ n64 v.toNat)
  | unknown (ty len : UInt16) (b : Bytes) : b.length = len.toNat → len ≠ 4 → len ≠ 8 → len ≠ 11 →
      StatBytes ⟨ty, len, .unknown b⟩ (n16 ty.toNat ++ n16 len.toNat ++ b)

/-- RFC 7854 section 4.9, RFC 9069 section 5.3: why a peer went down, and the data that follows. -/
inductive PeerDownBytes : PeerDown → Bytes → Prop where
  | reserved : PeerDownBytes ⟨.reserved, none⟩ [0]
  | reservedData (b : Bytes) : b ≠ [] → PeerDownBytes ⟨.reserved, some b⟩ (0 :: b)
  | localNotification (b : Bytes) : PeerDownBytes ⟨.localNotification, some b⟩ (1 :: b)
  | localFsmEvent (b : Bytes) : PeerDownBytes ⟨.localFsmEvent, some b⟩ (2 :: b)
  | remoteNotification (b : Bytes) : PeerDownBytes ⟨.remoteNotification, some b⟩ (3 :: b)
  | remoteNoData (b : Bytes) : PeerDownBytes ⟨.remoteNoData, none⟩ (4 :: b)
  | deConfigured (b : Bytes) : PeerDownBytes ⟨.deConfigured, none⟩ (5 :: b)
  | localTlv (b : Bytes) : PeerDownBytes ⟨.localTlv, some b⟩ (6 :: b)

/-- A complete BGP message: its length field is the number of its octets. -/
def WholeBgp (l : AsnLen) (m : BgpMessage) (b : Bytes) : Prop :=
  19 ≤ b.length ∧ (b.drop 16).take 2 = n16 b.length ∧ b.length < 65536 ∧ BgpIn l m b

/-- A peer up message: local address, ports, the two OPENs, TLVs; less than a TLV header may follow. -/
inductive PeerUpBytes (v6 : Bool) (l : AsnLen) : PeerUp → Bytes → Prop where
  | mk {ip : Ip} {lp rp : UInt16} {sent received : BgpMessage} {tlvs : List BmpTlv} {ab sb rb tb junk : Bytes} :
      isV6 ip = v6 → AddrField ip ab → WholeBgp l sent sb → WholeBgp l received rb → Blocks TlvBytes tlvs tb → junk.length < 4 →
      PeerUpBytes v6 l ⟨ip, lp, rp, sent, received, tlvs⟩ (ab ++ n16 lp.toNat ++ n16 rp.toNat ++ sb ++ rb ++ tb ++ junk)

/-- An OpenBMP header (version 1.7, a router message with object type 12, one row), as drawn in openbmp.rs 7-44. -/
inductive OpenBmpBytes : OpenBmpHeader → Bytes → Prop where
  | mk {hl : UInt16} {ml : UInt32} {flags : UInt8} {sec usec : UInt32} {ch admin rh ipb group : Bytes} {ip : Ip} :
      flags.toNat.testBit 7 = true → ch.length = 16 → admin.length < 65536 → rh.length = 16 → group.length < 65536 →
      (match ip with
        | .v6 a => flags.toNat.testBit 6 = true ∧ ipb = a.toList
        | .v4 a => flags.toNat.testBit 6 = false ∧ ∃ pad, pad.length = 12 ∧ ipb = a.toList ++ pad) →
      OpenBmpBytes ⟨1, 7, hl, ml, 12, stampOf sec usec, latin1 admin, ip, some (latin1 group)⟩
        ([0x4F, 0x42, 0x4D, 0x50, 1, 7] ++ n16 hl.toNat ++ n32 ml.toNat ++ [flags, 12] ++ n32 sec.toNat ++ n32 usec.toNat ++
          ch ++ n16 admin.length ++ admin ++ rh ++ ipb ++ n16 group.length ++ group ++ n32 1)

/-- What may follow the TLVs of an initiation message: fewer than five octets, or a TLV that is cut short. -/
def NoTlv (b : Bytes) : Prop :=
  b.length < 5 ∨ ∃ (ty len : UInt16) (v : Bytes), b = n16 ty.toNat ++ n16 len.toNat ++ v ∧ v.length < len.toNat

/-- The same for a termination message, where the type must be one of the two known. -/
def NoTermTlv (b : Bytes) : Prop :=
  b.length < 5 ∨ ∃ (ty len : UInt16) (v : Bytes), ty.toNat ≤ 1 ∧ b = n16 ty.toNat ++ n16 len.toNat ++ v ∧ v.length < len.toNat

/-- a text TLV of a termination message without text. -/
def emptyTerm : TermTlv → Bool
  | .string len _ => len == 0
  | .reason _ _ => false

/-- The content of a message: the per-peer header for all types but initiation and termination, then the body. -/
inductive ContentBytes : BmpMsgType → Option PerPeerHeader → BmpBody → Bytes → Prop where
  | routeMonitoring {h : PerPeerHeader} {m : BgpMessage} {hb b : Bytes} : PeerHeaderBytes h hb → BgpIn (bmpAsnLen h) m b →
      ContentBytes .routeMonitoring (some h) (.routeMonitoring m) (hb ++ b)
  | stats {h : PerPeerHeader} {n : UInt32} {cs : List StatCounter} {hb cb junk : Bytes} : PeerHeaderBytes h hb →
      cs.length = n.toNat → Blocks StatBytes cs cb →
      ContentBytes .statisticsReport (some h) (.statsReport ⟨n, cs⟩) (hb ++ n32 n.toNat ++ cb ++ junk)
  | peerDown {h : PerPeerHeader} {d : PeerDown} {hb b : Bytes} : PeerHeaderBytes h hb → PeerDownBytes d b →
      ContentBytes .peerDown (some h) (.peerDown d) (hb ++ b)
  | peerUp {h : PerPeerHeader} {u : PeerUp} {hb b : Bytes} : PeerHeaderBytes h hb → PeerUpBytes (isV6 h.ip) (bmpAsnLen h) u b →
      ContentBytes .peerUp (some h) (.peerUp u) (hb ++ b)
  | routeMirroring {h : PerPeerHeader} {ts : List MirrorTlv} {hb tb junk : Bytes} : PeerHeaderBytes h hb →
      Blocks (MirrorTlvBytes (bmpAsnLen h)) ts tb → junk.length < 5 →
      ContentBytes .routeMirroring (some h) (.routeMirroring ts) (hb ++ tb ++ junk)
  | initiation {ts : List BmpTlv} {tb junk : Bytes} : Blocks TlvBytes ts tb → NoTlv junk →
      (∀ t, ts.getLast? = some t → t.len = 0 → junk ≠ []) →
      ContentBytes .initiation none (.initiation ts) (tb ++ junk)
  | termination {ts : List TermTlv} {tb junk : Bytes} : Blocks TermTlvBytes ts tb → NoTermTlv junk →
      (∀ t, ts.getLast? = some t → emptyTerm t = true → junk ≠ []) →
      ContentBytes .termination none (.termination ts) (tb ++ junk)

/-- The reason and information codes among the TLVs have the length of two octets that RFC 7854 gives them. -/
def CodesHaveLength2 : BmpBody → Prop
  | .termination ts => ∀ len r, TermTlv.reason len r ∈ ts → len = 2
  | .routeMirroring ts => ∀ len i, MirrorTlv.info len i ∈ ts → len = 2
  | _ => True

end Verif.Spec
