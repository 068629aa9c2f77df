import Verif.Model.MrtBody
import Verif.Spec.Bgp
/-
MRT message bodies on the wire (RFC 6396, 6397, 8050), independently of the parser.
-/
namespace Verif.Spec

/-! ### TABLE_DUMP_V2 peer tables -/

/-- A peer entry: type, BGP id, address, AS number. Bit 0 of the type says that the address is IPv6, bit 1 that the AS
number has four octets. -/
def PeerBytes (p : Peer) (b : Bytes) : Prop :=
  p.peerType.toNat.testBit 0 = !p.ip.isV4 ∧
  (p.peerType.toNat.testBit 1 = false → p.asn.toNat < 65536) ∧
  b = [p.peerType] ++ p.bgpId.toList ++ p.ip.octets ++
    (if p.peerType.toNat.testBit 1 then n32 p.asn.toNat else n16 p.asn.toNat)

/-- The PEER_INDEX_TABLE layout. -/
def PeerTableBytes (collector : V4) (name : Bytes) (peers : List Peer) (b : Bytes) : Prop :=
  name.length < 65536 ∧ peers.length < 65536 ∧ ∃ pb, Blocks PeerBytes peers pb ∧
    b = collector.toList ++ n16 name.length ++ name ++ n16 peers.length ++ pb

/-- `t` is the table of `peers`: the index of a peer is its position, an address resolves to its last position. -/
structure TableOf (t : PeerIndexTable) (collector : V4) (name : Bytes) (peers : List Peer) : Prop where
  collector : t.collector = collector
  name : t.viewName = name
  peer : ∀ id, t.peer id = peers[id.toNat]?
  idOf : ∀ ip id, t.idOf ip = some id ↔
    (∃ p, peers[id.toNat]? = some p ∧ p.ip = ip) ∧ ∀ j q, id.toNat < j → peers[j]? = some q → q.ip ≠ ip

/-- A peer whose type octet describes its address and AS number. -/
def PeerOk (p : Peer) : Prop :=
  p.peerType.toNat.testBit 0 = !p.ip.isV4 ∧ (p.peerType.toNat.testBit 1 = false → p.asn.toNat < 65536)

instance (p : Peer) : Decidable (PeerOk p) := by unfold PeerOk; infer_instance

/-- A peer index table: a UTF-8 name, and peers numbered from 0 without gaps. The last line says that the association
list represents a map. -/
structure PeerTableOk (t : PeerIndexTable) : Prop where
  name : utf8Ok t.viewName = true
  dense : ∀ id, (t.peer id).isSome ↔ id.toNat < t.idPeer.length
  peers : ∀ id p, t.peer id = some p → PeerOk p
  isMap : (t.idPeer.map Prod.fst).Nodup

/-- `AddHistory h t`: starting from the empty table, the successful `add_peer` calls with arguments and results `h`
(latest first) lead to `t`. Failing calls leave the table as it is. -/
inductive AddHistory : List (Peer × UInt16) → PeerIndexTable → Prop where
  | empty : AddHistory [] .empty
  | add {h : List (Peer × UInt16)} {t t' : PeerIndexTable} {p : Peer} {id : UInt16} :
      AddHistory h t → t.addPeer p = .ok (id, t') → AddHistory ((p, id) :: h) t'

/-- A GEO_PEER_TABLE entry: a peer and two 32-bit floating point numbers. -/
def GeoPeerBytes (g : GeoPeer) (b : Bytes) : Prop :=
  ∃ pb, PeerBytes g.peer pb ∧ b = pb ++ n32 g.lat.toNat ++ n32 g.long.toNat

/-- The GEO_PEER_TABLE layout. -/
def GeoTableBytes (t : GeoPeerTable) (name : Bytes) (b : Bytes) : Prop :=
  name.length < 65536 ∧ t.peers.length < 65536 ∧ ∃ pb, Blocks GeoPeerBytes t.peers pb ∧
    b = t.collector.toList ++ n16 name.length ++ name ++ n32 t.lat.toNat ++ n32 t.long.toNat ++ n16 t.peers.length ++ pb

/-- all octets below 128. -/
def Ascii (s : Bytes) : Prop := ∀ b ∈ s, b.toNat < 128

/-! ### TABLE_DUMP_V2 RIB records -/

/-- the subtype numbers of the RIB records with address family, subsequent family, Add-Path. -/
def ribFamily : V2Type → Option (Nat × Afi × Safi × Bool)
  | .v4Uni => some (2, .ipv4, .unicast, false)
  | .v4Multi => some (3, .ipv4, .multicast, false)
  | .v6Uni => some (4, .ipv6, .unicast, false)
  | .v6Multi => some (5, .ipv6, .multicast, false)
  | .v4UniAp => some (8, .ipv4, .unicast, true)
  | .v4MultiAp => some (9, .ipv4, .multicast, true)
  | .v6UniAp => some (10, .ipv6, .unicast, true)
  | .v6MultiAp => some (11, .ipv6, .multicast, true)
  | _ => none

/-- A prefix: length in bits, then as many octets of the address as it needs; the others are zero. -/
def PrefixBytes (afi : Afi) (p : IpNet) (b : Bytes) : Prop :=
  FamilyOk afi p.addr ∧ LenOk afi p.len ∧ TailZero p ∧ b = [p.len] ++ p.addr.octets.take ((p.len.toNat + 7) / 8)

/-- The session parameters under which the attributes of a RIB entry are parsed. -/
def ribCfg (addPath : Bool) (afi : Afi) (safi : Safi) (p : NetworkPrefix) : AttrCfg :=
  ⟨.b32, addPath, some afi, some safi, some [p]⟩

/-- A path identifier field, present exactly with Add-Path. -/
def PathIdBytes (addPath : Bool) (i : Option UInt32) (b : Bytes) : Prop :=
  match i with
  | some i => addPath = true ∧ b = n32 i.toNat
  | none => addPath = false ∧ b = []

/-- A RIB entry: peer index, originated time, path identifier with Add-Path, attribute length, attributes. -/
def RibEntryBytes (addPath : Bool) (afi : Afi) (safi : Safi) (p : NetworkPrefix) (e : RibEntry) (b : Bytes) : Prop :=
  ∃ pb ab as, PathIdBytes addPath e.pathId pb ∧ ab.length < 65536 ∧
    b = n16 e.peerIndex.toNat ++ n32 e.time.toNat ++ pb ++ n16 ab.length ++ ab ∧
    parseAttributes (ribCfg addPath afi safi p) ab = .ok as ∧
    e.attributes = as.checkMandatory true (afi == .ipv4)

/-- A RIB record of this kind on the wire: sequence number, prefix, number of entries, entries. If something that is not
an entry comes before the announced number is reached, the record has the entries before it. -/
def RibBytes (t : V2Type) (r : RibAfi) (s : Bytes) : Prop :=
  ∃ n afi safi ap pb body tail k, ribFamily t = some (n, afi, safi, ap) ∧ r.ribType = t ∧ r.prefix_.pathId = none ∧
    PrefixBytes afi r.prefix_.prefix_ pb ∧ k < 65536 ∧
    s = n32 r.seq.toNat ++ pb ++ n16 k ++ body ++ tail ∧
    Blocks (RibEntryBytes ap afi safi r.prefix_) r.entries body ∧
    (r.entries.length = k ∨
      (r.entries.length < k ∧ ∀ e c u, tail = c ++ u → ¬ RibEntryBytes ap afi safi r.prefix_ e c))

/-- The entry can be carried by a record of this kind. -/
structure RibEntryOk (addPath : Bool) (afi : Afi) (safi : Safi) (p : NetworkPrefix) (e : RibEntry) : Prop where
  path : e.pathId.isSome = addPath
  attributes : ∀ a ∈ e.attributes.inner, AttrValOk (ribCfg addPath afi safi p) a.value

/-- A RIB record that can be sent. -/
def RibOk (r : RibAfi) : Prop :=
  ∃ n afi safi ap, ribFamily r.ribType = some (n, afi, safi, ap) ∧ PrefixOk afi false r.prefix_ ∧
    ∀ e ∈ r.entries, RibEntryOk ap afi safi r.prefix_ e

/-- the same entry up to the warnings and the type index of the attribute set, which are not sent. -/
def SameEntry (e e' : RibEntry) : Prop :=
  e'.peerIndex = e.peerIndex ∧ e'.time = e.time ∧ e'.pathId = e.pathId ∧ e'.attributes.inner = e.attributes.inner

/-- the same record up to the warnings and type indexes of its attribute sets. -/
def SameRib (r r' : RibAfi) : Prop :=
  r'.ribType = r.ribType ∧ r'.seq = r.seq ∧ r'.prefix_ = r.prefix_ ∧ Pairwise2 SameEntry r.entries r'.entries

/-! ### TABLE_DUMP -/

/-- The session parameters under which the attributes of a TABLE_DUMP entry are parsed. -/
def dumpCfg : AttrCfg := ⟨.b16, false, none, none, none⟩

/-- A TABLE_DUMP entry: address, length, status, originated time, peer address, peer AS, attribute length, attributes. -/
def DumpEntryBytes (v4 : Bool) (view seq : UInt16) (m : TableDump) (b : Bytes) : Prop :=
  m.view = view ∧ m.seq = seq ∧ m.prefix_.pathId = none ∧
  m.prefix_.prefix_.addr.isV4 = v4 ∧ m.peerIp.isV4 = v4 ∧
  m.prefix_.prefix_.len.toNat ≤ (if v4 then 32 else 128) ∧ m.time.toNat < 4294967296 ∧ m.peerAsn.toNat < 65536 ∧
  ∃ ab as, ab.length < 65536 ∧
    b = m.prefix_.prefix_.addr.octets ++ [m.prefix_.prefix_.len, m.status] ++ n32 m.time.toNat ++ m.peerIp.octets ++
      n16 m.peerAsn.toNat ++ n16 ab.length ++ ab ∧
    parseAttributes dumpCfg ab = .ok as ∧ m.attributes = as.checkMandatory true v4

/-- A TABLE_DUMP message that can be sent under subtype 1 (IPv4) or 2 (IPv6). -/
structure DumpOk (v4 : Bool) (m : TableDump) : Prop where
  prefixFamily : m.prefix_.prefix_.addr.isV4 = v4
  prefixLen : m.prefix_.prefix_.len.toNat ≤ (if v4 then 32 else 128)
  noPath : m.prefix_.pathId = none
  peerFamily : m.peerIp.isV4 = v4
  time : m.time.toNat < 4294967296
  asn : m.peerAsn.toNat < 65536
  attributes : ∀ a ∈ m.attributes.inner, AttrValOk dumpCfg a.value

/-- the same message up to the warnings and the type index of the attribute set. -/
def SameDump (m m' : TableDump) : Prop :=
  m'.view = m.view ∧ m'.seq = m.seq ∧ m'.prefix_ = m.prefix_ ∧ m'.status = m.status ∧ m'.time = m.time ∧
    m'.peerIp = m.peerIp ∧ m'.peerAsn = m.peerAsn ∧ m'.attributes.inner = m.attributes.inner

/-! ### BGP4MP -/

/-- FSM state numbers. -/
def stateNum : BgpState → Nat
  | .idle => 1
  | .connect => 2
  | .active => 3
  | .openSent => 4
  | .openConfirm => 5
  | .established => 6
  | .clearing => 7
  | .deleted => 8

/-- subtype number, AS number width and Add-Path of the message subtypes. -/
def mpMessageType : MpType → Option (Nat × AsnLen × Bool)
  | .message => some (1, .b16, false)
  | .messageAs4 => some (4, .b32, false)
  | .messageLocal => some (6, .b16, false)
  | .messageAs4Local => some (7, .b32, false)
  | .messageAp => some (8, .b16, true)
  | .messageAs4Ap => some (9, .b32, true)
  | .messageLocalAp => some (10, .b16, true)
  | .messageLocalAs4Ap => some (11, .b32, true)
  | _ => none

/-- subtype number and AS number width of the state change subtypes. -/
def mpStateType : MpType → Option (Nat × AsnLen)
  | .stateChange => some (0, .b16)
  | .stateChangeAs4 => some (5, .b32)
  | _ => none

/-- The BGP4MP header: peer AS, local AS, interface index, address family, peer address, local address. -/
def mpHeadBytes (l : AsnLen) (peer loc : Asn) (iface : UInt16) (peerIp localIp : Ip) : Bytes :=
  asnBytes l peer ++ asnBytes l loc ++ n16 iface.toNat ++ n16 (afiNum peerIp.afi) ++ peerIp.octets ++ localIp.octets

/-- The historical Zebra OPEN record: after two 2-octet AS numbers comes the BGP message, with an all-ones marker and
type OPEN. -/
def ZebraOpen (s : Bytes) : Prop :=
  ∃ (as len : Bytes) (rest : Bytes), as.length = 4 ∧ len.length = 2 ∧
    s = as ++ List.replicate 16 0xFF ++ len ++ [1] ++ rest

open Classical in
/-- A BGP4MP message on the wire: the header and a BGP message, with anything behind it; or the Zebra form, which has no
interface, family and addresses. -/
def MpMessageBytes (l : AsnLen) (addPath : Bool) (m : MpMessage) (s : Bytes) : Prop :=
  AsnFits l m.peerAsn ∧ AsnFits l m.localAsn ∧ ∃ msg r, parseBgpMessage addPath l msg = .ok (m.message, r) ∧
    if l = .b16 ∧ ZebraOpen s then
      s = asnBytes l m.peerAsn ++ asnBytes l m.localAsn ++ msg ∧ m.iface = 0 ∧ m.peerIp = .v4 v4zero ∧
        m.localIp = .v4 v4zero
    else
      s = mpHeadBytes l m.peerAsn m.localAsn m.iface m.peerIp m.localIp ++ msg ∧ m.localIp.isV4 = m.peerIp.isV4

/-- A BGP4MP state change on the wire: the header and two state numbers, with anything behind them; a record of eight
octets with 2-octet AS numbers is the Zebra form, without interface, family and addresses. -/
def MpStateBytes (l : AsnLen) (m : MpStateChange) (s : Bytes) : Prop :=
  AsnFits l m.peerAsn ∧ AsnFits l m.localAsn ∧
    if l = .b16 ∧ s.length = 8 then
      s = asnBytes l m.peerAsn ++ asnBytes l m.localAsn ++ n16 (stateNum m.old) ++ n16 (stateNum m.new) ∧ m.iface = 0 ∧
        m.peerIp = .v4 v4zero ∧ m.localIp = .v4 v4zero
    else
      m.localIp.isV4 = m.peerIp.isV4 ∧ ∃ r, s = mpHeadBytes l m.peerAsn m.localAsn m.iface m.peerIp m.localIp ++
        n16 (stateNum m.old) ++ n16 (stateNum m.new) ++ r

/-- A BGP4MP message that can be sent under this subtype. -/
structure MpMessageOk (l : AsnLen) (addPath : Bool) (m : MpMessage) : Prop where
  peerAsn : AsnFits l m.peerAsn
  localAsn : AsnFits l m.localAsn
  family : m.localIp.isV4 = m.peerIp.isV4
  message : MessageOk addPath l m.message

/-- A BGP4MP state change that can be sent under this subtype. -/
structure MpStateOk (l : AsnLen) (m : MpStateChange) : Prop where
  peerAsn : AsnFits l m.peerAsn
  localAsn : AsnFits l m.localAsn
  family : m.localIp.isV4 = m.peerIp.isV4

/-- the same BGP4MP message, with the same embedded message in the sense of `SameMessage`. -/
def SameMp (m m' : MpMessage) : Prop :=
  m'.msgType = m.msgType ∧ m'.peerAsn = m.peerAsn ∧ m'.localAsn = m.localAsn ∧ m'.iface = m.iface ∧
    m'.peerIp = m.peerIp ∧ m'.localIp = m.localIp ∧ SameMessage m.message m'.message

/-! ### the deprecated type 5 -/

/-- subtype numbers of the deprecated BGP type. -/
def legacyNum : BgpMessage → Option Nat
  | .update _ => some 1
  | .open _ => some 5
  | .notification _ => some 6
  | .keepAlive => some 7
  | .routeRefresh _ => none

/-- A type 5 message on the wire: peer AS, peer address, local AS, local address (IPv4), and the message without its
header. -/
def LegacyMessageBytes (m : LegacyMessage) (payload : Bytes) (s : Bytes) : Prop :=
  ∃ p l, m.peerIp = .v4 p ∧ m.localIp = .v4 l ∧ m.peerAsn.toNat < 65536 ∧ m.localAsn.toNat < 65536 ∧
    s = n16 m.peerAsn.toNat ++ p.toList ++ n16 m.localAsn.toNat ++ l.toList ++ payload

/-- A type 5 state change on the wire: peer AS, peer address, old and new state. -/
def LegacyStateBytes (m : LegacyStateChange) (s : Bytes) : Prop :=
  ∃ p, m.peerIp = .v4 p ∧ m.peerAsn.toNat < 65536 ∧
    s = n16 m.peerAsn.toNat ++ p.toList ++ n16 (stateNum m.old) ++ n16 (stateNum m.new)

/-- A type 5 message that can be sent: the payload is parsed with 2-octet AS numbers and without Add-Path. -/
def LegacyPayloadOk : BgpMessage → Prop
  | .open m => OpenOk m
  | .update u => UpdateOk false .b16 u
  | .notification n => ErrorOk n.error
  | .keepAlive => True
  | .routeRefresh _ => False

end Verif.Spec
