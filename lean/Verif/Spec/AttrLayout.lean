import Verif.Spec.Attr
import Verif.Spec.Layout
/-
The octets of path attribute values, from the RFCs.
-/
namespace Verif.Spec

/-- a one-octet or two-octet length, then the value. -/
def Len8 (v c : Bytes) : Prop := v.length < 256 ∧ c = UInt8.ofNat v.length :: v
def Len16 (v c : Bytes) : Prop := v.length < 65536 ∧ c = n16 v.length ++ v

/-- the assigned attribute type codes. -/
def assignedCode : AttrVal → UInt8
  | .origin _ => 1
  | .asPath _ => 2
  | .nextHop _ => 3
  | .med _ => 4
  | .localPref _ => 5
  | .atomic => 6
  | .aggregator _ _ => 7
  | .communities _ => 8
  | .originatorId _ => 9
  | .clusters _ => 10
  | .mpReach _ => 14
  | .mpUnreach _ => 15
  | .extCommunities _ => 16
  | .as4Path _ => 17
  | .as4Aggregator _ _ => 18
  | .tunnel _ => 23
  | .trafficEng _ => 24
  | .ipv6ExtCommunities _ => 25
  | .aigp _ => 26
  | .linkState _ => 29
  | .largeCommunities _ => 32
  | .otc _ => 35
  | .sfp _ => 37
  | .bfd _ => 38
  | .prefixSid _ => 40
  | .bier _ => 41
  | .attrSet _ _ => 128
  | .development _ => 255
  | .raw c _ => c
  | .deprecated c _ => c
  | .unknown c _ => c

/-- AS_PATH segment types (RFC 4271, RFC 5065). -/
def segType : Seg → UInt8
  | .set _ => 1
  | .seq _ => 2
  | .confedSeq _ => 3
  | .confedSet _ => 4

def segMembers : Seg → List Asn
  | .set xs | .seq xs | .confedSeq xs | .confedSet xs => xs

/-- type, number of AS numbers, AS numbers. -/
def SegBytes (l : AsnLen) (s : Seg) (c : Bytes) : Prop :=
  (segMembers s).length < 256 ∧ (∀ a ∈ segMembers s, AsnFits l a) ∧
    c = [segType s, UInt8.ofNat (segMembers s).length] ++ (segMembers s).flatMap (asnBytes l)

/-- RFC 1997. -/
def CommunityBytes (c : Community) (b : Bytes) : Prop :=
  b = match c with
    | .noExport => [0xFF, 0xFF, 0xFF, 0x01]
    | .noAdvertise => [0xFF, 0xFF, 0xFF, 0x02]
    | .noExportSubConfed => [0xFF, 0xFF, 0xFF, 0x03]
    | .custom a v => n16 a.toNat ++ n16 v.toNat

/-- RFC 8092. -/
def LargeBytes (c : LargeCommunity) (b : Bytes) : Prop :=
  b = n32 c.globalAdmin.toNat ++ n32 c.local1.toNat ++ n32 c.local2.toNat

/-- RFC 4360, RFC 8955 (traffic filtering actions: sub-types 6 to 9), link bandwidth (sub-type 4). -/
def ExtBytes (c : ExtCommunity) (b : Bytes) : Prop :=
  b = match c with
    | .twoOctetAs st a l => [0x00, st] ++ n16 a.toNat ++ l.toList
    | .ipv4Addr st a l => [0x01, st] ++ a.toList ++ l.toList
    | .fourOctetAs st a l => [0x02, st] ++ n32 a.toNat ++ l.toList
    | .opaq st v => [0x03, st] ++ v.toList
    | .ntTwoOctetAs st a l => [0x40, st] ++ n16 a.toNat ++ l.toList
    | .ntIpv4Addr st a l => [0x41, st] ++ a.toList ++ l.toList
    | .ntFourOctetAs st a l => [0x42, st] ++ n32 a.toNat ++ l.toList
    | .ntOpaque st v => [0x43, st] ++ v.toList
    | .trafficRate a r => [0x40, 6] ++ n16 a.toNat ++ n32 r.toNat
    | .trafficAction a t s => [0x40, 7] ++ n16 a.toNat ++ [0, 0, 0, (if t then 1 else 0) + (if s then 2 else 0)]
    | .redirect _ a l => [0x40, 8] ++ n16 a.toNat ++ l.toList
    | .trafficMarking a d => [0x40, 9] ++ n16 a.toNat ++ [d, 0, 0, 0]
    | .linkBandwidth g w t => [if t then 0x00 else 0x40, 4] ++ n16 g.toNat ++ n32 w.toNat
    | .raw v => v.toList

/-- the type octet of an IPv6 extended community. -/
def extTypeNum : ExtType → UInt8
  | .twoOctetAs => 0
  | .ipv4Addr => 1
  | .fourOctetAs => 2
  | .opaq => 3
  | .ntTwoOctetAs => 0x40
  | .ntIpv4Addr => 0x41
  | .ntFourOctetAs => 0x42
  | .ntOpaque => 0x43
  | .unknown c => c

/-- RFC 5701. -/
def Ipv6ExtBytes (c : Ipv6ExtCommunity) (b : Bytes) : Prop :=
  b = [extTypeNum c.type, c.subtype] ++ c.addr.toList ++ c.loc.toList

/-- type, length, value. -/
def Tlv16Bytes (t : Tlv16) (b : Bytes) : Prop := ∃ v, Len16 t.value v ∧ b = n16 t.type.toNat ++ v
def Tlv8Len16Bytes (t : Tlv8) (b : Bytes) : Prop := ∃ v, Len16 t.value v ∧ b = [t.type] ++ v
def Tlv8Bytes (t : Tlv8) (b : Bytes) : Prop := ∃ v, Len8 t.value v ∧ b = [t.type] ++ v

/-- RFC 9012: sub-TLV types below 128 have a one-octet length. -/
def SubTlvBytes (t : Tlv8) (b : Bytes) : Prop := if t.type.toNat < 128 then Tlv8Bytes t b else Tlv8Len16Bytes t b

def TunnelBytes (t : TunnelTlv) (b : Bytes) : Prop :=
  ∃ s v, Blocks SubTlvBytes t.subs s ∧ Len16 s v ∧ b = n16 t.type.toNat ++ v

/-- RFC 7311: the length counts type and length. -/
def AigpBytes (t : AigpTlv) (b : Bytes) : Prop := b = [t.type] ++ n16 (t.value.length + 3) ++ t.value

/-- RFC 4271: optional path identifier, length in bits, as many octets as the length needs. -/
def NlriBytes (p : NetworkPrefix) (b : Bytes) : Prop :=
  b = (match p.pathId with | some i => n32 i.toNat | none => []) ++ [p.prefix_.len] ++
    p.prefix_.addr.octets.take ((p.prefix_.len.toNat + 7) / 8)

/-- a label, three zero bits, bottom of stack: three octets. -/
def labelBytes (l : Label) (bottom : Bool) : Bytes :=
  let n := l.toNat * 16 + if bottom then 1 else 0
  [UInt8.ofNat (n / 65536), UInt8.ofNat (n / 256), UInt8.ofNat n]

def stackBytes : List Label → Bytes
  | [] => []
  | [l] => labelBytes l true
  | l :: ls => labelBytes l false ++ stackBytes ls

/-- RFC 8277: the length counts the bits of the labels. -/
def LabeledBytes (p : LabeledPrefix) (b : Bytes) : Prop :=
  b = (match p.pathId with | some i => n32 i.toNat | none => []) ++ [UInt8.ofNat (24 * p.labels.length + p.prefix_.len.toNat)] ++
    stackBytes p.labels ++ p.prefix_.addr.octets.take ((p.prefix_.len.toNat + 7) / 8)

/-- the octets of a next hop. -/
def nextHopBytes : NextHop → Bytes
  | .v4 a => a.toList
  | .v6 a => a.toList
  | .v6ll a b => a.toList ++ b.toList
  | .vpn6 rd a => rd.toList ++ a.toList
  | .vpn6ll rd a rd' b => rd.toList ++ a.toList ++ rd'.toList ++ b.toList

/-- its length, its octets and a reserved octet. -/
def nextHopField : Option NextHop → Bytes
  | some h => [UInt8.ofNat (nextHopBytes h).length] ++ nextHopBytes h ++ [0]
  | none => []

/-- RFC 4760 section 5: AFI, SAFI, next hop with its length and a reserved octet (announcements only), routes. -/
def MpBytes (n : Nlri) (b : Bytes) : Prop :=
  ∃ r, (if n.safi = .mplsLabel then Blocks LabeledBytes (n.labeled.getD []) r else Blocks NlriBytes n.prefixes r) ∧
    b = n16 (afiNum n.afi) ++ [UInt8.ofNat (safiNum n.safi)] ++ nextHopField n.nextHop ++ r

/-- `b` are the octets of the value `v` in a session with this AS number width. -/
def ValueBytes (l : AsnLen) (v : AttrVal) (b : Bytes) : Prop :=
  match v with
  | .origin o => b = [match o with | .igp => 0 | .egp => 1 | .incomplete => 2]
  | .asPath p => Blocks (SegBytes l) p b
  | .as4Path p => Blocks (SegBytes .b32) p b
  | .nextHop a => b = a.octets
  | .med x => b = n32 x.toNat
  | .localPref x => b = n32 x.toNat
  | .otc x => b = n32 x.toNat
  | .atomic => b = []
  | .aggregator a i => AsnFits l a ∧ b = asnBytes l a ++ i.toList
  | .as4Aggregator a i => b = asnBytes .b32 a ++ i.toList
  | .communities cs => Blocks CommunityBytes cs b
  | .extCommunities cs => Blocks ExtBytes cs b
  | .ipv6ExtCommunities cs => Blocks Ipv6ExtBytes cs b
  | .largeCommunities cs => Blocks LargeBytes cs b
  | .originatorId i => b = i.toList
  | .clusters cs => Blocks (fun c b => b = n32 c.toNat) cs b
  | .mpReach n => MpBytes n b
  | .mpUnreach n => MpBytes n b
  | .linkState a => Blocks Tlv16Bytes ((a.node ++ a.link ++ a.pfx).map (fun p => ⟨p.1, p.2⟩) ++ a.unknown) b
  | .tunnel ts => Blocks TunnelBytes ts b
  | .trafficEng t => ∃ w, Blocks (fun x b => b = n32 x.toNat) t.bandwidth.toList w ∧
      b = [t.switchCap, t.encoding] ++ n16 t.reserved.toNat ++ w ++ t.specific
  | .bfd x => ∃ w, Blocks Tlv8Bytes x.tlvs w ∧ b = [x.mode] ++ n32 x.disc.toNat ++ w
  | .prefixSid ts => Blocks Tlv8Len16Bytes ts b
  | .sfp ts => Blocks Tlv8Len16Bytes ts b
  | .bier ts => Blocks Tlv16Bytes ts b
  | .aigp ts => Blocks AigpBytes ts b
  | .development x => b = x
  | .raw _ x => b = x
  | .deprecated _ x => b = x
  | .unknown _ x => b = x
  | .attrSet _ _ => False

/-- the attribute on the wire. -/
def OnWire (l : AsnLen) (a : Attribute) (w : Wire) : Prop :=
  w.ok ∧ w.flag = a.flag ∧ w.code = assignedCode a.value ∧ ValueBytes l a.value w.value

/-! ### attribute sets -/

/-- The RFCs of the single attributes: the optional and the transitive bit by type code. `none`: no attribute of the
library's model has this code, or it is an unassigned, deprecated or experimental one. -/
def rfcFlags (code : UInt8) : Option (Bool × Bool) :=
  if code ∈ [1, 2, 3, 5, 6] then some (false, true)
  else if code ∈ [4, 9, 10, 14, 15, 24, 26, 29] then some (true, false)
  else if code ∈ [7, 8, 16, 17, 18, 23, 25, 32, 35, 37, 38, 40, 41, 128] then some (true, true)
  else none

/-- attributes of a fixed length. -/
def rfcLength (code : UInt8) : Option Nat :=
  if code ∈ [3, 4, 5, 9, 35] then some 4 else if code = 1 then some 1 else if code = 6 then some 0 else none

/-- bits 7 and 6 of the flags octet. -/
def flagBits (flag : UInt8) : Bool × Bool := (flag.toNat.testBit 7, flag.toNat.testBit 6)

def bitsOctet (b : Bool × Bool) : UInt8 := (if b.1 then 128 else 0) + (if b.2 then 64 else 0)

/-- the flags contradict the category of the attribute. -/
def WrongBits (code flag : UInt8) : Prop := ∃ b, rfcFlags code = some b ∧ flagBits flag ≠ b

/-- the partial bit is set although the attribute is not an optional transitive one. -/
def WrongPartial (code flag : UInt8) : Prop := ∃ b, rfcFlags code = some b ∧ b ≠ (true, true) ∧ PartialBit flag

def WrongLength (code : UInt8) (len : Nat) : Prop := ∃ n, rfcLength code = some n ∧ len ≠ n

/-- exactly one report if `P`, none otherwise. -/
def OneIf (P : Prop) (w : Warning) (l : List Warning) : Prop := (P ∧ l = [w]) ∨ (¬ P ∧ l = [])

/-- the flags octet of the attribute's category. -/
def categoryFlags (code : UInt8) : UInt8 := bitsOctet ((rfcFlags code).getD (false, false))

/-- the first attribute of one kind. -/
def First (mk : α → AttrVal) (as : List Attribute) : Option α → Prop
  | some x => ∃ pre f post, as = pre ++ ⟨f, mk x⟩ :: post ∧ ∀ b ∈ pre, ∀ y, b.value ≠ mk y
  | none => ∀ b ∈ as, ∀ y, b.value ≠ mk y

/-- the communities in an attribute. -/
def communitiesIn : AttrVal → List MetaCommunity
  | .communities cs => cs.map .plain
  | .extCommunities cs => cs.map .extended
  | .ipv6ExtCommunities cs => cs.map .ipv6Extended
  | .largeCommunities cs => cs.map .large
  | _ => []

end Verif.Spec
