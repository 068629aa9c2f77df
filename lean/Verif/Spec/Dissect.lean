import Verif.Model.Dissect
import Verif.Spec.Layout
/-
What a dissection tree should be, independently of how the dissectors walk the bytes.

A message is described as a sequence of *parts*: named fields, some of them made of further parts, and gaps, which are
bytes no field is shown for. A description fixes the bytes (they are concatenated in order) and the tree (every named
part is a node; its offset is the number of bytes before it, its length the number of its bytes). The predicates below
say which descriptions are descriptions of a BGP message or of an MRT record, from the layouts in RFC 4271, 4760, 6396,
7911, 8092, 9072: which fields follow each other, how long each is, and what is shown of a message that is cut off.
-/
namespace Verif.Spec

/-- `gap b`: bytes that are not shown. `group f ps`: a field `f` made of `ps`. `msg h cut body extra`: a BGP message with
the header `h`, marked as cut off or not, and with bytes after its end that are reported with it. -/
inductive Part where
  | gap (b : Bytes)
  | group (field : String) (parts : List Part)
  | msg (header : List Part) (cut : Bool) (body : List Part) (extra : Bytes)

/-- a field without further structure -/
def leaf (field : String) (b : Bytes) : Part := .group field [.gap b]

mutual
def Part.bytes : Part → Bytes
  | .gap b => b
  | .group _ ps => partsBytes ps
  | .msg h _ body extra => partsBytes h ++ (partsBytes body ++ extra)
def partsBytes : List Part → Bytes
  | [] => []
  | p :: ps => p.bytes ++ partsBytes ps
end

mutual
/-- the nodes shown for a part that starts at `base` -/
def Part.nodes (base : Nat) : Part → List Node
  | .gap _ => []
  | .group f ps => [.mk f base (partsBytes ps).length (partsNodes base ps)]
  | .msg h cut body extra =>
    let len := (partsBytes h).length + (partsBytes body).length
    [.mk "bgp" base len (partsNodes base h
      ++ (if cut then [.mk "bgp.truncated" (base + len) 0 []] else [])
      ++ partsNodes (base + (partsBytes h).length) body
      ++ (if extra = [] then [] else [.mk "bgp.trailing" (base + len) extra.length []]))]
def partsNodes (base : Nat) : List Part → List Node
  | [] => []
  | p :: ps => p.nodes base ++ partsNodes (base + p.bytes.length) ps
end

/-- a field that is only shown if it has any bytes -/
def shown (field : String) (b : Bytes) : List Part := if b = [] then [] else [leaf field b]
/-- a section that is only shown if it has any bytes -/
def section' (field : String) (ps : List Part) : List Part := if partsBytes ps = [] then [] else [.group field ps]

/-- As many items as there are one after the other, and then bytes that do not start with an item. -/
def Walked (Item : Part → Prop) (ps : List Part) : Prop :=
  ∃ items rest, ps = items ++ [.gap rest] ∧ (∀ e ∈ items, Item e) ∧ ∀ e t, Item e → rest ≠ e.bytes ++ t

/-! ### UPDATE -/

/-- a prefix: path identifier with ADD-PATH, length in bits, and as many octets as needed -/
def PrefixItem (addPath : Bool) (p : Part) : Prop :=
  ∃ (id : Bytes) (bits : UInt8) (octets : Bytes), id.length = (if addPath then 4 else 0) ∧
    octets.length = (bits.toNat + 7) / 8 ∧ p = leaf "bgp.nlri.prefix" (id ++ bits :: octets)

/-- an AS_PATH segment: type, number of AS numbers, AS numbers -/
def SegmentItem (asnSize : Nat) (p : Part) : Prop :=
  ∃ (ty n : UInt8) (asns : Bytes), asns.length = n.toNat * asnSize ∧ p = leaf "bgp.attr.as_path.segment" (ty :: n :: asns)

/-- an entry of fixed size -/
def EntryItem (field : String) (size : Nat) (p : Part) : Prop := ∃ b : Bytes, b.length = size ∧ p = leaf field b

/-- an AIGP TLV: type, length including these three octets, value -/
def AigpItem (p : Part) : Prop :=
  ∃ (ty : UInt8) (v : Bytes), 3 + v.length < 65536 ∧ p = leaf "bgp.attr.aigp.entry" (ty :: (n16 (3 + v.length) ++ v))

/-- a length on two octets or on one -/
def LenField (two : Bool) (n : Nat) (b : Bytes) : Prop :=
  if two then n < 65536 ∧ b = n16 n else n < 256 ∧ b = [UInt8.ofNat n]

inductive MpReachParts (addPath : Bool) : List Part → Prop where
  | short (v : Bytes) : v.length < 4 → MpReachParts addPath [.gap v]
  /-- less than the declared next hop is there -/
  | cutNextHop (afi : Bytes) (safi n : UInt8) (v : Bytes) : afi.length = 2 → v.length < n.toNat →
      MpReachParts addPath [leaf "bgp.attr.mp_reach.afi" afi, leaf "bgp.attr.mp_reach.safi" [safi],
        leaf "bgp.attr.mp_reach.next_hop_length" [n], leaf "bgp.attr.mp_reach.next_hop" v]
  /-- the value ends with the next hop -/
  | noNlri (afi : Bytes) (safi n : UInt8) (nh : Bytes) : afi.length = 2 → nh.length = n.toNat →
      MpReachParts addPath ([leaf "bgp.attr.mp_reach.afi" afi, leaf "bgp.attr.mp_reach.safi" [safi],
        leaf "bgp.attr.mp_reach.next_hop_length" [n]] ++ shown "bgp.attr.mp_reach.next_hop" nh)
  | full (afi : Bytes) (safi n : UInt8) (nh : Bytes) (reserved : UInt8) (ps : List Part) : afi.length = 2 →
      nh.length = n.toNat → Walked (PrefixItem addPath) ps →
      MpReachParts addPath ([leaf "bgp.attr.mp_reach.afi" afi, leaf "bgp.attr.mp_reach.safi" [safi],
        leaf "bgp.attr.mp_reach.next_hop_length" [n]] ++ shown "bgp.attr.mp_reach.next_hop" nh
        ++ leaf "bgp.attr.mp_reach.reserved" [reserved] :: ps)

inductive MpUnreachParts (addPath : Bool) : List Part → Prop where
  | short (v : Bytes) : v.length < 3 → MpUnreachParts addPath [.gap v]
  | full (afi : Bytes) (safi : UInt8) (ps : List Part) : afi.length = 2 → Walked (PrefixItem addPath) ps →
      MpUnreachParts addPath (leaf "bgp.attr.mp_unreach.afi" afi :: leaf "bgp.attr.mp_unreach.safi" [safi] :: ps)

/-- a value shown as one field if it has at least four octets -/
def FourOctets (field : String) (ps : List Part) : Prop :=
  ∃ v : Bytes, ps = [if 4 ≤ v.length then leaf field v else .gap v]

def AggregatorParts (ps : List Part) : Prop :=
  (∃ v : Bytes, v.length ≤ 4 ∧ ps = [.gap v]) ∨
  ∃ asn id : Bytes, asn ≠ [] ∧ id.length = 4 ∧ ps = [leaf "bgp.attr.aggregator.asn" asn, leaf "bgp.attr.aggregator.id" id]

def OriginParts (ps : List Part) : Prop :=
  ps = [] ∨ ∃ (v : UInt8) (rest : Bytes), ps = [leaf "bgp.attr.origin" [v], .gap rest]

/-- What is shown inside the value of the attribute with this type code. -/
def AttrValueParts (asnSize : Nat) (addPath : Bool) (code : UInt8) (ps : List Part) : Prop :=
  match code.toNat with
  | 1 => OriginParts ps
  | 2 => Walked (SegmentItem asnSize) ps
  | 3 => FourOctets "bgp.attr.next_hop" ps
  | 4 => FourOctets "bgp.attr.u32" ps
  | 5 => FourOctets "bgp.attr.u32" ps
  | 7 => AggregatorParts ps
  | 8 => Walked (EntryItem "bgp.attr.communities.entry" 4) ps
  | 9 => FourOctets "bgp.attr.originator_id" ps
  | 10 => Walked (EntryItem "bgp.attr.cluster_list.entry" 4) ps
  | 14 => MpReachParts addPath ps
  | 15 => MpUnreachParts addPath ps
  | 16 => Walked (EntryItem "bgp.attr.ext_communities.entry" 8) ps
  | 17 => Walked (SegmentItem 4) ps
  | 18 => AggregatorParts ps
  | 25 => Walked (EntryItem "bgp.attr.ipv6_ext_communities.entry" 20) ps
  | 26 => Walked AigpItem ps
  | 32 => Walked (EntryItem "bgp.attr.large_communities.entry" 12) ps
  | 35 => FourOctets "bgp.attr.u32" ps
  | _ => ∃ v : Bytes, ps = [.gap v]

/-- the name of the node of an attribute -/
def attrName (code : UInt8) : String := "bgp.attr." ++ toString code.toNat

/-- the length field has two octets if the flag 0x10 (extended length) is set -/
def longLen (flags : UInt8) : Bool := flags &&& 0x10 != 0

/-- a path attribute: flags, type, length, value -/
def AttrItem (asnSize : Nat) (addPath : Bool) (p : Part) : Prop :=
  ∃ (flags code : UInt8) (len : Bytes) (value : List Part), LenField (longLen flags) (partsBytes value).length len ∧
    AttrValueParts asnSize addPath code value ∧
    p = .group (attrName code) [leaf "bgp.attr.flags" [flags], leaf "bgp.attr.type" [code], leaf "bgp.attr.length" len,
      .group "bgp.attr.value" value]

/-- What follows the last complete attribute: bytes without a complete flags, type and length, or an attribute with less
than the declared value, of which only the flags are shown. -/
inductive AttrTail : Part → Prop where
  | rest (b : Bytes) : (∀ (f c : UInt8) (n : Nat) (len t : Bytes), LenField (longLen f) n len → b ≠ f :: c :: (len ++ t)) →
      AttrTail (.gap b)
  | cut (f c : UInt8) (n : Nat) (len v : Bytes) : LenField (longLen f) n len → v.length < n →
      AttrTail (.group (attrName c) [leaf "bgp.attr.flags" [f], .gap (c :: (len ++ v))])

def AttrListParts (asnSize : Nat) (addPath : Bool) (ps : List Part) : Prop :=
  ∃ items tail, ps = items ++ [tail] ∧ (∀ e ∈ items, AttrItem asnSize addPath e) ∧ AttrTail tail

/-- the path attributes and the NLRI of an UPDATE -/
inductive UpdateTailParts (asnSize : Nat) (addPath : Bool) : List Part → Prop where
  | empty : UpdateTailParts asnSize addPath []
  | cutLength (b : UInt8) : UpdateTailParts asnSize addPath [leaf "bgp.update.path_attributes.length" [b]]
  /-- less than the declared path attributes are there -/
  | cutAttributes (n : Nat) (attrs : List Part) : n < 65536 → AttrListParts asnSize addPath attrs →
      (partsBytes attrs).length < n →
      UpdateTailParts asnSize addPath [leaf "bgp.update.path_attributes.length" (n16 n), .group "bgp.update.path_attributes" attrs]
  | full (attrs nlri : List Part) : (partsBytes attrs).length < 65536 → AttrListParts asnSize addPath attrs →
      Walked (PrefixItem addPath) nlri →
      UpdateTailParts asnSize addPath (leaf "bgp.update.path_attributes.length" (n16 (partsBytes attrs).length)
        :: (section' "bgp.update.path_attributes" attrs ++ section' "bgp.update.nlri" nlri))

inductive UpdateParts (asnSize : Nat) (addPath : Bool) : List Part → Prop where
  | empty : UpdateParts asnSize addPath []
  | cutLength (b : UInt8) : UpdateParts asnSize addPath [leaf "bgp.update.withdrawn_routes.length" [b]]
  /-- less than the declared withdrawn routes are there -/
  | cutWithdrawn (n : Nat) (b : Bytes) : n < 65536 → b.length < n →
      UpdateParts asnSize addPath [leaf "bgp.update.withdrawn_routes.length" (n16 n), leaf "bgp.update.withdrawn_routes" b]
  | full (withdrawn tail : List Part) : (partsBytes withdrawn).length < 65536 → Walked (PrefixItem addPath) withdrawn →
      UpdateTailParts asnSize addPath tail →
      UpdateParts asnSize addPath (leaf "bgp.update.withdrawn_routes.length" (n16 (partsBytes withdrawn).length)
        :: (section' "bgp.update.withdrawn_routes" withdrawn ++ tail))

/-! ### OPEN, NOTIFICATION, ROUTE-REFRESH -/

def CapabilityItem (p : Part) : Prop :=
  ∃ (code n : UInt8) (v : Bytes), v.length = n.toNat ∧
    p = .group "bgp.open.capability" [leaf "bgp.open.capability.code" [code], leaf "bgp.open.capability.length" [n], .gap v]

/-- an optional parameter, with a length on two octets in the RFC 9072 format -/
def ParamItem (extended : Bool) (p : Part) : Prop :=
  ∃ (ty : UInt8) (len : Bytes) (value : List Part), LenField extended (partsBytes value).length len ∧
    (if ty = 2 then Walked CapabilityItem value else ∃ v : Bytes, value = [leaf "bgp.open.param.value" v]) ∧
    p = .group "bgp.open.param" (leaf "bgp.open.param.type" [ty] :: leaf "bgp.open.param.length" len :: value)

/-- The optional parameters, of a message with this "optional parameters length" octet. -/
inductive ParamsParts (optLen : UInt8) : List Part → Prop where
  /-- RFC 9072: the first parameter type is 255 -/
  | extended (n : Nat) (ps : List Part) : optLen ≠ 0 → n < 65536 →
      (if n = 0 then ∃ b : Bytes, ps = [.gap b] else Walked (ParamItem true) ps) →
      ParamsParts optLen (leaf "bgp.open.ext_params_len" (255 :: n16 n) :: ps)
  /-- cut off inside the RFC 9072 length -/
  | cutExtended (b : UInt8) : optLen ≠ 0 → ParamsParts optLen [.gap [255, b]]
  | plain (ps : List Part) : (∀ b t, optLen ≠ 0 → partsBytes ps ≠ 255 :: b :: t) → Walked (ParamItem false) ps →
      ParamsParts optLen ps

inductive OpenParts : List Part → Prop where
  | short (b : Bytes) : b.length < 10 → OpenParts (shown "bgp.open.truncated" b)
  | full (version : UInt8) (asn hold id : Bytes) (optLen : UInt8) (ps : List Part) : asn.length = 2 → hold.length = 2 →
      id.length = 4 → ParamsParts optLen ps →
      OpenParts ([leaf "bgp.open.version" [version], leaf "bgp.open.asn" asn, leaf "bgp.open.hold_time" hold,
        leaf "bgp.open.bgp_identifier" id, leaf "bgp.open.opt_params_len" [optLen]] ++ ps)

inductive NotificationParts : List Part → Prop where
  | empty : NotificationParts []
  | code (c : UInt8) : NotificationParts [leaf "bgp.notification.code" [c]]
  | full (c s : UInt8) (b : Bytes) : NotificationParts
      ([leaf "bgp.notification.code" [c], leaf "bgp.notification.subcode" [s]] ++ shown "bgp.notification.data" b)

inductive RefreshParts : List Part → Prop where
  | short (b : Bytes) : b.length < 4 → RefreshParts [.gap b]
  | full (afi : Bytes) (sub safi : UInt8) (b : Bytes) : afi.length = 2 → RefreshParts
      ([leaf "bgp.route_refresh.afi" afi, leaf "bgp.route_refresh.subtype" [sub], leaf "bgp.route_refresh.safi" [safi]]
        ++ shown "bgp.route_refresh.data" b)

/-! ### the BGP message -/

/-- the body of a message of this type -/
inductive BodyParts (asnSize : Nat) (addPath : Bool) : UInt8 → List Part → Prop where
  | open_ (ps : List Part) : OpenParts ps → BodyParts asnSize addPath 1 [.group "bgp.open" ps]
  | update (ps : List Part) : UpdateParts asnSize addPath ps → BodyParts asnSize addPath 2 [.group "bgp.update" ps]
  | notification (ps : List Part) : NotificationParts ps → BodyParts asnSize addPath 3 [.group "bgp.notification" ps]
  | keepalive (b : Bytes) : BodyParts asnSize addPath 4 [.gap b]
  | refresh (ps : List Part) : RefreshParts ps → BodyParts asnSize addPath 5 [.group "bgp.route_refresh" ps]
  | other (ty : UInt8) (b : Bytes) : ty ∉ [1, 2, 3, 4, 5] → BodyParts asnSize addPath ty [leaf "bgp.body" b]

def headerParts (marker : Bytes) (n : Nat) (ty : UInt8) : List Part :=
  [.group "bgp.header" [leaf "bgp.header.marker" marker, leaf "bgp.header.length" (n16 n), leaf "bgp.header.type" [ty]]]

inductive BgpPart (asnSize : Nat) (addPath : Bool) : Part → Prop where
  /-- not even a header -/
  | short (b : Bytes) : b.length < 19 → BgpPart asnSize addPath (.group "bgp" (shown "bgp.header" b))
  /-- the declared length `n` counts the 19 octets of the header -/
  | whole (marker : Bytes) (n : Nat) (ty : UInt8) (body : List Part) (extra : Bytes) : marker.length = 16 → n < 65536 →
      BodyParts asnSize addPath ty body → (partsBytes body).length = n - 19 →
      BgpPart asnSize addPath (.msg (headerParts marker n ty) false body extra)
  /-- less than the declared message is there -/
  | cut (marker : Bytes) (n : Nat) (ty : UInt8) (body : List Part) : marker.length = 16 → n < 65536 →
      BodyParts asnSize addPath ty body → (partsBytes body).length < n - 19 →
      BgpPart asnSize addPath (.msg (headerParts marker n ty) true body [])

/-! ### the MRT record -/

/-- BGP4MP subtypes with four-octet AS numbers, with ADD-PATH, and for state changes -/
def mpFour (sub : Nat) : Bool := sub ∈ [4, 5, 7, 9, 11]
def mpAddPath (sub : Nat) : Bool := sub ∈ [8, 9, 10, 11]
def mpState (sub : Nat) : Bool := sub ∈ [0, 5]
def mpAsnSize (sub : Nat) : Nat := if mpFour sub then 4 else 2

def startsWithMarker (b : Bytes) : Prop := ∃ t, b = List.replicate 16 0xFF ++ t

/-- interface, address family, addresses, and the message or the states -/
inductive MpRestParts (sub : Nat) : List Part → Prop where
  | short (b : Bytes) : b.length < 4 → MpRestParts sub [leaf "mrt.bgp4mp.truncated" b]
  | unknownAfi (i : Bytes) (afi : Nat) (b : Bytes) : i.length = 2 → afi < 65536 → afi ≠ 1 → afi ≠ 2 →
      MpRestParts sub [leaf "mrt.bgp4mp.interface_index" i, leaf "mrt.bgp4mp.afi" (n16 afi), leaf "mrt.bgp4mp.addresses" b]
  | cutAddresses (i : Bytes) (afi size : Nat) (b : Bytes) : i.length = 2 → (afi, size) ∈ [(1, 4), (2, 16)] →
      b.length < 2 * size →
      MpRestParts sub [leaf "mrt.bgp4mp.interface_index" i, leaf "mrt.bgp4mp.afi" (n16 afi), leaf "mrt.bgp4mp.truncated" b]
  | message (i : Bytes) (afi size : Nat) (p q : Bytes) (m : Part) : i.length = 2 → (afi, size) ∈ [(1, 4), (2, 16)] →
      p.length = size → q.length = size → mpState sub = false → BgpPart (mpAsnSize sub) (mpAddPath sub) m →
      MpRestParts sub [leaf "mrt.bgp4mp.interface_index" i, leaf "mrt.bgp4mp.afi" (n16 afi), leaf "mrt.bgp4mp.peer_ip" p,
        leaf "mrt.bgp4mp.local_ip" q, m]
  | cutState (i : Bytes) (afi size : Nat) (p q b : Bytes) : i.length = 2 → (afi, size) ∈ [(1, 4), (2, 16)] →
      p.length = size → q.length = size → mpState sub = true → b.length < 4 →
      MpRestParts sub [leaf "mrt.bgp4mp.interface_index" i, leaf "mrt.bgp4mp.afi" (n16 afi), leaf "mrt.bgp4mp.peer_ip" p,
        leaf "mrt.bgp4mp.local_ip" q, leaf "mrt.bgp4mp.truncated" b]
  | state (i : Bytes) (afi size : Nat) (p q old new b : Bytes) : i.length = 2 → (afi, size) ∈ [(1, 4), (2, 16)] →
      p.length = size → q.length = size → mpState sub = true → old.length = 2 → new.length = 2 →
      MpRestParts sub [leaf "mrt.bgp4mp.interface_index" i, leaf "mrt.bgp4mp.afi" (n16 afi), leaf "mrt.bgp4mp.peer_ip" p,
        leaf "mrt.bgp4mp.local_ip" q, leaf "mrt.bgp4mp.old_state" old, leaf "mrt.bgp4mp.new_state" new, .gap b]

inductive MpParts (sub : Nat) : List Part → Prop where
  | short (b : Bytes) : b.length < 2 * mpAsnSize sub → MpParts sub [leaf "mrt.bgp4mp.truncated" b]
  /-- the message follows the AS numbers at once -/
  | zebra (p q : Bytes) (m : Part) : p.length = mpAsnSize sub → q.length = mpAsnSize sub → startsWithMarker m.bytes →
      BgpPart (mpAsnSize sub) (mpAddPath sub) m →
      MpParts sub [leaf "mrt.bgp4mp.peer_asn" p, leaf "mrt.bgp4mp.local_asn" q, leaf "mrt.bgp4mp.zebra_compat" [], m]
  /-- the states follow the AS numbers at once -/
  | zebraState (p q old new : Bytes) : p.length = 2 → q.length = 2 → old.length = 2 → new.length = 2 → sub = 0 →
      MpParts sub [leaf "mrt.bgp4mp.peer_asn" p, leaf "mrt.bgp4mp.local_asn" q, leaf "mrt.bgp4mp.old_state" old,
        leaf "mrt.bgp4mp.new_state" new]
  | full (p q : Bytes) (ps : List Part) : p.length = mpAsnSize sub → q.length = mpAsnSize sub →
      ¬ startsWithMarker (partsBytes ps) → ¬ (sub = 0 ∧ (partsBytes ps).length = 4) → MpRestParts sub ps →
      MpParts sub (leaf "mrt.bgp4mp.peer_asn" p :: leaf "mrt.bgp4mp.local_asn" q :: ps)

/-- timestamp, type, subtype, length, and microseconds for the extended-timestamp types -/
def mrtExtended (ty : Nat) : Bool := ty ∈ [17, 33, 49]
def mrtHeaderParts (time : Bytes) (ty sub : Nat) (len micros : Bytes) : List Part :=
  [leaf "mrt.header.timestamp" time, leaf "mrt.header.type" (n16 ty), leaf "mrt.header.subtype" (n16 sub),
   leaf "mrt.header.length" len] ++ (if mrtExtended ty then [leaf "mrt.header.microsecond" micros] else [])

inductive MrtBodyPart (ty sub : Nat) : Part → Prop where
  | bgp4mp (ps : List Part) : ty ∈ [16, 17] → MpParts sub ps → MrtBodyPart ty sub (.group "mrt.bgp4mp" ps)
  | other (b : Bytes) : ty ∉ [16, 17] → MrtBodyPart ty sub (leaf "mrt.body" b)

/-- the parts of an MRT record -/
inductive MrtParts : List Part → Prop where
  | short (b : Bytes) : b.length < 12 → MrtParts (shown "mrt.header" b)
  | cutMicros (time : Bytes) (ty sub : Nat) (len micros : Bytes) : time.length = 4 → ty < 65536 → sub < 65536 →
      len.length = 4 → mrtExtended ty = true → micros.length < 4 →
      MrtParts [.group "mrt.header" (mrtHeaderParts time ty sub len micros)]
  | empty (time : Bytes) (ty sub : Nat) (len micros : Bytes) : time.length = 4 → ty < 65536 → sub < 65536 →
      len.length = 4 → (mrtExtended ty = true → micros.length = 4) →
      MrtParts [.group "mrt.header" (mrtHeaderParts time ty sub len micros)]
  | full (time : Bytes) (ty sub : Nat) (len micros : Bytes) (body : Part) : time.length = 4 → ty < 65536 → sub < 65536 →
      len.length = 4 → (mrtExtended ty = true → micros.length = 4) → body.bytes ≠ [] → MrtBodyPart ty sub body →
      MrtParts [.group "mrt.header" (mrtHeaderParts time ty sub len micros), body]

/-! ### trees -/

/-- `n` is `t` or a node somewhere below it. -/
inductive InTree (t : Node) : Node → Prop where
  | self : InTree t t
  | child (n c : Node) : InTree t n → c ∈ n.children → InTree t c

/-- the byte range of `c` lies in the byte range of `n` -/
def Inside (c n : Node) : Prop := n.offset ≤ c.offset ∧ c.offset + c.length ≤ n.offset + n.length

/-- the byte ranges have no byte in common -/
def Apart (a b : Node) : Prop := a.offset + a.length ≤ b.offset ∨ b.offset + b.length ≤ a.offset

/-- `c` directly follows the bytes of `n`: the bytes reported after the end of a message. -/
def After (c n : Node) : Prop := n.field = "bgp" ∧ c.field = "bgp.trailing" ∧ c.offset = n.offset + n.length ∧ c.children = []

mutual
/-- all nodes of a tree, a node before its children -/
def nodesOf : Node → List Node
  | .mk f o l cs => .mk f o l cs :: nodesOfList cs
def nodesOfList : List Node → List Node
  | [] => []
  | c :: cs => nodesOf c ++ nodesOfList cs
end

end Verif.Spec
