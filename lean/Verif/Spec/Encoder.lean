import Verif.Model.Encoder
import Verif.Spec.MrtRecord
import Verif.Spec.Elem
/-
What the encoders have been fed with, and what a RIB dump of it is.
-/
namespace Verif.Spec

/-- `RibFed h x`: some sequence of calls to a RIB encoder leads from `new` to `x`, and `h` are the elements given to it since
it was last empty, latest first, each with whether it was accepted. A failed export changes nothing. -/
inductive RibFed : List (ElemIn × Bool) → RibEncoder → Prop where
  | new : RibFed [] .new
  | reset {h : List (ElemIn × Bool)} {x : RibEncoder} : RibFed h x → RibFed [] .new
  | elem {h : List (ElemIn × Bool)} {x y : RibEncoder} {i : ElemIn} {r : Except EncErr Unit} :
      RibFed h x → x.processElem i = (r, y) → RibFed ((i, r.isOk) :: h) y
  | exported {h : List (ElemIn × Bool)} {x y : RibEncoder} {o : HashOrder} {b : Bytes} :
      RibFed h x → x.exportBytes o = (.ok b, y) → RibFed [] y
  | failed {h : List (ElemIn × Bool)} {x y : RibEncoder} {o : HashOrder} {e : EncErr} :
      RibFed h x → x.exportBytes o = (.error e, y) → RibFed h y

/-- the accepted elements, latest first. -/
def accepted (h : List (ElemIn × Bool)) : List ElemIn := (h.filter (·.2)).map (·.1)

/-- the latest accepted element with this prefix from the peer with this address. -/
def lastFrom (h : List (ElemIn × Bool)) (p : IpNet) (ip : Ip) : Option ElemIn :=
  (accepted h).find? fun i => i.elem.prefix_.prefix_ = p ∧ i.elem.peerIp = ip

/-- the earliest accepted element from the peer with this address. -/
def firstFrom (h : List (ElemIn × Bool)) (ip : Ip) : Option ElemIn :=
  (accepted h).reverse.find? fun i => i.elem.peerIp = ip

/-- the timestamp of the dump: that of the earliest element, accepted or not, which has one that is not 0. -/
def dumpStamp (h : List (ElemIn × Bool)) : Rat :=
  match h.reverse.find? fun i => i.1.stamp ≠ 0 with
  | some i => i.1.stamp
  | none => 0

/-- `t` lists the peers of the elements, one for each address: the one the earliest element with this address names. For an
IPv4 peer the BGP identifier is the address, for an IPv6 peer 0. -/
def DumpPeers (h : List (ElemIn × Bool)) (t : PeerIndexTable) : Prop :=
  t.collector = #v[0, 0, 0, 0] ∧ t.viewName = [] ∧
  (∀ id p, t.peer id = some p → ∃ i, firstFrom h p.ip = some i ∧ p.asn = i.elem.peerAsn ∧
    (∀ a, p.ip = .v4 a → p.bgpId = a) ∧ (∀ a, p.ip = .v6 a → p.bgpId = #v[0, 0, 0, 0]) ∧
    p.peerType = (if i.four then 2 else 0) + (if p.ip.isV4 then 0 else 1)) ∧
  (∀ i ∈ accepted h, ∃ id p, t.peer id = some p ∧ p.ip = i.elem.peerIp) ∧
  (∀ id id' p p', t.peer id = some p → t.peer id' = some p' → p.ip = p'.ip → id = id') ∧
  (∀ id id', (t.peer id).isSome → id'.toNat < id.toNat → (t.peer id').isSome)

/-- `r` has, for every peer that sent an element with its prefix, exactly one entry, which refers to the peer by its index
and has the time, path identifier and attributes of the latest such element. -/
def DumpRib (h : List (ElemIn × Bool)) (t : PeerIndexTable) (r : RibAfi) : Prop :=
  r.prefix_.pathId = none ∧
  r.ribType = (if r.prefix_.prefix_.addr.isV4
    then (if ∃ e ∈ r.entries, e.pathId ≠ none then .v4UniAp else .v4Uni)
    else (if ∃ e ∈ r.entries, e.pathId ≠ none then .v6UniAp else .v6Uni)) ∧
  (r.entries.map (·.peerIndex)).Nodup ∧
  (∀ e ∈ r.entries, ∃ p i, t.peer e.peerIndex = some p ∧ lastFrom h r.prefix_.prefix_ p.ip = some i ∧
    e.pathId = i.elem.prefix_.pathId ∧ e.time = f64ToU32 i.stamp ∧ e.attributes = i.elem.toAttributes) ∧
  (∀ i ∈ accepted h, i.elem.prefix_.prefix_ = r.prefix_.prefix_ →
    ∃ e ∈ r.entries, ∃ p, t.peer e.peerIndex = some p ∧ p.ip = i.elem.peerIp)

/-- the records of a dump: the peer table, then a record for every prefix, numbered from 0. -/
structure DumpOf (h : List (ElemIn × Bool)) (t : PeerIndexTable) (ribs : List RibAfi) : Prop where
  peers : DumpPeers h t
  once : (ribs.map (·.prefix_.prefix_)).Nodup
  all : ∀ p, (∃ r ∈ ribs, r.prefix_.prefix_ = p) ↔ ∃ i ∈ accepted h, i.elem.prefix_.prefix_ = p
  rib : ∀ r ∈ ribs, DumpRib h t r
  numbered : ∀ k r, ribs[k]? = some r → r.seq.toNat = k % 4294967296

/-- the communities are ones that are read back as they are. -/
def MetaOk : MetaCommunity → Prop
  | .plain c => CommunityOk c
  | .extended c => ExtCommunityOk c
  | .large _ => True
  | .ipv6Extended c => Ipv6ExtCommunityOk c

/-- what is needed of any element: a prefix with (or without) a path identifier, and if it has none, not the default route;
communities and raw attributes that are read back as they are. -/
structure ElemOk (addPath : Bool) (e : BgpElem) : Prop where
  prefix_ : PrefixOk (if e.prefix_.prefix_.addr.isV4 then .ipv4 else .ipv6) addPath e.prefix_
  notDefault : addPath = false → e.prefix_.prefix_.len ≠ 0
  communities : ∀ c ∈ e.communities.getD [], MetaOk c
  unknown : ∀ a ∈ e.unknown.getD [], UnassignedCode a.code
  deprecated : ∀ a ∈ e.deprecated.getD [], DeprecatedCode a.code

/-- an announcement that a RIB dump can carry: its next hop has the address family of the prefix. -/
structure RibElemOk (addPath : Bool) (e : BgpElem) : Prop where
  any : ElemOk addPath e
  announce : e.type = .announce
  nextHop : ∃ a, e.nextHop = some a ∧ a.isV4 = e.prefix_.prefix_.addr.isV4

/-- an element that an updates file can carry: without path identifier; an announcement has an IPv4 next hop. -/
structure UpdateElemOk (e : BgpElem) : Prop where
  any : ElemOk false e
  nextHop : e.type = .announce → ∃ a, e.nextHop = some (.v4 a)

/-- the route attributes of `e`, an element read back, are those of the announcement `i` fed in: a missing local preference
or MED is read back as 0, communities are grouped by kind, empty lists are read back as absent, ATOMIC_AGGREGATE and an
aggregator address without AS number are not sent. -/
structure SameRoute (i e : BgpElem) : Prop where
  type : e.type = .announce
  nextHop : e.nextHop = i.nextHop
  asPath : e.asPath = i.asPath
  origin : e.origin = i.origin
  localPref : e.localPref = some (i.localPref.getD 0)
  med : e.med = some (i.med.getD 0)
  communities : ∀ k, ofKind k (e.communities.getD []) = ofKind k (i.communities.getD [])
  aggrAsn : e.aggrAsn = i.aggrAsn
  aggrIp : e.aggrIp = i.aggrAsn.map fun _ => i.aggrIp.getD #v[0, 0, 0, 0]
  otc : e.otc = i.otc
  unknown : e.unknown.getD [] = i.unknown.getD []
  deprecated : e.deprecated.getD [] = i.deprecated.getD []
  atomic : e.atomic = false

/-- the MRT record of a table or RIB message in a dump. Encoding fills in the length. -/
def dumpRecord (time : UInt32) (subtype : UInt16) (m : TableDumpV2) : MrtRecord :=
  ⟨⟨time, none, .tableDumpV2, subtype, 0⟩, .tableDumpV2 m⟩

/-- `c` is the record `r` in a file: the header with the length of the body, then the body. (The length field has 32 bits;
for a body of 4 GiB or more it has the last 32 bits of the length.) -/
def RecordBytes (r : MrtRecord) (c : Bytes) : Prop :=
  ∃ hd body, encodeMrtMessage r.message r.header.subtype = .ok body ∧
    HeaderBytes { r.header with length := UInt32.ofNat body.length } hd ∧ c = hd ++ body

/-- the elements `out` are those of the dump: exactly one for every prefix and every peer that sent an element with it, with
the attributes of the latest one and its time in whole seconds, and the AS number the peer had first. -/
structure DumpElems (h : List (ElemIn × Bool)) (out : List BgpElem) : Prop where
  each : ∀ e ∈ out, ∃ i j, lastFrom h e.prefix_.prefix_ e.peerIp = some i ∧ firstFrom h e.peerIp = some j ∧
    e.peerAsn = j.elem.peerAsn ∧ e.prefix_.pathId = none ∧ e.time = (f64ToU32 i.stamp).toNat * 1000000 ∧ SameRoute i.elem e
  all : ∀ i ∈ accepted h, ∃ e ∈ out, e.prefix_.prefix_ = i.elem.prefix_.prefix_ ∧ e.peerIp = i.elem.peerIp
  once : out.Pairwise fun e e' => ¬ (e.prefix_.prefix_ = e'.prefix_.prefix_ ∧ e.peerIp = e'.peerIp)

/-- the MRT records of a dump. -/
def dumpRecords (time : UInt32) (t : PeerIndexTable) (ribs : List RibAfi) : List MrtRecord :=
  dumpRecord time 1 (.peerIndexTable t) :: ribs.map fun r => dumpRecord time r.ribType.toU16 (.ribAfi r)


/-- the MRT record of an element in an updates file: a BGP4MP_ET record with the time in seconds and microseconds, holding
an AS4 message from the peer to AS 0 at the zero address, an UPDATE with nothing but attributes. -/
def updateRecord (i : ElemIn) : MrtRecord :=
  ⟨⟨(convertTimestamp i.stamp).1, some (convertTimestamp i.stamp).2, .bgp4mpEt, 4, 0⟩,
    .bgp4mp (.message ⟨.messageAs4, i.elem.peerAsn, 0, 0, i.elem.peerIp,
      if i.elem.peerIp.isV4 then .v4 #v[0, 0, 0, 0] else .v6 #v[0, 0, 0, 0, 0, 0, 0, 0, 0, 0, 0, 0, 0, 0, 0, 0],
      .update ⟨[], i.elem.toAttributes, []⟩⟩)⟩

/-- `UpdatesFed l x`: some sequence of calls leads to `x`, and `l` are the elements since it was last empty, in order. -/
inductive UpdatesFed : List ElemIn → UpdatesEncoder → Prop where
  | new : UpdatesFed [] []
  | reset {l : List ElemIn} {x : UpdatesEncoder} : UpdatesFed l x → UpdatesFed [] []
  | elem {l : List ElemIn} {x : UpdatesEncoder} {i : ElemIn} : UpdatesFed l x → UpdatesFed (l ++ [i]) (x.processElem i)
  | exported {l : List ElemIn} {x y : UpdatesEncoder} {b : Bytes} : UpdatesFed l x → x.exportBytes = (.ok b, y) → UpdatesFed [] y
  | failed {l : List ElemIn} {x y : UpdatesEncoder} {e : EncErr} : UpdatesFed l x → x.exportBytes = (.error e, y) → UpdatesFed l y

/-- `e` is `i` read back from an updates file. -/
def ReadBack (i : ElemIn) (e : BgpElem) : Prop :=
  e.time = (convertTimestamp i.stamp).1.toNat * 1000000 + (convertTimestamp i.stamp).2.toNat ∧
  e.peerIp = i.elem.peerIp ∧ e.peerAsn = i.elem.peerAsn ∧ e.prefix_ = i.elem.prefix_ ∧
  (i.elem.type = .announce → SameRoute i.elem e) ∧ (i.elem.type = .withdraw → e = withdrawal e.time e.peerIp e.peerAsn e.prefix_)

end Verif.Spec
