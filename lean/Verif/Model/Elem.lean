import Verif.Model.Mrt
/-
Elements: `/repo/src/parser/mrt/mrt_elem.rs` and `/repo/src/models/bgp/elem.rs`. `Display` is not modelled.
-/
namespace Verif

/-- `ElemType` (src/models/bgp/elem.rs 42-47). -/
inductive ElemType where
  | announce
  | withdraw
deriving DecidableEq, Repr

/-- `AttrRaw` (src/models/bgp/attributes/mod.rs 111-118): the code and the bytes. -/
structure AttrRaw where
  code : UInt8
  bytes : Bytes
deriving DecidableEq, Repr

/-- `BgpElem` (elem.rs 100-155). Simplification: `timestamp`, an `f64` number of seconds, is the exact number of
microseconds. (Adding the microseconds to the seconds in `f64` rounds by less than half a microsecond, so the
microsecond count can be read off the `f64`; the rounding itself is not modelled.) -/
structure BgpElem where
  time : Nat
  type : ElemType
  peerIp : Ip
  peerAsn : Asn
  peerBgpId : Option V4
  prefix_ : NetworkPrefix
  nextHop : Option Ip
  asPath : Option AsPath
  originAsns : Option (List Asn)
  origin : Option Origin
  localPref : Option UInt32
  med : Option UInt32
  communities : Option (List MetaCommunity)
  atomic : Bool
  aggrAsn : Option Asn
  aggrIp : Option V4
  otc : Option Asn
  unknown : Option (List AttrRaw)
  deprecated : Option (List AttrRaw)
deriving DecidableEq, Repr

/-- the mutable variables of `get_relevant_attributes` (mrt_elem.rs 87-101). -/
structure Relevant where
  asPath : Option AsPath
  as4Path : Option AsPath
  origin : Option Origin
  nextHop : Option Ip
  localPref : Option UInt32
  med : Option UInt32
  communities : List MetaCommunity
  atomic : Bool
  aggregator : Option (Asn × V4)
  announced : Option Nlri
  withdrawn : Option Nlri
  otc : Option Asn
  unknown : List AttrRaw
  deprecated : List AttrRaw
deriving DecidableEq, Repr

/-- their initial values (mrt_elem.rs 87-101). -/
def Relevant.init : Relevant := ⟨none, none, none, none, some 0, some 0, [], false, none, none, none, none, [], []⟩

/-- the body of the loop (mrt_elem.rs 104-158). -/
def Relevant.step (r : Relevant) : AttrVal → Relevant
  | .origin v => { r with origin := some v }
  | .asPath p => { r with asPath := some p }
  | .as4Path p => { r with as4Path := some p }
  | .nextHop v => { r with nextHop := some v }
  | .med v => { r with med := some v }
  | .localPref v => { r with localPref := some v }
  | .atomic => { r with atomic := true }
  | .communities cs => { r with communities := r.communities ++ cs.map .plain }
  | .extCommunities cs => { r with communities := r.communities ++ cs.map .extended }
  | .ipv6ExtCommunities cs => { r with communities := r.communities ++ cs.map .ipv6Extended }
  | .largeCommunities cs => { r with communities := r.communities ++ cs.map .large }
  | .aggregator a i | .as4Aggregator a i => { r with aggregator := some (a, i) }
  | .mpReach n => { r with announced := some n }
  | .mpUnreach n => { r with withdrawn := some n }
  | .otc a => { r with otc := some a }
  | .unknown c b | .raw c b => { r with unknown := r.unknown ++ [⟨c, b⟩] }
  | .deprecated c b => { r with deprecated := r.deprecated ++ [⟨c, b⟩] }
  | _ => r

/-- `get_relevant_attributes` (mrt_elem.rs 69-204) up to the conversion of empty lists to `None`, which is `nonEmpty`. -/
def relevantAttributes (a : Attributes) : Relevant :=
  let r := a.inner.foldl (fun r x => r.step x.value) Relevant.init
  { r with nextHop := r.nextHop.or (r.announced.bind fun n => n.nextHop.map NextHop.addr) }

/-- `if v.is_empty() { None } else { Some(v) }` (mrt_elem.rs 161-164, 193-202). -/
def nonEmpty (l : List α) : Option (List α) := if l.isEmpty then none else some l

/-- `path` (mrt_elem.rs 224-229, 640-645). `mergeAs4` is `none` only for a panic, which is impossible
(`c06_as4_no_panic`). -/
def mergePaths : Option AsPath → Option AsPath → Option AsPath
  | none, none => none
  | some v, none => some v
  | none, some v => some v
  | some v1, some v2 => v1.mergeAs4 v2

/-- `rib_entry_to_elem` (mrt_elem.rs 206-269). -/
def ribEntryToElem (pfx : NetworkPrefix) (peer : Peer) (e : RibEntry) : BgpElem :=
  let r := relevantAttributes e.attributes
  let path := mergePaths r.asPath r.as4Path
  let nextHop := match r.nextHop with
    | some v => some v
    | none => r.announced.bind fun n => n.nextHop.map NextHop.addr
  { time := e.time.toNat * 1000000, type := .announce, peerIp := peer.ip, peerAsn := peer.asn,
    peerBgpId := some peer.bgpId, prefix_ := pfx, nextHop := nextHop, asPath := path,
    originAsns := path.map AsPath.iterOrigins, origin := r.origin, localPref := r.localPref, med := r.med,
    communities := nonEmpty r.communities, atomic := r.atomic, aggrAsn := r.aggregator.map (·.1),
    aggrIp := r.aggregator.map (·.2), otc := r.otc, unknown := nonEmpty r.unknown,
    deprecated := nonEmpty r.deprecated }

/-- `table_dump_to_elem` (mrt_elem.rs 702-745). -/
def tableDumpToElem (m : TableDump) : BgpElem :=
  let r := relevantAttributes m.attributes
  { time := m.time.toNat * 1000000, type := .announce, peerIp := m.peerIp, peerAsn := m.peerAsn,
    peerBgpId := none, prefix_ := m.prefix_, nextHop := r.nextHop, asPath := r.asPath,
    originAsns := r.asPath.map AsPath.iterOrigins, origin := r.origin, localPref := r.localPref, med := r.med,
    communities := nonEmpty r.communities, atomic := r.atomic, aggrAsn := r.aggregator.map (·.1),
    aggrIp := r.aggregator.map (·.2), otc := r.otc, unknown := nonEmpty r.unknown,
    deprecated := nonEmpty r.deprecated }

/-- `BgpUpdateElemIter` (mrt_elem.rs 344-369). A chain of two `vec::IntoIter`s is the list of what they have left. -/
structure UpdateIter where
  time : Nat
  peerIp : Ip
  peerAsn : Asn
  peerBgpId : Option V4
  otc : Option Asn
  path : Option AsPath
  originAsns : Option (List Asn)
  origin : Option Origin
  nextHop : Option Ip
  localPref : Option UInt32
  med : Option UInt32
  communities : Option (List MetaCommunity)
  atomic : Bool
  aggrAsn : Option Asn
  aggrIp : Option V4
  unknown : Option (List AttrRaw)
  deprecated : Option (List AttrRaw)
  announced : List NetworkPrefix
  withdrawn : List NetworkPrefix
  inWithdrawn : Bool
deriving DecidableEq, Repr

/-- the announcement (mrt_elem.rs 377-397). -/
def UpdateIter.announce (it : UpdateIter) (p : NetworkPrefix) : BgpElem :=
  { time := it.time, type := .announce, peerIp := it.peerIp, peerAsn := it.peerAsn, peerBgpId := it.peerBgpId,
    prefix_ := p, nextHop := it.nextHop, asPath := it.path, originAsns := it.originAsns, origin := it.origin,
    localPref := it.localPref, med := it.med, communities := it.communities, atomic := it.atomic,
    aggrAsn := it.aggrAsn, aggrIp := it.aggrIp, otc := it.otc, unknown := it.unknown, deprecated := it.deprecated }

/-- the withdrawal (mrt_elem.rs 402-422). -/
def UpdateIter.withdraw (it : UpdateIter) (p : NetworkPrefix) : BgpElem :=
  { time := it.time, type := .withdraw, peerIp := it.peerIp, peerAsn := it.peerAsn, peerBgpId := it.peerBgpId,
    prefix_ := p, nextHop := none, asPath := none, originAsns := none, origin := none, localPref := none, med := none,
    communities := none, atomic := false, aggrAsn := none, aggrIp := none, otc := none, unknown := none,
    deprecated := none }

/-- the last expression of `next` (mrt_elem.rs 402-422). -/
def UpdateIter.nextWithdrawn (it : UpdateIter) : Option BgpElem × UpdateIter :=
  match it.withdrawn with
  | [] => (none, it)
  | p :: ps => (some (it.withdraw p), { it with withdrawn := ps })

/-- `BgpUpdateElemIter::next` (mrt_elem.rs 374-423). -/
def UpdateIter.next (it : UpdateIter) : Option BgpElem × UpdateIter :=
  if it.inWithdrawn then it.nextWithdrawn
  else
    match it.announced with
    | p :: ps => (some (it.announce p), { it with announced := ps })
    | [] => UpdateIter.nextWithdrawn { it with inWithdrawn := true }

/-- `BgpUpdateElemIter::size_hint` (mrt_elem.rs 425-433); both bounds are always known. -/
def UpdateIter.sizeHint (it : UpdateIter) : Nat × Nat :=
  let a := if it.inWithdrawn then 0 else it.announced.length
  (a + it.withdrawn.length, a + it.withdrawn.length)

/-- `bgp_update_to_elems_iter` (mrt_elem.rs 617-676). -/
def updateIter (u : Update) (time : Nat) (ip : Ip) (asn : Asn) : UpdateIter :=
  let r := relevantAttributes u.attributes
  let path := mergePaths r.asPath r.as4Path
  { time := time, peerIp := ip, peerAsn := asn, peerBgpId := none, otc := r.otc, path := path,
    originAsns := path.map AsPath.iterOrigins, origin := r.origin, nextHop := r.nextHop, localPref := r.localPref,
    med := r.med, communities := nonEmpty r.communities, atomic := r.atomic, aggrAsn := r.aggregator.map (·.1),
    aggrIp := r.aggregator.map (·.2), unknown := nonEmpty r.unknown, deprecated := nonEmpty r.deprecated,
    announced := u.announced ++ (match r.announced with | some n => n.prefixes | none => []),
    withdrawn := u.withdrawn ++ (match r.withdrawn with | some n => n.prefixes | none => []),
    inWithdrawn := false }

/-- `bgp_to_elems_iter` (mrt_elem.rs 588-603). -/
def bgpToElemsIter (m : BgpMessage) (time : Nat) (ip : Ip) (asn : Asn) : Option UpdateIter :=
  match m with
  | .update u => some (updateIter u time ip asn)
  | .open _ | .notification _ | .keepAlive | .routeRefresh _ => none

/-- `RecordElemIter` (mrt_elem.rs 276-291). -/
inductive RecordIter where
  | empty
  | tableDump (e : Option BgpElem)
  | batch (ms : List TableDump)
  | rib (table : PeerIndexTable) (pfx : NetworkPrefix) (entries : List RibEntry)
  | bgp4mp (it : UpdateIter)
deriving DecidableEq, Repr

/-- `RecordElemIter::next` (mrt_elem.rs 296-319). -/
def RecordIter.next : RecordIter → Option BgpElem × RecordIter
  | .empty => (none, .empty)
  | .tableDump e => (e, .tableDump none)
  | .batch [] => (none, .batch [])
  | .batch (m :: ms) => (some (tableDumpToElem m), .batch ms)
  | .bgp4mp it => let (e, it) := it.next; (e, .bgp4mp it)
  | .rib t p [] => (none, .rib t p [])
  | .rib t p (e :: es) =>
    match t.peer e.peerIndex with
    | some peer => (some (ribEntryToElem p peer e), .rib t p es)
    | none => (none, .empty)

/-- `RecordElemIter::size_hint` (mrt_elem.rs 321-338). -/
def RecordIter.sizeHint : RecordIter → Nat × Nat
  | .empty => (0, 0)
  | .tableDump e => if e.isSome then (1, 1) else (0, 0)
  | .batch ms => (ms.length, ms.length)
  | .bgp4mp it => it.sizeHint
  | .rib _ _ es => (es.length, es.length)

/-- `ElemError` (mrt_elem.rs 25-34). -/
inductive ElemError where
  | unexpectedPeerIndexTable (t : PeerIndexTable)
  | missingPeerTable
  | unsupportedRibGeneric
deriving DecidableEq, Repr

/-- `timestamp` (mrt_elem.rs 504-512), in microseconds. -/
def Header.micros (h : Header) : Nat :=
  match h.micro with
  | some m => h.time.toNat * 1000000 + m.toNat
  | none => h.time.toNat * 1000000

/-- `Elementor` (mrt_elem.rs 18-21). -/
structure Elementor where
  table : Option PeerIndexTable
deriving DecidableEq, Repr

/-- `Elementor::new` (mrt_elem.rs 437-439). -/
def Elementor.new : Elementor := ⟨none⟩

/-- the two uses of `bgp_to_elems_iter` (mrt_elem.rs 543-553, 557-565). -/
def bgpRecordIter (m : BgpMessage) (time : Nat) (ip : Ip) (asn : Asn) : RecordIter :=
  match bgpToElemsIter m time ip asn with
  | some it => .bgp4mp it
  | none => .empty

/-- `record_to_elems_iter` (mrt_elem.rs 503-568). -/
def Elementor.recordIter (el : Elementor) (r : MrtRecord) : Except ElemError RecordIter :=
  let time := r.header.micros
  match r.message with
  | .tableDump m => .ok (.tableDump (some (tableDumpToElem m)))
  | .tableDumpBatch ms => .ok (.batch ms)
  | .tableDumpV2 (.peerIndexTable p) => .error (.unexpectedPeerIndexTable p)
  | .tableDumpV2 (.ribAfi t) =>
    match el.table with
    | none => .error .missingPeerTable
    | some table => .ok (.rib table t.prefix_ t.entries)
  | .tableDumpV2 (.ribGeneric _) => .error .unsupportedRibGeneric
  | .tableDumpV2 (.geo _) => .ok .empty
  | .bgp4mp (.stateChange _) => .ok .empty
  | .bgp4mp (.message v) => .ok (bgpRecordIter v.message time v.peerIp v.peerAsn)
  | .legacyBgp (.stateChange _) => .ok .empty
  | .legacyBgp (.message v) => .ok (bgpRecordIter v.message time v.peerIp v.peerAsn)

/-- `Iterator::collect` after at most `n` items. -/
def RecordIter.take : Nat → RecordIter → List BgpElem
  | 0, _ => []
  | n + 1, it =>
    match it.next with
    | (none, _) => []
    | (some e, it) => e :: RecordIter.take n it

/-- `Iterator::collect` after at most `n` items. -/
def UpdateIter.take : Nat → UpdateIter → List BgpElem
  | 0, _ => []
  | n + 1, it =>
    match it.next with
    | (none, _) => []
    | (some e, it) => e :: UpdateIter.take n it

/-- `iter.collect()`: runs until the first `None`, which comes within `size_hint().1 + 1` calls
(`c32_record_iter_partial`). -/
def RecordIter.collect (it : RecordIter) : List BgpElem := it.take (it.sizeHint.2 + 1)

/-- `iter.collect()`. -/
def UpdateIter.collect (it : UpdateIter) : List BgpElem := it.take (it.sizeHint.2 + 1)

/-- `bgp_update_to_elems` (mrt_elem.rs 606-613). -/
def updateToElems (u : Update) (time : Nat) (ip : Ip) (asn : Asn) : List BgpElem := (updateIter u time ip asn).collect

/-- `bgp_to_elems` (mrt_elem.rs 574-583). -/
def bgpToElems (m : BgpMessage) (time : Nat) (ip : Ip) (asn : Asn) : List BgpElem :=
  match bgpToElemsIter m time ip asn with
  | some it => it.collect
  | none => []

/-- `set_peer_table` (mrt_elem.rs 469-478); `none` is the parse error. -/
def Elementor.setPeerTable (el : Elementor) (r : MrtRecord) : Elementor × Option Err :=
  match r.message with
  | .tableDumpV2 (.peerIndexTable p) => (⟨some p⟩, none)
  | _ => (el, some .parse)

/-- `record_to_elems` (mrt_elem.rs 685-699): the elements and the new state. -/
def Elementor.recordToElems (el : Elementor) (r : MrtRecord) : List BgpElem × Elementor :=
  match r.message with
  | .tableDumpV2 (.peerIndexTable _) => ([], (el.setPeerTable r).1)
  | _ =>
    match el.recordIter r with
    | .ok it => (it.collect, el)
    | .error _ => ([], el)

/-! ### back to attributes -/

/-- `afi` in `new_reachable` and `new_unreachable` (src/models/bgp/attributes/nlri.rs 77-80, 94-97). -/
def prefixAfi (p : NetworkPrefix) : Afi := if p.prefix_.addr.isV4 then .ipv4 else .ipv6

/-- `Nlri::new_reachable` (nlri.rs 75-91). -/
def Nlri.newReachable (p : NetworkPrefix) (nh : Option Ip) : Nlri :=
  ⟨prefixAfi p, .unicast, nh.map NextHop.ofIp, [p], none, none, none⟩

/-- `Nlri::new_unreachable` (nlri.rs 93-108). -/
def Nlri.newUnreachable (p : NetworkPrefix) : Nlri :=
  ⟨prefixAfi p, .unicast, none, [p], none, none, none⟩

/-- `if let Some(v) = … { values.push(…) }`. -/
def pushSome (f : α → AttrVal) : Option α → List AttrVal
  | some x => [f x]
  | none => []

/-- `if !v.is_empty() { values.push(…) }`. -/
def pushList (f : List α → AttrVal) (l : List α) : List AttrVal := if l.isEmpty then [] else [f l]

/-- the communities of one kind (mrt_elem.rs 800-811). -/
def plainOf : List MetaCommunity → List Community
  | [] => []
  | .plain c :: r => c :: plainOf r
  | _ :: r => plainOf r
/-- the communities of one kind (mrt_elem.rs 800-811). -/
def extendedOf : List MetaCommunity → List ExtCommunity
  | [] => []
  | .extended c :: r => c :: extendedOf r
  | _ :: r => extendedOf r
/-- the communities of one kind (mrt_elem.rs 800-811). -/
def largeOf : List MetaCommunity → List LargeCommunity
  | [] => []
  | .large c :: r => c :: largeOf r
  | _ :: r => largeOf r
/-- the communities of one kind (mrt_elem.rs 800-811). -/
def ipv6ExtendedOf : List MetaCommunity → List Ipv6ExtCommunity
  | [] => []
  | .ipv6Extended c :: r => c :: ipv6ExtendedOf r
  | _ :: r => ipv6ExtendedOf r

/-- the community attributes (mrt_elem.rs 799-826). -/
def commValues : Option (List MetaCommunity) → List AttrVal
  | some cs => pushList .communities (plainOf cs) ++ pushList .extCommunities (extendedOf cs)
      ++ pushList .largeCommunities (largeOf cs) ++ pushList .ipv6ExtCommunities (ipv6ExtendedOf cs)
  | none => []

/-- the aggregator (mrt_elem.rs 828-837). -/
def aggrValues : Option Asn → Option V4 → List AttrVal
  | some a, some i => [.aggregator a i]
  | some a, none => [.aggregator a v4zero]
  | none, _ => []

/-- the two loops over raw attributes (mrt_elem.rs 843-853). -/
def rawValues (f : AttrRaw → AttrVal) : Option (List AttrRaw) → List AttrVal
  | some l => l.map f
  | none => []

/-- `From<&BgpElem> for Attributes` (mrt_elem.rs 759-858): the values pushed. -/
def BgpElem.values (e : BgpElem) : List AttrVal :=
  if e.type = .withdraw then [.mpUnreach (Nlri.newUnreachable e.prefix_)]
  else
    [.mpReach (Nlri.newReachable e.prefix_ e.nextHop)]
      ++ pushSome .nextHop e.nextHop ++ pushSome .asPath e.asPath ++ pushSome .origin e.origin
      ++ pushSome .localPref e.localPref ++ pushSome .med e.med ++ commValues e.communities
      ++ aggrValues e.aggrAsn e.aggrIp ++ pushSome .otc e.otc
      ++ rawValues (fun t => .unknown t.code t.bytes) e.unknown
      ++ rawValues (fun t => .deprecated t.code t.bytes) e.deprecated

/-- `From<&BgpElem> for Attributes` (mrt_elem.rs 759-858). -/
def BgpElem.toAttributes (e : BgpElem) : Attributes := Attributes.empty.extendValues e.values

end Verif
