import Verif.Model.Filter
/-
The route iterators: `/repo/src/parser/iters/route.rs`. They walk through an MRT stream without building records: only
prefixes, peers and AS paths are decoded.
-/
namespace Verif

/-! ### attributes -/

/-- the mutable variables of `parse_route_attributes` (route.rs 53-56), those of the validation left out: its results are
dropped (121-122). -/
structure RouteAttrs where
  asPath : Option AsPath
  as4Path : Option AsPath
  announced : List NetworkPrefix
  withdrawn : List NetworkPrefix
deriving DecidableEq, Repr

/-- their initial values (route.rs 53-56). -/
def RouteAttrs.init : RouteAttrs := ⟨none, none, [], []⟩

/-- `.map(|v| …)` on the result of a value parser; a failure only leaves a note in the validation state (route.rs 110-112).
A panic is not caught. -/
def keepOk (f : α → RouteAttrs) (old : RouteAttrs) : Except Err α → Except Err RouteAttrs
  | .ok v => .ok (f v)
  | .error .panic => .error .panic
  | .error _ => .ok old

/-- the `match attr_type` of `parse_route_attributes` (route.rs 80-108). -/
def RouteAttrs.step (cfg : AttrCfg) (code : UInt8) (d : Bytes) (a : RouteAttrs) : Except Err RouteAttrs :=
  if code = 2 then keepOk (fun p => { a with asPath := some p }) a (parseAsPath cfg.asnLen d)
  else if code = 17 then keepOk (fun p => { a with as4Path := some p }) a (parseAsPath .b32 d)
  else if code = 14 then
    keepOk (fun n => { a with announced := n.prefixes }) a (parseNlri cfg.afi cfg.safi cfg.prefixes true cfg.addPath d)
  else if code = 15 then
    keepOk (fun n => { a with withdrawn := n.prefixes }) a (parseNlri cfg.afi cfg.safi cfg.prefixes false cfg.addPath d)
  else .ok a

/-- The loop of `parse_route_attributes` (route.rs 58-113). Fuel: the input length; every round consumes at least three
bytes. -/
def routeAttrLoop (cfg : AttrCfg) : Nat → RouteAttrs → Bytes → Except Err RouteAttrs
  | 0, a, s => if s.length < 3 then .ok a else .error .panic
  | fuel + 1, a, s =>
    if s.length < 3 then .ok a
    else match rdAttrHead s with
      | .error e => .error e
      | .ok ((_, code, len), r) =>
        if r.length < len then .ok a
        else match a.step cfg code (r.take len) with
          | .error e => .error e
          | .ok a => routeAttrLoop cfg fuel a (r.drop len)

/-- `parse_route_attributes` (route.rs 46-128), with `merge_as_path` (37-44) left to `RouteAttrs.path`. -/
def parseRouteAttrs (cfg : AttrCfg) (s : Bytes) : Except Err RouteAttrs := routeAttrLoop cfg s.length .init s

/-- `merge_as_path` (route.rs 37-44). -/
def RouteAttrs.path (a : RouteAttrs) : Option AsPath := mergePaths a.asPath a.as4Path

/-! ### the routes of one record -/

/-- `RouteRecordIter` with its `RouteUpdateIter`, `RouteTableDumpIter` and `RouteRibAfiIter` (route.rs 140-150, 228-234,
247-250, 293-301). A chain of two `vec::IntoIter`s is the list of what they have left; the phase flag of the update
iterator is the emptiness of `announced`. -/
inductive RouteIter where
  | empty
  | update (time : Nat) (peerIp : Ip) (peerAsn : Asn) (path : Option AsPath) (announced withdrawn : List NetworkPrefix)
  | tableDump (data : Bytes) (v4 : Bool)
  | rib (data : Bytes) (peers : List Peer) (afi : Afi) (safi : Safi) (addPath : Bool) (pfx : NetworkPrefix) (remaining : Nat)
deriving DecidableEq, Repr

/-- `RouteTableDumpIter::next_route` (route.rs 253-290) when there is data. -/
def rdTableDumpRoute (v4 : Bool) : Rd RouteElem := do
  let p ← rdFullPrefix v4
  let _ ← rdU8
  let time ← rdU32
  let ip ← rdAddr (if v4 then .ipv4 else .ipv6)
  let asn ← rdU16
  let len ← rdU16
  needN len.toNat
  let d ← splitTo len.toNat
  let a ← Rd.lift (parseRouteAttrs ⟨.b16, false, none, none, none⟩ d)
  pure ⟨time.toNat * 1000000, .announce, ip, asn.toUInt32, ⟨p, none⟩, a.path⟩

/-- `rib_entry_min_len` (rib_afi_entries.rs 52-54). -/
def ribEntryMinLen (addPath : Bool) : Nat := 8 + if addPath then 4 else 0

/-- the fixed part of a RIB entry (route.rs 312-320): peer index, time, attribute length. -/
def rdRibHead (addPath : Bool) : Rd (UInt16 × UInt32 × Nat) := do
  let peer ← rdU16
  let time ← rdU32
  let _ ← (if addPath then do let i ← rdU32; pure (some i) else pure none : Rd (Option UInt32))
  let len ← rdU16
  pure (peer, time, len.toNat)

/-- `RouteRibAfiIter::next_route` (route.rs 304-360): the route, the data left and the number of entries left. -/
def nextRibRoute (peers : List Peer) (afi : Afi) (safi : Safi) (addPath : Bool) (pfx : NetworkPrefix) :
    Nat → Bytes → Except Err (Option RouteElem × Bytes × Nat)
  | 0, s => .ok (none, s, 0)
  | n + 1, s =>
    if s.length < ribEntryMinLen addPath then .ok (none, s, 0)
    else match rdRibHead addPath s with
      | .error e => .error e
      | .ok ((peer, time, len), r) =>
        if r.length < len then .ok (none, r, 0)
        else match parseRouteAttrs ⟨.b32, addPath, some afi, some safi, some [pfx]⟩ (r.take len) with
          | .error e => .error e
          | .ok a =>
            match peers[peer.toNat]? with
            | none => nextRibRoute peers afi safi addPath pfx n (r.drop len)
            | some p => .ok (some ⟨time.toNat * 1000000, .announce, p.ip, p.asn, pfx, a.path⟩, r.drop len, n)

/-- `RouteRecordIter::next_route` (route.rs 237-245) with `RouteUpdateIter::next_route` (153-176). After an error the
iterator is thrown away by its callers, so its state is not given. -/
def RouteIter.next : RouteIter → Except Err (Option RouteElem × RouteIter)
  | .empty => .ok (none, .empty)
  | .update t ip asn path (p :: ps) ws => .ok (some ⟨t, .announce, ip, asn, p, path⟩, .update t ip asn path ps ws)
  | .update t ip asn path [] (w :: ws) => .ok (some ⟨t, .withdraw, ip, asn, w, none⟩, .update t ip asn path [] ws)
  | .update t ip asn path [] [] => .ok (none, .update t ip asn path [] [])
  | .tableDump [] v4 => .ok (none, .tableDump [] v4)
  | .tableDump d v4 =>
    match rdTableDumpRoute v4 d with
    | .error e => .error e
    | .ok (x, r) => .ok (some x, .tableDump r v4)
  | .rib d peers afi safi ap pfx n =>
    match nextRibRoute peers afi safi ap pfx n d with
    | .error e => .error e
    | .ok (x, d, n) => .ok (x, .rib d peers afi safi ap pfx n)

/-- a bound for the number of routes left. -/
def RouteIter.size : RouteIter → Nat
  | .empty => 0
  | .update _ _ _ _ ps ws => ps.length + ws.length
  | .tableDump d _ => d.length
  | .rib _ _ _ _ _ _ n => n

/-- `while let Some(x) = it.next_route()? { … }` for at most `n` rounds: the routes and the error that ended it. -/
def RouteIter.gather : Nat → RouteIter → List RouteElem × Option Err
  | 0, _ => ([], none)
  | n + 1, it =>
    match it.next with
    | .error e => ([], some e)
    | .ok (none, _) => ([], none)
    | .ok (some x, it) => (x :: (RouteIter.gather n it).1, (RouteIter.gather n it).2)

/-- all the routes of a record (as the test helper `collect_route_record_iter`, route.rs 868-876). -/
def RouteIter.collect (it : RouteIter) : List RouteElem × Option Err := it.gather (it.size + 1)

/-! ### from a raw record to its routes -/

/-- `parse_bgp_update_routes` (route.rs 363-401). -/
def updateRoutes (addPath : Bool) (l : AsnLen) (time : Nat) (ip : Ip) (asn : Asn) (s : Bytes) : Except Err RouteIter :=
  match rdSection s with
  | .error e => .error e
  | .ok (wb, r) =>
    match parseNlriList .ipv4 addPath wb with
    | .error e => .error e
    | .ok ws =>
      match rdSection r with
      | .error e => .error e
      | .ok (ab, nb) =>
        match parseNlriList .ipv4 addPath nb with
        | .error e => .error e
        | .ok ns =>
          match parseRouteAttrs ⟨l, addPath, none, none, none⟩ ab with
          | .error e => .error e
          | .ok a => .ok (.update time ip asn a.path (ns ++ a.announced) (ws ++ a.withdrawn))

/-- the `match msg_type` at the end of `parse_bgp_message_routes` (route.rs 446-453): only an UPDATE is looked into. -/
def bodyRoutes (addPath : Bool) (l : AsnLen) (time : Nat) (ip : Ip) (asn : Asn) (t : MsgType) (d : Bytes) : Except Err RouteIter :=
  match t with
  | .update => updateRoutes addPath l time ip asn d
  | .open | .notification | .keepAlive | .routeRefresh => .ok .empty

/-- `parse_bgp_message_routes` (route.rs 403-454). -/
def messageRoutes (addPath : Bool) (l : AsnLen) (time : Nat) (ip : Ip) (asn : Asn) : Rd RouteIter := do
  let total ← Rd.remaining
  needN 19
  rdMarker
  let length ← rdU16
  if ¬ (19 ≤ length.toNat ∧ length.toNat ≤ 65535) then Rd.fail .parse else do
  let bodyLen := if length.toNat > total then total - 19 else length.toNat - 19
  let ty ← rdU8
  match MsgType.ofU8? ty with
  | none => Rd.fail .parse
  | some t =>
    if (t = .open ∨ t = .keepAlive) ∧ length.toNat > 4096 then Rd.fail .parse else do
    needN bodyLen
    let d ← splitTo bodyLen
    Rd.lift (bodyRoutes addPath l time ip asn t d)

/-- `bgp4mp_asn_len_and_add_path` (route.rs 456-468). -/
def MpType.routeSession : MpType → Option (AsnLen × Bool)
  | .message | .messageLocal => some (.b16, false)
  | .messageAs4 | .messageAs4Local => some (.b32, false)
  | .messageAp | .messageLocalAp => some (.b16, true)
  | .messageAs4Ap | .messageLocalAs4Ap => some (.b32, true)
  | .stateChange | .stateChangeAs4 => none

/-- the part of `parse_bgp4mp_routes` after the subtype (route.rs 480-508). -/
def mpMessageRoutes (addPath : Bool) (l : AsnLen) (time : Nat) (s : Bytes) : Except Err RouteIter :=
  (do
    let peer ← rdAsn l
    let _ ← rdAsn l
    if isShortZebraOpen s l then messageRoutes addPath l time (.v4 v4zero) peer
    else do
      let _ ← rdU16
      let afi ← rdAfi
      Rd.lift (validMpAfi afi)
      let peerIp ← rdAddr afi
      let _ ← rdAddr afi
      let rem ← Rd.remaining
      if mpPayloadLen afi l s.length ≠ rem then Rd.fail .truncated else
      messageRoutes addPath l time peerIp peer : Rd RouteIter).runOn s

/-- `parse_bgp4mp_routes` (route.rs 470-509). -/
def bgp4mpRoutes (subtype : UInt16) (s : Bytes) (time : Nat) : Except Err RouteIter :=
  match MpType.ofU16? subtype with
  | none => .error .parse
  | some t =>
    match t.routeSession with
    | none => .ok .empty
    | some (l, ap) => mpMessageRoutes ap l time s

/-- `parse_table_dump_routes` (route.rs 541-560). -/
def tableDumpRoutes (subtype : UInt16) (s : Bytes) : Except Err RouteIter :=
  if subtype = 1 ∨ subtype = 2 then
    (do
      let _ ← rdU16
      let _ ← rdU16
      let rest ← Rd.peek
      if rest.isEmpty then Rd.fail .truncated else pure (.tableDump rest (subtype = 1)) : Rd RouteIter).runOn s
  else .error .parse

/-- `parse_legacy_bgp_routes` (route.rs 562-590). -/
def legacyRoutes (subtype : UInt16) (s : Bytes) (time : Nat) : Except Err RouteIter :=
  if subtype = 1 then
    (do
      let peer ← rdU16
      let peerIp ← rdV4
      let _ ← rdU16
      let _ ← rdV4
      let rest ← Rd.peek
      Rd.lift (updateRoutes false .b16 time (.v4 peerIp) peer.toUInt32 rest) : Rd RouteIter).runOn s
  else if subtype = 3 ∨ subtype = 5 ∨ subtype = 6 ∨ subtype = 7 then mapOk (fun _ => .empty) (parseLegacyBgp subtype s)
  else .error .unsupported

/-- `parse_route_peer_table` (route.rs 190-226). -/
def parseRoutePeers : Rd (List Peer) := do
  let _ ← rdU32
  let n ← rdU16
  needN n.toNat
  advance n.toNat
  let count ← rdU16
  rdTimes rdPeer count.toNat

/-- the RIB arm of `parse_table_dump_v2_routes` (route.rs 606-628), with `table_dump_v2_afi_safi` and `is_add_path_rib_type` (511-539). -/
def ribRoutes (t : V2Type) (s : Bytes) (table : Option (List Peer)) : Except Err RouteIter :=
  match t.family with
  | none => .error .parse
  | some (afi, safi) =>
    (do
      let _ ← rdU32
      let p ← tryParsePrefix afi false
      let n ← rdU16
      let rest ← Rd.peek
      match table with
      | none => Rd.fail .parse
      | some peers => pure (.rib rest peers afi safi t.addPath p n.toNat) : Rd RouteIter).runOn s

/-- `parse_table_dump_v2_routes` (route.rs 592-630): the result and the peer table afterwards. -/
def tableDumpV2Routes (subtype : UInt16) (s : Bytes) (table : Option (List Peer)) : Except Err RouteIter × Option (List Peer) :=
  match V2Type.ofU16? subtype with
  | none => (.error .parse, table)
  | some .peerIndexTable =>
    match parseRoutePeers.runOn s with
    | .error e => (.error e, table)
    | .ok ps => (.ok .empty, some ps)
  | some .geo => (.ok .empty, table)
  | some .generic => (.error .unsupported, table)
  | some .genericAp => (.error .unsupported, table)
  | some t => (ribRoutes t s table, table)

/-- `parse_raw_record_route_iter` (route.rs 632-661) with `record_timestamp` (133-138), which is the same computation as in
`record_to_elems_iter`: the result and the peer table afterwards. -/
def routeIterOf (raw : Raw) (table : Option (List Peer)) : Except Err RouteIter × Option (List Peer) :=
  let time := raw.header.micros
  match raw.header.type with
  | .tableDump => (tableDumpRoutes raw.header.subtype raw.body, table)
  | .tableDumpV2 => tableDumpV2Routes raw.header.subtype raw.body table
  | .bgp4mp | .bgp4mpEt => (bgp4mpRoutes raw.header.subtype raw.body time, table)
  | .bgp => (legacyRoutes raw.header.subtype raw.body time, table)
  | _ => (.error .unsupported, table)

/-! ### the iterators -/

/-- `RouteIterator` and `FallibleRouteIterator` (route.rs 663-668, 775-780) without the settings of the parser. -/
structure RouteState where
  pending : RouteIter
  rawBytes : Option Bytes
  table : Option (List Peer)
  src : Src
deriving DecidableEq, Repr

/-- `RouteIterator::new`, `FallibleRouteIterator::new` (route.rs 671-678, 783-790). -/
def RouteState.new (s : Src) : RouteState := ⟨.empty, none, none, s⟩

/-- The rounds of the loop of `next` that only take pending routes (route.rs 690-696, 802-808): the first route that
matches, `None` or an error. Fuel: the number of pending routes. -/
def drain (p : RouteElem → Bool) : Nat → RouteIter → Except Err (Option RouteElem × RouteIter)
  | 0, it => .ok (none, it)
  | fuel + 1, it =>
    match it.next with
    | .error e => .error e
    | .ok (none, it) => .ok (none, it)
    | .ok (some x, it) => if p x then .ok (some x, it) else drain p fuel it

/-- `RouteIterator::next` (route.rs 684-772) on MRT input. Fuel: a round that does not return consumes input or leaves no
pending routes. Log lines and core dump files are not modelled. A panic ends everything. -/
def routeNext (env : TextEnv) (fs : List (Filter env.Rx)) (coreDump : Bool) (pol : Pol) :
    Nat → RouteState → Option RouteElem × RouteState
  | 0, st => (none, st)
  | fuel + 1, st =>
    match drain (fun x => x.matchFilters env fs) (st.pending.size + 1) st.pending with
    | .ok (some x, it) => (some x, { st with pending := it })
    | .error e =>
      if coreDump || e == .panic then (none, { st with pending := .empty, rawBytes := none })
      else routeNext env fs coreDump pol fuel { st with pending := .empty, rawBytes := none }
    | .ok (none, it) =>
      match chunk pol st.src with
      | (.error e, s) =>
        if goesOn coreDump e.error then routeNext env fs coreDump pol fuel ⟨it, none, st.table, s⟩
        else (none, ⟨it, none, st.table, s⟩)
      | (.ok raw, s) =>
        match routeIterOf raw st.table with
        | (.ok it', table) => routeNext env fs coreDump pol fuel ⟨it', some raw.bytes, table, s⟩
        | (.error e, table) =>
          if coreDump || e == .panic then (none, ⟨it, none, table, s⟩)
          else routeNext env fs coreDump pol fuel ⟨it, none, table, s⟩

/-- `into_route_iter` and its `next`, with the fuel. -/
def routeIter (env : TextEnv) (fs : List (Filter env.Rx)) (coreDump : Bool) (pol : Pol) (st : RouteState) :
    Option RouteElem × RouteState := routeNext env fs coreDump pol (2 * st.src.size + 2) st

/-- `FallibleRouteIterator::next` (route.rs 796-845) on MRT input. -/
def fallibleRouteNext (env : TextEnv) (fs : List (Filter env.Rx)) (pol : Pol) :
    Nat → RouteState → Option (Except RecErr RouteElem) × RouteState
  | 0, st => (none, st)
  | fuel + 1, st =>
    match drain (fun x => x.matchFilters env fs) (st.pending.size + 1) st.pending with
    | .ok (some x, it) => (some (.ok x), { st with pending := it })
    | .error e => (some (.error ⟨e, st.rawBytes⟩), { st with pending := .empty, rawBytes := none })
    | .ok (none, it) =>
      match chunk pol st.src with
      | (.error e, s) =>
        if e.error = .eofExpected then (none, ⟨it, none, st.table, s⟩) else (some (.error e), ⟨it, none, st.table, s⟩)
      | (.ok raw, s) =>
        match routeIterOf raw st.table with
        | (.ok it', table) => fallibleRouteNext env fs pol fuel ⟨it', some raw.bytes, table, s⟩
        | (.error e, table) => (some (.error ⟨e, some raw.bytes⟩), ⟨it, none, table, s⟩)

/-- `into_fallible_route_iter` and its `next`, with the fuel. -/
def fallibleRouteIter (env : TextEnv) (fs : List (Filter env.Rx)) (pol : Pol) (st : RouteState) :
    Option (Except RecErr RouteElem) × RouteState := fallibleRouteNext env fs pol (st.src.size + 1) st

end Verif
