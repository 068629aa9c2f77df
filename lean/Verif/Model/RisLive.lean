import Verif.Model.Json
import Verif.Model.F64
/-
RIS Live: `/repo/src/parser/rislive/mod.rs`, `messages/server/*.rs` and `messages/client/*.rs`. The derived `Deserialize` of the
message types is modelled on JSON values (`Verif.Model.Json`); the step from text to value is a parameter.
-/
namespace Verif

/-- The conversions of std, ipnet and serde_json that are not modelled, as arbitrary functions: the syntax of JSON and the parsing
of addresses and prefixes. -/
structure LiveEnv where
  json : String → Option Json
  ip : List Char → Option Ip
  v4 : List Char → Option V4
  net : List Char → Option IpNet

/-- `ParserRisliveError` (src/parser/rislive/error.rs 5-16). The text in `IncorrectJson` is not modelled. The other variants are
never constructed by the functions below. -/
inductive LiveErr where
  | incorrectJson
  | incorrectRawBytes
  | unsupportedMessage
  | endOfRibPrefix
  | unknownOriginType (s : String)
  | incorrectAggregator (s : String)
  | incorrectPrefix (s : String)
deriving DecidableEq, Repr

/-! ### messages -/

/-- the fields of `RisMessageEnum::UPDATE` (messages/server/ris_message.rs 31-43). -/
structure LiveUpdate where
  path : Option AsPath
  community : Option (List (UInt32 × UInt16))
  origin : Option String
  med : Option UInt32
  aggregator : Option String
  announcements : Option (List (Ip × List String))
  withdrawals : Option (List String)

/-- `RisMessage` (ris_message.rs 9-22). `update` is the content of an UPDATE message; it is `none` when `msg` is `None` or another
variant, which the code does not distinguish. -/
structure LiveMessage where
  timestamp : Rat
  peer : Ip
  peerAsn : Asn
  id : String
  raw : Option String
  host : String
  update : Option LiveUpdate

/-- `RisLiveMessage` (messages/mod.rs 14-27): only the variant of `ris_message` carries anything that is used. -/
inductive LiveEnvelope where
  | message (m : LiveMessage)
  | other

/-- `f64::deserialize`: integers are converted. -/
def f64Of : Json → Option Rat
  | .int z => some (f64Round z)
  | .float x => some x
  | _ => none

/-- `(u32, u16)::deserialize`. -/
def communityPairOf : Json → Option (UInt32 × UInt16)
  | .arr [a, b] => do return (← a.u32, ← b.u16)
  | _ => none

/-- `Announcement::deserialize` (derived; ris_message.rs 82-90) with `as_str` (92-117). -/
def announcementOf (env : LiveEnv) (j : Json) : Option (Ip × List String) := do
  match ← Json.fields ["next_hop", "prefixes"] j with
  | [nh, ps] => return (← Json.req (Json.viaText env.ip) nh, ← Json.req (Json.list Json.string) ps)
  | _ => none

/-- the content of `UPDATE` (derived; ris_message.rs 31-43). -/
def liveUpdateOf (env : LiveEnv) (kvs : List (String × Json)) : Option LiveUpdate := do
  return {
    path := ← Json.opt asPathOf (← Json.entry kvs "path"),
    community := ← Json.opt (Json.list communityPairOf) (← Json.entry kvs "community"),
    origin := ← Json.opt Json.string (← Json.entry kvs "origin"),
    med := ← Json.opt Json.u32 (← Json.entry kvs "med"),
    aggregator := ← Json.opt Json.string (← Json.entry kvs "aggregator"),
    announcements := ← Json.opt (Json.list (announcementOf env)) (← Json.entry kvs "announcements"),
    withdrawals := ← Json.opt (Json.list Json.string) (← Json.entry kvs "withdrawals") }

/-- whether the tag of `RisMessageEnum` (derived, `tag = "type"`; ris_message.rs 24-65) selects `UPDATE`: by name, or by the index
of the variant. -/
def isUpdateTag : Json → Bool
  | .str s => s == "UPDATE"
  | .int z => z == 0
  | _ => false

/-- `Option<RisMessageEnum>` flattened into `RisMessage` (ris_message.rs 20-21): any error makes it `None`. -/
def liveBodyOf (env : LiveEnv) (kvs : List (String × Json)) : Option LiveUpdate :=
  match Json.entry kvs "type" with
  | some (some tag) => if isUpdateTag tag then liveUpdateOf env (kvs.filter fun kv => kv.1 != "type") else none
  | _ => none

/-- the keys of the other fields of `RisMessage`. -/
def liveKeys : List String := ["timestamp", "peer", "peer_asn", "id", "raw", "host"]

/-- `Deserialize for RisMessage` (derived with `flatten`, so from objects only; ris_message.rs 9-22). -/
def liveMessageOf (env : LiveEnv) : Json → Option LiveMessage
  | .obj kvs => do
    return {
      timestamp := ← Json.req f64Of (← Json.entry kvs "timestamp"),
      peer := ← Json.req (Json.viaText env.ip) (← Json.entry kvs "peer"),
      peerAsn := ← Json.req (Json.viaText asnParse) (← Json.entry kvs "peer_asn"),
      id := ← Json.req Json.string (← Json.entry kvs "id"),
      raw := ← Json.opt Json.string (← Json.entry kvs "raw"),
      host := ← Json.req Json.string (← Json.entry kvs "host"),
      update := liveBodyOf env (kvs.filter fun kv => !liveKeys.contains kv.1) }
  | _ => none

/-- `Option<RisRrcList>` and `Option<Pong>`: null, an object or an empty array (ris_rrc_list.rs, pong.rs). -/
def emptyStructOk : Option Json → Bool
  | none | some .null | some (.obj _) | some (.arr []) => true
  | _ => false

/-- `Deserialize for RisLiveMessage` (derived, `tag = "type", content = "data"`; messages/mod.rs 14-27). -/
def liveEnvelopeOf (env : LiveEnv) (j : Json) : Option LiveEnvelope := do
  match ← Json.fields ["type", "data"] j with
  | [ty, data] =>
    let (name, content) ← Json.req Json.variant ty
    if !Json.isUnit content then none
    else if name = "ris_message" then return .message (← Json.req (liveMessageOf env) data)
    else if name = "ris_error" then
      match ← Json.req (Json.fields ["message"]) data with
      | [some (.str _)] => some .other
      | _ => none
    else if name = "ris_rrc_list" || name = "pong" then (if emptyStructOk data then some .other else none)
    else if name = "ris_subscribe_ok" then
      match ← Json.req (Json.fields ["subscription", "socketOptions"]) data with
      | [some _, some _] => some .other
      | _ => none
    else none
  | _ => none

/-! ### elements of the JSON fields -/

/-- `parse_prefix` (src/parser/rislive/mod.rs 66-79). -/
def livePrefix (env : LiveEnv) (s : String) : Except LiveErr IpNet :=
  match env.net s.toList with
  | some n => .ok n
  | none => if s = "eor" then .error .endOfRibPrefix else .error (.incorrectPrefix s)

/-- the words of the origin (mod.rs 132-146). -/
def liveOrigin : Option String → Except LiveErr (Option Origin)
  | none => .ok none
  | some s =>
    if s = "igp" ∨ s = "IGP" then .ok (some .igp)
    else if s = "egp" ∨ s = "EGP" then .ok (some .egp)
    else if s = "incomplete" ∨ s = "INCOMPLETE" then .ok (some .incomplete)
    else .error (.unknownOriginType s)

/-- `str::split_once(':')` (std). -/
def splitColon : List Char → Option (List Char × List Char)
  | [] => none
  | c :: cs => if c = ':' then some ([], cs) else (splitColon cs).map fun (a, b) => (c :: a, b)

/-- the aggregator (mod.rs 149-166). -/
def liveAggregator (env : LiveEnv) : Option String → Except LiveErr (Option Asn × Option V4)
  | none => .ok (none, none)
  | some s =>
    match splitColon s.toList with
    | none => .error (.incorrectAggregator s)
    | some (a, b) =>
      match asnParse a with
      | none => .error .incorrectJson
      | some asn =>
        match env.v4 b with
        | none => .error .incorrectJson
        | some ip => .ok (some asn, some ip)

/-- the microseconds of a timestamp: the time of an element is kept in microseconds in the model (see `BgpElem`). -/
def stampMicros (t : Rat) : Nat := (t * 1000000 + 1 / 2).floor.toNat

/-- the elements of one announcement (mod.rs 171-199). -/
def announcedElems (env : LiveEnv) (m : LiveMessage) (u : LiveUpdate) (origin : Option Origin) (aggr : Option Asn × Option V4)
    (nextHop : Ip) : List String → Except LiveErr (List BgpElem)
  | [] => .ok []
  | s :: ss => do
    let n ← livePrefix env s
    let r ← announcedElems env m u origin aggr nextHop ss
    return {
      time := stampMicros m.timestamp, type := .announce, peerIp := m.peer, peerAsn := m.peerAsn, peerBgpId := none, prefix_ := ⟨n, none⟩,
      nextHop := some nextHop, asPath := u.path, originAsns := none, origin := origin, localPref := none, med := u.med,
      communities := u.community.map fun cs => cs.map fun (a, v) => .plain (.custom a v),
      atomic := false, aggrAsn := aggr.1, aggrIp := aggr.2, otc := none, unknown := none, deprecated := none } :: r

/-- the elements of the announcements (mod.rs 168-202). -/
def allAnnouncedElems (env : LiveEnv) (m : LiveMessage) (u : LiveUpdate) (origin : Option Origin) (aggr : Option Asn × Option V4) :
    List (Ip × List String) → Except LiveErr (List BgpElem)
  | [] => .ok []
  | (nh, ps) :: r => do return (← announcedElems env m u origin aggr nh ps) ++ (← allAnnouncedElems env m u origin aggr r)

/-- the elements of the withdrawals (mod.rs 204-233). -/
def withdrawnElems (env : LiveEnv) (m : LiveMessage) : List String → Except LiveErr (List BgpElem)
  | [] => .ok []
  | s :: ss => do
    let n ← livePrefix env s
    let r ← withdrawnElems env m ss
    return {
      time := stampMicros m.timestamp, type := .withdraw, peerIp := m.peer, peerAsn := m.peerAsn, peerBgpId := none, prefix_ := ⟨n, none⟩,
      nextHop := none, asPath := none, originAsns := none, origin := none, localPref := none, med := none, communities := none,
      atomic := false, aggrAsn := none, aggrIp := none, otc := none, unknown := none, deprecated := none } :: r

/-- the arm of `UPDATE` (mod.rs 106-236). -/
def liveElems (env : LiveEnv) (m : LiveMessage) (u : LiveUpdate) : Except LiveErr (List BgpElem) := do
  let origin ← liveOrigin u.origin
  let aggr ← liveAggregator env u.aggregator
  let a ← allAnnouncedElems env m u origin aggr (u.announcements.getD [])
  let w ← withdrawnElems env m (u.withdrawals.getD [])
  return a ++ w

/-- `parse_ris_live_message` and `parse_ris_live_message_json` (mod.rs 86-247): the elements with their timestamps. -/
def parseRisLive (env : LiveEnv) (text : String) : Except LiveErr (List (Rat × BgpElem)) :=
  match (env.json text).bind (liveEnvelopeOf env) with
  | none => .error .incorrectJson
  | some .other => .ok []
  | some (.message m) =>
    match m.update with
    | none => .ok []
    | some u => (liveElems env m u).map fun es => es.map fun e => (m.timestamp, e)

/-! ### elements of the raw message -/

/-- the value of a hexadecimal digit (`hex::decode`). -/
def hexValue (c : Char) : Option Nat :=
  if '0' ≤ c ∧ c ≤ '9' then some (c.toNat - 48)
  else if 'a' ≤ c ∧ c ≤ 'f' then some (c.toNat - 87)
  else if 'A' ≤ c ∧ c ≤ 'F' then some (c.toNat - 55)
  else none

/-- `hex::decode` (hex). Characters beyond ASCII are not digits, so counting characters instead of bytes makes no difference. -/
def hexDecode : List Char → Option Bytes
  | [] => some []
  | [_] => none
  | a :: b :: r => do return UInt8.ofNat ((← hexValue a) * 16 + (← hexValue b)) :: (← hexDecode r)

/-- `decode_ris_live_raw` (messages/server/raw_bytes.rs 117-138). -/
def decodeRisLiveRaw (env : LiveEnv) (text : String) : Except LiveErr (LiveMessage × Bytes) :=
  match (env.json text).bind (liveEnvelopeOf env) with
  | none => .error .incorrectJson
  | some .other => .error .unsupportedMessage
  | some (.message m) =>
    match m.raw with
    | none => .error .incorrectRawBytes
    | some raw =>
      match hexDecode raw.toList with
      | none => .error .incorrectRawBytes
      | some bs => .ok (m, bs)

/-- `parse_raw_bgp_message_with_asn_fallback` (raw_bytes.rs 140-147). -/
def parseRawBgp (bs : Bytes) : Except LiveErr BgpMessage :=
  match (parseBgpMessage false .b32).run bs with
  | .ok (m, _) => .ok m
  | .error _ =>
    match (parseBgpMessage false .b16).run bs with
    | .ok (m, _) => .ok m
    | .error _ => .error .incorrectRawBytes

/-- `get_micro_seconds` (raw_bytes.rs 185-187). The fraction of an `f64` is an `f64`. -/
def getMicroSeconds (t : Rat) : UInt32 :=
  let a := if t < 0 then -t else t
  let us := f64ToU32 (((f64Mul (a - a.floor) 1000000) + 1 / 2).floor : Rat)
  if us < 999999 then us else 999999

/-- the record of `parse_ris_live_raw_bgp_message` (raw_bytes.rs 155-182). -/
def liveRecord (m : LiveMessage) (msg : BgpMessage) : MrtRecord where
  header := ⟨f64ToU32 m.timestamp, some (getMicroSeconds m.timestamp), .bgp4mp, MpType.messageAs4.toU16, 0⟩
  message := .bgp4mp (.message {
    msgType := .messageAs4, peerAsn := m.peerAsn, localAsn := 0, iface := 0, peerIp := m.peer,
    localIp := if m.peer.isV4 then .v4 (Vector.replicate 4 0) else .v6 (Vector.replicate 16 0), message := msg })

/-- `parse_ris_live_raw_bgp_message` (raw_bytes.rs 149-183). -/
def liveRawElems (m : LiveMessage) (bs : Bytes) : Except LiveErr (List BgpElem) :=
  (parseRawBgp bs).map fun msg => (Elementor.new.recordToElems (liveRecord m msg)).1

/-- `parse_raw_bytes` and `parse_ris_live_message_raw` (raw_bytes.rs 22-30). -/
def parseRisLiveRaw (env : LiveEnv) (text : String) : Except LiveErr (List BgpElem) := do
  let (m, bs) ← decodeRisLiveRaw env text
  liveRawElems m bs

/-- `RisLiveRawFull` (raw_bytes.rs 61-73) with `RisLiveMeta` (33-47). -/
structure LiveRawFull where
  host : String
  id : String
  peer : Ip
  peerAsn : Asn
  timestamp : Rat
  elems : List BgpElem
  attributes : Attributes
  warnings : List Warning

/-- `parse_ris_live_message_raw_full` (raw_bytes.rs 79-115). -/
def parseRisLiveRawFull (env : LiveEnv) (text : String) : Except LiveErr LiveRawFull := do
  let (m, bs) ← decodeRisLiveRaw env text
  let msg ← parseRawBgp bs
  let (attributes, warnings) := match msg with
    | .update u => (u.attributes, u.attributes.warnings)
    | _ => (Attributes.empty, [])
  let elems ← liveRawElems m bs
  return ⟨m.host, m.id, m.peer, m.peerAsn, m.timestamp, elems, attributes, warnings⟩

/-! ### messages to the server -/

/-- `RisSubscribeType` (messages/client/ris_subscribe.rs 6-14). -/
inductive SubscribeType where
  | update | open | notification | keepalive | risPeerState
deriving DecidableEq, Repr

/-- its serialisation (derived). -/
def SubscribeType.name : SubscribeType → String
  | .update => "UPDATE"
  | .open => "OPEN"
  | .notification => "NOTIFICATION"
  | .keepalive => "KEEPALIVE"
  | .risPeerState => "RIS_PEER_STATE"

/-- `RisSubscribeSocketOptions` (ris_subscribe.rs 16-31). -/
structure SocketOptions where
  includeRaw : Option Bool
  acknowledge : Option Bool
deriving DecidableEq, Repr

/-- `RisSubscribe` (ris_subscribe.rs 33-112). -/
structure Subscribe where
  host : Option String
  dataType : Option SubscribeType
  require : Option String
  peer : Option Ip
  path : Option String
  prefix_ : Option IpNet
  moreSpecific : Option Bool
  lessSpecific : Option Bool
  socketOptions : Option SocketOptions
deriving DecidableEq, Repr

/-- `RisSubscribe::new` (ris_subscribe.rs 115-117). -/
def Subscribe.new : Subscribe := ⟨none, none, none, none, none, none, none, none, none⟩

/-- a call of one of the setters of `RisSubscribe`. -/
inductive SubscribeOp where
  | host (s : String)
  | dataType (t : SubscribeType)
  | require (s : String)
  | peer (a : Ip)
  | path (s : String)
  | prefix_ (n : IpNet)
  | moreSpecific (b : Bool)
  | lessSpecific (b : Bool)
  | includeRaw (b : Bool)
  | acknowledge (b : Bool)
deriving DecidableEq, Repr

/-- the setters (ris_subscribe.rs 119-187). -/
def Subscribe.set (s : Subscribe) : SubscribeOp → Subscribe
  | .host x => { s with host := some x }
  | .dataType x => { s with dataType := some x }
  | .require x => { s with require := some x }
  | .peer x => { s with peer := some x }
  | .path x => { s with path := some x }
  | .prefix_ x => { s with prefix_ := some x }
  | .moreSpecific x => { s with moreSpecific := some x }
  | .lessSpecific x => { s with lessSpecific := some x }
  | .includeRaw x =>
    match s.socketOptions with
    | none => { s with socketOptions := some ⟨some x, none⟩ }
    | some o => { s with socketOptions := some { o with includeRaw := some x } }
  | .acknowledge x =>
    match s.socketOptions with
    | none => { s with socketOptions := some ⟨none, some x⟩ }
    | some o => { s with socketOptions := some { o with acknowledge := some x } }

/-- an entry that is skipped if it is `None` (`skip_serializing_if`). -/
def entryOf (k : String) (f : α → Json) : Option α → List (String × Json)
  | none => []
  | some x => [(k, f x)]

/-- `Serialize for RisSubscribeSocketOptions` (derived). -/
def SocketOptions.json (o : SocketOptions) : Json :=
  .obj (entryOf "includeRaw" .bool o.includeRaw ++ entryOf "acknowledge" .bool o.acknowledge)

/-- `Serialize for RisSubscribe` (derived); `RisUnsubscribe` (ris_unsubscribe.rs 4-8) flattens it. The order of the keys in the text
is not modelled. -/
def Subscribe.json (env : ShowEnv) (s : Subscribe) : Json :=
  .obj (entryOf "host" .str s.host ++ entryOf "type" (fun t => .str t.name) s.dataType ++ entryOf "require" .str s.require ++
    entryOf "peer" (fun a => textJson (a.text env)) s.peer ++ entryOf "path" .str s.path ++
    entryOf "prefix" (fun n => textJson (n.text env)) s.prefix_ ++ entryOf "moreSpecific" .bool s.moreSpecific ++
    entryOf "lessSpecific" .bool s.lessSpecific ++ entryOf "socketOptions" SocketOptions.json s.socketOptions)

/-- a message of a client (messages/client/*.rs). -/
inductive ClientMessage where
  | subscribe (s : Subscribe)
  | unsubscribe (s : Subscribe)
  | ping
  | requestRrcList (names : List String)

/-- `to_json_string` (messages/client/mod.rs 10-20) with the `msg_type` and `Serialize` of each message (ping.rs 7-20,
request_rrc_list.rs 9-29, ris_subscribe.rs 190-194, ris_unsubscribe.rs 16-20): the JSON value. -/
def ClientMessage.json (env : ShowEnv) : ClientMessage → Json
  | .subscribe s => .obj [("type", .str "ris_subscribe"), ("data", s.json env)]
  | .unsubscribe s => .obj [("type", .str "ris_unsubscribe"), ("data", s.json env)]
  | .ping => .obj [("type", .str "ping"), ("data", .null)]
  | .requestRrcList names => .obj [("type", .str "request_rrc_list"), ("data", .arr (names.map .str))]

end Verif
