import Verif.Model.RisLive
import Verif.Spec.Json
import Verif.Spec.Elem
/-
What the messages of RIS Live say.
-/
namespace Verif.Spec

/-! ### documents -/

/-- an optional field of an object: `R` says how a value is written; nothing is written as null or left out. -/
def Says (R : α → Json → Prop) (kvs : List (String × Json)) (k : String) : Option α → Prop
  | some x => ∃ v, HasEntry kvs k v ∧ R x v
  | none => LacksEntry kvs k ∨ HasEntry kvs k .null

/-- a field that must be there. -/
def FieldSays (R : α → Json → Prop) (kvs : List (String × Json)) (k : String) (x : α) : Prop := ∃ v, HasEntry kvs k v ∧ R x v

/-- a text. -/
def TextDoc (s : String) (j : Json) : Prop := j = .str s

/-- a 32-bit number. -/
def U32Doc (n : UInt32) (j : Json) : Prop := j = number n.toNat

/-- a pair of numbers: a community. -/
def PairDoc (c : UInt32 × UInt16) (j : Json) : Prop := j = .arr [number c.1.toNat, number c.2.toNat]

/-- an array of what `R` says. -/
def ListDoc (R : α → Json → Prop) (xs : List α) (j : Json) : Prop := ∃ js, j = .arr js ∧ Pairwise2 R xs js

/-- an AS path in one of the forms of C79. -/
def PathDoc (p : AsPath) (j : Json) : Prop := asPathOf j = some p

/-- an address as text. -/
def IpDoc (env : LiveEnv) (a : Ip) (j : Json) : Prop := ∃ s, j = .str s ∧ env.ip s.toList = some a

/-- an AS number as text. -/
def AsnDoc (a : Asn) (j : Json) : Prop := ∃ s, j = .str s ∧ AsnWord s.toList a

/-- a number of seconds; integers too large for a double are rounded. -/
def SecondsDoc (t : Rat) (j : Json) : Prop := j = .float t ∨ ∃ z : Int, j = .int z ∧ t = f64Round z

/-- an announcement: a next hop with its prefixes, as an object or as an array of the two. -/
def AnnouncementDoc (env : LiveEnv) (a : Ip × List String) (j : Json) : Prop :=
  ∃ nh ps, IpDoc env a.1 nh ∧ ListDoc TextDoc a.2 ps ∧
    ((∃ kvs, j = .obj kvs ∧ HasEntry kvs "next_hop" nh ∧ HasEntry kvs "prefixes" ps) ∨ j = .arr [nh, ps])

/-- The object has these fields of an UPDATE, and maybe others. -/
structure UpdateDoc (env : LiveEnv) (kvs : List (String × Json)) (u : LiveUpdate) : Prop where
  path : Says PathDoc kvs "path" u.path
  community : Says (ListDoc PairDoc) kvs "community" u.community
  origin : Says TextDoc kvs "origin" u.origin
  med : Says U32Doc kvs "med" u.med
  aggregator : Says TextDoc kvs "aggregator" u.aggregator
  announcements : Says (ListDoc (AnnouncementDoc env)) kvs "announcements" u.announcements
  withdrawals : Says (ListDoc TextDoc) kvs "withdrawals" u.withdrawals

/-- The object is marked as an UPDATE, by name or by number. -/
def MarkedUpdate (kvs : List (String × Json)) : Prop := HasEntry kvs "type" (.str "UPDATE") ∨ HasEntry kvs "type" (.int 0)

/-- The object is an UPDATE with this content. -/
def IsUpdate (env : LiveEnv) (kvs : List (String × Json)) (u : LiveUpdate) : Prop := MarkedUpdate kvs ∧ UpdateDoc env kvs u

/-- The object has these fields of a message, and maybe others. -/
structure MessageDoc (env : LiveEnv) (kvs : List (String × Json)) (m : LiveMessage) : Prop where
  timestamp : FieldSays SecondsDoc kvs "timestamp" m.timestamp
  peer : FieldSays (IpDoc env) kvs "peer" m.peer
  peerAsn : FieldSays AsnDoc kvs "peer_asn" m.peerAsn
  id : FieldSays TextDoc kvs "id" m.id
  raw : Says TextDoc kvs "raw" m.raw
  host : FieldSays TextDoc kvs "host" m.host
  update : ∀ u, m.update = some u ↔ IsUpdate env kvs u

/-- the mark of a message from a collector. -/
def MessageTag (j : Json) : Prop := j = .str "ris_message" ∨ j = .obj [("ris_message", .null)]

/-- The document is an envelope around a message from a collector. -/
def Envelope (j : Json) (kvs : List (String × Json)) : Prop :=
  ∃ ty, MessageTag ty ∧ ((∃ top, j = .obj top ∧ HasEntry top "type" ty ∧ HasEntry top "data" (.obj kvs)) ∨ j = .arr [ty, .obj kvs])

/-- The document is a message of the server about the connection itself. -/
def ServerNotice (j : Json) : Prop :=
  ∃ top, j = .obj top ∧
    ((HasEntry top "type" (.str "ris_error") ∧ ∃ kvs s, HasEntry top "data" (.obj kvs) ∧ HasEntry kvs "message" (.str s)) ∨
    ((HasEntry top "type" (.str "pong") ∨ HasEntry top "type" (.str "ris_rrc_list")) ∧
      (LacksEntry top "data" ∨ HasEntry top "data" .null ∨ ∃ kvs, HasEntry top "data" (.obj kvs))) ∨
    (HasEntry top "type" (.str "ris_subscribe_ok") ∧ ∃ kvs a b, HasEntry top "data" (.obj kvs) ∧ HasEntry kvs "subscription" a ∧
      HasEntry kvs "socketOptions" b))

/-! ### elements -/

/-- the words for an origin. -/
def OriginWord (s : String) : Origin → Prop
  | .igp => s = "igp" ∨ s = "IGP"
  | .egp => s = "egp" ∨ s = "EGP"
  | .incomplete => s = "incomplete" ∨ s = "INCOMPLETE"

/-- what the origin field says. -/
def OriginSays : Option String → Option Origin → Prop
  | none, o => o = none
  | some s, o => ∃ w, o = some w ∧ OriginWord s w

/-- what the aggregator field says: AS number and address, with a colon between. -/
def AggregatorSays (env : LiveEnv) : Option String → Option Asn × Option V4 → Prop
  | none, a => a = (none, none)
  | some s, a => ∃ x y asn ip, s.toList = x ++ ':' :: y ∧ ':' ∉ x ∧ AsnWord x asn ∧ env.v4 y = some ip ∧ a = (some asn, some ip)

/-- the announced prefixes in order, each with its next hop. -/
def announcedTexts (u : LiveUpdate) : List (Ip × String) :=
  (u.announcements.getD []).flatMap fun a => a.2.map fun s => (a.1, s)

/-- the withdrawn prefixes. -/
def withdrawnTexts (u : LiveUpdate) : List String := u.withdrawals.getD []

/-- The element is the announcement of this prefix with the attributes of the update. -/
structure LiveAnnounces (env : LiveEnv) (m : LiveMessage) (u : LiveUpdate) (o : Option Origin) (aggr : Option Asn × Option V4)
    (a : Ip × String) (e : BgpElem) : Prop where
  type : e.type = .announce
  time : e.time = stampMicros m.timestamp
  peerIp : e.peerIp = m.peer
  peerAsn : e.peerAsn = m.peerAsn
  prefix_ : env.net a.2.toList = some e.prefix_.prefix_
  nextHop : e.nextHop = some a.1
  asPath : e.asPath = u.path
  origin : e.origin = o
  med : e.med = u.med
  communities : e.communities = u.community.map fun cs => cs.map fun c => .plain (.custom c.1 c.2)
  aggrAsn : e.aggrAsn = aggr.1
  aggrIp : e.aggrIp = aggr.2
  rest : e.peerBgpId = none ∧ e.prefix_.pathId = none ∧ e.originAsns = none ∧ e.localPref = none ∧ e.atomic = false ∧ e.otc = none ∧
    e.unknown = none ∧ e.deprecated = none

/-- The element is the withdrawal of this prefix. -/
def LiveWithdraws (env : LiveEnv) (m : LiveMessage) (s : String) (e : BgpElem) : Prop :=
  ∃ n, env.net s.toList = some n ∧ e = withdrawal (stampMicros m.timestamp) m.peer m.peerAsn ⟨n, none⟩

/-- These are the elements of the update: its announcements and then its withdrawals. -/
def LiveElems (env : LiveEnv) (m : LiveMessage) (u : LiveUpdate) (es : List BgpElem) : Prop :=
  ∃ o aggr ann wd, OriginSays u.origin o ∧ AggregatorSays env u.aggregator aggr ∧ es = ann ++ wd ∧
    Pairwise2 (LiveAnnounces env m u o aggr) (announcedTexts u) ann ∧ Pairwise2 (LiveWithdraws env m) (withdrawnTexts u) wd

/-! ### raw messages -/

/-- a hexadecimal digit, in either case. -/
def HexDigit (c : Char) (n : Nat) : Prop :=
  "0123456789abcdef".toList[n]? = some c ∨ "0123456789ABCDEF".toList[n]? = some c

/-- Two digits for each octet. -/
inductive HexText : List Char → Bytes → Prop where
  | nil : HexText [] []
  | cons {a c : Char} {b : UInt8} {t : List Char} {bs : Bytes} :
    HexDigit a (b.toNat / 16) → HexDigit c (b.toNat % 16) → HexText t bs → HexText (a :: c :: t) (b :: bs)

/-- The text is a message with these octets in its `raw` field. -/
def RawDoc (env : LiveEnv) (text : String) (m : LiveMessage) (bs : Bytes) : Prop :=
  ∃ j kvs raw, env.json text = some j ∧ Envelope j kvs ∧ MessageDoc env kvs m ∧ m.raw = some raw ∧ HexText raw.toList bs

/-- The octets are read as this message: with AS numbers of four octets, or else with AS numbers of two. -/
def ReadRaw (bs : Bytes) (msg : BgpMessage) : Prop :=
  (∃ r, parseBgpMessage false .b32 bs = .ok (msg, r)) ∨
    ((∀ x, parseBgpMessage false .b32 bs ≠ .ok x) ∧ ∃ r, parseBgpMessage false .b16 bs = .ok (msg, r))

/-- The time is the double nearest to this number of microseconds. -/
def StampOf (t : Rat) (k : Nat) : Prop := k < 4294967296 * 1000000 ∧ t = f64Round ((k : Rat) / 1000000)

/-! ### messages to the server -/

/-- the value of the last call that sets something. -/
def lastSet (f : SubscribeOp → Option α) (ops : List SubscribeOp) : Option α := (ops.filterMap f).getLast?

/-- what the calls set. -/
def SubscribeOp.isHost : SubscribeOp → Option String | .host s => some s | _ => none
/-- see `SubscribeOp.isHost`. -/
def SubscribeOp.isType : SubscribeOp → Option SubscribeType | .dataType s => some s | _ => none
/-- see `SubscribeOp.isHost`. -/
def SubscribeOp.isRequire : SubscribeOp → Option String | .require s => some s | _ => none
/-- see `SubscribeOp.isHost`. -/
def SubscribeOp.isPeer : SubscribeOp → Option Ip | .peer s => some s | _ => none
/-- see `SubscribeOp.isHost`. -/
def SubscribeOp.isPath : SubscribeOp → Option String | .path s => some s | _ => none
/-- see `SubscribeOp.isHost`. -/
def SubscribeOp.isPrefix : SubscribeOp → Option IpNet | .prefix_ s => some s | _ => none
/-- see `SubscribeOp.isHost`. -/
def SubscribeOp.isMore : SubscribeOp → Option Bool | .moreSpecific s => some s | _ => none
/-- see `SubscribeOp.isHost`. -/
def SubscribeOp.isLess : SubscribeOp → Option Bool | .lessSpecific s => some s | _ => none
/-- see `SubscribeOp.isHost`. -/
def SubscribeOp.isRaw : SubscribeOp → Option Bool | .includeRaw s => some s | _ => none
/-- see `SubscribeOp.isHost`. -/
def SubscribeOp.isAck : SubscribeOp → Option Bool | .acknowledge s => some s | _ => none

/-- The object shows this value under this key, or lacks the key. -/
def ShowsKey (kvs : List (String × Json)) (k : String) : Option Json → Prop
  | some j => HasEntry kvs k j
  | none => LacksEntry kvs k

/-- the name of a kind of message in the protocol. -/
def typeWord : SubscribeType → String
  | .update => "UPDATE"
  | .open => "OPEN"
  | .notification => "NOTIFICATION"
  | .keepalive => "KEEPALIVE"
  | .risPeerState => "RIS_PEER_STATE"

/-- the keys of a subscription. -/
def subscribeKeys : List String :=
  ["host", "type", "require", "peer", "path", "prefix", "moreSpecific", "lessSpecific", "socketOptions"]

/-- The object is the subscription these calls built. -/
structure SubscribeDoc (env : ShowEnv) (ops : List SubscribeOp) (kvs : List (String × Json)) : Prop where
  host : ShowsKey kvs "host" ((lastSet SubscribeOp.isHost ops).map .str)
  type : ShowsKey kvs "type" ((lastSet SubscribeOp.isType ops).map fun t => .str (typeWord t))
  require : ShowsKey kvs "require" ((lastSet SubscribeOp.isRequire ops).map .str)
  peer : ShowsKey kvs "peer" ((lastSet SubscribeOp.isPeer ops).map fun a => .str (String.ofList (a.text env)))
  path : ShowsKey kvs "path" ((lastSet SubscribeOp.isPath ops).map .str)
  prefix_ : ShowsKey kvs "prefix" ((lastSet SubscribeOp.isPrefix ops).map fun n => .str (String.ofList (n.text env)))
  more : ShowsKey kvs "moreSpecific" ((lastSet SubscribeOp.isMore ops).map .bool)
  less : ShowsKey kvs "lessSpecific" ((lastSet SubscribeOp.isLess ops).map .bool)
  noOptions : lastSet SubscribeOp.isRaw ops = none → lastSet SubscribeOp.isAck ops = none → LacksEntry kvs "socketOptions"
  options : lastSet SubscribeOp.isRaw ops ≠ none ∨ lastSet SubscribeOp.isAck ops ≠ none →
    ∃ os, HasEntry kvs "socketOptions" (.obj os) ∧ ShowsKey os "includeRaw" ((lastSet SubscribeOp.isRaw ops).map .bool) ∧
      ShowsKey os "acknowledge" ((lastSet SubscribeOp.isAck ops).map .bool) ∧ ∀ kv ∈ os, kv.1 = "includeRaw" ∨ kv.1 = "acknowledge"
  only : ∀ kv ∈ kvs, kv.1 ∈ subscribeKeys

end Verif.Spec
