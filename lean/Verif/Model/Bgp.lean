import Verif.Model.Capability
import Verif.Model.Attr
/-
BGP messages: `/repo/src/parser/bgp/messages.rs`, `/repo/src/models/bgp/mod.rs`, `/repo/src/models/bgp/error.rs`.
-/
namespace Verif

/-! ### NOTIFICATION error codes -/

/-- `MessageHeaderError` (src/models/bgp/error.rs 95-103). -/
inductive HeaderError where
  | unspecific | notSynchronized | badLength | badType | unknown (v : UInt8)
deriving DecidableEq, Repr

/-- `From<u8>` and `Into<u8>` (`num_enum` with `catch_all`). -/
def HeaderError.ofU8 (x : UInt8) : HeaderError :=
  if x = 0 then .unspecific else if x = 1 then .notSynchronized else if x = 2 then .badLength
  else if x = 3 then .badType else .unknown x
def HeaderError.toU8 : HeaderError → UInt8
  | .unspecific => 0 | .notSynchronized => 1 | .badLength => 2 | .badType => 3 | .unknown v => v

/-- `OpenError` (error.rs 113-129). -/
inductive OpenErr where
  | unspecific | badVersion | badPeerAs | badIdentifier | badParameter | badHoldTime | badCapability | roleMismatch
  | unknown (v : UInt8)
deriving DecidableEq, Repr

def OpenErr.ofU8 (x : UInt8) : OpenErr :=
  if x = 0 then .unspecific else if x = 1 then .badVersion else if x = 2 then .badPeerAs
  else if x = 3 then .badIdentifier else if x = 4 then .badParameter else if x = 6 then .badHoldTime
  else if x = 7 then .badCapability else if x = 11 then .roleMismatch else .unknown x
def OpenErr.toU8 : OpenErr → UInt8
  | .unspecific => 0 | .badVersion => 1 | .badPeerAs => 2 | .badIdentifier => 3 | .badParameter => 4
  | .badHoldTime => 6 | .badCapability => 7 | .roleMismatch => 11 | .unknown v => v

/-- `UpdateError` (error.rs 145-161). -/
inductive UpdateErr where
  | unspecific | malformedList | unrecognizedWellKnown | missingWellKnown | flags | length | invalidOrigin
  | invalidNextHop | optional | invalidNetwork | malformedAsPath | unknown (v : UInt8)
deriving DecidableEq, Repr

def UpdateErr.ofU8 (x : UInt8) : UpdateErr :=
  if x = 0 then .unspecific else if x = 1 then .malformedList else if x = 2 then .unrecognizedWellKnown
  else if x = 3 then .missingWellKnown else if x = 4 then .flags else if x = 5 then .length
  else if x = 6 then .invalidOrigin else if x = 8 then .invalidNextHop else if x = 9 then .optional
  else if x = 10 then .invalidNetwork else if x = 11 then .malformedAsPath else .unknown x
def UpdateErr.toU8 : UpdateErr → UInt8
  | .unspecific => 0 | .malformedList => 1 | .unrecognizedWellKnown => 2 | .missingWellKnown => 3 | .flags => 4
  | .length => 5 | .invalidOrigin => 6 | .invalidNextHop => 8 | .optional => 9 | .invalidNetwork => 10
  | .malformedAsPath => 11 | .unknown v => v

/-- `FiniteStateMachineError` (error.rs 178-187). -/
inductive FsmErr where
  | unspecified | openSent | openConfirm | established | unknown (v : UInt8)
deriving DecidableEq, Repr

def FsmErr.ofU8 (x : UInt8) : FsmErr :=
  if x = 0 then .unspecified else if x = 1 then .openSent else if x = 2 then .openConfirm
  else if x = 3 then .established else .unknown x
def FsmErr.toU8 : FsmErr → UInt8
  | .unspecified => 0 | .openSent => 1 | .openConfirm => 2 | .established => 3 | .unknown v => v

/-- `CeaseNotification` (error.rs 197-213). -/
inductive CeaseErr where
  | reserved | maxPrefixes | shutdown | deConfigured | reset | rejected | otherConfig | collision | resources
  | hardReset | bfdDown | unknown (v : UInt8)
deriving DecidableEq, Repr

def CeaseErr.ofU8 (x : UInt8) : CeaseErr :=
  if x = 0 then .reserved else if x = 1 then .maxPrefixes else if x = 2 then .shutdown else if x = 3 then .deConfigured
  else if x = 4 then .reset else if x = 5 then .rejected else if x = 6 then .otherConfig else if x = 7 then .collision
  else if x = 8 then .resources else if x = 9 then .hardReset else if x = 10 then .bfdDown else .unknown x
def CeaseErr.toU8 : CeaseErr → UInt8
  | .reserved => 0 | .maxPrefixes => 1 | .shutdown => 2 | .deConfigured => 3 | .reset => 4 | .rejected => 5
  | .otherConfig => 6 | .collision => 7 | .resources => 8 | .hardReset => 9 | .bfdDown => 10 | .unknown v => v

/-- `RouteRefreshError` (error.rs 223-231). -/
inductive RefreshErr where
  | reserved | invalidLength | unknown (v : UInt8)
deriving DecidableEq, Repr

def RefreshErr.ofU8 (x : UInt8) : RefreshErr :=
  if x = 0 then .reserved else if x = 1 then .invalidLength else .unknown x
def RefreshErr.toU8 : RefreshErr → UInt8
  | .reserved => 0 | .invalidLength => 1 | .unknown v => v

/-- `BgpError` (error.rs 29-41). -/
inductive BgpError where
  | reserved (sub : UInt8)
  | header (e : HeaderError)
  | openErr (e : OpenErr)
  | update (e : UpdateErr)
  | holdTimer (sub : UInt8)
  | fsm (e : FsmErr)
  | cease (e : CeaseErr)
  | refresh (e : RefreshErr)
  | unknown (code sub : UInt8)
deriving DecidableEq, Repr

/-- `BgpError::new` (error.rs 44-71), with `BgpErrorCode::from` (8-20) inlined. -/
def BgpError.new (code sub : UInt8) : BgpError :=
  if code = 0 then .reserved sub
  else if code = 1 then .header (.ofU8 sub)
  else if code = 2 then .openErr (.ofU8 sub)
  else if code = 3 then .update (.ofU8 sub)
  else if code = 4 then .holdTimer sub
  else if code = 5 then .fsm (.ofU8 sub)
  else if code = 6 then .cease (.ofU8 sub)
  else if code = 7 then .refresh (.ofU8 sub)
  else .unknown code sub

/-- `BgpError::get_codes` (error.rs 73-85). -/
def BgpError.codes : BgpError → UInt8 × UInt8
  | .reserved s => (0, s)
  | .header e => (1, e.toU8)
  | .openErr e => (2, e.toU8)
  | .update e => (3, e.toU8)
  | .holdTimer s => (4, s)
  | .fsm e => (5, e.toU8)
  | .cease e => (6, e.toU8)
  | .refresh e => (7, e.toU8)
  | .unknown c s => (c, s)

/-! ### message types -/

/-- `Capability` (src/models/bgp/mod.rs 183-187); the type by its code, see `capValue`. -/
structure Capability where
  ty : UInt8
  value : CapVal
deriving DecidableEq, Repr

/-- `ParamValue` (mod.rs 172-175). -/
inductive ParamValue where
  | raw (b : Bytes)
  | caps (cs : List Capability)
deriving DecidableEq, Repr

/-- `OptParam` (mod.rs 165-168). -/
structure OptParam where
  type : UInt8
  value : ParamValue
deriving DecidableEq, Repr

/-- `BgpOpenMessage` (mod.rs 154-161). -/
structure Open where
  version : UInt8
  asn : Asn
  holdTime : UInt16
  bgpId : V4
  extended : Bool
  params : List OptParam
deriving DecidableEq, Repr

/-- `BgpRouteRefreshMessage` (mod.rs 82-90). -/
structure RouteRefresh where
  afi : UInt16
  subtype : UInt8
  safi : UInt8
  data : Bytes
deriving DecidableEq, Repr

/-- `BgpNotificationMessage` (mod.rs 261-264). -/
structure Notification where
  error : BgpError
  data : Bytes
deriving DecidableEq, Repr

/-- `BgpUpdateMessage` (mod.rs 219-257). -/
structure Update where
  withdrawn : List NetworkPrefix
  attributes : Attributes
  announced : List NetworkPrefix
deriving DecidableEq, Repr

/-- `BgpMessage` (mod.rs 48-54). -/
inductive BgpMessage where
  | open (m : Open)
  | update (m : Update)
  | notification (m : Notification)
  | keepAlive
  | routeRefresh (m : RouteRefresh)
deriving DecidableEq, Repr

/-- `BgpMessageType` (mod.rs 36-42) and its discriminants. -/
inductive MsgType where
  | open | update | notification | keepAlive | routeRefresh
deriving DecidableEq, Repr

def MsgType.toU8 : MsgType → UInt8
  | .open => 1 | .update => 2 | .notification => 3 | .keepAlive => 4 | .routeRefresh => 5

/-- `BgpMessageType::try_from(u8)`. -/
def MsgType.ofU8? (x : UInt8) : Option MsgType :=
  if x = 1 then some .open else if x = 2 then some .update else if x = 3 then some .notification
  else if x = 4 then some .keepAlive else if x = 5 then some .routeRefresh else none

/-- `BgpMessage::msg_type` (mod.rs 57-65). -/
def BgpMessage.msgType : BgpMessage → MsgType
  | .open _ => .open
  | .update _ => .update
  | .notification _ => .notification
  | .keepAlive => .keepAlive
  | .routeRefresh _ => .routeRefresh

/-! ### OPEN -/

/-- one capability (messages.rs 356-411). -/
def rdCapability : Rd Capability := do
  let code ← rdU8
  let len ← rdU8
  let d ← rdN len.toNat
  let v ← Rd.lift (capValue code d)
  pure ⟨code, v⟩

/-- one optional parameter after its type octet (messages.rs 339-425). A byte left over after the last capability of a
parameter is dropped. -/
def rdOpenParam (ext : Bool) (ty : UInt8) : Rd OptParam := do
  let len ← (if ext then do let l ← rdU16; pure l.toNat else do let l ← rdU8; pure l.toNat : Rd Nat)
  if ty = 2 then do
    needN len
    let d ← splitTo len
    let cs ← Rd.lift (whileGe 2 rdCapability d)
    pure ⟨ty, .caps cs⟩
  else do
    let b ← rdN len
    pure ⟨ty, .raw b⟩

/-- an optional parameter after the first (messages.rs 288-426 with `first = false`). -/
def rdNextParam (ext : Bool) : Rd OptParam := do
  let ty ← rdU8
  rdOpenParam ext ty

/-- The parameter loop of `parse_bgp_open_message` (messages.rs 287-426), its first round (`first = true`, 289-336)
written out: the extended flag and the parameters. The optional-parameters length `optLen` selects the format and is not
used otherwise; the parameters extend to the end of the input. -/
def parseOpenParams (optLen : UInt8) (s : Bytes) : Except Err (Bool × List OptParam) :=
  if s.length < 2 then .ok (false, [])
  else match rdU8 s with
    | .error e => .error e
    | .ok (ty, r) =>
      if optLen = 0 ∧ ty = 255 then .error .parse
      else if optLen ≠ 0 ∧ ty = 255 then
        match rdU16 r with
        | .error e => .error e
        | .ok (extLen, r) =>
          if extLen = 0 then .ok (true, [])
          else match rdU8 r with
            | .error e => .error e
            | .ok (ty, r) =>
              match rdOpenParam true ty r with
              | .error e => .error e
              | .ok (p, r) =>
                match whileGe 2 (rdNextParam true) r with
                | .error e => .error e
                | .ok ps => .ok (true, p :: ps)
      else
        match rdOpenParam false ty r with
        | .error e => .error e
        | .ok (p, r) =>
          match whileGe 2 (rdNextParam false) r with
          | .error e => .error e
          | .ok ps => .ok (false, p :: ps)

/-- the fixed OPEN header (messages.rs 271-282). -/
def rdOpenHead : Rd (UInt8 × UInt16 × UInt16 × V4 × UInt8) := do
  needN 10
  let version ← rdU8
  let asn ← rdU16
  let hold ← rdU16
  let id ← rdVec 4
  let optLen ← rdU8
  pure (version, asn, hold, id, optLen)

/-- `parse_bgp_open_message` (messages.rs 270-436) on an owned buffer (its only caller passes one). -/
def parseOpen (s : Bytes) : Except Err Open :=
  match rdOpenHead s with
  | .error e => .error e
  | .ok ((version, asn, hold, id, optLen), r) =>
    match parseOpenParams optLen r with
    | .error e => .error e
    | .ok (ext, ps) => .ok ⟨version, asn.toUInt32, hold, id, ext, ps⟩

/-- one capability of `encode_bgp_open_param_value` (messages.rs 442-456). -/
def encCapability (c : Capability) : Except EncErr Bytes :=
  match u8Len (encCapVal c.value) with
  | .error e => .error e
  | .ok b => .ok (c.ty :: b)

/-- `encode_bgp_open_param_value` (messages.rs 438-461). -/
def encParamValue : ParamValue → Except EncErr Bytes
  | .caps cs => encAll encCapability cs
  | .raw b => .ok b

/-- `.iter().map(..).collect::<Result<Vec<_>, _>>()` -/
def collectOk (f : α → Except EncErr β) : List α → Except EncErr (List β)
  | [] => .ok []
  | x :: xs =>
    match f x with
    | .error e => .error e
    | .ok b =>
      match collectOk f xs with
      | .error e => .error e
      | .ok bs => .ok (b :: bs)

/-- the closure of `BgpOpenMessage::encode` (messages.rs 468-479). -/
def encParam (p : OptParam) : Except EncErr (UInt8 × Bytes) :=
  if p.type = 255 then .error .unencodable
  else match encParamValue p.value with
    | .error e => .error e
    | .ok b => .ok (p.type, b)

/-- one encoded parameter (messages.rs 522-535): the length is cast to one or two octets. -/
def paramBytes (ext : Bool) (p : UInt8 × Bytes) : Bytes :=
  p.1 :: ((if ext then be16 (UInt16.ofNat p.2.length) else [UInt8.ofNat p.2.length]) ++ p.2)

/-- the fixed OPEN header (messages.rs 497-508); `u16::from(Asn)` truncates. -/
def openHead (m : Open) (optLen : UInt8) : Bytes :=
  m.version :: (be16 m.asn.toUInt16 ++ (be16 m.holdTime ++ (m.bgpId.toList ++ [optLen])))

/-- `BgpOpenMessage::encode` (messages.rs 464-537). -/
def encodeOpen (m : Open) : Except EncErr Bytes :=
  match collectOk encParam m.params with
  | .error e => .error e
  | .ok ps =>
    let valuesLen := (ps.map fun p => p.2.length).sum
    let ext := m.extended || decide (2 * ps.length + valuesLen > 255)
    let len := (if ext then 3 else 2) * ps.length + valuesLen
    if ext then
      match checkMax len 65535 with
      | .error e => .error e
      | .ok _ => .ok (openHead m 255 ++ (255 :: be16 (UInt16.ofNat len)) ++ ps.flatMap (paramBytes true))
    else .ok (openHead m (UInt8.ofNat len) ++ ps.flatMap (paramBytes false))

/-! ### NOTIFICATION, ROUTE-REFRESH -/

/-- `parse_bgp_notification_message` (messages.rs 217-227). -/
def parseNotification (s : Bytes) : Except Err Notification :=
  (do
    let code ← rdU8
    let sub ← rdU8
    let n ← Rd.remaining
    let d ← rdN n
    pure ⟨BgpError.new code sub, d⟩ : Rd Notification).runOn s

/-- `BgpNotificationMessage::encode` (messages.rs 230-237). -/
def encodeNotification (m : Notification) : Bytes := m.error.codes.1 :: m.error.codes.2 :: m.data

/-- `parse_bgp_route_refresh_message` (messages.rs 179-195). -/
def parseRouteRefresh (s : Bytes) : Except Err RouteRefresh :=
  (do
    needN 4
    let afi ← rdU16
    let subtype ← rdU8
    let safi ← rdU8
    let n ← Rd.remaining
    let d ← splitTo n
    pure ⟨afi, subtype, safi, d⟩ : Rd RouteRefresh).runOn s

/-- `BgpRouteRefreshMessage::encode` (messages.rs 198-208). -/
def encodeRouteRefresh (m : RouteRefresh) : Bytes := be16 m.afi ++ (m.subtype :: m.safi :: m.data)

/-- findings of `BgpRouteRefreshMessage::validation_warnings`. -/
inductive RefreshWarning where
  | invalidLength (subtype : UInt8) (length : Nat)
  | unknownSubtype (subtype : UInt8)
deriving DecidableEq, Repr

/-- `BgpRouteRefreshMessage::validation_warnings` (src/models/bgp/mod.rs 111-129). -/
def RouteRefresh.warnings (m : RouteRefresh) : List RefreshWarning :=
  if m.subtype = 0 then []
  else if m.subtype = 1 ∨ m.subtype = 2 then
    if m.data.isEmpty then [] else [.invalidLength m.subtype (4 + m.data.length)]
  else [.unknownSubtype m.subtype]

/-! ### UPDATE -/

/-- `read_nlri` (messages.rs 545-560). -/
def readNlri (afi : Afi) (addPath : Bool) (s : Bytes) : Except Err (List NetworkPrefix) :=
  match s with
  | [] => .ok []
  | [b] => if b ≠ 0 then .error .parse else parseNlriList afi addPath s
  | _ => parseNlriList afi addPath s

/-- the `match read_nlri(..)` of `parse_bgp_update_message` (messages.rs 584-595, 611-622): the prefixes, and the warning
on failure. A panic is not caught. -/
def nlriOrWarn (withdrawn addPath : Bool) (s : Bytes) : Except Err (List NetworkPrefix × List Warning) :=
  match readNlri .ipv4 addPath s with
  | .ok ps => .ok (ps, [])
  | .error .panic => .error .panic
  | .error _ => .ok ([], [.malformedNlri withdrawn s])

/-- the length-prefixed sections of an UPDATE: withdrawn routes, path attributes, the rest
(messages.rs 580-583, 598-605). -/
def rdSection : Rd Bytes := do
  let n ← rdU16
  needN n.toNat
  splitTo n.toNat

/-- `parse_bgp_update_message` (messages.rs 571-647). -/
def parseUpdate (addPath : Bool) (l : AsnLen) (s : Bytes) : Except Err Update :=
  match rdSection s with
  | .error e => .error e
  | .ok (wb, r) =>
    match nlriOrWarn true addPath wb with
    | .error e => .error e
    | .ok (ws, ww) =>
      match rdSection r with
      | .error e => .error e
      | .ok (ab, nb) =>
        match parseAttributes ⟨l, addPath, none, none, none⟩ ab with
        | .error e => .error e
        | .ok as =>
          match nlriOrWarn false addPath nb with
          | .error e => .error e
          | .ok (ns, nw) =>
            let present := !nb.isEmpty
            let as := as.checkMandatory (present || as.hasAttr 14) present
            let as := ww.foldl Attributes.addWarning as
            let as := nw.foldl Attributes.addWarning as
            .ok ⟨ws, as, ns⟩

/-- `BgpUpdateMessage::encode` (messages.rs 650-668). -/
def encodeUpdate (l : AsnLen) (u : Update) : Except EncErr Bytes :=
  match u16Len (encodeNlri u.withdrawn) with
  | .error e => .error e
  | .ok w =>
    match encodeAttributes l u.attributes.inner with
    | .error e => .error e
    | .ok ab =>
      match u16Len ab with
      | .error e => .error e
      | .ok a => .ok (w ++ a ++ encodeNlri u.announced)

/-- `is_end_of_rib` (messages.rs 674-710). -/
def Update.isEndOfRib (u : Update) : Bool :=
  if !u.announced.isEmpty || !u.withdrawn.isEmpty then false
  else if u.attributes.inner.isEmpty then true
  else if u.attributes.inner.length > 1 then false
  else match u.attributes.inner.head? with
    | some ⟨_, .mpUnreach n⟩ => n.prefixes.isEmpty
    | _ => false

/-! ### the message header -/

/-- `read_and_validate_bgp_marker` (messages.rs 45-55); a wrong marker is only logged. -/
def rdMarker : Rd Unit := do
  needN 16
  advance 16

/-- the `match msg_type` that parses the body (messages.rs 159-171). -/
def parseBody (addPath : Bool) (l : AsnLen) (t : MsgType) (d : Bytes) : Except Err BgpMessage :=
  match t with
  | .open => mapOk .open (parseOpen d)
  | .update => mapOk .update (parseUpdate addPath l d)
  | .notification => mapOk .notification (parseNotification d)
  | .keepAlive => .ok .keepAlive
  | .routeRefresh => mapOk .routeRefresh (parseRouteRefresh d)

/-- `parse_bgp_message` (messages.rs 75-172). `max_length` is 65535, so the upper bound of the length check is void. -/
def parseBgpMessage (addPath : Bool) (l : AsnLen) : Rd BgpMessage := do
  let total ← Rd.remaining
  needN 19
  rdMarker
  let length ← rdU16
  if ¬ (19 ≤ length.toNat ∧ length.toNat ≤ 65535) then Rd.fail .parse else do
  let bodyLen := if length.toNat > total then total - 19 else length.toNat - 19
  let ty ← rdU8
  match MsgType.ofU8? ty with
  | none => Rd.fail .parse
  | some t =>
    if (t = .open ∨ t = .keepAlive) ∧ length.toNat > 4096 then Rd.fail .parse else do
    needN bodyLen
    let d ← splitTo bodyLen
    Rd.lift (parseBody addPath l t d)

/-- the `match self` of `BgpMessage::encode` (messages.rs 722-728). -/
def encodeBody (l : AsnLen) : BgpMessage → Except EncErr Bytes
  | .open m => encodeOpen m
  | .update m => encodeUpdate l m
  | .notification m => .ok (encodeNotification m)
  | .keepAlive => .ok []
  | .routeRefresh m => .ok (encodeRouteRefresh m)

/-- `BgpMessage::encode` (messages.rs 717-737). -/
def encodeBgpMessage (l : AsnLen) (m : BgpMessage) : Except EncErr Bytes :=
  match encodeBody l m with
  | .error e => .error e
  | .ok b =>
    match checkMax (b.length + 16 + 2 + 1) 65535 with
    | .error e => .error e
    | .ok n => .ok (List.replicate 16 0xFF ++ (be16 (UInt16.ofNat n) ++ (m.msgType.toU8 :: b)))

end Verif
