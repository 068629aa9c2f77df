import Verif.Model.Bgp
import Verif.Model.Mrt
import Verif.Model.F64
/-
BMP and OpenBMP messages (src/parser/bmp).
-/
namespace Verif

/-- `ParserBmpError` (src/parser/bmp/error.rs 12-20). The string of `CorruptedBgpMessage` is not modelled;
`TruncatedBmpMessage` is never produced. `panic` stands for a Rust panic. -/
inductive BmpErr where
  | invalidOpenBmpHeader | unsupportedOpenBmpMessage | unknownTlvType | unknownTlvValue | corruptedBmpMessage
  | corruptedBgpMessage | panic
deriving DecidableEq, Repr

/-- `From<ParserError> for ParserBmpError` (error.rs 59-63), and the identity on the variants that already are BMP errors. -/
def bmpErr : Err → BmpErr
  | .panic => .panic
  | .bmpHeader => .invalidOpenBmpHeader
  | .bmpUnsupported => .unsupportedOpenBmpMessage
  | .bmpTlvType => .unknownTlvType
  | .bmpTlvValue => .unknownTlvValue
  | .bmpCorrupted => .corruptedBmpMessage
  | _ => .corruptedBgpMessage

/-- `while data.remaining() >= n { ... break ... out.push(..) }`: `p` returns `none` for `break`. Fuel as in `manyFuel`. -/
def whileSomeFuel (n : Nat) (p : Rd (Option α)) : Nat → Bytes → Except Err (List α)
  | 0, s => if s.length < n then .ok [] else .error .panic
  | fuel + 1, s =>
    if s.length < n then .ok []
    else match p s with
      | .error e => .error e
      | .ok (none, _) => .ok []
      | .ok (some a, r) =>
        match whileSomeFuel n p fuel r with
        | .error e => .error e
        | .ok as => .ok (a :: as)

def whileSome (n : Nat) (p : Rd (Option α)) (s : Bytes) : Except Err (List α) := whileSomeFuel n p s.length s

/-! ### headers -/

/-- `BmpMsgType` (messages/headers.rs 29-37). -/
inductive BmpMsgType where
  | routeMonitoring | statisticsReport | peerDown | peerUp | initiation | termination | routeMirroring
deriving DecidableEq, Repr

/-- `BmpMsgType::try_from(u8)`. -/
def BmpMsgType.ofU8? (b : UInt8) : Option BmpMsgType :=
  if b = 0 then some .routeMonitoring else if b = 1 then some .statisticsReport else if b = 2 then some .peerDown
  else if b = 3 then some .peerUp else if b = 4 then some .initiation else if b = 5 then some .termination
  else if b = 6 then some .routeMirroring else none

/-- `BmpCommonHeader` (headers.rs 56-60). -/
structure BmpCommonHeader where
  version : UInt8
  msgLen : UInt32
  msgType : BmpMsgType
deriving DecidableEq, Repr

/-- `BmpPeerType` (headers.rs 193-198). -/
inductive BmpPeerType where
  | global | rd | local | localRib
deriving DecidableEq, Repr

/-- `BmpPeerType::try_from(u8)`. -/
def BmpPeerType.ofU8? (b : UInt8) : Option BmpPeerType :=
  if b = 0 then some .global else if b = 1 then some .rd else if b = 2 then some .local
  else if b = 3 then some .localRib else none

/-- `PerPeerFlags` (headers.rs 202-205); `from_bits_retain` keeps all eight bits. -/
inductive PerPeerFlags where
  | peer (bits : UInt8)
  | localRib (bits : UInt8)
deriving DecidableEq, Repr

/-- `BmpPerPeerHeader` (headers.rs 113-121). -/
structure PerPeerHeader where
  peerType : BmpPeerType
  flags : PerPeerFlags
  distinguisher : UInt64
  ip : Ip
  asn : Asn
  bgpId : V4
  timestamp : Rat
deriving DecidableEq

/-- `PeerFlags::address_family() == Afi::Ipv6` (headers.rs 247-253). -/
def flagIpv6 (f : UInt8) : Bool := f &&& 0x80 != 0

/-- `PeerFlags::asn_length` (headers.rs 261-267). -/
def flagAsnLen (f : UInt8) : AsnLen := if f &&& 0x20 != 0 then .b16 else .b32

/-- `PeerFlags::is_adj_rib_out` (headers.rs 270-272). -/
def flagAdjRibOut (f : UInt8) : Bool := f &&& 0x10 != 0

/-- `PeerFlags::is_post_policy` (headers.rs 275-277). -/
def flagPostPolicy (f : UInt8) : Bool := f &&& 0x40 != 0

/-- `LocalRibPeerFlags::is_filtered` (headers.rs 293-297). -/
def flagFiltered (f : UInt8) : Bool := f &&& 0x80 != 0

/-- `BmpPerPeerHeader::asn_length` (headers.rs 181-186). -/
def PerPeerHeader.asnLen (h : PerPeerHeader) : AsnLen :=
  match h.flags with
  | .peer f => flagAsnLen f
  | .localRib _ => .b32

/-- `BmpPerPeerHeader::afi` (headers.rs 166-168). -/
def PerPeerHeader.afi (h : PerPeerHeader) : Afi := h.ip.afi

/-- `BmpPerPeerHeader::strip_timestamp` (headers.rs 173-178). -/
def PerPeerHeader.stripTimestamp (h : PerPeerHeader) : PerPeerHeader := { h with timestamp := 0 }

/-- `data.has_n_remaining(n)?; data.advance(n)`. -/
def skipN (n : Nat) : Rd Unit := do
  needN n
  advance n

/-- an address in a sixteen octet field: IPv4 in the last four, or IPv6 (headers.rs 320-335 and
peer_up_notification.rs 60-75). The family is never link-state there. -/
def rdBmpAddr (v6 : Bool) : Rd Ip :=
  if v6 then do let a ← rdVec 16; pure (.v6 a)
  else do
    skipN 12
    let a ← rdVec 4
    pure (.v4 a)

/-- the AS number field (headers.rs 337-344). -/
def rdBmpAsn (l : AsnLen) : Rd Asn :=
  match l with
  | .b16 => do
    skipN 2
    let a ← rdU16
    pure a.toUInt32
  | .b32 => rdU32

/-- `parse_per_peer_header` for the peer types of RFC 7854 (headers.rs 315-360). -/
def rdPeerHeader (t : BmpPeerType) : Rd PerPeerHeader := do
  let f ← rdU8
  let d ← rdU64
  let ip ← rdBmpAddr (flagIpv6 f)
  let asn ← rdBmpAsn (flagAsnLen f)
  let id ← rdVec 4
  let sec ← rdU32
  let usec ← rdU32
  pure ⟨t, .peer f, d, ip, asn, id, stampOf sec usec⟩

/-- `parse_per_peer_header` for the local RIB of RFC 9069 (headers.rs 361-405): the address octets are read and ignored
(a warning is logged when they are not zero). -/
def rdLocalRibHeader : Rd PerPeerHeader := do
  let f ← rdU8
  let d ← rdU64
  let _ ← rdVec 16
  let asn ← rdU32
  let id ← rdVec 4
  let sec ← rdU32
  let usec ← rdU32
  pure ⟨.localRib, .localRib f, d, .v4 #v[0, 0, 0, 0], asn, id, stampOf sec usec⟩

/-- `parse_per_peer_header` (headers.rs 310-407). -/
def rdPerPeerHeader : Rd PerPeerHeader := do
  let b ← rdU8
  match BmpPeerType.ofU8? b with
  | none => Rd.fail .bmpCorrupted
  | some .localRib => rdLocalRibHeader
  | some t => rdPeerHeader t

/-! ### message bodies -/

/-- `RouteMirroringInfo` (route_mirroring.rs 33-36). -/
inductive MirrorInfo where
  | erroredPdu | messageLost
deriving DecidableEq, Repr

/-- `RouteMirroringTlv` and `RouteMirroringValue` (route_mirroring.rs 18-28). -/
inductive MirrorTlv where
  | bgp (len : UInt16) (m : BgpMessage)
  | info (len : UInt16) (i : MirrorInfo)
deriving DecidableEq

/-- `RouteMirroringInfo::try_from(u16)`. -/
def mirrorInfoOr (x : UInt16) : Rd MirrorInfo :=
  if x = 0 then pure .erroredPdu else if x = 1 then pure .messageLost else Rd.fail .bmpCorrupted

/-- one round of the loop of `parse_route_mirroring` (route_mirroring.rs 45-67). For type 1 the length is read and kept but
not used. -/
def rdMirrorTlv (l : AsnLen) : Rd MirrorTlv := do
  let ty ← rdU16
  if ty = 0 then do
    let len ← rdU16
    needN len.toNat
    let b ← splitTo len.toNat
    let m ← Rd.lift ((parseBgpMessage false l).runOn b)
    pure (.bgp len m)
  else if ty = 1 then do
    let len ← rdU16
    let x ← rdU16
    let i ← mirrorInfoOr x
    pure (.info len i)
  else Rd.fail .bmpCorrupted

/-- `parse_route_mirroring` (route_mirroring.rs 38-70). -/
def parseMirroring (l : AsnLen) (s : Bytes) : Except Err (List MirrorTlv) := whileGe 5 (rdMirrorTlv l) s

/-- `StatsData` (stats_report.rs 24-29). -/
inductive StatsData where
  | counter (v : UInt32)
  | gauge (v : UInt64)
  | afiSafiGauge (afi : UInt16) (safi : UInt8) (v : UInt64)
  | unknown (b : Bytes)
deriving DecidableEq

/-- `StatCounter` (stats_report.rs 16-20). `StatType` (36-82) has a name for each number it knows and keeps any other
number, so it is modelled by the number. -/
structure StatCounter where
  type : UInt16
  len : UInt16
  data : StatsData
deriving DecidableEq

/-- the `match stat_len` (stats_report.rs 91-105). -/
def rdStatsData (len : UInt16) : Rd StatsData :=
  if len = 4 then do let v ← rdU32; pure (.counter v)
  else if len = 8 then do let v ← rdU64; pure (.gauge v)
  else if len = 11 then do
    let afi ← rdU16
    let safi ← rdU8
    let v ← rdU64
    pure (.afiSafiGauge afi safi v)
  else do
    let b ← splitTo len.toNat
    pure (.unknown b)

/-- the body of the loop of `parse_stats_report` (stats_report.rs 88-110). -/
def rdStatCounter : Rd StatCounter := do
  let ty ← rdU16
  let len ← rdU16
  needN len.toNat
  let d ← rdStatsData len
  pure ⟨ty, len, d⟩

/-- `StatsReport` (stats_report.rs 8-11). -/
structure StatsReport where
  count : UInt32
  counters : List StatCounter
deriving DecidableEq

/-- `parse_stats_report` (stats_report.rs 84-117). -/
def rdStatsReport : Rd StatsReport := do
  let n ← rdU32
  let cs ← rdTimes rdStatCounter n.toNat
  pure ⟨n, cs⟩

/-- `PeerDownReason` (peer_down_notification.rs 16-24). -/
inductive PeerDownReason where
  | reserved | localNotification | localFsmEvent | remoteNotification | remoteNoData | deConfigured | localTlv
deriving DecidableEq, Repr

/-- `PeerDownReason::try_from(u8)`. -/
def PeerDownReason.ofU8? (b : UInt8) : Option PeerDownReason :=
  if b = 0 then some .reserved else if b = 1 then some .localNotification else if b = 2 then some .localFsmEvent
  else if b = 3 then some .remoteNotification else if b = 4 then some .remoteNoData
  else if b = 5 then some .deConfigured else if b = 6 then some .localTlv else none

/-- `PeerDownNotification` (peer_down_notification.rs 8-11). -/
structure PeerDown where
  reason : PeerDownReason
  data : Option Bytes
deriving DecidableEq

/-- the `match reason` (peer_down_notification.rs 31-90) on the octets that are left. -/
def peerDownData (r : PeerDownReason) (s : Bytes) : Option Bytes :=
  match r with
  | .reserved => if s.isEmpty then none else some s
  | .localNotification | .localFsmEvent | .remoteNotification | .localTlv => some s
  | .remoteNoData | .deConfigured => none

/-- `parse_peer_down_notification` (peer_down_notification.rs 26-92). -/
def rdPeerDown : Rd PeerDown := do
  let b ← rdU8
  match PeerDownReason.ofU8? b with
  | none => Rd.fail .bmpTlvValue
  | some r => do
    let s ← Rd.peek
    pure ⟨r, peerDownData r s⟩

/-- `InitiationTlv` (initiation_message.rs 14-18) and `PeerUpNotificationTlv` (peer_up_notification.rs 48-52). Their type
enums name the numbers 0-4 and keep any other number, so they are modelled by the number. -/
structure BmpTlv where
  type : UInt16
  len : UInt16
  info : Bytes
deriving DecidableEq, Repr

/-- one round of the loop of `parse_initiation_message` (initiation_message.rs 50-61). -/
def rdInitTlv : Rd (Option BmpTlv) := do
  let ty ← rdU16
  let len ← rdU16
  let rem ← Rd.remaining
  if rem < len.toNat then pure none
  else do
    let b ← rdN len.toNat
    pure (some ⟨ty, len, latin1 b⟩)

/-- `parse_initiation_message` (initiation_message.rs 46-65). -/
def parseInitiation (s : Bytes) : Except Err (List BmpTlv) := whileSome 5 rdInitTlv s

/-- `TerminationReason` (termination_message.rs 31-37). -/
inductive TermReason where
  | adminClosed | unspecified | outOfResources | redundant | permanentlyAdminClosed
deriving DecidableEq, Repr

/-- `TerminationReason::try_from(u16)`. -/
def TermReason.ofU16? (x : UInt16) : Option TermReason :=
  if x = 0 then some .adminClosed else if x = 1 then some .unspecified else if x = 2 then some .outOfResources
  else if x = 3 then some .redundant else if x = 4 then some .permanentlyAdminClosed else none

/-- `TerminationTlv` (termination_message.rs 15-26); the type is that of the value. -/
inductive TermTlv where
  | string (len : UInt16) (s : Bytes)
  | reason (len : UInt16) (r : TermReason)
deriving DecidableEq, Repr

/-- one round of the loop of `parse_termination_message` (termination_message.rs 54-74). For a reason the length is checked
against the octets left, kept, and otherwise not used. -/
def rdTermTlv : Rd (Option TermTlv) := do
  let ty ← rdU16
  if ¬ (ty = 0 ∨ ty = 1) then Rd.fail .bmpTlvType
  else do
    let len ← rdU16
    let rem ← Rd.remaining
    if rem < len.toNat then pure none
    else if ty = 0 then do
      let b ← rdN len.toNat
      pure (some (.string len (latin1 b)))
    else do
      let x ← rdU16
      match TermReason.ofU16? x with
      | none => Rd.fail .bmpTlvValue
      | some r => pure (some (.reason len r))

/-- `parse_termination_message` (termination_message.rs 50-78). -/
def parseTermination (s : Bytes) : Except Err (List TermTlv) := whileSome 5 rdTermTlv s

/-- `PeerUpNotification` (peer_up_notification.rs 14-21). -/
structure PeerUp where
  localAddr : Ip
  localPort : UInt16
  remotePort : UInt16
  sentOpen : BgpMessage
  receivedOpen : BgpMessage
  tlvs : List BmpTlv
deriving DecidableEq

/-- `u16::from_be_bytes([data[16], data[17]])`; indexing panics past the end. -/
def peekBgpLen : Rd UInt16 := .mk fun s =>
  match s[16]?, s[17]? with
  | some a, some b => .ok (u16of a b, s)
  | _, _ => .error .panic

/-- one BGP message with its own boundary (peer_up_notification.rs 81-85, 88-92). -/
def rdOpen (l : AsnLen) : Rd BgpMessage := do
  needN 19
  let n ← peekBgpLen
  needN n.toNat
  let b ← splitTo n.toNat
  Rd.lift ((parseBgpMessage false l).runOn b)

/-- one round of the loop of `parse_peer_up_notification` (peer_up_notification.rs 116-138); the rest is logging. -/
def rdPeerUpTlv : Rd BmpTlv := do
  let ty ← rdU16
  let len ← rdU16
  let b ← rdN len.toNat
  pure ⟨ty, len, latin1 b⟩

/-- `parse_peer_up_notification` (peer_up_notification.rs 54-155). -/
def rdPeerUp (v6 : Bool) (l : AsnLen) : Rd PeerUp := do
  let addr ← rdBmpAddr v6
  let lp ← rdU16
  let rp ← rdU16
  let sent ← rdOpen l
  let received ← rdOpen l
  let rest ← Rd.peek
  let tlvs ← Rd.lift (whileGe 4 rdPeerUpTlv rest)
  pure ⟨addr, lp, rp, sent, received, tlvs⟩

/-! ### messages -/

/-- `BmpMessageBody` (messages/mod.rs 33-41). -/
inductive BmpBody where
  | peerUp (m : PeerUp)
  | peerDown (m : PeerDown)
  | initiation (tlvs : List BmpTlv)
  | termination (tlvs : List TermTlv)
  | routeMonitoring (m : BgpMessage)
  | routeMirroring (tlvs : List MirrorTlv)
  | statsReport (m : StatsReport)
deriving DecidableEq

/-- `BmpMessage` (messages/mod.rs 25-29). -/
structure BmpMessage where
  header : BmpCommonHeader
  peer : Option PerPeerHeader
  body : BmpBody
deriving DecidableEq

/-- `RouteMonitoring::is_end_of_rib` (route_monitoring.rs 34-40). -/
def bmpEndOfRib : BgpMessage → Bool
  | .update u => u.isEndOfRib
  | _ => false

/-- the body of a message with a per-peer header, for the type given (bmp/mod.rs 37-94). -/
def rdPeerBody (t : BmpMsgType) (h : PerPeerHeader) : Rd BmpBody :=
  match t with
  | .routeMonitoring => do let m ← parseBgpMessage false h.asnLen; pure (.routeMonitoring m)
  | .routeMirroring => do
    let s ← Rd.peek
    let ts ← Rd.lift (parseMirroring h.asnLen s)
    pure (.routeMirroring ts)
  | .statisticsReport => do let m ← rdStatsReport; pure (.statsReport m)
  | .peerDown => do let m ← rdPeerDown; pure (.peerDown m)
  | _ => do let m ← rdPeerUp (h.afi == .ipv6) h.asnLen; pure (.peerUp m)

/-- the content of a message (bmp/mod.rs 36-111). What is left of it is dropped. -/
def rdContent (t : BmpMsgType) : Rd (Option PerPeerHeader × BmpBody) :=
  match t with
  | .initiation => do
    let s ← Rd.peek
    let ts ← Rd.lift (parseInitiation s)
    pure (none, .initiation ts)
  | .termination => do
    let s ← Rd.peek
    let ts ← Rd.lift (parseTermination s)
    pure (none, .termination ts)
  | t => do
    let h ← rdPerPeerHeader
    let b ← rdPeerBody t h
    pure (some h, b)

/-- `parse_bmp_common_header` (headers.rs 62-77), with the position of the cursor also on errors. -/
def parseBmpHeader : Bytes → Except BmpErr BmpCommonHeader × Bytes
  | [] => (.error .corruptedBgpMessage, [])
  | v :: d1 =>
    if v ≠ 3 then (.error .corruptedBmpMessage, d1)
    else match rdU32 d1 with
      | .error e => (.error (bmpErr e), d1)
      | .ok (len, d2) =>
        match rdU8 d2 with
        | .error e => (.error (bmpErr e), d2)
        | .ok (t, d3) =>
          match BmpMsgType.ofU8? t with
          | none => (.error .invalidOpenBmpHeader, d3)
          | some ty => (.ok ⟨v, len, ty⟩, d3)

/-- `parse_bmp_msg` (bmp/mod.rs 25-112): the result and what is left of the buffer, also on errors. -/
def parseBmpMsg (d : Bytes) : Except BmpErr BmpMessage × Bytes :=
  match parseBmpHeader d with
  | (.error e, r) => (.error e, r)
  | (.ok h, r) =>
    if h.msgLen.toNat < 6 then (.error .corruptedBmpMessage, r)
    else match rdN (h.msgLen.toNat - 6) r with
      | .error e => (.error (bmpErr e), r)
      | .ok (content, r) =>
        match (rdContent h.msgType).runOn content with
        | .error e => (.error (bmpErr e), r)
        | .ok (p, b) => (.ok ⟨h, p, b⟩, r)

/-! ### OpenBMP -/

/-- `OpenBmpHeader` (openbmp.rs 46-58). -/
structure OpenBmpHeader where
  major : UInt8
  minor : UInt8
  headerLen : UInt16
  msgLen : UInt32
  objectType : UInt8
  timestamp : Rat
  adminId : Bytes
  routerIp : Ip
  routerGroup : Option Bytes
deriving DecidableEq

/-- the router address (openbmp.rs 109-116): IPv4 in the first four of sixteen octets. -/
def rdRouterIp (v6 : Bool) : Rd Ip :=
  if v6 then do let a ← rdVec 16; pure (.v6 a)
  else do
    let a ← rdVec 4
    skipN 12
    pure (.v4 a)

/-- the router group (openbmp.rs 119-122). -/
def rdGroup : Rd Bytes := do
  let n ← rdU16
  if n = 0 then pure []
  else do
    let b ← rdN n.toNat
    pure (latin1 b)

/-- `parse_openbmp_header` from the collector timestamp on (openbmp.rs 91-141). -/
def rdOpenBmpTail (major minor : UInt8) (hl : UInt16) (ml : UInt32) (flags ty : UInt8) : Rd OpenBmpHeader := do
  let sec ← rdU32
  let usec ← rdU32
  skipN 16
  let n ← rdU16
  let admin ← rdN n.toNat
  skipN 16
  let ip ← rdRouterIp (flags &&& 0x40 != 0)
  let group ← rdGroup
  let rows ← rdU32
  if rows ≠ 1 then Rd.fail .bmpHeader
  else pure ⟨major, minor, hl, ml, ty, stampOf sec usec, latin1 admin, ip, some group⟩

/-- `parse_openbmp_header` (openbmp.rs 60-141). The magic number is compared as a string of four characters, one per octet. -/
def rdOpenBmpHeader : Rd OpenBmpHeader := do
  let magic ← rdN 4
  if latin1 magic ≠ [0x4F, 0x42, 0x4D, 0x50] then Rd.fail .bmpHeader
  else do
    let major ← rdU8
    let minor ← rdU8
    if (major, minor) ≠ (1, 7) then Rd.fail .bmpHeader
    else do
      let hl ← rdU16
      let ml ← rdU32
      let flags ← rdU8
      if flags &&& 0x80 = 0 then Rd.fail .bmpUnsupported
      else do
        let ty ← rdU8
        if ty ≠ 12 then Rd.fail .bmpUnsupported
        else rdOpenBmpTail major minor hl ml flags ty

/-- `parse_openbmp_msg` (bmp/mod.rs 19-22). -/
def parseOpenBmpMsg (d : Bytes) : Except BmpErr BmpMessage :=
  match rdOpenBmpHeader d with
  | .error e => .error (bmpErr e)
  | .ok (_, r) => (parseBmpMsg r).1

/-! ### conversion to an MRT record -/

/-- the three reasons for which the conversion fails (strings in mrt_record.rs 399, 403, 428). -/
inductive BmpMrtErr where
  | unsupported | noPeerHeader | encode (e : EncErr)
deriving DecidableEq, Repr

/-- the local address (mrt_record.rs 406-409). -/
def zeroLike : Ip → Ip
  | .v4 _ => .v4 #v[0, 0, 0, 0]
  | .v6 _ => .v6 #v[0, 0, 0, 0, 0, 0, 0, 0, 0, 0, 0, 0, 0, 0, 0, 0]

/-- `TryFrom<&BmpMessage> for MrtRecord` (src/parser/mrt/mrt_record.rs 393-446). Whether an AS number was read from two
octets or four is not modelled, so the local AS number is zero. -/
def bmpToMrt (m : BmpMessage) : Except BmpMrtErr MrtRecord :=
  match m.body with
  | .routeMonitoring b =>
    match m.peer with
    | none => .error .noPeerHeader
    | some h =>
      let msg : MrtMessage := .bgp4mp (.message ⟨.messageAs4, h.asn, 0, 0, h.ip, zeroLike h.ip, b⟩)
      let t := convertTimestamp h.timestamp
      match encodeMrtMessage msg 4 with
      | .error e => .error (.encode e)
      | .ok b => .ok ⟨⟨t.1, some t.2, .bgp4mpEt, 4, UInt32.ofNat b.length⟩, msg⟩
  | _ => .error .unsupported

end Verif
