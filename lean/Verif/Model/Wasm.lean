import Verif.Model.Mrt
import Verif.Model.Elem
import Verif.Model.Bmp
import Verif.Model.Dissect
import Verif.Model.Json
/-
The functions exported to JavaScript (src/wasm.rs). Errors of `Result<_, JsError>` are kept as the parser's errors; their
texts are not modelled. The documents returned are JSON values, not texts; the empty text is `none`.
-/
namespace Verif

/-! ### MRT -/

/-- `Cursor::new(data)`: one read gets as much as asked for. -/
def cursor (d : Bytes) : Src := ⟨push d [], none⟩

/-- the number of octets a reader has left. -/
def Src.left (s : Src) : Nat := (s.evs.map fun e => match e with | .data _ bs => bs.length + 1 | _ => 0).sum

/-- `cursor.position() as u32` of a cursor on `d` of which `s` is left (wasm.rs 345, 452). -/
def position (d : Bytes) (s : Src) : UInt32 := UInt32.ofNat (d.length - s.left)

/-- `MrtRecordResult` (wasm.rs 313-319). -/
structure WasmRecord where
  elems : List BgpElem
  bytesRead : UInt32
deriving DecidableEq

/-- `parse_mrt_record_core` (wasm.rs 334-351) on the state of the thread-local `MRT_ELEMENTOR`. `none` is the empty text. -/
def wasmParseMrt (pol : Pol) (el : Elementor) (d : Bytes) : Option WasmRecord × Elementor :=
  if d.isEmpty then (none, el)
  else match nextRecord pol (cursor d) with
    | (.error _, _) => (none, el)
    | (.ok r, s) =>
      let (es, el) := el.recordToElems r
      (some ⟨es, position d s⟩, el)

/-- `reset_mrt_parser` (wasm.rs 490-493). -/
def wasmReset (_ : Elementor) : Elementor := Elementor.new

/-- `Serialize for MrtRecordResult` (derived; wasm.rs 313-319). -/
def WasmRecord.json (env : JsonEnv) (w : WasmRecord) : Json :=
  .obj [("elems", .arr (w.elems.map (elemJson env))), ("bytesRead", natJson w.bytesRead.toNat)]

/-- `dissect_mrt_record_core` (wasm.rs 441-457); the outer `none` is a panic of the dissection, the inner one the empty text. -/
def wasmDissectMrt (pol : Pol) (d : Bytes) : Option (Option (Node × UInt32)) :=
  if d.isEmpty then some none
  else match chunk pol (cursor d) with
    | (.error _, _) => some none
    | (.ok raw, s) => (dissectMrtRecord raw).map fun t => some (t, position d s)

/-- `dissect_bgp_message_core` (wasm.rs 420-429). -/
def wasmDissectBgp (d : Bytes) (fourByteAsn : Bool) : Option Node :=
  dissectBgpMessage d (if fourByteAsn then .b32 else .b16) false

/-! ### the caller of `parseMrtRecord`

The documentation of `parseMrtRecord` (wasm.rs 495-506) and of `resetMrtParser` (485-489) tells the caller what to do: reset
before a file, and slice off `bytesRead` octets before the next call. -/

/-- the state: that of the library, and the octets that have arrived and are not yet sliced off. -/
structure Streaming where
  el : Elementor
  buf : Bytes
deriving DecidableEq

/-- calls until there is no more record (at most `n` times). -/
def Streaming.drain (pol : Pol) : Nat → Streaming → List BgpElem × Streaming
  | 0, s => ([], s)
  | n + 1, s =>
    match wasmParseMrt pol s.el s.buf with
    | (none, el) => ([], ⟨el, s.buf⟩)
    | (some w, el) =>
      let (es, s) := Streaming.drain pol n ⟨el, s.buf.drop w.bytesRead.toNat⟩
      (w.elems ++ es, s)

/-- octets arrive. -/
def Streaming.feed (pol : Pol) (s : Streaming) (c : Bytes) : List BgpElem × Streaming :=
  Streaming.drain pol (s.buf.length + c.length + 1) ⟨s.el, s.buf ++ c⟩

/-- octets arrive, piece by piece: the elements each piece gave. -/
def Streaming.run (pol : Pol) : Streaming → List Bytes → List (List BgpElem) × Streaming
  | s, [] => ([], s)
  | s, c :: cs =>
    let (es, s) := s.feed pol c
    let (ess, s) := Streaming.run pol s cs
    (es :: ess, s)

/-! ### BMP -/

/-- Texts that are not modelled, as arbitrary functions: a `String` given by its octets, and debug output of the values of
termination TLVs; and the number of microseconds that stands for a timestamp in an element. -/
structure WasmEnv where
  json : JsonEnv
  str : Bytes → String
  termValue : TermTlv → String
  micros : Rat → Nat

/-- `Debug` of `BmpPeerType` (headers.rs 193-198). -/
def peerTypeName : BmpPeerType → String
  | .global => "Global"
  | .rd => "RD"
  | .local => "Local"
  | .localRib => "LocalRib"

/-- `Debug` of `PeerDownReason` (peer_down_notification.rs 16-24). -/
def downReasonName : PeerDownReason → String
  | .reserved => "Reserved"
  | .localNotification => "LocalSystemClosedNotificationPduFollows"
  | .localFsmEvent => "LocalSystemClosedFsmEvenFollows"
  | .remoteNotification => "RemoteSystemClosedNotificationPduFollows"
  | .remoteNoData => "RemoteSystemsClosedNoData"
  | .deConfigured => "PeerDeConfigured"
  | .localTlv => "LocalSystemClosedTlvDataFollows"

/-- `Debug` of `InitiationTlvType` (initiation_message.rs 31-42). -/
def initTypeName (t : UInt16) : String :=
  if t = 0 then "String" else if t = 1 then "SysDescr" else if t = 2 then "SysName" else if t = 3 then "VrTableName"
  else if t = 4 then "AdminLabel" else "Unknown(" ++ toString t.toNat ++ ")"

/-- `Debug` of `TerminationTlvType` (termination_message.rs 45-48). -/
def termTypeName : TermTlv → String
  | .string .. => "String"
  | .reason .. => "Reason"

/-- `Serialize for WasmOpenBmpHeader` of `make_openbmp_header` (wasm.rs 119-128, 156-163). -/
def openHeaderJson (env : WasmEnv) (h : OpenBmpHeader) : Json :=
  .obj [("routerIp", textJson (h.routerIp.text env.json.out)), ("routerGroup", optJson (fun g => .str (env.str g)) h.routerGroup),
    ("adminId", .str (env.str h.adminId)), ("timestamp", .float h.timestamp)]

/-- `(is_post_policy, is_adj_rib_out)` (wasm.rs 166-169). -/
def policyFlags : PerPeerFlags → Bool × Bool
  | .peer f => (flagPostPolicy f, flagAdjRibOut f)
  | .localRib _ => (false, false)

/-- `Serialize for WasmPeerHeader` of `make_peer_header` (wasm.rs 130-145, 165-179). -/
def peerHeaderJson (env : WasmEnv) (h : PerPeerHeader) : Json :=
  .obj [("peerIp", textJson (h.ip.text env.json.out)), ("peerAsn", natJson h.asn.toNat), ("peerBgpId", textJson (v4Text h.bgpId)),
    ("peerType", .str (peerTypeName h.peerType)), ("isPostPolicy", .bool (policyFlags h.flags).1),
    ("isAdjRibOut", .bool (policyFlags h.flags).2), ("timestamp", .float h.timestamp)]

/-- `BmpPerPeerHeader::default` (headers.rs 122-134). -/
def PerPeerHeader.default : PerPeerHeader := ⟨.global, .peer 0, 0, .v4 #v[0, 0, 0, 0], 0, #v[0, 0, 0, 0], 0⟩

/-- a message without a peer (wasm.rs 62-116): the tag, the base, and the rest. -/
def taggedJson (tag : String) (base rest : List (String × Json)) : Json := .obj (("type", .str tag) :: base ++ rest)

/-- `Serialize for WasmTlv` (wasm.rs 147-152). -/
def tlvJson (type value : String) : Json := .obj [("type", .str type), ("value", .str value)]

/-- `build_bmp_result` and `Serialize for WasmBmpMessage` (wasm.rs 181-273, 60-117). -/
def bmpJson (env : WasmEnv) (m : BmpMessage) (hdr : Option OpenBmpHeader) (time : Rat) : Json :=
  let base := [("openBmpHeader", optJson (openHeaderJson env) hdr), ("timestamp", Json.float time)]
  let peer (h : PerPeerHeader) := ("peerHeader", peerHeaderJson env h)
  let ports (u : PeerUp) := [("localIp", textJson (u.localAddr.text env.json.out)), ("localPort", natJson u.localPort.toNat),
    ("remotePort", natJson u.remotePort.toNat)]
  match m.peer, m.body with
  | some h, .routeMonitoring g => taggedJson "RouteMonitoring" base
      [peer h, ("elems", .arr ((bgpToElems g (env.micros time) h.ip h.asn).map (elemJson env.json)))]
  | some h, .peerUp u => taggedJson "PeerUpNotification" base (peer h :: ports u)
  | some h, .peerDown d => taggedJson "PeerDownNotification" base [peer h, ("reason", .str (downReasonName d.reason))]
  | _, .initiation ts => taggedJson "InitiationMessage" base
      [("tlvs", .arr (ts.map fun t => tlvJson (initTypeName t.type) (env.str t.info)))]
  | _, .termination ts => taggedJson "TerminationMessage" base
      [("tlvs", .arr (ts.map fun t => tlvJson (termTypeName t) (env.termValue t)))]
  | some h, .statsReport _ => taggedJson "StatisticsReport" base [peer h]
  | some h, .routeMirroring _ => taggedJson "RouteMirroringMessage" base [peer h]
  | none, .statsReport _ => taggedJson "StatisticsReport" base [peer .default]
  | none, .routeMirroring _ => taggedJson "RouteMirroringMessage" base [peer .default]
  | none, .routeMonitoring _ => taggedJson "RouteMonitoring" base [peer .default, ("elems", .arr [])]
  | none, .peerUp u => taggedJson "PeerUpNotification" base (peer .default :: ports u)
  | none, .peerDown d => taggedJson "PeerDownNotification" base [peer .default, ("reason", .str (downReasonName d.reason))]

/-- `parse_bmp_message_core` (wasm.rs 302-311). -/
def wasmParseBmp (env : WasmEnv) (d : Bytes) (time : Rat) : Except BmpErr Json :=
  match (parseBmpMsg d).1 with
  | .error e => .error e
  | .ok m => .ok (bmpJson env m none time)

/-- `parse_openbmp_message_core` (wasm.rs 279-299). -/
def wasmParseOpenBmp (env : WasmEnv) (d : Bytes) : Except BmpErr (Option Json) :=
  match rdOpenBmpHeader d with
  | .error e => if bmpErr e = .unsupportedOpenBmpMessage then .ok none else .error (bmpErr e)
  | .ok (h, r) =>
    match (parseBmpMsg r).1 with
    | .error e => .error e
    | .ok m => .ok (some (bmpJson env m (some h) h.timestamp))

/-! ### BGP messages -/

/-- `parse_bgp_update_core` (wasm.rs 354-366), before serialization. -/
def wasmParseUpdate (d : Bytes) : Except Err (List BgpElem) :=
  match parseBgpMessage false .b32 d with
  | .error e => .error e
  | .ok (m, _) => .ok (bgpToElems m 0 (.v4 #v[0, 0, 0, 0]) 0)

/-- `BgpUpdateFull` (wasm.rs 382-388). -/
structure WasmFull where
  elems : List BgpElem
  attributes : Attributes
  warnings : List Warning
deriving DecidableEq

/-- `parse_bgp_update_full_core` (wasm.rs 392-416), before serialization. -/
def wasmParseFull (d : Bytes) : Except Err WasmFull :=
  match parseBgpMessage false .b32 d with
  | .error e => .error e
  | .ok (m, _) =>
    let (attributes, warnings) := match m with
      | .update u => (u.attributes, u.attributes.warnings)
      | _ => (Attributes.empty, [])
    .ok ⟨bgpToElems m 0 (.v4 #v[0, 0, 0, 0]) 0, attributes, warnings⟩

end Verif
