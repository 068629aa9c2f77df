import Verif.Model.Wasm
import Verif.Spec.MrtFrame
import Verif.Spec.Filter
import Verif.Spec.Json
import Verif.Spec.Dissect
import Verif.Spec.Bmp
/-
What the functions exported to JavaScript return.
-/
namespace Verif.Spec

/-! ### MRT records at the front of a buffer -/

/-- The octets are one framed record, and the record parses to `r`. -/
def RecordIn (r : MrtRecord) (b : Bytes) : Prop := ∃ raw, Frame raw b ∧ raw.parse = .ok r

/-- No record that parses stands at the front. -/
def NothingToParse (t : Bytes) : Prop := ∀ r b rest, t = b ++ rest → ¬ RecordIn r b

/-! ### BMP messages -/

/-- the name of a kind of message. -/
def bmpTag : BmpBody → String
  | .routeMonitoring _ => "RouteMonitoring"
  | .peerUp _ => "PeerUpNotification"
  | .peerDown _ => "PeerDownNotification"
  | .initiation _ => "InitiationMessage"
  | .termination _ => "TerminationMessage"
  | .statsReport _ => "StatisticsReport"
  | .routeMirroring _ => "RouteMirroringMessage"

/-- A message about the monitoring session as a whole, not about one of its peers. -/
def AboutSession : BmpBody → Prop
  | .initiation _ | .termination _ => True
  | _ => False

/-- a bit of the flags of RFC 7854 and RFC 8671, which a local RIB does not have. -/
def peerBit (i : Nat) : PerPeerFlags → Bool
  | .peer f => f.toNat.testBit i
  | .localRib _ => false

/-- the name of a peer type. -/
def peerName : BmpPeerType → String
  | .global => "Global"
  | .rd => "RD"
  | .local => "Local"
  | .localRib => "LocalRib"

/-- The object describes the peer of this header: address, AS number and BGP identifier; the L bit (`isPostPolicy`) and the O
bit (`isAdjRibOut`); and the time. -/
def DescribesPeer (env : WasmEnv) (h : PerPeerHeader) (j : Json) : Prop :=
  ∃ kvs, j = .obj kvs ∧
    HasEntry kvs "peerIp" (.str (String.ofList (h.ip.text env.json.out))) ∧
    HasEntry kvs "peerAsn" (number h.asn.toNat) ∧
    HasEntry kvs "peerBgpId" (.str (String.ofList ((Ip.v4 h.bgpId).text env.json.out))) ∧
    HasEntry kvs "peerType" (.str (peerName h.peerType)) ∧
    HasEntry kvs "isPostPolicy" (.bool (peerBit 6 h.flags)) ∧
    HasEntry kvs "isAdjRibOut" (.bool (peerBit 4 h.flags)) ∧
    HasEntry kvs "timestamp" (.float h.timestamp)

/-- The object describes the router of this header. -/
def DescribesRouter (env : WasmEnv) (h : OpenBmpHeader) (j : Json) : Prop :=
  ∃ kvs, j = .obj kvs ∧
    HasEntry kvs "routerIp" (.str (String.ofList (h.routerIp.text env.json.out))) ∧
    HasEntry kvs "routerGroup" (orNull (fun g => .str (env.str g)) h.routerGroup) ∧
    HasEntry kvs "adminId" (.str (env.str h.adminId)) ∧
    HasEntry kvs "timestamp" (.float h.timestamp)

/-- the name of a reason for which a peer went down. -/
def downName : PeerDownReason → String
  | .reserved => "Reserved"
  | .localNotification => "LocalSystemClosedNotificationPduFollows"
  | .localFsmEvent => "LocalSystemClosedFsmEvenFollows"
  | .remoteNotification => "RemoteSystemClosedNotificationPduFollows"
  | .remoteNoData => "RemoteSystemsClosedNoData"
  | .deConfigured => "PeerDeConfigured"
  | .localTlv => "LocalSystemClosedTlvDataFollows"

/-- the name of a type of information in an initiation message. -/
def initName (n : Nat) : String :=
  (["String", "SysDescr", "SysName", "VrTableName", "AdminLabel"][n]?).getD ("Unknown(" ++ toString n ++ ")")

/-- What is told about the content of a message, besides the peer. For a route monitoring message: the elements of its BGP
message, with the time of the message and the peer of the header. -/
def ContentEntries (env : WasmEnv) (peer : Option PerPeerHeader) (time : Rat) (kvs : List (String × Json)) : BmpBody → Prop
  | .routeMonitoring g => ∃ h es, peer = some h ∧ es = bgpToElems g (env.micros time) h.ip h.asn ∧
      (∀ e ∈ es, e.time = env.micros time ∧ e.peerIp = h.ip ∧ e.peerAsn = h.asn) ∧ HasEntry kvs "elems" (.arr (es.map (elemJson env.json)))
  | .peerUp u => HasEntry kvs "localIp" (.str (String.ofList (u.localAddr.text env.json.out))) ∧
      HasEntry kvs "localPort" (number u.localPort.toNat) ∧ HasEntry kvs "remotePort" (number u.remotePort.toNat)
  | .peerDown d => HasEntry kvs "reason" (.str (downName d.reason))
  | .initiation ts => ∃ js, HasEntry kvs "tlvs" (.arr js) ∧
      Pairwise2 (fun (t : BmpTlv) j => ∃ kvs, j = .obj kvs ∧ HasEntry kvs "type" (.str (initName t.type.toNat)) ∧
        HasEntry kvs "value" (.str (env.str t.info))) ts js
  | .termination ts => ∃ js, HasEntry kvs "tlvs" (.arr js) ∧
      Pairwise2 (fun (t : TermTlv) j => ∃ kvs, j = .obj kvs ∧
        HasEntry kvs "type" (.str (match t with | .string .. => "String" | .reason .. => "Reason")) ∧
        HasEntry kvs "value" (.str (env.termValue t))) ts js
  | .statsReport _ | .routeMirroring _ => True

/-- The document of a message: its kind, the time, the router if there is an OpenBMP header, the peer if it is about one, and
the content. -/
def BmpDocument (env : WasmEnv) (m : BmpMessage) (hdr : Option OpenBmpHeader) (time : Rat) (j : Json) : Prop :=
  ∃ kvs, j = .obj kvs ∧
    HasEntry kvs "type" (.str (bmpTag m.body)) ∧
    HasEntry kvs "timestamp" (.float time) ∧
    (match hdr with
      | none => HasEntry kvs "openBmpHeader" .null
      | some h => ∃ j, HasEntry kvs "openBmpHeader" j ∧ DescribesRouter env h j) ∧
    (match m.peer with
      | none => LacksEntry kvs "peerHeader"
      | some h => ∃ j, HasEntry kvs "peerHeader" j ∧ DescribesPeer env h j) ∧
    ContentEntries env m.peer time kvs m.body

/-- An OpenBMP message that is not about a router: the top bit of the flags is not set, or the type of the object is not 12. -/
def OtherOpenBmp (d : Bytes) : Prop :=
  ∃ (hl : UInt16) (ml : UInt32) (flags : UInt8) (rest : Bytes),
    d = [0x4F, 0x42, 0x4D, 0x50, 1, 7] ++ n16 hl.toNat ++ n32 ml.toNat ++ [flags] ++ rest ∧
    (flags.toNat.testBit 7 = false ∨ ∃ ty rest', rest = ty :: rest' ∧ ty ≠ 12)

end Verif.Spec
