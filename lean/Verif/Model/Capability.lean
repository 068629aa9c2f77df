import Verif.Model.AttrVal
/-
BGP capabilities (`/repo/src/models/bgp/capabilities.rs`), BGP roles (`/repo/src/models/bgp/role.rs`) and the
classification of AS numbers (`/repo/src/models/network/asn.rs`).
-/
namespace Verif

/-- `BgpRole` (src/models/bgp/capabilities.rs 535-547, and the identical enum of src/models/bgp/role.rs 9-15). -/
inductive Role where
  | provider | routeServer | routeServerClient | customer | peer
deriving DecidableEq, Repr

/-- `BgpRole as u8`. -/
def Role.toU8 : Role → UInt8
  | .provider => 0
  | .routeServer => 1
  | .routeServerClient => 2
  | .customer => 3
  | .peer => 4

/-- `TryFrom<u8> for BgpRole` (capabilities.rs 549-565). -/
def Role.ofU8? (x : UInt8) : Option Role :=
  if x = 0 then some .provider else if x = 1 then some .routeServer else if x = 2 then some .routeServerClient
  else if x = 3 then some .customer else if x = 4 then some .peer else none

/-- `validate_role_pairs` (src/models/bgp/role.rs 31-64). -/
def validRolePair (localRole remoteRole : Role) : Bool :=
  match localRole with
  | .provider => match remoteRole with | .customer => true | _ => false
  | .routeServer => match remoteRole with | .routeServerClient => true | _ => false
  | .routeServerClient => match remoteRole with | .routeServer => true | _ => false
  | .customer => match remoteRole with | .provider => true | _ => false
  | .peer => match remoteRole with | .peer => true | _ => false

/-- `AddPathSendReceive` (capabilities.rs 345-353). -/
inductive SendRecv where
  | receive | send | sendReceive
deriving DecidableEq, Repr

/-- `AddPathSendReceive as u8`. -/
def SendRecv.toU8 : SendRecv → UInt8
  | .receive => 1
  | .send => 2
  | .sendReceive => 3

/-- `TryFrom<u8> for AddPathSendReceive` (capabilities.rs 355-369). -/
def SendRecv.ofU8? (x : UInt8) : Option SendRecv :=
  if x = 1 then some .receive else if x = 2 then some .send else if x = 3 then some .sendReceive else none

/-- `ExtendedNextHopEntry` (capabilities.rs 78-87). -/
structure EnhEntry where
  afi : Afi
  safi : Safi
  nextHopAfi : Afi
deriving DecidableEq, Repr

/-- `GracefulRestartAddressFamily` (capabilities.rs 237-246). -/
structure GrFamily where
  afi : Afi
  safi : Safi
  forwarding : Bool
deriving DecidableEq, Repr

/-- `AddPathAddressFamily` (capabilities.rs 333-342). -/
structure ApFamily where
  afi : Afi
  safi : Safi
  mode : SendRecv
deriving DecidableEq, Repr

/-- `CapabilityValue` (src/models/bgp/mod.rs 190-212). -/
inductive CapVal where
  | raw (b : Bytes)
  | multiprotocol (afi : Afi) (safi : Safi)
  | routeRefresh
  | extNextHop (entries : List EnhEntry)
  | gracefulRestart (state : Bool) (time : UInt16) (families : List GrFamily)
  | fourOctetAs (asn : UInt32)
  | addPath (families : List ApFamily)
  | role (r : Role)
  | extMessage
deriving DecidableEq, Repr

/-- `Safi::try_from(x).map_err(..)?` -/
def safiOr (x : UInt8) : Rd Safi :=
  match Safi.ofU8? x with
  | some a => pure a
  | none => Rd.fail .parse

/-- one entry of `ExtendedNextHopCapability::parse` (capabilities.rs 139-151): the SAFI is the low byte of a `u16`. -/
def rdEnhEntry : Rd EnhEntry := do
  let afi ← rdAfi
  let s ← rdU16
  let safi ← safiOr s.toUInt8
  let nh ← rdAfi
  pure ⟨afi, safi, nh⟩

/-- `ExtendedNextHopCapability::parse` (capabilities.rs 125-155). -/
def parseExtNextHop (d : Bytes) : Except Err (List EnhEntry) :=
  if d.length % 6 ≠ 0 then .error .parse else whileGe 6 rdEnhEntry d

/-- `ExtendedNextHopCapability::encode` (capabilities.rs 158-169). -/
def encExtNextHop (es : List EnhEntry) : Bytes :=
  es.flatMap fun e => be16 e.afi.toU16 ++ be16 e.safi.toU8.toUInt16 ++ be16 e.nextHopAfi.toU16

/-- `MultiprotocolExtensionsCapability::parse` (capabilities.rs 196-209): exactly four bytes, the third ignored. -/
def parseMultiprotocol (d : Bytes) : Except Err (Afi × Safi) :=
  match d with
  | [a, b, _, s] =>
    match Afi.ofU16? (u16of a b) with
    | none => .error .parse
    | some afi =>
      match Safi.ofU8? s with
      | none => .error .parse
      | some safi => .ok (afi, safi)
  | _ => .error .parse

/-- `MultiprotocolExtensionsCapability::encode` (capabilities.rs 212-220). -/
def encMultiprotocol (afi : Afi) (safi : Safi) : Bytes := be16 afi.toU16 ++ [0, safi.toU8]

/-- one entry of `GracefulRestartCapability::parse` (capabilities.rs 291-304). -/
def rdGrFamily : Rd GrFamily := do
  let afi ← rdAfi
  let s ← rdU8
  let safi ← safiOr s
  let f ← rdU8
  pure ⟨afi, safi, f &&& 0x80 != 0⟩

/-- `GracefulRestartCapability::parse` (capabilities.rs 268-312). -/
def parseGracefulRestart (d : Bytes) : Except Err (Bool × UInt16 × List GrFamily) :=
  if d.length < 2 then .error .parse
  else match rdU16 d with
    | .error e => .error e
    | .ok (w, r) =>
      if r.length % 4 ≠ 0 then .error .parse
      else match whileGe 4 rdGrFamily r with
        | .error e => .error e
        | .ok fs => .ok (w &&& 0x8000 != 0, w &&& 0x0FFF, fs)

/-- `GracefulRestartCapability::encode` (capabilities.rs 316-336). -/
def encGracefulRestart (state : Bool) (time : UInt16) (fs : List GrFamily) : Bytes :=
  be16 (if state then 0x8000 ||| (time &&& 0x0FFF) else time &&& 0x0FFF) ++
    fs.flatMap fun f => be16 f.afi.toU16 ++ [f.safi.toU8, if f.forwarding then 0x80 else 0]

/-- one entry of `AddPathCapability::parse` (capabilities.rs 395-408). -/
def rdApFamily : Rd ApFamily := do
  let afi ← rdAfi
  let s ← rdU8
  let safi ← safiOr s
  let m ← rdU8
  match SendRecv.ofU8? m with
  | some m => pure ⟨afi, safi, m⟩
  | none => Rd.fail .parse

/-- `AddPathCapability::parse` (capabilities.rs 384-412). -/
def parseAddPathCap (d : Bytes) : Except Err (List ApFamily) :=
  if d.length % 4 ≠ 0 then .error .parse else whileGe 4 rdApFamily d

/-- `AddPathCapability::encode` (capabilities.rs 416-427). -/
def encAddPathCap (fs : List ApFamily) : Bytes :=
  fs.flatMap fun f => be16 f.afi.toU16 ++ [f.safi.toU8, f.mode.toU8]

/-- `RouteRefreshCapability::parse`, `BgpExtendedMessageCapability::parse` (capabilities.rs 444-452, 484-492). -/
def parseEmptyCap (d : Bytes) : Except Err Unit := if d.isEmpty then .ok () else .error .parse

/-- `FourOctetAsCapability::parse` (capabilities.rs 526-536): exactly four bytes. -/
def parseFourOctetAs (d : Bytes) : Except Err UInt32 :=
  match d with
  | [a, b, c, e] => .ok (u32of a b c e)
  | _ => .error .parse

/-- `BgpRoleCapability::parse` (capabilities.rs 600-612). -/
def parseRoleCap (d : Bytes) : Except Err Role :=
  if d.length ≠ 1 then .error .parse
  else match rdU8 d with
    | .error e => .error e
    | .ok (x, _) =>
      match Role.ofU8? x with
      | none => .error .parse
      | some r => .ok r

/-- `parse_capability!` (src/parser/bgp/messages.rs 365-372): any error falls back to the raw bytes; a panic would not. -/
def capOr (f : α → CapVal) (d : Bytes) : Except Err α → Except Err CapVal
  | .ok a => .ok (f a)
  | .error .panic => .error .panic
  | .error _ => .ok (.raw d)

/-- The `match capability_type` of `parse_bgp_open_message` (messages.rs 374-406). `BgpCapabilityType` is represented by
its code (capabilities.rs 31-57: `from(u8)` is injective with inverse `u8::from`; a hand-made `Unknown(k)` with `k` a
named code has no counterpart). -/
def capValue (code : UInt8) (d : Bytes) : Except Err CapVal :=
  if code = 1 then capOr (fun p => .multiprotocol p.1 p.2) d (parseMultiprotocol d)
  else if code = 2 then capOr (fun _ => .routeRefresh) d (parseEmptyCap d)
  else if code = 5 then capOr .extNextHop d (parseExtNextHop d)
  else if code = 64 then capOr (fun p => .gracefulRestart p.1 p.2.1 p.2.2) d (parseGracefulRestart d)
  else if code = 65 then capOr .fourOctetAs d (parseFourOctetAs d)
  else if code = 69 then capOr .addPath d (parseAddPathCap d)
  else if code = 9 then capOr .role d (parseRoleCap d)
  else if code = 6 then capOr (fun _ => .extMessage) d (parseEmptyCap d)
  else .ok (.raw d)

/-- the `match &cap.value` of `encode_bgp_open_param_value` (messages.rs 444-454). -/
def encCapVal : CapVal → Bytes
  | .multiprotocol a s => encMultiprotocol a s
  | .routeRefresh => []
  | .extNextHop es => encExtNextHop es
  | .gracefulRestart st t fs => encGracefulRestart st t fs
  | .fourOctetAs a => be32 a
  | .addPath fs => encAddPathCap fs
  | .role r => [r.toU8]
  | .extMessage => []
  | .raw b => b

/-- `ExtendedNextHopCapability::supports` (capabilities.rs 103-109). -/
def enhSupports (es : List EnhEntry) (afi : Afi) (safi : Safi) (nh : Afi) : Bool :=
  es.any fun e => e.afi == afi && e.safi == safi && e.nextHopAfi == nh

/-- `ExtendedNextHopCapability::supported_nlri_for_nexthop` (capabilities.rs 112-118). -/
def enhForNextHop (es : List EnhEntry) (nh : Afi) : List (Afi × Safi) :=
  (es.filter fun e => e.nextHopAfi == nh).map fun e => (e.afi, e.safi)

/-! ### AS number classification -/

/-- `Asn::is_private` (src/models/network/asn.rs 105-111). -/
def Asn.isPrivate (a : Asn) : Bool :=
  (64512 ≤ a && a ≤ 65534) || (4200000000 ≤ a && a ≤ 4294967294)

/-- `Asn::is_reserved` (asn.rs 124-137). -/
def Asn.isReserved (a : Asn) : Bool :=
  a == 0 || a == 112 || a == 23456 || (64496 ≤ a && a ≤ 64511) || (64512 ≤ a && a ≤ 65534) || a == 65535 ||
    (65536 ≤ a && a ≤ 65551) || (4200000000 ≤ a && a ≤ 4294967294) || a == 4294967295

/-- `Asn::is_reserved_for_documentation` (asn.rs 142-148). -/
def Asn.isDocumentation (a : Asn) : Bool := (64496 ≤ a && a ≤ 64511) || (65536 ≤ a && a ≤ 65551)

/-- `Asn::required_len` (asn.rs 93-99). -/
def Asn.requiredLen (a : Asn) : AsnLen := if a.toNat ≤ 65535 then .b16 else .b32

/-- `Asn` with its width flag (asn.rs 33-41), for the comparison operators. -/
structure AsnRaw where
  asn : UInt32
  fourByte : Bool
deriving Repr

/-- `PartialEq for Asn` (asn.rs 56-60). -/
def AsnRaw.eq (a b : AsnRaw) : Bool := a.asn == b.asn

/-- `Ord for Asn` (asn.rs 44-48). -/
def AsnRaw.cmp (a b : AsnRaw) : Ordering := compare a.asn.toNat b.asn.toNat

/-- `Hash for Asn` (asn.rs 50-54): what is fed to the hasher. -/
def AsnRaw.hashFeed (a : AsnRaw) : UInt32 := a.asn

end Verif
