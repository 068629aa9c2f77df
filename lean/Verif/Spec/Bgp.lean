import Verif.Model.Bgp
import Verif.Spec.Layout
import Verif.Spec.Attr
/-
Capabilities, BGP messages and their layout on the wire (RFC 4271, 2918, 4724, 5492, 6793, 7606, 7911, 8654, 8950, 9072,
9234), and the special AS numbers, independently of the parser.
-/
namespace Verif.Spec

/-! ### capabilities -/

/-- RFC 9234 role numbers. -/
def roleNum : Role → Nat
  | .provider => 0
  | .routeServer => 1
  | .routeServerClient => 2
  | .customer => 3
  | .peer => 4

/-- RFC 7911 send/receive modes. -/
def modeNum : SendRecv → Nat
  | .receive => 1
  | .send => 2
  | .sendReceive => 3

/-- One entry of the extended next hop capability: NLRI AFI, an ignored octet and the NLRI SAFI, next hop AFI. -/
def EnhBytes (e : EnhEntry) (b : Bytes) : Prop :=
  ∃ x, b = n16 (afiNum e.afi) ++ [x, UInt8.ofNat (safiNum e.safi)] ++ n16 (afiNum e.nextHopAfi)

/-- One family of the graceful restart capability: AFI, SAFI, flags whose top bit is the forwarding state. -/
def GrBytes (f : GrFamily) (b : Bytes) : Prop :=
  ∃ x : UInt8, b = n16 (afiNum f.afi) ++ [UInt8.ofNat (safiNum f.safi), x] ∧ f.forwarding = x.toNat.testBit 7

/-- One family of the Add-Path capability: AFI, SAFI, mode. -/
def ApBytes (f : ApFamily) (b : Bytes) : Prop :=
  b = n16 (afiNum f.afi) ++ [UInt8.ofNat (safiNum f.safi), UInt8.ofNat (modeNum f.mode)]

/-- `CapBytes code b v`: under capability code `code` the value octets `b` mean `v`. -/
inductive CapBytes : UInt8 → Bytes → CapVal → Prop where
  | multiprotocol (afi : Afi) (safi : Safi) (reserved : UInt8) :
      CapBytes 1 (n16 (afiNum afi) ++ [reserved, UInt8.ofNat (safiNum safi)]) (.multiprotocol afi safi)
  | routeRefresh : CapBytes 2 [] .routeRefresh
  | extNextHop {es : List EnhEntry} {b : Bytes} : Blocks EnhBytes es b → CapBytes 5 b (.extNextHop es)
  | extMessage : CapBytes 6 [] .extMessage
  | role (r : Role) : CapBytes 9 [UInt8.ofNat (roleNum r)] (.role r)
  | gracefulRestart (state : Bool) (reserved time : Nat) {fs : List GrFamily} {b : Bytes} :
      reserved < 8 → time < 4096 → Blocks GrBytes fs b →
      CapBytes 64 (n16 ((if state then 32768 else 0) + reserved * 4096 + time) ++ b)
        (.gracefulRestart state (UInt16.ofNat time) fs)
  | fourOctetAs (asn : UInt32) : CapBytes 65 (n32 asn.toNat) (.fourOctetAs asn)
  | addPath {fs : List ApFamily} {b : Bytes} : Blocks ApBytes fs b → CapBytes 69 b (.addPath fs)

/-- A capability value that its code can carry: the restart time has twelve bits; octets that mean something are not
kept raw. -/
def CapOk (code : UInt8) : CapVal → Prop
  | .multiprotocol .. => code = 1
  | .routeRefresh => code = 2
  | .extNextHop _ => code = 5
  | .extMessage => code = 6
  | .role _ => code = 9
  | .gracefulRestart _ time _ => code = 64 ∧ time.toNat < 4096
  | .fourOctetAs _ => code = 65
  | .addPath _ => code = 69
  | .raw b => ∀ v, ¬ CapBytes code b v

/-! ### OPEN -/

/-- An optional parameter: capabilities under type 2 and only there. -/
def ParamOk (p : OptParam) : Prop :=
  match p.value with
  | .caps cs => p.type = 2 ∧ ∀ c ∈ cs, CapOk c.ty c.value
  | .raw _ => p.type ≠ 2

/-- An OPEN message: the AS number field has two octets. -/
def OpenOk (m : Open) : Prop := m.asn.toNat < 65536 ∧ ∀ p ∈ m.params, ParamOk p

/-! ### NOTIFICATION -/

/-- an error value that is the one used for its own code and subcode. -/
def ErrorOk : BgpError → Prop
  | .reserved _ | .holdTimer _ => True
  | .header (.unknown v) => 4 ≤ v.toNat
  | .openErr (.unknown v) => v.toNat = 5 ∨ (8 ≤ v.toNat ∧ v.toNat ≤ 10) ∨ 12 ≤ v.toNat
  | .update (.unknown v) => v.toNat = 7 ∨ 12 ≤ v.toNat
  | .fsm (.unknown v) => 4 ≤ v.toNat
  | .cease (.unknown v) => 11 ≤ v.toNat
  | .refresh (.unknown v) => 2 ≤ v.toNat
  | .unknown c _ => 8 ≤ c.toNat
  | _ => True

/-- the error code and subcode numbers of RFC 4271, 4486, 6608, 7313, 8538, 9234, 9384. -/
def errorNum : BgpError → Nat × Nat
  | .reserved s => (0, s.toNat)
  | .header .unspecific => (1, 0)
  | .header .notSynchronized => (1, 1)
  | .header .badLength => (1, 2)
  | .header .badType => (1, 3)
  | .header (.unknown s) => (1, s.toNat)
  | .openErr .unspecific => (2, 0)
  | .openErr .badVersion => (2, 1)
  | .openErr .badPeerAs => (2, 2)
  | .openErr .badIdentifier => (2, 3)
  | .openErr .badParameter => (2, 4)
  | .openErr .badHoldTime => (2, 6)
  | .openErr .badCapability => (2, 7)
  | .openErr .roleMismatch => (2, 11)
  | .openErr (.unknown s) => (2, s.toNat)
  | .update .unspecific => (3, 0)
  | .update .malformedList => (3, 1)
  | .update .unrecognizedWellKnown => (3, 2)
  | .update .missingWellKnown => (3, 3)
  | .update .flags => (3, 4)
  | .update .length => (3, 5)
  | .update .invalidOrigin => (3, 6)
  | .update .invalidNextHop => (3, 8)
  | .update .optional => (3, 9)
  | .update .invalidNetwork => (3, 10)
  | .update .malformedAsPath => (3, 11)
  | .update (.unknown s) => (3, s.toNat)
  | .holdTimer s => (4, s.toNat)
  | .fsm .unspecified => (5, 0)
  | .fsm .openSent => (5, 1)
  | .fsm .openConfirm => (5, 2)
  | .fsm .established => (5, 3)
  | .fsm (.unknown s) => (5, s.toNat)
  | .cease .reserved => (6, 0)
  | .cease .maxPrefixes => (6, 1)
  | .cease .shutdown => (6, 2)
  | .cease .deConfigured => (6, 3)
  | .cease .reset => (6, 4)
  | .cease .rejected => (6, 5)
  | .cease .otherConfig => (6, 6)
  | .cease .collision => (6, 7)
  | .cease .resources => (6, 8)
  | .cease .hardReset => (6, 9)
  | .cease .bfdDown => (6, 10)
  | .cease (.unknown s) => (6, s.toNat)
  | .refresh .reserved => (7, 0)
  | .refresh .invalidLength => (7, 1)
  | .refresh (.unknown s) => (7, s.toNat)
  | .unknown c s => (c.toNat, s.toNat)

instance (e : BgpError) : Decidable (ErrorOk e) := by
  unfold ErrorOk
  split <;> infer_instance

/-! ### UPDATE -/

/-- The session parameters under which the attributes of an UPDATE are parsed. -/
def updateCfg (addPath : Bool) (l : AsnLen) : AttrCfg := ⟨l, addPath, none, none, none⟩

/-- prefixes that the IPv4 fields of an UPDATE can carry; without Add-Path the default route is excluded, because the
parser takes a zero octet for the start of a path identifier. -/
def UpdatePrefixOk (addPath : Bool) (p : NetworkPrefix) : Prop :=
  PrefixOk .ipv4 addPath p ∧ (addPath = false → p.prefix_.len ≠ 0)

/-- An UPDATE that a session with these parameters can carry. -/
structure UpdateOk (addPath : Bool) (l : AsnLen) (u : Update) : Prop where
  withdrawn : ∀ p ∈ u.withdrawn, UpdatePrefixOk addPath p
  attributes : ∀ a ∈ u.attributes.inner, AttrValOk (updateCfg addPath l) a.value
  announced : ∀ p ∈ u.announced, UpdatePrefixOk addPath p

/-- the UPDATE layout: withdrawn routes and path attributes, each behind a two-octet length, then the announced
routes. -/
def updateBytes (w a n : Bytes) : Bytes := n16 w.length ++ w ++ n16 a.length ++ a ++ n

/-- the prefixes of an NLRI field: none if it is malformed. -/
def fieldPrefixes (addPath : Bool) (b : Bytes) : List NetworkPrefix :=
  match parseNlriList .ipv4 addPath b with
  | .ok ps => ps
  | .error _ => []

/-- the warning for a malformed NLRI field, with its bytes. -/
def fieldWarnings (withdrawn addPath : Bool) (b : Bytes) : List Warning :=
  match parseNlriList .ipv4 addPath b with
  | .ok _ => []
  | .error _ => [.malformedNlri withdrawn b]

/-! ### messages -/

/-- message type numbers. -/
def msgNum : MsgType → Nat
  | .open => 1
  | .update => 2
  | .notification => 3
  | .keepAlive => 4
  | .routeRefresh => 5

/-- A BGP message on the wire: a 16-octet marker, the length, the type, the body. -/
def messageBytes (marker : Bytes) (len : Nat) (ty : UInt8) (body : Bytes) : Bytes := marker ++ n16 len ++ [ty] ++ body

/-- A message that a session with these parameters can carry; only UPDATE depends on them. OPEN is limited to 4096
octets by RFC 8654, of which 19 are the header. -/
def MessageOk (addPath : Bool) (l : AsnLen) : BgpMessage → Prop
  | .open m => OpenOk m ∧ ∀ b, encodeOpen m = .ok b → b.length ≤ 4077
  | .update u => UpdateOk addPath l u
  | .notification n => ErrorOk n.error
  | .keepAlive => True
  | .routeRefresh _ => True

/-- The message that parsing returns for an encoded one: the OPEN parser reports the extended format if the parameters
do not fit the short one; the warnings and the type index of an attribute set are not sent. -/
def SameMessage : BgpMessage → BgpMessage → Prop
  | .open m, .open m' => ∃ b, encodeOpen m = .ok b ∧ m' = { m with extended := m.extended || decide (265 < b.length) }
  | .update u, .update u' =>
    u'.withdrawn = u.withdrawn ∧ u'.attributes.inner = u.attributes.inner ∧ u'.announced = u.announced
  | .notification n, .notification n' => n' = n
  | .keepAlive, .keepAlive => True
  | .routeRefresh m, .routeRefresh m' => m' = m
  | _, _ => False

/-! ### End-of-RIB -/

/-- nothing in the multiprotocol NLRI, of whatever kind. -/
def NlriEmpty (n : Nlri) : Prop :=
  n.prefixes = [] ∧ n.labeled.getD [] = [] ∧ n.linkState.getD [] = [] ∧ n.flowspec.getD [] = []

/-- RFC 4724: an UPDATE without routes and without attributes, or whose only attribute is an MP_UNREACH_NLRI without
routes. -/
def EndOfRib (u : Update) : Prop :=
  u.announced = [] ∧ u.withdrawn = [] ∧
    (u.attributes.inner = [] ∨ ∃ f n, u.attributes.inner = [⟨f, .mpUnreach n⟩] ∧ NlriEmpty n)

/-! ### roles -/

/-- RFC 9234: the roles allowed at the two ends of a session. -/
inductive RolePair : Role → Role → Prop where
  | providerCustomer : RolePair .provider .customer
  | customerProvider : RolePair .customer .provider
  | serverClient : RolePair .routeServer .routeServerClient
  | clientServer : RolePair .routeServerClient .routeServer
  | peers : RolePair .peer .peer

/-! ### AS numbers (RFC 6996, 7249, 7300, 7534, 7607, 5398, 6793) -/

def PrivateAsn (n : Nat) : Prop := (64512 ≤ n ∧ n ≤ 65534) ∨ (4200000000 ≤ n ∧ n ≤ 4294967294)
def DocumentationAsn (n : Nat) : Prop := (64496 ≤ n ∧ n ≤ 64511) ∨ (65536 ≤ n ∧ n ≤ 65551)
def SpecialAsn (n : Nat) : Prop :=
  n = 0 ∨ n = 112 ∨ n = 23456 ∨ n = 65535 ∨ n = 4294967295 ∨ PrivateAsn n ∨ DocumentationAsn n

end Verif.Spec
