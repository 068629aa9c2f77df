import Verif.Model.LinkState
import Verif.Model.Mpls
import Verif.Model.FlowSpec
/-
Path attribute lists: `/repo/src/models/bgp/attributes/mod.rs`, `/repo/src/models/bgp/attributes/nlri.rs`,
`/repo/src/parser/bgp/attributes/mod.rs`, `attr_14_15_nlri.rs`.
-/
namespace Verif

/-! ### multiprotocol NLRI -/

/-- `NextHopAddress` (src/models/network/nexthop.rs 38-48); a route distinguisher is eight bytes. -/
inductive NextHop where
  | v4 (a : V4)
  | v6 (a : V6)
  | v6ll (a b : V6)
  | vpn6 (rd : Vector UInt8 8) (a : V6)
  | vpn6ll (rd1 : Vector UInt8 8) (a : V6) (rd2 : Vector UInt8 8) (b : V6)
deriving DecidableEq, Repr

/-- `NextHopAddress::addr` (nexthop.rs 63-71). -/
def NextHop.addr : NextHop → Ip
  | .v4 a => .v4 a
  | .v6 a => .v6 a
  | .v6ll a _ => .v6 a
  | .vpn6 _ a => .v6 a
  | .vpn6ll _ a _ _ => .v6 a

/-- `From<IpAddr> for NextHopAddress` (nexthop.rs 103-110). -/
def NextHop.ofIp : Ip → NextHop
  | .v4 a => .v4 a
  | .v6 a => .v6 a

/-- `Nlri` (src/models/bgp/attributes/nlri.rs 10-32). -/
structure Nlri where
  afi : Afi
  safi : Safi
  nextHop : Option NextHop
  prefixes : List NetworkPrefix
  labeled : Option (List LabeledPrefix)
  linkState : Option (List LsNlri)
  flowspec : Option (List (List FsComp))
deriving DecidableEq, Repr

/-- `parse_mp_next_hop` (attr_03_next_hop.rs 17-62). -/
def parseMpNextHop (s : Bytes) : Except Err (Option NextHop) :=
  if s.length = 0 then .ok none
  else if s.length = 4 then (do let a ← rdV4; pure (some (.v4 a)) : Rd (Option NextHop)).runOn s
  else if s.length = 16 then (do let a ← rdV6; pure (some (.v6 a)) : Rd (Option NextHop)).runOn s
  else if s.length = 24 then
    (do let rd ← rdVec 8; let a ← rdV6; pure (some (.vpn6 rd a)) : Rd (Option NextHop)).runOn s
  else if s.length = 32 then
    (do let a ← rdV6; let b ← rdV6; pure (some (.v6ll a b)) : Rd (Option NextHop)).runOn s
  else if s.length = 48 then
    (do let r1 ← rdVec 8; let a ← rdV6; let r2 ← rdVec 8; let b ← rdV6; pure (some (.vpn6ll r1 a r2 b)) :
      Rd (Option NextHop)).runOn s
  else .error .parse

/-- the next-hop bytes (attr_14_15_nlri.rs 175-200, attr_03_next_hop.rs 72-100). -/
def NextHop.bytes : NextHop → Bytes
  | .v4 a => a.toList
  | .v6 a => a.toList
  | .v6ll a b => a.toList ++ b.toList
  | .vpn6 rd a => rd.toList ++ a.toList
  | .vpn6ll r1 a r2 b => r1.toList ++ (a.toList ++ (r2.toList ++ b.toList))

/-- the address family: the caller's, unless there is none or the input starts with a zero byte
(attr_14_15_nlri.rs 39-48). -/
def rdAfiOr (afi : Option Afi) (firstZero : Bool) : Rd Afi :=
  match afi with
  | some a => if firstZero then rdAfi else pure a
  | none => rdAfi

/-- the same for the SAFI (attr_14_15_nlri.rs 49-58). -/
def rdSafiOr (safi : Option Safi) (firstZero : Bool) : Rd Safi :=
  match safi with
  | some a => if firstZero then rdSafi else pure a
  | none => rdSafi

/-- address family and next hop (attr_14_15_nlri.rs 36-66). -/
def rdNlriHead (afi : Option Afi) (safi : Option Safi) (firstZero reachable : Bool) : Rd (Afi × Safi × Option NextHop) := do
  let afi ← rdAfiOr afi firstZero
  let safi ← rdSafiOr safi firstZero
  if reachable then do
    let l ← rdU8
    let b ← rdN l.toNat
    let nh ← Rd.lift (parseMpNextHop b)
    pure (afi, safi, nh)
  else pure (afi, safi, none)

/-- the reserved octet of a reachable NLRI; a non-zero value is only logged. -/
def rdReserved (reachable : Bool) : Rd Unit := if reachable then do let _ ← rdU8; pure () else pure ()

/-- the label configuration of `parse_nlri` (attr_14_15_nlri.rs 85-90). -/
def nlriLabelCfg (addPath : Bool) : LabelCfg := ⟨addPath, .multi, 16, none⟩

/-- the family-specific part of `parse_nlri` (attr_14_15_nlri.rs 69-132); `prefixes` is the caller's prefix list
(TABLE_DUMP_V2 RIB entries). -/
def parseNlriBody (afi : Afi) (safi : Safi) (nh : Option NextHop) (prefixes : Option (List NetworkPrefix))
    (firstZero reachable addPath : Bool) (s : Bytes) : Except Err Nlri :=
  if afi = .linkState ∧ (safi = .linkState ∨ safi = .linkStateVpn) then
    match rdReserved reachable s with
    | .error e => .error e
    | .ok ((), r) =>
      match parseLsNlri r with
      | .error e => .error e
      | .ok ls => .ok ⟨afi, safi, nh, [], none, some ls, none⟩
  else if safi = .mplsLabel then
    if reachable then
      match rdReserved true s with
      | .error e => .error e
      | .ok ((), r) =>
        match parseLabeledNlri afi (nlriLabelCfg addPath) r with
        | .error e => .error e
        | .ok ls => .ok ⟨afi, safi, nh, [], some ls, none, none⟩
    else
      match parseLabeledWithdrawals afi addPath s with
      | .error e => .error e
      | .ok ps => .ok ⟨afi, safi, nh, ps, none, none, none⟩
  else
    match prefixes, firstZero with
    | some ps, false => .ok ⟨afi, safi, nh, ps, none, none, none⟩
    | _, _ =>
      match rdReserved reachable s with
      | .error e => .error e
      | .ok ((), r) =>
        match parseNlriList afi addPath r with
        | .error e => .error e
        | .ok ps => .ok ⟨afi, safi, nh, ps, none, none, none⟩

/-- `parse_nlri` (attr_14_15_nlri.rs 28-148). -/
def parseNlri (afi : Option Afi) (safi : Option Safi) (prefixes : Option (List NetworkPrefix))
    (reachable addPath : Bool) (s : Bytes) : Except Err Nlri :=
  let firstZero := s.head? == some 0
  match rdNlriHead afi safi firstZero reachable s with
  | .error e => .error e
  | .ok ((a, f, nh), r) => parseNlriBody a f nh prefixes firstZero reachable addPath r

/-- one labelled prefix of `encode_nlri` (attr_14_15_nlri.rs 213-228). -/
def encNlriLabeled (addPath : Bool) (p : LabeledPrefix) : Except EncErr Bytes :=
  match encodeLabeled p (if p.labels.length ≤ 1 then .single else .multi) addPath none with
  | .ok b => .ok b
  | .error _ => .error .unencodable

/-- the optional next hop of `encode_nlri` with its length octet (attr_14_15_nlri.rs 167-200). -/
def encNextHop : Option NextHop → Except EncErr Bytes
  | some nh => u8Len nh.bytes
  | none => .ok []

/-- `encode_nlri` (attr_14_15_nlri.rs 157-255). -/
def encodeMpNlri (n : Nlri) (reachable addPath : Bool) : Except EncErr Bytes :=
  let head := be16 n.afi.toU16 ++ [n.safi.toU8]
  let res : Bytes := if reachable then [0] else []
  match encNextHop n.nextHop with
  | .error e => .error e
  | .ok nh =>
    if n.safi = .mplsLabel then
      match encAll (encNlriLabeled addPath) (n.labeled.getD []) with
      | .error e => .error e
      | .ok b => .ok (head ++ nh ++ res ++ b)
    else if n.afi = .linkState then
      .ok (head ++ nh ++ res ++ (n.linkState.getD []).flatMap fun l => be16 l.type ++ be16 0)
    else
      match encAll encodeFlowSpec (n.flowspec.getD []) with
      | .error e => .error e
      | .ok b => .ok (head ++ nh ++ res ++ encodeNlri n.prefixes ++ b)

/-! ### attribute values -/

/-- `AttributeValue` (src/models/bgp/attributes/mod.rs 705-792). The raw forms carry code and bytes (`AttrRaw`). The
nested attribute list of `AttrSet` is replaced by an opaque byte string: no parser produces the variant and the encoder
rejects it. -/
inductive AttrVal where
  | origin (o : Origin)
  | asPath (p : AsPath)
  | as4Path (p : AsPath)
  | nextHop (a : Ip)
  | med (v : UInt32)
  | localPref (v : UInt32)
  | otc (a : Asn)
  | atomic
  | aggregator (a : Asn) (id : V4)
  | as4Aggregator (a : Asn) (id : V4)
  | communities (cs : List Community)
  | extCommunities (cs : List ExtCommunity)
  | ipv6ExtCommunities (cs : List Ipv6ExtCommunity)
  | largeCommunities (cs : List LargeCommunity)
  | originatorId (id : V4)
  | clusters (cs : List UInt32)
  | mpReach (n : Nlri)
  | mpUnreach (n : Nlri)
  | linkState (a : LsAttr)
  | tunnel (ts : List TunnelTlv)
  | trafficEng (t : TrafficEng)
  | bfd (b : Bfd)
  | prefixSid (ts : List Tlv8)
  | bier (ts : List Tlv16)
  | sfp (ts : List Tlv8)
  | development (b : Bytes)
  | raw (code : UInt8) (b : Bytes)
  | deprecated (code : UInt8) (b : Bytes)
  | unknown (code : UInt8) (b : Bytes)
  | aigp (ts : List AigpTlv)
  | attrSet (origin : Asn) (payload : Bytes)
deriving DecidableEq, Repr

/-- `AttributeValue::attr_code` (src/models/bgp/attributes/mod.rs 859-866, with 821-857): the type code. `AttrType` is represented by
its code: `AttrType::from(u8)` is injective and its inverse is `u8::from` (55-109). A hand-made `AttrType::Unknown(k)`
with `k` a named code has no counterpart; nothing in the library makes one. -/
def AttrVal.code : AttrVal → UInt8
  | .origin _ => 1
  | .asPath _ => 2
  | .nextHop _ => 3
  | .med _ => 4
  | .localPref _ => 5
  | .atomic => 6
  | .aggregator .. => 7
  | .communities _ => 8
  | .originatorId _ => 9
  | .clusters _ => 10
  | .mpReach _ => 14
  | .mpUnreach _ => 15
  | .extCommunities _ => 16
  | .as4Path _ => 17
  | .as4Aggregator .. => 18
  | .tunnel _ => 23
  | .trafficEng _ => 24
  | .ipv6ExtCommunities _ => 25
  | .aigp _ => 26
  | .linkState _ => 29
  | .largeCommunities _ => 32
  | .otc _ => 35
  | .sfp _ => 37
  | .bfd _ => 38
  | .prefixSid _ => 40
  | .bier _ => 41
  | .attrSet .. => 128
  | .development _ => 255
  | .raw c _ | .deprecated c _ | .unknown c _ => c

/-- codes with a named `AttrType` variant (src/models/bgp/attributes/mod.rs 65-108); all other codes are
`AttrType::Unknown`. -/
def knownAttrCodes : List UInt8 :=
  [0, 1, 2, 3, 4, 5, 6, 7, 8, 9, 10, 14, 15, 16, 17, 18, 22, 23, 24, 25, 26, 27, 29, 32, 33, 35, 37, 38, 40, 41, 128, 255]

/-- `get_deprecated_attr_type` (src/models/bgp/attributes/mod.rs 123-137). -/
def deprecatedCodes : List UInt8 := [11, 12, 13, 19, 20, 21, 28, 30, 31, 129, 241, 242, 243]

/-- `is_raw_retained_attr` (src/parser/bgp/attributes/mod.rs 146-155). -/
def rawRetainedCodes : List UInt8 := [0, 22, 27, 33, 128]

/-- `AttributeCategory` (src/models/bgp/attributes/mod.rs 810-818). -/
inductive AttrCategory where
  | wellKnownMandatory | wellKnownDiscretionary | optionalTransitive | optionalNonTransitive
deriving DecidableEq, Repr

/-- `attr_category` (src/models/bgp/attributes/mod.rs 868-900). -/
def AttrVal.category : AttrVal → Option AttrCategory
  | .origin _ | .asPath _ | .nextHop _ | .localPref _ => some .wellKnownMandatory
  | .atomic => some .wellKnownDiscretionary
  | .as4Path _ | .otc _ | .aggregator .. | .as4Aggregator .. | .communities _ | .extCommunities _ | .largeCommunities _
  | .bfd _ | .prefixSid _ | .bier _ | .sfp _ | .attrSet .. => some .optionalTransitive
  | .med _ | .originatorId _ | .clusters _ | .mpReach _ | .mpUnreach _ | .linkState _ | .trafficEng _ | .aigp _ =>
    some .optionalNonTransitive
  | _ => none

/-- `default_flags` (src/models/bgp/attributes/mod.rs 904-916). -/
def AttrVal.defaultFlags (v : AttrVal) : UInt8 :=
  match v.category with
  | none => 0xE0
  | some .wellKnownMandatory => 0x40
  | some .wellKnownDiscretionary => 0x40
  | some .optionalTransitive => 0xC0
  | some .optionalNonTransitive => 0x80

/-- `Attribute` (src/models/bgp/attributes/mod.rs 516-521); the flags byte is kept as is (`from_bits_retain`). -/
structure Attribute where
  flag : UInt8
  value : AttrVal
deriving DecidableEq, Repr

/-- `AttrFlags::EXTENDED` / `PARTIAL` tests (`is_extended`, `is_partial`, mod.rs 532-538). -/
def isExtended (flag : UInt8) : Bool := flag &&& 0x10 != 0
def isPartial (flag : UInt8) : Bool := flag &&& 0x20 != 0

/-- `BgpValidationWarning` (src/error.rs 235-298); attribute types by code, reason texts and raw bytes not modelled
except those of `MalformedNlri`. -/
inductive Warning where
  | flags (code expected actual : UInt8)
  | length (code : UInt8) (expected actual : Nat)
  | missing (code : UInt8)
  | duplicate (code : UInt8)
  | optional (code : UInt8)
  | malformedList
  | partial_ (code : UInt8)
  | malformedNlri (withdrawn : Bool) (rawBytes : Bytes)
  | unknownRouteRefreshSubtype (v : UInt8)
deriving DecidableEq, Repr

/-- `[u64; 4]` presence mask. -/
abbrev Mask := Vector UInt64 4

def maskZero : Mask := Vector.replicate 4 0

theorem maskIdx (c : UInt8) : (c / 64).toNat < 4 := by
  have := c.toNat_lt; simp [UInt8.toNat_div]; omega

/-- `has_raw_attr` / `has_attr` (src/parser/bgp/attributes/mod.rs 178-184, src/models/bgp/attributes/mod.rs 160-163). -/
def maskHas (m : Mask) (c : UInt8) : Bool :=
  (m[(c / 64).toNat]'(maskIdx c) &&& ((1 : UInt64) <<< (c % 64).toUInt64)) != 0

/-- `set_attr`, `add_attr`, `compute_mask` (src/parser/bgp/attributes/mod.rs 186-188,
src/models/bgp/attributes/mod.rs 172-176, 406-413). -/
def maskSet (m : Mask) (c : UInt8) : Mask :=
  m.set (c / 64).toNat (m[(c / 64).toNat]'(maskIdx c) ||| ((1 : UInt64) <<< (c % 64).toUInt64)) (maskIdx c)

/-- `Attributes` (src/models/bgp/attributes/mod.rs 140-148). -/
structure Attributes where
  inner : List Attribute
  warnings : List Warning
  mask : Mask
deriving DecidableEq, Repr

/-! ### operations on attribute lists -/

namespace Attributes

/-- `Attributes::default`. -/
def empty : Attributes := ⟨[], [], maskZero⟩

/-- `has_attr` (src/models/bgp/attributes/mod.rs 160-163). -/
def hasAttr (a : Attributes) (code : UInt8) : Bool := maskHas a.mask code

/-- `get_attr` (mod.rs 165-170). -/
def getAttr (a : Attributes) (code : UInt8) : Option Attribute := a.inner.find? fun x => x.value.code == code

/-- `add_attr` (mod.rs 172-176). -/
def addAttr (a : Attributes) (x : Attribute) : Attributes :=
  { a with inner := a.inner ++ [x], mask := maskSet a.mask x.value.code }

/-- `compute_mask` (mod.rs 406-413). -/
def computeMask (xs : List Attribute) : Mask := xs.foldl (fun m x => maskSet m x.value.code) maskZero

/-- `FromIterator<Attribute>`, `From<Vec<Attribute>>`, `Deserialize` (mod.rs 415-436, 496-505). -/
def ofList (xs : List Attribute) : Attributes := ⟨xs, [], computeMask xs⟩

/-- `From<AttributeValue> for Attribute` (mod.rs 541-548). -/
def ofValue (v : AttrVal) : Attribute := ⟨v.defaultFlags, v⟩

/-- `FromIterator<AttributeValue>` (mod.rs 452-462). -/
def ofValues (vs : List AttrVal) : Attributes := ofList (vs.map ofValue)

/-- `Extend<Attribute>` (mod.rs 438-444). -/
def extend (a : Attributes) (xs : List Attribute) : Attributes := xs.foldl addAttr a

/-- `Extend<AttributeValue>` (mod.rs 446-450). -/
def extendValues (a : Attributes) (vs : List AttrVal) : Attributes := a.extend (vs.map ofValue)

/-- `add_validation_warning` (mod.rs 216-218). -/
def addWarning (a : Attributes) (w : Warning) : Attributes := { a with warnings := a.warnings ++ [w] }

end Attributes

/-- the mandatory-attribute rule shared by `Attributes::check_mandatory_attributes` (src/models/bgp/attributes/mod.rs
184-213) and `AttributeValidationState::check_mandatory_attributes` (src/parser/bgp/attributes/mod.rs 246-274): the
warnings it appends. -/
def missingWarnings (mask : Mask) (isAnnouncement hasStandardNlri : Bool) : List Warning :=
  if !isAnnouncement then []
  else
    (if maskHas mask 1 then [] else [.missing 1]) ++
    (if maskHas mask 2 then [] else [.missing 2]) ++
    (if (hasStandardNlri || !maskHas mask 14) && !maskHas mask 3 then [.missing 3] else [])

/-- `check_mandatory_attributes` (src/models/bgp/attributes/mod.rs 184-213). -/
def Attributes.checkMandatory (a : Attributes) (isAnnouncement hasStandardNlri : Bool) : Attributes :=
  { a with warnings := a.warnings ++ missingWarnings a.mask isAnnouncement hasStandardNlri }

namespace Attributes

/-- `origin` (mod.rs 232-240). -/
def origin (a : Attributes) : Origin :=
  (a.inner.findSome? fun x => match x.value with | .origin o => some o | _ => none).getD .incomplete

/-- `origin_id` (mod.rs 243-248). -/
def originatorId (a : Attributes) : Option V4 :=
  a.inner.findSome? fun x => match x.value with | .originatorId o => some o | _ => none

/-- `next_hop` (mod.rs 254-259). -/
def nextHop (a : Attributes) : Option Ip :=
  a.inner.findSome? fun x => match x.value with | .nextHop o => some o | _ => none

/-- `multi_exit_discriminator` (mod.rs 261-266). -/
def med (a : Attributes) : Option UInt32 :=
  a.inner.findSome? fun x => match x.value with | .med o => some o | _ => none

/-- `local_preference` (mod.rs 268-273). -/
def localPref (a : Attributes) : Option UInt32 :=
  a.inner.findSome? fun x => match x.value with | .localPref o => some o | _ => none

/-- `only_to_customer` (mod.rs 275-280). -/
def otc (a : Attributes) : Option Asn :=
  a.inner.findSome? fun x => match x.value with | .otc o => some o | _ => none

/-- `atomic_aggregate` (mod.rs 282-286). -/
def atomic (a : Attributes) : Bool :=
  a.inner.any fun x => match x.value with | .atomic => true | _ => false

/-- `aggregator` (mod.rs 288-297): the last one. -/
def aggregator (a : Attributes) : Option (Asn × V4) :=
  a.inner.reverse.findSome? fun x => match x.value with
    | .aggregator n i => some (n, i)
    | .as4Aggregator n i => some (n, i)
    | _ => none

/-- `clusters` (mod.rs 299-304). -/
def clusters (a : Attributes) : Option (List UInt32) :=
  a.inner.findSome? fun x => match x.value with | .clusters o => some o | _ => none

/-- `as_path` (mod.rs 311-316). -/
def asPath (a : Attributes) : Option AsPath :=
  a.inner.findSome? fun x => match x.value with | .asPath o => some o | _ => none

/-- `as4_path` (mod.rs 319-324). -/
def as4Path (a : Attributes) : Option AsPath :=
  a.inner.findSome? fun x => match x.value with | .as4Path o => some o | _ => none

/-- `effective_as_path` (mod.rs 332-338). -/
def effectiveAsPath (a : Attributes) : Option AsPath :=
  match a.asPath, a.as4Path with
  | none, none => none
  | none, some p => some p
  | some p, none => some p
  | some p, some q => p.mergeAs4 q

/-- `get_reachable_nlri` (mod.rs 340-345). -/
def reachable (a : Attributes) : Option Nlri :=
  a.inner.findSome? fun x => match x.value with | .mpReach o => some o | _ => none

/-- `get_unreachable_nlri` (mod.rs 347-352). -/
def unreachable (a : Attributes) : Option Nlri :=
  a.inner.findSome? fun x => match x.value with | .mpUnreach o => some o | _ => none

end Attributes

/-! ### validation -/

/-- `validate_attribute_flags` (src/parser/bgp/attributes/mod.rs 78-144): the expected flags. -/
def expectedFlags (code : UInt8) : Option UInt8 :=
  if code ∈ [1, 2, 3, 6, 5] then some 0x40
  else if code ∈ [4, 9, 10, 14, 15, 24] then some 0x80
  else if code ∈ [7, 18, 17, 8, 16, 25, 32, 35] then some 0xC0
  else none

/-- the types for which the partial bit is an error (mod.rs 127-137). -/
def partialForbidden : List UInt8 := [1, 2, 3, 5, 6, 4, 9, 10, 14, 15, 24]

/-- `validate_attribute_flags` (mod.rs 78-144): the warnings it appends. -/
def flagWarnings (code flags : UInt8) : List Warning :=
  match expectedFlags code with
  | none => []
  | some e =>
    (if flags &&& 0xC0 ≠ e then [.flags code e (flags &&& 0xC0)] else []) ++
    (if isPartial flags ∧ code ∈ partialForbidden then [.flags code e flags] else [])

/-- the table of `validate_attribute_length` (mod.rs 288-309). -/
def expectedLength (code : UInt8) : Option Nat :=
  if code = 1 then some 1
  else if code = 3 then some 4
  else if code = 4 then some 4
  else if code = 5 then some 4
  else if code = 6 then some 0
  else if code = 9 then some 4
  else if code = 35 then some 4
  else none

/-- `validate_attribute_length` (mod.rs 283-320). -/
def lengthWarnings (code : UInt8) (len : Nat) : List Warning :=
  match expectedLength code with
  | none => []
  | some e => if len ≠ e then [.length code e len] else []

/-- `AttributeValidationState` (mod.rs 165-168). -/
structure VState where
  warnings : List Warning
  mask : Mask
deriving DecidableEq, Repr

def VState.init : VState := ⟨[], maskZero⟩

/-- `observe_header` (mod.rs 190-207). -/
def VState.header (v : VState) (code flags : UInt8) (len : Nat) : VState :=
  ⟨v.warnings ++ (if maskHas v.mask code then [.duplicate code] else []) ++ flagWarnings code flags ++
    lengthWarnings code len, maskSet v.mask code⟩

/-- `observe_parse_error` (mod.rs 209-244), `is_well_known_mandatory` (158-163). -/
def VState.parseError (v : VState) (code : UInt8) (partial_ : Bool) : VState :=
  { v with warnings := v.warnings ++
      [if partial_ then .partial_ code else if code ∈ [1, 2, 3, 5] then .malformedList else .optional code] }

/-! ### parsing -/

/-- the session parameters of `parse_attributes` (mod.rs 326-333). -/
structure AttrCfg where
  asnLen : AsnLen
  addPath : Bool
  afi : Option Afi
  safi : Option Safi
  prefixes : Option (List NetworkPrefix)
deriving DecidableEq, Repr

/-- `Result::map`. -/
def mapOk (f : α → β) : Except ε α → Except ε β
  | .ok a => .ok (f a)
  | .error e => .error e

/-- the `match attr_type` of `parse_attributes` (mod.rs 415-466). -/
def parseAttrVal (cfg : AttrCfg) (code : UInt8) (d : Bytes) : Except Err AttrVal :=
  if code = 1 then mapOk .origin (parseOrigin d)
  else if code = 2 then mapOk .asPath (parseAsPath cfg.asnLen d)
  else if code = 3 then mapOk .nextHop (parseNextHop cfg.afi d)
  else if code = 4 then mapOk .med (parseU32Attr d)
  else if code = 5 then mapOk .localPref (parseU32Attr d)
  else if code = 6 then .ok .atomic
  else if code = 7 then mapOk (fun p => .aggregator p.1 p.2) (parseAggregator d)
  else if code = 9 then mapOk .originatorId (parseOriginatorId d)
  else if code = 10 then mapOk .clusters (parseClusters d)
  else if code = 14 then mapOk .mpReach (parseNlri cfg.afi cfg.safi cfg.prefixes true cfg.addPath d)
  else if code = 15 then mapOk .mpUnreach (parseNlri cfg.afi cfg.safi cfg.prefixes false cfg.addPath d)
  else if code = 17 then mapOk .as4Path (parseAsPath .b32 d)
  else if code = 18 then mapOk (fun p => .as4Aggregator p.1 p.2) (parseAggregator d)
  else if code = 8 then mapOk .communities (parseCommunities d)
  else if code = 32 then mapOk .largeCommunities (parseLargeCommunities d)
  else if code = 16 then mapOk .extCommunities (parseExtCommunities d)
  else if code = 25 then mapOk .ipv6ExtCommunities (parseIpv6ExtCommunities d)
  else if code = 255 then .ok (.development d)
  else if code = 35 then mapOk .otc (parseU32Attr d)
  else if code = 26 then mapOk .aigp (parseAigp d)
  else if code = 23 then mapOk .tunnel (parseTunnel d)
  else if code = 24 then mapOk .trafficEng (parseTrafficEng d)
  else if code = 29 then mapOk .linkState (parseLsAttr d)
  else if code = 37 then mapOk .sfp (parseTlv8Ext d)
  else if code = 38 then mapOk .bfd (parseBfd d)
  else if code = 40 then mapOk .prefixSid (parseTlv8Ext d)
  else if code = 41 then mapOk .bier (parseBier d)
  else .error .unsupported

/-- flags, type and length of one attribute (mod.rs 346-354). -/
def rdAttrHead : Rd (UInt8 × UInt8 × Nat) := do
  let flag ← rdU8
  let code ← rdU8
  let len ← (if isExtended flag then do let l ← rdU16; pure l.toNat else do let l ← rdU8; pure l.toNat : Rd Nat)
  pure (flag, code, len)

/-- One attribute value of `parse_attributes` (mod.rs 372-481): the value stored, and whether its parser failed, in which
case the value is kept raw. A panicking value parser, or the failed `assert_eq!` (469), is a panic of the whole call. -/
def decodeAttr (cfg : AttrCfg) (code : UInt8) (d : Bytes) : Except Err (AttrVal × Bool) :=
  if code ∈ deprecatedCodes then .ok (.deprecated code d, false)
  else if code ∉ knownAttrCodes then .ok (.unknown code d, false)
  else if code ∈ rawRetainedCodes then .ok (.raw code d, false)
  else match parseAttrVal cfg code d with
    | .ok x => if x.code ≠ code then .error .panic else .ok (x, false)
    | .error .panic => .error .panic
    | .error _ => .ok (.raw code d, true)

/-- The attribute loop of `parse_attributes` (mod.rs 341-482). Fuel: the input length, which suffices because every
round consumes at least three bytes. -/
def attrLoop (cfg : AttrCfg) : Nat → VState → Bytes → Except Err (List Attribute × VState)
  | 0, v, s => if s.length < 3 then .ok ([], v) else .error .panic
  | fuel + 1, v, s =>
    if s.length < 3 then .ok ([], v)
    else match rdAttrHead s with
      | .error e => .error e
      | .ok ((flag, code, len), r) =>
        let v := v.header code flag len
        if r.length < len then .ok ([], v)
        else match decodeAttr cfg code (r.take len) with
          | .error e => .error e
          | .ok (x, bad) =>
            match attrLoop cfg fuel (if bad then v.parseError code (isPartial flag) else v) (r.drop len) with
            | .error e => .error e
            | .ok (as, v) => .ok (⟨flag, x⟩ :: as, v)

/-- `parse_attributes` (mod.rs 326-490). -/
def parseAttributes (cfg : AttrCfg) (s : Bytes) : Except Err Attributes :=
  match attrLoop cfg s.length VState.init s with
  | .error e => .error e
  | .ok (as, v) => .ok ⟨as, v.warnings, v.mask⟩

/-! ### encoding -/

/-- `write_value` of `Attribute::encode_to` (mod.rs 502-575). -/
def encodeAttrVal (l : AsnLen) : AttrVal → Except EncErr Bytes
  | .origin o => .ok [o.toU8]
  | .asPath p => encodeAsPath l p
  | .as4Path p => encodeAsPath .b32 p
  | .nextHop a => .ok a.octets
  | .med v => .ok (be32 v)
  | .localPref v => .ok (be32 v)
  | .otc v => .ok (be32 v)
  | .atomic => .ok []
  | .aggregator a i => encodeAggregator l a i
  | .as4Aggregator a i => encodeAggregator .b32 a i
  | .communities cs => .ok (encodeCommunities cs)
  | .extCommunities cs => .ok (encodeExtCommunities cs)
  | .largeCommunities cs => .ok (encodeLargeCommunities cs)
  | .ipv6ExtCommunities cs => .ok (encodeIpv6ExtCommunities cs)
  | .originatorId i => .ok i.toList
  | .clusters cs => .ok (encodeClusters cs)
  | .mpReach n => encodeMpNlri n true ((n.labeled.getD []).any fun p => p.pathId.isSome)
  | .mpUnreach n => encodeMpNlri n false false
  | .linkState a => encodeLsAttr a
  | .tunnel ts => encodeTunnel ts
  | .trafficEng t => .ok (encodeTrafficEng t)
  | .bfd b => encodeBfd b
  | .prefixSid ts => encodeTlv8Ext ts
  | .bier ts => encodeBier ts
  | .sfp ts => encodeTlv8Ext ts
  | .development b => .ok b
  | .raw _ b | .deprecated _ b | .unknown _ b => .ok b
  | .aigp ts => .ok (encodeAigp ts)
  | .attrSet .. => .error .unencodable

/-- `Attribute::encode_to` (mod.rs 498-581). -/
def encodeAttr (l : AsnLen) (a : Attribute) : Except EncErr Bytes :=
  match encodeAttrVal l a.value with
  | .error e => .error e
  | .ok b =>
    match (if isExtended a.flag then u16Len b else u8Len b) with
    | .error e => .error e
    | .ok b => .ok (a.flag :: a.value.code :: b)

/-- `Attributes::encode_to` (mod.rs 593-600). -/
def encodeAttributes (l : AsnLen) (a : List Attribute) : Except EncErr Bytes := encAll (encodeAttr l) a


/-! ### communities of all kinds -/

/-- `MetaCommunity` (src/models/bgp/community.rs): plain, extended, IPv6 extended or large. -/
inductive MetaCommunity where
  | plain (c : Community)
  | extended (c : ExtCommunity)
  | ipv6Extended (c : Ipv6ExtCommunity)
  | large (c : LargeCommunity)
deriving DecidableEq, Repr

/-- `MetaCommunitiesIter` (src/models/bgp/attributes/mod.rs 374-377). -/
structure CommIter where
  attributes : List Attribute
  index : Nat

/-- `MetaCommunitiesIter::next` (mod.rs 382-404), the `loop` as recursion over the attributes left; IPv6 extended
communities fall into the `_` arm. -/
def CommIter.next : List Attribute → Nat → Option (MetaCommunity × CommIter)
  | [], _ => none
  | x :: xs, i =>
    match x.value with
    | .communities cs =>
      if h : i < cs.length then some (.plain cs[i], ⟨x :: xs, i + 1⟩) else CommIter.next xs 0
    | .extCommunities cs =>
      if h : i < cs.length then some (.extended cs[i], ⟨x :: xs, i + 1⟩) else CommIter.next xs 0
    | .largeCommunities cs =>
      if h : i < cs.length then some (.large cs[i], ⟨x :: xs, i + 1⟩) else CommIter.next xs 0
    | _ => CommIter.next xs 0

/-- `iter_communities` (mod.rs 354-359). -/
def Attributes.commIter (a : Attributes) : CommIter := ⟨a.inner, 0⟩

/-- the items of the first `n` calls of `next`. -/
def CommIter.take : Nat → CommIter → List MetaCommunity
  | 0, _ => []
  | n + 1, it =>
    match CommIter.next it.attributes it.index with
    | none => []
    | some (c, it) => c :: CommIter.take n it

end Verif
