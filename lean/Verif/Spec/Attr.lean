import Verif.Model.Attr
import Verif.Spec.Nlri
import Verif.Spec.Mpls
import Verif.Spec.Community
/-
Which path attributes have a wire representation of their own, and how an attribute list is laid out.
-/
namespace Verif.Spec

/-! ### codes -/

/-- assigned codes whose content the library keeps undecoded: reserved, PMSI_TUNNEL, PE_DISTINGUISHER_LABELS,
BGPsec_PATH, ATTR_SET. -/
def RawCode (c : UInt8) : Prop := c ∈ [0, 22, 27, 33, 128]

/-- codes marked deprecated by IANA. -/
def DeprecatedCode (c : UInt8) : Prop := c ∈ [11, 12, 13, 19, 20, 21, 28, 30, 31, 129, 241, 242, 243]

/-- codes with a decoder. -/
def DecodedCode (c : UInt8) : Prop :=
  c ∈ [1, 2, 3, 4, 5, 6, 7, 8, 9, 10, 14, 15, 16, 17, 18, 23, 24, 25, 26, 29, 32, 35, 37, 38, 40, 41, 255]

/-- every other code. -/
def UnassignedCode (c : UInt8) : Prop := ¬ RawCode c ∧ ¬ DeprecatedCode c ∧ ¬ DecodedCode c

instance (c : UInt8) : Decidable (RawCode c) := by unfold RawCode; infer_instance
instance (c : UInt8) : Decidable (DeprecatedCode c) := by unfold DeprecatedCode; infer_instance
instance (c : UInt8) : Decidable (DecodedCode c) := by unfold DecodedCode; infer_instance
instance (c : UInt8) : Decidable (UnassignedCode c) := by unfold UnassignedCode; infer_instance

/-! ### values -/

/-- a tunnel TLV with assigned tunnel type (0-22) and sub-TLV types (0-20, 128, 129). -/
def TunnelOk (t : TunnelTlv) : Prop :=
  t.type.toNat ≤ 22 ∧ ∀ s ∈ t.subs, s.type.toNat ≤ 20 ∨ s.type = 128 ∨ s.type = 129

/-- TLV codes of node, link and prefix attributes (RFC 7752 and successors), as the library divides them. -/
def LsNodeCode (c : UInt16) : Prop := c ∈ [1024, 1025, 1026, 1027, 1028, 1029, 1034, 1035, 1036, 1037]
def LsLinkCode (c : UInt16) : Prop := c ∈ [1088, 1089, 1090, 1091, 1092, 1093, 1094, 1095, 1096, 1097,
  1098, 1099, 1100, 1101, 1102, 1103, 1114, 1115, 1116, 1117, 1118, 1119, 1120, 1172, 1122]
def LsPrefixCode (c : UInt16) : Prop :=
  c ∈ [1152, 1153, 1154, 1155, 1156, 1157, 1158, 1159, 1161, 1162, 1163, 1170, 1171, 1174]

instance (c : UInt16) : Decidable (LsNodeCode c) := by unfold LsNodeCode; infer_instance
instance (c : UInt16) : Decidable (LsLinkCode c) := by unfold LsLinkCode; infer_instance
instance (c : UInt16) : Decidable (LsPrefixCode c) := by unfold LsPrefixCode; infer_instance

/-- A link-state attribute: each map has distinct keys of its own kind, and the unknown TLVs have none of those types. -/
structure LsAttrOk (a : LsAttr) : Prop where
  node : (a.node.map Prod.fst).Nodup ∧ ∀ p ∈ a.node, LsNodeCode p.1
  link : (a.link.map Prod.fst).Nodup ∧ ∀ p ∈ a.link, LsLinkCode p.1
  pfx : (a.pfx.map Prod.fst).Nodup ∧ ∀ p ∈ a.pfx, LsPrefixCode p.1
  unknown : ∀ t ∈ a.unknown, ¬ LsNodeCode t.type ∧ ¬ LsLinkCode t.type ∧ ¬ LsPrefixCode t.type

/-- Multiprotocol NLRI in a session with or without Add-Path: announcements carry a next hop and withdrawals do not;
exactly the field of the address family is filled. -/
structure MpNlriOk (reachable addPath : Bool) (n : Nlri) : Prop where
  nextHop : n.nextHop.isSome = reachable
  family : n.afi ≠ .linkState
  noLinkState : n.linkState = none
  noFlowSpec : n.flowspec = none
  plain : n.safi ≠ .mplsLabel → n.labeled = none ∧ ∀ p ∈ n.prefixes, PrefixOk n.afi addPath p ∧
    (addPath = false → p.prefix_.len ≠ 0)
  labeled : n.safi = .mplsLabel → n.prefixes = [] ∧
    if reachable then ∃ ls, n.labeled = some ls ∧ ∀ p ∈ ls, LabeledOk n.afi ⟨addPath, .multi, 16, none⟩ p
    else n.labeled = none

/-- A path attribute value that a session with these parameters can carry. -/
def AttrValOk (cfg : AttrCfg) : AttrVal → Prop
  | .nextHop a => a.afi = cfg.afi.getD .ipv4
  | .communities cs => ∀ c ∈ cs, CommunityOk c
  | .extCommunities cs => ∀ c ∈ cs, ExtCommunityOk c
  | .ipv6ExtCommunities cs => ∀ c ∈ cs, Ipv6ExtCommunityOk c
  | .mpReach n => MpNlriOk true cfg.addPath n
  | .mpUnreach n => MpNlriOk false cfg.addPath n
  | .linkState a => LsAttrOk a
  | .tunnel ts => ∀ t ∈ ts, TunnelOk t
  | .aigp ts => ∀ t ∈ ts, t.length.toNat = t.value.length + 3
  | .raw c _ => RawCode c
  | .deprecated c _ => DeprecatedCode c
  | .unknown c _ => UnassignedCode c
  | .attrSet .. => False
  | _ => True

/-! ### layout -/

/-- bit 4 of the flags octet: the length field has two octets. -/
def ExtendedLength (flag : UInt8) : Prop := flag.toNat.testBit 4 = true

instance (flag : UInt8) : Decidable (ExtendedLength flag) := by unfold ExtendedLength; infer_instance

/-- one attribute on the wire: flags, type code, length (one or two octets), value. -/
structure Wire where
  flag : UInt8
  code : UInt8
  value : Bytes
deriving DecidableEq, Repr

/-- the header: flags, code, and `len` in the one or two octets of the length field. -/
def headBytes (flag code : UInt8) (len : Nat) : Bytes :=
  [flag, code] ++ if ExtendedLength flag then [UInt8.ofNat (len / 256), UInt8.ofNat (len % 256)] else [UInt8.ofNat len]

/-- the value fits the length field. -/
def LenFits (flag : UInt8) (len : Nat) : Prop := len < if ExtendedLength flag then 65536 else 256

instance (flag : UInt8) (len : Nat) : Decidable (LenFits flag len) := by unfold LenFits; infer_instance

def Wire.ok (w : Wire) : Prop := LenFits w.flag w.value.length

instance (w : Wire) : Decidable w.ok := by unfold Wire.ok; infer_instance

def Wire.bytes (w : Wire) : Bytes := headBytes w.flag w.code w.value.length ++ w.value

def wireBytes (ws : List Wire) : Bytes := ws.flatMap Wire.bytes

/-- the end of an attribute list: fewer than three bytes, or a header whose length exceeds what follows. -/
def Rest (r : Bytes) : Prop :=
  r.length < 3 ∨ ∃ flag code len t, LenFits flag len ∧ r = headBytes flag code len ++ t ∧ t.length < len

/-- three bytes that announce a two-octet length and end before its second octet. -/
def BrokenRest (r : Bytes) : Prop := ∃ flag code a, ExtendedLength flag ∧ r = [flag, code, a]

/-! ### warnings -/

/-- bit 5 of the flags octet. -/
def PartialBit (flag : UInt8) : Prop := flag.toNat.testBit 5 = true

instance (flag : UInt8) : Decidable (PartialBit flag) := by unfold PartialBit; infer_instance

/-- the three warnings that report an undecodable attribute value. -/
def IsMalformed : Warning → Prop
  | .partial_ _ | .malformedList | .optional _ => True
  | _ => False

/-- the warning for an undecodable value: the attribute is partial, or it is one of ORIGIN, AS_PATH, NEXT_HOP and
LOCAL_PREF, or neither. -/
def malformedWarning (code flag : UInt8) : Warning :=
  if PartialBit flag then .partial_ code else if code ∈ [1, 2, 3, 5] then .malformedList else .optional code

/-! ### attribute sets in use -/

/-- An attribute set made through the public API: empty, collected from attributes or values, or parsed from a byte
string that does not end in a header whose length exceeds the rest; then changed by any sequence of additions,
extensions, warnings and mandatory-attribute checks. -/
inductive AttrHistory : Attributes → Prop where
  | empty : AttrHistory .empty
  | ofList (xs : List Attribute) : AttrHistory (.ofList xs)
  | ofValues (vs : List AttrVal) : AttrHistory (.ofValues vs)
  | parsed {cfg : AttrCfg} {ws : List Wire} {r : Bytes} {a : Attributes} (hw : ∀ w ∈ ws, w.ok) (hr : r.length < 3)
      (h : parseAttributes cfg (wireBytes ws ++ r) = .ok a) : AttrHistory a
  | addAttr {a : Attributes} (x : Attribute) : AttrHistory a → AttrHistory (a.addAttr x)
  | extend {a : Attributes} (xs : List Attribute) : AttrHistory a → AttrHistory (a.extend xs)
  | extendValues {a : Attributes} (vs : List AttrVal) : AttrHistory a → AttrHistory (a.extendValues vs)
  | addWarning {a : Attributes} (w : Warning) : AttrHistory a → AttrHistory (a.addWarning w)
  | checkMandatory {a : Attributes} (ann std : Bool) : AttrHistory a → AttrHistory (a.checkMandatory ann std)

/-- the set holds an attribute of type `code`. -/
def Holds (a : Attributes) (code : UInt8) : Prop := ∃ x ∈ a.inner, x.value.code = code

/-- The mandatory-attribute rule: an announcing update needs ORIGIN (1) and AS_PATH (2); it needs NEXT_HOP (3) when it
announces prefixes in its own NLRI field or has no MP_REACH_NLRI (14). -/
def MandatoryMissing (a : Attributes) (announces standardNlri : Bool) (code : UInt8) : Prop :=
  announces = true ∧ ¬ Holds a code ∧
    (code = 1 ∨ code = 2 ∨ (code = 3 ∧ (standardNlri = true ∨ ¬ Holds a 14)))

end Verif.Spec
