import Verif.Model.AttrVal
/-
BGP-LS attribute and NLRI (`/repo/src/parser/bgp/attributes/attr_29_linkstate.rs`, `/repo/src/models/bgp/linkstate.rs`).
-/
namespace Verif

/-- `HashMap::insert`. A map is an association list without repeated keys; its order stands for the (unspecified)
iteration order of the Rust map, so a statement about every list covers every iteration order. -/
def mapInsert (k : UInt16) (v : Bytes) : List (UInt16 × Bytes) → List (UInt16 × Bytes)
  | [] => [(k, v)]
  | (k', v') :: r => if k' = k then (k, v) :: r else (k', v') :: mapInsert k v r

/-- discriminants of `NodeAttributeType` other than `Reserved` (linkstate.rs 81-98). -/
def nodeAttrCodes : List UInt16 := [1024, 1025, 1026, 1027, 1028, 1029, 1034, 1035, 1036, 1037]

/-- discriminants of `LinkAttributeType` other than `Reserved` (linkstate.rs 101-148). -/
def linkAttrCodes : List UInt16 := [1028, 1029, 1030, 1031, 1088, 1089, 1090, 1091, 1092, 1093, 1094, 1095, 1096, 1097,
  1098, 1099, 1100, 1101, 1102, 1103, 1114, 1115, 1116, 1117, 1118, 1119, 1120, 1172, 1122]

/-- discriminants of `PrefixAttributeType` other than `Reserved` (linkstate.rs 151-175). -/
def prefixAttrCodes : List UInt16 := [1152, 1153, 1154, 1155, 1156, 1157, 1158, 1159, 1161, 1162, 1163, 1170, 1171, 1174]

/-- `LinkStateAttribute` (linkstate.rs 290-299): three maps keyed by the discriminant, and the unknown TLVs. -/
structure LsAttr where
  node : List (UInt16 × Bytes)
  link : List (UInt16 × Bytes)
  pfx : List (UInt16 × Bytes)
  unknown : List Tlv16
deriving DecidableEq, Repr

/-- the `match tlv_type` of `parse_link_state_attribute` (attr_29_linkstate.rs 30-79). -/
def LsAttr.add (a : LsAttr) (t : Tlv16) : LsAttr :=
  let n := t.type.toNat
  let unk : LsAttr := { a with unknown := a.unknown ++ [t] }
  if 1024 ≤ n ∧ n ≤ 1039 then
    if t.type ∈ nodeAttrCodes then { a with node := mapInsert t.type t.value a.node } else unk
  else if (1088 ≤ n ∧ n ≤ 1103) ∨ ((1114 ≤ n ∧ n ≤ 1120) ∨ n = 1122) ∨ n = 1172 then
    if t.type ∈ linkAttrCodes then { a with link := mapInsert t.type t.value a.link } else unk
  else if (1152 ≤ n ∧ n ≤ 1163) ∨ (1170 ≤ n ∧ n ≤ 1171) ∨ n = 1174 then
    if t.type ∈ prefixAttrCodes then { a with pfx := mapInsert t.type t.value a.pfx } else unk
  else unk

/-- one TLV of the loop (attr_29_linkstate.rs 15-27). -/
def rdLsTlv : Rd Tlv16 := do
  let t ← rdU16
  let l ← rdU16
  let v ← rdN l.toNat
  pure ⟨t, v⟩

/-- `parse_link_state_attribute` (attr_29_linkstate.rs 12-84). The TLVs are read first and then classified; the
classification cannot fail. -/
def parseLsAttr (s : Bytes) : Except Err LsAttr :=
  match whileGe 4 rdLsTlv s with
  | .ok ts => .ok (ts.foldl LsAttr.add ⟨[], [], [], []⟩)
  | .error e => .error e

/-- `encode_link_state_attribute` (attr_29_linkstate.rs 436-467). -/
def encodeLsAttr (a : LsAttr) : Except EncErr Bytes :=
  encAll encTlv16 ((a.node ++ a.link ++ a.pfx).map (fun p => ⟨p.1, p.2⟩) ++ a.unknown)

/-! ### NLRI -/

/-- `NodeDescriptor` (linkstate.rs 187-193). -/
structure NodeDesc where
  asn : Option UInt32
  lsId : Option UInt32
  area : Option UInt32
  router : Option Bytes
  unknown : List Tlv16
deriving DecidableEq, Repr

/-- `LinkDescriptor` (linkstate.rs 199-207). -/
structure LinkDesc where
  ids : Option (UInt32 × UInt32)
  v4if : Option V4
  v4nb : Option V4
  v6if : Option V6
  v6nb : Option V6
  mt : Option UInt16
  unknown : List Tlv16
deriving DecidableEq, Repr

/-- `PrefixDescriptor` (linkstate.rs 213-218). -/
structure PrefixDesc where
  mt : Option UInt16
  routeType : Option UInt8
  reach : Option NetworkPrefix
  unknown : List Tlv16
deriving DecidableEq, Repr

/-- `LinkStateNlri` (linkstate.rs 223-231); `nlri_type` and `protocol_id` by discriminant. -/
structure LsNlri where
  type : UInt16
  proto : UInt8
  ident : UInt64
  loc : NodeDesc
  remote : Option NodeDesc
  link : Option LinkDesc
  pfx : Option PrefixDesc
deriving DecidableEq, Repr

/-- `NlriType::from(u16)`, `ProtocolId::from(u8)` (linkstate.rs 12-41). -/
def lsNlriType (t : UInt16) : UInt16 := if t.toNat ≤ 7 then t else 0
def lsProto (t : UInt8) : UInt8 := if t.toNat ≤ 9 then t else 0

/-- the descriptor sub-TLV loop shared by the three descriptor parsers (attr_29_linkstate.rs 195-203, 261-269,
329-337): a truncated sub-TLV ends the loop silently. -/
def descTlvsFuel : Nat → Bytes → List Tlv16
  | 0, _ => []
  | fuel + 1, s =>
    match s with
    | a :: b :: c :: d :: r =>
      let l := (u16of c d).toNat
      if r.length < l then [] else ⟨u16of a b, r.take l⟩ :: descTlvsFuel fuel (r.drop l)
    | _ => []

def descTlvs (s : Bytes) : List Tlv16 := descTlvsFuel s.length s

/-- the length-prefixed descriptor block (attr_29_linkstate.rs 177-193, 243-259, 311-327): absent when fewer than two
bytes remain. -/
def rdDescBlock : Rd (List Tlv16) := do
  let rem ← Rd.remaining
  if rem < 2 then pure [] else do
  let l ← rdU16
  let d ← rdN l.toNat
  pure (descTlvs d)

/-- a four-byte value, `Some(u32::from_be_bytes(..))` when the length is exactly four. -/
def be4? : Bytes → Option UInt32
  | [a, b, c, d] => some (u32of a b c d)
  | _ => none

def be2? : Bytes → Option UInt16
  | [a, b] => some (u16of a b)
  | _ => none

def vec? (n : Nat) (s : Bytes) : Option (Vector UInt8 n) := if h : s.length = n then some ⟨s.toArray, by simpa using h⟩ else none

/-- the `match` of `parse_node_descriptors` (attr_29_linkstate.rs 204-232). -/
def NodeDesc.add (d : NodeDesc) (t : Tlv16) : NodeDesc :=
  if t.type = 512 then { d with asn := (be4? t.value).orElse fun _ => d.asn }
  else if t.type = 513 then { d with lsId := (be4? t.value).orElse fun _ => d.lsId }
  else if t.type = 514 then { d with area := (be4? t.value).orElse fun _ => d.area }
  else if t.type = 515 then { d with router := some t.value }
  else { d with unknown := d.unknown ++ [t] }

/-- `parse_node_descriptors` (attr_29_linkstate.rs 173-237). -/
def rdNodeDesc : Rd NodeDesc := do
  let ts ← rdDescBlock
  pure (ts.foldl NodeDesc.add ⟨none, none, none, none, []⟩)

/-- the `match` of `parse_link_descriptors` (attr_29_linkstate.rs 271-304). -/
def LinkDesc.add (d : LinkDesc) (t : Tlv16) : LinkDesc :=
  if t.type = 258 then
    match t.value with
    | [a, b, c, e, f, g, h, i] => { d with ids := some (u32of a b c e, u32of f g h i) }
    | _ => d
  else if t.type = 259 then { d with v4if := (vec? 4 t.value).orElse fun _ => d.v4if }
  else if t.type = 260 then { d with v4nb := (vec? 4 t.value).orElse fun _ => d.v4nb }
  else if t.type = 261 then { d with v6if := (vec? 16 t.value).orElse fun _ => d.v6if }
  else if t.type = 262 then { d with v6nb := (vec? 16 t.value).orElse fun _ => d.v6nb }
  else if t.type = 263 then { d with mt := (be2? t.value).orElse fun _ => d.mt }
  else { d with unknown := d.unknown ++ [t] }

/-- `parse_link_descriptors` (attr_29_linkstate.rs 239-309). -/
def rdLinkDesc : Rd LinkDesc := do
  let ts ← rdDescBlock
  pure (ts.foldl LinkDesc.add ⟨none, none, none, none, none, none, []⟩)

/-- `parse_ip_prefix_from_bytes` (attr_29_linkstate.rs 374-433). -/
def lsIpPrefix : Bytes → Option NetworkPrefix
  | [] => none
  | len :: addr =>
    if addr.length < byteLen len then none
    else if len.toNat ≤ 32 then
      (IpNet.new? (.v4 (padVec 4 (addr.take (min (byteLen len) 4)))) len).map fun p => ⟨p, none⟩
    else (IpNet.new? (.v6 (padVec 16 (addr.take (min (byteLen len) 16)))) len).map fun p => ⟨p, none⟩

/-- the `match` of `parse_prefix_descriptors` (attr_29_linkstate.rs 339-366). -/
def PrefixDesc.add (d : PrefixDesc) (t : Tlv16) : PrefixDesc :=
  if t.type = 263 then { d with mt := (be2? t.value).orElse fun _ => d.mt }
  else if t.type = 264 then
    match t.value with
    | [a] => { d with routeType := some a }
    | _ => d
  else if t.type = 265 then { d with reach := (lsIpPrefix t.value).orElse fun _ => d.reach }
  else { d with unknown := d.unknown ++ [t] }

/-- `parse_prefix_descriptors` (attr_29_linkstate.rs 311-371). -/
def rdPrefixDesc : Rd PrefixDesc := do
  let ts ← rdDescBlock
  pure (ts.foldl PrefixDesc.add ⟨none, none, none, []⟩)

/-- `parse_single_link_state_nlri` (attr_29_linkstate.rs 123-171). -/
def rdLsNlri (t : UInt16) : Rd LsNlri := do
  let rem ← Rd.remaining
  if rem < 9 then Rd.fail .truncated else do
  let pr ← rdU8
  let id ← rdU64
  let l ← rdNodeDesc
  if lsNlriType t = 2 then do
    let r ← rdNodeDesc
    let k ← rdLinkDesc
    pure ⟨lsNlriType t, lsProto pr, id, l, some r, some k, none⟩
  else if lsNlriType t = 3 ∨ lsNlriType t = 4 then do
    let p ← rdPrefixDesc
    pure ⟨lsNlriType t, lsProto pr, id, l, none, none, some p⟩
  else pure ⟨lsNlriType t, lsProto pr, id, l, none, none, none⟩

/-- one round of `parse_link_state_nlri` (attr_29_linkstate.rs 97-111). -/
def rdLsEntry : Rd LsNlri := do
  let t ← rdU16
  let l ← rdU16
  let d ← rdN l.toNat
  Rd.lift ((rdLsNlri t).runOn d)

/-- `parse_link_state_nlri` (attr_29_linkstate.rs 87-121): the list of entries; trailing bytes (fewer than four) are
dropped. -/
def parseLsNlri (s : Bytes) : Except Err (List LsNlri) := whileGe 4 rdLsEntry s

end Verif
