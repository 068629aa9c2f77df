import Verif.Model.Community
import Verif.Model.AsPath
/-
Codecs of the individual path attribute values (`/repo/src/parser/bgp/attributes/attr_*.rs`) and the length-prefix
helpers of `/repo/src/encoder/sink.rs`.
-/
namespace Verif

/-! ### length prefixes -/

/-- `with_u8_len` / `put_u8_len_slice` (src/encoder/sink.rs 18-31, 54-66) applied to an already encoded payload. The
bytes left in the caller's buffer on failure are not modelled: every caller drops the buffer. -/
def u8Len (b : Bytes) : Except EncErr Bytes :=
  match checkMax b.length 255 with
  | .ok _ => .ok (UInt8.ofNat b.length :: b)
  | .error e => .error e

/-- `with_u16_len` / `put_u16_len_slice` (src/encoder/sink.rs 38-51, 72-84). -/
def u16Len (b : Bytes) : Except EncErr Bytes :=
  match checkMax b.length 65535 with
  | .ok _ => .ok (be16 (UInt16.ofNat b.length) ++ b)
  | .error e => .error e

/-- `for x in xs { f(x, buf)?; }` -/
def encAll (f : α → Except EncErr Bytes) : List α → Except EncErr Bytes
  | [] => .ok []
  | x :: xs =>
    match f x with
    | .error e => .error e
    | .ok b =>
      match encAll f xs with
      | .error e => .error e
      | .ok bs => .ok (b ++ bs)

/-- `while data.remaining() >= n { out.push(p(&mut data)?) }`, the rest being dropped. Fuel as in `many`. -/
def whileGeFuel (n : Nat) (p : Rd α) : Nat → Bytes → Except Err (List α)
  | 0, s => if s.length < n then .ok [] else .error .panic
  | fuel + 1, s =>
    if s.length < n then .ok []
    else match p s with
      | .error e => .error e
      | .ok (a, r) =>
        match whileGeFuel n p fuel r with
        | .error e => .error e
        | .ok as => .ok (a :: as)

def whileGe (n : Nat) (p : Rd α) (s : Bytes) : Except Err (List α) := whileGeFuel n p s.length s

/-! ### fixed-format values -/

/-- `Origin` (src/models/bgp/attributes/origin.rs 9-16). -/
inductive Origin where
  | igp | egp | incomplete
deriving DecidableEq, Repr

/-- `Origin as u8`. -/
def Origin.toU8 : Origin → UInt8
  | .igp => 0
  | .egp => 1
  | .incomplete => 2

/-- `parse_origin` (attr_01_origin.rs 7-14); bytes after the first are ignored. -/
def parseOrigin (s : Bytes) : Except Err Origin :=
  match rdU8 s with
  | .error e => .error e
  | .ok (b, _) =>
    if b = 0 then .ok .igp else if b = 1 then .ok .egp else if b = 2 then .ok .incomplete else .error .parse

/-- `parse_next_hop` (attr_03_next_hop.rs 7-15); bytes after the address are ignored. -/
def parseNextHop (afi : Option Afi) (s : Bytes) : Except Err Ip := (rdAddr (afi.getD .ipv4)).runOn s

/-- `parse_med`, `parse_local_pref`, `parse_only_to_customer` (attr_04_med.rs 6-8, attr_05_local_pref.rs 6-8,
attr_35_otc.rs 22-25): one `u32`, further bytes ignored. -/
def parseU32Attr (s : Bytes) : Except Err UInt32 := rdU32.runOn s

/-- `parse_aggregator` (attr_07_18_aggregator.rs 20-45): the width follows the attribute length; a mismatch with the
session's width is only logged. -/
def parseAggregator (s : Bytes) : Except Err (Asn × V4) :=
  if s.length = 8 then (do let a ← rdAsn .b32; let i ← rdV4; pure (a, i) : Rd (Asn × V4)).runOn s
  else if s.length = 6 then (do let a ← rdAsn .b16; let i ← rdV4; pure (a, i) : Rd (Asn × V4)).runOn s
  else .error .parse

/-- `encode_aggregator` (attr_07_18_aggregator.rs 47-75); `BgpIdentifier` is an `Ipv4Addr`, so the `V6` arm is not
reachable from an attribute. -/
def encodeAggregator (l : AsnLen) (a : Asn) (id : V4) : Except EncErr Bytes :=
  match l with
  | .b32 => .ok (be32 a ++ id.toList)
  | .b16 =>
    match checkMax a.toNat 65535 with
    | .ok _ => .ok (be16 a.toUInt16 ++ id.toList)
    | .error e => .error e

/-- `parse_originator_id` (attr_09_originator.rs 7-14). -/
def parseOriginatorId (s : Bytes) : Except Err V4 :=
  if s.length ≠ 4 then .error .parse else rdV4.runOn s

/-- `parse_clusters` (attr_10_13_cluster.rs 7-13). -/
def parseClusters (s : Bytes) : Except Err (List UInt32) := many rdU32 s

/-- `encode_clusters` (attr_10_13_cluster.rs 15-21). -/
def encodeClusters (cs : List UInt32) : Bytes := cs.flatMap be32

/-- `TrafficEngineering` (src/models/bgp/attributes/mod.rs 592-624); `f32` by bit pattern, as `PartialEq` compares
them. -/
structure TrafficEng where
  switchCap : UInt8
  encoding : UInt8
  reserved : UInt16
  bandwidth : Vector UInt32 8
  specific : Bytes
deriving DecidableEq, Repr

/-- `parse_traffic_engineering` (attr_24_traffic_engineering.rs 15-48). -/
def parseTrafficEng (s : Bytes) : Except Err TrafficEng :=
  if s.length < 36 then .error .truncated
  else (do
    let sc ← rdU8
    let en ← rdU8
    let rs ← rdU16
    let b0 ← rdU32
    let b1 ← rdU32
    let b2 ← rdU32
    let b3 ← rdU32
    let b4 ← rdU32
    let b5 ← rdU32
    let b6 ← rdU32
    let b7 ← rdU32
    let rest ← Rd.peek
    pure ⟨sc, en, rs, #v[b0, b1, b2, b3, b4, b5, b6, b7], rest⟩ : Rd TrafficEng).runOn s

/-- `encode_traffic_engineering` (attr_24_traffic_engineering.rs 55-70). -/
def encodeTrafficEng (t : TrafficEng) : Bytes :=
  t.switchCap :: t.encoding :: (be16 t.reserved ++ (t.bandwidth.toList.flatMap be32 ++ t.specific))

/-! ### TLV lists -/

/-- A TLV (`RawTlv8`, `RawTlv8Ext`, `RawTlv16`, link-state `Tlv`: src/models/bgp/attributes/mod.rs 573-590,
src/models/bgp/linkstate.rs 166-170). One-octet types are the values below 256. -/
structure Tlv8 where
  type : UInt8
  value : Bytes
deriving DecidableEq, Repr

structure Tlv16 where
  type : UInt16
  value : Bytes
deriving DecidableEq, Repr

/-- One round of `parse_sfp` / `parse_bgp_prefix_sid` (attr_37_sfp.rs 11-26, attr_40_bgp_prefix_sid.rs 11-26). -/
def rdTlv8Ext : Rd Tlv8 := do
  let rem ← Rd.remaining
  if rem < 3 then Rd.fail .truncated else do
  let t ← rdU8
  let l ← rdU16
  let rem ← Rd.remaining
  if rem < l.toNat then Rd.fail .truncated else do
  let v ← splitTo l.toNat
  pure ⟨t, v⟩

/-- `parse_sfp`, `parse_bgp_prefix_sid` (attr_37_sfp.rs 8-30, attr_40_bgp_prefix_sid.rs 8-30). -/
def parseTlv8Ext (s : Bytes) : Except Err (List Tlv8) := many rdTlv8Ext s

/-- One round of `encode_sfp` / `encode_bgp_prefix_sid` (attr_37_sfp.rs 33-36, attr_40_bgp_prefix_sid.rs 36-39). -/
def encTlv8Ext (t : Tlv8) : Except EncErr Bytes :=
  match u16Len t.value with
  | .ok b => .ok (t.type :: b)
  | .error e => .error e

/-- `encode_sfp`, `encode_bgp_prefix_sid`. -/
def encodeTlv8Ext (ts : List Tlv8) : Except EncErr Bytes := encAll encTlv8Ext ts

/-- One round of the loop of `parse_bfd_discriminator` (attr_38_bfd_discriminator.rs 19-34). -/
def rdTlv8 : Rd Tlv8 := do
  let rem ← Rd.remaining
  if rem < 2 then Rd.fail .truncated else do
  let t ← rdU8
  let l ← rdU8
  let rem ← Rd.remaining
  if rem < l.toNat then Rd.fail .truncated else do
  let v ← splitTo l.toNat
  pure ⟨t, v⟩

/-- `BfdDiscriminatorAttribute` (src/models/bgp/attributes/mod.rs 549-555). -/
structure Bfd where
  mode : UInt8
  disc : UInt32
  tlvs : List Tlv8
deriving DecidableEq, Repr

/-- `parse_bfd_discriminator` (attr_38_bfd_discriminator.rs 8-43). -/
def parseBfd (s : Bytes) : Except Err Bfd :=
  if s.length < 5 then .error .truncated
  else match (do let m ← rdU8; let d ← rdU32; pure (m, d) : Rd (UInt8 × UInt32)) s with
    | .error e => .error e
    | .ok ((m, d), r) =>
      match many rdTlv8 r with
      | .error e => .error e
      | .ok ts => .ok ⟨m, d, ts⟩

/-- One round of the loop of `encode_bfd_discriminator` (attr_38_bfd_discriminator.rs 51-54). -/
def encTlv8 (t : Tlv8) : Except EncErr Bytes :=
  match u8Len t.value with
  | .ok b => .ok (t.type :: b)
  | .error e => .error e

/-- `encode_bfd_discriminator` (attr_38_bfd_discriminator.rs 45-56). -/
def encodeBfd (b : Bfd) : Except EncErr Bytes :=
  match encAll encTlv8 b.tlvs with
  | .ok bs => .ok (b.mode :: (be32 b.disc ++ bs))
  | .error e => .error e

/-- One round of `parse_bier` (attr_41_bier.rs 11-26). -/
def rdTlv16 : Rd Tlv16 := do
  let rem ← Rd.remaining
  if rem < 4 then Rd.fail .truncated else do
  let t ← rdU16
  let l ← rdU16
  let rem ← Rd.remaining
  if rem < l.toNat then Rd.fail .truncated else do
  let v ← splitTo l.toNat
  pure ⟨t, v⟩

/-- `parse_bier` (attr_41_bier.rs 8-30). -/
def parseBier (s : Bytes) : Except Err (List Tlv16) := many rdTlv16 s

/-- One round of `encode_bier` (attr_41_bier.rs 33-36) and of `encode_link_state_attribute`
(attr_29_linkstate.rs 455-464). -/
def encTlv16 (t : Tlv16) : Except EncErr Bytes :=
  match u16Len t.value with
  | .ok b => .ok (be16 t.type ++ b)
  | .error e => .error e

/-- `encode_bier` (attr_41_bier.rs 32-38). -/
def encodeBier (ts : List Tlv16) : Except EncErr Bytes := encAll encTlv16 ts

/-- `AigpTlv` (src/models/bgp/attributes/mod.rs 540-546). -/
structure AigpTlv where
  type : UInt8
  length : UInt16
  value : Bytes
deriving DecidableEq, Repr

/-- One round of `parse_aigp` (attr_26_aigp.rs 10-36). -/
def rdAigp : Rd AigpTlv := do
  let rem ← Rd.remaining
  if rem < 3 then Rd.fail .truncated else do
  let t ← rdU8
  let l ← rdU16
  if l.toNat < 3 then Rd.fail .parse else do
  let rem ← Rd.remaining
  if rem < l.toNat - 3 then Rd.fail .truncated else do
  let v ← splitTo (l.toNat - 3)
  pure ⟨t, l, v⟩

/-- `parse_aigp` (attr_26_aigp.rs 7-39). -/
def parseAigp (s : Bytes) : Except Err (List AigpTlv) := many rdAigp s

/-- One round of `encode_aigp` (attr_26_aigp.rs 43-53); `as u16` truncates. -/
def encAigp (t : AigpTlv) : Bytes :=
  let len := if t.length.toNat = t.value.length + 3 then t.length else UInt16.ofNat (t.value.length + 3)
  t.type :: (be16 len ++ t.value)

/-- `encode_aigp` (attr_26_aigp.rs 41-55). -/
def encodeAigp (ts : List AigpTlv) : Bytes := ts.flatMap encAigp

/-- `Aigp::accumulated_metric` (src/models/bgp/attributes/mod.rs 559-581). -/
def aigpMetric (ts : List AigpTlv) : Option UInt64 :=
  match ts.find? (fun t => t.type == 1) with
  | none => none
  | some t =>
    match rdU64 t.value with
    | .ok (v, _) => some v
    | .error _ => none

/-! ### tunnel encapsulation -/

/-- `TunnelType::from(u16)` followed by `as u16` (src/models/bgp/tunnel_encap.rs 7-57): the enum is represented by its
discriminant, 0 to 22; everything else becomes `Reserved`. -/
def tunnelType (t : UInt16) : UInt16 := if t.toNat ≤ 22 then t else 0

/-- `SubTlvType::from(u16)` followed by `as u16` (tunnel_encap.rs 60-108): discriminants 0-20, 128, 129. -/
def subTlvType (t : UInt8) : UInt8 := if t.toNat ≤ 20 ∨ t = 128 ∨ t = 129 then t else 0

/-- `TunnelEncapTlv` (tunnel_encap.rs 129-132) with its `SubTlv`s (113-116). -/
structure TunnelTlv where
  type : UInt16
  subs : List Tlv8
deriving DecidableEq, Repr

/-- One round of `parse_tunnel_tlv` (attr_23_tunnel_encap.rs 40-78). -/
def rdSubTlv : Rd Tlv8 := do
  let rem ← Rd.remaining
  if rem < 2 then Rd.fail .truncated else do
  let t ← rdU8
  let l ← (if t.toNat < 128 then do let x ← rdU8; pure x.toNat else do let x ← rdU16; pure x.toNat : Rd Nat)
  let v ← rdN l
  pure ⟨subTlvType t, v⟩

/-- One round of `parse_tunnel_encapsulation_attribute` (attr_23_tunnel_encap.rs 16-31). -/
def rdTunnelTlv : Rd TunnelTlv := do
  let t ← rdU16
  let l ← rdU16
  let d ← rdN l.toNat
  let subs ← Rd.lift (many rdSubTlv d)
  pure ⟨tunnelType t, subs⟩

/-- `parse_tunnel_encapsulation_attribute` (attr_23_tunnel_encap.rs 11-34). -/
def parseTunnel (s : Bytes) : Except Err (List TunnelTlv) := whileGe 4 rdTunnelTlv s

/-- One sub-TLV (attr_23_tunnel_encap.rs 95-106). -/
def encSubTlv (t : Tlv8) : Except EncErr Bytes :=
  match (if t.type.toNat < 128 then u8Len t.value else u16Len t.value) with
  | .ok b => .ok (t.type :: b)
  | .error e => .error e

/-- One tunnel TLV (attr_23_tunnel_encap.rs 88-109). -/
def encTunnelTlv (t : TunnelTlv) : Except EncErr Bytes :=
  match encAll encSubTlv t.subs with
  | .error e => .error e
  | .ok b =>
    match u16Len b with
    | .error e => .error e
    | .ok b => .ok (be16 t.type ++ b)

/-- `encode_tunnel_encapsulation_attribute` (attr_23_tunnel_encap.rs 83-112). -/
def encodeTunnel (ts : List TunnelTlv) : Except EncErr Bytes := encAll encTunnelTlv ts

end Verif
