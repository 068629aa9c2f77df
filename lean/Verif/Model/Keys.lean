import Verif.Model.Bmp
import Verif.Model.Capability
import Verif.Model.Display
/-
Equality, order and hash of values with floating-point fields, attribute types and AS numbers, as implemented by hand in the
code. Here a `f64` is its bit pattern: all of them, with NaN, infinities and signed zeros (F64.lean is about the numbers only).
-/
namespace Verif

/-! ### doubles -/

/-- the bits of a `f64` without the sign. -/
def f64Mag (b : UInt64) : Nat := b.toNat % 2 ^ 63

/-- `f64::is_nan`: all bits of the exponent set and one of the fraction. -/
def f64IsNan (b : UInt64) : Bool := decide (2047 * 2 ^ 52 < f64Mag b)

/-- `==` on `f64` (IEEE 754: NaN equals nothing, the two zeros are equal). -/
def f64BitsEq (a b : UInt64) : Bool :=
  !f64IsNan a && !f64IsNan b && (a == b || (f64Mag a == 0 && f64Mag b == 0))

/-- the bits as an integer that is ordered as the numbers are. -/
def f64Key (b : UInt64) : Int := if 2 ^ 63 ≤ b.toNat then - (f64Mag b : Int) else (f64Mag b : Int)

/-- `f64::partial_cmp`. -/
def f64PartialCmp (a b : UInt64) : Option Ordering :=
  if f64IsNan a || f64IsNan b then none
  else some (if f64Key a < f64Key b then .lt else if f64Key b < f64Key a then .gt else .eq)

/-! ### BMP per-peer headers -/

/-- `BmpPerPeerHeader` (src/parser/bmp/messages/headers.rs 113-121) with the width of the AS number and the bits of the time. -/
structure PeerKey where
  peerType : BmpPeerType
  flags : PerPeerFlags
  distinguisher : UInt64
  ip : Ip
  asn : AsnRaw
  bgpId : V4
  stamp : UInt64

/-- `PartialEq for BmpPerPeerHeader` (headers.rs 136-146). -/
def PeerKey.eq (a b : PeerKey) : Bool :=
  a.peerType == b.peerType && a.flags == b.flags && a.distinguisher == b.distinguisher && a.ip == b.ip &&
    a.asn.eq b.asn && a.bgpId == b.bgpId && f64BitsEq a.stamp b.stamp

/-- What a header feeds to the hasher (`Hash for BmpPerPeerHeader`, headers.rs 150-160), field by field. Only the AS number and
the time are not fed as they are. -/
structure PeerFeed where
  peerType : BmpPeerType
  flags : PerPeerFlags
  distinguisher : UInt64
  ip : Ip
  asn : UInt32
  bgpId : V4
  stamp : UInt64
deriving DecidableEq

/-- `BmpPerPeerHeader::hash` (headers.rs 150-160). -/
def PeerKey.hash (a : PeerKey) : PeerFeed :=
  ⟨a.peerType, a.flags, a.distinguisher, a.ip, a.asn.hashFeed, a.bgpId, a.stamp⟩

/-- `BmpPerPeerHeader::strip_timestamp` (headers.rs 173-178). -/
def PeerKey.strip (a : PeerKey) : PeerKey := { a with stamp := 0 }

/-! ### elements -/

/-- `Ord for BgpElem` and for `BgpRouteElem` (src/models/bgp/elem.rs 203-219) on time and peer address; `none` is the panic
of `unwrap`. -/
def elemCmpBits (a b : UInt64 × Ip) : Option Ordering := (f64PartialCmp a.1 b.1).map fun o => o.then (a.2.cmp b.2)

/-! ### attribute types -/

/-- `AttrType` (src/models/bgp/attributes/mod.rs 65-108): a named variant, by its number, or `Unknown`. -/
inductive AttrType where
  | named (c : UInt8) (h : c ∈ knownAttrCodes)
  | unknown (c : UInt8)
deriving DecidableEq

/-- `AttrType::from(u8)` (`FromPrimitive` with `catch_all`, mod.rs 61, 103-107). -/
def AttrType.ofU8 (c : UInt8) : AttrType := if h : c ∈ knownAttrCodes then .named c h else .unknown c

/-- `u8::from(AttrType)` (`IntoPrimitive`): the payload of the catch-all variant. -/
def AttrType.toU8 : AttrType → UInt8
  | .named c _ => c
  | .unknown c => c

/-- `Ord for AttrType` (mod.rs 117-121). -/
def AttrType.cmp (a b : AttrType) : Ordering := compare a.toU8.toNat b.toU8.toNat

/-! ### AS numbers -/

/-- `Asn::from(u32)` (src/models/network/asn.rs 184-189). -/
def AsnRaw.ofU32 (n : UInt32) : AsnRaw := ⟨n, true⟩
/-- `Asn::from(i32)` (asn.rs 212-217). -/
def AsnRaw.ofI32 (n : Int32) : AsnRaw := ⟨n.toUInt32, true⟩
/-- `Asn::from(u16)` (asn.rs 240-245). -/
def AsnRaw.ofU16 (n : UInt16) : AsnRaw := ⟨n.toUInt32, false⟩
/-- `u32::from(Asn)` (asn.rs 191-203). -/
def AsnRaw.toU32 (a : AsnRaw) : UInt32 := a.asn
/-- `i32::from(Asn)` (asn.rs 219-231). -/
def AsnRaw.toI32 (a : AsnRaw) : Int32 := a.asn.toInt32
/-- `u16::from(Asn)` (asn.rs 247-259). -/
def AsnRaw.toU16 (a : AsnRaw) : UInt16 := a.asn.toUInt16
/-- `Asn == u32` (asn.rs 177-182). -/
def AsnRaw.eqU32 (a : AsnRaw) (n : UInt32) : Bool := a.asn == n
/-- `Asn == i32` (asn.rs 205-210). -/
def AsnRaw.eqI32 (a : AsnRaw) (n : Int32) : Bool := a.asn == n.toUInt32
/-- `Asn == u16` (asn.rs 233-238). -/
def AsnRaw.eqU16 (a : AsnRaw) (n : UInt16) : Bool := a.asn == n.toUInt32

/-- `Asn::encode` (asn.rs 287-296). -/
def AsnRaw.encode (a : AsnRaw) : Bytes := if a.fourByte then be32 a.asn else be16 a.asn.toUInt16

end Verif
