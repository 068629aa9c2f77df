import Verif.Model.Net
/-
Standard, extended, IPv6 extended and large communities
(`/repo/src/models/bgp/community.rs`, `/repo/src/parser/bgp/attributes/attr_08_communities.rs`,
`attr_16_25_extended_communities.rs`, `attr_32_large_communities.rs`).
-/
namespace Verif

/-- `Community` (src/models/bgp/community.rs 16-24). -/
inductive Community where
  | noExport | noAdvertise | noExportSubConfed
  | custom (asn : Asn) (value : UInt16)
deriving DecidableEq, Repr

/-- One round of `parse_regular_communities` (attr_08_communities.rs 14-26). -/
def rdCommunity : Rd Community := do
  let v ← rdU32
  if v = 0xFFFFFF01 then pure .noExport
  else if v = 0xFFFFFF02 then pure .noAdvertise
  else if v = 0xFFFFFF03 then pure .noExportSubConfed
  else pure (.custom (UInt32.ofNat (v.toNat / 65536)) (UInt16.ofNat v.toNat))

/-- `parse_regular_communities` (attr_08_communities.rs 10-29). -/
def parseCommunities (s : Bytes) : Except Err (List Community) := many rdCommunity s

/-- One round of `encode_regular_communities` (attr_08_communities.rs 35-45); `u16::from(&Asn)` truncates. -/
def encCommunity : Community → Bytes
  | .noExport => be32 0xFFFFFF01
  | .noAdvertise => be32 0xFFFFFF02
  | .noExportSubConfed => be32 0xFFFFFF03
  | .custom a v => be16 a.toUInt16 ++ be16 v

/-- `encode_regular_communities` (attr_08_communities.rs 31-49). -/
def encodeCommunities (cs : List Community) : Bytes := cs.flatMap encCommunity

/-- `LargeCommunity` (src/models/bgp/community.rs 34-37). -/
structure LargeCommunity where
  globalAdmin : UInt32
  local1 : UInt32
  local2 : UInt32
deriving DecidableEq, Repr

/-- One round of `parse_large_communities` (attr_32_large_communities.rs 11-15). -/
def rdLarge : Rd LargeCommunity := do
  let g ← rdU32
  let a ← rdU32
  let b ← rdU32
  pure ⟨g, a, b⟩

/-- The `debug_assert!(communities.len() == num_communities)` of the fixed-width community parsers: a panic in a debug
build when the number of parsed items is not `remaining / width`. -/
def assertCount (width : Nat) (s : Bytes) (r : Except Err (List α)) : Except Err (List α) :=
  match r with
  | .ok l => if l.length = s.length / width then .ok l else .error .panic
  | .error e => .error e

/-- `parse_large_communities` (attr_32_large_communities.rs 6-19). -/
def parseLargeCommunities (s : Bytes) : Except Err (List LargeCommunity) := assertCount 12 s (many rdLarge s)

/-- One round of `encode_large_communities` (attr_32_large_communities.rs 24-28). -/
def encLarge (c : LargeCommunity) : Bytes := be32 c.globalAdmin ++ be32 c.local1 ++ be32 c.local2

/-- `encode_large_communities` (attr_32_large_communities.rs 21-32). -/
def encodeLargeCommunities (cs : List LargeCommunity) : Bytes := cs.flatMap encLarge

/-- a byte in front of an array. -/
def vcons {n : Nat} (a : UInt8) (v : Vector UInt8 n) : Vector UInt8 (n + 1) := ⟨(a :: v.toList).toArray, by simp⟩

/-- `ExtendedCommunityType` (src/models/bgp/community.rs 53-68). -/
inductive ExtType where
  | twoOctetAs | ipv4Addr | fourOctetAs | opaq
  | ntTwoOctetAs | ntIpv4Addr | ntFourOctetAs | ntOpaque
  | unknown (code : UInt8)
deriving DecidableEq, Repr

/-- `u8::from(ExtendedCommunityType)` (`IntoPrimitive`, community.rs 49-68). -/
def ExtType.toU8 : ExtType → UInt8
  | .twoOctetAs => 0x00
  | .ipv4Addr => 0x01
  | .fourOctetAs => 0x02
  | .opaq => 0x03
  | .ntTwoOctetAs => 0x40
  | .ntIpv4Addr => 0x41
  | .ntFourOctetAs => 0x42
  | .ntOpaque => 0x43
  | .unknown c => c

/-- `ExtendedCommunityType::from(u8)` (`FromPrimitive` with catch-all, community.rs 49-68). -/
def ExtType.ofU8 (x : UInt8) : ExtType :=
  if x = 0x00 then .twoOctetAs else if x = 0x01 then .ipv4Addr else if x = 0x02 then .fourOctetAs
  else if x = 0x03 then .opaq else if x = 0x40 then .ntTwoOctetAs else if x = 0x41 then .ntIpv4Addr
  else if x = 0x42 then .ntFourOctetAs else if x = 0x43 then .ntOpaque else .unknown x

/-- `ExtendedCommunity` (src/models/bgp/community.rs 100-120 and the payload structs 165-289). `f32` fields are
modelled by their bit pattern: equality compares `to_bits` (231-237, 254-259), parsing uses `from_bits` and encoding
`put_f32`, i.e. `to_bits`. -/
inductive ExtCommunity where
  | twoOctetAs (subtype : UInt8) (asn : Asn) (loc : Vector UInt8 4)
  | ipv4Addr (subtype : UInt8) (addr : V4) (loc : Vector UInt8 2)
  | fourOctetAs (subtype : UInt8) (asn : Asn) (loc : Vector UInt8 2)
  | opaq (subtype : UInt8) (value : Vector UInt8 6)
  | ntTwoOctetAs (subtype : UInt8) (asn : Asn) (loc : Vector UInt8 4)
  | ntIpv4Addr (subtype : UInt8) (addr : V4) (loc : Vector UInt8 2)
  | ntFourOctetAs (subtype : UInt8) (asn : Asn) (loc : Vector UInt8 2)
  | ntOpaque (subtype : UInt8) (value : Vector UInt8 6)
  | trafficRate (asn : UInt16) (rateBits : UInt32)
  | trafficAction (asn : UInt16) (terminal sample : Bool)
  | redirect (subtype : UInt8) (asn : Asn) (loc : Vector UInt8 4)
  | trafficMarking (asn : UInt16) (dscp : UInt8)
  | linkBandwidth (globalAdmin : UInt16) (bwBits : UInt32) (transitive : Bool)
  | raw (bytes : Vector UInt8 8)
deriving DecidableEq, Repr

/-- `ExtendedCommunity::community_type` (src/models/bgp/community.rs 122-148). -/
def ExtCommunity.type : ExtCommunity → ExtType
  | .twoOctetAs .. => .twoOctetAs
  | .ipv4Addr .. => .ipv4Addr
  | .fourOctetAs .. => .fourOctetAs
  | .opaq .. => .opaq
  | .ntTwoOctetAs .. => .ntTwoOctetAs
  | .ntIpv4Addr .. => .ntIpv4Addr
  | .ntFourOctetAs .. => .ntFourOctetAs
  | .ntOpaque .. => .ntOpaque
  | .trafficRate .. => .ntTwoOctetAs
  | .trafficAction .. => .ntTwoOctetAs
  | .redirect .. => .ntTwoOctetAs
  | .trafficMarking .. => .ntTwoOctetAs
  | .linkBandwidth _ _ t => if t then .twoOctetAs else .ntTwoOctetAs
  | .raw b => .unknown b[0]

/-- The transitive two-octet-AS arm (attr_16_25_extended_communities.rs 22-48). -/
def rdExtTwoOctetAs : Rd ExtCommunity := do
  let st ← rdU8
  if st = 0x04 then do
    let g ← rdU16
    let b ← rdU32
    pure (.linkBandwidth g b true)
  else do
    let g ← rdU16
    let l ← rdVec 4
    pure (.twoOctetAs st g.toUInt32 l)

/-- The non-transitive two-octet-AS arm (attr_16_25_extended_communities.rs 49-115). `FlowSpecTrafficMarking::new`
masks the DSCP to six bits (community.rs 320-328). -/
def rdExtNtTwoOctetAs : Rd ExtCommunity := do
  let st ← rdU8
  if st = 0x04 then do
    let g ← rdU16
    let b ← rdU32
    pure (.linkBandwidth g b false)
  else if st = 0x06 then do
    let a ← rdU16
    let r ← rdU32
    pure (.trafficRate a r)
  else if st = 0x07 then do
    let a ← rdU16
    let f ← rdU32
    pure (.trafficAction a (f &&& 0x01 != 0) (f &&& 0x02 != 0))
  else if st = 0x08 then do
    let g ← rdU16
    let l ← rdVec 4
    pure (.redirect st g.toUInt32 l)
  else if st = 0x09 then do
    let a ← rdU16
    let d ← rdU8
    let _ ← rdU8
    let _ ← rdU16
    pure (.trafficMarking a (d &&& 0x3F))
  else do
    let g ← rdU16
    let l ← rdVec 4
    pure (.ntTwoOctetAs st g.toUInt32 l)

/-- One round of `parse_extended_community` (attr_16_25_extended_communities.rs 19-190). `Ipv4Addr::from(read_u32)` is
four octets in network order. -/
def rdExt : Rd ExtCommunity := do
  let t ← rdU8
  match ExtType.ofU8 t with
  | .twoOctetAs => rdExtTwoOctetAs
  | .ntTwoOctetAs => rdExtNtTwoOctetAs
  | .ipv4Addr => do
    let st ← rdU8
    let g ← rdVec 4
    let l ← rdVec 2
    pure (.ipv4Addr st g l)
  | .ntIpv4Addr => do
    let st ← rdU8
    let g ← rdVec 4
    let l ← rdVec 2
    pure (.ntIpv4Addr st g l)
  | .fourOctetAs => do
    let st ← rdU8
    let g ← rdU32
    let l ← rdVec 2
    pure (.fourOctetAs st g l)
  | .ntFourOctetAs => do
    let st ← rdU8
    let g ← rdU32
    let l ← rdVec 2
    pure (.ntFourOctetAs st g l)
  | .opaq => do
    let st ← rdU8
    let v ← rdVec 6
    pure (.opaq st v)
  | .ntOpaque => do
    let st ← rdU8
    let v ← rdVec 6
    pure (.ntOpaque st v)
  | .unknown _ => do
    let rest ← rdVec 7
    pure (.raw (vcons t rest))

/-- `parse_extended_community` (attr_16_25_extended_communities.rs 13-194). -/
def parseExtCommunities (s : Bytes) : Except Err (List ExtCommunity) := assertCount 8 s (many rdExt s)

/-- the flags word of a traffic action (attr_16_25_extended_communities.rs 270-276). -/
def actionFlags (terminal sample : Bool) : UInt32 :=
  (if terminal then 0x01 else 0) ||| (if sample then 0x02 else 0)

/-- One round of `encode_extended_communities` (attr_16_25_extended_communities.rs 227-303). -/
def encExt (c : ExtCommunity) : Bytes :=
  match c with
  | .twoOctetAs st a l | .ntTwoOctetAs st a l => c.type.toU8 :: st :: (be16 a.toUInt16 ++ l.toList)
  | .ipv4Addr st a l | .ntIpv4Addr st a l => c.type.toU8 :: st :: (a.toList ++ l.toList)
  | .fourOctetAs st a l | .ntFourOctetAs st a l => c.type.toU8 :: st :: (be32 a ++ l.toList)
  | .opaq st v | .ntOpaque st v => c.type.toU8 :: st :: v.toList
  | .trafficRate a r => c.type.toU8 :: 0x06 :: (be16 a ++ be32 r)
  | .trafficAction a t s => c.type.toU8 :: 0x07 :: (be16 a ++ be32 (actionFlags t s))
  | .redirect _ a l => c.type.toU8 :: 0x08 :: (be16 a.toUInt16 ++ l.toList)
  | .trafficMarking a d => c.type.toU8 :: 0x09 :: (be16 a ++ (d :: 0 :: be16 0))
  | .linkBandwidth g b _ => c.type.toU8 :: 0x04 :: (be16 g ++ be32 b)
  | .raw b => b.toList

/-- `encode_extended_communities` (attr_16_25_extended_communities.rs 223-307); its `debug_assert` on the length holds
because every case writes eight bytes (`length_encExt`). -/
def encodeExtCommunities (cs : List ExtCommunity) : Bytes := cs.flatMap encExt

/-- `Ipv6AddrExtCommunity` (src/models/bgp/community.rs 153-160). -/
structure Ipv6ExtCommunity where
  type : ExtType
  subtype : UInt8
  addr : V6
  loc : Vector UInt8 2
deriving DecidableEq, Repr

/-- One round of `parse_ipv6_extended_community` (attr_16_25_extended_communities.rs 201-215). -/
def rdIpv6Ext : Rd Ipv6ExtCommunity := do
  let t ← rdU8
  let st ← rdU8
  let g ← rdV6
  let a ← rdU8
  let b ← rdU8
  pure ⟨ExtType.ofU8 t, st, g, #v[a, b]⟩

/-- `parse_ipv6_extended_community` (attr_16_25_extended_communities.rs 196-221). -/
def parseIpv6ExtCommunities (s : Bytes) : Except Err (List Ipv6ExtCommunity) := assertCount 20 s (many rdIpv6Ext s)

/-- One round of `encode_ipv6_extended_communities` (attr_16_25_extended_communities.rs 311-317). -/
def encIpv6Ext (c : Ipv6ExtCommunity) : Bytes :=
  c.type.toU8 :: c.subtype :: (c.addr.toList ++ c.loc.toList)

/-- `encode_ipv6_extended_communities` (attr_16_25_extended_communities.rs 309-319). -/
def encodeIpv6ExtCommunities (cs : List Ipv6ExtCommunity) : Bytes := cs.flatMap encIpv6Ext

end Verif
