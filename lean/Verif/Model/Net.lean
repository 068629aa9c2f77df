import Verif.Model.Bytes
/-
Addresses, prefixes, AFI/SAFI, ASN widths and NLRI parsing
(`/repo/src/models/network/*`, `/repo/src/parser/utils.rs`).
-/
namespace Verif

/-- `AsnLength` (src/models/network/asn.rs 9-13). -/
inductive AsnLen where
  | b16 | b32
deriving DecidableEq, Repr

/-- `AsnLength::bytes` (src/models/network/asn.rs 24-29). -/
def AsnLen.bytes : AsnLen → Nat
  | .b16 => 2
  | .b32 => 4

/-- An AS number. Rust's `Asn` (src/models/network/asn.rs 33-41) also stores the flag `four_byte`; equality, order and
hash ignore it (43-66) and no modelled parser or encoder reads it, except `Peer::new` and the BMP→MRT conversion,
whose models take the flag as a separate argument. Equality on this type is therefore exactly Rust's `==`. -/
abbrev Asn := UInt32

/-- `read_asn` (src/parser/utils.rs 113-119). -/
def rdAsn : AsnLen → Rd Asn
  | .b16 => do let v ← rdU16; pure v.toUInt32
  | .b32 => rdU32

/-- the read loop of `read_asns` (src/parser/utils.rs 134-147). -/
def rdAsnsLoop (l : AsnLen) : Nat → Rd (List Asn)
  | 0 => pure []
  | n + 1 => do
    let a ← rdAsn l
    let as ← rdAsnsLoop l n
    pure (a :: as)

/-- `read_asns` (src/parser/utils.rs 121-150). The `checked_mul` overflow of `count * width` is impossible for the
callers, whose count is one byte. -/
def rdAsns (l : AsnLen) (count : Nat) : Rd (List Asn) := do
  needN (count * l.bytes)
  rdAsnsLoop l count

/-- `encode_asn` (src/parser/utils.rs 325-334): `u16::from(&Asn)` truncates (asn.rs 240-252). -/
def encAsn (l : AsnLen) (a : Asn) : Bytes :=
  match l with
  | .b16 => be16 a.toUInt16
  | .b32 => be32 a

/-- `Afi` (src/models/network/afi.rs 11-16). -/
inductive Afi where
  | ipv4 | ipv6 | linkState
deriving DecidableEq, Repr

/-- discriminants of `Afi` (`IntoPrimitive`). -/
def Afi.toU16 : Afi → UInt16
  | .ipv4 => 1
  | .ipv6 => 2
  | .linkState => 16388

/-- `Afi::try_from(u16)` (`TryFromPrimitive`). -/
def Afi.ofU16? (x : UInt16) : Option Afi :=
  if x = 1 then some .ipv4 else if x = 2 then some .ipv6 else if x = 16388 then some .linkState else none

/-- `Safi` (src/models/network/afi.rs 42-67). -/
inductive Safi where
  | unicast | multicast | unicastMulticast | mplsLabel | linkState | linkStateVpn | mplsVpn | multicastVpn
  | flowSpec | flowSpecL3Vpn
deriving DecidableEq, Repr

def Safi.toU8 : Safi → UInt8
  | .unicast => 1
  | .multicast => 2
  | .unicastMulticast => 3
  | .mplsLabel => 4
  | .linkState => 71
  | .linkStateVpn => 72
  | .mplsVpn => 128
  | .multicastVpn => 129
  | .flowSpec => 133
  | .flowSpecL3Vpn => 134

def Safi.ofU8? (x : UInt8) : Option Safi :=
  if x = 1 then some .unicast else if x = 2 then some .multicast else if x = 3 then some .unicastMulticast
  else if x = 4 then some .mplsLabel else if x = 71 then some .linkState else if x = 72 then some .linkStateVpn
  else if x = 128 then some .mplsVpn else if x = 129 then some .multicastVpn else if x = 133 then some .flowSpec
  else if x = 134 then some .flowSpecL3Vpn else none

/-- `read_afi` (src/parser/utils.rs 152-154); the conversion error becomes `ParseError` (src/error.rs, `From`). -/
def rdAfi : Rd Afi := do
  let x ← rdU16
  match Afi.ofU16? x with
  | some a => pure a
  | none => Rd.fail .parse

/-- `read_safi` (src/parser/utils.rs 156-158). -/
def rdSafi : Rd Safi := do
  let x ← rdU8
  match Safi.ofU8? x with
  | some a => pure a
  | none => Rd.fail .parse

abbrev V4 := Vector UInt8 4
abbrev V6 := Vector UInt8 16

/-- `std::net::IpAddr`: octets in network order. -/
inductive Ip where
  | v4 (o : V4)
  | v6 (o : V6)
deriving DecidableEq, Repr

/-- `encode_ipaddr` (src/parser/utils.rs 336-341). -/
def Ip.octets : Ip → Bytes
  | .v4 o => o.toList
  | .v6 o => o.toList

/-- `From<IpAddr> for Afi` (src/models/network/afi.rs 18-26). -/
def Ip.afi : Ip → Afi
  | .v4 _ => .ipv4
  | .v6 _ => .ipv6

def Ip.isV4 : Ip → Bool
  | .v4 _ => true
  | .v6 _ => false

/-- `Ipv4Addr::new(0,0,0,0)` -/
def v4zero : V4 := Vector.replicate 4 0

/-- `Ipv6Addr` unspecified. -/
def v6zero : V6 := Vector.replicate 16 0

/-- `read_ipv4_address` (src/parser/utils.rs 85-88). -/
def rdV4 : Rd V4 := rdVec 4

/-- `read_ipv6_address` (src/parser/utils.rs 90-94). -/
def rdV6 : Rd V6 := rdVec 16

/-- `read_address` (src/parser/utils.rs 66-83): failures are `io::Error`s, i.e. `ParserError::IoError` after `?`
(`From<io::Error>` maps only `UnexpectedEof` to `EofError`). -/
def rdAddr : Afi → Rd Ip
  | .ipv4 => .mk fun s => match rdV4 s with
    | .ok (o, r) => .ok (.v4 o, r)
    | .error _ => .error .io
  | .ipv6 => .mk fun s => match rdV6 s with
    | .ok (o, r) => .ok (.v6 o, r)
    | .error _ => .error .io
  | .linkState => pure (.v4 v4zero)

/-- `ipnet::IpNet`: address as given (host bits kept) and prefix length. -/
structure IpNet where
  addr : Ip
  len : UInt8
deriving DecidableEq, Repr

/-- largest prefix length of the address family of an address. -/
def Ip.maxLen : Ip → Nat
  | .v4 _ => 32
  | .v6 _ => 128

/-- `IpNet::new`: rejects a length above 32/128. -/
def IpNet.new? (a : Ip) (len : UInt8) : Option IpNet :=
  if len.toNat ≤ a.maxLen then some ⟨a, len⟩ else none

/-- `NetworkPrefix` (src/models/network/prefix.rs 9-13). -/
structure NetworkPrefix where
  prefix_ : IpNet
  pathId : Option UInt32
deriving DecidableEq, Repr

/-- zero-padding of `buff[..byte_len].copy_from_slice(..)` into `[0u8; n]`. -/
def padVec (n : Nat) (bs : Bytes) : Vector UInt8 n :=
  ⟨((bs ++ List.replicate n 0).take n).toArray, by simp⟩

/-- number of address bytes for a prefix length: `(bit_len as usize).div_ceil(8)`. -/
def byteLen (bits : UInt8) : Nat := (bits.toNat + 7) / 8

/-- The `max_bit_len` table (src/parser/utils.rs 221-225). -/
def Afi.maxBits : Afi → Nat
  | .ipv4 => 32
  | .ipv6 => 128
  | .linkState => 0

/-- `try_parse_prefix` (src/parser/utils.rs 192-281), written as a reader: the consumed count it returns is the
number of bytes read from the front of `data`. -/
def tryParsePrefix (afi : Afi) (addPath : Bool) : Rd NetworkPrefix := do
  let pathId ← (if addPath then do let i ← rdU32; pure (some i) else pure none : Rd (Option UInt32))
  let bitLen ← rdU8
  if bitLen.toNat > afi.maxBits then Rd.fail .parse else do
  let addr ← (match afi with
    | .ipv4 => do
      if byteLen bitLen > 4 then Rd.fail .parse else do
      let bs ← rdN (byteLen bitLen)
      pure (Ip.v4 (padVec 4 bs))
    | .ipv6 => do
      if byteLen bitLen > 16 then Rd.fail .parse else do
      let bs ← rdN (byteLen bitLen)
      pure (Ip.v6 (padVec 16 bs))
    | .linkState => do
      advance (byteLen bitLen)
      pure (Ip.v4 v4zero) : Rd Ip)
  match IpNet.new? addr bitLen with
  | some p => pure ⟨p, pathId⟩
  | none => Rd.fail .parse

/-- The `while` loop of `parse_nlri_list` (src/parser/utils.rs 291-320). `addPath` is the caller's setting,
`cur`/`heur` are `is_add_path`/`use_heuristic`. Fuel: the input length, proved sufficient because each round consumes
at least one byte. -/
def nlriLoop (afi : Afi) (addPath : Bool) : Nat → Bool → Bool → Bytes → Except Err (List NetworkPrefix)
  | _, _, _, [] => .ok []
  | 0, _, _, _ :: _ => .error .panic
  | fuel + 1, cur, heur, b :: bs =>
    let guess := !cur && (b == 0)
    let cur := cur || guess
    let heur := heur || guess
    match tryParsePrefix afi cur (b :: bs) with
    | .ok (p, r) => do
      let ps ← nlriLoop afi addPath fuel cur heur r
      return p :: ps
    | .error e =>
      if heur then
        match tryParsePrefix afi addPath (b :: bs) with
        | .ok (p, r) => do
          let ps ← nlriLoop afi addPath fuel addPath false r
          return p :: ps
        | .error e => .error e
      else .error e

/-- `parse_nlri_list` (src/parser/utils.rs 283-323). -/
def parseNlriList (afi : Afi) (addPath : Bool) (input : Bytes) : Except Err (List NetworkPrefix) :=
  nlriLoop afi addPath input.length addPath false input

/-- the optional path identifier (src/models/network/prefix.rs 69-73). -/
def encPathId : Option UInt32 → Bytes
  | some i => be32 i
  | none => []

/-- `NetworkPrefix::encode` (src/models/network/prefix.rs 66-90). The slice `octets()[0..byte_len]` cannot be out of
range because `IpNet` bounds the length. -/
def NetworkPrefix.encode (p : NetworkPrefix) : Bytes :=
  encPathId p.pathId ++ (p.prefix_.len :: p.prefix_.addr.octets.take (byteLen p.prefix_.len))

/-- `encode_nlri_prefixes` (src/parser/utils.rs 343-349). -/
def encodeNlri (ps : List NetworkPrefix) : Bytes := ps.flatMap NetworkPrefix.encode

end Verif
