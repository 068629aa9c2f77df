import Verif.Model.Net
/-
FlowSpec NLRI (`/repo/src/models/bgp/flowspec/{mod,nlri,operators}.rs`).

The Rust parser keeps `data: &[u8]` and `offset: &mut usize`; here the unread suffix `data[offset..]` is passed along, so
`*offset >= data.len()` is "the suffix is empty" and `*offset + n > data.len()` is "the suffix is shorter than n".
-/
namespace Verif

/-- `FlowSpecError` (flowspec/mod.rs 139-156). `panic` stands for a Rust panic. -/
inductive FsErr where
  | invalidComponentOrder (expectedGreaterThan found : UInt8)
  | invalidOperator (b : UInt8)
  | invalidComponentType (t : UInt8)
  | insufficientData
  | invalidPrefix
  | invalidValueLength (n : UInt8)
  | panic
deriving DecidableEq, Repr

/-- `NumericOperator` (operators.rs 6-21). -/
structure NumOp where
  eol : Bool
  andNext : Bool
  valueLen : UInt8
  lt : Bool
  gt : Bool
  eq : Bool
  value : UInt64
deriving DecidableEq, Repr

/-- `BitmaskOperator` (operators.rs 26-39). -/
structure BitOp where
  eol : Bool
  andNext : Bool
  valueLen : UInt8
  not_ : Bool
  matchFlag : Bool
  bitmask : UInt64
deriving DecidableEq, Repr

/-- `FlowSpecComponent` (flowspec/mod.rs 22-53); the nine numeric kinds carry their type number, the two bitmask kinds
likewise: `numeric 3` is `IpProtocol`, 4 `Port`, 5 `DestinationPort`, 6 `SourcePort`, 7 `IcmpType`, 8 `IcmpCode`,
10 `PacketLength`, 11 `Dscp`, 13 `FlowLabel`; `bitmask 9` is `TcpFlags`, 12 `Fragment`. -/
inductive FsKindNum where
  | ipProtocol | port | destinationPort | sourcePort | icmpType | icmpCode | packetLength | dscp | flowLabel
deriving DecidableEq, Repr

inductive FsKindBit where
  | tcpFlags | fragment
deriving DecidableEq, Repr

inductive FsComp where
  | dstPrefix (p : NetworkPrefix)
  | srcPrefix (p : NetworkPrefix)
  | numeric (k : FsKindNum) (ops : List NumOp)
  | bitmask (k : FsKindBit) (ops : List BitOp)
  | dstPrefix6 (offset : UInt8) (p : NetworkPrefix)
  | srcPrefix6 (offset : UInt8) (p : NetworkPrefix)
deriving DecidableEq, Repr

/-- `component_type` (flowspec/mod.rs 57-74). -/
def FsKindNum.code : FsKindNum → UInt8
  | .ipProtocol => 3 | .port => 4 | .destinationPort => 5 | .sourcePort => 6 | .icmpType => 7 | .icmpCode => 8
  | .packetLength => 10 | .dscp => 11 | .flowLabel => 13

def FsKindBit.code : FsKindBit → UInt8
  | .tcpFlags => 9 | .fragment => 12

def FsComp.code : FsComp → UInt8
  | .dstPrefix _ | .dstPrefix6 _ _ => 1
  | .srcPrefix _ | .srcPrefix6 _ _ => 2
  | .numeric k _ => k.code
  | .bitmask k _ => k.code

/-- `read_value` (nlri.rs 296-302): `(value << 8) | byte` on `u64`, i.e. `256 * value + byte` modulo 2^64. -/
def readValue (bs : Bytes) : UInt64 := bs.foldl (fun v b => UInt64.ofNat (v.toNat * 256 + b.toNat)) 0

/-- `write_value` (nlri.rs 305-309) for `length ≤ 8`: bytes `(value >> 8i) as u8`, `i` descending. -/
def writeValue (v : UInt64) : Nat → Bytes
  | 0 => []
  | n + 1 => UInt8.ofNat (v.toNat / 256 ^ n) :: writeValue v n

/-- the value length of an operator byte (operators.rs 45-51, 139-145; nlri.rs 215-225, 262-272): the two-bit selector
cannot take a fifth value, so the error arm is unreachable. -/
def opValueLen (b : UInt8) : UInt8 :=
  match (b >>> 4) &&& 3 with
  | 0 => 1
  | 1 => 2
  | 2 => 4
  | _ => 8

/-- `NumericOperator::from_byte_and_value` (operators.rs 43-68). -/
def NumOp.ofByte (b : UInt8) (v : UInt64) : Except FsErr NumOp :=
  if b &&& 0x08 ≠ 0 then .error (.invalidOperator b)
  else .ok ⟨b &&& 0x80 != 0, b &&& 0x40 != 0, opValueLen b, b &&& 0x04 != 0, b &&& 0x02 != 0, b &&& 0x01 != 0, v⟩

/-- `BitmaskOperator::from_byte_and_value` (operators.rs 137-161). -/
def BitOp.ofByte (b : UInt8) (v : UInt64) : Except FsErr BitOp :=
  if b &&& 0x0C ≠ 0 then .error (.invalidOperator b)
  else .ok ⟨b &&& 0x80 != 0, b &&& 0x40 != 0, opValueLen b, b &&& 0x02 != 0, b &&& 0x01 != 0, v⟩

/-- the length bits of `to_byte` (operators.rs 82-89, 175-182): any other length is encoded as selector 0. -/
def opLenBits (n : UInt8) : UInt8 :=
  if n = 2 then 0x10 else if n = 4 then 0x20 else if n = 8 then 0x30 else 0

/-- `NumericOperator::to_byte` (operators.rs 71-106). -/
def NumOp.toByte (o : NumOp) : UInt8 :=
  (if o.eol then 0x80 else 0) ||| (if o.andNext then 0x40 else 0) ||| opLenBits o.valueLen |||
  (if o.lt then 0x04 else 0) ||| (if o.gt then 0x02 else 0) ||| (if o.eq then 0x01 else 0)

/-- `BitmaskOperator::to_byte` (operators.rs 164-196). -/
def BitOp.toByte (o : BitOp) : UInt8 :=
  (if o.eol then 0x80 else 0) ||| (if o.andNext then 0x40 else 0) ||| opLenBits o.valueLen |||
  (if o.not_ then 0x02 else 0) ||| (if o.matchFlag then 0x01 else 0)

/-- the width chosen by the convenience constructors (operators.rs 110-118, 132-140 and the bitmask twins). -/
def minValueLen (v : UInt64) : UInt8 := if v ≤ 0xFF then 1 else if v ≤ 0xFFFF then 2 else if v ≤ 0xFFFFFFFF then 4 else 8

/-- `NumericOperator::equal_to` (operators.rs 109-130). -/
def NumOp.equalTo (v : UInt64) : NumOp := ⟨true, false, minValueLen v, false, false, true, v⟩
/-- `NumericOperator::greater_than_or_equal` (operators.rs 133-154). -/
def NumOp.greaterThanOrEqual (v : UInt64) : NumOp := ⟨true, false, minValueLen v, false, true, true, v⟩
/-- `BitmaskOperator::exact_match` (operators.rs 221-241). -/
def BitOp.exactMatch (v : UInt64) : BitOp := ⟨true, false, minValueLen v, false, false, v⟩
/-- `BitmaskOperator::partial_match` (operators.rs 244-264). -/
def BitOp.partialMatch (v : UInt64) : BitOp := ⟨true, false, minValueLen v, false, true, v⟩

/-- `parse_length` (nlri.rs 109-128). -/
def fsParseLength : Bytes → Except FsErr (UInt16 × Bytes)
  | [] => .error .insufficientData
  | a :: r =>
    if a < 240 then .ok (a.toUInt16, r)
    else match r with
      | [] => .error .insufficientData
      | b :: r => .ok (((a &&& 0x0F).toUInt16 <<< 8) ||| b.toUInt16, r)

/-- `encode_length` (nlri.rs 131-138). -/
def fsEncodeLength (n : UInt16) : Bytes :=
  if n < 240 then [n.toUInt8] else [(0xF0 : UInt8) ||| (n >>> 8).toUInt8, n.toUInt8]

/-- `parse_prefix_component` (nlri.rs 141-188). The address family is chosen by the number of bytes. -/
def fsParsePrefix : Bytes → Except FsErr (NetworkPrefix × Bytes)
  | [] => .error .insufficientData
  | len :: r =>
    if len > 128 then .error .invalidPrefix
    else if r.length < byteLen len then .error .insufficientData
    else
      let d := r.take (byteLen len)
      let rest := r.drop (byteLen len)
      if byteLen len ≤ 4 then
        match IpNet.new? (.v4 (padVec 4 d)) len with
        | some p => .ok (⟨p, none⟩, rest)
        | none => .error .invalidPrefix
      else
        match IpNet.new? (.v6 (padVec 16 d)) len with
        | some p => .ok (⟨p, none⟩, rest)
        | none => .error .invalidPrefix

/-- the common part of the two operator loops: operator byte and value (nlri.rs 207-233, 254-280). -/
def fsReadOp : Bytes → Except FsErr ((UInt8 × UInt64) × Bytes)
  | [] => .error .insufficientData
  | b :: r =>
    let n := (opValueLen b).toNat
    if r.length < n then .error .insufficientData else .ok ((b, readValue (r.take n)), r.drop n)

/-- `parse_numeric_operators` (nlri.rs 200-245); fuel = length of the suffix (each round reads at least one byte). -/
def fsNumOps : Nat → Bytes → Except FsErr (List NumOp × Bytes)
  | 0, s => if s = [] then .error .insufficientData else .error .panic
  | fuel + 1, s =>
    match fsReadOp s with
    | .error e => .error e
    | .ok ((b, v), r) =>
      match NumOp.ofByte b v with
      | .error e => .error e
      | .ok o =>
        if o.eol then .ok ([o], r)
        else match fsNumOps fuel r with
          | .error e => .error e
          | .ok (os, r') => .ok (o :: os, r')

/-- `parse_bitmask_operators` (nlri.rs 248-292). -/
def fsBitOps : Nat → Bytes → Except FsErr (List BitOp × Bytes)
  | 0, s => if s = [] then .error .insufficientData else .error .panic
  | fuel + 1, s =>
    match fsReadOp s with
    | .error e => .error e
    | .ok ((b, v), r) =>
      match BitOp.ofByte b v with
      | .error e => .error e
      | .ok o =>
        if o.eol then .ok ([o], r)
        else match fsBitOps fuel r with
          | .error e => .error e
          | .ok (os, r') => .ok (o :: os, r')

/-- the dispatch on component type (nlri.rs 36-50) with the per-type wrappers (nlri.rs 311-377). -/
def fsNumKind (t : UInt8) : Option FsKindNum :=
  if t = 3 then some .ipProtocol else if t = 4 then some .port else if t = 5 then some .destinationPort
  else if t = 6 then some .sourcePort else if t = 7 then some .icmpType else if t = 8 then some .icmpCode
  else if t = 10 then some .packetLength else if t = 11 then some .dscp else if t = 13 then some .flowLabel else none

def fsBitKind (t : UInt8) : Option FsKindBit :=
  if t = 9 then some .tcpFlags else if t = 12 then some .fragment else none

def fsParseComp (t : UInt8) (s : Bytes) : Except FsErr (FsComp × Bytes) :=
  if t = 1 then
    match fsParsePrefix s with
    | .ok (p, r) => .ok (.dstPrefix p, r)
    | .error e => .error e
  else if t = 2 then
    match fsParsePrefix s with
    | .ok (p, r) => .ok (.srcPrefix p, r)
    | .error e => .error e
  else match fsNumKind t with
    | some k =>
      match fsNumOps s.length s with
      | .ok (os, r) => .ok (.numeric k os, r)
      | .error e => .error e
    | none =>
      match fsBitKind t with
      | some k =>
        match fsBitOps s.length s with
        | .ok (os, r) => .ok (.bitmask k os, r)
        | .error e => .error e
      | none => .error (.invalidComponentType t)

/-- The component loop (nlri.rs 22-52). `surplus` is `data.len() - end_offset`, so `offset < end_offset` is
`surplus < suffix length`; the component parsers see the whole suffix, not only the declared part. -/
def fsComps (surplus : Nat) : Nat → UInt8 → Bytes → Except FsErr (List FsComp × Bytes)
  | fuel, last, s =>
    if s.length ≤ surplus then .ok ([], s)
    else match fuel, s with
      | _, [] => .ok ([], [])
      | 0, _ :: _ => .error .panic
      | fuel + 1, t :: r =>
        if t ≤ last then .error (.invalidComponentOrder last t)
        else match fsParseComp t r with
          | .error e => .error e
          | .ok (c, r') =>
            match fsComps surplus fuel t r' with
            | .error e => .error e
            | .ok (cs, r'') => .ok (c :: cs, r'')

/-- `parse_flowspec_nlri` (nlri.rs 10-55), also returning the suffix it did not look at (the Rust function discards
it). -/
def parseFlowSpec' (data : Bytes) : Except FsErr (List FsComp × Bytes) :=
  match fsParseLength data with
  | .error e => .error e
  | .ok (len, s) =>
    if s.length < len.toNat then .error .insufficientData
    else fsComps (s.length - len.toNat) s.length 0 s

/-- `parse_flowspec_nlri` (nlri.rs 10-55). -/
def parseFlowSpec (data : Bytes) : Except FsErr (List FsComp) :=
  match parseFlowSpec' data with
  | .ok (cs, _) => .ok cs
  | .error e => .error e

/-- `encode_prefix` (nlri.rs 376-388): the octets are truncated to the prefix length. -/
def fsEncPrefix (p : NetworkPrefix) : Bytes := p.prefix_.len :: p.prefix_.addr.octets.take (byteLen p.prefix_.len)

/-- `encode_ipv6_prefix` (nlri.rs 390-399). -/
def fsEncPrefix6 (offset : UInt8) (p : NetworkPrefix) : Bytes :=
  [p.prefix_.len, offset] ++
    match p.prefix_.addr with
    | .v6 _ => p.prefix_.addr.octets.take (byteLen p.prefix_.len)
    | .v4 _ => []

/-- `write_value` with its debug-build shift overflow: `value >> (i * 8)` with `i ≥ 8` panics (nlri.rs 305-309). -/
def fsWriteValue (v : UInt64) (n : UInt8) : Except EncErr Bytes :=
  if n.toNat > 8 then .error .panic else .ok (writeValue v n.toNat)

/-- `encode_numeric_operators` (nlri.rs 401-406). -/
def fsEncNumOps : List NumOp → Except EncErr Bytes
  | [] => .ok []
  | o :: os =>
    match fsWriteValue o.value o.valueLen with
    | .error e => .error e
    | .ok v => match fsEncNumOps os with
      | .error e => .error e
      | .ok r => .ok (o.toByte :: v ++ r)

/-- `encode_bitmask_operators` (nlri.rs 408-413). -/
def fsEncBitOps : List BitOp → Except EncErr Bytes
  | [] => .ok []
  | o :: os =>
    match fsWriteValue o.bitmask o.valueLen with
    | .error e => .error e
    | .ok v => match fsEncBitOps os with
      | .error e => .error e
      | .ok r => .ok (o.toByte :: v ++ r)

/-- one component without its type byte (nlri.rs 69-95). -/
def fsEncComp : FsComp → Except EncErr Bytes
  | .dstPrefix p | .srcPrefix p => .ok (fsEncPrefix p)
  | .dstPrefix6 o p | .srcPrefix6 o p => .ok (fsEncPrefix6 o p)
  | .numeric _ ops => fsEncNumOps ops
  | .bitmask _ ops => fsEncBitOps ops

/-- the component bytes (nlri.rs 66-96). -/
def fsEncComps : List FsComp → Except EncErr Bytes
  | [] => .ok []
  | c :: cs =>
    match fsEncComp c with
    | .error e => .error e
    | .ok b => match fsEncComps cs with
      | .error e => .error e
      | .ok r => .ok (c.code :: b ++ r)

/-- `encode_flowspec_nlri` (nlri.rs 62-106), `FLOWSPEC_NLRI_MAX_LEN = 0x0FFF` (59). -/
def encodeFlowSpec (cs : List FsComp) : Except EncErr Bytes :=
  match fsEncComps cs with
  | .error e => .error e
  | .ok d =>
    match checkMax d.length 0x0FFF with
    | .error e => .error e
    | .ok n => .ok (fsEncodeLength (UInt16.ofNat n) ++ d)

end Verif
