import Verif.Model.Mrt
/-
RPKI-to-Router PDUs: `/repo/src/parser/rpki/rtr.rs` and the types of `/repo/src/models/rpki/rtr.rs`.
-/
namespace Verif

/-- `RtrProtocolVersion` (src/models/rpki/rtr.rs 48-54). -/
inductive RtrVersion where
  | v0
  | v1
deriving DecidableEq, Repr

/-- `RtrProtocolVersion::to_u8` (models/rpki/rtr.rs 67-69). -/
def RtrVersion.toU8 : RtrVersion → UInt8
  | .v0 => 0
  | .v1 => 1

/-- `RtrProtocolVersion::from_u8` (models/rpki/rtr.rs 58-64). -/
def RtrVersion.ofU8? (b : UInt8) : Option RtrVersion :=
  if b = 0 then some .v0 else if b = 1 then some .v1 else none

/-- `RtrPduType` (models/rpki/rtr.rs 92-113). -/
inductive RtrType where
  | serialNotify
  | serialQuery
  | resetQuery
  | cacheResponse
  | ipv4Prefix
  | ipv6Prefix
  | endOfData
  | cacheReset
  | routerKey
  | errorReport
deriving DecidableEq, Repr

/-- the discriminants of `RtrPduType`. -/
def RtrType.toU8 : RtrType → UInt8
  | .serialNotify => 0
  | .serialQuery => 1
  | .resetQuery => 2
  | .cacheResponse => 3
  | .ipv4Prefix => 4
  | .ipv6Prefix => 6
  | .endOfData => 7
  | .cacheReset => 8
  | .routerKey => 9
  | .errorReport => 10

/-- `RtrPduType::from_u8` (models/rpki/rtr.rs 117-131). -/
def RtrType.ofU8? (b : UInt8) : Option RtrType :=
  if b = 0 then some .serialNotify else if b = 1 then some .serialQuery else if b = 2 then some .resetQuery
  else if b = 3 then some .cacheResponse else if b = 4 then some .ipv4Prefix else if b = 6 then some .ipv6Prefix
  else if b = 7 then some .endOfData else if b = 8 then some .cacheReset else if b = 9 then some .routerKey
  else if b = 10 then some .errorReport else none

/-- `RtrErrorCode` (models/rpki/rtr.rs 159-178). -/
inductive RtrCode where
  | corruptData
  | internalError
  | noDataAvailable
  | invalidRequest
  | unsupportedVersion
  | unsupportedType
  | withdrawalOfUnknown
  | duplicateAnnouncement
  | unexpectedVersion
deriving DecidableEq, Repr

/-- the discriminants of `RtrErrorCode`. -/
def RtrCode.toU16 : RtrCode → UInt16
  | .corruptData => 0
  | .internalError => 1
  | .noDataAvailable => 2
  | .invalidRequest => 3
  | .unsupportedVersion => 4
  | .unsupportedType => 5
  | .withdrawalOfUnknown => 6
  | .duplicateAnnouncement => 7
  | .unexpectedVersion => 8

/-- `RtrErrorCode::from_u16` (models/rpki/rtr.rs 182-195). -/
def RtrCode.ofU16? (x : UInt16) : Option RtrCode :=
  if x = 0 then some .corruptData else if x = 1 then some .internalError else if x = 2 then some .noDataAvailable
  else if x = 3 then some .invalidRequest else if x = 4 then some .unsupportedVersion
  else if x = 5 then some .unsupportedType else if x = 6 then some .withdrawalOfUnknown
  else if x = 7 then some .duplicateAnnouncement else if x = 8 then some .unexpectedVersion else none

/-- `RtrPdu` (models/rpki/rtr.rs 563-584) with the fields of its structs (229-500). A `String` is its UTF-8 bytes. -/
inductive Pdu where
  | serialNotify (v : RtrVersion) (session : UInt16) (serial : UInt32)
  | serialQuery (v : RtrVersion) (session : UInt16) (serial : UInt32)
  | resetQuery (v : RtrVersion)
  | cacheResponse (v : RtrVersion) (session : UInt16)
  | ipv4Prefix (v : RtrVersion) (flags len maxLen : UInt8) (prefix_ : V4) (asn : Asn)
  | ipv6Prefix (v : RtrVersion) (flags len maxLen : UInt8) (prefix_ : V6) (asn : Asn)
  | endOfData (v : RtrVersion) (session : UInt16) (serial : UInt32) (refresh retry expire : Option UInt32)
  | cacheReset (v : RtrVersion)
  | routerKey (v : RtrVersion) (flags : UInt8) (ski : Vector UInt8 20) (asn : Asn) (spki : Bytes)
  | errorReport (v : RtrVersion) (code : RtrCode) (pdu : Bytes) (text : Bytes)
deriving DecidableEq, Repr

/-- `RtrPdu::pdu_type` (models/rpki/rtr.rs 588-601). -/
def Pdu.type : Pdu → RtrType
  | .serialNotify .. => .serialNotify
  | .serialQuery .. => .serialQuery
  | .resetQuery .. => .resetQuery
  | .cacheResponse .. => .cacheResponse
  | .ipv4Prefix .. => .ipv4Prefix
  | .ipv6Prefix .. => .ipv6Prefix
  | .endOfData .. => .endOfData
  | .cacheReset .. => .cacheReset
  | .routerKey .. => .routerKey
  | .errorReport .. => .errorReport

/-- `RtrPdu::version` (models/rpki/rtr.rs 604-617). -/
def Pdu.version : Pdu → RtrVersion
  | .serialNotify v .. => v
  | .serialQuery v .. => v
  | .resetQuery v .. => v
  | .cacheResponse v .. => v
  | .ipv4Prefix v .. => v
  | .ipv6Prefix v .. => v
  | .endOfData v .. => v
  | .cacheReset v .. => v
  | .routerKey v .. => v
  | .errorReport v .. => v

/-- `is_announcement` of the three kinds of records (models/rpki/rtr.rs 341-343, 377-379, 473-475). -/
def Pdu.isAnnouncement : Pdu → Option Bool
  | .ipv4Prefix _ f .. => some (f &&& 1 != 0)
  | .ipv6Prefix _ f .. => some (f &&& 1 != 0)
  | .routerKey _ f .. => some (f &&& 1 != 0)
  | _ => none

/-- `RtrError` (rtr.rs 41-79); `panic` is an index or slice out of bounds. -/
inductive RtrErr where
  | io (eof : Bool)
  | incomplete (available needed : Nat)
  | badType (b : UInt8)
  | badVersion (b : UInt8)
  | badCode (x : UInt16)
  | badLength (expected actual : UInt32) (type : UInt8)
  | badPrefixLength (len maxLen maxAllowed : UInt8)
  | badUtf8
  | routerKeyInV0
  | panic
deriving DecidableEq, Repr

/-- `input[i]`. -/
def idx (d : Bytes) (i : Nat) : Except RtrErr UInt8 :=
  match d[i]? with
  | some b => .ok b
  | none => .error .panic

/-- `u32::from_be_bytes([input[i], input[i + 1], input[i + 2], input[i + 3]])`. -/
def idx32 (d : Bytes) (i : Nat) : Except RtrErr UInt32 := do
  let a ← idx d i
  let b ← idx d (i + 1)
  let c ← idx d (i + 2)
  let e ← idx d (i + 3)
  pure (u32of a b c e)

/-- `input[i..i + n]`. -/
def slice (d : Bytes) (i n : Nat) : Except RtrErr Bytes :=
  if i + n ≤ d.length then .ok ((d.drop i).take n) else .error .panic

/-- `copy_from_slice(&input[i..i + n])` into an array, and the arrays of `Ipv4Addr::new`, `Ipv6Addr::from`. -/
def vecAt (d : Bytes) (i n : Nat) : Except RtrErr (Vector UInt8 n) :=
  if h : i + n ≤ d.length then .ok ⟨((d.drop i).take n).toArray, by simp; omega⟩ else .error .panic

/-- `validate_length` (rtr.rs 548-558). -/
def validLength (actual expected : UInt32) (t : UInt8) : Except RtrErr Unit :=
  if actual ≠ expected then .error (.badLength expected actual t) else .ok ()

/-- `validate_prefix_length` (rtr.rs 560-570). -/
def validPrefixLength (len maxLen maxAllowed : UInt8) : Except RtrErr Unit :=
  if len > maxLen ∨ maxLen > maxAllowed then .error (.badPrefixLength len maxLen maxAllowed) else .ok ()

/-- `u32::try_from(x).unwrap_or(u32::MAX)`. -/
def clamp32 (x : Nat) : UInt32 := if x ≤ 4294967295 then UInt32.ofNat x else 4294967295

/-- the Router Key arm (rtr.rs 373-408). -/
def parseRouterKey (d : Bytes) (v : RtrVersion) (t : UInt8) (length : UInt32) : Except RtrErr Pdu :=
  if v = .v0 then .error .routerKeyInV0
  else if length < 34 then .error (.badLength 34 length t)
  else do
    let flags ← idx d 8
    let ski ← vecAt d 10 20
    let asn ← idx32 d 30
    let spki ← slice d 34 (length.toNat - 34)
    pure (.routerKey v flags ski asn spki)

/-- the Error Report arm (rtr.rs 410-485). `usize` is 64 bits wide: no addition overflows. -/
def parseErrorReport (d : Bytes) (v : RtrVersion) (t : UInt8) (x : UInt16) (length : UInt32) : Except RtrErr Pdu :=
  if length < 16 then .error (.badLength 16 length t)
  else
    match RtrCode.ofU16? x with
    | none => .error (.badCode x)
    | some code => do
      let encap ← idx32 d 8
      let n := encap.toNat
      if n > length.toNat - 16 then .error (.badLength (clamp32 (n + 16)) length t)
      else do
        let pdu ← slice d 12 n
        let textLen ← idx32 d (12 + n)
        let m := textLen.toNat
        let off := 12 + n + 4
        if m > length.toNat - off then .error (.badLength (clamp32 (off + m)) length t)
        else if m > 0 then do
          let text ← slice d off m
          if utf8Ok text then pure (.errorReport v code pdu text) else .error .badUtf8
        else pure (.errorReport v code pdu [])

/-- the intervals of End of Data (rtr.rs 348-356). -/
def parseIntervals (d : Bytes) : RtrVersion → Except RtrErr (Option UInt32 × Option UInt32 × Option UInt32)
  | .v0 => .ok (none, none, none)
  | .v1 => do
    let refresh ← idx32 d 12
    let retry ← idx32 d 16
    let expire ← idx32 d 20
    pure (some refresh, some retry, some expire)

/-- the length of End of Data (rtr.rs 340-343, 664-667). -/
def endOfDataLen : RtrVersion → UInt32
  | .v0 => 12
  | .v1 => 24

/-- the `match` on the PDU type (rtr.rs 257-486). -/
def parsePduBody (d : Bytes) (v : RtrVersion) (ty : RtrType) (t : UInt8) (x : UInt16) (length : UInt32) : Except RtrErr Pdu :=
  match ty with
  | .serialNotify => do
    validLength length 12 t
    let serial ← idx32 d 8
    pure (.serialNotify v x serial)
  | .serialQuery => do
    validLength length 12 t
    let serial ← idx32 d 8
    pure (.serialQuery v x serial)
  | .resetQuery => do
    validLength length 8 t
    pure (.resetQuery v)
  | .cacheResponse => do
    validLength length 8 t
    pure (.cacheResponse v x)
  | .ipv4Prefix => do
    validLength length 20 t
    let flags ← idx d 8
    let len ← idx d 9
    let maxLen ← idx d 10
    validPrefixLength len maxLen 32
    let p ← vecAt d 12 4
    let asn ← idx32 d 16
    pure (.ipv4Prefix v flags len maxLen p asn)
  | .ipv6Prefix => do
    validLength length 32 t
    let flags ← idx d 8
    let len ← idx d 9
    let maxLen ← idx d 10
    validPrefixLength len maxLen 128
    let p ← vecAt d 12 16
    let asn ← idx32 d 28
    pure (.ipv6Prefix v flags len maxLen p asn)
  | .endOfData => do
    validLength length (endOfDataLen v) t
    let serial ← idx32 d 8
    let (refresh, retry, expire) ← parseIntervals d v
    pure (.endOfData v x serial refresh retry expire)
  | .cacheReset => do
    validLength length 8 t
    pure (.cacheReset v)
  | .routerKey => parseRouterKey d v t length
  | .errorReport => parseErrorReport d v t x length

/-- `parse_rtr_pdu` (rtr.rs 224-489). -/
def parsePdu (d : Bytes) : Except RtrErr (Pdu × Nat) :=
  if d.length < 8 then .error (.incomplete d.length 8)
  else do
    let vb ← idx d 0
    let tb ← idx d 1
    let x1 ← idx d 2
    let x2 ← idx d 3
    let length ← idx32 d 4
    if d.length < length.toNat then .error (.incomplete d.length length.toNat)
    else
      match RtrVersion.ofU8? vb with
      | none => .error (.badVersion vb)
      | some v =>
        match RtrType.ofU8? tb with
        | none => .error (.badType tb)
        | some ty => do
          let p ← parsePduBody d v ty tb (u16of x1 x2) length
          pure (p, length.toNat)

/-- the error of a failed `read_exact(..)?` (`From<io::Error> for RtrError`, rtr.rs 132-136): end of file or another. -/
def rtrStop : Stop → RtrErr
  | .failed k => .io k
  | _ => .io true

/-- `read_rtr_pdu` (rtr.rs 508-546). -/
def readPdu (s : Src) : Except RtrErr Pdu × Src :=
  match readExact 8 s with
  | (h, .full, s) =>
    match idx32 h 4, idx h 1 with
    | .ok len, .ok t =>
      if len.toNat < 8 then (.error (.badLength 8 len t), s)
      else if len.toNat > 131086 then (.error (.badLength 131086 len t), s)
      else
        match readExact (len.toNat - 8) s with
        | (b, .full, s) =>
          match parsePdu (h ++ b) with
          | .ok (p, _) => (.ok p, s)
          | .error e => (.error e, s)
        | (_, st, s) => (.error (rtrStop st), s)
    | _, _ => (.error .panic, s)
  | (_, st, s) => (.error (rtrStop st), s)

/-- the eight bytes every PDU begins with. -/
def rtrHead (v : RtrVersion) (t : RtrType) (x : UInt16) (len : UInt32) : Bytes :=
  v.toU8 :: t.toU8 :: (be16 x ++ be32 len)

/-- the `encode` functions (rtr.rs 582-759). `RTR_ROUTER_KEY_MIN_LEN + len as u32` panics in a debug build if it overflows;
`as u32` truncates. -/
def encodePdu : Pdu → Except EncErr Bytes
  | .serialNotify v s n => .ok (rtrHead v .serialNotify s 12 ++ be32 n)
  | .serialQuery v s n => .ok (rtrHead v .serialQuery s 12 ++ be32 n)
  | .resetQuery v => .ok (rtrHead v .resetQuery 0 8)
  | .cacheResponse v s => .ok (rtrHead v .cacheResponse s 8)
  | .ipv4Prefix v f l m p a => .ok (rtrHead v .ipv4Prefix 0 20 ++ (f :: l :: m :: 0 :: (p.toList ++ be32 a)))
  | .ipv6Prefix v f l m p a => .ok (rtrHead v .ipv6Prefix 0 32 ++ (f :: l :: m :: 0 :: (p.toList ++ be32 a)))
  | .endOfData v s n r t e =>
    .ok (rtrHead v .endOfData s (endOfDataLen v) ++ (be32 n ++
      (if v = .v1 then be32 (r.getD 3600) ++ (be32 (t.getD 600) ++ be32 (e.getD 7200)) else [])))
  | .cacheReset v => .ok (rtrHead v .cacheReset 0 8)
  | .routerKey v f k a spki =>
    if 34 + spki.length % 4294967296 > 4294967295 then .error .panic
    else .ok (rtrHead v .routerKey 0 (UInt32.ofNat (34 + spki.length)) ++ (f :: 0 :: (k.toList ++ (be32 a ++ spki))))
  | .errorReport v c p t =>
    .ok (rtrHead v .errorReport c.toU16 (UInt32.ofNat (16 + p.length + t.length)) ++
      (be32 (UInt32.ofNat p.length) ++ (p ++ (be32 (UInt32.ofNat t.length) ++ t))))

end Verif
