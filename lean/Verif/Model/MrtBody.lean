import Verif.Model.Bgp
/-
MRT message bodies: `/repo/src/parser/mrt/messages/*` and the types of `/repo/src/models/mrt/*`.
-/
namespace Verif

/-! ### strings and maps -/

/-- `str::from_utf8(..).is_ok()`: well-formed UTF-8 (Unicode table 3-7). A Rust `String` is represented by its bytes. -/
def utf8Ok : Bytes → Bool
  | [] => true
  | a :: r =>
    if a.toNat < 0x80 then utf8Ok r
    else if 0xC2 ≤ a.toNat ∧ a.toNat ≤ 0xDF then
      match r with
      | b :: r => 0x80 ≤ b.toNat && b.toNat ≤ 0xBF && utf8Ok r
      | _ => false
    else if 0xE0 ≤ a.toNat ∧ a.toNat ≤ 0xEF then
      match r with
      | b :: c :: r =>
        (if a = 0xE0 then 0xA0 else 0x80) ≤ b.toNat && b.toNat ≤ (if a = 0xED then 0x9F else 0xBF) &&
          0x80 ≤ c.toNat && c.toNat ≤ 0xBF && utf8Ok r
      | _ => false
    else if 0xF0 ≤ a.toNat ∧ a.toNat ≤ 0xF4 then
      match r with
      | b :: c :: d :: r =>
        (if a = 0xF0 then 0x90 else 0x80) ≤ b.toNat && b.toNat ≤ (if a = 0xF4 then 0x8F else 0xBF) &&
          0x80 ≤ c.toNat && c.toNat ≤ 0xBF && 0x80 ≤ d.toNat && d.toNat ≤ 0xBF && utf8Ok r
      | _ => false
    else false

/-- `bytes.map(|x| x as char).collect::<String>()`: each byte is one character, stored as UTF-8. -/
def latin1 (s : Bytes) : Bytes :=
  s.flatMap fun b => if b.toNat < 0x80 then [b] else [UInt8.ofNat (0xC0 + b.toNat / 64), UInt8.ofNat (0x80 + b.toNat % 64)]

/-- `HashMap::insert` on an association list without repeated keys. -/
def amInsert [DecidableEq κ] (k : κ) (v : ν) : List (κ × ν) → List (κ × ν)
  | [] => [(k, v)]
  | (k', v') :: r => if k' = k then (k, v) :: r else (k', v') :: amInsert k v r

/-- `HashMap::get`. -/
def amGet [DecidableEq κ] (k : κ) : List (κ × ν) → Option ν
  | [] => none
  | (k', v) :: r => if k' = k then some v else amGet k r

/-- insertion into a sorted list. -/
def sortInsert (x : UInt16) : List UInt16 → List UInt16
  | [] => [x]
  | y :: r => if x ≤ y then x :: y :: r else y :: sortInsert x r

/-- `Vec::sort` (any stable sort of `u16`s gives this list). -/
def sortU16 : List UInt16 → List UInt16
  | [] => []
  | x :: r => sortInsert x (sortU16 r)

/-- `for _ in 0..n { out.push(p(data)?) }`. -/
def rdTimes (p : Rd α) : Nat → Rd (List α)
  | 0 => pure []
  | n + 1 => do
    let a ← p
    let as ← rdTimes p n
    pure (a :: as)

/-! ### TABLE_DUMP_V2 peer tables -/

/-- `Peer` (src/models/mrt/table_dump_v2.rs 285-293); `peer_type` is the raw octet (`from_bits_retain`). -/
structure Peer where
  peerType : UInt8
  bgpId : V4
  ip : Ip
  asn : Asn
deriving DecidableEq, Repr

/-- `peer_type.contains(ADDRESS_FAMILY_IPV6)` -/
def peerIsV6 (t : UInt8) : Bool := t &&& 1 == 1
/-- `peer_type.contains(AS_SIZE_32BIT)` -/
def peerIsAs4 (t : UInt8) : Bool := t &&& 2 == 2

/-- `Peer::new` (src/models/mrt/table_dump_v2.rs 296-313). `fourByte` is `peer_asn.is_four_byte()`. -/
def Peer.new (id : V4) (ip : Ip) (asn : Asn) (fourByte : Bool) : Peer :=
  let t : UInt8 := if fourByte then 2 else 0
  ⟨if ip.isV4 then t else t ||| 1, id, ip, asn⟩

/-- `PeerIndexTable` (src/models/mrt/table_dump_v2.rs 170-178). -/
structure PeerIndexTable where
  collector : V4
  viewName : Bytes
  idPeer : List (UInt16 × Peer)
  ipId : List (Ip × UInt16)
deriving DecidableEq, Repr

/-- `PeerIndexTable::default` (src/models/mrt/table_dump_v2.rs 180-189). -/
def PeerIndexTable.empty : PeerIndexTable := ⟨v4zero, [], [], []⟩

/-- one peer entry (peer_index_table.rs 31-50). -/
def rdPeer : Rd Peer := do
  let t ← rdU8
  let id ← rdVec 4
  let ip ← rdAddr (if peerIsV6 t then .ipv6 else .ipv4)
  let asn ← rdAsn (if peerIsAs4 t then .b32 else .b16)
  pure ⟨t, id, ip, asn⟩

/-- the loop that fills the two maps (peer_index_table.rs 53-59); `i` is `id`. -/
def fillPeers (i : Nat) (t : PeerIndexTable) : List Peer → PeerIndexTable
  | [] => t
  | p :: ps =>
    fillPeers (i + 1) { t with idPeer := amInsert (UInt16.ofNat i) p t.idPeer,
                               ipId := amInsert p.ip (UInt16.ofNat i) t.ipId } ps

/-- `parse_peer_index_table` (peer_index_table.rs 22-67). -/
def parsePeerIndexTable : Rd PeerIndexTable := do
  let collector ← rdVec 4
  let n ← rdU16
  let name ← rdN n.toNat
  let name := if utf8Ok name then name else []
  let count ← rdU16
  let peers ← rdTimes rdPeer count.toNat
  pure (fillPeers 0 ⟨collector, name, [], []⟩ peers)

/-- `add_peer` (peer_index_table.rs 76-89). -/
def PeerIndexTable.addPeer (t : PeerIndexTable) (p : Peer) : Except EncErr (UInt16 × PeerIndexTable) :=
  match amGet p.ip t.ipId with
  | some id => .ok (id, t)
  | none =>
    let next := t.ipId.length
    match checkMax (next + 1) 65535 with
    | .error e => .error e
    | .ok _ =>
      .ok (UInt16.ofNat next, { t with ipId := amInsert p.ip (UInt16.ofNat next) t.ipId,
                                       idPeer := amInsert (UInt16.ofNat next) p t.idPeer })

/-- `get_peer_by_id` (peer_index_table.rs 100-102). -/
def PeerIndexTable.peer (t : PeerIndexTable) (id : UInt16) : Option Peer := amGet id t.idPeer

/-- `get_peer_id_by_addr` (peer_index_table.rs 124-126). -/
def PeerIndexTable.idOf (t : PeerIndexTable) (ip : Ip) : Option UInt16 := amGet ip t.ipId

/-- the peer entry written by `encode` (peer_index_table.rs 171-193): the address is written by its own family, the AS
number by the flag. -/
def encPeer (p : Peer) : Bytes :=
  p.peerType :: (p.bgpId.toList ++ (p.ip.octets ++ encAsn (if peerIsAs4 p.peerType then .b32 else .b16) p.asn))

/-- `PeerIndexTable::encode` (peer_index_table.rs 148-197). `get(id).unwrap()` cannot fail: the ids are the keys. -/
def encodePeerIndexTable (t : PeerIndexTable) : Except EncErr Bytes :=
  match u16Len t.viewName with
  | .error e => .error e
  | .ok name =>
    match checkMax t.idPeer.length 65535 with
    | .error e => .error e
    | .ok n =>
      .ok (t.collector.toList ++ (name ++ (be16 (UInt16.ofNat n) ++
        (sortU16 (t.idPeer.map Prod.fst)).flatMap fun id => match t.peer id with
          | some p => encPeer p
          | none => [])))

/-- `GeoPeer` (src/models/mrt/table_dump_v2.rs 199-206); an `f32` is its bit pattern, as in its `PartialEq`. -/
structure GeoPeer where
  peer : Peer
  lat : UInt32
  long : UInt32
deriving DecidableEq, Repr

/-- `GeoPeerTable` (src/models/mrt/table_dump_v2.rs 228-237). -/
structure GeoPeerTable where
  collector : V4
  viewName : Bytes
  lat : UInt32
  long : UInt32
  peers : List GeoPeer
deriving DecidableEq, Repr

/-- one entry of `parse_geo_peer_table` (geo_peer_table.rs 74-110). -/
def rdGeoPeer : Rd GeoPeer := do
  let t ← rdU8
  let id ← rdV4
  let ip ← (if peerIsV6 t then do let a ← rdV6; pure (Ip.v6 a) else do let a ← rdV4; pure (Ip.v4 a) : Rd Ip)
  let asn ← rdAsn (if peerIsAs4 t then .b32 else .b16)
  let lat ← rdU32
  let long ← rdU32
  pure ⟨⟨t, id, ip, asn⟩, lat, long⟩

/-- `parse_geo_peer_table` (geo_peer_table.rs 49-114). -/
def parseGeoPeerTable : Rd GeoPeerTable := do
  let collector ← rdV4
  let n ← rdU16
  let name ← rdN n.toNat
  let lat ← rdU32
  let long ← rdU32
  let count ← rdU16
  let peers ← rdTimes rdGeoPeer count.toNat
  pure ⟨collector, latin1 name, lat, long, peers⟩

/-- one entry of `GeoPeerTable::encode` (geo_peer_table.rs 165-199). -/
def encGeoPeer (g : GeoPeer) : Bytes := encPeer g.peer ++ (be32 g.lat ++ be32 g.long)

/-- `GeoPeerTable::encode` (geo_peer_table.rs 138-203). -/
def encodeGeoPeerTable (t : GeoPeerTable) : Except EncErr Bytes :=
  match u16Len t.viewName with
  | .error e => .error e
  | .ok name =>
    match checkMax t.peers.length 65535 with
    | .error e => .error e
    | .ok n =>
      .ok (t.collector.toList ++ (name ++ (be32 t.lat ++ (be32 t.long ++ (be16 (UInt16.ofNat n) ++
        t.peers.flatMap encGeoPeer)))))

/-! ### TABLE_DUMP_V2 RIB entries -/

/-- `TableDumpV2Type` (src/models/mrt/table_dump_v2.rs 38-55). -/
inductive V2Type where
  | peerIndexTable | v4Uni | v4Multi | v6Uni | v6Multi | generic | geo | v4UniAp | v4MultiAp | v6UniAp | v6MultiAp
  | genericAp
deriving DecidableEq, Repr

/-- the discriminants of `TableDumpV2Type`. -/
def V2Type.toU16 : V2Type → UInt16
  | .peerIndexTable => 1
  | .v4Uni => 2
  | .v4Multi => 3
  | .v6Uni => 4
  | .v6Multi => 5
  | .generic => 6
  | .geo => 7
  | .v4UniAp => 8
  | .v4MultiAp => 9
  | .v6UniAp => 10
  | .v6MultiAp => 11
  | .genericAp => 12

/-- `TableDumpV2Type::try_from(u16)`. -/
def V2Type.ofU16? (x : UInt16) : Option V2Type :=
  if x = 1 then some .peerIndexTable else if x = 2 then some .v4Uni else if x = 3 then some .v4Multi
  else if x = 4 then some .v6Uni else if x = 5 then some .v6Multi else if x = 6 then some .generic
  else if x = 7 then some .geo else if x = 8 then some .v4UniAp else if x = 9 then some .v4MultiAp
  else if x = 10 then some .v6UniAp else if x = 11 then some .v6MultiAp else if x = 12 then some .genericAp else none

/-- `RibEntry` (src/models/mrt/table_dump_v2.rs 150-156). -/
structure RibEntry where
  peerIndex : UInt16
  time : UInt32
  pathId : Option UInt32
  attributes : Attributes
deriving DecidableEq, Repr

/-- `RibAfiEntries` (src/models/mrt/table_dump_v2.rs 91-97). -/
structure RibAfi where
  ribType : V2Type
  seq : UInt32
  prefix_ : NetworkPrefix
  entries : List RibEntry
deriving DecidableEq, Repr

/-- `extract_afi_safi_from_rib_type` (rib_afi_entries.rs 12-40). -/
def V2Type.family : V2Type → Option (Afi × Safi)
  | .v4Uni | .v4UniAp => some (.ipv4, .unicast)
  | .v4Multi | .v4MultiAp => some (.ipv4, .multicast)
  | .v6Uni | .v6UniAp => some (.ipv6, .unicast)
  | .v6Multi | .v6MultiAp => some (.ipv6, .multicast)
  | _ => none

/-- `is_add_path_rib_type` (rib_afi_entries.rs 42-50). -/
def V2Type.addPath : V2Type → Bool
  | .v4UniAp | .v4MultiAp | .v6UniAp | .v6MultiAp => true
  | _ => false

/-- `parse_rib_entry` (rib_afi_entries.rs 125-169). -/
def rdRibEntry (addPath : Bool) (afi : Afi) (safi : Safi) (p : NetworkPrefix) : Rd RibEntry := do
  let rem ← Rd.remaining
  if rem < 8 then Rd.fail .truncated else do
  let peer ← rdU16
  let time ← rdU32
  let pathId ← (if addPath then do let i ← rdU32; pure (some i) else pure none : Rd (Option UInt32))
  let len ← rdU16
  needN len.toNat
  let d ← splitTo len.toNat
  let as ← Rd.lift (parseAttributes ⟨.b32, addPath, some afi, some safi, some [p]⟩ d)
  pure ⟨peer, time, pathId, as.checkMandatory true (afi == .ipv4)⟩

/-- the entry loop (rib_afi_entries.rs 84-96): stops at the first error and keeps the entries before it. A panic is not
caught. -/
def ribLoop (p : Rd RibEntry) : Nat → Bytes → Except Err (List RibEntry)
  | 0, _ => .ok []
  | n + 1, s =>
    match p s with
    | .error .panic => .error .panic
    | .error _ => .ok []
    | .ok (e, r) =>
      match ribLoop p n r with
      | .ok es => .ok (e :: es)
      | .error e => .error e

/-- `parse_rib_afi_entries` (rib_afi_entries.rs 59-104). The capacity reserved in advance is not modelled. -/
def parseRibAfi (t : V2Type) (s : Bytes) : Except Err RibAfi :=
  match t.family with
  | none => .error .parse
  | some (afi, safi) =>
    (do
      let seq ← rdU32
      let p ← tryParsePrefix afi false
      let n ← rdU16
      let rest ← Rd.peek
      let es ← Rd.lift (ribLoop (rdRibEntry t.addPath afi safi p) n.toNat rest)
      pure ⟨t, seq, p, es⟩ : Rd RibAfi).runOn s

/-- `encode_for_rib_type` (rib_afi_entries.rs 198-213). -/
def encRibEntry (addPath : Bool) (e : RibEntry) : Except EncErr Bytes :=
  match encodeAttributes .b32 e.attributes.inner with
  | .error x => .error x
  | .ok ab =>
    match u16Len ab with
    | .error x => .error x
    | .ok a => .ok (be16 e.peerIndex ++ (be32 e.time ++ ((if addPath then encPathId e.pathId else []) ++ a)))

/-- `RibAfiEntries::encode` (rib_afi_entries.rs 172-188). -/
def encodeRibAfi (r : RibAfi) : Except EncErr Bytes :=
  match checkMax r.entries.length 65535 with
  | .error e => .error e
  | .ok n =>
    match encAll (encRibEntry r.ribType.addPath) r.entries with
    | .error e => .error e
    | .ok es => .ok (be32 r.seq ++ (r.prefix_.encode ++ (be16 (UInt16.ofNat n) ++ es)))

/-- `RibGenericEntries` (src/models/mrt/table_dump_v2.rs 117-125): has neither a parser nor an encoder. -/
structure RibGeneric where
  seq : UInt32
  afi : Afi
  safi : Safi
  nlri : NetworkPrefix
  entries : List RibEntry
deriving DecidableEq, Repr

/-- `TableDumpV2Message` (src/models/mrt/table_dump_v2.rs 10-19). -/
inductive TableDumpV2 where
  | peerIndexTable (t : PeerIndexTable)
  | ribAfi (r : RibAfi)
  | ribGeneric (r : RibGeneric)
  | geo (t : GeoPeerTable)
deriving DecidableEq, Repr

/-- `parse_table_dump_v2_message` (table_dump_v2/mod.rs 29-61). -/
def parseTableDumpV2 (subtype : UInt16) (s : Bytes) : Except Err TableDumpV2 :=
  match V2Type.ofU16? subtype with
  | none => .error .parse
  | some .peerIndexTable => mapOk .peerIndexTable (parsePeerIndexTable.runOn s)
  | some .generic => .error .unsupported
  | some .genericAp => .error .unsupported
  | some .geo => mapOk .geo (parseGeoPeerTable.runOn s)
  | some t => mapOk .ribAfi (parseRibAfi t s)

/-! ### TABLE_DUMP -/

/-- `TableDumpMessage` (src/models/mrt/table_dump.rs 6-17). -/
structure TableDump where
  view : UInt16
  seq : UInt16
  prefix_ : NetworkPrefix
  status : UInt8
  time : UInt64
  peerIp : Ip
  peerAsn : Asn
  attributes : Attributes
deriving DecidableEq, Repr

/-- `read_ipv4_prefix`, `read_ipv6_prefix` (src/parser/utils.rs 96-112): address and mask; a bad mask is an `io::Error`.
The callers pass IPv4 or IPv6. -/
def rdFullPrefix (v4 : Bool) : Rd IpNet := do
  let ip ← (if v4 then do let a ← rdV4; pure (Ip.v4 a) else do let a ← rdV6; pure (Ip.v6 a) : Rd Ip)
  let len ← rdU8
  match IpNet.new? ip len with
  | some n => pure n
  | none => Rd.fail .io

/-- `parse_table_dump_entry` (table_dump.rs 108-162). -/
def rdTableDumpEntry (v4 : Bool) (view seq : UInt16) : Rd TableDump := do
  let p ← rdFullPrefix v4
  let status ← rdU8
  let time ← rdU32
  let ip ← rdAddr (if v4 then .ipv4 else .ipv6)
  let asn ← rdU16
  let len ← rdU16
  needN len.toNat
  let d ← splitTo len.toNat
  let as ← Rd.lift (parseAttributes ⟨.b16, false, none, none, none⟩ d)
  pure ⟨view, seq, ⟨p, none⟩, status, time.toUInt64, ip, asn.toUInt32, as.checkMandatory true v4⟩

/-- `parse_table_dump_messages` (table_dump.rs 56-106). -/
def parseTableDumps (subtype : UInt16) (s : Bytes) : Except Err (List TableDump) :=
  if subtype = 1 ∨ subtype = 2 then
    (do
      let view ← rdU16
      let seq ← rdU16
      let rest ← Rd.peek
      let ms ← Rd.lift (many (rdTableDumpEntry (subtype = 1) view seq) rest)
      if ms.isEmpty then Rd.fail .truncated else pure ms : Rd (List TableDump)).runOn s
  else .error .parse

/-- `parse_table_dump_message` (table_dump.rs 38-50). -/
def parseTableDump (subtype : UInt16) (s : Bytes) : Except Err TableDump :=
  match parseTableDumps subtype s with
  | .error e => .error e
  | .ok [m] => .ok m
  | .ok _ => .error .parse

/-- `encode_entry_to` (table_dump.rs 173-205): `originated_time as u32` and `u16::from(peer_asn)` truncate. -/
def encTableDumpEntry (m : TableDump) : Except EncErr Bytes :=
  match encodeAttributes .b16 m.attributes.inner with
  | .error x => .error x
  | .ok ab =>
    match u16Len ab with
    | .error x => .error x
    | .ok a => .ok (m.prefix_.prefix_.addr.octets ++ (m.prefix_.prefix_.len :: m.status :: (be32 m.time.toUInt32 ++
        (m.peerIp.octets ++ (be16 m.peerAsn.toUInt16 ++ a)))))

/-- `TableDumpMessage::encode` (table_dump.rs 165-171). -/
def encodeTableDump (m : TableDump) : Except EncErr Bytes :=
  match encTableDumpEntry m with
  | .error e => .error e
  | .ok b => .ok (be16 m.view ++ (be16 m.seq ++ b))

/-- one round of the loop of `encode_table_dump_batch` (table_dump.rs 232-251). -/
def encBatchEntry (view seq : UInt16) (v4 : Bool) (m : TableDump) : Except EncErr Bytes :=
  if m.view ≠ view ∨ m.seq ≠ seq then .error .unencodable
  else if m.prefix_.prefix_.addr.isV4 ≠ v4 ∨ m.peerIp.isV4 ≠ v4 then .error .unencodable
  else encTableDumpEntry m

/-- `encode_table_dump_batch` (table_dump.rs 208-253). -/
def encodeTableDumpBatch (ms : List TableDump) (subtype : UInt16) : Except EncErr Bytes :=
  match ms with
  | [] => .error .unencodable
  | m :: _ =>
    if subtype = 1 ∨ subtype = 2 then
      match encAll (encBatchEntry m.view m.seq (subtype = 1)) ms with
      | .error e => .error e
      | .ok b => .ok (be16 m.view ++ (be16 m.seq ++ b))
    else .error .unencodable

/-- the two bytes of the attribute length field at `off`, if they are within the buffer. -/
def attrLenAt (d : Bytes) (off : Nat) : Option Nat :=
  match d.drop off with
  | a :: b :: _ => some (u16of a b).toNat
  | _ => none

/-- the `while` loop of `needs_legacy_length_correction` (table_dump.rs 277-301), over the bytes from `offset` on; the
`checked_add`s cannot fail for buffers below 2^63 bytes, and `entry_end <= offset` cannot hold. Fuel: the buffer length;
each round advances by at least 18. -/
def legacyLoop (fixed : Nat) : Nat → Bytes → Bool
  | 0, _ => false
  | fuel + 1, d =>
    if d.isEmpty then false
    else match attrLenAt d (fixed - 2) with
      | none => false
      | some n =>
        if fixed + n = d.length + 4 then true
        else if fixed + n > d.length then false
        else legacyLoop fixed fuel (d.drop (fixed + n))

/-- `needs_legacy_length_correction` (table_dump.rs 264-302). -/
def needsLegacyCorrection (subtype : UInt16) (d : Bytes) : Bool :=
  if subtype = 1 ∨ subtype = 2 then
    if d.length < 4 then false
    else legacyLoop (if subtype = 1 then 18 else 42) d.length (d.drop 4)
  else false

/-! ### BGP4MP -/

/-- `BgpState` (src/models/mrt/bgp4mp.rs 13-23). -/
inductive BgpState where
  | idle | connect | active | openSent | openConfirm | established | clearing | deleted
deriving DecidableEq, Repr

/-- the discriminants of `BgpState`. -/
def BgpState.toU16 : BgpState → UInt16
  | .idle => 1
  | .connect => 2
  | .active => 3
  | .openSent => 4
  | .openConfirm => 5
  | .established => 6
  | .clearing => 7
  | .deleted => 8

/-- `BgpState::try_from(u16)`. -/
def BgpState.ofU16? (x : UInt16) : Option BgpState :=
  if x = 1 then some .idle else if x = 2 then some .connect else if x = 3 then some .active
  else if x = 4 then some .openSent else if x = 5 then some .openConfirm else if x = 6 then some .established
  else if x = 7 then some .clearing else if x = 8 then some .deleted else none

/-- `BgpState::try_from(input.read_u16()?)?`. -/
def rdState : Rd BgpState := do
  let x ← rdU16
  match BgpState.ofU16? x with
  | some s => pure s
  | none => Rd.fail .parse

/-- `Bgp4MpType` (src/models/mrt/bgp4mp.rs 42-55). -/
inductive MpType where
  | stateChange | message | messageAs4 | stateChangeAs4 | messageLocal | messageAs4Local | messageAp | messageAs4Ap
  | messageLocalAp | messageLocalAs4Ap
deriving DecidableEq, Repr

/-- the discriminants of `Bgp4MpType`. -/
def MpType.toU16 : MpType → UInt16
  | .stateChange => 0
  | .message => 1
  | .messageAs4 => 4
  | .stateChangeAs4 => 5
  | .messageLocal => 6
  | .messageAs4Local => 7
  | .messageAp => 8
  | .messageAs4Ap => 9
  | .messageLocalAp => 10
  | .messageLocalAs4Ap => 11

/-- `Bgp4MpType::try_from(u16)`. -/
def MpType.ofU16? (x : UInt16) : Option MpType :=
  if x = 0 then some .stateChange else if x = 1 then some .message else if x = 4 then some .messageAs4
  else if x = 5 then some .stateChangeAs4 else if x = 6 then some .messageLocal else if x = 7 then some .messageAs4Local
  else if x = 8 then some .messageAp else if x = 9 then some .messageAs4Ap else if x = 10 then some .messageLocalAp
  else if x = 11 then some .messageLocalAs4Ap else none

/-- `Bgp4MpStateChange` (src/models/mrt/bgp4mp.rs 58-70). -/
structure MpStateChange where
  msgType : MpType
  peerAsn : Asn
  localAsn : Asn
  iface : UInt16
  peerIp : Ip
  localIp : Ip
  old : BgpState
  new : BgpState
deriving DecidableEq, Repr

/-- `Bgp4MpMessage` (src/models/mrt/bgp4mp.rs 73-84). -/
structure MpMessage where
  msgType : MpType
  peerAsn : Asn
  localAsn : Asn
  iface : UInt16
  peerIp : Ip
  localIp : Ip
  message : BgpMessage
deriving DecidableEq, Repr

/-- `Bgp4MpMessage::is_local` (src/models/mrt/bgp4mp.rs 87-95). -/
def MpMessage.isLocal (m : MpMessage) : Bool :=
  m.msgType == .messageLocal || m.msgType == .messageAs4Local || m.msgType == .messageLocalAp
    || m.msgType == .messageLocalAs4Ap

/-- `Bgp4MpEnum` (src/models/mrt/bgp4mp.rs 26-31). -/
inductive Bgp4Mp where
  | stateChange (m : MpStateChange)
  | message (m : MpMessage)
deriving DecidableEq, Repr

/-- `is_short_zebra_open` (bgp4mp.rs 9-18). -/
def isShortZebraOpen (d : Bytes) (l : AsnLen) : Bool :=
  l == .b16 && decide (23 ≤ d.length) && (d.drop 4).take 16 == List.replicate 16 0xFF && d[22]? == some 1

/-- `uses_zebra_compat` (bgp4mp.rs 20-32). -/
def usesZebraCompat (subtype : UInt16) (d : Bytes) : Bool :=
  match MpType.ofU16? subtype with
  | some .stateChange => d.length == 8
  | some .message | some .messageLocal | some .messageAp | some .messageLocalAp => isShortZebraOpen d .b16
  | _ => false

/-- `validate_bgp4mp_afi` (bgp4mp.rs 116-123). -/
def validMpAfi (afi : Afi) : Except Err Unit :=
  match afi with
  | .linkState => .error .parse
  | _ => .ok ()

/-- `bgp4mp_message_payload_len` (bgp4mp.rs 125-149); Lean's `-` on `Nat` is `saturating_sub`. -/
def mpPayloadLen (afi : Afi) (l : AsnLen) (total : Nat) : Nat :=
  total - (2 * l.bytes) - 2 - 2 - (if afi = .ipv4 then 8 else 32)

/-- `parse_bgp4mp_message` (bgp4mp.rs 164-218). -/
def parseMpMessage (addPath : Bool) (l : AsnLen) (t : MpType) (s : Bytes) : Except Err MpMessage :=
  (do
    let peer ← rdAsn l
    let loc ← rdAsn l
    if isShortZebraOpen s l then do
      let m ← parseBgpMessage addPath l
      pure ⟨t, peer, loc, 0, .v4 v4zero, .v4 v4zero, m⟩
    else do
      let i ← rdU16
      let afi ← rdAfi
      Rd.lift (validMpAfi afi)
      let peerIp ← rdAddr afi
      let localIp ← rdAddr afi
      let rem ← Rd.remaining
      if mpPayloadLen afi l s.length ≠ rem then Rd.fail .truncated else do
      let m ← parseBgpMessage addPath l
      pure ⟨t, peer, loc, i, peerIp, localIp, m⟩ : Rd MpMessage).runOn s

/-- `address_family` (src/models/mrt/bgp4mp.rs 97-102). -/
def addressFamily (ip : Ip) : UInt16 := if ip.isV4 then 1 else 2

/-- the fields shared by both `encode`s (bgp4mp.rs 223-228, 305-310). -/
def mpHead (l : AsnLen) (peer loc : Asn) (i : UInt16) (peerIp localIp : Ip) : Bytes :=
  encAsn l peer ++ (encAsn l loc ++ (be16 i ++ (be16 (addressFamily peerIp) ++ (peerIp.octets ++ localIp.octets))))

/-- `Bgp4MpMessage::encode` (bgp4mp.rs 220-232). -/
def encodeMpMessage (l : AsnLen) (m : MpMessage) : Except EncErr Bytes :=
  match encodeBgpMessage l m.message with
  | .error e => .error e
  | .ok b => .ok (mpHead l m.peerAsn m.localAsn m.iface m.peerIp m.localIp ++ b)

/-- `parse_bgp4mp_state_change` (bgp4mp.rs 256-300). -/
def parseMpStateChange (l : AsnLen) (t : MpType) (s : Bytes) : Except Err MpStateChange :=
  (do
    let peer ← rdAsn l
    let loc ← rdAsn l
    if l = .b16 ∧ s.length = 8 then do
      let old ← rdState
      let new ← rdState
      pure ⟨t, peer, loc, 0, .v4 v4zero, .v4 v4zero, old, new⟩
    else do
      let i ← rdU16
      let afi ← rdAfi
      Rd.lift (validMpAfi afi)
      let peerIp ← rdAddr afi
      let localIp ← rdAddr afi
      let old ← rdState
      let new ← rdState
      pure ⟨t, peer, loc, i, peerIp, localIp, old, new⟩ : Rd MpStateChange).runOn s

/-- `Bgp4MpStateChange::encode` (bgp4mp.rs 302-315). -/
def encodeMpStateChange (l : AsnLen) (m : MpStateChange) : Bytes :=
  mpHead l m.peerAsn m.localAsn m.iface m.peerIp m.localIp ++ (be16 m.old.toU16 ++ be16 m.new.toU16)

/-- `parse_bgp4mp` (bgp4mp.rs 38-68). -/
def parseBgp4Mp (subtype : UInt16) (s : Bytes) : Except Err Bgp4Mp :=
  match MpType.ofU16? subtype with
  | none => .error .parse
  | some t => match t with
    | .stateChange => mapOk .stateChange (parseMpStateChange .b16 t s)
    | .stateChangeAs4 => mapOk .stateChange (parseMpStateChange .b32 t s)
    | .message | .messageLocal => mapOk .message (parseMpMessage false .b16 t s)
    | .messageAs4 | .messageAs4Local => mapOk .message (parseMpMessage false .b32 t s)
    | .messageAp | .messageLocalAp => mapOk .message (parseMpMessage true .b16 t s)
    | .messageAs4Ap | .messageLocalAs4Ap => mapOk .message (parseMpMessage true .b32 t s)

/-! ### the deprecated type 5 -/

/-- `LegacyBgpMessage` (src/models/mrt/legacy_bgp.rs 21-29). -/
structure LegacyMessage where
  peerAsn : Asn
  peerIp : Ip
  localAsn : Asn
  localIp : Ip
  message : BgpMessage
deriving DecidableEq, Repr

/-- `LegacyBgpStateChange` (src/models/mrt/legacy_bgp.rs 32-39). -/
structure LegacyStateChange where
  peerAsn : Asn
  peerIp : Ip
  old : BgpState
  new : BgpState
deriving DecidableEq, Repr

/-- `LegacyBgp` (src/models/mrt/legacy_bgp.rs 13-18). -/
inductive LegacyBgp where
  | message (m : LegacyMessage)
  | stateChange (m : LegacyStateChange)
deriving DecidableEq, Repr

/-- the embedded message (legacy_bgp.rs 36-51). -/
def parseLegacyPayload (subtype : UInt16) (d : Bytes) : Except Err BgpMessage :=
  if subtype = 1 then mapOk .update (parseUpdate false .b16 d)
  else if subtype = 5 then mapOk .open (parseOpen d)
  else if subtype = 6 then mapOk .notification (parseNotification d)
  else if d.isEmpty then .ok .keepAlive else .error .parse

/-- `parse_legacy_bgp` (legacy_bgp.rs 28-83). -/
def parseLegacyBgp (subtype : UInt16) (s : Bytes) : Except Err LegacyBgp :=
  if subtype = 1 ∨ subtype = 5 ∨ subtype = 6 ∨ subtype = 7 then
    (do
      let peer ← rdU16
      let peerIp ← rdV4
      let loc ← rdU16
      let localIp ← rdV4
      let rest ← Rd.peek
      let m ← Rd.lift (parseLegacyPayload subtype rest)
      pure (.message ⟨peer.toUInt32, .v4 peerIp, loc.toUInt32, .v4 localIp, m⟩) : Rd LegacyBgp).runOn s
  else if subtype = 3 then
    (do
      let peer ← rdU16
      let peerIp ← rdV4
      let old ← rdState
      let new ← rdState
      let rem ← Rd.remaining
      if rem > 0 then Rd.fail .parse else
      pure (.stateChange ⟨peer.toUInt32, .v4 peerIp, old, new⟩) : Rd LegacyBgp).runOn s
  else .error .unsupported

/-- `asn16` (legacy_bgp.rs 162-166). -/
def asn16 (a : Asn) : Except EncErr Bytes :=
  if a.toNat ≤ 65535 then .ok (be16 a.toUInt16) else .error (.tooLarge a.toNat 65535)

/-- `ipv4` (legacy_bgp.rs 168-176). -/
def legacyIp (a : Ip) : Except EncErr Bytes :=
  match a with
  | .v4 o => .ok o.toList
  | .v6 _ => .error .unencodable

/-- concatenation of the parts of an encoding, with the first error. -/
def encParts : List (Except EncErr Bytes) → Except EncErr Bytes
  | [] => .ok []
  | x :: xs =>
    match x with
    | .error e => .error e
    | .ok b =>
      match encParts xs with
      | .error e => .error e
      | .ok bs => .ok (b ++ bs)

/-- the payload part of `encode_legacy_bgp` (legacy_bgp.rs 88-134). -/
def encLegacyPayload (subtype : UInt16) (m : BgpMessage) : Except EncErr Bytes :=
  match m with
  | .update u => if subtype = 1 then encodeUpdate .b16 u else .error .unencodable
  | .open o => if subtype = 5 then encodeOpen o else .error .unencodable
  | .notification n => if subtype = 6 then .ok (encodeNotification n) else .error .unencodable
  | .keepAlive => if subtype = 7 then .ok [] else .error .unencodable
  | .routeRefresh _ => .error .unencodable

/-- `encode_legacy_bgp`, `encode_peer_envelope` (legacy_bgp.rs 85-160). -/
def encodeLegacyBgp (m : LegacyBgp) (subtype : UInt16) : Except EncErr Bytes :=
  match m with
  | .message m =>
    if subtype = 1 ∨ subtype = 5 ∨ subtype = 6 ∨ subtype = 7 then
      encParts [asn16 m.peerAsn, legacyIp m.peerIp, asn16 m.localAsn, legacyIp m.localIp,
        encLegacyPayload subtype m.message]
    else .error .unencodable
  | .stateChange c =>
    if subtype = 3 then encParts [asn16 c.peerAsn, legacyIp c.peerIp, .ok (be16 c.old.toU16), .ok (be16 c.new.toU16)]
    else .error .unencodable

/-! ### all bodies -/

/-- `MrtMessage` (src/models/mrt/mod.rs 205-215). -/
inductive MrtMessage where
  | tableDump (m : TableDump)
  | tableDumpBatch (ms : List TableDump)
  | tableDumpV2 (m : TableDumpV2)
  | bgp4mp (m : Bgp4Mp)
  | legacyBgp (m : LegacyBgp)
deriving DecidableEq, Repr

/-- `EntryType` (src/models/mrt/mod.rs 243-268). -/
inductive EntryType where
  | null | start | die | iAmDead | peerDown | bgp | rip | idrp | ripng | bgp4plus | bgp4plus01 | ospfv2 | tableDump
  | tableDumpV2 | bgp4mp | bgp4mpEt | isis | isisEt | ospfv3 | ospfv3Et
deriving DecidableEq, Repr

/-- the discriminants of `EntryType`. -/
def EntryType.toU16 : EntryType → UInt16
  | .null => 0
  | .start => 1
  | .die => 2
  | .iAmDead => 3
  | .peerDown => 4
  | .bgp => 5
  | .rip => 6
  | .idrp => 7
  | .ripng => 8
  | .bgp4plus => 9
  | .bgp4plus01 => 10
  | .ospfv2 => 11
  | .tableDump => 12
  | .tableDumpV2 => 13
  | .bgp4mp => 16
  | .bgp4mpEt => 17
  | .isis => 32
  | .isisEt => 33
  | .ospfv3 => 48
  | .ospfv3Et => 49

/-- all `EntryType`s. -/
def entryTypes : List EntryType :=
  [.null, .start, .die, .iAmDead, .peerDown, .bgp, .rip, .idrp, .ripng, .bgp4plus, .bgp4plus01, .ospfv2, .tableDump,
   .tableDumpV2, .bgp4mp, .bgp4mpEt, .isis, .isisEt, .ospfv3, .ospfv3Et]

/-- `EntryType::try_from(u16)`. -/
def EntryType.ofU16? (x : UInt16) : Option EntryType := entryTypes.find? fun t => t.toU16 == x

/-- `parse_mrt_body` (mrt_record.rs 312-355), after `EntryType::try_from`, which cannot fail for its callers. -/
def parseMrtBody (t : EntryType) (subtype : UInt16) (d : Bytes) : Except Err MrtMessage :=
  match t with
  | .tableDump =>
    match parseTableDumps subtype d with
    | .error e => .error e
    | .ok [m] => .ok (.tableDump m)
    | .ok ms => .ok (.tableDumpBatch ms)
  | .tableDumpV2 => mapOk .tableDumpV2 (parseTableDumpV2 subtype d)
  | .bgp4mp | .bgp4mpEt => mapOk .bgp4mp (parseBgp4Mp subtype d)
  | .bgp => mapOk .legacyBgp (parseLegacyBgp subtype d)
  | _ => .error .unsupported

/-- `MrtMessage::encode` (messages/mod.rs 11-67). -/
def encodeMrtMessage (m : MrtMessage) (subtype : UInt16) : Except EncErr Bytes :=
  match m with
  | .tableDump m => encodeTableDump m
  | .tableDumpBatch ms => encodeTableDumpBatch ms subtype
  | .tableDumpV2 (.peerIndexTable t) => encodePeerIndexTable t
  | .tableDumpV2 (.ribAfi r) => encodeRibAfi r
  | .tableDumpV2 (.ribGeneric _) => .error .unencodable
  | .tableDumpV2 (.geo t) => encodeGeoPeerTable t
  | .bgp4mp m =>
    match MpType.ofU16? subtype with
    | none => .error .unencodable
    | some t =>
      match m with
      | .stateChange m => .ok (encodeMpStateChange (if t = .stateChangeAs4 then .b32 else .b16) m)
      | .message m =>
        encodeMpMessage (if t = .messageAs4 ∨ t = .messageAs4Ap ∨ t = .messageLocalAs4Ap ∨ t = .messageAs4Local
          then .b32 else .b16) m
  | .legacyBgp m => encodeLegacyBgp m subtype

end Verif
