import Verif.Model.MrtBody
/-
MRT framing and the record iterators: `/repo/src/parser/mrt/{mrt_header,mrt_record}.rs`, `/repo/src/parser/iters/*`.

The underlying reader (`impl Read`) is an arbitrary, finite history of results of `read` calls, after which it either
returns `Ok(0)` for ever or fails for ever.
-/
namespace Verif

/-! ### the reader -/

/-- One thing the underlying reader has to say: a non-empty chunk of data is available, `ErrorKind::Interrupted`, an
`Ok(0)` (end of file for now), or another error, with the flag saying whether its kind is `UnexpectedEof`. -/
inductive Ev where
  | data (b : UInt8) (bs : Bytes)
  | interrupted
  | zero
  | fail (eof : Bool)
deriving DecidableEq, Repr

/-- A reader: what it will say, and whether it fails for ever after that (`none`: `Ok(0)` for ever). -/
structure Src where
  evs : List Ev
  stuck : Option Bool
deriving DecidableEq, Repr

/-- The result of one `read` call. -/
inductive ReadRes where
  | got (c : Bytes)
  | zero
  | interrupted
  | failed (eof : Bool)
deriving DecidableEq, Repr

/-- put the rest of a chunk back. -/
def push (c : Bytes) (evs : List Ev) : List Ev :=
  match c with
  | [] => evs
  | b :: bs => .data b bs :: evs

/-- `Read::read` with a buffer of `n > 0` bytes: at most `n` bytes of the chunk at hand; the rest of it stays. -/
def Src.read (s : Src) (n : Nat) : ReadRes × Src :=
  match s.evs with
  | [] => (match s.stuck with | none => .zero | some k => .failed k, s)
  | .data b bs :: r => (.got ((b :: bs).take n), { s with evs := push ((b :: bs).drop n) r })
  | .interrupted :: r => (.interrupted, { s with evs := r })
  | .zero :: r => (.zero, { s with evs := r })
  | .fail k :: r => (.failed k, { s with evs := r })

/-- a bound for the number of `read` calls before the reader is at its end. -/
def Src.size (s : Src) : Nat :=
  (s.evs.map fun e => match e with | .data _ bs => bs.length + 1 | _ => 1).sum

/-- `trait Read`: `read` into a buffer of `n > 0` bytes, and a bound for the number of calls before the reader is at its
end, which serves as fuel for the loops. -/
class Reader (ρ : Type) where
  read : ρ → Nat → ReadRes × ρ
  size : ρ → Nat

instance : Reader Src := ⟨Src.read, Src.size⟩

/-- How a read loop ended: all bytes are there; `Ok(0)`; an error. -/
inductive Stop where
  | full
  | short
  | failed (eof : Bool)
deriving DecidableEq, Repr

/-- The sizes of the buffers a loop offers to `read`, given the number of bytes it wants in total and the sizes it has
received so far (0 for an interrupted call). -/
abbrev Pol := Nat → List Nat → Nat

/-- the loop of `std::io::Read::read_exact` and of `Take::read_to_end`: `read` into a buffer of some positive size, at most
the number `n` of bytes still wanted, until they are there; `Interrupted` is retried. -/
def readLoop [Reader ρ] (pol : Pol) (total : Nat) : Nat → List Nat → Nat → ρ → Bytes × Stop × ρ
  | 0, _, _, s => ([], .failed false, s)
  | _ + 1, _, 0, s => ([], .full, s)
  | fuel + 1, hist, n + 1, s =>
    match Reader.read s (max 1 (min (n + 1) (pol total hist))) with
    | (.got c, s) =>
      let (b, st, s) := readLoop pol total fuel (c.length :: hist) (n + 1 - c.length) s
      (c ++ b, st, s)
    | (.zero, s) => ([], .short, s)
    | (.interrupted, s) => readLoop pol total fuel (0 :: hist) (n + 1) s
    | (.failed k, s) => ([], .failed k, s)

/-- `read_exact` into a buffer of `n` bytes: the bytes read (also those before an error), how it ended, the reader
afterwards. The buffer offered is the rest of the whole buffer. -/
def readExact [Reader ρ] (n : Nat) (s : ρ) : Bytes × Stop × ρ := readLoop (fun total _ => total) n (Reader.size s + 1) [] n s

/-- `take(n).read_to_end`; the buffer sizes depend on the allocator strategy of `std`, they are the parameter `pol`. -/
def readUpTo [Reader ρ] (pol : Pol) (n : Nat) (s : ρ) : Bytes × Stop × ρ := readLoop pol n (Reader.size s + 1) [] n s

/-! ### the common header -/

/-- `CommonHeader` (src/models/mrt/mod.rs 79-85). -/
structure Header where
  time : UInt32
  micro : Option UInt32
  type : EntryType
  subtype : UInt16
  length : UInt32
deriving DecidableEq, Repr

/-- `PartialEq for CommonHeader` (src/models/mrt/mod.rs 87-96): everything but the length. -/
def Header.same (a b : Header) : Bool :=
  a.time == b.time && a.micro == b.micro && a.type == b.type && a.subtype == b.subtype

/-- the twelve octets `RawMrtCommonHeader` (mrt_header.rs 10-16). -/
def rdBaseHeader : Rd (UInt32 × UInt16 × UInt16 × UInt32) := do
  let time ← rdU32
  let type ← rdU16
  let subtype ← rdU16
  let length ← rdU32
  pure (time, type, subtype, length)

/-- the error of a failed `read_exact(..)?` (`From<io::Error> for ParserError`, error.rs 181-188). -/
def stopErr : Stop → Err
  | .failed false => .io
  | _ => .eof

/-- `parse_common_header_with_bytes` (mrt_header.rs 120-165) on a `CapturingReader` (mrt_record.rs 248-259): all bytes
read, the result with the raw header bytes, the reader. -/
def parseHeader [Reader ρ] (s : ρ) : Bytes × Except Err (Header × Bytes) × ρ :=
  match readExact 12 s with
  | (b, .full, s) =>
    match rdBaseHeader b with
    | .error e => (b, .error e, s)
    | .ok ((time, type, subtype, length), _) =>
      match EntryType.ofU16? type with
      | none => (b, .error .parse, s)
      | some .bgp4mpEt =>
        if length < 4 then (b, .error .parse, s)
        else
          match readExact 4 s with
          | (m, .full, s) =>
            match rdU32 m with
            | .error e => (b ++ m, .error e, s)
            | .ok (micro, _) => (b ++ m, .ok (⟨time, some micro, .bgp4mpEt, subtype, length - 4⟩, b ++ m), s)
          | (m, st, s) => (b ++ m, .error (stopErr st), s)
      | some t => (b, .ok (⟨time, none, t, subtype, length⟩, b), s)
  | (b, st, s) => (b, .error (stopErr st), s)

/-- `CommonHeader::encode` (mrt_header.rs 33-66, 167-171). `header.length + 4` overflows for lengths above `u32::MAX - 4`
(a panic in debug builds). -/
def encodeHeader (h : Header) : Except EncErr Bytes :=
  match h.micro with
  | none => .ok (be32 h.time ++ (be16 h.type.toU16 ++ (be16 h.subtype ++ be32 h.length)))
  | some m =>
    if h.length.toNat + 4 > 4294967295 then .error .panic
    else .ok (be32 h.time ++ (be16 h.type.toU16 ++ (be16 h.subtype ++ (be32 (h.length + 4) ++ be32 m))))

/-! ### records -/

/-- `RawMrtRecord` (mrt_record.rs 22-29). -/
structure Raw where
  header : Header
  headerBytes : Bytes
  body : Bytes
deriving DecidableEq, Repr

/-- `RawMrtRecord::raw_bytes` (mrt_record.rs 66-71). -/
def Raw.bytes (r : Raw) : Bytes := r.headerBytes ++ r.body

/-- `RawMrtRecord::total_bytes_len` (mrt_record.rs 119-121). -/
def Raw.totalLen (r : Raw) : Nat := r.headerBytes.length + r.body.length

/-- `MrtRecord` (src/models/mrt/mod.rs). -/
structure MrtRecord where
  header : Header
  message : MrtMessage
deriving DecidableEq, Repr

/-- `RawMrtRecordError` (mrt_record.rs 32-36). -/
structure ChunkErr where
  error : Err
  header : Option Header
  bytes : Option Bytes
deriving DecidableEq, Repr

/-- `ParserErrorWithBytes` (error.rs). -/
structure RecErr where
  error : Err
  bytes : Option Bytes
deriving DecidableEq, Repr

/-- the `ParserError::IoError` of `record_io_error` (mrt_record.rs 261-274) for a failed or too short read of the body:
`ioEof` stands for the kind `UnexpectedEof`. -/
def bodyErr : Stop → Err
  | .failed false => .io
  | _ => .ioEof

/-- `chunk_mrt_record_with_context` (mrt_record.rs 131-246). -/
def chunkCtx [Reader ρ] (pol : Pol) (s : ρ) : Except ChunkErr Raw × ρ :=
  match parseHeader s with
  | (captured, .error e, s) =>
    if e = .eof ∧ captured = [] then (.error ⟨.eofExpected, none, none⟩, s)
    else (.error ⟨e, none, some captured⟩, s)
  | (_, .ok (h, hb), s) =>
    if h.length.toNat > 16777216 then (.error ⟨.unsupported, some h, some hb⟩, s)
    else
      match readUpTo pol h.length.toNat s with
      | (b, .failed k, s) => (.error ⟨bodyErr (.failed k), some h, some (hb ++ b)⟩, s)
      | (b, _, s) =>
        if b.length ≠ h.length.toNat then (.error ⟨.ioEof, some h, some (hb ++ b)⟩, s)
        else if h.type = .tableDump ∧ needsLegacyCorrection h.subtype b = true then
          match readUpTo pol 4 s with
          | (c, .failed k, s) => (.error ⟨bodyErr (.failed k), some h, some (hb ++ (b ++ c))⟩, s)
          | (c, _, s) =>
            if c.length ≠ 4 then (.error ⟨.ioEof, some h, some (hb ++ (b ++ c))⟩, s)
            else (.ok ⟨h, hb, b ++ c⟩, s)
        else (.ok ⟨h, hb, b⟩, s)

/-- `chunk_mrt_record` (mrt_record.rs 124-129). -/
def chunk [Reader ρ] (pol : Pol) (s : ρ) : Except RecErr Raw × ρ :=
  match chunkCtx pol s with
  | (.error e, s) => (.error ⟨e.error, e.bytes⟩, s)
  | (.ok r, s) => (.ok r, s)

/-- `RawMrtRecord::parse` (mrt_record.rs 41-52). -/
def Raw.parse (r : Raw) : Except Err MrtRecord :=
  mapOk (⟨r.header, ·⟩) (parseMrtBody r.header.type r.header.subtype r.body)

/-- `parse_mrt_record`, `next_record` (mrt_record.rs 276-305; parser/mod.rs) on MRT input; the Zebra warning is not
modelled. -/
def nextRecord [Reader ρ] (pol : Pol) (s : ρ) : Except RecErr MrtRecord × ρ :=
  match chunk pol s with
  | (.error e, s) => (.error e, s)
  | (.ok raw, s) =>
    match raw.parse with
    | .ok r => (.ok r, s)
    | .error e => (.error ⟨e, some raw.bytes⟩, s)

/-- `MrtRecord::encode` (mrt_record.rs 357-391). -/
def encodeRecord (r : MrtRecord) : Except EncErr Bytes :=
  match encodeMrtMessage r.message r.header.subtype with
  | .error e => .error e
  | .ok b =>
    match checkMax b.length 4294967295 with
    | .error e => .error e
    | .ok n =>
      match encodeHeader { r.header with length := UInt32.ofNat n } with
      | .error e => .error e
      | .ok h => .ok (h ++ b)

/-! ### iterators -/

/-- the reaction of the default iterators to an error: go on (`true`) or stop (`handle_record_parse_error`, iters/mod.rs
86-134, and the same table in `RawRecordIterator::next`, raw.rs 44-92). Log lines and core dump files are in Model/Settings.lean. A
panic (not an error in Rust) ends everything. -/
def goesOn (coreDump : Bool) : Err → Bool
  | .truncated | .unsupported => true
  | .parse => !coreDump
  | .eofExpected | .io | .ioEof | .eof | .filter => false
  | .invalidLabeledNlriLength | .truncatedLabeledNlri | .truncatedPrefix | .maxLabelStackDepthExceeded
  | .peerMaxLabelsExceeded | .invalidPrefix => true
  | .panic => false
  | .bmpHeader | .bmpUnsupported | .bmpTlvType | .bmpTlvValue | .bmpCorrupted => true

/-- `RawRecordIterator::next` (raw.rs 38-95) on MRT input. Fuel: every round that does not return consumes input. -/
def rawNext (coreDump : Bool) (pol : Pol) : Nat → Src → Option Raw × Src
  | 0, s => (none, s)
  | fuel + 1, s =>
    match chunk pol s with
    | (.ok r, s) => (some r, s)
    | (.error e, s) => if goesOn coreDump e.error then rawNext coreDump pol fuel s else (none, s)

/-- A record filter with its own state (`record_matches_filters` with the `Elementor` it updates, iters/mod.rs 50-77). -/
structure Keep (σ : Type) where
  step : σ → MrtRecord → Bool × σ

/-- `RecordIterator::next` (default.rs 33-57) on MRT input. -/
def defaultNext (k : Keep σ) (coreDump : Bool) (pol : Pol) : Nat → σ × Src → Option MrtRecord × (σ × Src)
  | 0, s => (none, s)
  | fuel + 1, (q, s) =>
    match nextRecord pol s with
    | (.ok r, s) =>
      match k.step q r with
      | (true, q) => (some r, (q, s))
      | (false, q) => defaultNext k coreDump pol fuel (q, s)
    | (.error e, s) => if goesOn coreDump e.error then defaultNext k coreDump pol fuel (q, s) else (none, (q, s))

/-- `FallibleRecordIterator::next` (fallible.rs 35-76) on MRT input. -/
def fallibleNext (k : Keep σ) (pol : Pol) : Nat → σ × Src → Option (Except RecErr MrtRecord) × (σ × Src)
  | 0, s => (none, s)
  | fuel + 1, (q, s) =>
    match nextRecord pol s with
    | (.ok r, s) =>
      match k.step q r with
      | (true, q) => (some (.ok r), (q, s))
      | (false, q) => fallibleNext k pol fuel (q, s)
    | (.error e, s) => if e.error = .eofExpected then (none, (q, s)) else (some (.error e), (q, s))

/-- `FilteredRawRecordIterator::next` (raw.rs 151-177) on MRT input. -/
def filteredRawNext (k : Keep σ) (coreDump : Bool) (pol : Pol) : Nat → σ × Src → Option (Raw × MrtRecord) × (σ × Src)
  | 0, s => (none, s)
  | fuel + 1, (q, s) =>
    match rawNext coreDump pol (s.size + 1) s with
    | (none, s) => (none, (q, s))
    | (some raw, s) =>
      match raw.parse with
      | .error e => if goesOn coreDump e then filteredRawNext k coreDump pol fuel (q, s) else (none, (q, s))
      | .ok r =>
        match k.step q r with
        | (true, q) => (some (raw, r), (q, s))
        | (false, q) => filteredRawNext k coreDump pol fuel (q, s)

/-- What a `for` loop of at most `n` rounds over an iterator sees: the items up to the first `None`, whether it saw `None`,
and the state it leaves behind. -/
def forLoop (next : S → Option α × S) : Nat → S → List α × Bool × S
  | 0, s => ([], false, s)
  | n + 1, s =>
    match next s with
    | (none, s) => ([], true, s)
    | (some a, s) =>
      let (as, e, s) := forLoop next n s
      (a :: as, e, s)

/-- the raw record iterator with its fuel. -/
def rawIter (coreDump : Bool) (pol : Pol) (s : Src) : Option Raw × Src := rawNext coreDump pol (s.size + 1) s

/-- the default record iterator with its fuel. -/
def defaultIter (k : Keep σ) (coreDump : Bool) (pol : Pol) (s : σ × Src) : Option MrtRecord × (σ × Src) :=
  defaultNext k coreDump pol (s.2.size + 1) s

/-- the fallible record iterator with its fuel. -/
def fallibleIter (k : Keep σ) (pol : Pol) (s : σ × Src) : Option (Except RecErr MrtRecord) × (σ × Src) :=
  fallibleNext k pol (s.2.size + 1) s

/-- the filtered raw record iterator with its fuel. -/
def filteredRawIter (k : Keep σ) (coreDump : Bool) (pol : Pol) (s : σ × Src) : Option (Raw × MrtRecord) × (σ × Src) :=
  filteredRawNext k coreDump pol (s.2.size + 1) s

end Verif
