import Verif.Model.Filter
/-
Framing recovery: `/repo/src/parser/iters/recovery.rs`.

Offsets are `u64` in the code and natural numbers here (a stream of 2^64 bytes is needed to see the difference); text that
describes the cause of a gap is the error itself; core dumps and the Zebra warning are not modelled.
-/
namespace Verif

/-! ### the readers -/

/-- `CarryoverReader` (recovery.rs 669-674): the underlying reader, the bytes to serve before it
(`carryover[carry_pos..]`), and the offset in the stream. -/
structure Carry (ρ : Type) where
  inner : ρ
  carry : Bytes
  offset : Nat
deriving DecidableEq, Repr

/-- `Read for CarryoverReader` (recovery.rs 700-721). -/
def Carry.read [Reader ρ] (c : Carry ρ) (n : Nat) : ReadRes × Carry ρ :=
  match c.carry with
  | [] =>
    match Reader.read c.inner n with
    | (.got b, i) => (.got b, { c with inner := i, offset := c.offset + b.length })
    | (r, i) => (r, { c with inner := i })
  | b :: bs =>
    (.got ((b :: bs).take n), { c with carry := (b :: bs).drop n, offset := c.offset + ((b :: bs).take n).length })

instance [Reader ρ] : Reader (Carry ρ) := ⟨Carry.read, fun c => c.carry.length + Reader.size c.inner⟩

/-- `CarryoverReader::resume_with` (recovery.rs 692-697). -/
def Carry.resumeWith (c : Carry ρ) (b : Bytes) (offset : Nat) : Carry ρ :=
  { c with carry := b ++ c.carry, offset := offset }

/-- `ReplayReader` (recovery.rs 728-733). -/
structure Replay (ρ : Type) where
  inner : ρ
  data : Bytes
  cursor : Nat
  base : Nat
deriving DecidableEq, Repr

/-- `Read for ReplayReader` (recovery.rs 794-811). -/
def Replay.read [Reader ρ] (w : Replay ρ) (n : Nat) : ReadRes × Replay ρ :=
  match w.data.drop w.cursor with
  | [] =>
    match Reader.read w.inner n with
    | (.got b, i) => (.got b, { w with inner := i, data := w.data ++ b, cursor := w.cursor + b.length })
    | (r, i) => (r, { w with inner := i })
  | b :: bs => (.got ((b :: bs).take n), { w with cursor := w.cursor + ((b :: bs).take n).length })

instance [Reader ρ] : Reader (Replay ρ) := ⟨Replay.read, fun w => (w.data.length - w.cursor) + Reader.size w.inner⟩

/-- `ReplayReader::position` (recovery.rs 745-747). -/
def Replay.position (w : Replay ρ) : Nat := w.base + w.cursor

/-- `ReplayReader::buffered_end` (recovery.rs 749-751). -/
def Replay.bufferedEnd (w : Replay ρ) : Nat := w.base + w.data.length

/-- `ReplayReader::into_leftover` (recovery.rs 754-757). -/
def Replay.leftover (w : Replay ρ) (offset : Nat) : Bytes := w.data.drop (min (offset - w.base) w.data.length)

/-- How a scan fails: an `io::Error`, with its kind; `panic` stands for an index out of range. -/
inductive ScanErr where
  | interrupted
  | io (eof : Bool)
  | panic
deriving DecidableEq, Repr

/-- the loop of `ReplayReader::move_to` (recovery.rs 768-780). `read` is called directly, so `Interrupted` is an error like
any other. After an error the buffer of the code ends in zeros; nobody looks at it any more, so they are left out. Fuel:
every round but the last adds a byte. -/
def Replay.fill [Reader ρ] (target : Nat) : Nat → Replay ρ → Except ScanErr Bool × Replay ρ
  | 0, w => (.error .panic, w)
  | fuel + 1, w =>
    if w.data.length < target then
      match Reader.read w.inner (min (target - w.data.length) 8192) with
      | (.got b, i) => Replay.fill target fuel { w with inner := i, data := w.data ++ b }
      | (.zero, i) => (.ok false, { w with inner := i, cursor := w.data.length })
      | (.interrupted, i) => (.error .interrupted, { w with inner := i })
      | (.failed k, i) => (.error (.io k), { w with inner := i })
    else (.ok true, { w with cursor := target })

/-- `ReplayReader::move_to` (recovery.rs 763-781). -/
def Replay.moveTo [Reader ρ] (w : Replay ρ) (offset : Nat) : Except ScanErr Bool × Replay ρ :=
  if offset < w.base then (.ok false, w)
  else w.fill (offset - w.base) (offset - w.base - w.data.length + 1)

/-- `ReplayReader::peek_two_at` (recovery.rs 785-791). -/
def Replay.peekTwoAt [Reader ρ] (w : Replay ρ) (offset : Nat) : Except ScanErr (Option (UInt8 × UInt8)) × Replay ρ :=
  match w.moveTo (offset + 2) with
  | (.error e, w) => (.error e, w)
  | (.ok false, w) => (.ok none, w)
  | (.ok true, w) =>
    match w.data.drop (offset - w.base) with
    | a :: b :: _ => (.ok (some (a, b)), w)
    | _ => (.error .panic, w)

/-! ### candidates -/

/-- `RecoveryEvidence` (recovery.rs 83-97). -/
inductive Evidence where
  | legacyMrtChain
  | bgpMarkerChain
  | bgp4MpStateChangeChain
  | alignedRecordChain
  | endOfStream
deriving DecidableEq, Repr

/-- `StreamFamily` (recovery.rs 382-385). -/
inductive StreamFamily where
  | legacy
  | bgp4Mp
deriving DecidableEq, Repr

/-- `is_anchor_entry_type` (recovery.rs 435-440). -/
def isAnchor (a b : UInt8) : Bool := a == 0 && (b == 5 || b == 16 || b == 17)

/-- `legacy_header_is_plausible` (recovery.rs 566-575). -/
def legacyPlausible (subtype : UInt16) (length : Nat) : Bool :=
  if subtype = 1 then decide (16 ≤ length ∧ length ≤ 65535)
  else if subtype = 3 then decide (length = 10)
  else if subtype = 5 then decide (22 ≤ length ∧ length ≤ 4089)
  else if subtype = 6 then decide (14 ≤ length ∧ length ≤ 65535)
  else if subtype = 7 then decide (length = 12)
  else false

/-- the length of the two AS numbers (recovery.rs 589-593, 610-620). -/
def asnPairLen : MpType → Nat
  | .stateChange | .message | .messageLocal | .messageAp | .messageLocalAp => 4
  | .stateChangeAs4 | .messageAs4 | .messageAs4Local | .messageAs4Ap | .messageLocalAs4Ap => 8

/-- the address length announced by the two octets at `off` (recovery.rs 595-600, 626-631). -/
def addrLenAt (d : Bytes) (off : Nat) : Option Nat :=
  match d.drop off with
  | a :: b :: _ => if a = 0 ∧ b = 1 then some 4 else if a = 0 ∧ b = 2 then some 16 else none
  | _ => none

/-- the record parses (`raw_record.clone().parse().ok()`). -/
def Raw.parses (r : Raw) : Bool := match r.parse with | .ok _ => true | .error _ => false

/-- the state change half of `strict_bgp4mp_evidence` (recovery.rs 579-607). -/
def stateChangeEvidence (r : Raw) (t : MpType) : Option Evidence :=
  let shape : Bool :=
    if usesZebraCompat r.header.subtype r.body then r.body.length == 8
    else
      match addrLenAt r.body (asnPairLen t + 2) with
      | none => false
      | some a => r.body.length == asnPairLen t + 4 + a * 2 + 4
  if shape && r.parses then some .bgp4MpStateChangeChain else none

/-- where the marker of the embedded BGP message has to be (recovery.rs 622-633). -/
def markerOffset (r : Raw) (t : MpType) : Option Nat :=
  if usesZebraCompat r.header.subtype r.body then some (asnPairLen t)
  else
    match addrLenAt r.body (asnPairLen t + 2) with
    | none => none
    | some a => some (asnPairLen t + 4 + a * 2)

/-- the checks on the embedded BGP header (recovery.rs 635-653). -/
def bgpHeaderFits (d : Bytes) (off : Nat) : Bool :=
  let h := (d.drop off).take 19
  match h.drop 16 with
  | [a, b, ty] =>
    let len := a.toNat * 256 + b.toNat
    h.take 16 == List.replicate 16 0xFF && decide (19 ≤ len) && decide (1 ≤ ty.toNat ∧ ty.toNat ≤ 4) &&
      decide (off + len = d.length) &&
      !(decide (ty = 1 ∧ len > 4096) || decide (ty = 2 ∧ len < 23) || decide (ty = 3 ∧ len < 21) ||
        decide (ty = 4 ∧ len ≠ 19))
  | _ => false

/-- `strict_bgp4mp_evidence` (recovery.rs 577-657). -/
def strictEvidence (r : Raw) : Option Evidence :=
  match MpType.ofU16? r.header.subtype with
  | none => none
  | some t =>
    if t = .stateChange ∨ t = .stateChangeAs4 then stateChangeEvidence r t
    else
      match markerOffset r t with
      | none => none
      | some off => if bgpHeaderFits r.body off && r.parses then some .bgpMarkerChain else none

/-- the family of a candidate header (recovery.rs 509-520). -/
def headerFamily (h : Header) : Option StreamFamily :=
  match h.type with
  | .bgp => if legacyPlausible h.subtype h.length.toNat then some .legacy else none
  | .bgp4mp | .bgp4mpEt =>
    if (MpType.ofU16? h.subtype).isSome ∧ h.length.toNat ≤ 65599 then some .bgp4Mp else none
  | _ => none

/-- the evidence of a candidate (recovery.rs 544-552). -/
def candidateEvidence (f : StreamFamily) (r : Raw) : Option Evidence :=
  match f with
  | .legacy => if r.parses then some .legacyMrtChain else none
  | .bgp4Mp => strictEvidence r

/-- a non-EOF I/O error (`is_non_eof_io_error`, recovery.rs 659-665; `parser_error_as_candidate`, 555-564). -/
def isNonEofIo (e : Err) : Bool := e == .io

/-- the check of the microseconds (recovery.rs 522-527). -/
def microsTooBig (h : Header) : Bool := match h.micro with | some m => decide (1000000 ≤ m.toNat) | none => false

/-- `read_candidate` (recovery.rs 502-553). -/
def readCandidate [Reader ρ] (pol : Pol) (w : ρ) : Except ScanErr (Option (StreamFamily × Evidence)) × ρ :=
  match parseHeader w with
  | (_, .error e, w) => (if isNonEofIo e then .error (.io false) else .ok none, w)
  | (_, .ok (h, hb), w) =>
    match headerFamily h with
    | none => (.ok none, w)
    | some f =>
      if microsTooBig h then (.ok none, w)
      else
        match readUpTo pol h.length.toNat w with
        | (_, .failed k, w) => (.error (.io k), w)
        | (b, _, w) =>
          if b.length ≠ h.length.toNat then (.ok none, w)
          else
            match candidateEvidence f ⟨h, hb, b⟩ with
            | none => (.ok none, w)
            | some e => (.ok (some (f, e)), w)

/-- the loop of `validate_chain` (recovery.rs 485-497): `required` more candidates of the family, if it is known. When a
candidate fails the cursor is put back to its start (488), which was buffered before. -/
def chainLoop [Reader ρ] (pol : Pol) : Nat → Option (StreamFamily × Evidence) → Replay ρ →
    Except ScanErr (Option (StreamFamily × Evidence)) × Replay ρ
  | 0, first, w => (.ok first, w)
  | n + 1, first, w =>
    let start := w.position
    match readCandidate pol w with
    | (.error e, w) => (.error e, w)
    | (.ok none, w) =>
      match w.moveTo start with
      | (.error e, w) => (.error e, w)
      | (.ok _, w) => (.ok none, w)
    | (.ok (some (f, e)), w) =>
      match first with
      | none => chainLoop pol n (some (f, e)) w
      | some (f0, e0) => if f0 ≠ f then (.ok none, w) else chainLoop pol n (some (f0, e0)) w

/-- `validate_chain` (recovery.rs 473-500): the evidence of the first record. The number of confirmed records is
`required`. -/
def validateChain [Reader ρ] (pol : Pol) (w : Replay ρ) (offset required : Nat) :
    Except ScanErr (Option Evidence) × Replay ρ :=
  match w.moveTo offset with
  | (.error e, w) => (.error e, w)
  | (.ok false, w) => (.ok none, w)
  | (.ok true, w) =>
    match chainLoop pol required none w with
    | (.error e, w) => (.error e, w)
    | (.ok x, w) => (.ok (x.map (·.2)), w)

/-- `ScanOutcome` (recovery.rs 392-402). -/
inductive ScanOutcome where
  | found (offset : Nat) (evidence : Evidence) (confirmed : Nat)
  | endOfStream (offset : Nat)
  | exhausted
deriving DecidableEq, Repr

/-- `find_recovery` (recovery.rs 442-471), from a distance on, for the given number of distances. -/
def findRecovery [Reader ρ] (pol : Pol) (start required : Nat) : (todo distance : Nat) → Replay ρ →
    Except ScanErr ScanOutcome × Replay ρ
  | 0, _, w => (.ok .exhausted, w)
  | todo + 1, distance, w =>
    match w.peekTwoAt (start + distance + 4) with
    | (.error e, w) => (.error e, w)
    | (.ok none, w) => (.ok (.endOfStream w.bufferedEnd), w)
    | (.ok (some (a, b)), w) =>
      if isAnchor a b then
        match validateChain pol w (start + distance) required with
        | (.error e, w) => (.error e, w)
        | (.ok (some ev), w) => (.ok (.found (start + distance) ev required), w)
        | (.ok none, w) => findRecovery pol start required todo (distance + 1) w
      else findRecovery pol start required todo (distance + 1) w

/-- the loop of `confirm_aligned_boundary` (recovery.rs 415-432). An `IoError` or `EofError` of a kind other than
`UnexpectedEof` is passed on, also when it comes from parsing the body of a record. -/
def confirmLoop [Reader ρ] (pol : Pol) : (todo confirmed : Nat) → ρ → Except ScanErr (Option Nat) × ρ
  | 0, confirmed, w => (.ok (some confirmed), w)
  | todo + 1, confirmed, w =>
    match nextRecord pol w with
    | (.ok _, w) => confirmLoop pol todo (confirmed + 1) w
    | (.error e, w) =>
      if e.error = .eofExpected then (.ok (some confirmed), w)
      else if isNonEofIo e.error then (.error (.io false), w)
      else (.ok none, w)

/-- `confirm_aligned_boundary` (recovery.rs 407-433). -/
def confirmAligned [Reader ρ] (pol : Pol) (w : Replay ρ) (boundary required : Nat) :
    Except ScanErr (Option Nat) × Replay ρ :=
  match w.moveTo boundary with
  | (.error e, w) => (.error e, w)
  | (.ok false, w) => (.ok none, w)
  | (.ok true, w) => confirmLoop pol required 0 w

/-! ### the iterators -/

/-- `RecoveryConfig` (recovery.rs 41-44). -/
structure RecoveryConfig where
  maxScan : Nat := 1048576
  confirmations : UInt8 := 3
deriving DecidableEq, Repr

/-- `RecoveryGap` (recovery.rs 102-114). -/
structure Gap where
  start : Nat
  stop : Nat
  cause : Err
  evidence : Evidence
  confirmed : Nat
deriving DecidableEq, Repr

/-- `RecoveryGap::skipped_bytes` (recovery.rs 118-120); Lean's `-` is `saturating_sub`. -/
def Gap.skipped (g : Gap) : Nat := g.stop - g.start

/-- `RecoveryEvent` (recovery.rs 125-128). -/
inductive Event (α : Type) where
  | item (a : α)
  | gap (g : Gap)
deriving DecidableEq, Repr

/-- `RecoveryError` (recovery.rs 136-140). -/
structure RecoveryError where
  offset : Nat
  scanned : Nat
  error : RecErr
deriving DecidableEq, Repr

/-- `RecoveringRecordIterator` (recovery.rs 159-168) without its settings: the reader, the state of the filter, whether it
has ended. `text` is `unsupported_input.is_some()`. -/
structure Recovering (σ : Type) where
  reader : Carry Src
  filter : σ
  text : Bool
  finished : Bool
deriving DecidableEq, Repr

/-- `RecoveringRecordIterator::new` (recovery.rs 171-186). -/
def Recovering.new (text : Bool) (q : σ) (s : Src) : Recovering σ := ⟨⟨s, [], 0⟩, q, text, false⟩

/-- the error of a failed scan as a `ParserErrorWithBytes` (recovery.rs 282, 328). -/
def scanErr : ScanErr → RecErr
  | .interrupted => ⟨.io, none⟩
  | .io eof => ⟨if eof then .ioEof else .io, none⟩
  | .panic => ⟨.panic, none⟩

/-- the scanning half of `recover` (recovery.rs 288-331). -/
def recoverScan (cfg : RecoveryConfig) (pol : Pol) (st : Recovering σ) (start : Nat) (e : RecErr) (w : Replay (Carry Src)) :
    Except RecoveryError (Event MrtRecord) × Recovering σ :=
  match findRecovery pol start (max cfg.confirmations.toNat 1) cfg.maxScan 1 w with
  | (.ok (.found offset ev n), w) =>
    (.ok (.gap ⟨start, offset, e.error, ev, n⟩), { st with reader := w.inner.resumeWith (w.leftover offset) offset })
  | (.ok (.endOfStream offset), w) =>
    (.ok (.gap ⟨start, offset, e.error, .endOfStream, 0⟩),
      { st with reader := w.inner.resumeWith (w.leftover offset) offset })
  | (.ok .exhausted, w) => (.error ⟨start, cfg.maxScan, e⟩, { st with reader := w.inner, finished := true })
  | (.error x, w) =>
    (.error ⟨start, w.position - start, scanErr x⟩, { st with reader := w.inner, finished := true })

/-- `RecoveringRecordIterator::recover` (recovery.rs 250-332). The `debug_assert_eq!` (258) is a panic in debug builds. -/
def recover (cfg : RecoveryConfig) (pol : Pol) (st : Recovering σ) (start : Nat) (framedEnd : Option Nat) (e : RecErr) :
    Except RecoveryError (Event MrtRecord) × Recovering σ :=
  let consumed := e.bytes.getD []
  if start + consumed.length ≠ st.reader.offset then (.error ⟨start, 0, ⟨.panic, none⟩⟩, { st with finished := true })
  else
    let w : Replay (Carry Src) := ⟨st.reader, consumed, 0, start⟩
    match framedEnd with
    | none => recoverScan cfg pol st start e w
    | some stop =>
      match confirmAligned pol w stop (max cfg.confirmations.toNat 1) with
      | (.ok (some n), w) =>
        (.ok (.gap ⟨start, stop, e.error, .alignedRecordChain, n⟩),
          { st with reader := w.inner.resumeWith (w.leftover stop) stop })
      | (.ok none, w) => recoverScan cfg pol st start e w
      | (.error x, w) => (.error ⟨start, 0, scanErr x⟩, { st with reader := w.inner, finished := true })

/-- the loop of `RecoveringRecordIterator::next` (recovery.rs 205-245). -/
def recoveringLoop (f : Keep σ) (cfg : RecoveryConfig) (pol : Pol) : Nat → Recovering σ →
    Option (Except RecoveryError (Event MrtRecord)) × Recovering σ
  | 0, st => (none, st)
  | fuel + 1, st =>
    let start := st.reader.offset
    match chunk pol st.reader with
    | (.error e, r) =>
      let st := { st with reader := r }
      if e.error = .eofExpected then (none, { st with finished := true })
      else if isNonEofIo e.error then (some (.error ⟨start, 0, e⟩), { st with finished := true })
      else
        let (x, st) := recover cfg pol st start none e
        (some x, st)
    | (.ok raw, r) =>
      let st := { st with reader := r }
      match raw.parse with
      | .ok rec =>
        match f.step st.filter rec with
        | (true, q) => (some (.ok (.item rec)), { st with filter := q })
        | (false, q) => recoveringLoop f cfg pol fuel { st with filter := q }
      | .error e =>
        let (x, st) := recover cfg pol st start (some st.reader.offset) ⟨e, some raw.bytes⟩
        (some x, st)

/-- `RecoveringRecordIterator::next` (recovery.rs 189-247). Fuel: every rejected record consumes input. -/
def recoveringNext (f : Keep σ) (cfg : RecoveryConfig) (pol : Pol) (st : Recovering σ) :
    Option (Except RecoveryError (Event MrtRecord)) × Recovering σ :=
  if st.finished then (none, st)
  else if st.text then (some (.error ⟨0, 0, ⟨.unsupported, none⟩⟩), { st with text := false, finished := true })
  else recoveringLoop f cfg pol (Reader.size st.reader + 1) st

/-- `RecoveringElemIterator` (recovery.rs 338-343) without its settings: the cache in the order of the `Vec`. The inner
iterator has no filters. -/
structure RecoveringElems where
  inner : Recovering Elementor
  elementor : Elementor
  cache : List BgpElem

/-- `RecoveringElemIterator::new` (recovery.rs 346-356). -/
def RecoveringElems.new (text : Bool) (s : Src) : RecoveringElems := ⟨.new text .new s, .new, []⟩

/-- the loop of `RecoveringElemIterator::next` (recovery.rs 363-377). Fuel: every record taken consumes input. -/
def recoveringElemLoop (env : TextEnv) (fs : List (Filter env.Rx)) (cfg : RecoveryConfig) (pol : Pol) :
    Nat → RecoveringElems → Option (Except RecoveryError (Event BgpElem)) × RecoveringElems
  | 0, it => (none, it)
  | fuel + 1, it =>
    match it.cache.getLast? with
    | some e => (some (.ok (.item e)), { it with cache := it.cache.dropLast })
    | none =>
      match recoveringNext (filterKeep env []) cfg pol it.inner with
      | (none, i) => (none, { it with inner := i })
      | (some (.error e), i) => (some (.error e), { it with inner := i })
      | (some (.ok (.gap g)), i) => (some (.ok (.gap g)), { it with inner := i })
      | (some (.ok (.item r)), i) =>
        let (es, el) := it.elementor.recordToElems r
        recoveringElemLoop env fs cfg pol fuel ⟨i, el, (es.filter fun e => e.matchFilters env fs).reverse⟩

/-- `RecoveringElemIterator::next` (recovery.rs 359-379). -/
def recoveringElemNext (env : TextEnv) (fs : List (Filter env.Rx)) (cfg : RecoveryConfig) (pol : Pol)
    (it : RecoveringElems) : Option (Except RecoveryError (Event BgpElem)) × RecoveringElems :=
  recoveringElemLoop env fs cfg pol (Reader.size it.inner.reader + 2) it

end Verif
