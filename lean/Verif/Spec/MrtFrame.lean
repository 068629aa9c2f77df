import Verif.Model.Mrt
import Verif.Spec.Layout
/-
MRT files as seen from outside: what a reader delivers, what a record looks like.
-/
namespace Verif.Spec

/-! ### what a reader delivers -/

/-- What a reader delivers when nobody looks at chunks and interruptions: bytes, `Ok(0)`s, errors. -/
inductive Tok where
  | byte (b : UInt8)
  | zero
  | fail (eof : Bool)
deriving DecidableEq, Repr

/-- the bytes as tokens. -/
def byteToks (b : Bytes) : List Tok := b.map .byte

/-- the delivery of a list of events. -/
def toks : List Ev → List Tok
  | [] => []
  | .data b bs :: r => byteToks (b :: bs) ++ toks r
  | .interrupted :: r => toks r
  | .zero :: r => .zero :: toks r
  | .fail k :: r => .fail k :: toks r

/-- Two readers that deliver the same, in whatever chunks and with whatever interruptions. -/
def SameDelivery (s s' : Src) : Prop := toks s.evs = toks s'.evs ∧ s.stuck = s'.stuck

/-- The reader delivers exactly these bytes, then the end of file. -/
def Delivers (s : Src) (b : Bytes) : Prop := toks s.evs = byteToks b ∧ s.stuck = none

/-- the bytes among the tokens. -/
def dataOf : List Tok → Bytes
  | [] => []
  | .byte b :: r => b :: dataOf r
  | _ :: r => dataOf r

/-- Between `s` and `s'` exactly the bytes `b` were taken from the reader. -/
def Took (s : Src) (b : Bytes) (s' : Src) : Prop :=
  ∃ pre, toks s.evs = pre ++ toks s'.evs ∧ dataOf pre = b ∧ s'.stuck = s.stuck

/-! ### headers -/

/-- the assigned MRT type numbers. -/
def entryNum : EntryType → Nat
  | .null => 0
  | .start => 1
  | .die => 2
  | .iAmDead => 3
  | .peerDown => 4
  | .bgp => 5
  | .rip => 6
  | .idrp => 7
  | .ripng => 8
  | .bgp4plus => 9
  | .bgp4plus01 => 10
  | .ospfv2 => 11
  | .tableDump => 12
  | .tableDumpV2 => 13
  | .bgp4mp => 16
  | .bgp4mpEt => 17
  | .isis => 32
  | .isisEt => 33
  | .ospfv3 => 48
  | .ospfv3Et => 49

/-- The common header on the wire: seconds, type, subtype, length; for BGP4MP_ET, and only for it, microseconds, which the
length field counts as part of the message (RFC 6396 section 3). -/
def HeaderBytes (h : Header) (b : Bytes) : Prop :=
  match h.micro with
  | none => h.type ≠ .bgp4mpEt ∧
      b = n32 h.time.toNat ++ n16 (entryNum h.type) ++ n16 h.subtype.toNat ++ n32 h.length.toNat
  | some m => h.type = .bgp4mpEt ∧ h.length.toNat + 4 < 4294967296 ∧
      b = n32 h.time.toNat ++ n16 (entryNum h.type) ++ n16 h.subtype.toNat ++ n32 (h.length.toNat + 4) ++ n32 m.toNat

/-! ### records -/

/-- A TABLE_DUMP entry, by its lengths only: some octets, the attribute length, the attributes. -/
def EntryShape (fixed : Nat) (e : Bytes) : Prop :=
  ∃ head ab : Bytes, head.length + 2 = fixed ∧ ab.length < 65536 ∧ e = head ++ n16 ab.length ++ ab

/-- A TABLE_DUMP entry whose last four octets are missing. -/
def ShortEntry (fixed : Nat) (e : Bytes) : Prop :=
  ∃ head ab : Bytes, head.length + 2 = fixed ∧ ab.length + 4 < 65536 ∧ e = head ++ n16 (ab.length + 4) ++ ab

/-- A TABLE_DUMP body that some collectors wrote with a length four too small: view and sequence number, complete entries,
and a last entry that lacks exactly four octets. -/
def LegacyShort (subtype : UInt16) (d : Bytes) : Prop :=
  ∃ fixed, (subtype = 1 ∧ fixed = 18 ∨ subtype = 2 ∧ fixed = 42) ∧
    ∃ (v : Bytes) (es : List Bytes) (last : Bytes), v.length = 4 ∧ (∀ e ∈ es, EntryShape fixed e) ∧
      ShortEntry fixed last ∧ d = v ++ es.flatten ++ last

open Classical in
/-- A raw record and its bytes: a header and a body of the announced length, at most 16 MiB; four octets more for a
TABLE_DUMP record that is too short by four. -/
def Frame (r : Raw) (b : Bytes) : Prop :=
  HeaderBytes r.header r.headerBytes ∧ r.header.length.toNat ≤ 16777216 ∧ b = r.headerBytes ++ r.body ∧
    r.body.length =
      if r.header.type = .tableDump ∧ LegacyShort r.header.subtype (r.body.take r.header.length.toNat)
      then r.header.length.toNat + 4 else r.header.length.toNat

/-- Twelve octets that no header starts with: an unassigned type, or BGP4MP_ET with a length below four. -/
def BadHeader (c : Bytes) : Prop := c.length = 12 ∧ ∀ h b, HeaderBytes h b → b.take 12 ≠ c

/-- A header without a record: it is bad, or announces more than 16 MiB. -/
def Skippable (c : Bytes) : Prop := BadHeader c ∨ ∃ h, HeaderBytes h c ∧ 16777216 < h.length.toNat

/-- A file and the records in it: records one after the other; after a header without a record, reading goes on right
behind that header (or stops there, if bad headers are to be dumped); at the end there may be something that is neither. -/
inductive Tiles (coreDump : Bool) : Bytes → List Raw → Prop where
  | done : Tiles coreDump [] []
  | record {r : Raw} {b rest : Bytes} {rs : List Raw} :
      Frame r b → Tiles coreDump rest rs → Tiles coreDump (b ++ rest) (r :: rs)
  | skip {c rest : Bytes} {rs : List Raw} : Skippable c → ¬ (coreDump = true ∧ BadHeader c) → Tiles coreDump rest rs →
      Tiles coreDump (c ++ rest) rs
  | stop {c rest : Bytes} : coreDump = true → BadHeader c → Tiles coreDump (c ++ rest) []
  | truncated {c : Bytes} : (∀ r b t, c = b ++ t → ¬ Frame r b) → (∀ b t, c = b ++ t → ¬ Skippable b) → Tiles coreDump c []

/-- the errors that end the default iterators. -/
def Fatal (coreDump : Bool) : Err → Prop
  | .io | .ioEof | .eof | .eofExpected | .filter | .panic => True
  | .parse => coreDump = true
  | _ => False

instance (cd : Bool) (e : Err) : Decidable (Fatal cd e) := by cases e <;> unfold Fatal <;> infer_instance

/-- The records before the first fatal error. -/
def okBefore (coreDump : Bool) : List (Except RecErr MrtRecord) → List MrtRecord
  | [] => []
  | .ok r :: l => r :: okBefore coreDump l
  | .error e :: l => if Fatal coreDump e.error then [] else okBefore coreDump l

/-- The filter that keeps every record. -/
def keepAll : Keep Unit := ⟨fun _ _ => (true, ())⟩

end Verif.Spec
