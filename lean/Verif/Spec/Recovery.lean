import Verif.Model.Recovery
import Verif.Spec.MrtFrame
import Verif.Spec.Mrt
/-
Framing recovery as seen from outside: which bytes are skipped and why reading goes on where it does.
-/
namespace Verif.Spec

/-! ### plausible records -/

/-- The lengths of the legacy (type 5) records by subtype: UPDATE, STATE_CHANGE, OPEN, NOTIFY, KEEPALIVE. -/
def LegacyLength (subtype length : Nat) : Prop :=
  subtype = 1 ∧ 16 ≤ length ∧ length ≤ 65535 ∨ subtype = 3 ∧ length = 10 ∨ subtype = 5 ∧ 22 ≤ length ∧ length ≤ 4089 ∨
    subtype = 6 ∧ 14 ≤ length ∧ length ≤ 65535 ∨ subtype = 7 ∧ length = 12

/-- What comes before the message or the states in a BGP4MP body, by its lengths: two AS numbers, the interface, the family
and two addresses of that family. -/
def PeerHead (asLen : Nat) (p : Bytes) : Prop :=
  ∃ ases iface addrs : Bytes, ases.length = 2 * asLen ∧ iface.length = 2 ∧
    (addrs.length = 8 ∧ p = ases ++ iface ++ n16 1 ++ addrs ∨ addrs.length = 32 ∧ p = ases ++ iface ++ n16 2 ++ addrs)

/-- A complete BGP message by its header: an all-ones marker, its exact length, and a type with a length that this type
allows. -/
def HeaderFitsBgp (m : Bytes) : Prop :=
  ∃ (ty : UInt8) (rest : Bytes), m.length < 65536 ∧ m = List.replicate 16 0xFF ++ n16 m.length ++ [ty] ++ rest ∧
    (ty = 1 ∧ m.length ≤ 4096 ∨ ty = 2 ∧ 23 ≤ m.length ∨ ty = 3 ∧ 21 ≤ m.length ∨ ty = 4 ∧ m.length = 19)

open Classical in
/-- A BGP4MP message body with an embedded complete BGP message and nothing else (in the Zebra form the two 2-octet AS
numbers are all there is before it). -/
def MessageBody (subtype : Nat) (body : Bytes) : Prop :=
  ∃ t l ap, mpMessageType t = some (subtype, l, ap) ∧ ∃ p m : Bytes, body = p ++ m ∧ HeaderFitsBgp m ∧
    if l = .b16 ∧ ZebraOpen body then p.length = 4 else PeerHead l.bytes p

/-- A BGP4MP state change body of the exact length. -/
def StateBody (subtype : Nat) (body : Bytes) : Prop :=
  ∃ t l, mpStateType t = some (subtype, l) ∧
    (l = .b16 ∧ body.length = 8 ∨ ∃ p states : Bytes, states.length = 4 ∧ body = p ++ states ∧ PeerHead l.bytes p)

/-- A record after which reading may resume: it parses, it is of one of the two families of update streams, and its lengths
are those of its type. -/
def PlausibleAs (f : StreamFamily) (e : Evidence) (r : Raw) : Prop :=
  (∃ m, r.parse = .ok m) ∧
  match f, e with
  | .legacy, .legacyMrtChain => r.header.type = .bgp ∧ LegacyLength r.header.subtype.toNat r.body.length
  | .bgp4Mp, .bgpMarkerChain => (r.header.type = .bgp4mp ∨ r.header.type = .bgp4mpEt) ∧ r.body.length ≤ 65599 ∧
      (∀ m, r.header.micro = some m → m.toNat < 1000000) ∧ MessageBody r.header.subtype.toNat r.body
  | .bgp4Mp, .bgp4MpStateChangeChain => (r.header.type = .bgp4mp ∨ r.header.type = .bgp4mpEt) ∧ r.body.length ≤ 65599 ∧
      (∀ m, r.header.micro = some m → m.toNat < 1000000) ∧ StateBody r.header.subtype.toNat r.body
  | _, _ => False

/-- `n` plausible records of one family, one behind the other; `e` is the evidence of the first. -/
def Chain (n : Nat) (e : Evidence) (c : Bytes) : Prop :=
  ∃ (f : StreamFamily) (rs : List Raw), rs.length = n ∧ Blocks (fun r b => Frame r b ∧ ∃ e, PlausibleAs f e r) rs c ∧
    ∃ r, rs.head? = some r ∧ PlausibleAs f e r

/-- The bytes begin with such a chain. -/
def ChainAt (n : Nat) (e : Evidence) (d : Bytes) : Prop := ∃ c t, d = c ++ t ∧ Chain n e c

/-! ### intact and damaged records -/

/-- A record that reads and parses. -/
def Intact (m : MrtRecord) (b : Bytes) : Prop := ∃ r, Frame r b ∧ r.parse = .ok m

/-- A record with an intact frame and a body that does not parse. -/
def Damaged (e : Err) (b : Bytes) : Prop := ∃ r, Frame r b ∧ r.parse = .error e

/-- There is no record at the start of these bytes, and this is the complaint: the header is bad, announces too much, is
incomplete, or the body is. -/
def NoRecord (d : Bytes) (e : Err) (taken : Bytes) : Prop :=
  (∀ r b t, d = b ++ t → ¬ Frame r b) ∧
  (e = .parse ∧ BadHeader taken ∧ (∃ t, d = taken ++ t) ∨
   e = .unsupported ∧ (∃ h, HeaderBytes h taken ∧ 16777216 < h.length.toNat) ∧ (∃ t, d = taken ++ t) ∨
   e = .eof ∧ taken = d ∧ (∀ b t, d = b ++ t → ¬ Skippable b) ∧ d ≠ [] ∧ d.length < 16 ∧
     (∀ h hb t, HeaderBytes h hb → d ≠ hb ++ t) ∨
   e = .ioEof ∧ taken = d ∧ (∀ b t, d = b ++ t → ¬ Skippable b) ∧ ∃ h hb t, HeaderBytes h hb ∧ d = hb ++ t)

/-- After a damaged record: `k` intact records follow, and either these are as many as required, or the file ends there (or
seems to: a record whose damage is reported as the end of the file). -/
def Aligned (n : Nat) (d : Bytes) (k : Nat) : Prop :=
  ∃ ms c t, d = c ++ t ∧ Blocks Intact ms c ∧ k = ms.length ∧
    (k = n ∨ k < n ∧ (t = [] ∨ ∃ b t', t = b ++ t' ∧ Damaged .eofExpected b))

/-- After a damaged record: some intact records, not enough, and then one whose damage is reported as an I/O error (an
address that is cut off, an impossible prefix length). -/
def FalseIo (n : Nat) (d : Bytes) : Prop :=
  ∃ ms c b t, d = c ++ (b ++ t) ∧ Blocks Intact ms c ∧ ms.length < n ∧ Damaged .io b

/-- After a damaged record: some intact records, not enough, and then something else that is not an intact record. -/
def Misaligned (n : Nat) (d : Bytes) : Prop :=
  ∃ ms c t, d = c ++ t ∧ Blocks Intact ms c ∧ ms.length < n ∧
    ((∃ e taken, NoRecord t e taken) ∨ ∃ e b t', t = b ++ t' ∧ Damaged e b ∧ e ≠ .io ∧ e ≠ .eofExpected)

/-- Reading is stuck at the start of `d`, because of `e`, and has to look for a place to go on. -/
def Stuck (n : Nat) (d : Bytes) (e : RecErr) : Prop :=
  (∃ taken, NoRecord d e.error taken ∧ e.bytes = some taken) ∨
    ∃ b t, d = b ++ t ∧ Damaged e.error b ∧ e.bytes = some b ∧ Misaligned n t

/-! ### what recovery reports for a file -/

/-- the required number of records: zero counts as one. -/
def required (cfg : RecoveryConfig) : Nat := max cfg.confirmations.toNat 1

/-- What the recovering iterator reports for the bytes `d` of a file that start at the offset `o`. -/
inductive FileEvents (cfg : RecoveryConfig) : Nat → Bytes → List (Except RecoveryError (Event MrtRecord)) → Prop where
  /-- the end -/
  | done {o} : FileEvents cfg o [] []
  /-- an intact record -/
  | record {o m b d es} : Intact m b → FileEvents cfg (o + b.length) d es → FileEvents cfg o (b ++ d) (.ok (.item m) :: es)
  /-- a damaged record between intact ones: exactly it is skipped -/
  | aligned {o e b d k es} : Damaged e b → Aligned (required cfg) d k → FileEvents cfg (o + b.length) d es →
      FileEvents cfg o (b ++ d) (.ok (.gap ⟨o, o + b.length, e, .alignedRecordChain, k⟩) :: es)
  /-- a damaged record, and in the records behind it damage that looks like an I/O error -/
  | falseIo {o e b d} : Damaged e b → FalseIo (required cfg) d → FileEvents cfg o (b ++ d) [.error ⟨o, 0, ⟨.io, none⟩⟩]
  /-- the first chain of plausible records, at most `maxScan` bytes on -/
  | found {o d e j ev es} : Stuck (required cfg) d e → 1 ≤ j → j ≤ cfg.maxScan → ChainAt (required cfg) ev (d.drop j) →
      (∀ i, 1 ≤ i → i < j → ∀ ev', ¬ ChainAt (required cfg) ev' (d.drop i)) → FileEvents cfg (o + j) (d.drop j) es →
      FileEvents cfg o d (.ok (.gap ⟨o, o + j, e.error, ev, required cfg⟩) :: es)
  /-- no such chain, and the file ends within reach -/
  | tail {o d e} : Stuck (required cfg) d e → (∀ i, 1 ≤ i → i ≤ cfg.maxScan → ∀ ev', ¬ ChainAt (required cfg) ev' (d.drop i)) →
      1 ≤ cfg.maxScan → d.length ≤ cfg.maxScan + 5 →
      FileEvents cfg o d [.ok (.gap ⟨o, o + d.length, e.error, .endOfStream, 0⟩)]
  /-- no such chain within reach -/
  | exhausted {o d e} : Stuck (required cfg) d e → (∀ i, 1 ≤ i → i ≤ cfg.maxScan → ∀ ev', ¬ ChainAt (required cfg) ev' (d.drop i)) →
      cfg.maxScan = 0 ∨ cfg.maxScan + 5 < d.length → FileEvents cfg o d [.error ⟨o, cfg.maxScan, e⟩]

/-- A record filter applied to a list of events: gaps and errors pass. -/
def applyKeep (f : Keep σ) : σ → List (Except RecoveryError (Event MrtRecord)) → List (Except RecoveryError (Event MrtRecord))
  | _, [] => []
  | q, .ok (.item m) :: l => if (f.step q m).1 then .ok (.item m) :: applyKeep f (f.step q m).2 l else applyKeep f (f.step q m).2 l
  | q, x :: l => x :: applyKeep f q l

/-- The records that a filter keeps. -/
def keptRecords (f : Keep σ) : σ → List MrtRecord → List MrtRecord
  | _, [] => []
  | q, m :: l => if (f.step q m).1 then m :: keptRecords f (f.step q m).2 l else keptRecords f (f.step q m).2 l

/-- the state of the filter after these records. -/
def filterAfter (f : Keep σ) (q : σ) (l : List MrtRecord) : σ := l.foldl (fun q m => (f.step q m).2) q

/-- The reader never says `Interrupted`. -/
def NoInterrupts (s : Src) : Prop := .interrupted ∉ s.evs

/-! ### what recovery reports for an arbitrary reader -/

/-- A gap of an arbitrary reader: what was skipped and which bytes come next. -/
def GapFits (cfg : RecoveryConfig) (g : Gap) (skipped rest : Bytes) : Prop :=
  match g.evidence with
  | .alignedRecordChain => Damaged g.cause skipped ∧ g.confirmed ≤ required cfg ∧
      ∃ ms c t, rest = c ++ t ∧ Blocks Intact ms c ∧ ms.length = g.confirmed
  | .endOfStream => g.confirmed = 0 ∧ skipped.length ≤ cfg.maxScan + 5
  | e => skipped.length ≤ cfg.maxScan ∧ g.confirmed = required cfg ∧ ChainAt (required cfg) e rest

/-- The events account for the bytes: records and gaps, from offset `o` on, one behind the other without overlap, cover
exactly `d`; `rest` are the bytes behind `d`. -/
inductive Accounts (cfg : RecoveryConfig) (rest : Bytes) : Nat → Bytes → List (Event MrtRecord) → Prop where
  | done {o} : Accounts cfg rest o [] []
  | record {o m b d es} : Intact m b → Accounts cfg rest (o + b.length) d es → Accounts cfg rest o (b ++ d) (.item m :: es)
  | gap {o g b d es} : b ≠ [] → g.start = o → g.stop = o + b.length → GapFits cfg g b (d ++ rest) →
      Accounts cfg rest (o + b.length) d es → Accounts cfg rest o (b ++ d) (.gap g :: es)

/-- the same for events without errors. -/
def applyKeepOk (f : Keep σ) : σ → List (Event MrtRecord) → List (Event MrtRecord)
  | _, [] => []
  | q, .item m :: l => if (f.step q m).1 then .item m :: applyKeepOk f (f.step q m).2 l else applyKeepOk f (f.step q m).2 l
  | q, .gap g :: l => .gap g :: applyKeepOk f q l

/-- the gaps among the events. -/
def gapsOf : List (Except RecoveryError (Event α)) → List Gap
  | [] => []
  | .ok (.gap g) :: l => g :: gapsOf l
  | _ :: l => gapsOf l

/-! ### elements -/

/-- The events of the recovering element iterator, from those of the record iterator: each record is replaced by those of
its elements that match, in order; gaps and errors stay where they are. -/
def expandEvents (matches_ : BgpElem → Bool) : Elementor → List (Except RecoveryError (Event MrtRecord)) →
    List (Except RecoveryError (Event BgpElem))
  | _, [] => []
  | el, .ok (.item r) :: l =>
    ((el.recordToElems r).1.filter matches_).map (fun e => .ok (.item e)) ++ expandEvents matches_ (el.recordToElems r).2 l
  | el, .ok (.gap g) :: l => .ok (.gap g) :: expandEvents matches_ el l
  | el, .error e :: l => .error e :: expandEvents matches_ el l

end Verif.Spec
