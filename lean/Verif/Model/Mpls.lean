import Verif.Model.Net
/-
MPLS labels and labelled NLRI (`/repo/src/models/network/mpls.rs`).
-/
namespace Verif

/-- `MplsLabel` (mpls.rs 28-29): a private `u32`; every constructor bounds it by 2^20-1 (44-55). -/
abbrev Label := UInt32

/-- `MplsLabel::try_new` (mpls.rs 44-49). -/
def Label.tryNew (v : UInt32) : Option Label := if v > 0x000FFFFF then none else some v

/-- `MplsLabel::encode` (mpls.rs 85-88). -/
def encLabel (l : Label) (bottom : Bool) : Bytes :=
  let raw : UInt32 := (l <<< 4) ||| (if bottom then 1 else 0)
  [(raw >>> 16).toUInt8, (raw >>> 8).toUInt8, raw.toUInt8]

/-- `MplsLabel::decode` (mpls.rs 94-99); the three shifted bytes are or-ed on disjoint bits, i.e. their big-endian
value. -/
def decLabel (a b c : UInt8) : Label × Bool :=
  let raw := u32of 0 a b c
  ((raw >>> 4) &&& 0x000FFFFF, raw &&& 1 != 0)

/-- `LabeledNlriMode` (mpls.rs 163-172). -/
inductive LabelMode where
  | single | multi
deriving DecidableEq, Repr

/-- `LabeledNlriConfig` (mpls.rs 177-199). -/
structure LabelCfg where
  addPath : Bool
  mode : LabelMode
  maxLabels : UInt8
  peerMax : Option UInt8
deriving DecidableEq, Repr

/-- `LabeledNlriConfig::default` (mpls.rs 228-237). -/
def LabelCfg.default : LabelCfg := ⟨false, .multi, 16, none⟩

/-- `LabeledNlriConfig::try_new` (mpls.rs 205-225). -/
def LabelCfg.tryNew (addPath : Bool) (mode : LabelMode) (maxLabels : UInt8) (peerMax : Option UInt8) :
    Option LabelCfg :=
  if maxLabels = 0 ∨ maxLabels > 254 then none
  else if peerMax = some 0 then none
  else some ⟨addPath, mode, maxLabels, peerMax⟩

/-- `LabeledNetworkPrefix` (mpls.rs 264-272). -/
structure LabeledPrefix where
  prefix_ : IpNet
  labels : List Label
  pathId : Option UInt32
deriving DecidableEq, Repr

/-- `LabeledNetworkPrefix::try_new` (mpls.rs 303-340). `checked_mul`/`checked_add` cannot overflow for a list that fits
in memory. -/
def LabeledPrefix.tryNew (p : IpNet) (ls : List Label) (pid : Option UInt32) : Option LabeledPrefix :=
  if ls = [] then none else if ls.length * 24 + p.len.toNat > 255 then none else some ⟨p, ls, pid⟩

/-- `if input.remaining() < n { return Err(e) }` followed by an unchecked read: any shortage is reported as `e`. -/
def Rd.orErr (p : Rd α) (e : Err) : Rd α := .mk fun s =>
  match p s with
  | .ok v => .ok v
  | .error _ => .error e

/-- three bytes of a label, `TruncatedLabeledNlri` when fewer remain (mpls.rs 463-472, 491-500). -/
def rdLabel : Rd (Label × Bool) := do
  let b ← (rdVec 3).orErr .truncatedLabeledNlri
  pure (decLabel b[0] b[1] b[2])

/-- the peer limit check (mpls.rs 485-489). -/
def peerReached (peerMax : Option UInt8) (n : Nat) : Bool :=
  match peerMax with
  | some p => n ≥ p.toNat
  | none => false

/-- The multi-label loop (mpls.rs 478-506); `n` labels read so far. Fuel `max_labels + 1` suffices because the loop
stops at `max_labels`. -/
def rdLabels (maxLabels : Nat) (peerMax : Option UInt8) : Nat → Nat → Rd (List Label)
  | 0, _ => Rd.fail .panic
  | fuel + 1, n =>
    if n ≥ maxLabels then Rd.fail .maxLabelStackDepthExceeded
    else if peerReached peerMax n then Rd.fail .peerMaxLabelsExceeded
    else do
      let (l, bos) ← rdLabel
      if bos then pure [l] else do
        let ls ← rdLabels maxLabels peerMax fuel (n + 1)
        pure (l :: ls)

/-- labels according to the mode (mpls.rs 460-508). -/
def rdLabelStack (cfg : LabelCfg) : Rd (List Label) :=
  match cfg.mode with
  | .single => do
    let (l, _) ← rdLabel
    pure [l]
  | .multi => rdLabels cfg.maxLabels.toNat cfg.peerMax (cfg.maxLabels.toNat + 1) 0

/-- masking of the last partial octet: `octets[full_bytes] &= 0xFF << (8 - remainder_bits)` (mpls.rs 570-583,
596-599), applied to the octets before they are zero-extended. -/
def maskOctets (bits : UInt8) (data : Bytes) : Bytes :=
  if bits.toNat % 8 > 0 then data.modify (bits.toNat / 8) (· &&& (0xFF <<< UInt8.ofNat (8 - bits.toNat % 8)))
  else data

/-- `parse_prefix_with_masking` (mpls.rs 562-608). -/
def maskedPrefix (afi : Afi) (data : Bytes) (bits : UInt8) : Except Err IpNet :=
  match afi with
  | .ipv4 => match IpNet.new? (.v4 (padVec 4 (maskOctets bits data))) bits with
    | some p => .ok p
    | none => .error .invalidPrefix
  | .ipv6 => match IpNet.new? (.v6 (padVec 16 (maskOctets bits data))) bits with
    | some p => .ok p
    | none => .error .invalidPrefix
  | .linkState => .error .invalidLabeledNlriLength

/-- Steps 5-7 of one labelled NLRI (mpls.rs 510-545 and 671-700): `used` bits are taken by labels (or by the withdrawal
compatibility field), `rest` is what remains of the bounded view. -/
def labeledTail (afi : Afi) (bits : UInt8) (used : Nat) (rest : Bytes) : Except Err IpNet :=
  if bits.toNat < used then .error .invalidLabeledNlriLength
  else if afi = .linkState then .error .invalidLabeledNlriLength
  else if bits.toNat - used > afi.maxBits then .error .invalidLabeledNlriLength
  else
    let pbits := UInt8.ofNat (bits.toNat - used)
    if rest.length < byteLen pbits then .error .truncatedPrefix
    else match maskedPrefix afi (rest.take (byteLen pbits)) pbits with
      | .error e => .error e
      | .ok p => if (rest.drop (byteLen pbits)).length > 0 then .error .invalidLabeledNlriLength else .ok p

/-- the head of one NLRI: path id, length and the bounded view (mpls.rs 425-455, 630-658). -/
def labeledHead (addPath : Bool) : Rd (Option UInt32 × UInt8 × Bytes) := do
  let pid ← (if addPath then do let i ← rdU32.orErr .truncatedLabeledNlri; pure (some i) else pure none : Rd (Option UInt32))
  let bits ← rdU8.orErr .truncatedLabeledNlri
  if bits.toNat < 24 then Rd.fail .invalidLabeledNlriLength else do
  let view ← (rdN (byteLen bits)).orErr .truncatedLabeledNlri
  pure (pid, bits, view)

/-- One round of `parse_labeled_nlri` (mpls.rs 424-553). -/
def rdLabeled (afi : Afi) (cfg : LabelCfg) : Rd LabeledPrefix := do
  let (pid, bits, view) ← labeledHead cfg.addPath
  match rdLabelStack cfg view with
  | .error e => Rd.fail e
  | .ok (ls, rest) =>
    match labeledTail afi bits (ls.length * 24) rest with
    | .error e => Rd.fail e
    | .ok p => pure ⟨p, ls, pid⟩

/-- `parse_labeled_nlri` (mpls.rs 415-556). -/
def parseLabeledNlri (afi : Afi) (cfg : LabelCfg) (input : Bytes) : Except Err (List LabeledPrefix) :=
  many (rdLabeled afi cfg) input

/-- One round of `parse_labeled_withdrawal_nlri` (mpls.rs 629-704): the three compatibility bytes are skipped. -/
def rdLabeledWithdrawal (afi : Afi) (addPath : Bool) : Rd NetworkPrefix := do
  let (pid, bits, view) ← labeledHead addPath
  match (rdN 3).orErr .truncatedLabeledNlri view with
  | .error e => Rd.fail e
  | .ok (_, rest) =>
    match labeledTail afi bits 24 rest with
    | .error e => Rd.fail e
    | .ok p => pure ⟨p, pid⟩

/-- `parse_labeled_withdrawal_nlri` (mpls.rs 615-707). -/
def parseLabeledWithdrawals (afi : Afi) (addPath : Bool) (input : Bytes) : Except Err (List NetworkPrefix) :=
  many (rdLabeledWithdrawal afi addPath) input

/-- `LabeledNlriEncodeError` (mpls.rs 365-380). -/
inductive LabelErr where
  | emptyLabelStack
  | totalBitsOverflow (bits max : Nat)
  | singleLabelModeWithMultipleLabels (n : Nat)
  | labelCountExceedsPeerLimit (n : Nat) (peer : UInt8)
  | addPathNotNegotiated
deriving DecidableEq, Repr

/-- all labels, the bottom-of-stack bit on the last (mpls.rs 808-812). -/
def encLabels : List Label → Bytes
  | [] => []
  | [l] => encLabel l true
  | l :: ls => encLabel l false ++ encLabels ls

/-- the truncated address octets (mpls.rs 816-822, 865-871). -/
def netOctets (p : IpNet) : Bytes := p.addr.octets.take (byteLen p.len)

/-- `encode_labeled_prefix` (mpls.rs 730-825). -/
def encodeLabeled (p : LabeledPrefix) (mode : LabelMode) (addPath : Bool) (peerMax : Option UInt8) :
    Except LabelErr Bytes :=
  if p.labels = [] then .error .emptyLabelStack
  else if p.pathId.isSome ∧ addPath = false then .error .addPathNotNegotiated
  else
    let total := p.labels.length * 24 + p.prefix_.len.toNat
    if total > 255 then .error (.totalBitsOverflow total 255)
    else
      let head := encPathId p.pathId ++ [UInt8.ofNat total]
      match mode, p.labels with
      | .single, l :: ls =>
        if (l :: ls).length > 1 then .error (.singleLabelModeWithMultipleLabels (l :: ls).length)
        else .ok (head ++ encLabel l true ++ netOctets p.prefix_)
      | .single, [] => .error .emptyLabelStack
      | .multi, ls =>
        match peerMax with
        | some m => if ls.length > m.toNat then .error (.labelCountExceedsPeerLimit ls.length m)
            else .ok (head ++ encLabels ls ++ netOctets p.prefix_)
        | none => .ok (head ++ encLabels ls ++ netOctets p.prefix_)

/-- `encode_labeled_withdrawal` (mpls.rs 830-874). -/
def encodeLabeledWithdrawal (p : NetworkPrefix) : Except LabelErr Bytes :=
  let total := 24 + p.prefix_.len.toNat
  if total > 255 then .error (.totalBitsOverflow total 255)
  else .ok (encPathId p.pathId ++ [UInt8.ofNat total] ++ [0x80, 0x00, 0x00] ++ netOctets p.prefix_)

end Verif
