import Verif.Lemmas.Mpls
/-
C44: MPLS label stacks and labelled NLRI.
-/
namespace Verif.Props
open Spec

/-- C44. Every 20-bit label and either bottom-of-stack flag survive the three-byte encoding. -/
theorem c44_label_roundtrip (l : Label) (b : Bool) (h : l.toNat < 2 ^ 20) :
    ∃ x y z, encLabel l b = [x, y, z] ∧ decLabel x y z = (l, b) := decLabel_enc h b

/-- C44. `MplsLabel::try_new` accepts exactly the 20-bit values and does not change them; every decoded label is one. -/
theorem c44_label_range (v : UInt32) :
    (Label.tryNew v = some v ↔ v.toNat < 2 ^ 20) ∧ (Label.tryNew v = none ↔ 2 ^ 20 ≤ v.toNat) ∧
    ∀ x y z, (decLabel x y z).1.toNat < 2 ^ 20 := by
  have e : (v > 0x000FFFFF) ↔ 2 ^ 20 ≤ v.toNat := by
    rw [gt_iff_lt, UInt32.lt_iff_toNat_lt]; exact Iff.rfl
  unfold Label.tryNew
  refine ⟨?_, ?_, ?_⟩
  · by_cases h : v > 0x000FFFFF
    · rw [if_pos h]; rw [e] at h; simp; omega
    · rw [if_neg h]; rw [e] at h; simp; omega
  · by_cases h : v > 0x000FFFFF
    · rw [if_pos h]; rw [e] at h; simp; omega
    · rw [if_neg h]; rw [e] at h; simp; omega
  · intro x y z
    rw [(decLabel_spec x y z).1]
    have := x.toNat_lt; have := y.toNat_lt; have := z.toNat_lt
    omega

/-- C44. Any list of well-formed labelled prefixes can be encoded one by one, and parsing the concatenation with the
same session parameters gives the list back. -/
theorem c44_labeled_roundtrip (afi : Afi) (cfg : LabelCfg) (ps : List LabeledPrefix) (h : ∀ p ∈ ps, LabeledOk afi cfg p) :
    ∃ enc : List Bytes, ps.mapM (fun p => encodeLabeled p cfg.mode cfg.addPath cfg.peerMax) = .ok enc ∧
      parseLabeledNlri afi cfg enc.flatten = .ok ps := by
  let f : LabeledPrefix → Bytes := fun p => encPathId p.pathId ++
    [UInt8.ofNat (p.labels.length * 24 + p.prefix_.len.toNat)] ++ encLabels p.labels ++ netOctets p.prefix_
  refine ⟨ps.map f, ?_, ?_⟩
  · induction ps with
    | nil => rfl
    | cons p ps ih =>
      rw [List.mapM_cons, encodeLabeled_ok (h p (by simp)), ih (fun q hq => h q (by simp [hq]))]
      rfl
  · have := many_encode (p := rdLabeled afi cfg) (enc := f) ps fun p hp => ⟨by simp [f], fun s => rdLabeled_enc (h p hp) s⟩
    rw [List.flatMap_def] at this
    exact this

/-- C44. Withdrawals survive the three-byte compatibility field, whatever the field holds on the wire. -/
theorem c44_withdrawal_roundtrip (afi : Afi) (p : NetworkPrefix) (hf : FamilyOk afi p.prefix_.addr)
    (hne : afi ≠ .linkState) (hl : LenOk afi p.prefix_.len) (hh : NoHostBits p.prefix_) :
    ∃ b, encodeLabeledWithdrawal p = .ok b ∧
      parseLabeledWithdrawals afi p.pathId.isSome b = .ok [p] ∧
      ∀ c : Vector UInt8 3, parseLabeledWithdrawals afi p.pathId.isSome
        (encPathId p.pathId ++ [UInt8.ofNat (24 + p.prefix_.len.toNat)] ++ c.toList ++ netOctets p.prefix_) = .ok [p] := by
  have hlen : p.prefix_.len.toNat ≤ 128 := by
    cases afi <;> simp [LenOk] at hl
    · omega
    · omega
    · simp [hl]
  have hall : ∀ c : Vector UInt8 3, parseLabeledWithdrawals afi p.pathId.isSome
        (encPathId p.pathId ++ [UInt8.ofNat (24 + p.prefix_.len.toNat)] ++ c.toList ++ netOctets p.prefix_) = .ok [p] := by
    intro c
    have := many_encode (p := rdLabeledWithdrawal afi p.pathId.isSome) (enc := fun p : NetworkPrefix => encPathId p.pathId ++
      [UInt8.ofNat (24 + p.prefix_.len.toNat)] ++ c.toList ++ netOctets p.prefix_) [p]
      fun q hq => ⟨by simp, fun s => by
        rw [List.mem_singleton] at hq; subst hq; exact rdLabeledWithdrawal_enc hf hne hl hh c s⟩
    simpa [parseLabeledWithdrawals] using this
  refine ⟨_, by simp only [encodeLabeledWithdrawal]; rw [if_neg (by omega)], ?_, hall⟩
  have := hall #v[0x80, 0, 0]
  simpa using this

/-- C44. Soundness of one parsed NLRI in multi-label mode: the bytes are path id (exactly when Add-Path is on), a length
byte counting 24 bits per label plus the prefix length, a stack in which bottom-of-stack is set on the last label and on
no other, and the prefix octets, whose leading bits are the address and whose surplus bits are cleared; the configured limits hold and the prefix length fits the address family. -/
theorem c44_parse_sound (afi : Afi) (cfg : LabelCfg) (hm : cfg.mode = .multi) (s : Bytes) (ps : List LabeledPrefix)
    (h : parseLabeledNlri afi cfg s = .ok ps) :
    ∃ pieces : List Bytes, pieces.length = ps.length ∧ s = pieces.flatten ∧
      ∀ i (hi : i < ps.length) (hj : i < pieces.length), ∃ stack pfx,
        pieces[i] = encPathId ps[i].pathId ++ [UInt8.ofNat (24 * ps[i].labels.length + ps[i].prefix_.len.toNat)] ++
          stack ++ pfx ∧
        24 * ps[i].labels.length + ps[i].prefix_.len.toNat ≤ 255 ∧
        StackBytes stack ps[i].labels ∧ pfx.length = byteLen ps[i].prefix_.len ∧
        (∀ k < ps[i].prefix_.len.toNat, addrBit ps[i].prefix_.addr.octets k = addrBit pfx k) ∧ NoHostBits ps[i].prefix_ ∧
        ps[i].pathId.isSome = cfg.addPath ∧ FamilyOk afi ps[i].prefix_.addr ∧ LenOk afi ps[i].prefix_.len ∧
        ps[i].labels.length ≤ cfg.maxLabels.toNat ∧ ∀ m, cfg.peerMax = some m → ps[i].labels.length ≤ m.toNat := by
  suffices H : ∀ (fuel : Nat) (s : Bytes) (ps : List LabeledPrefix), manyFuel (rdLabeled afi cfg) fuel s = .ok ps →
      ∃ pieces : List Bytes, pieces.length = ps.length ∧ s = pieces.flatten ∧
      ∀ i (hi : i < ps.length) (hj : i < pieces.length), ∃ stack pfx,
        pieces[i] = encPathId ps[i].pathId ++ [UInt8.ofNat (24 * ps[i].labels.length + ps[i].prefix_.len.toNat)] ++
          stack ++ pfx ∧
        24 * ps[i].labels.length + ps[i].prefix_.len.toNat ≤ 255 ∧
        StackBytes stack ps[i].labels ∧ pfx.length = byteLen ps[i].prefix_.len ∧
        (∀ k < ps[i].prefix_.len.toNat, addrBit ps[i].prefix_.addr.octets k = addrBit pfx k) ∧ NoHostBits ps[i].prefix_ ∧
        ps[i].pathId.isSome = cfg.addPath ∧ FamilyOk afi ps[i].prefix_.addr ∧ LenOk afi ps[i].prefix_.len ∧
        ps[i].labels.length ≤ cfg.maxLabels.toNat ∧ ∀ m, cfg.peerMax = some m → ps[i].labels.length ≤ m.toNat from
    H _ _ _ h
  intro fuel
  induction fuel with
  | zero =>
    intro s ps hm
    cases s with
    | nil => simp [manyFuel] at hm; subst hm; exact ⟨[], by simp⟩
    | cons b bs => simp [manyFuel] at hm
  | succ fuel ih =>
    intro s ps hp
    cases s with
    | nil => simp [manyFuel] at hp; subst hp; exact ⟨[], by simp⟩
    | cons b bs =>
      simp only [manyFuel] at hp
      cases h1 : rdLabeled afi cfg (b :: bs) with
      | error e => rw [h1] at hp; cases hp
      | ok v =>
        obtain ⟨a, r⟩ := v
        rw [h1] at hp
        simp only at hp
        cases h2 : manyFuel (rdLabeled afi cfg) fuel r with
        | error e => rw [h2] at hp; cases hp
        | ok as' =>
          rw [h2] at hp
          cases hp
          obtain ⟨pieces, hl, hs, hall⟩ := ih _ _ h2
          obtain ⟨st, pf, e1, e2, e3, e4, e5, e6, e7, e8, e9⟩ := rdLabeled_sound h1
          rw [hm] at e9
          simp only at e9
          refine ⟨(encPathId a.pathId ++ [UInt8.ofNat (24 * a.labels.length + a.prefix_.len.toNat)] ++ st ++ pf) :: pieces,
            by simp [hl], ?_, ?_⟩
          · rw [e1, List.flatten_cons, hs]
          · intro i hi hj
            cases i with
            | zero => exact ⟨st, pf, rfl, e2, e9.1, e8, (maskedPrefix_bits e7 e8).1, (maskedPrefix_bits e7 e8).2, e3, e4, e5, e9.2.1, e9.2.2⟩
            | succ i => exact hall i (by simpa using hi) (by simpa using hj)

/-- C44. Neither labelled-NLRI parser panics, on any bytes and any configuration. -/
theorem c44_no_panic (afi : Afi) (cfg : LabelCfg) (ap : Bool) (s : Bytes) :
    parseLabeledNlri afi cfg s ≠ .error .panic ∧ parseLabeledWithdrawals afi ap s ≠ .error .panic :=
  ⟨many_noPanic (rdLabeled_noPanic afi cfg) (fun _ _ _ h => rdLabeled_progress h) s,
   many_noPanic (rdLabeledWithdrawal_noPanic afi ap) (fun _ _ _ h => rdLabeledWithdrawal_progress h) s⟩

/-- C44. The constructor accepts exactly the stacks that fit the one-byte length field, and then encoding in multi-label
mode with Add-Path matching never fails for lack of space. -/
theorem c44_try_new (p : IpNet) (ls : List Label) (pid : Option UInt32) :
    (LabeledPrefix.tryNew p ls pid = some ⟨p, ls, pid⟩ ↔ ls ≠ [] ∧ 24 * ls.length + p.len.toNat ≤ 255) ∧
    (∀ q, LabeledPrefix.tryNew p ls pid = some q → ∃ b, encodeLabeled q .multi q.pathId.isSome none = .ok b) := by
  unfold LabeledPrefix.tryNew
  constructor
  · split
    · simp [*]
    · split
      · simp; intro; omega
      · simp [*]; omega
  · intro q hq
    split at hq
    · cases hq
    split at hq
    · cases hq
    cases hq
    rename_i h1 h2
    unfold encodeLabeled
    simp only
    rw [if_neg h1, if_neg (by cases pid <;> simp), if_neg h2]
    exact ⟨_, rfl⟩

/-- C44. Every failure of the encoder is one of the documented ones, each under exactly its condition. -/
theorem c44_encode_errors (p : LabeledPrefix) (mode : LabelMode) (ap : Bool) (peer : Option UInt8) (e : LabelErr)
    (h : encodeLabeled p mode ap peer = .error e) :
    (e = .emptyLabelStack ∧ p.labels = []) ∨
    (e = .addPathNotNegotiated ∧ p.pathId.isSome ∧ ap = false) ∨
    (e = .totalBitsOverflow (p.labels.length * 24 + p.prefix_.len.toNat) 255 ∧ 255 < p.labels.length * 24 + p.prefix_.len.toNat) ∨
    (e = .singleLabelModeWithMultipleLabels p.labels.length ∧ mode = .single ∧ 1 < p.labels.length) ∨
    (∃ m, e = .labelCountExceedsPeerLimit p.labels.length m ∧ peer = some m ∧ mode = .multi ∧ m.toNat < p.labels.length) := by
  unfold encodeLabeled at h
  by_cases h1 : p.labels = []
  · rw [if_pos h1] at h; cases h; exact .inl ⟨rfl, h1⟩
  rw [if_neg h1] at h
  by_cases h2 : p.pathId.isSome ∧ ap = false
  · rw [if_pos h2] at h; cases h; exact .inr (.inl ⟨rfl, h2⟩)
  rw [if_neg h2] at h
  simp only at h
  by_cases h3 : p.labels.length * 24 + p.prefix_.len.toNat > 255
  · rw [if_pos h3] at h; cases h; exact .inr (.inr (.inl ⟨rfl, h3⟩))
  rw [if_neg h3] at h
  obtain ⟨pf, ls, pid⟩ := p
  cases mode with
  | single =>
    cases ls with
    | nil => exact absurd rfl h1
    | cons l ls =>
      simp only at h
      split at h
      · rename_i h4; cases h; exact .inr (.inr (.inr (.inl ⟨rfl, rfl, h4⟩)))
      · cases h
  | multi =>
    cases peer with
    | none => cases h
    | some m =>
      simp only at h
      split at h
      · rename_i h4; cases h; exact .inr (.inr (.inr (.inr ⟨m, rfl, rfl, rfl, h4⟩)))
      · cases h

/-- a two-label IPv4 /20 with a path id, under default limits with Add-Path, is well-formed. -/
example : LabeledOk .ipv4 { LabelCfg.default with addPath := true }
    ⟨⟨.v4 #v[10, 1, 0x40, 0], 20⟩, [16, 1048575], some 7⟩ := by
  refine ⟨?_, ?_, ?_, rfl, ?_, ?_, ?_, ?_, ?_⟩
  rotate_right 1
  · intro m hm; cases hm
  all_goals decide +kernel

/-- parsing a two-label NLRI yields both labels. -/
example : parseLabeledNlri .ipv4 LabelCfg.default [68, 0, 1, 0, 0xFF, 0xFF, 0xF1, 10, 1, 0x40] =
    .ok [⟨⟨.v4 #v[10, 1, 0x40, 0], 20⟩, [16, 1048575], none⟩] := by decide +kernel

/-- Disagreement: in an Add-Path session a prefix without a path id is encoded without the four-byte field, and the
peer reads other bytes as the path id. -/
theorem c44_addpath_none_not_preserved :
    encodeLabeled ⟨⟨.v4 #v[10, 1, 2, 3], 32⟩, [16], none⟩ .multi true none = .ok [56, 0, 1, 1, 10, 1, 2, 3] ∧
    parseLabeledNlri .ipv4 { LabelCfg.default with addPath := true } [56, 0, 1, 1, 10, 1, 2, 3] =
      .error .invalidLabeledNlriLength := by decide +kernel

/-- Disagreement: address bits beyond the prefix length are masked when parsing, so a prefix carrying them changes. -/
theorem c44_host_bits_masked :
    ∃ b, encodeLabeled ⟨⟨.v4 #v[10, 1, 0x4F, 0], 20⟩, [16], none⟩ .multi false none = .ok b ∧
    parseLabeledNlri .ipv4 LabelCfg.default b = .ok [⟨⟨.v4 #v[10, 1, 0x40, 0], 20⟩, [16], none⟩] :=
  ⟨_, rfl, by decide +kernel⟩

end Verif.Props
