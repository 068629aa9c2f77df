import Verif.Lemmas.FlowSpec
/-
C43: FlowSpec NLRI.
-/
namespace Verif.Props
open Spec

theorem c43_aux {cs : List FsComp} (h : ∀ c ∈ cs, FsCompOk c) (ho : FsOrdered cs) {b : Bytes}
    (hb : encodeFlowSpec cs = .ok b) (s : Bytes) : parseFlowSpec' (b ++ s) = .ok (cs, s) := by
  obtain ⟨d, h1, h2⟩ := fsComps_enc cs h ho
  unfold encodeFlowSpec at hb
  simp only [h1, checkMax] at hb
  by_cases hl : d.length > 0x0FFF
  · rw [if_pos hl] at hb; cases hb
  rw [if_neg hl] at hb
  cases hb
  have hn : (UInt16.ofNat d.length).toNat = d.length := by simp; omega
  unfold parseFlowSpec'
  rw [List.append_assoc, fsLen_enc (by omega)]
  simp only
  rw [if_neg (by rw [hn]; simp)]
  have : (d ++ s).length - (UInt16.ofNat d.length).toNat = s.length := by rw [hn]; simp
  rw [this]
  refine h2 _ 0 s ?_ ?_
  · intro c _
    cases c with
    | numeric k _ => cases k <;> simp only [FsComp.code, FsKindNum.code] <;> decide
    | bitmask k _ => cases k <;> simp only [FsComp.code, FsKindBit.code] <;> decide
    | _ => simp only [FsComp.code]; decide
  · have hlen : cs.length ≤ d.length := by
      clear h2 hn this hl ho h
      induction cs generalizing d with
      | nil => simp
      | cons c cs ih =>
        simp only [fsEncComps] at h1
        cases e1 : fsEncComp c with
        | error e => rw [e1] at h1; cases h1
        | ok x =>
          rw [e1] at h1
          simp only at h1
          cases e2 : fsEncComps cs with
          | error e => rw [e2] at h1; cases h1
          | ok y =>
            rw [e2] at h1
            cases h1
            have := ih y e2
            simp; omega
    simp; omega

/-- C43. Every well-formed rule that fits in 4095 bytes is encoded, and parsing the bytes (whatever follows them) returns
the rule; a longer one is rejected with the length error. -/
theorem c43_roundtrip (cs : List FsComp) (h : ∀ c ∈ cs, FsCompOk c) (ho : FsOrdered cs) :
    ∃ body, fsEncComps cs = .ok body ∧
      (body.length ≤ 4095 → ∃ b, encodeFlowSpec cs = .ok b ∧ ∀ s, parseFlowSpec (b ++ s) = .ok cs) ∧
      (4095 < body.length → encodeFlowSpec cs = .error (.tooLarge body.length 4095)) := by
  obtain ⟨d, h1, _⟩ := fsComps_enc cs h ho
  refine ⟨d, h1, ?_, ?_⟩
  · intro hl
    have hb : encodeFlowSpec cs = .ok (fsEncodeLength (UInt16.ofNat d.length) ++ d) := by
      simp only [encodeFlowSpec, h1, checkMax]
      rw [if_neg (by omega)]
    exact ⟨_, hb, fun s => by unfold parseFlowSpec; rw [c43_aux h ho hb s]⟩
  · intro hl
    simp only [encodeFlowSpec, h1, checkMax]
    rw [if_pos (by omega)]

/-- C43. Whatever parses is well-formed, its component types strictly increase, and the input is a length field followed
by exactly the bytes the encoder would write for the components (and possibly more bytes); the declared length is never
more than what the components take. -/
theorem c43_parse_sound (data : Bytes) (cs : List FsComp) (h : parseFlowSpec data = .ok cs) :
    (∀ c ∈ cs, FsCompOk c) ∧ FsOrdered cs ∧
    ∃ (lenField body rest : Bytes) (n : UInt16), data = lenField ++ body ++ rest ∧ fsEncComps cs = .ok body ∧
      fsParseLength data = .ok (n, body ++ rest) ∧ n.toNat ≤ body.length := by
  unfold parseFlowSpec at h
  cases h0 : parseFlowSpec' data with
  | error e => rw [h0] at h; cases h
  | ok x =>
    obtain ⟨cs', r⟩ := x
    rw [h0] at h
    cases h
    unfold parseFlowSpec' at h0
    cases h1 : fsParseLength data with
    | error e => rw [h1] at h0; cases h0
    | ok y =>
      obtain ⟨n, s⟩ := y
      rw [h1] at h0
      simp only at h0
      split at h0
      · cases h0
      rename_i hlen
      obtain ⟨i1, i2, _, i4, b, hb, hs⟩ := fsComps_sound _ _ _ _ _ _ h0
      obtain ⟨l, hl, _⟩ := fsParseLength_progress h1
      subst hs
      refine ⟨i1, i2, l, b, r, n, by rw [hl]; simp, hb, rfl, ?_⟩
      simp at hlen i4
      omega

/-- C43. Exactly the well-formed rules survive: if a rule encodes, parsing gives it back iff it is well-formed and in
increasing order. -/
theorem c43_survives_iff (cs : List FsComp) (b : Bytes) (hb : encodeFlowSpec cs = .ok b) :
    parseFlowSpec b = .ok cs ↔ (∀ c ∈ cs, FsCompOk c) ∧ FsOrdered cs := by
  constructor
  · intro h
    obtain ⟨h1, h2, _⟩ := c43_parse_sound b cs h
    exact ⟨h1, h2⟩
  · rintro ⟨h1, h2⟩
    have := c43_aux h1 h2 hb []
    rw [List.append_nil] at this
    simp [parseFlowSpec, this]

/-- C43. A component type that is not larger than its predecessor is always rejected. -/
theorem c43_order_rejected (cs : List FsComp) (h : ¬ FsOrdered cs) (data : Bytes) : parseFlowSpec data ≠ .ok cs :=
  fun hp => h (c43_parse_sound data cs hp).2.1

/-- C43/C48. The parser does not panic. -/
theorem c43_no_panic (data : Bytes) : parseFlowSpec data ≠ .error .panic := by
  intro h
  unfold parseFlowSpec at h
  cases h0 : parseFlowSpec' data with
  | ok x => rw [h0] at h; cases h
  | error e =>
    rw [h0] at h
    cases h
    unfold parseFlowSpec' at h0
    cases h1 : fsParseLength data with
    | error e => rw [h1] at h0; cases h0; exact fsParseLength_noPanic _ h1
    | ok y =>
      obtain ⟨n, s⟩ := y
      rw [h1] at h0
      simp only at h0
      split at h0
      · cases h0
      · exact fsComps_noPanic _ _ _ _ (Nat.le_refl _) h0

/-- C43. The convenience constructors choose the smallest of the four widths that holds the value, so what they build is
always encodable. -/
theorem c43_constructors (v : UInt64) :
    WidthOk (NumOp.equalTo v).valueLen (NumOp.equalTo v).value ∧
    WidthOk (NumOp.greaterThanOrEqual v).valueLen (NumOp.greaterThanOrEqual v).value ∧
    WidthOk (BitOp.exactMatch v).valueLen (BitOp.exactMatch v).bitmask ∧
    WidthOk (BitOp.partialMatch v).valueLen (BitOp.partialMatch v).bitmask ∧
    (∀ l : UInt8, WidthOk l v → minValueLen v ≤ l) := by
  have key : WidthOk (minValueLen v) v := by
    have hv := v.toNat_lt
    unfold minValueLen WidthOk
    by_cases h1 : v ≤ 0xFF
    · rw [if_pos h1]; rw [UInt64.le_iff_toNat_le] at h1; exact ⟨.inl rfl, by simp at h1 ⊢; omega⟩
    rw [if_neg h1]
    by_cases h2 : v ≤ 0xFFFF
    · rw [if_pos h2]; rw [UInt64.le_iff_toNat_le] at h2; exact ⟨.inr (.inl rfl), by simp at h2 ⊢; omega⟩
    rw [if_neg h2]
    by_cases h3 : v ≤ 0xFFFFFFFF
    · rw [if_pos h3]; rw [UInt64.le_iff_toNat_le] at h3; exact ⟨.inr (.inr (.inl rfl)), by simp at h3 ⊢; omega⟩
    rw [if_neg h3]
    exact ⟨.inr (.inr (.inr rfl)), by simp; omega⟩
  refine ⟨key, key, key, key, ?_⟩
  rintro l ⟨hl, hv⟩
  unfold minValueLen
  rcases hl with rfl | rfl | rfl | rfl
  · rw [if_pos (by rw [UInt64.le_iff_toNat_le]; simp at hv ⊢; omega)]; decide
  · by_cases h1 : v ≤ 0xFF
    · rw [if_pos h1]; decide
    · rw [if_neg h1, if_pos (by rw [UInt64.le_iff_toNat_le]; simp at hv ⊢; omega)]; decide
  · by_cases h1 : v ≤ 0xFF
    · rw [if_pos h1]; decide
    by_cases h2 : v ≤ 0xFFFF
    · rw [if_neg h1, if_pos h2]; decide
    · rw [if_neg h1, if_neg h2, if_pos (by rw [UInt64.le_iff_toNat_le]; simp at hv ⊢; omega)]; decide
  · split
    · decide
    split
    · decide
    split <;> decide

/-- a rule with a prefix, a protocol, a port range and TCP flags is well-formed and ordered. -/
def exampleRule : List FsComp :=
  [.dstPrefix ⟨⟨.v4 #v[192, 0, 2, 0], 24⟩, none⟩, .numeric .ipProtocol [.equalTo 6],
   .numeric .destinationPort [⟨false, true, 2, false, true, true, 1024⟩, ⟨true, false, 2, true, false, true, 2048⟩],
   .bitmask .tcpFlags [.partialMatch 2]]

example : (∀ c ∈ exampleRule, FsCompOk c) ∧ FsOrdered exampleRule := by
  refine ⟨?_, ?_⟩
  · intro c hc
    simp only [exampleRule, List.mem_cons, List.not_mem_nil, or_false] at hc
    rcases hc with rfl | rfl | rfl | rfl
    · exact ⟨rfl, by decide +kernel, by decide⟩
    · exact ⟨rfl, by decide +kernel⟩
    · exact ⟨⟨rfl, rfl⟩, by decide +kernel⟩
    · exact ⟨rfl, by decide +kernel⟩
  · unfold FsOrdered exampleRule
    decide +kernel

example : encodeFlowSpec exampleRule =
    .ok [18, 1, 24, 192, 0, 2, 3, 0x81, 6, 5, 0x53, 4, 0, 0x95, 8, 0, 9, 0x81, 2] := by decide +kernel

/-- Disagreement: IPv6 prefixes of at most 32 bits come back as IPv4, and the IPv6 variants with an offset never come
back. -/
theorem c43_ipv6_not_preserved :
    (∃ b, encodeFlowSpec [.dstPrefix ⟨⟨.v6 #v[0x20, 1, 0xd, 0xb8, 0, 0, 0, 0, 0, 0, 0, 0, 0, 0, 0, 0], 32⟩, none⟩] = .ok b ∧
      parseFlowSpec b = .ok [.dstPrefix ⟨⟨.v4 #v[0x20, 1, 0xd, 0xb8], 32⟩, none⟩]) ∧
    (∀ cs o p data, FsComp.dstPrefix6 o p ∈ cs ∨ FsComp.srcPrefix6 o p ∈ cs → parseFlowSpec data ≠ .ok cs) := by
  refine ⟨⟨_, rfl, by decide +kernel⟩, ?_⟩
  intro cs o p data h hp
  have := (c43_parse_sound data cs hp).1
  rcases h with h | h
  · exact this _ h
  · exact this _ h

/-- Disagreement: the declared length bounds where components start, not where they end; the last component may take
bytes that belong to the next NLRI. -/
theorem c43_overread :
    parseFlowSpec [1, 3, 0x81, 6] = .ok [.numeric .ipProtocol [.equalTo 6]] := by decide +kernel

/-- Disagreement: a public operator value with a width above 8 makes the encoder shift by 64 bits or more, a panic in
debug builds. -/
theorem c43_encode_panic :
    encodeFlowSpec [.numeric .port [⟨true, false, 9, false, false, true, 80⟩]] = .error .panic := by decide +kernel

end Verif.Props
