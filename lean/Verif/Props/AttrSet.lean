import Verif.Spec.AttrLayout
import Verif.Props.Attr
/-
Properties of attribute sets: accessors, flags, header validation, communities (C57).
-/
namespace Verif.Props
open Spec

/-! ### accessors -/

theorem first_of {mk : α → AttrVal} (g : AttrVal → Option α) (h : ∀ v x, g v = some x ↔ v = mk x) (as : List Attribute) :
    First mk as (as.findSome? fun a => g a.value) := by
  induction as with
  | nil => intro b hb; cases hb
  | cons a as ih =>
    rw [List.findSome?_cons]
    cases ha : g a.value with
    | some x =>
      refine ⟨[], a.flag, as, ?_, by simp⟩
      rw [← (h _ _).mp ha]; rfl
    | none =>
      have hn : ∀ y, a.value ≠ mk y := fun y e => by rw [(h _ y).mpr e] at ha; cases ha
      dsimp only
      cases hf : as.findSome? fun a => g a.value with
      | none =>
        rw [hf] at ih
        intro b hb y
        rcases List.mem_cons.mp hb with rfl | hb
        · exact hn y
        · exact ih b hb y
      | some x =>
        rw [hf] at ih
        obtain ⟨pre, f, post, rfl, hp⟩ := ih
        refine ⟨a :: pre, f, post, rfl, ?_⟩
        intro b hb y
        rcases List.mem_cons.mp hb with rfl | hb
        · exact hn y
        · exact hp b hb y

/-- C57. Each accessor returns the first attribute of its kind and nothing if there is none. -/
theorem c57_accessors (a : Attributes) :
    First .originatorId a.inner a.originatorId ∧ First .nextHop a.inner a.nextHop ∧ First .med a.inner a.med ∧
    First .localPref a.inner a.localPref ∧ First .otc a.inner a.otc ∧ First .clusters a.inner a.clusters ∧
    First .asPath a.inner a.asPath ∧ First .as4Path a.inner a.as4Path ∧ First .mpReach a.inner a.reachable ∧
    First .mpUnreach a.inner a.unreachable ∧ (a.atomic = true ↔ ∃ x ∈ a.inner, x.value = .atomic) := by
  refine ⟨first_of (fun v => match v with | .originatorId o => some o | _ => none) ?_ _,
    first_of (fun v => match v with | .nextHop o => some o | _ => none) ?_ _,
    first_of (fun v => match v with | .med o => some o | _ => none) ?_ _,
    first_of (fun v => match v with | .localPref o => some o | _ => none) ?_ _,
    first_of (fun v => match v with | .otc o => some o | _ => none) ?_ _,
    first_of (fun v => match v with | .clusters o => some o | _ => none) ?_ _,
    first_of (fun v => match v with | .asPath o => some o | _ => none) ?_ _,
    first_of (fun v => match v with | .as4Path o => some o | _ => none) ?_ _,
    first_of (fun v => match v with | .mpReach o => some o | _ => none) ?_ _,
    first_of (fun v => match v with | .mpUnreach o => some o | _ => none) ?_ _, ?_⟩
  iterate 10 (focus (intro v x; cases v <;> simp))
  unfold Attributes.atomic
  rw [List.any_eq_true]
  constructor
  · rintro ⟨x, hx, h⟩
    refine ⟨x, hx, ?_⟩
    cases hv : x.value <;> rw [hv] at h <;> first | rfl | cases h
  · rintro ⟨x, hx, h⟩
    exact ⟨x, hx, by rw [h]⟩

/-- C57. The origin is the first ORIGIN attribute; without one it is "incomplete". -/
theorem c57_origin (a : Attributes) : ∃ r, First .origin a.inner r ∧ a.origin = r.getD .incomplete :=
  ⟨_, first_of (mk := .origin) (fun v => match v with | .origin o => some o | _ => none)
    (by intro v x; cases v <;> simp) a.inner, rfl⟩

/-- C57. `get_attr` returns the first attribute with the code asked for. -/
theorem c57_get_attr (a : Attributes) (code : UInt8) :
    match a.getAttr code with
    | some x => ∃ pre post, a.inner = pre ++ x :: post ∧ assignedCode x.value = code ∧ ∀ b ∈ pre, assignedCode b.value ≠ code
    | none => ∀ b ∈ a.inner, assignedCode b.value ≠ code := by
  have hc : ∀ v : AttrVal, v.code = assignedCode v := fun v => by cases v <;> rfl
  unfold Attributes.getAttr
  simp only [hc]
  cases h : a.inner.find? fun x => assignedCode x.value == code with
  | none =>
    intro b hb
    have := List.find?_eq_none.mp h b hb
    simpa using this
  | some x =>
    obtain ⟨h1, pre, post, h2, h3⟩ := List.find?_eq_some_iff_append.mp h
    exact ⟨pre, post, h2, by simpa using h1, fun b hb => by simpa using h3 b hb⟩

/-- the value of an aggregator attribute of either width. -/
def aggregatorOf (p : Bool × Asn × V4) : AttrVal := if p.1 then .as4Aggregator p.2.1 p.2.2 else .aggregator p.2.1 p.2.2

/-- C57. `aggregator` returns the last attribute among AGGREGATOR and AS4_AGGREGATOR. -/
theorem c57_aggregator_last (a : Attributes) :
    ∃ r, First aggregatorOf a.inner.reverse r ∧ a.aggregator = r.map (·.2) := by
  have h := first_of (mk := aggregatorOf) (fun v => match v with
    | .aggregator n i => some (false, n, i)
    | .as4Aggregator n i => some (true, n, i)
    | _ => none) (by rintro v ⟨b, x, y⟩; cases v <;> cases b <;> simp [aggregatorOf] ) a.inner.reverse
  refine ⟨_, h, ?_⟩
  unfold Attributes.aggregator
  generalize a.inner.reverse = l
  induction l with
  | nil => rfl
  | cons x l ih =>
    rw [List.findSome?_cons, List.findSome?_cons, ih]
    cases x.value <;> rfl

/-- C57 fails for `aggregator`: of two AGGREGATOR attributes it returns the second. -/
theorem c57_aggregator_not_first :
    ∃ a : Attributes, ¬ ∃ x, First aggregatorOf a.inner (some x) ∧ a.aggregator = some x.2 := by
  refine ⟨.ofValues [.aggregator 1 #v[1, 1, 1, 1], .aggregator 2 #v[2, 2, 2, 2]], ?_⟩
  rintro ⟨⟨w, n, i⟩, ⟨pre, f, post, h1, h2⟩, h3⟩
  have h3' : (2, #v[2, 2, 2, 2]) = ((n, i) : Asn × V4) := Option.some.inj h3
  injection h3' with e1 e2
  subst e1; subst e2
  cases pre with
  | nil =>
    simp only [List.nil_append] at h1
    have h := congrArg (fun l : List Attribute => (l.headD ⟨0, .atomic⟩).value) h1
    cases w
    · have : (AttrVal.aggregator 1 #v[1, 1, 1, 1]) = .aggregator 2 #v[2, 2, 2, 2] := h
      simp at this
    · have : (AttrVal.aggregator 1 #v[1, 1, 1, 1]) = .as4Aggregator 2 #v[2, 2, 2, 2] := h
      cases this
  | cons b pre =>
    have h := congrArg (fun l : List Attribute => (l.headD ⟨0, .atomic⟩).value) h1
    refine h2 b (by simp) (false, 1, #v[1, 1, 1, 1]) ?_
    exact h.symm

/-- C57. The effective AS path: the only one present, or the merge of the two. -/
theorem c57_effective_as_path (a : Attributes) :
    (∀ p, a.asPath = some p → a.as4Path = none → a.effectiveAsPath = some p) ∧
    (∀ q, a.asPath = none → a.as4Path = some q → a.effectiveAsPath = some q) ∧
    (∀ p q, a.asPath = some p → a.as4Path = some q → a.effectiveAsPath = p.mergeAs4 q) ∧
    (a.asPath = none → a.as4Path = none → a.effectiveAsPath = none) := by
  unfold Attributes.effectiveAsPath
  refine ⟨?_, ?_, ?_, ?_⟩
  · intro p h1 h2; rw [h1, h2]
  · intro p h1 h2; rw [h1, h2]
  · intro p q h1 h2; rw [h1, h2]
  · intro h1 h2; rw [h1, h2]

/-- two MED attributes, an AS4_PATH next to an AS_PATH. -/
example : let a := Attributes.ofValues [.med 7, .asPath [.seq [23456, 2]], .med 8, .as4Path [.seq [70000, 2]]]
    a.med = some 7 ∧ a.localPref = none ∧ a.origin = .incomplete ∧ a.effectiveAsPath = some [.seq [70000, 2]] := by
  decide +kernel

/-! ### default flags -/

/-- C57. A new attribute gets the optional and transitive bits of its RFC category and no other bit.

Partial: the tunnel encapsulation and IPv6 extended communities attributes get the partial bit as well, see
`c57_partial_by_default`. -/
theorem c57_default_flags_partial (v : AttrVal) (b : Bool × Bool) (h : rfcFlags (assignedCode v) = some b)
    (hr : ∀ c x, v ≠ .raw c x ∧ v ≠ .deprecated c x ∧ v ≠ .unknown c x) (ht : ∀ x, v ≠ .tunnel x)
    (h6 : ∀ x, v ≠ .ipv6ExtCommunities x) : (Attributes.ofValue v).flag = bitsOctet b ∧ (Attributes.ofValue v).value = v := by
  cases v with
  | raw c x => exact absurd rfl (hr c x).1
  | deprecated c x => exact absurd rfl (hr c x).2.1
  | unknown c x => exact absurd rfl (hr c x).2.2
  | tunnel x => exact absurd rfl (ht x)
  | ipv6ExtCommunities x => exact absurd rfl (h6 x)
  | development x => cases h
  | _ => cases h; exact ⟨rfl, rfl⟩

/-- C57 fails here: RFC 9012 and RFC 5701 make these attributes optional transitive; a new one is marked partial. -/
theorem c57_partial_by_default (ts : List TunnelTlv) (cs : List Ipv6ExtCommunity) :
    rfcFlags 23 = some (true, true) ∧ rfcFlags 25 = some (true, true) ∧
    (Attributes.ofValue (.tunnel ts)).flag = 0xE0 ∧ (Attributes.ofValue (.ipv6ExtCommunities cs)).flag = 0xE0 ∧
    PartialBit 0xE0 := ⟨by decide, by decide, rfl, rfl, by decide⟩

/-- C57. Attributes without a category are new ones of an unknown kind: optional, transitive, partial. -/
theorem c57_default_flags_unknown (c : UInt8) (x : Bytes) :
    (Attributes.ofValue (.raw c x)).flag = 0xE0 ∧ (Attributes.ofValue (.deprecated c x)).flag = 0xE0 ∧
    (Attributes.ofValue (.unknown c x)).flag = 0xE0 ∧ (Attributes.ofValue (.development x)).flag = 0xE0 := ⟨rfl, rfl, rfl, rfl⟩

example : rfcFlags (assignedCode (.localPref 100)) = some (false, true) ∧
    (Attributes.ofValue (.localPref 100)).flag = 0x40 := by decide

/-! ### header validation -/

theorem u8_all {P : UInt8 → Prop} (h : ∀ i : Fin 256, P (UInt8.ofNat i.val)) (c : UInt8) : P c := by
  have := h ⟨c.toNat, c.toNat_lt⟩
  simpa using this

/-- the codes whose flags the parser checks. -/
def checkedCodes : List UInt8 := [1, 2, 3, 4, 5, 6, 7, 8, 9, 10, 14, 15, 16, 17, 18, 24, 25, 32, 35]

theorem expectedFlags_eq (c : UInt8) :
    expectedFlags c = if c ∈ checkedCodes then (rfcFlags c).map bitsOctet else none := by
  revert c
  exact u8_all (by decide +kernel)

theorem partialForbidden_eq (c : UInt8) : c ∈ partialForbidden ↔ c ∈ checkedCodes ∧ rfcFlags c ≠ some (true, true) := by
  revert c
  exact u8_all (by decide +kernel)

theorem flagBits_eq (f : UInt8) : f &&& 0xC0 = bitsOctet (flagBits f) := by
  revert f
  exact u8_all (by decide +kernel)

theorem isPartial_bit (f : UInt8) : isPartial f = true ↔ PartialBit f := by
  revert f
  exact u8_all (by decide +kernel)

theorem expectedLength_eq (c : UInt8) : expectedLength c = rfcLength c := by
  revert c
  exact u8_all (by decide +kernel)

theorem checked_some (c : UInt8) (h : c ∈ checkedCodes) : (rfcFlags c).isSome = true := by
  revert c
  exact u8_all (by decide +kernel)

theorem bitsOctet_inj (a b : Bool × Bool) : bitsOctet a = bitsOctet b ↔ a = b := by
  obtain ⟨a1, a2⟩ := a
  obtain ⟨b1, b2⟩ := b
  revert a1 a2 b1 b2
  decide +kernel

theorem oneIf_ite {P Q : Prop} [Decidable Q] (h : P ↔ Q) (w : Warning) : OneIf P w (if Q then [w] else []) := by
  by_cases hq : Q
  · exact .inl ⟨h.mpr hq, if_pos hq⟩
  · exact .inr ⟨fun p => hq (h.mp p), if_neg hq⟩

theorem flagWarnings_spec (c f : UInt8) : ∃ x y, flagWarnings c f = x ++ y ∧
    OneIf (c ∈ checkedCodes ∧ WrongBits c f) (.flags c (categoryFlags c) (bitsOctet (flagBits f))) x ∧
    OneIf (c ∈ checkedCodes ∧ WrongPartial c f) (.flags c (categoryFlags c) f) y := by
  unfold flagWarnings
  rw [expectedFlags_eq]
  by_cases hc : c ∈ checkedCodes
  · obtain ⟨b, hb⟩ := Option.isSome_iff_exists.mp (checked_some c hc)
    have he : categoryFlags c = bitsOctet b := by unfold categoryFlags; rw [hb]; rfl
    rw [if_pos hc, hb, he]
    simp only [Option.map_some]
    refine ⟨_, _, rfl, ?_, ?_⟩
    · rw [flagBits_eq]
      refine oneIf_ite ⟨?_, ?_⟩ _
      · rintro ⟨_, b', hb', hn⟩ e
        rw [hb] at hb'
        cases hb'
        exact hn ((bitsOctet_inj _ _).mp e)
      · intro hn
        exact ⟨hc, b, hb, fun e => hn (by rw [e])⟩
    · refine oneIf_ite ⟨?_, ?_⟩ _
      · rintro ⟨_, b', hb', hn, hp⟩
        rw [hb] at hb'
        cases hb'
        exact ⟨(isPartial_bit f).mpr hp, (partialForbidden_eq c).mpr ⟨hc, by rw [hb]; simpa using hn⟩⟩
      · rintro ⟨hp, hf⟩
        have := ((partialForbidden_eq c).mp hf).2
        rw [hb] at this
        exact ⟨hc, b, hb, by simpa using this, (isPartial_bit f).mp hp⟩
  · rw [if_neg hc]
    exact ⟨[], [], rfl, .inr ⟨fun h => hc h.1, rfl⟩, .inr ⟨fun h => hc h.1, rfl⟩⟩

theorem lengthWarnings_spec (c : UInt8) (n : Nat) :
    OneIf (WrongLength c n) (.length c ((rfcLength c).getD 0) n) (lengthWarnings c n) := by
  unfold lengthWarnings WrongLength
  rw [expectedLength_eq]
  cases h : rfcLength c with
  | none => exact .inr ⟨(by rintro ⟨_, h, _⟩; cases h), rfl⟩
  | some e =>
    refine oneIf_ite ⟨?_, ?_⟩ _
    · rintro ⟨n, h, hn⟩; cases h; exact hn
    · intro hn; exact ⟨e, rfl, hn⟩

/-- C57. What one more attribute on the wire adds to the warnings, in this order: at most one for a repeated type, at
most one for wrong category bits, at most one for a wrong partial bit, at most one for a wrong length, at most one for
an undecodable value. (The flags of the codes outside `checkedCodes` are not checked; see `c57_unchecked`.) -/
theorem c57_header_warnings_partial (cfg : AttrCfg) (ws : List Wire) (w : Wire) (hws : ∀ w ∈ ws, w.ok) (hw : w.ok)
    (a b : Attributes) (ha : parseAttributes cfg (wireBytes ws) = .ok a)
    (hb : parseAttributes cfg (wireBytes ws ++ w.bytes) = .ok b) :
    ∃ d f p l m, b.warnings = a.warnings ++ (d ++ (f ++ (p ++ (l ++ m)))) ∧
      OneIf (∃ v ∈ ws, v.code = w.code) (.duplicate w.code) d ∧
      OneIf (w.code ∈ checkedCodes ∧ WrongBits w.code w.flag)
        (.flags w.code (categoryFlags w.code) (bitsOctet (flagBits w.flag))) f ∧
      OneIf (w.code ∈ checkedCodes ∧ WrongPartial w.code w.flag) (.flags w.code (categoryFlags w.code) w.flag) p ∧
      OneIf (WrongLength w.code w.value.length) (.length w.code ((rfcLength w.code).getD 0) w.value.length) l ∧
      OneIf (DecodedCode w.code ∧ b.inner.getLast? = some ⟨w.flag, .raw w.code w.value⟩) (malformedWarning w.code w.flag) m := by
  have e : wireBytes ws ++ w.bytes = wireBytes (ws ++ [w]) := by simp [wireBytes]
  have hall : ∀ x ∈ ws ++ [w], x.ok := by
    intro x hx
    rcases List.mem_append.mp hx with hx | hx
    · exact hws x hx
    · rw [List.mem_singleton] at hx; subst hx; exact hw
  have h1 := parse_wires cfg ws hws (r := []) (.inl (by decide))
  have h2 := parse_wires cfg (ws ++ [w]) hall (r := []) (.inl (by decide))
  rw [List.append_nil, ha] at h1
  rw [List.append_nil, ← e, hb] at h2
  injection h1 with h1
  injection h2 with h2
  have hr : ∀ v : VState, restV v [] = v := fun _ => rfl
  rw [hr] at h1 h2
  rw [List.foldl_append, List.foldl_cons, List.foldl_nil] at h2
  subst h1 h2
  obtain ⟨x, y, hxy, hx, hy⟩ := flagWarnings_spec w.code w.flag
  have hl := lengthWarnings_spec w.code w.value.length
  have hd : OneIf (∃ v ∈ ws, v.code = w.code) (.duplicate w.code)
      (if maskHas (ws.foldl (stepV cfg) VState.init).mask w.code then [.duplicate w.code] else []) := by
    refine oneIf_ite ?_ _
    rw [foldV_has]
    have : maskHas VState.init.mask w.code = false := by
      have := computeMask_has [] maskZero w.code
      revert this
      generalize w.code = c
      revert c
      exact u8_all (by decide +kernel)
    simp [this]
  have hm : OneIf (DecodedCode w.code ∧ ((ws ++ [w]).map (attrOf cfg)).getLast? = some ⟨w.flag, .raw w.code w.value⟩)
      (malformedWarning w.code w.flag) (if (valueOf cfg w).2 then [malformedWarning w.code w.flag] else []) := by
    refine oneIf_ite ?_ _
    rw [valueOf_bad]
    simp [attrOf]
  refine ⟨_, x, y, _, _, ?_, hd, hx, hy, hl, hm⟩
  dsimp only
  unfold stepV
  split
  · unfold VState.parseError VState.header
    simp only [hxy, List.append_assoc]
    rw [isPartial_eq]
    simp [malformedWarning]
  · unfold VState.header
    simp only [hxy, List.append_assoc, List.append_nil]

/-- C57. No attributes, no warnings. -/
theorem c57_no_warnings (cfg : AttrCfg) : ∃ a, parseAttributes cfg (wireBytes []) = .ok a ∧ a.warnings = [] := ⟨_, rfl, rfl⟩

/-- C57 fails here: one header with a wrong category and a wrong partial bit is reported twice. -/
theorem c57_two_flag_warnings : (parseAttributes c11Cfg [0x60, 4, 4, 0, 0, 0, 1]).toOption.map (·.warnings) =
    some [.flags 4 0x80 0x40, .flags 4 0x80 0x60] := by decide +kernel

/-- C57 fails here: an AIGP attribute, optional non-transitive by RFC 7311, is accepted as a well-known one. -/
theorem c57_unchecked : WrongBits 26 0x40 ∧
    (parseAttributes c11Cfg [0x40, 26, 11, 1, 0, 11, 0, 0, 0, 0, 0, 0, 0, 5]).toOption.map (·.warnings) = some [] :=
  ⟨⟨(true, false), by decide, by decide⟩, by decide +kernel⟩

/-- a second ORIGIN, optional and of length two. -/
example : (∀ w ∈ [⟨0x40, 1, [0]⟩, ⟨0x80, 1, [9, 9]⟩], Wire.ok w) ∧
    (parseAttributes c11Cfg [0x40, 1, 1, 0, 0x80, 1, 2, 9, 9]).toOption.map (·.warnings) =
      some [.duplicate 1, .flags 1 0x40 0x80, .length 1 1 2, .malformedList] := by decide +kernel

/-! ### communities -/

/-- what is left to list. -/
def commRest : List Attribute → Nat → List MetaCommunity
  | [], _ => []
  | x :: xs, i => (match x.value with
    | .communities cs => (cs.map .plain).drop i
    | .extCommunities cs => (cs.map .extended).drop i
    | .largeCommunities cs => (cs.map .large).drop i
    | _ => []) ++ commRest xs 0

theorem next_rest : ∀ (xs : List Attribute) (i : Nat), match CommIter.next xs i with
    | none => commRest xs i = []
    | some (c, it) => commRest xs i = c :: commRest it.attributes it.index
  | [], i => rfl
  | x :: xs, i => by
    have ih := next_rest xs 0
    obtain ⟨f, v⟩ := x
    cases v
    case communities cs =>
      rw [CommIter.next, show commRest (⟨f, .communities cs⟩ :: xs) i = (cs.map .plain).drop i ++ commRest xs 0 from rfl]
      dsimp only
      by_cases h : i < cs.length
      · rw [dif_pos h]
        simp only [commRest]
        rw [List.drop_eq_getElem_cons (by simpa using h)]
        simp
      · rw [dif_neg h, List.drop_eq_nil_of_le (by simpa using h)]
        exact ih
    case extCommunities cs =>
      rw [CommIter.next, show commRest (⟨f, .extCommunities cs⟩ :: xs) i = (cs.map .extended).drop i ++ commRest xs 0 from rfl]
      dsimp only
      by_cases h : i < cs.length
      · rw [dif_pos h]
        simp only [commRest]
        rw [List.drop_eq_getElem_cons (by simpa using h)]
        simp
      · rw [dif_neg h, List.drop_eq_nil_of_le (by simpa using h)]
        exact ih
    case largeCommunities cs =>
      rw [CommIter.next, show commRest (⟨f, .largeCommunities cs⟩ :: xs) i = (cs.map .large).drop i ++ commRest xs 0 from rfl]
      dsimp only
      by_cases h : i < cs.length
      · rw [dif_pos h]
        simp only [commRest]
        rw [List.drop_eq_getElem_cons (by simpa using h)]
        simp
      · rw [dif_neg h, List.drop_eq_nil_of_le (by simpa using h)]
        exact ih
    all_goals exact ih

theorem take_rest (n : Nat) (it : CommIter) : it.take n = (commRest it.attributes it.index).take n := by
  induction n generalizing it with
  | zero => rfl
  | succ n ih =>
    unfold CommIter.take
    have h := next_rest it.attributes it.index
    cases hn : CommIter.next it.attributes it.index with
    | none => rw [hn] at h; dsimp only at h; rw [h]; rfl
    | some p => rw [hn] at h; dsimp only at h; rw [h, List.take_succ_cons, ← ih]

/-- C57. The community iterator lists the communities of all attributes in order, except IPv6 extended ones: any number
of calls returns that many of them from the start.

Partial: IPv6 extended communities are left out, see `c57_ipv6_communities_skipped`. -/
theorem c57_communities_partial (a : Attributes) (n : Nat) :
    a.commIter.take n = ((a.inner.flatMap fun x => communitiesIn x.value).filter fun c =>
      match c with | .ipv6Extended _ => false | _ => true).take n := by
  rw [take_rest]
  congr 1
  show commRest a.inner 0 = _
  generalize a.inner = l
  induction l with
  | nil => rfl
  | cons x l ih =>
    rw [List.flatMap_cons, List.filter_append, ← ih, commRest]
    congr 1
    have keep : ∀ {β : Type} (mk : β → MetaCommunity) (cs : List β), (∀ b c, mk b ≠ .ipv6Extended c) →
        (cs.map mk).filter (fun c => match c with | .ipv6Extended _ => false | _ => true) = (cs.map mk).drop 0 := by
      intro β mk cs hmk
      rw [List.drop_zero, List.filter_eq_self]
      intro c hc
      obtain ⟨b, _, rfl⟩ := List.mem_map.mp hc
      cases h : mk b with
      | ipv6Extended c => exact absurd h (hmk b c)
      | _ => rfl
    cases x.value with
    | communities cs => exact (keep .plain cs (by intros; simp)).symm
    | extCommunities cs => exact (keep .extended cs (by intros; simp)).symm
    | largeCommunities cs => exact (keep .large cs (by intros; simp)).symm
    | ipv6ExtCommunities cs =>
      symm
      show ((cs.map MetaCommunity.ipv6Extended).filter _) = []
      rw [List.filter_eq_nil_iff]
      intro c hc
      obtain ⟨b, _, rfl⟩ := List.mem_map.mp hc
      simp
    | _ => rfl

/-- C57 fails here: an IPv6 extended communities attribute contributes nothing. -/
theorem c57_ipv6_communities_skipped (c : Ipv6ExtCommunity) (n : Nat) :
    (Attributes.ofValues [.ipv6ExtCommunities [c]]).commIter.take n = [] ∧
    communitiesIn (.ipv6ExtCommunities [c]) = [.ipv6Extended c] := by
  refine ⟨?_, rfl⟩
  cases n <;> rfl

example : (Attributes.ofValues [.largeCommunities [⟨1, 2, 3⟩], .med 5, .communities [.noExport, .custom 1 2]]).commIter.take 9 =
    [.large ⟨1, 2, 3⟩, .plain .noExport, .plain (.custom 1 2)] := by decide +kernel

end Verif.Props
