import Verif.Lemmas.Attr
/-
C11-C14: path attribute lists.
-/
namespace Verif.Props
open Spec

/-! ### C11 -/

/-- C11. Attributes the session can carry, once encoded, parse back to the same list: same order, flags and values. -/
theorem c11_attributes_roundtrip_partial (cfg : AttrCfg) (as : List Attribute) (bs : Bytes)
    (hok : ∀ a ∈ as, AttrValOk cfg a.value) (h : encodeAttributes cfg.asnLen as = .ok bs) :
    ∃ a, parseAttributes cfg bs = .ok a ∧ a.inner = as := by
  obtain ⟨ws, hw, rfl, hm⟩ := encodeAttributes_wires cfg hok h
  have := parse_wires cfg ws hw (r := []) (.inl (by decide))
  rw [List.append_nil] at this
  exact ⟨_, this, hm⟩

/-- C11. Encoding a list of attributes fails only if a value has no encoding or exceeds its length field: if every value
is encodable and fits, there are bytes. -/
theorem c11_encodable (l : AsnLen) (as : List Attribute)
    (h : ∀ a ∈ as, ∃ b, encodeAttrVal l a.value = .ok b ∧ LenFits a.flag b.length) :
    ∃ bs, encodeAttributes l as = .ok bs := by
  unfold encodeAttributes
  induction as with
  | nil => exact ⟨[], rfl⟩
  | cons a as ih =>
    obtain ⟨c, hc⟩ := ih (fun x hx => h x (by simp [hx]))
    obtain ⟨b, hb, hf⟩ := h a (by simp)
    have : ∃ d, encodeAttr l a = .ok d := by
      unfold encodeAttr
      rw [hb, isExtended_eq]
      unfold LenFits at hf
      by_cases he : ExtendedLength a.flag
      · rw [if_pos he] at hf
        dsimp only
        rw [if_pos (decide_eq_true he), (u16Len_ok (b := b)).mpr ⟨by omega, rfl⟩]
        exact ⟨_, rfl⟩
      · rw [if_neg he] at hf
        dsimp only
        rw [if_neg (by simpa using he), (u8Len_ok (b := b)).mpr ⟨by omega, rfl⟩]
        exact ⟨_, rfl⟩
    obtain ⟨d, hd⟩ := this
    exact ⟨d ++ c, encAll_cons_ok.mpr ⟨d, c, hd, hc, rfl⟩⟩

def c11Cfg : AttrCfg := ⟨.b32, false, none, none, none⟩

example : (∀ a ∈ [⟨0x40, .origin .igp⟩, ⟨0x50, .asPath [.seq [65001, 65002]]⟩, ⟨0x80, .med 7⟩,
      ⟨0x80, .mpReach ⟨.ipv4, .unicast, some (.v4 #v[10, 0, 0, 1]), [⟨⟨.v4 #v[192, 0, 2, 0], 24⟩, none⟩], none, none, none⟩⟩],
      AttrValOk c11Cfg (Attribute.value a)) ∧
    (encodeAttributes c11Cfg.asnLen [⟨0x40, .origin .igp⟩, ⟨0x50, .asPath [.seq [65001, 65002]]⟩, ⟨0x80, .med 7⟩,
      ⟨0x80, .mpReach ⟨.ipv4, .unicast, some (.v4 #v[10, 0, 0, 1]), [⟨⟨.v4 #v[192, 0, 2, 0], 24⟩, none⟩], none, none, none⟩⟩]).isOk
      = true := by
  refine ⟨?_, by decide +kernel⟩
  simp only [List.mem_cons, List.not_mem_nil, or_false, forall_eq_or_imp, forall_eq]
  refine ⟨trivial, trivial, trivial, rfl, by decide, rfl, rfl, fun _ => ⟨rfl, ?_⟩, fun h => by cases h⟩
  intro p hp
  rw [List.mem_singleton] at hp
  subst hp
  refine ⟨⟨by decide, by decide, ?_, by decide⟩, by decide⟩
  decide +kernel

/-! The attributes excluded by `AttrValOk` include some for which C11 is false of the code: each encodes without an
error and does not parse back to itself. -/

/-- C11 fails for: a FlowSpec rule in MP_REACH_NLRI, a link-state NLRI, a labelled withdrawal, an MP_REACH_NLRI without
next hop, an MP_UNREACH_NLRI with one, a tunnel TLV of unassigned type, an AIGP TLV with another length, and raw bytes
under a code with a decoder. -/
theorem c11_not_roundtrip :
    ∃ as : List Attribute, as.length = 8 ∧ ∀ a ∈ as, ∃ bs, encodeAttributes .b32 [a] = .ok bs ∧
      ∀ r, parseAttributes c11Cfg bs = .ok r → r.inner ≠ [a] := by
  have dec : ∀ a : Attribute, (match encodeAttributes .b32 [a] with
      | .ok bs => (match parseAttributes c11Cfg bs with | .ok r => decide (r.inner ≠ [a]) | .error _ => true)
      | .error _ => false) = true → ∃ bs, encodeAttributes .b32 [a] = .ok bs ∧
      ∀ r, parseAttributes c11Cfg bs = .ok r → r.inner ≠ [a] := by
    intro a h
    cases h1 : encodeAttributes .b32 [a] with
    | error e => rw [h1] at h; cases h
    | ok bs =>
      rw [h1] at h
      dsimp only at h
      refine ⟨bs, rfl, ?_⟩
      intro r hr
      rw [hr] at h
      exact of_decide_eq_true h
  refine ⟨[⟨0x80, .mpReach ⟨.ipv4, .flowSpec, some (.v4 #v[10, 0, 0, 1]), [], none, none,
        some [[.dstPrefix ⟨⟨.v4 #v[192, 0, 2, 0], 24⟩, none⟩]]⟩⟩,
      ⟨0x80, .mpReach ⟨.linkState, .linkState, some (.v4 #v[10, 0, 0, 1]), [], none, some [⟨1, 4, 0, ⟨none, none, none, none, []⟩, none, none, none⟩], none⟩⟩,
      ⟨0x80, .mpUnreach ⟨.ipv4, .mplsLabel, none, [⟨⟨.v4 #v[192, 0, 2, 0], 24⟩, none⟩], none, none, none⟩⟩,
      ⟨0x80, .mpReach ⟨.ipv4, .unicast, none, [⟨⟨.v4 #v[192, 0, 2, 0], 24⟩, none⟩], none, none, none⟩⟩,
      ⟨0x80, .mpUnreach ⟨.ipv4, .unicast, some (.v4 #v[10, 0, 0, 1]), [⟨⟨.v4 #v[192, 0, 2, 0], 24⟩, none⟩], none, none, none⟩⟩,
      ⟨0xC0, .tunnel [⟨300, []⟩]⟩, ⟨0x80, .aigp [⟨1, 99, [1, 2, 3, 4, 5, 6, 7, 8]⟩]⟩, ⟨0x40, .raw 1 [0]⟩], rfl, ?_⟩
  intro a ha
  apply dec
  revert a
  decide +kernel

/-! ### C12 -/

/-- C12. Every byte string is cut by its headers into attributes and an ending, and in only one way
(`c12_cut_unique`). -/
theorem c12_cut (s : Bytes) :
    ∃ ws r, (∀ w ∈ ws, w.ok) ∧ s = wireBytes ws ++ r ∧ (Rest r ∨ BrokenRest r) := attr_cut s.length s (Nat.le_refl _)

theorem c12_cut_unique (ws ws' : List Wire) (r r' : Bytes) (hw : ∀ w ∈ ws, w.ok) (hw' : ∀ w ∈ ws', w.ok)
    (hr : Rest r ∨ BrokenRest r) (hr' : Rest r' ∨ BrokenRest r') (h : wireBytes ws ++ r = wireBytes ws' ++ r') :
    ws = ws' ∧ r = r' := by
  have head : ∀ (w : Wire) (t : Bytes), w.ok → rdAttrHead (w.bytes ++ t) = .ok ((w.flag, w.code, w.value.length), w.value ++ t) := by
    intro w t hw
    rw [Wire.bytes, List.append_assoc]; exact rdAttrHead_append hw _
  have no : ∀ (w : Wire) (t : Bytes), w.ok → ¬ (Rest (w.bytes ++ t) ∨ BrokenRest (w.bytes ++ t)) := by
    rintro w t hw ((h | ⟨f, c, len, t', hf, h, ht⟩) | ⟨f, c, a, he, h⟩)
    · have := headBytes_length w.flag w.code w.value.length
      simp [Wire.bytes] at h; omega
    · have h1 := head w t hw
      rw [h, rdAttrHead_append hf] at h1
      injection h1 with h1
      injection h1 with h1 h2
      injection h1 with _ h1
      injection h1 with _ h1
      subst h2
      simp at ht; omega
    · have h1 := head w t hw
      rw [h, rdAttrHead_short he] at h1
      cases h1
  induction ws generalizing ws' with
  | nil =>
    cases ws' with
    | nil => exact ⟨rfl, by simpa [wireBytes] using h⟩
    | cons w' ws' =>
      exfalso
      simp only [wireBytes, List.flatMap_nil, List.nil_append, List.flatMap_cons, List.append_assoc] at h
      exact no w' _ (hw' w' (by simp)) (h ▸ hr)
  | cons w ws ih =>
    cases ws' with
    | nil =>
      exfalso
      simp only [wireBytes, List.flatMap_nil, List.nil_append, List.flatMap_cons, List.append_assoc] at h
      exact no w _ (hw w (by simp)) (h ▸ hr')
    | cons w' ws' =>
      simp only [wireBytes, List.flatMap_cons, List.append_assoc] at h
      have h1 := head w (ws.flatMap Wire.bytes ++ r) (hw w (by simp))
      rw [h, head w' _ (hw' w' (by simp))] at h1
      injection h1 with h1
      injection h1 with h1 h2
      injection h1 with hf h1
      injection h1 with hc hl
      obtain ⟨hv, ht⟩ := List.append_inj h2 hl
      obtain ⟨e1, e2⟩ := ih ws' (fun x hx => hw x (by simp [hx])) (fun x hx => hw' x (by simp [hx])) ht.symm
      refine ⟨?_, e2⟩
      rw [e1]
      congr 1
      cases w; cases w'
      simp_all

/-- C12. The parser returns one attribute for each attribute on the wire, in order and with its flags and code; each
equals what parsing that attribute's bytes alone returns. -/
theorem c12_isolated (cfg : AttrCfg) (ws : List Wire) (r : Bytes) (hw : ∀ w ∈ ws, w.ok) (hr : Rest r) :
    ∃ a, parseAttributes cfg (wireBytes ws ++ r) = .ok a ∧ a.inner.length = ws.length ∧
      ∀ (i : Nat) (w : Wire) x, ws[i]? = some w → a.inner[i]? = some x → x.flag = w.flag ∧ x.value.code = w.code ∧
        ∃ b, parseAttributes cfg w.bytes = .ok b ∧ b.inner = [x] := by
  refine ⟨_, parse_wires cfg ws hw hr, by simp, ?_⟩
  intro i w x hi hx
  dsimp only at hx
  rw [List.getElem?_map, hi] at hx
  injection hx with hx
  have hwo := hw w (List.mem_of_getElem? hi)
  have := parse_wires cfg [w] (by simpa using hwo) (r := []) (.inl (by decide))
  rw [List.append_nil, wireBytes, List.flatMap_cons, List.flatMap_nil, List.append_nil] at this
  rw [← hx]
  exact ⟨rfl, valueOf_code cfg w, _, this, rfl⟩

/-- C12. Removing one attribute from the bytes, malformed or not, removes that attribute from the result and changes no
other. -/
theorem c12_as_if_absent (cfg : AttrCfg) (ws₁ ws₂ : List Wire) (w : Wire) (r : Bytes) (h₁ : ∀ w ∈ ws₁, w.ok) (hw : w.ok)
    (h₂ : ∀ w ∈ ws₂, w.ok) (hr : Rest r) :
    ∃ a b x, parseAttributes cfg (wireBytes ws₁ ++ w.bytes ++ wireBytes ws₂ ++ r) = .ok a ∧
      parseAttributes cfg (wireBytes ws₁ ++ wireBytes ws₂ ++ r) = .ok b ∧ x.value.code = w.code ∧
      a.inner = b.inner.take ws₁.length ++ [x] ++ b.inner.drop ws₁.length := by
  have e1 : wireBytes ws₁ ++ w.bytes ++ wireBytes ws₂ = wireBytes (ws₁ ++ [w] ++ ws₂) := by simp [wireBytes]
  have e2 : wireBytes ws₁ ++ wireBytes ws₂ = wireBytes (ws₁ ++ ws₂) := by simp [wireBytes]
  rw [e1, e2]
  refine ⟨_, _, attrOf cfg w, parse_wires cfg _ ?_ hr, parse_wires cfg _ ?_ hr, valueOf_code cfg w, ?_⟩
  · intro x hx
    simp only [List.mem_append, List.mem_singleton] at hx
    rcases hx with (hx | rfl) | hx
    · exact h₁ x hx
    · exact hw
    · exact h₂ x hx
  · intro x hx
    rcases List.mem_append.mp hx with hx | hx
    · exact h₁ x hx
    · exact h₂ x hx
  · simp

/-- C12. An attribute under a code with a decoder is either decoded or kept as the exact bytes of its value; the latter
is reported, and nothing else is reported as undecodable. -/
theorem c12_malformed_warned (cfg : AttrCfg) (ws : List Wire) (r : Bytes) (hw : ∀ w ∈ ws, w.ok) (hr : Rest r)
    (a : Attributes) (h : parseAttributes cfg (wireBytes ws ++ r) = .ok a) :
    (∀ (i : Nat) (w : Wire) c b, ws[i]? = some w → a.inner[i]? = some ⟨w.flag, .raw c b⟩ → c = w.code ∧ b = w.value) ∧
    ∀ wn, IsMalformed wn →
      (wn ∈ a.warnings ↔ ∃ x ∈ a.inner, ∃ c b, x.value = .raw c b ∧ DecodedCode c ∧ wn = malformedWarning c x.flag) := by
  rw [parse_wires cfg ws hw hr] at h
  injection h with h
  subst h
  have raw : ∀ w c b, (valueOf cfg w).1 = .raw c b → c = w.code ∧ b = w.value := by
    intro w c b hx
    have h := decodeAttr_valueOf cfg w
    generalize valueOf cfg w = p at h hx
    obtain ⟨x, bad⟩ := p
    dsimp only at hx
    subst hx
    rw [decodeAttr_ok] at h
    rcases h with ⟨_, h, _⟩ | ⟨_, h, _⟩ | ⟨_, h, _⟩ | ⟨_, ⟨h, _⟩ | ⟨_, h, _⟩⟩
    · cases h
    · cases h
    · cases h; exact ⟨rfl, rfl⟩
    · exact absurd h (parseAttrVal_notRaw _ _ _ _ _)
    · cases h; exact ⟨rfl, rfl⟩
  constructor
  · intro i w c b hi hx
    dsimp only at hx
    rw [List.getElem?_map, hi] at hx
    injection hx with hx
    injection hx with _ hx
    exact raw w c b hx
  · intro wn hm
    dsimp only
    rw [restV_warn _ _ _ hm, foldV_warn _ _ _ _ hm]
    constructor
    · rintro (h | ⟨w, hwm, hb, rfl⟩)
      · cases h
      · rw [valueOf_bad] at hb
        exact ⟨attrOf cfg w, List.mem_map.mpr ⟨w, hwm, rfl⟩, w.code, w.value, hb.2, hb.1, rfl⟩
    · rintro ⟨x, hx, c, b, hv, hd, rfl⟩
      obtain ⟨w, hwm, rfl⟩ := List.mem_map.mp hx
      obtain ⟨rfl, rfl⟩ := raw w c b hv
      exact .inr ⟨w, hwm, (valueOf_bad cfg w).mpr ⟨hd, hv⟩, rfl⟩

/-- C12. Codes without a decoder keep the exact bytes of the value. -/
theorem c12_undecoded_kept (cfg : AttrCfg) (w : Wire) (hw : w.ok) :
    (RawCode w.code → ∃ a, parseAttributes cfg w.bytes = .ok a ∧ a.inner = [⟨w.flag, .raw w.code w.value⟩]) ∧
    (DeprecatedCode w.code → ∃ a, parseAttributes cfg w.bytes = .ok a ∧ a.inner = [⟨w.flag, .deprecated w.code w.value⟩]) ∧
    (UnassignedCode w.code → ∃ a, parseAttributes cfg w.bytes = .ok a ∧ a.inner = [⟨w.flag, .unknown w.code w.value⟩]) := by
  have := parse_wires cfg [w] (by simpa using hw) (r := []) (.inl (by decide))
  rw [List.append_nil, wireBytes, List.flatMap_cons, List.flatMap_nil, List.append_nil] at this
  have hv : ∀ x, decodeAttr cfg w.code w.value = .ok (x, false) → attrOf cfg w = ⟨w.flag, x⟩ := by
    intro x hx; unfold attrOf valueOf; rw [hx]
  refine ⟨fun h => ⟨_, this, ?_⟩, fun h => ⟨_, this, ?_⟩, fun h => ⟨_, this, ?_⟩⟩
  · show [attrOf cfg w] = _
    rw [hv _ ((decodeAttr_ok ..).mpr (.inr (.inr (.inl ⟨h, rfl, rfl⟩))))]
  · show [attrOf cfg w] = _
    rw [hv _ ((decodeAttr_ok ..).mpr (.inl ⟨h, rfl, rfl⟩))]
  · show [attrOf cfg w] = _
    rw [hv _ ((decodeAttr_ok ..).mpr (.inr (.inl ⟨h, rfl, rfl⟩)))]

/-- C12. The one way an attribute list fails as a whole: it ends after the first octet of a two-octet length. -/
theorem c12_fails_iff (cfg : AttrCfg) (s : Bytes) :
    (∃ e, parseAttributes cfg s = .error e) ↔ ∃ ws r, (∀ w ∈ ws, w.ok) ∧ s = wireBytes ws ++ r ∧ BrokenRest r := by
  constructor
  · rintro ⟨e, h⟩
    obtain ⟨ws, r, hw, rfl, hr | hr⟩ := c12_cut s
    · rw [parse_wires cfg ws hw hr] at h; cases h
    · exact ⟨ws, r, hw, rfl, hr⟩
  · rintro ⟨ws, r, hw, rfl, hr⟩
    exact ⟨_, parse_broken cfg ws hw hr⟩

/-- C12 fails here: a complete ORIGIN attribute is lost because the list ends inside the header of the next one. -/
theorem c12_broken_tail_loses_all :
    (parseAttributes c11Cfg [0x40, 1, 1, 0]).isOk = true ∧ (parseAttributes c11Cfg [0x40, 1, 1, 0, 0x50, 2]).isOk = true ∧
    parseAttributes c11Cfg [0x40, 1, 1, 0, 0x50, 2, 0] = .error .truncated := by decide +kernel

/-- a malformed MED between two good attributes. -/
example : (∀ w ∈ [⟨0x40, 1, [0]⟩, ⟨0x80, 4, [1, 2]⟩, ⟨0x40, 5, [0, 0, 0, 1]⟩], Wire.ok w) ∧ Rest [] ∧
    (parseAttributes c11Cfg [0x40, 1, 1, 0, 0x80, 4, 2, 1, 2, 0x40, 5, 4, 0, 0, 0, 1]).toOption.map (·.inner) =
      some [⟨0x40, .origin .igp⟩, ⟨0x80, .raw 4 [1, 2]⟩, ⟨0x40, .localPref 1⟩] :=
  ⟨by decide +kernel, .inl (by decide), by decide +kernel⟩

/-- C12, C48. Parsing attributes never panics. -/
theorem c12_no_panic (cfg : AttrCfg) (s : Bytes) : parseAttributes cfg s ≠ .error .panic := by
  obtain ⟨ws, r, hw, rfl, hr | hr⟩ := c12_cut s
  · rw [parse_wires cfg ws hw hr]; intro h; cases h
  · rw [parse_broken cfg ws hw hr]; intro h; cases h

/-! ### C13 -/

theorem computeMask_has (xs : List Attribute) (m : Mask) (c : UInt8) :
    maskHas (xs.foldl (fun m x => maskSet m x.value.code) m) c = true ↔
      maskHas m c = true ∨ ∃ x ∈ xs, x.value.code = c := by
  induction xs generalizing m with
  | nil => simp
  | cons x xs ih =>
    rw [List.foldl_cons, ih, maskHas_set]
    simp only [Bool.or_eq_true, decide_eq_true_eq, List.mem_cons, exists_eq_or_imp]
    constructor
    · rintro ((h | h) | h)
      · exact .inr (.inl h)
      · exact .inl h
      · exact .inr (.inr h)
    · rintro (h | h | h)
      · exact .inl (.inr h)
      · exact .inl (.inl h)
      · exact .inr h

theorem ofList_has (xs : List Attribute) (c : UInt8) : (Attributes.ofList xs).hasAttr c = true ↔ Holds (.ofList xs) c := by
  show maskHas (Attributes.computeMask xs) c = true ↔ _
  rw [Attributes.computeMask, computeMask_has, maskHas_zero]
  simp [Holds, Attributes.ofList]

theorem addAttr_has {a : Attributes} (x : Attribute) (h : ∀ c, a.hasAttr c = true ↔ Holds a c) (c : UInt8) :
    (a.addAttr x).hasAttr c = true ↔ Holds (a.addAttr x) c := by
  show maskHas (maskSet a.mask x.value.code) c = true ↔ _
  rw [maskHas_set, Bool.or_eq_true, decide_eq_true_eq]
  rw [show maskHas a.mask c = a.hasAttr c from rfl, h]
  simp only [Holds, Attributes.addAttr, List.mem_append, List.mem_singleton]
  constructor
  · rintro (h | ⟨y, hy, h⟩)
    · exact ⟨x, .inr rfl, h⟩
    · exact ⟨y, .inl hy, h⟩
  · rintro ⟨y, hy | rfl, h⟩
    · exact .inr ⟨y, hy, h⟩
    · exact .inl h

theorem extend_has (xs : List Attribute) {a : Attributes} (h : ∀ c, a.hasAttr c = true ↔ Holds a c) (c : UInt8) :
    (a.extend xs).hasAttr c = true ↔ Holds (a.extend xs) c := by
  unfold Attributes.extend
  induction xs generalizing a with
  | nil => exact h c
  | cons x xs ih => rw [List.foldl_cons]; exact ih (addAttr_has x h)

/-- C13. Over every history of constructing, collecting, parsing (without a truncated last attribute), adding and
extending: `has_attr` is true exactly of the types held. -/
theorem c13_mask_exact_partial (a : Attributes) (h : AttrHistory a) (code : UInt8) :
    a.hasAttr code = true ↔ Holds a code := by
  induction h generalizing code with
  | empty => show maskHas maskZero code = true ↔ _; rw [maskHas_zero]; simp [Holds, Attributes.empty]
  | ofList xs => exact ofList_has xs code
  | ofValues vs => exact ofList_has _ code
  | @parsed cfg ws r a hw hr h =>
    rw [parse_wires cfg ws hw (.inl hr)] at h
    injection h with h
    subst h
    show maskHas (restV _ r).mask code = true ↔ _
    rw [restV_has _ (.inl hr), foldV_has]
    simp only [VState.init, maskHas_zero, Bool.false_eq_true, false_or, Holds, List.mem_map]
    constructor
    · rintro (⟨w, hwm, rfl⟩ | h)
      · exact ⟨_, ⟨w, hwm, rfl⟩, valueOf_code cfg w⟩
      · omega
    · rintro ⟨_, ⟨w, hwm, rfl⟩, hc⟩
      exact .inl ⟨w, hwm, (valueOf_code cfg w).symm.trans hc⟩
  | addAttr x _ ih => exact addAttr_has x ih code
  | extend xs _ ih => exact extend_has xs ih code
  | extendValues vs _ ih => exact extend_has _ ih code
  | addWarning w _ ih => exact ih code
  | checkMandatory ann std _ ih => exact ih code

/-- C13. In general after parsing: the types held, and the type of a truncated last attribute. -/
theorem c13_mask_after_parse (cfg : AttrCfg) (ws : List Wire) (r : Bytes) (hw : ∀ w ∈ ws, w.ok) (hr : Rest r)
    (a : Attributes) (h : parseAttributes cfg (wireBytes ws ++ r) = .ok a) (code : UInt8) :
    a.hasAttr code = true ↔ Holds a code ∨ (3 ≤ r.length ∧ r[1]? = some code) := by
  rw [parse_wires cfg ws hw hr] at h
  injection h with h
  subst h
  show maskHas (restV _ r).mask code = true ↔ _
  rw [restV_has _ hr, foldV_has]
  simp only [VState.init, maskHas_zero, Bool.false_eq_true, false_or, Holds, List.mem_map]
  constructor
  · rintro (⟨w, hwm, rfl⟩ | h)
    · exact .inl ⟨_, ⟨w, hwm, rfl⟩, valueOf_code cfg w⟩
    · exact .inr h
  · rintro (⟨_, ⟨w, hwm, rfl⟩, hc⟩ | h)
    · exact .inl ⟨w, hwm, (valueOf_code cfg w).symm.trans hc⟩
    · exact .inr h

/-- C13 fails here: the last attribute is truncated and dropped, yet `has_attr` says AS_PATH is present. -/
theorem c13_truncated_claims_presence :
    ∃ s a, parseAttributes c11Cfg s = .ok a ∧ a.hasAttr 2 = true ∧ ¬ Holds a 2 := by
  refine ⟨[0x40, 1, 1, 0, 0x40, 2, 9, 0], _, rfl, by decide +kernel, ?_⟩
  unfold Holds
  decide +kernel

example : AttrHistory ((Attributes.ofValues [.origin .igp, .med 5]).addAttr ⟨0xC0, .unknown 200 [1]⟩) ∧
    ((Attributes.ofValues [.origin .igp, .med 5]).addAttr ⟨0xC0, .unknown 200 [1]⟩).hasAttr 200 = true :=
  ⟨.addAttr _ (.ofValues _), by decide +kernel⟩

/-! ### C14 -/

/-- C14. After the mandatory-attribute check of an update, the warning for `code` is there exactly when it was there
before or the attribute is missing under the rule; the earlier warnings stay in front, and each missing attribute is
added once. -/
theorem c14_mandatory_warnings_partial (a : Attributes) (h : AttrHistory a) (ann std : Bool) :
    ∃ added, (a.checkMandatory ann std).warnings = a.warnings ++ added ∧ added.Nodup ∧
      (a.checkMandatory ann std).inner = a.inner ∧
      ∀ w, w ∈ added ↔ ∃ code, w = .missing code ∧ MandatoryMissing a ann std code := by
  have hm := c13_mask_exact_partial a h
  have hb : ∀ c, maskHas a.mask c = true ↔ Holds a c := hm
  have hn : ∀ c, maskHas a.mask c = false ↔ ¬ Holds a c := by
    intro c; rw [← hb]; simp
  refine ⟨missingWarnings a.mask ann std, rfl, ?_, rfl, ?_⟩
  · unfold missingWarnings
    cases ann <;> cases std <;> cases maskHas a.mask 1 <;> cases maskHas a.mask 2 <;> cases maskHas a.mask 3 <;>
      cases maskHas a.mask 14 <;> decide
  · intro w
    unfold missingWarnings MandatoryMissing
    cases ann with
    | false => simp
    | true =>
      simp only [Bool.not_true, Bool.false_eq_true, if_false, List.mem_append, true_and]
      constructor
      · rintro ((h | h) | h)
        · split at h
          · cases h
          · rename_i h1
            refine ⟨1, by simpa using h, (hn 1).mp (by simpa using h1), .inl rfl⟩
        · split at h
          · cases h
          · rename_i h1
            refine ⟨2, by simpa using h, (hn 2).mp (by simpa using h1), .inr (.inl rfl)⟩
        · split at h
          · rename_i h1
            simp only [Bool.and_eq_true, Bool.or_eq_true, Bool.not_eq_true'] at h1
            refine ⟨3, by simpa using h, (hn 3).mp h1.2, .inr (.inr ⟨rfl, ?_⟩)⟩
            rcases h1.1 with h1 | h1
            · exact .inl h1
            · exact .inr ((hn 14).mp h1)
          · cases h
      · rintro ⟨c, rfl, hc, rfl | rfl | ⟨rfl, hc'⟩⟩
        · left; left; rw [(hn 1).mpr hc]; simp
        · left; right; rw [(hn 2).mpr hc]; simp
        · right
          rw [(hn 3).mpr hc]
          rcases hc' with rfl | h14
          · simp
          · rw [(hn 14).mpr h14]; simp

/-- C14 fails here: AS_PATH is truncated away, so the announcing update lacks it, and no warning says so. -/
theorem c14_truncated_not_reported :
    ∃ s a, parseAttributes c11Cfg s = .ok a ∧ MandatoryMissing a true true 2 ∧
      Warning.missing 2 ∉ (a.checkMandatory true true).warnings := by
  refine ⟨[0x40, 1, 1, 0, 0x40, 2, 9, 0], _, rfl, ⟨rfl, ?_, .inr (.inl rfl)⟩, by decide +kernel⟩
  unfold Holds
  decide +kernel

example : AttrHistory (Attributes.ofValues [.origin .igp]) ∧ MandatoryMissing (Attributes.ofValues [.origin .igp]) true false 2 ∧
    ¬ MandatoryMissing (Attributes.ofValues [.origin .igp]) true false 1 := by
  refine ⟨.ofValues _, ⟨rfl, ?_, .inr (.inl rfl)⟩, ?_⟩
  · unfold Holds; decide +kernel
  · rintro ⟨_, h, _⟩
    apply h
    unfold Holds; decide +kernel

end Verif.Props
