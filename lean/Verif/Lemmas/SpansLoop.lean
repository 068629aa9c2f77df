import Verif.Spec.Spans
import Verif.Lemmas.SpansUpdate
/-
The loop that gives findings their ranges.
-/
namespace Verif
open Spec

theorem spanLoop_append (t : Node) (cnt : DupCounts) (fs gs : List Finding) :
    spanLoop t cnt (fs ++ gs) = spanLoop t cnt fs ++ spanLoop t (fun c => cnt c + fs.count (.attr (.duplicate c))) gs := by
  induction fs generalizing cnt with
  | nil => simp [spanLoop]
  | cons f fs ih =>
    simp only [List.cons_append, spanLoop]
    rw [ih]
    congr 1
    refine congrArg (fun k => _ ++ spanLoop t k gs) ?_
    funext c
    have : (locateSpan t cnt f).2 c = cnt c + [f].count (.attr (.duplicate c)) := by
      unfold locateSpan
      split <;> simp [List.count_cons]
      split <;> simp_all
      intro h; exact absurd h.symm (by assumption)
    rw [this, List.count_cons (l := fs), List.count_cons (l := []), List.count_nil]
    omega

/-- warnings about an attribute with this code, apart from the one about its repetition -/
def About (c : UInt8) : Warning → Prop
  | .flags d _ _ | .length d _ _ | .optional d | .partial_ d => d = c
  | .malformedList => True
  | _ => False

theorem flagWarnings_about (c f : UInt8) : ∀ w ∈ flagWarnings c f, About c w := by
  intro w hw
  unfold flagWarnings at hw
  split at hw
  · cases hw
  · simp only [List.mem_append] at hw
    rcases hw with hw | hw <;> split at hw <;> simp at hw <;> subst hw <;> rfl

theorem lengthWarnings_about (c : UInt8) (n : Nat) : ∀ w ∈ lengthWarnings c n, About c w := by
  intro w hw
  unfold lengthWarnings at hw
  split at hw
  · cases hw
  · split at hw <;> simp at hw; subst hw; rfl

theorem spanLoop_about {t : Node} {cnt : DupCounts} {c : UInt8} {own list : Nat × Nat}
    (ho : attrSpan t c (cnt c) = some own) (hl : sectionSpan t "bgp.update.path_attributes" = some list) :
    ∀ fs : List Warning, (∀ f ∈ fs, About c f) →
      spanLoop t cnt (fs.map .attr) = fs.map (fun f => (attrRange own list f, .attr f)) ∧
      ∀ d, (fs.map Finding.attr).count (.attr (.duplicate d)) = 0 := by
  intro fs
  induction fs with
  | nil => intro _; exact ⟨rfl, fun _ => rfl⟩
  | cons f fs ih =>
    intro h
    obtain ⟨h1, h2⟩ := ih (fun g hg => h g (by simp [hg]))
    have hf := h f (by simp)
    have : locateSpan t cnt (.attr f) = (attrRange own list f, cnt) := by
      cases f <;> simp only [About] at hf <;> simp only [locateSpan, attrRange]
      all_goals first | (subst hf; rw [ho]; rfl) | (rw [hl]; rfl)
    refine ⟨?_, ?_⟩
    · rw [List.map_cons, spanLoop, this]
      simp only [h1, List.map_cons]
    · intro d
      rw [List.map_cons, List.count_cons, h2]
      cases f <;> simp only [About] at hf <;> simp

/-- the warnings of one attribute header -/
def headW (v : VState) (code flags : UInt8) (len : Nat) : List Warning :=
  (if maskHas v.mask code then [.duplicate code] else []) ++ (flagWarnings code flags ++ lengthWarnings code len)

theorem header_warnings (v : VState) (c f : UInt8) (n : Nat) : (v.header c f n).warnings = v.warnings ++ headW v c f n := by
  simp [VState.header, headW]

def stepW (cfg : AttrCfg) (v : VState) (w : Wire) : List Warning :=
  (if maskHas v.mask w.code then [.duplicate w.code] else []) ++ ((flagWarnings w.code w.flag ++ lengthWarnings w.code w.value.length) ++
    (if (valueOf cfg w).2 then [malformedWarning w.code w.flag] else []))

theorem stepV_warnings (cfg : AttrCfg) (v : VState) (w : Wire) : (stepV cfg v w).warnings = v.warnings ++ stepW cfg v w := by
  unfold stepV stepW
  split
  · simp only [VState.parseError, header_warnings, headW, malformedWarning, isPartial_eq]
    simp
  · simp [header_warnings, headW]

theorem malformedWarning_about (c f : UInt8) : About c (malformedWarning c f) := by
  unfold malformedWarning
  split
  · rfl
  · split
    · exact trivial
    · rfl

/-- One attribute: the ranges of its findings, if the tree has it as the occurrence after those counted before. -/
theorem spanLoop_one {t : Node} {cnt : DupCounts} {v : VState} {c : UInt8} {own list : Nat × Nat} {k : Nat} {fs : List Warning}
    (hcnt : cnt c = k - 1) (hk : maskHas v.mask c = true ↔ 0 < k) (ho : attrSpan t c k = some own)
    (hl : sectionSpan t "bgp.update.path_attributes" = some list) (hfs : ∀ f ∈ fs, About c f) :
    spanLoop t cnt (((if maskHas v.mask c then [Warning.duplicate c] else []) ++ fs).map .attr) =
      ((if maskHas v.mask c then [Warning.duplicate c] else []) ++ fs).map (fun f => (attrRange own list f, .attr f)) ∧
    ∀ d, cnt d + (((if maskHas v.mask c then [Warning.duplicate c] else []) ++ fs).map Finding.attr).count (.attr (.duplicate d)) =
      if d = c then k else cnt d := by
  by_cases hm : maskHas v.mask c = true
  · have hk' := hk.mp hm
    rw [if_pos hm]
    have hloc : locateSpan t cnt (.attr (.duplicate c)) = (own, fun x => if x = c then k else cnt x) := by
      simp only [locateSpan, hcnt, show k - 1 + 1 = k by omega, ho]
      rfl
    obtain ⟨h1, h2⟩ := spanLoop_about (t := t) (cnt := fun x => if x = c then k else cnt x) (c := c) (own := own) (list := list)
      (by simp [ho]) hl fs hfs
    refine ⟨?_, ?_⟩
    · simp only [List.cons_append, List.nil_append, List.map_cons, spanLoop, hloc, h1]
      rfl
    · intro d
      simp only [List.cons_append, List.nil_append, List.map_cons, List.count_cons, h2]
      by_cases hd : d = c
      · subst hd; simp; omega
      · rw [if_neg hd]
        have : ¬ c = d := fun h => hd h.symm
        simp [this]
  · have hk0 : k = 0 := by
      rcases Nat.eq_zero_or_pos k with h | h
      · exact h
      · exact absurd (hk.mpr h) hm
    subst hk0
    simp only [hm, Bool.false_eq_true, if_false, List.nil_append]
    have ho' : attrSpan t c (cnt c) = some own := by rw [hcnt]; exact ho
    obtain ⟨h1, h2⟩ := spanLoop_about ho' hl fs hfs
    refine ⟨h1, fun d => ?_⟩
    rw [h2]
    split
    · rename_i h; subst h; omega
    · rfl

theorem codeSpans_append (c : UInt8) (b : Nat) (xs ys : List Wire) :
    codeSpans c b (xs ++ ys) = codeSpans c b xs ++ codeSpans c (b + (wireBytes xs).length) ys := by
  induction xs generalizing b with
  | nil => simp [codeSpans, wireBytes]
  | cons x xs ih =>
    rw [List.cons_append, codeSpans, codeSpans, ih]
    simp [wireBytes, Nat.add_assoc]

/-- attributes with this code -/
def codeCount (c : UInt8) (xs : List Wire) : Nat := xs.countP (·.code == c)

theorem codeSpans_length (c : UInt8) (b : Nat) (xs : List Wire) : (codeSpans c b xs).length = codeCount c xs := by
  induction xs generalizing b with
  | nil => rfl
  | cons x xs ih =>
    rw [codeSpans, List.length_append, ih, codeCount, codeCount, List.countP_cons]
    by_cases h : x.code = c
    · simp [h]; omega
    · simp [h]

theorem codeCount_append (c : UInt8) (xs ys : List Wire) : codeCount c (xs ++ ys) = codeCount c xs + codeCount c ys := by
  simp [codeCount, List.countP_append]

theorem codeCount_one (c : UInt8) (x : Wire) : codeCount c [x] = if c = x.code then 1 else 0 := by
  by_cases h : c = x.code
  · simp [codeCount, h]
  · have : ¬ x.code = c := fun e => h e.symm
    simp [codeCount, h, this]

theorem foldV_count (cfg : AttrCfg) (ws : List Wire) (c : UInt8) :
    maskHas (ws.foldl (stepV cfg) VState.init).mask c = true ↔ 0 < codeCount c ws := by
  rw [foldV_has, codeCount, List.countP_pos_iff]
  simp only [beq_iff_eq]
  constructor
  · rintro (h | h)
    · simp [VState.init, maskHas_zero] at h
    · exact h
  · exact .inr

/-- the warnings of attributes, one after the other -/
def stepsW (cfg : AttrCfg) (v : VState) : List Wire → List Warning
  | [] => []
  | x :: xs => stepW cfg v x ++ stepsW cfg (stepV cfg v x) xs

theorem foldV_warnings (cfg : AttrCfg) (v : VState) (ws : List Wire) :
    (ws.foldl (stepV cfg) v).warnings = v.warnings ++ stepsW cfg v ws := by
  induction ws generalizing v with
  | nil => simp [stepsW]
  | cons x xs ih => rw [List.foldl_cons, ih, stepV_warnings, stepsW, List.append_assoc]

theorem restV_nil (v : VState) : restV v [] = v := by simp [restV]

theorem sectionWarnings_wires (cfg : AttrCfg) (ws : List Wire) (hws : ∀ w ∈ ws, w.ok) :
    sectionWarnings cfg (wireBytes ws) = (ws.foldl (stepV cfg) VState.init).warnings := by
  have := parse_wires cfg ws hws (r := []) (.inl (by simp))
  rw [List.append_nil] at this
  rw [sectionWarnings, this]
  simp [restV_nil]

theorem addedWarnings_wire (cfg : AttrCfg) (ws : List Wire) (x : Wire) (hws : ∀ w ∈ ws, w.ok) (hx : x.ok) :
    addedWarnings cfg (wireBytes ws) x.bytes = stepW cfg (ws.foldl (stepV cfg) VState.init) x := by
  have h1 : wireBytes ws ++ x.bytes = wireBytes (ws ++ [x]) := by simp [wireBytes]
  rw [addedWarnings, h1, sectionWarnings_wires cfg ws hws, sectionWarnings_wires cfg (ws ++ [x]) (by
    intro w hw
    rcases List.mem_append.mp hw with hw | hw
    · exact hws w hw
    · simp only [List.mem_singleton] at hw; subst hw; exact hx), List.foldl_append]
  simp [stepV_warnings]

/-- All attributes: the ranges of their findings, and the counts afterwards. -/
theorem spanLoop_attrs {t : Node} {cfg : AttrCfg} {A : Nat} {list : Nat × Nat} {all : List Wire} {tl : UInt8 → List (Nat × Nat)}
    (hsp : ∀ c k, attrSpan t c k = (codeSpans c A all ++ tl c)[k]?)
    (hl : all ≠ [] → sectionSpan t "bgp.update.path_attributes" = some list) (hok : ∀ w ∈ all, w.ok) :
    ∀ (xs before : List Wire), all = before ++ xs →
      spanLoop t (fun c => codeCount c before - 1) ((stepsW cfg (before.foldl (stepV cfg) VState.init) xs).map .attr) =
        attrFindings cfg A list before xs ∧
      ∀ d, codeCount d before - 1 +
        ((stepsW cfg (before.foldl (stepV cfg) VState.init) xs).map Finding.attr).count (.attr (.duplicate d)) = codeCount d all - 1 := by
  intro xs
  induction xs with
  | nil =>
    rintro before rfl
    exact ⟨rfl, fun d => by simp [stepsW]⟩
  | cons x xs ih =>
    rintro before rfl
    obtain ⟨i1, i2⟩ := ih (before ++ [x]) (by simp)
    have hs : attrSpan t x.code (codeCount x.code before) = some (A + (wireBytes before).length, x.bytes.length) := by
      rw [hsp, codeSpans_append, List.append_assoc, List.getElem?_append_right (by rw [codeSpans_length]; exact Nat.le_refl _),
        codeSpans_length, Nat.sub_self, codeSpans, if_pos rfl]
      rfl
    obtain ⟨h1, h2⟩ := spanLoop_one (t := t) (cnt := fun c => codeCount c before - 1) (v := before.foldl (stepV cfg) VState.init)
      (c := x.code) (k := codeCount x.code before) (list := list)
      (fs := (flagWarnings x.code x.flag ++ lengthWarnings x.code x.value.length) ++
        (if (valueOf cfg x).2 then [malformedWarning x.code x.flag] else [])) rfl (foldV_count cfg before x.code) hs (hl (by simp)) (by
          intro f hf
          simp only [List.mem_append] at hf
          rcases hf with (hf | hf) | hf
          · exact flagWarnings_about _ _ f hf
          · exact lengthWarnings_about _ _ f hf
          · split at hf
            · simp only [List.mem_singleton] at hf; subst hf; exact malformedWarning_about _ _
            · cases hf)
    have hcount : (fun c => codeCount c before - 1 + ((stepW cfg (before.foldl (stepV cfg) VState.init) x).map Finding.attr).count
        (.attr (.duplicate c))) = fun c => codeCount c (before ++ [x]) - 1 := by
      funext d
      rw [stepW, h2 d, codeCount_append, codeCount_one]
      split
      · rename_i h; subst h; omega
      · rfl
    rw [List.foldl_append] at i1 i2
    refine ⟨?_, ?_⟩
    · rw [stepsW, List.map_append, spanLoop_append, hcount, attrFindings,
        addedWarnings_wire cfg before x (fun w hw => hok w (by simp [hw])) (hok x (by simp))]
      congr 1
    · intro d
      rw [stepsW, List.map_append, List.count_append, ← Nat.add_assoc, congrFun hcount d]
      exact i2 d

end Verif
