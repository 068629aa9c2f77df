import Verif.Props.DissectCount
import Verif.Props.Bgp
import Verif.Model.DissectUpdate
import Verif.Spec.DissectUpdate
/-
C110 for the sections of an UPDATE.
-/
namespace Verif.Props
open Spec

theorem n16_number {n : Nat} (h : n < 65536) : (u16of (UInt8.ofNat (n / 256)) (UInt8.ofNat n)).toNat = n := by
  have e := u16of_be16 (UInt16.ofNat n)
  have k : (UInt16.ofNat n).toNat = n := UInt16.toNat_ofNat_of_lt' (by simpa using h)
  rw [k] at e
  rw [e, k]

theorem field_shown {ap : Bool} {b : Bytes} {wd : Bool} (env : ShowEnv) (h : fieldWarnings wd ap b = [])
    (hid : ∀ p ∈ fieldPrefixes ap b, p.pathId.isSome = ap) :
    nlriLabels env true ap b = (fieldPrefixes ap b).map (NetworkPrefix.text env) := by
  unfold fieldWarnings at h
  unfold fieldPrefixes at hid ⊢
  cases hp : parseNlriList .ipv4 ap b with
  | error e => rw [hp] at h; cases h
  | ok ps =>
    rw [hp] at hid
    exact c110_nlri env .ipv4 ap b ps (Or.inl rfl) hp hid

/-- **C110** The sections of an UPDATE that the parser reads are shown with their lengths and with the prefixes that it
read, provided it found no section malformed. -/
theorem c110_update_partial (env : ShowEnv) (ap : Bool) (l : AsnLen) (s : Bytes) (u : Update) (h : parseUpdate ap l s = .ok u)
    (hm : ∀ f b, Warning.malformedNlri f b ∉ u.attributes.warnings)
    (hid : ∀ p ∈ u.withdrawn ++ u.announced, p.pathId.isSome = ap) :
    ∃ w a n, s = updateBytes w a n ∧ w.length < 65536 ∧ a.length < 65536 ∧
      updateLabels env ap s = updateShown env w.length a.length n.length u := by
  obtain ⟨w, a, n, rfl, hw, ha⟩ := parseUpdate_layout h
  refine ⟨w, a, n, rfl, hw, ha, ?_⟩
  have h' := h
  rw [parseUpdate_sections ap l w a n hw ha] at h'
  cases has : parseAttributes (updateCfg ap l) a with
  | error e => rw [has] at h'; cases h'
  | ok as =>
    rw [has] at h'
    cases h'
    have q1 : fieldWarnings true ap w = [] := by
      cases hx : fieldWarnings true ap w with
      | nil => rfl
      | cons x xs =>
        exfalso
        have hy : x = .malformedNlri true w := by
          unfold fieldWarnings at hx
          split at hx
          · cases hx
          · cases hx; rfl
        subst hy
        exact hm true w (by simp [checked, hx])
    have q2 : fieldWarnings false ap n = [] := by
      cases hx : fieldWarnings false ap n with
      | nil => rfl
      | cons x xs =>
        exfalso
        have hy : x = .malformedNlri false n := by
          unfold fieldWarnings at hx
          split at hx
          · cases hx
          · cases hx; rfl
        subst hy
        exact hm false n (by simp [checked, hx])
    have p1 := field_shown env q1 fun p hp => hid p (List.mem_append_left _ hp)
    have p2 := field_shown env q2 fun p hp => hid p (List.mem_append_right _ hp)
    have e : updateBytes w a n = UInt8.ofNat (w.length / 256) :: UInt8.ofNat w.length ::
        (w ++ (UInt8.ofNat (a.length / 256) :: UInt8.ofNat a.length :: (a ++ n))) := by
      simp [updateBytes, n16]
    rw [e]
    unfold updateLabels
    dsimp only
    rw [n16_number hw, if_neg (by simp), List.take_left, List.drop_left, p1]
    unfold updateTailLabels
    dsimp only
    rw [n16_number ha, List.drop_left, p2]
    unfold updateShown
    have e1 : (a ++ n).length - a.length = n.length := by simp
    rw [e1]
    have s1 : ∀ (x : List (List Char × List (List Char))), (if 0 < w.length then x else []) = if w.length = 0 then [] else x := by
      intro x; split <;> split <;> first | rfl | omega
    have s2 : ∀ (x y : List (List Char × List (List Char))), (if 0 < a.length ∧ 0 < (a ++ n).length then x else if 0 < a.length then y else []) =
        if a.length = 0 then [] else x := by
      intro x y
      rw [List.length_append]
      split
      · rw [if_neg (by omega)]
      · rw [if_neg (by omega), if_pos (by omega)]
    have s3 : ∀ (x : List (List Char × List (List Char))), (if a.length < (a ++ n).length then x else []) = if n.length = 0 then [] else x := by
      intro x
      rw [List.length_append]
      split <;> split <;> first | rfl | omega
    rw [s1, s2, s3]
    simp only [List.append_assoc]
    rfl

/-- the hypotheses are met: 10.0.0.0/8 withdrawn and 192.0.2.0/24 announced. -/
example : ∃ u, parseUpdate false .b32 (updateBytes [8, 10] [64, 1, 1, 0] [24, 192, 0, 2]) = .ok u ∧
    (∀ f b, Warning.malformedNlri f b ∉ u.attributes.warnings) ∧ (∀ p ∈ u.withdrawn ++ u.announced, p.pathId.isSome = false) ∧
    u.withdrawn.length = 1 ∧ u.announced.length = 1 := by
  refine ⟨_, rfl, ?_, ?_, rfl, rfl⟩
  · intro f b hb
    have k : ∀ ws : List Warning, (ws.all fun w => match w with | .malformedNlri .. => false | _ => true) = true →
        Warning.malformedNlri f b ∉ ws := by
      intro ws h hb
      exact absurd (List.all_eq_true.mp h _ hb) (by simp)
    exact k _ (by rfl) hb
  · decide +kernel

/-- **C110** The prefixes of a malformed section that come before the mistake are shown, though the parser drops them all. -/
theorem c110_violation_section (env : ShowEnv) :
    (∃ u, parseUpdate false .b32 (updateBytes [8, 10, 33] [] []) = .ok u ∧ u.withdrawn = []) ∧
    (updateLabels env false (updateBytes [8, 10, 33] [] []))[1]?.map (·.2) = some ["10.0.0.0/8".toList] :=
  ⟨⟨_, rfl, rfl⟩, rfl⟩

/-- the number of nodes below a node, for the nodes of which `updateLabels` gives them. -/
def below (n : Node) : Nat := if n.field = "bgp.update.path_attributes" then 0 else n.children.length

theorem below_mk {f : String} {o l : Nat} {c : List Node} {n : Node} (h : mkNode f o l c = some n)
    (hf : f ≠ "bgp.update.path_attributes") : below n = c.length := by
  rw [mkNode_node h]
  exact if_neg hf

theorem below_attrs {o l : Nat} {c : List Node} {n : Node} (h : mkNode "bgp.update.path_attributes" o l c = some n) : below n = 0 := by
  rw [mkNode_node h]
  exact if_pos rfl

theorem pushIf_below {c : Prop} [Decidable c] {n : Option Node} {ns : List Node} {k : Nat} (h : pushIf c n = some ns)
    (hk : c → ∀ m, n = some m → below m = k) : ns.map below = if c then [k] else [] := by
  unfold pushIf at h
  split at h
  · rename_i hc
    simp only [Option.map_eq_some_iff] at h
    obtain ⟨m, hm, rfl⟩ := h
    rw [if_pos hc, List.map_cons, hk hc m hm]; rfl
  · rename_i hc; cases h; rw [if_neg hc]; rfl

theorem ixU16_drop {d r : Bytes} {pos : Nat} {a b : UInt8} (h : d.drop pos = a :: b :: r) : ixU16 d pos = some (u16of a b).toNat := by
  have g0 := getElem_drop d pos 0
  have g1 := getElem_drop d pos 1
  rw [Nat.add_zero, h] at g0
  rw [h] at g1
  unfold ixU16
  rw [g0, g1]
  rfl

theorem tail_count (env : ShowEnv) (d : Bytes) (base : Nat) (l : AsnLen) (ap : Bool) (pos : Nat) (hp : pos ≤ d.length)
    (ns : List Node) (h : dissectUpdateTail d base l ap pos = some ns) :
    (updateTailLabels env ap (d.drop pos)).map (·.2.length) = ns.map below := by
  unfold dissectUpdateTail at h
  have hl := List.length_drop (i := pos) (l := d)
  rcases hs : d.drop pos with _ | ⟨a, _ | ⟨b, r⟩⟩
  · rw [hs, List.length_nil] at hl
    rw [if_pos (by omega), if_neg (by omega)] at h
    cases h; rfl
  · rw [hs, List.length_cons, List.length_nil] at hl
    rw [if_pos (by omega), if_pos (by omega)] at h
    simp only [Option.bind_eq_bind, Option.bind_eq_some_iff] at h
    obtain ⟨k, _, n, hn, h⟩ := h
    cases h
    rw [List.map_cons, below_mk hn (by decide)]; rfl
  · rw [hs, List.length_cons, List.length_cons] at hl
    rw [if_neg (by omega), ixU16_drop hs] at h
    simp only [Option.bind_eq_bind, Option.bind_eq_some_iff, Option.some.injEq, exists_eq_left'] at h
    obtain ⟨al, h1, at', h2, nl, h3, h⟩ := h
    cases h
    have hd : ∀ k, d.drop (pos + 2 + k) = r.drop k := by
      intro k
      rw [Nat.add_assoc, ← List.drop_drop, hs, Nat.add_comm 2]
      rfl
    have q2 : at'.map below = if 0 < (u16of a b).toNat then [0] else [] := by
      split at h2
      · rename_i hc
        have hc' : 0 < (u16of a b).toNat := by omega
        rw [pushIf_below (k := 0) h2 fun _ m hm => ?_, if_pos trivial, if_pos hc']
        simp only [Option.bind_eq_some_iff] at hm
        obtain ⟨_, _, _, _, hm⟩ := hm
        exact below_attrs hm
      · exact pushIf_below (k := 0) h2 fun _ m hm => below_attrs hm
    have q3 : nl.map below = if (u16of a b).toNat < r.length then [(nlriLabels env true ap (r.drop (u16of a b).toNat)).length] else [] := by
      have hiff : (min (pos + 2 + (u16of a b).toNat) d.length < d.length) ↔ (u16of a b).toNat < r.length := by omega
      rw [pushIf_below (k := (nlriLabels env true ap (r.drop (u16of a b).toNat)).length) h3 fun hc m hm => ?_]
      · by_cases hx : (u16of a b).toNat < r.length
        · rw [if_pos hx, if_pos (hiff.mpr hx)]
        · rw [if_neg hx, if_neg (fun k => hx (hiff.mp k))]
      · simp only [Option.bind_eq_some_iff] at hm
        obtain ⟨x, hx, cs, hcs, len, _, hm⟩ := hm
        rw [below_mk hm (by decide)]
        have e := subslice_tail hx
        have hmin : min (pos + 2 + (u16of a b).toNat) d.length = pos + 2 + (u16of a b).toNat := by omega
        rw [hmin, hd] at e
        subst e
        exact (c110_nlri_count env true ap _ _ cs hcs).symm
    unfold updateTailLabels
    dsimp only
    simp only [List.map_append, List.map_cons, List.map_nil, q2, q3, below_mk h1 (by decide)]
    congr 1
    · congr 1
      split
      · rename_i hc; rw [if_pos hc.1]; rfl
      · split <;> rfl
    · split <;> rfl

/-- **C110** Every UPDATE body, readable or not, is dissected into as many sections as are labelled, with as many prefixes
under each. -/
theorem c110_update_count (env : ShowEnv) (d : Bytes) (base : Nat) (l : AsnLen) (ap : Bool) (ns : List Node)
    (h : dissectUpdateFields d base l ap = some ns) : (updateLabels env ap d).map (·.2.length) = ns.map below := by
  unfold dissectUpdateFields at h
  rcases d with _ | ⟨a, _ | ⟨b, r⟩⟩
  · rw [if_pos (by simp)] at h
    cases h; rfl
  · rw [if_pos (by simp)] at h
    rw [pushIf_below (k := 0) h fun _ m hm => below_mk hm (by decide), if_pos (by simp)]
    rfl
  · rw [if_neg (by simp), ixU16_drop (r := r) (a := a) (b := b) rfl] at h
    simp only [Option.bind_eq_bind, Option.bind_eq_some_iff, Option.some.injEq, exists_eq_left'] at h
    obtain ⟨w, h1, h⟩ := h
    have hlen : (a :: b :: r).length = r.length + 2 := rfl
    unfold updateLabels
    dsimp only
    by_cases ht : r.length < (u16of a b).toNat
    · rw [if_pos (by omega)] at h
      simp only [Option.bind_eq_some_iff] at h
      obtain ⟨len, _, s, h2, h⟩ := h
      cases h
      rw [if_pos ht, List.map_cons, List.map_cons, List.map_cons, List.map_cons, below_mk h1 (by decide), below_mk h2 (by decide)]
      rfl
    · rw [if_neg (by omega)] at h
      simp only [Option.bind_eq_some_iff] at h
      obtain ⟨s, h2, t, h3, h⟩ := h
      cases h
      have hd : (a :: b :: r).drop (2 + (u16of a b).toNat) = r.drop (u16of a b).toNat := by rw [← List.drop_drop]; rfl
      have q3 := tail_count env _ base l ap _ (by omega) t h3
      rw [hd] at q3
      have q2 : s.map below = if 0 < (u16of a b).toNat then [(nlriLabels env true ap (r.take (u16of a b).toNat)).length] else [] := by
        refine pushIf_below h2 fun hc m hm => ?_
        simp only [Option.bind_eq_some_iff] at hm
        obtain ⟨x, hx, cs, hcs, hm⟩ := hm
        rw [below_mk hm (by decide)]
        unfold subslice at hx
        rw [if_pos (by omega)] at hx
        cases hx
        have e : ((a :: b :: r).take (2 + (u16of a b).toNat)).drop 2 = r.take (u16of a b).toNat := by
          rw [Nat.add_comm 2]; rfl
        rw [e] at hcs
        exact (c110_nlri_count env true ap _ _ cs hcs).symm
      rw [if_neg ht]
      simp only [List.map_append, List.map_cons, List.map_nil, q2, q3, below_mk h1 (by decide)]
      congr 2
      split <;> rfl

/-- the hypothesis is met by an UPDATE cut in its attributes. -/
example : ∃ ns, dissectUpdateFields [0, 2, 8, 10, 0, 9] 19 .b32 false = some ns ∧ ns.map below = [0, 1, 0, 0] :=
  ⟨_, rfl, by decide +kernel⟩

end Verif.Props
