import Verif.Spec.Dissect
import Verif.Lemmas.Capability
/-
Lemmas about the dissectors: what they show is what the description of the message says.
-/
namespace Verif
open Spec

/-! ### parts -/

@[simp] theorem partsBytes_nil : partsBytes [] = [] := rfl
@[simp] theorem partsBytes_cons (p : Part) (ps) : partsBytes (p :: ps) = p.bytes ++ partsBytes ps := rfl
@[simp] theorem partsNodes_nil (base) : partsNodes base [] = [] := rfl
@[simp] theorem partsNodes_cons (base) (p : Part) (ps) :
    partsNodes base (p :: ps) = p.nodes base ++ partsNodes (base + p.bytes.length) ps := rfl
@[simp] theorem gap_bytes (b) : (Part.gap b).bytes = b := rfl
@[simp] theorem gap_nodes (base b) : (Part.gap b).nodes base = [] := rfl
@[simp] theorem group_bytes (f ps) : (Part.group f ps).bytes = partsBytes ps := rfl
@[simp] theorem group_nodes (base f ps) :
    (Part.group f ps).nodes base = [.mk f base (partsBytes ps).length (partsNodes base ps)] := rfl
@[simp] theorem leaf_bytes (f b) : (leaf f b).bytes = b := by simp [leaf]
@[simp] theorem leaf_nodes (base f b) : (leaf f b).nodes base = [.mk f base b.length []] := by simp [leaf]
theorem msg_bytes (h c b e) : (Part.msg h c b e).bytes = partsBytes h ++ (partsBytes b ++ e) := rfl

@[simp] theorem partsBytes_append : ∀ ps qs, partsBytes (ps ++ qs) = partsBytes ps ++ partsBytes qs
  | [], _ => rfl
  | p :: ps, qs => by simp [partsBytes_append ps qs]

@[simp] theorem partsNodes_append : ∀ base ps qs,
    partsNodes base (ps ++ qs) = partsNodes base ps ++ partsNodes (base + (partsBytes ps).length) qs
  | _, [], _ => by simp
  | base, p :: ps, qs => by simp [partsNodes_append, Nat.add_assoc]

@[simp] theorem shown_bytes (f b) : partsBytes (shown f b) = b := by unfold shown; split <;> simp_all
theorem shown_nodes (base f b) : partsNodes base (shown f b) = if b = [] then [] else [.mk f base b.length []] := by
  unfold shown; split <;> simp_all
@[simp] theorem section_bytes (f ps) : partsBytes (section' f ps) = partsBytes ps := by unfold section'; split <;> simp_all

/-! ### bytes in the middle -/

theorem get_pre (pre r : Bytes) (k : Nat) : (pre ++ r)[pre.length + k]? = r[k]? := by
  rw [List.getElem?_append_right (by omega)]; congr 1; omega
theorem get_pre0 (pre r : Bytes) : (pre ++ r)[pre.length]? = r[0]? := get_pre pre r 0

theorem getU16_pre (pre r : Bytes) (k : Nat) : getU16 (pre ++ r) (pre.length + k) = getU16 r k := by
  unfold getU16
  rw [Nat.add_assoc, get_pre, get_pre]
theorem ixU16_pre (pre r : Bytes) (k : Nat) : ixU16 (pre ++ r) (pre.length + k) = ixU16 r k := by
  unfold ixU16
  rw [Nat.add_assoc, get_pre, get_pre]

theorem subslice_pre (pre r : Bytes) (a b : Nat) : subslice (pre ++ r) (pre.length + a) (pre.length + b) = subslice r a b := by
  unfold subslice
  simp only [List.length_append, Nat.add_le_add_iff_left]
  by_cases h : a ≤ b ∧ b ≤ r.length
  · rw [if_pos h, if_pos h, List.take_length_add_append, List.drop_length_add_append]
  · rw [if_neg h, if_neg h]

theorem subslice_all (r : Bytes) (a : Nat) (h : a ≤ r.length) : subslice r a r.length = some (r.drop a) := by
  simp [subslice, h]

/-- the subslice of a concatenation that is its middle part -/
theorem subslice_mid (a b c : Bytes) {i j : Nat} (hi : i = a.length) (hj : j = a.length + b.length) :
    subslice (a ++ (b ++ c)) i j = some b := by
  subst hi; subst hj
  unfold subslice
  rw [if_pos (by simp), List.take_length_add_append, List.take_left', List.drop_left']
  all_goals rfl

theorem getU16_n16 {n : Nat} (h : n < 65536) (t : Bytes) : getU16 (n16 n ++ t) 0 = some n := by
  simp [getU16, n16, u16of]; omega
theorem ixU16_n16 {n : Nat} (h : n < 65536) (t : Bytes) : ixU16 (n16 n ++ t) 0 = some n := by
  simp [ixU16, n16, u16of]; omega
@[simp] theorem n16_length (n : Nat) : (n16 n).length = 2 := rfl

theorem mkNode_ok {f : String} {o l : Nat} {c : List Node} (ho : o < 4294967296) (hl : l < 4294967296) :
    mkNode f o l c = some (.mk f o l c) := if_pos ⟨ho, hl⟩

theorem usub_ok {a b : Nat} (h : b ≤ a) : usub a b = some (a - b) := if_pos h

theorem pushIf_pos {c : Prop} [Decidable c] (h : c) (n : Node) : pushIf c (some n) = some [n] := by simp [pushIf, h]
theorem pushIf_neg {c : Prop} [Decidable c] (h : ¬ c) (n : Option Node) : pushIf c n = some [] := by simp [pushIf, h]
theorem pushIf_shown {c : Prop} [Decidable c] {f : String} {o l : Nat} {b : Bytes} (hc : c ↔ b ≠ []) (hl : l = b.length)
    (h : o + b.length < 4294967296) : pushIf c (mkNode f o l []) = some (partsNodes o (shown f b)) := by
  subst hl
  rw [shown_nodes]
  by_cases hb : b = []
  · rw [pushIf_neg (by simp [hc, hb])]
    simp [hb]
  · rw [mkNode_ok (by omega) (by omega), pushIf_pos (hc.2 hb)]
    simp [hb]

/-! ### loops -/

/-- the loop over items shows the items -/
theorem rounds_items {σ : Type} {step : σ → Option (Option (Node × σ))} {base : Nat} {d : Bytes} {Item : Part → Prop} {at' : Nat → σ}
    (hstep : ∀ pre e t, d = pre ++ (e.bytes ++ t) → Item e →
      ∃ n, step (at' pre.length) = some (some (n, at' (pre.length + e.bytes.length))) ∧ e.nodes (base + pre.length) = [n])
    (hstop : ∀ pre rest, d = pre ++ rest → (∀ e t, Item e → rest ≠ e.bytes ++ t) → step (at' pre.length) = some none) :
    ∀ (items : List Part) (rest pre : Bytes) (fuel : Nat), d = pre ++ (partsBytes items ++ rest) → (∀ e ∈ items, Item e) →
      (∀ e t, Item e → rest ≠ e.bytes ++ t) → items.length < fuel →
      rounds step fuel (at' pre.length) = some (partsNodes (base + pre.length) (items ++ [.gap rest])) := by
  intro items
  induction items with
  | nil =>
    intro rest pre fuel hd _ hr hf
    obtain ⟨fuel, rfl⟩ : ∃ k, fuel = k + 1 := ⟨fuel - 1, by simp at hf; omega⟩
    simp only [rounds, hstop pre rest (by simpa using hd) hr]
    simp
  | cons e items ih =>
    intro rest pre fuel hd hi hr hf
    obtain ⟨fuel, rfl⟩ : ∃ k, fuel = k + 1 := ⟨fuel - 1, by simp at hf; omega⟩
    obtain ⟨n, hn, he⟩ := hstep pre e (partsBytes items ++ rest) (by simpa using hd) (hi e (by simp))
    have h := ih rest (pre ++ e.bytes) fuel (by simpa using hd) (fun x hx => hi x (by simp [hx])) hr (by simpa using hf)
    rw [List.length_append] at h
    simp only [rounds, hn, h]
    simp [he, Nat.add_assoc]

theorem items_length {Item : Part → Prop} (hpos : ∀ e, Item e → e.bytes ≠ []) :
    ∀ items : List Part, (∀ e ∈ items, Item e) → items.length ≤ (partsBytes items).length
  | [], _ => by simp
  | e :: es, h => by
    have h1 := items_length hpos es (fun x hx => h x (by simp [hx]))
    have h2 := List.length_pos_iff.2 (hpos e (h e (by simp)))
    simp; omega

/-- the whole loop, from position 0 -/
theorem rounds_walked {step : Nat → Option (Option (Node × Nat))} {base : Nat} {Item : Part → Prop} {ps : List Part}
    (hw : Walked Item ps) (hpos : ∀ e, Item e → e.bytes ≠ [])
    (hstep : ∀ pre e t, partsBytes ps = pre ++ (e.bytes ++ t) → Item e →
      ∃ n, step pre.length = some (some (n, pre.length + e.bytes.length)) ∧ e.nodes (base + pre.length) = [n])
    (hstop : ∀ pre rest, partsBytes ps = pre ++ rest → (∀ e t, Item e → rest ≠ e.bytes ++ t) → step pre.length = some none) :
    rounds step ((partsBytes ps).length + 1) 0 = some (partsNodes base ps) := by
  obtain ⟨items, rest, rfl, hi, hr⟩ := hw
  have hl := items_length hpos items hi
  have := rounds_items (at' := id) hstep hstop items rest [] ((partsBytes (items ++ [.gap rest])).length + 1)
    (by simp) hi hr (by simp; omega)
  simpa using this

/-- every byte string starts with as many items as possible -/
theorem walked_exists {Item : Part → Prop} (hpos : ∀ e, Item e → e.bytes ≠ []) :
    ∀ (n : Nat) (d : Bytes), d.length ≤ n → ∃ ps, Walked Item ps ∧ partsBytes ps = d := by
  intro n
  induction n with
  | zero =>
    intro d hd
    have : d = [] := List.length_eq_zero_iff.1 (by omega)
    subst this
    refine ⟨[.gap []], ⟨[], [], rfl, by simp, ?_⟩, by simp⟩
    intro e t he h
    exact hpos e he (List.append_eq_nil_iff.1 h.symm).1
  | succ n ih =>
    intro d hd
    by_cases h : ∃ e t, Item e ∧ d = e.bytes ++ t
    · obtain ⟨e, t, he, rfl⟩ := h
      have hp := List.length_pos_iff.2 (hpos e he)
      obtain ⟨ps, ⟨items, rest, rfl, hi, hr⟩, hb⟩ := ih t (by simp at hd; omega)
      refine ⟨e :: items ++ [.gap rest], ⟨e :: items, rest, rfl, ?_, hr⟩, ?_⟩
      · intro x hx
        rcases List.mem_cons.1 hx with rfl | hx
        · exact he
        · exact hi x hx
      · simpa using hb
    · refine ⟨[.gap d], ⟨[], d, rfl, by simp, ?_⟩, by simp⟩
      intro e t he h'
      exact h ⟨e, t, he, h'⟩

theorem walked_exists' {Item : Part → Prop} (hpos : ∀ e, Item e → e.bytes ≠ []) (d : Bytes) :
    ∃ ps, Walked Item ps ∧ partsBytes ps = d := walked_exists hpos d.length d (Nat.le_refl _)

/-! ### prefixes -/

theorem prefixItem_pos {ap : Bool} (e : Part) (h : PrefixItem ap e) : e.bytes ≠ [] := by
  obtain ⟨id, b, o, _, _, rfl⟩ := h
  simp

theorem dissectNlri_walked {ap : Bool} {ps : List Part} (hw : Walked (PrefixItem ap) ps) (base : Nat)
    (hb : base + (partsBytes ps).length < 4294967296) :
    dissectNlri (partsBytes ps) base ap = some (partsNodes base ps) := by
  apply rounds_walked hw prefixItem_pos
  · intro pre e t hd ⟨id, bits, oct, hid, hoct, he⟩
    subst he
    rw [hd] at hb ⊢
    simp only [leaf_bytes, leaf_nodes] at hb ⊢
    simp only [List.length_append, List.length_cons] at hb
    have h1 : pre.length < (pre ++ ((id ++ bits :: oct) ++ t)).length := by simp; omega
    unfold nlriStep
    rw [if_pos h1, if_neg (by simp; intro h; simp [h] at hid; omega)]
    have hp : (if ap = true then pre.length + 4 else pre.length) = pre.length + id.length := by
      rw [hid]; split <;> rfl
    rw [hp]
    dsimp only
    rw [get_pre]
    have : ((id ++ bits :: oct) ++ t)[id.length]? = some bits := by simp
    rw [this]
    dsimp only
    rw [if_neg (by simp; omega), ← hoct, Nat.add_assoc pre.length, Nat.add_assoc pre.length, subslice_pre,
      show (id ++ bits :: oct) ++ t = (id ++ [bits]) ++ (oct ++ t) by simp,
      subslice_mid _ _ _ (by simp) (by simp), usub_ok (by omega)]
    simp only [Option.bind_eq_bind, Option.bind_some]
    rw [mkNode_ok (by omega) (by omega)]
    simp
    omega
  · intro pre rest hd hr
    rw [hd] at hb ⊢
    unfold nlriStep
    by_cases h1 : pre.length < (pre ++ rest).length
    · rw [if_pos h1]
      by_cases h2 : ap = true ∧ (pre ++ rest).length < pre.length + 5
      · rw [if_pos h2]
      · rw [if_neg h2]
        have hp : (if ap = true then pre.length + 4 else pre.length) = pre.length + (if ap then 4 else 0) := by split <;> rfl
        rw [hp]
        dsimp only
        rw [get_pre]
        generalize hk : (if ap = true then 4 else 0) = k at *
        cases hg : rest[k]? with
        | none => rfl
        | some bits =>
          dsimp only
          by_cases h3 : (pre ++ rest).length < pre.length + k + 1 + (bits.toNat + 7) / 8
          · rw [if_pos h3]
          · exfalso
            obtain ⟨hlt, hgb⟩ := List.getElem?_eq_some_iff.1 hg
            simp at h3
            refine hr _ (rest.drop (k + 1 + (bits.toNat + 7) / 8)) ⟨rest.take k, bits, (rest.drop (k + 1)).take ((bits.toNat + 7) / 8), ?_, ?_, rfl⟩ ?_
            · rw [hk]; simp; omega
            · simp; omega
            · have h4 : rest = rest.take k ++ bits :: rest.drop (k + 1) := by
                rw [← hgb, ← List.drop_eq_getElem_cons hlt, List.take_append_drop]
              have h5 : rest.drop (k + 1 + (bits.toNat + 7) / 8) = (rest.drop (k + 1)).drop ((bits.toNat + 7) / 8) := by
                rw [List.drop_drop]
              rw [leaf_bytes, h5, List.append_assoc, List.cons_append, List.take_append_drop]
              exact h4
    · rw [if_neg h1]

/-! ### entries, segments, AIGP -/

theorem entryItem_pos {f : String} {k : Nat} (hk : 0 < k) (e : Part) (h : EntryItem f k e) : e.bytes ≠ [] := by
  obtain ⟨b, hb, rfl⟩ := h
  intro h
  simp at h
  simp [h] at hb
  omega

theorem rounds_entries {f : String} {k : Nat} (hk : 0 < k) {ps : List Part} (hw : Walked (EntryItem f k) ps) (base : Nat)
    (hb : base + (partsBytes ps).length < 4294967296) :
    rounds (entryStep f k (partsBytes ps) base) ((partsBytes ps).length + 1) 0 = some (partsNodes base ps) := by
  apply rounds_walked hw (entryItem_pos hk)
  · intro pre e t hd ⟨b, hl, he⟩
    subst he
    rw [hd] at hb ⊢
    simp only [leaf_bytes, leaf_nodes] at hb ⊢
    unfold entryStep
    simp only [List.length_append] at hb
    rw [if_pos (by simp; omega)]
    rw [subslice_mid pre b t rfl (by omega), mkNode_ok (by omega) (by omega)]
    simp [hl]
  · intro pre rest hd hr
    rw [hd]
    unfold entryStep
    rw [if_neg]
    intro h
    simp at h
    refine hr (leaf f (rest.take k)) (rest.drop k) ⟨_, ?_, rfl⟩ (by simp)
    simp; omega

theorem segmentItem_pos {k : Nat} (e : Part) (h : SegmentItem k e) : e.bytes ≠ [] := by
  obtain ⟨ty, n, a, _, rfl⟩ := h
  simp

theorem rounds_segments {k : Nat} {ps : List Part} (hw : Walked (SegmentItem k) ps) (base : Nat)
    (hb : base + (partsBytes ps).length < 4294967296) :
    rounds (segStep k (partsBytes ps) base) ((partsBytes ps).length + 1) 0 = some (partsNodes base ps) := by
  apply rounds_walked hw segmentItem_pos
  · intro pre e t hd ⟨ty, n, a, hl, he⟩
    subst he
    rw [hd] at hb ⊢
    simp only [leaf_bytes, leaf_nodes] at hb ⊢
    unfold segStep
    simp only [List.length_append, List.length_cons] at hb
    rw [if_pos (by simp), get_pre0, get_pre]
    simp only [List.cons_append, List.getElem?_cons_zero, List.getElem?_cons_succ, Option.bind_eq_bind, Option.bind_some]
    rw [if_neg (by simp; omega), mkNode_ok (by omega) (by omega)]
    simp [hl]
    omega
  · intro pre rest hd hr
    rw [hd]
    unfold segStep
    split
    · rename_i h
      simp at h
      match rest, h with
      | ty :: n :: r, _ =>
        rw [get_pre0, get_pre]
        simp only [List.getElem?_cons_zero, List.getElem?_cons_succ, Option.bind_eq_bind, Option.bind_some]
        rw [if_pos]
        apply Classical.byContradiction
        intro h'
        simp at h'
        refine hr (leaf _ (ty :: n :: r.take (n.toNat * k))) (r.drop (n.toNat * k)) ⟨ty, n, _, ?_, rfl⟩ (by simp)
        simp; omega
    · rfl

theorem aigpItem_pos (e : Part) (h : AigpItem e) : e.bytes ≠ [] := by
  obtain ⟨ty, n, _, rfl⟩ := h
  simp

theorem rounds_aigp {ps : List Part} (hw : Walked AigpItem ps) (base : Nat)
    (hb : base + (partsBytes ps).length < 4294967296) :
    rounds (aigpStep (partsBytes ps) base) ((partsBytes ps).length + 1) 0 = some (partsNodes base ps) := by
  apply rounds_walked hw aigpItem_pos
  · intro pre e t hd ⟨ty, v, hl, he⟩
    subst he
    rw [hd] at hb ⊢
    simp only [leaf_bytes, leaf_nodes] at hb ⊢
    unfold aigpStep
    simp only [List.length_append, List.length_cons, n16_length] at hb
    rw [if_pos (by simp), get_pre0, getU16_pre]
    have hg : getU16 (ty :: (n16 (3 + v.length) ++ v) ++ t) 1 = some (3 + v.length) := by
      have := getU16_n16 hl (v ++ t)
      simpa [getU16] using this
    rw [hg]
    simp only [List.cons_append, List.getElem?_cons_zero, Option.bind_eq_bind, Option.bind_some, Option.getD_some]
    rw [if_neg (by simp; omega), mkNode_ok (by omega) (by omega)]
    simp
    omega
  · intro pre rest hd hr
    rw [hd]
    unfold aigpStep
    split
    · rename_i h
      simp at h
      match rest, h with
      | ty :: a :: b :: r, _ =>
        rw [get_pre0, getU16_pre]
        simp only [List.getElem?_cons_zero, Option.bind_eq_bind, Option.bind_some]
        have hg : getU16 (ty :: a :: b :: r) 1 = some (u16of a b).toNat := by simp [getU16]
        rw [hg, Option.getD_some, if_pos]
        apply Classical.byContradiction
        intro h'
        simp at h'
        have h16 : n16 (u16of a b).toNat = [a, b] := by rw [← be16_n16, be16_u16of]
        have hlt : (u16of a b).toNat < 65536 := UInt16.toNat_lt _
        generalize (u16of a b).toNat = n at *
        have hv : 3 + (r.take (n - 3)).length = n := by simp; omega
        refine hr (leaf _ (ty :: (n16 (3 + (r.take (n - 3)).length) ++ r.take (n - 3)))) (r.drop (n - 3))
          ⟨ty, r.take (n - 3), by rw [hv]; exact hlt, rfl⟩ ?_
        rw [hv, leaf_bytes, h16]
        simp
    · rfl

end Verif
