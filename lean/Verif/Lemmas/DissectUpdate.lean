import Verif.Lemmas.DissectAttr
/-
The attribute list and the body of an UPDATE: the dissector shows what the description says.
-/
namespace Verif
open Spec

/-- the rounds of a loop that show items -/
theorem rounds_prefix {σ : Type} {step : σ → Option (Option (Node × σ))} {base : Nat} {d : Bytes} {Item : Part → Prop} {at' : Nat → σ}
    (hstep : ∀ pre e t, d = pre ++ (e.bytes ++ t) → Item e →
      ∃ n, step (at' pre.length) = some (some (n, at' (pre.length + e.bytes.length))) ∧ e.nodes (base + pre.length) = [n]) :
    ∀ (items : List Part) (rest pre : Bytes) (fuel : Nat), d = pre ++ (partsBytes items ++ rest) → (∀ e ∈ items, Item e) →
      rounds step (items.length + fuel) (at' pre.length)
        = (rounds step fuel (at' (pre.length + (partsBytes items).length))).map (partsNodes (base + pre.length) items ++ ·) := by
  intro items
  induction items with
  | nil => intro rest pre fuel hd _; simp
  | cons e items ih =>
    intro rest pre fuel hd hi
    obtain ⟨n, hn, he⟩ := hstep pre e (partsBytes items ++ rest) (by simpa using hd) (hi e (by simp))
    have h := ih rest (pre ++ e.bytes) fuel (by simpa using hd) (fun x hx => hi x (by simp [hx]))
    rw [List.length_append] at h
    rw [show (e :: items).length + fuel = items.length + fuel + 1 by simp; omega]
    simp only [rounds, hn, h]
    simp [he, Nat.add_assoc, Function.comp_def]

theorem attrItem_pos {k : Nat} {ap : Bool} (e : Part) (h : AttrItem k ap e) : e.bytes ≠ [] := by
  obtain ⟨f, c, lb, v, _, _, rfl⟩ := h
  simp

theorem attrStep_end {k : Nat} {ap : Bool} (d : Bytes) (base : Nat) : attrStep d base k ap d.length = some none := by
  unfold attrStep
  rw [if_neg (by omega)]

theorem attrStep_rest {k : Nat} {ap : Bool} {base : Nat} (pre rest : Bytes)
    (h : ∀ (f c : UInt8) (n : Nat) (len t : Bytes), LenField (longLen f) n len → rest ≠ f :: c :: (len ++ t)) :
    attrStep (pre ++ rest) base k ap pre.length = some none := by
  unfold attrStep
  match rest, h with
  | [], _ => rw [if_neg (by simp)]
  | [_], _ => rw [if_neg (by simp)]
  | [_, _], _ => rw [if_neg (by simp)]
  | f :: c :: x :: r, h =>
    rw [if_pos (by simp), get_pre0, get_pre]
    simp only [List.getElem?_cons_zero, List.getElem?_cons_succ, Option.bind_eq_bind, Option.bind_some]
    by_cases hf : (f &&& 0x10 != 0) = true
    · match r, h with
      | [], _ => rw [if_pos (by simp [hf])]
      | y :: r, h =>
        exfalso
        exact h f c _ [x, y] r (by unfold longLen; rw [hf]; exact lenField_exists_two x y) rfl
    · exfalso
      have hf' : longLen f = false := by unfold longLen; simpa using hf
      exact h f c _ [x] r (by rw [hf']; exact lenField_exists_one x) rfl

theorem attrStep_cut {k : Nat} {ap : Bool} {base : Nat} (pre : Bytes) (f c : UInt8) (n : Nat) (lb v : Bytes)
    (hl : LenField (longLen f) n lb) (hv : v.length < n) (hb : base + (pre ++ f :: c :: (lb ++ v)).length < 4294967296) :
    attrStep (pre ++ f :: c :: (lb ++ v)) base k ap pre.length
      = some (some (.mk (attrName c) (base + pre.length) (2 + lb.length + v.length) [.mk "bgp.attr.flags" (base + pre.length) 1 []],
          (pre ++ f :: c :: (lb ++ v)).length)) := by
  have hll := lenField_length hl
  have hpos : 1 ≤ lb.length := by rw [hll]; split <;> omega
  have hg := lenField_get hl v
  generalize hd : pre ++ f :: c :: (lb ++ v) = d at hb
  have h2 : d[pre.length + 2]? = (lb ++ v)[0]? := by rw [← hd, get_pre]; rfl
  have h2' : getU16 d (pre.length + 2) = getU16 (lb ++ v) 0 := by rw [← hd, getU16_pre]; rfl
  have hlen : d.length = pre.length + (2 + lb.length + v.length) := by
    rw [← hd]; simp; omega
  have hh : (if (f &&& 0x10 != 0) = true then 4 else 3) = 2 + lb.length := by
    rw [hll]; unfold longLen; split <;> rfl
  unfold attrStep
  rw [if_pos (by omega), ← hd, get_pre0, get_pre, hd]
  simp only [List.getElem?_cons_zero, List.getElem?_cons_succ, Option.bind_eq_bind, Option.bind_some]
  rw [hh, if_neg (by omega), h2, h2']
  unfold longLen at hg
  rw [hg]
  dsimp only
  rw [if_pos (by omega), usub_ok (by omega), usub_ok (by omega)]
  simp only [Option.bind_some]
  rw [mkNode_ok (by omega) (by omega)]
  simp only [Option.bind_some]
  rw [mkNode_ok (by omega) (by omega)]
  simp [attrName_eq]
  omega

theorem dissectAttributes_parts {l : AsnLen} {ap : Bool} {ps : List Part} (h : AttrListParts l.octets ap ps) (base : Nat)
    (hb : base + (partsBytes ps).length < 4294967296) :
    dissectAttributes (partsBytes ps) base l ap = some (partsNodes base ps) := by
  obtain ⟨items, tail, rfl, hi, ht⟩ := h
  have hl := items_length attrItem_pos items hi
  have hlen : (partsBytes (items ++ [tail])).length = (partsBytes items).length + tail.bytes.length := by simp
  unfold dissectAttributes
  generalize hd : partsBytes (items ++ [tail]) = d at *
  have hd' : d = [] ++ (partsBytes items ++ tail.bytes) := by rw [← hd]; simp
  rw [show d.length + 1 = items.length + (d.length + 1 - items.length) by omega]
  rw [show (0 : Nat) = id ([] : Bytes).length from rfl]
  rw [rounds_prefix (at' := id) (Item := AttrItem l.octets ap) (base := base) (d := d)
    (fun pre e t h1 h2 => attrStep_item pre e t h1 hb h2) items tail.bytes [] _ hd' hi]
  simp only [List.length_nil, Nat.zero_add, Nat.add_zero, id_eq]
  cases ht with
  | rest b h =>
    obtain ⟨fuel, hf⟩ : ∃ k, d.length + 1 - items.length = k + 1 := ⟨d.length - items.length, by omega⟩
    rw [hf]
    simp only [gap_bytes, List.nil_append] at hd'
    rw [hd']
    simp only [rounds, attrStep_rest _ b h]
    simp
  | cut f c n lb v hlf hv =>
    simp at hlen
    obtain ⟨fuel, hf⟩ : ∃ k, d.length + 1 - items.length = k + 1 + 1 := ⟨d.length - items.length - 1, by omega⟩
    rw [hf]
    have hbs : Part.bytes (.group (attrName c) [leaf "bgp.attr.flags" [f], .gap (c :: (lb ++ v))]) = f :: c :: (lb ++ v) := by simp
    rw [hbs] at hd'
    simp only [List.nil_append] at hd'
    subst hd'
    simp only [rounds, attrStep_cut _ f c n lb v hlf hv hb, attrStep_end]
    simp
    omega

theorem attrList_exists_aux (l : AsnLen) (ap : Bool) : ∀ (m : Nat) (d : Bytes), d.length ≤ m →
    ∃ ps, AttrListParts l.octets ap ps ∧ partsBytes ps = d := by
  intro m
  induction m with
  | zero =>
    intro d hd
    have : d = [] := List.length_eq_zero_iff.1 (by omega)
    subst this
    exact ⟨[.gap []], ⟨[], _, rfl, by simp, .rest [] (by intros; simp)⟩, by simp⟩
  | succ m ih =>
    intro d hd
    by_cases h : ∃ (f c : UInt8) (n : Nat) (len t : Bytes), LenField (longLen f) n len ∧ d = f :: c :: (len ++ t)
    · obtain ⟨f, c, n, len, t, hl, rfl⟩ := h
      by_cases ht : t.length < n
      · exact ⟨[_], ⟨[], _, rfl, by simp, .cut f c n len t hl ht⟩, by simp⟩
      · obtain ⟨v, hv, hvb⟩ := attrValue_exists l.octets ap c (t.take n)
        obtain ⟨ps, ⟨items, tail, rfl, hi, htl⟩, hb⟩ := ih (t.drop n) (by simp at hd ⊢; omega)
        have hvl : (partsBytes v).length = n := by rw [hvb]; simp; omega
        refine ⟨Part.group (attrName c) [leaf "bgp.attr.flags" [f], leaf "bgp.attr.type" [c], leaf "bgp.attr.length" len,
            .group "bgp.attr.value" v] :: items ++ [tail], ⟨_ :: items, tail, rfl, ?_, htl⟩, ?_⟩
        · intro x hx
          rcases List.mem_cons.1 hx with rfl | hx
          · exact ⟨f, c, len, v, by rw [hvl]; exact hl, hv, rfl⟩
          · exact hi x hx
        · rw [List.cons_append, partsBytes_cons, hb]
          simp [hvb]
    · refine ⟨[.gap d], ⟨[], _, rfl, by simp, .rest d ?_⟩, by simp⟩
      intro f c n len t hl he
      exact h ⟨f, c, n, len, t, hl, he⟩

theorem attrList_exists (l : AsnLen) (ap : Bool) (d : Bytes) : ∃ ps, AttrListParts l.octets ap ps ∧ partsBytes ps = d :=
  attrList_exists_aux l ap d.length d (Nat.le_refl _)

/-! ### UPDATE -/

theorem section_nodes (base : Nat) (f : String) (ps : List Part) :
    partsNodes base (section' f ps) = if partsBytes ps = [] then [] else [.mk f base (partsBytes ps).length (partsNodes base ps)] := by
  unfold section'; split <;> simp_all

theorem dissectUpdateTail_parts {l : AsnLen} {ap : Bool} {tail : List Part} (h : UpdateTailParts l.octets ap tail) (base : Nat)
    (pre : Bytes) (hb : base + (pre ++ partsBytes tail).length < 4294967296) :
    dissectUpdateTail (pre ++ partsBytes tail) base l ap pre.length = some (partsNodes (base + pre.length) tail) := by
  unfold dissectUpdateTail
  cases h with
  | empty => simp
  | cutLength b =>
    simp at hb
    rw [if_pos (by simp), if_pos (by simp), usub_ok (by simp)]
    simp only [Option.bind_eq_bind, Option.bind_some]
    rw [mkNode_ok (by omega) (by simp)]
    simp
  | cutAttributes n attrs hn ha hlt =>
    simp at hb
    simp only [partsBytes_cons, leaf_bytes, group_bytes, partsBytes_nil, List.append_nil]
    have hix : ixU16 (pre ++ (n16 n ++ partsBytes attrs)) pre.length = some n := by
      rw [← Nat.add_zero pre.length, ixU16_pre, ixU16_n16 hn]
    rw [if_neg (by simp), hix, mkNode_ok (by omega) (by omega)]
    simp only [Option.bind_eq_bind, Option.bind_some]
    have hlen : (pre ++ (n16 n ++ partsBytes attrs)).length = pre.length + 2 + (partsBytes attrs).length := by simp; omega
    rw [hlen, Nat.min_eq_right (by omega)]
    have hs : subslice (pre ++ (n16 n ++ partsBytes attrs)) (pre.length + 2) (pre.length + 2 + (partsBytes attrs).length) = some (partsBytes attrs) := by
      have := subslice_mid (pre ++ n16 n) (partsBytes attrs) [] (i := pre.length + 2) (j := pre.length + 2 + (partsBytes attrs).length) (by simp) (by simp)
      simpa using this
    rw [hs, pushIf_neg (Nat.lt_irrefl _)]
    by_cases h0 : partsBytes attrs = []
    · rw [if_neg (by simp [h0]), mkNode_ok (by omega) (by omega), pushIf_pos (by omega)]
      have : partsNodes (base + pre.length + 2) attrs = [] := by
        have h1 := dissectAttributes_parts ha (base + pre.length + 2) (by omega)
        rw [h0] at h1
        simpa [dissectAttributes, rounds, attrStep] using h1.symm
      simp [h0, this]
      omega
    · have := List.length_pos_iff.2 h0
      rw [if_pos (by omega)]
      simp only [Option.bind_some]
      rw [dissectAttributes_parts ha _ (by omega)]
      simp only [Option.bind_some]
      rw [mkNode_ok (by omega) (by omega), pushIf_pos trivial]
      simp [Nat.add_assoc]
      omega
  | full attrs nlri hn ha hw =>
    simp at hb
    simp only [partsBytes_cons, partsBytes_append, section_bytes, leaf_bytes, group_bytes, partsBytes_nil, List.append_nil]
    have hix : ixU16 (pre ++ (n16 (partsBytes attrs).length ++ (partsBytes attrs ++ partsBytes nlri))) pre.length = some (partsBytes attrs).length := by
      rw [← Nat.add_zero pre.length, ixU16_pre, ixU16_n16 hn]
    rw [if_neg (by simp), hix, mkNode_ok (by omega) (by omega)]
    simp only [Option.bind_eq_bind, Option.bind_some]
    have hlen : (pre ++ (n16 (partsBytes attrs).length ++ (partsBytes attrs ++ partsBytes nlri))).length
      = pre.length + 2 + (partsBytes attrs).length + (partsBytes nlri).length := by simp; omega
    rw [hlen, Nat.min_eq_left (by omega)]
    have hs : subslice (pre ++ (n16 (partsBytes attrs).length ++ (partsBytes attrs ++ partsBytes nlri))) (pre.length + 2) (pre.length + 2 + (partsBytes attrs).length)
        = some (partsBytes attrs) := by
      have := subslice_mid (pre ++ n16 (partsBytes attrs).length) (partsBytes attrs) (partsBytes nlri)
        (i := pre.length + 2) (j := pre.length + 2 + (partsBytes attrs).length) (by simp) (by simp)
      simpa using this
    have hs' : subslice (pre ++ (n16 (partsBytes attrs).length ++ (partsBytes attrs ++ partsBytes nlri))) (pre.length + 2 + (partsBytes attrs).length)
        (pre.length + 2 + (partsBytes attrs).length + (partsBytes nlri).length) = some (partsBytes nlri) := by
      have := subslice_mid (pre ++ n16 (partsBytes attrs).length ++ partsBytes attrs) (partsBytes nlri) []
        (i := pre.length + 2 + (partsBytes attrs).length) (j := pre.length + 2 + (partsBytes attrs).length + (partsBytes nlri).length) (by simp; omega) (by simp; omega)
      simpa using this
    rw [hs, hs']
    simp only [Option.bind_some]
    rw [dissectAttributes_parts ha _ (by omega), dissectNlri_walked hw _ (by omega), usub_ok (by omega)]
    simp only [Option.bind_some]
    rw [mkNode_ok (by omega) (by omega), mkNode_ok (by omega) (by omega), mkNode_ok (by omega) (by omega)]
    have h1 : (if pre.length + 2 < pre.length + 2 + (partsBytes attrs).length then
          pushIf True (some (Node.mk "bgp.update.path_attributes" (base + (pre.length + 2)) (pre.length + 2 + (partsBytes attrs).length - (pre.length + 2)) (partsNodes (base + (pre.length + 2)) attrs)))
        else pushIf (0 < (partsBytes attrs).length) (some (Node.mk "bgp.update.path_attributes" (base + (pre.length + 2)) 0 [])))
        = some (partsNodes (base + pre.length + 2) (section' "bgp.update.path_attributes" attrs)) := by
      rw [section_nodes]
      by_cases h0 : partsBytes attrs = []
      · simp [h0, pushIf]
      · have := List.length_pos_iff.2 h0
        rw [if_pos (by omega), if_neg h0, pushIf_pos trivial, Nat.add_sub_cancel_left]
        simp [Nat.add_assoc]
    have h2 : pushIf (pre.length + 2 + (partsBytes attrs).length < pre.length + 2 + (partsBytes attrs).length + (partsBytes nlri).length)
        (some (Node.mk "bgp.update.nlri" (base + (pre.length + 2 + (partsBytes attrs).length))
          (pre.length + 2 + (partsBytes attrs).length + (partsBytes nlri).length - (pre.length + 2 + (partsBytes attrs).length))
          (partsNodes (base + (pre.length + 2 + (partsBytes attrs).length)) nlri)))
        = some (partsNodes (base + pre.length + 2 + (partsBytes attrs).length) (section' "bgp.update.nlri" nlri)) := by
      rw [section_nodes]
      by_cases h0 : partsBytes nlri = []
      · simp [h0, pushIf]
      · have := List.length_pos_iff.2 h0
        rw [pushIf_pos (by omega), if_neg h0, Nat.add_sub_cancel_left]
        simp [Nat.add_assoc]
    rw [h1, h2]
    simp

theorem dissectUpdateFields_parts {l : AsnLen} {ap : Bool} {ps : List Part} (h : UpdateParts l.octets ap ps) (base : Nat)
    (hb : base + (partsBytes ps).length < 4294967296) :
    dissectUpdateFields (partsBytes ps) base l ap = some (partsNodes base ps) := by
  unfold dissectUpdateFields
  cases h with
  | empty => simp [pushIf]
  | cutLength b =>
    simp at hb
    rw [if_pos (by simp), mkNode_ok (by omega) (by simp), pushIf_pos (by simp)]
    simp
  | cutWithdrawn n b hn hlt =>
    simp at hb
    simp only [partsBytes_cons, leaf_bytes, partsBytes_nil, List.append_nil]
    rw [if_neg (by simp), ixU16_n16 hn, mkNode_ok (by omega) (by omega)]
    simp only [Option.bind_eq_bind, Option.bind_some]
    rw [if_pos (by simp; omega), usub_ok (by simp)]
    simp only [Option.bind_some]
    rw [mkNode_ok (by omega) (by simp; omega)]
    simp
  | full wd tail hn hw ht =>
    simp at hb
    simp only [partsBytes_cons, partsBytes_append, section_bytes, leaf_bytes, partsBytes_nil, List.append_nil]
    rw [if_neg (by simp), ixU16_n16 hn, mkNode_ok (by omega) (by omega)]
    simp only [Option.bind_eq_bind, Option.bind_some]
    rw [if_neg (by simp), subslice_mid (n16 (partsBytes wd).length) (partsBytes wd) (partsBytes tail) (i := 2) (j := 2 + (partsBytes wd).length) rfl rfl]
    simp only [Option.bind_some]
    rw [dissectNlri_walked hw _ (by omega)]
    simp only [Option.bind_some]
    rw [mkNode_ok (by omega) (by omega)]
    have h1 := dissectUpdateTail_parts ht base (n16 (partsBytes wd).length ++ partsBytes wd) (by simp; omega)
    rw [List.append_assoc, List.length_append, n16_length] at h1
    rw [h1]
    have h2 : pushIf (0 < (partsBytes wd).length) (some (Node.mk "bgp.update.withdrawn_routes" (base + 2) (partsBytes wd).length (partsNodes (base + 2) wd)))
        = some (partsNodes (base + 2) (section' "bgp.update.withdrawn_routes" wd)) := by
      rw [section_nodes]
      by_cases h0 : partsBytes wd = []
      · simp [h0, pushIf]
      · have := List.length_pos_iff.2 h0
        rw [pushIf_pos (by omega), if_neg h0]
    rw [h2]
    simp [Nat.add_assoc]

theorem n16_exists (a b : UInt8) : n16 (u16of a b).toNat = [a, b] := by rw [← be16_n16, be16_u16of]

theorem updateTail_exists (l : AsnLen) (ap : Bool) (d : Bytes) : ∃ ps, UpdateTailParts l.octets ap ps ∧ partsBytes ps = d := by
  match d with
  | [] => exact ⟨_, .empty, rfl⟩
  | [b] => exact ⟨_, .cutLength b, by simp⟩
  | a :: b :: r =>
    have hn : (u16of a b).toNat < 65536 := UInt16.toNat_lt _
    by_cases h : r.length < (u16of a b).toNat
    · obtain ⟨ps, hp, hb⟩ := attrList_exists l ap r
      exact ⟨_, .cutAttributes _ ps hn hp (by rw [hb]; exact h), by simp [hb, n16_exists]⟩
    · obtain ⟨ps, hp, hb⟩ := attrList_exists l ap (r.take (u16of a b).toNat)
      obtain ⟨qs, hq, hc⟩ := walked_exists' (prefixItem_pos (ap := ap)) (r.drop (u16of a b).toNat)
      have hl : (partsBytes ps).length = (u16of a b).toNat := by rw [hb]; simp; omega
      refine ⟨_, .full ps qs (by omega) hp hq, ?_⟩
      rw [partsBytes_cons, leaf_bytes, hl, n16_exists]
      simp [hb, hc]

theorem update_exists (l : AsnLen) (ap : Bool) (d : Bytes) : ∃ ps, UpdateParts l.octets ap ps ∧ partsBytes ps = d := by
  match d with
  | [] => exact ⟨_, .empty, rfl⟩
  | [b] => exact ⟨_, .cutLength b, by simp⟩
  | a :: b :: r =>
    have hn : (u16of a b).toNat < 65536 := UInt16.toNat_lt _
    by_cases h : r.length < (u16of a b).toNat
    · exact ⟨_, .cutWithdrawn _ r hn h, by simp [n16_exists]⟩
    · obtain ⟨ps, hp, hb⟩ := updateTail_exists l ap (r.drop (u16of a b).toNat)
      obtain ⟨qs, hq, hc⟩ := walked_exists' (prefixItem_pos (ap := ap)) (r.take (u16of a b).toNat)
      have hl : (partsBytes qs).length = (u16of a b).toNat := by rw [hc]; simp; omega
      refine ⟨_, .full qs ps (by omega) hq hp, ?_⟩
      rw [partsBytes_cons, leaf_bytes, hl, n16_exists]
      simp [hb, hc]

end Verif
