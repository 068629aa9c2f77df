import Verif.Lemmas.SpansRecord
/-
The attributes and sections of an UPDATE in its tree.
-/
namespace Verif
open Spec

theorem longLen_eq (f : UInt8) : longLen f = true ↔ ExtendedLength f := by
  revert f
  exact u8_every (by decide +kernel)

theorem headBytes_lenField {f c : UInt8} {n : Nat} (h : LenFits f n) : ∃ len, LenField (longLen f) n len ∧ headBytes f c n = f :: c :: len := by
  unfold LenFits at h
  by_cases he : ExtendedLength f
  · rw [if_pos he] at h
    refine ⟨n16 n, ?_, ?_⟩
    · simp only [LenField, (longLen_eq f).mpr he, if_true]; exact ⟨h, trivial⟩
    · simp [headBytes, he, n16]
      apply UInt8.toNat.inj
      simp
  · rw [if_neg he] at h
    have hl : longLen f = false := by
      cases hb : longLen f with
      | false => rfl
      | true => exact absurd ((longLen_eq f).mp hb) he
    refine ⟨[UInt8.ofNat n], ?_, ?_⟩
    · simp only [LenField, hl, Bool.false_eq_true, if_false]; exact ⟨h, trivial⟩
    · simp [headBytes, he]

/-- the ranges of the attributes with this code -/
def codeSpans (c : UInt8) : Nat → List Wire → List (Nat × Nat)
  | _, [] => []
  | base, w :: ws => (if w.code = c then [(base, w.bytes.length)] else []) ++ codeSpans c (base + w.bytes.length) ws

theorem attr_item (k : Nat) (ap : Bool) (w : Wire) (hw : w.ok) :
    ∃ e, AttrItem k ap e ∧ e.bytes = w.bytes ∧ ∀ x base, x ∉ plainFields →
      (sel x base [e]).map Node.span = if attrName w.code = x then [(base, w.bytes.length)] else [] := by
  obtain ⟨len, h1, h2⟩ := headBytes_lenField (c := w.code) hw
  obtain ⟨v, h3, h4⟩ := attrValue_exists k ap w.code w.value
  have hb : (Part.group (attrName w.code) [leaf "bgp.attr.flags" [w.flag], leaf "bgp.attr.type" [w.code], leaf "bgp.attr.length" len,
      .group "bgp.attr.value" v]).bytes = w.bytes := by
    simp [Wire.bytes, h2, h4]
  refine ⟨_, ⟨w.flag, w.code, len, v, by rw [h4]; exact h1, h3, rfl⟩, hb, ?_⟩
  intro x base hx
  rw [sel_group, sel_plain (.cons (.leaf _ (by decide +kernel)) (.cons (.leaf _ (by decide +kernel)) (.cons (.leaf _ (by decide +kernel))
    (.group (by decide +kernel) (plain_attrValue h3))))) hx]
  rw [← group_bytes (attrName w.code), hb, List.append_nil]
  split <;> rfl

theorem attr_items (k : Nat) (ap : Bool) (ws : List Wire) (hw : ∀ w ∈ ws, w.ok) :
    ∃ items, (∀ e ∈ items, AttrItem k ap e) ∧ partsBytes items = wireBytes ws ∧
      (∀ c base, (sel (attrName c) base items).map Node.span = codeSpans c base ws) ∧
      ∀ x base, x ∉ plainFields → (∀ c, attrName c ≠ x) → sel x base items = [] := by
  induction ws with
  | nil => exact ⟨[], by simp, rfl, fun _ _ => rfl, fun _ _ _ _ => rfl⟩
  | cons w ws ih =>
    obtain ⟨items, h1, h2, h3, h4⟩ := ih (fun x hx => hw x (by simp [hx]))
    obtain ⟨e, g1, g2, g3⟩ := attr_item k ap w (hw w (by simp))
    refine ⟨e :: items, ?_, ?_, ?_, ?_⟩
    · intro x hx
      rcases List.mem_cons.mp hx with rfl | hx
      · exact g1
      · exact h1 x hx
    · rw [partsBytes_cons, g2, h2]; rfl
    · intro c base
      rw [sel_cons, List.map_append, g3 _ _ (attrName_notPlain c), g2, h3, codeSpans]
      congr 1
      by_cases hc : w.code = c
      · rw [if_pos hc, if_pos (by rw [hc])]
      · rw [if_neg hc, if_neg (fun h => hc (attrName_inj h))]
    · intro x base hx hn
      rw [sel_cons, h4 x _ hx hn, List.append_nil]
      have := g3 x base hx
      rw [if_neg (hn w.code)] at this
      exact List.map_eq_nil_iff.mp this

theorem attr_tail {rest : Bytes} (hr : Rest rest) :
    ∃ tail, AttrTail tail ∧ tail.bytes = rest ∧
      (∀ c base, (sel (attrName c) base [tail]).map Node.span = if 3 ≤ rest.length ∧ rest[1]? = some c then [(base, rest.length)] else []) ∧
      ∀ x base, x ∉ plainFields → (∀ c, attrName c ≠ x) → sel x base [tail] = [] := by
  by_cases h3 : rest.length < 3
  · refine ⟨.gap rest, .rest rest ?_, rfl, ?_, fun _ _ _ _ => sel_gap _ _ _⟩
    · rintro f c n len t hl rfl
      have := lenField_length hl
      simp only [List.length_cons, List.length_append] at h3
      split at this <;> omega
    · intro c base
      rw [sel_gap, if_neg (by omega)]
      rfl
  · rcases hr with hr | ⟨f, c, n, v, hf, rfl, hv⟩
    · exact absurd hr h3
    obtain ⟨len, h1, h2⟩ := headBytes_lenField (c := c) hf
    have hb : (Part.group (attrName c) [leaf "bgp.attr.flags" [f], .gap (c :: (len ++ v))]).bytes = headBytes f c n ++ v := by
      simp [h2]
    refine ⟨_, .cut f c n len v h1 hv, hb, ?_, ?_⟩
    · intro c' base
      rw [sel_group, sel_plain (.cons (.leaf _ (by decide +kernel)) (.gap _)) (attrName_notPlain c'), ← group_bytes (attrName c), hb,
        List.append_nil]
      have h1 : (headBytes f c n ++ v)[1]? = some c := by rw [h2]; rfl
      rw [h1]
      by_cases hc : c = c'
      · rw [if_pos (by rw [hc]), if_pos ⟨by omega, by rw [hc]⟩]; rfl
      · rw [if_neg (fun h => hc (attrName_inj h)), if_neg (by rintro ⟨_, h⟩; cases h; exact hc rfl)]; rfl
    · intro x base hx hn
      rw [sel_group, sel_plain (.cons (.leaf _ (by decide +kernel)) (.gap _)) hx, if_neg (hn c)]
      rfl

theorem sel_section (x : String) (base : Nat) (f : String) (ps : List Part) : sel x base (section' f ps) =
    (if partsBytes ps ≠ [] ∧ f = x then [.mk f base (partsBytes ps).length (partsNodes base ps)] else []) ++
      if partsBytes ps = [] then [] else sel x base ps := by
  unfold section'
  by_cases h : partsBytes ps = []
  · simp [h]
  · rw [if_neg h, if_neg h, sel_group]
    simp [h]

theorem sel_section_ne {x f : String} (base : Nat) (ps : List Part) (h : ¬ f = x) : sel x base (section' f ps) =
    if partsBytes ps = [] then [] else sel x base ps := by
  rw [sel_section, if_neg (fun hh => h hh.2), List.nil_append]

theorem sel_section_nil {x f : String} (base : Nat) (ps : List Part) (h : ¬ f = x) (hs : sel x base ps = []) :
    sel x base (section' f ps) = [] := by
  rw [sel_section_ne base ps h, hs, ite_self]

theorem sel_section_self {f : String} (base : Nat) (ps : List Part) (hs : sel f base ps = []) :
    (sel f base (section' f ps)).map Node.span = if partsBytes ps = [] then [] else [(base, (partsBytes ps).length)] := by
  rw [sel_section, hs, ite_self, List.append_nil]
  by_cases h : partsBytes ps = []
  · simp [h]
  · rw [if_pos ⟨h, rfl⟩, if_neg h]; rfl

/-- Where the tree of an UPDATE has its attributes and its sections. -/
theorem update_tree (l : AsnLen) (ap : Bool) (w n : Bytes) (ws : List Wire) (rest : Bytes) (hws : ∀ x ∈ ws, x.ok) (hr : Rest rest)
    (hw : w.length < 65536) (ha : (wireBytes ws ++ rest).length < 65536) :
    ∃ ps, BodyParts l.octets ap 2 ps ∧ partsBytes ps = updateBytes w (wireBytes ws ++ rest) n ∧
      ∀ base A, A = base + 2 + w.length + 2 →
        (∀ c, (sel (attrName c) base ps).map Node.span = codeSpans c A ws ++
          if 3 ≤ rest.length ∧ rest[1]? = some c then [(A + (wireBytes ws).length, rest.length)] else []) ∧
        ((sel sWithdrawn base ps).map Node.span = if w = [] then [] else [(base + 2, w.length)]) ∧
        ((sel sAttributes base ps).map Node.span =
          if wireBytes ws ++ rest = [] then [] else [(A, (wireBytes ws ++ rest).length)]) ∧
        ((sel sNlri base ps).map Node.span =
          if n = [] then [] else [(A + (wireBytes ws ++ rest).length, n.length)]) := by
  obtain ⟨wp, w1, rfl⟩ := walked_exists' (prefixItem_pos (ap := ap)) w
  obtain ⟨np, n1, rfl⟩ := walked_exists' (prefixItem_pos (ap := ap)) n
  obtain ⟨items, i1, i2, i3, i4⟩ := attr_items l.octets ap ws hws
  obtain ⟨tail, t1, t2, t3, t4⟩ := attr_tail hr
  have hab : partsBytes (items ++ [tail]) = wireBytes ws ++ rest := by simp [i2, t2]
  rw [← hab]
  rw [← hab] at ha
  refine ⟨_, .update _ (.full wp _ hw w1 (.full (items ++ [tail]) np ha ⟨items, tail, rfl, i1, t1⟩ n1)), ?_, ?_⟩
  · simp [updateBytes]
  · rintro base A rfl
    have pl1 : ∀ b, Plain [leaf "bgp.update.withdrawn_routes.length" b] := fun b => .leaf b (by decide +kernel)
    have pl2 : ∀ b, Plain [leaf "bgp.update.path_attributes.length" b] := fun b => .leaf b (by decide +kernel)
    have key : ∀ x, x ∉ plainFields → sel x base [.group "bgp.update" (leaf "bgp.update.withdrawn_routes.length" (n16 (partsBytes wp).length)
        :: (section' "bgp.update.withdrawn_routes" wp ++
          (leaf "bgp.update.path_attributes.length" (n16 (partsBytes (items ++ [tail])).length)
            :: (section' "bgp.update.path_attributes" (items ++ [tail]) ++ section' "bgp.update.nlri" np))))] =
        sel x (base + 2) (section' sWithdrawn wp) ++ sel x (base + 2 + (partsBytes wp).length + 2) (section' sAttributes (items ++ [tail])) ++
          sel x (base + 2 + (partsBytes wp).length + 2 + (partsBytes (items ++ [tail])).length) (section' sNlri np) := by
      intro x hx
      have hu : ¬ "bgp.update" = x := by rintro rfl; exact hx (by decide +kernel)
      rw [sel_group, if_neg hu, List.nil_append, sel_cons, sel_plain (pl1 _) hx, List.nil_append, sel_append, sel_cons,
        sel_plain (pl2 _) hx, List.nil_append, sel_append]
      simp only [leaf_bytes, n16, List.length_cons, List.length_nil, section_bytes, sWithdrawn, sAttributes, sNlri, List.append_assoc]
    have hsec : ∀ f ∈ [sWithdrawn, sAttributes, sNlri, sRefresh], f ∉ plainFields ∧ ∀ c, attrName c ≠ f := by
      intro f hf
      refine ⟨sections_notPlain f hf, ?_⟩
      rintro c rfl
      exact attrName_notSection c hf
    have hsp : ∀ (x : String) b, x ∉ plainFields → (∀ c, attrName c ≠ x) → sel x b (items ++ [tail]) = [] := by
      intro x b h1 h2
      rw [sel_append, i4 x _ h1 h2, t4 x _ h1 h2]; rfl
    refine ⟨?_, ?_, ?_, ?_⟩
    · intro c
      have hx := attrName_notPlain c
      have hn := attrName_notSection c
      simp only [List.mem_cons, List.not_mem_nil, or_false, not_or] at hn
      obtain ⟨e1, e2, e3, _⟩ := hn
      rw [key _ hx, sel_section_nil _ _ (fun h => e1 h.symm) (sel_plain (plain_nlri w1) hx _),
        sel_section_nil _ _ (fun h => e3 h.symm) (sel_plain (plain_nlri n1) hx _), sel_section_ne _ _ (fun h => e2 h.symm)]
      simp only [List.nil_append, List.append_nil]
      have hfin : (sel (attrName c) (base + 2 + (partsBytes wp).length + 2) (items ++ [tail])).map Node.span =
          codeSpans c (base + 2 + (partsBytes wp).length + 2) ws ++
            if 3 ≤ rest.length ∧ rest[1]? = some c then [(base + 2 + (partsBytes wp).length + 2 + (wireBytes ws).length, rest.length)] else [] := by
        rw [sel_append, List.map_append, i3, t3, i2]
      split
      · rename_i he
        rw [hab] at he
        obtain ⟨he1, he2⟩ := List.append_eq_nil_iff.mp he
        have : ws = [] := by
          cases ws with
          | nil => rfl
          | cons w ws =>
            have := headBytes_length w.flag w.code w.value.length
            simp only [wireBytes, List.flatMap_cons, Wire.bytes] at he1
            simp only [List.append_eq_nil_iff] at he1
            rw [he1.1.1] at this; simp at this
        subst this; subst he2
        simp [codeSpans]
      · exact hfin
    · obtain ⟨h1, h2⟩ := hsec sWithdrawn (by simp)
      rw [key _ h1, sel_section_nil _ (items ++ [tail]) (by decide +kernel) (hsp _ _ h1 h2),
        sel_section_nil _ np (by decide +kernel) (sel_plain (plain_nlri n1) h1 _), List.append_nil, List.append_nil,
        sel_section_self _ wp (sel_plain (plain_nlri w1) h1 _)]
    · obtain ⟨h1, h2⟩ := hsec sAttributes (by simp)
      rw [key _ h1, sel_section_nil _ wp (by decide +kernel) (sel_plain (plain_nlri w1) h1 _),
        sel_section_nil _ np (by decide +kernel) (sel_plain (plain_nlri n1) h1 _), List.append_nil, List.nil_append,
        sel_section_self _ _ (hsp _ _ h1 h2)]
    · obtain ⟨h1, h2⟩ := hsec sNlri (by simp)
      rw [key _ h1, sel_section_nil _ wp (by decide +kernel) (sel_plain (plain_nlri w1) h1 _),
        sel_section_nil _ (items ++ [tail]) (by decide +kernel) (hsp _ _ h1 h2), List.nil_append, List.nil_append,
        sel_section_self _ _ (sel_plain (plain_nlri n1) h1 _)]

end Verif
