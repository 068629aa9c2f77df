import Verif.Lemmas.DissectMrt
/-
The tree of a description is nested; what `find` and `find_all` return.
-/
namespace Verif
open Spec

/-! ### nesting -/

theorem Node.offset_mk (f : String) (o l : Nat) (c : List Node) : (Node.mk f o l c).offset = o := rfl
theorem Node.length_mk (f : String) (o l : Nat) (c : List Node) : (Node.mk f o l c).length = l := rfl
theorem Node.field_mk (f : String) (o l : Nat) (c : List Node) : (Node.mk f o l c).field = f := rfl

theorem inTree_down {t c n : Node} (hc : c ∈ t.children) (h : InTree c n) : InTree t n := by
  induction h with
  | self => exact .child t c .self hc
  | child m d _ hd ih => exact .child m d ih hd

theorem inTree_iff (t n : Node) : InTree t n ↔ n = t ∨ ∃ c ∈ t.children, InTree c n := by
  constructor
  · intro h
    induction h with
    | self => exact Or.inl rfl
    | child m d _ hd ih =>
      rcases ih with rfl | ⟨c, hc, hw⟩
      · exact Or.inr ⟨d, hd, .self⟩
      · exact Or.inr ⟨c, hc, .child m d hw hd⟩
  · rintro (rfl | ⟨c, hc, hw⟩)
    · exact .self
    · exact inTree_down hc hw

/-- everything in the tree lies in `[lo, hi)`, and children are inside their parents and apart from each other -/
def GoodTree (lo hi : Nat) (t : Node) : Prop :=
  ∀ n, InTree t n → lo ≤ n.offset ∧ n.offset + n.length ≤ hi ∧ (∀ c ∈ n.children, Inside c n ∨ After c n) ∧ n.children.Pairwise Apart

theorem GoodTree.self {lo hi : Nat} {t : Node} (h : GoodTree lo hi t) : lo ≤ t.offset ∧ t.offset + t.length ≤ hi :=
  ⟨(h t .self).1, (h t .self).2.1⟩

theorem GoodTree.mono {lo hi lo' hi' : Nat} {t : Node} (h : GoodTree lo hi t) (h1 : lo' ≤ lo) (h2 : hi ≤ hi') : GoodTree lo' hi' t := by
  intro n hn
  obtain ⟨a, b, c, d⟩ := h n hn
  exact ⟨by omega, by omega, c, d⟩

theorem goodTree_node {lo hi : Nat} {t : Node} (h1 : lo ≤ t.offset) (h2 : t.offset + t.length ≤ hi)
    (hc : ∀ c ∈ t.children, GoodTree lo hi c) (hi' : ∀ c ∈ t.children, Inside c t ∨ After c t) (hp : t.children.Pairwise Apart) :
    GoodTree lo hi t := by
  intro n hn
  rcases (inTree_iff t n).1 hn with rfl | ⟨c, hcm, hw⟩
  · exact ⟨h1, h2, hi', hp⟩
  · exact hc c hcm n hw

theorem goodTree_leaf {lo hi o l : Nat} {f : String} (h1 : lo ≤ o) (h2 : o + l ≤ hi) : GoodTree lo hi (.mk f o l []) :=
  goodTree_node h1 h2 (by intro c hc; cases hc) (by intro c hc; cases hc) .nil

mutual
theorem part_good : ∀ (p : Part) (base : Nat), (∀ n ∈ p.nodes base, GoodTree base (base + p.bytes.length) n) ∧ (p.nodes base).Pairwise Apart
  | .gap _, _ => by simp
  | .group f ps, base => by
    obtain ⟨h1, h2⟩ := parts_good ps base
    simp only [group_nodes, group_bytes, List.mem_singleton, forall_eq, List.pairwise_singleton, and_true]
    refine goodTree_node (t := .mk f base (partsBytes ps).length (partsNodes base ps)) (Nat.le_refl _) (Nat.le_refl _) h1 ?_ h2
    intro c hc
    exact Or.inl (h1 c hc).self
  | .msg h cut body extra, base => by
    obtain ⟨a1, a2⟩ := parts_good h base
    obtain ⟨b1, b2⟩ := parts_good body (base + (partsBytes h).length)
    generalize hlen : (partsBytes h).length + (partsBytes body).length = len
    have hbytes : (Part.msg h cut body extra).bytes.length = len + extra.length := by
      rw [msg_bytes, ← hlen]; simp; omega
    rw [hbytes]
    have hcut : ∀ c ∈ (if cut then [Node.mk "bgp.truncated" (base + len) 0 []] else []), c = .mk "bgp.truncated" (base + len) 0 [] := by
      intro c hc; split at hc <;> simp_all
    have hext : ∀ c ∈ (if extra = [] then [] else [Node.mk "bgp.trailing" (base + len) extra.length []]),
        c = .mk "bgp.trailing" (base + len) extra.length [] := by
      intro c hc; split at hc <;> simp_all
    simp only [Part.nodes, List.mem_singleton, forall_eq, List.pairwise_singleton, and_true, hlen]
    have hmem : ∀ c ∈ partsNodes base h ++ (if cut then [Node.mk "bgp.truncated" (base + len) 0 []] else [])
          ++ partsNodes (base + (partsBytes h).length) body
          ++ (if extra = [] then [] else [Node.mk "bgp.trailing" (base + len) extra.length []]),
        GoodTree base (base + (len + extra.length)) c ∧ (Inside c (.mk "bgp" base len []) ∨ c = .mk "bgp.trailing" (base + len) extra.length []) := by
      intro c hc
      simp only [List.mem_append] at hc
      rcases hc with ((hc | hc) | hc) | hc
      · have := (a1 c hc).self
        exact ⟨(a1 c hc).mono (Nat.le_refl _) (by omega), Or.inl ⟨this.1, by simp only [Node.offset_mk, Node.length_mk] at *; omega⟩⟩
      · rw [hcut c hc]
        exact ⟨goodTree_leaf (by omega) (by omega), Or.inl ⟨by simp [Node.offset], by simp [Node.offset, Node.length]⟩⟩
      · have := (b1 c hc).self
        exact ⟨(b1 c hc).mono (by omega) (by omega), Or.inl ⟨by simp only [Node.offset_mk] at *; omega, by simp only [Node.offset_mk, Node.length_mk] at *; omega⟩⟩
      · exact ⟨by rw [hext c hc]; exact goodTree_leaf (by omega) (by omega), Or.inr (hext c hc)⟩
    refine goodTree_node (Nat.le_refl _) (by simp only [Node.offset_mk, Node.length_mk]; omega) (fun c hc => (hmem c hc).1) ?_ ?_
    · intro c hc
      rcases (hmem c hc).2 with hi | rfl
      · exact Or.inl hi
      · exact Or.inr ⟨rfl, rfl, rfl, rfl⟩
    · simp only [Node.children, List.pairwise_append]
      refine ⟨⟨⟨a2, ?_, ?_⟩, b2, ?_⟩, ?_, ?_⟩
      · split <;> simp
      · intro a ha b hb
        rw [hcut b hb]
        have := (a1 a ha).self
        exact Or.inl (by simp only [Node.offset_mk]; omega)
      · intro a ha b hb
        have h2 := (b1 b hb).self
        simp only [List.mem_append] at ha
        rcases ha with ha | ha
        · have := (a1 a ha).self
          exact Or.inl (by omega)
        · rw [hcut a ha]
          exact Or.inr (by simp only [Node.offset_mk]; omega)
      · split <;> simp
      · intro a ha b hb
        rw [hext b hb]
        simp only [List.mem_append] at ha
        rcases ha with (ha | ha) | ha
        · have := (a1 a ha).self
          exact Or.inl (by simp only [Node.offset_mk]; omega)
        · rw [hcut a ha]
          exact Or.inl (by simp [Node.offset, Node.length])
        · have := (b1 a ha).self
          exact Or.inl (by simp only [Node.offset_mk]; omega)
theorem parts_good : ∀ (ps : List Part) (base : Nat),
    (∀ n ∈ partsNodes base ps, GoodTree base (base + (partsBytes ps).length) n) ∧ (partsNodes base ps).Pairwise Apart
  | [], _ => by simp
  | p :: ps, base => by
    obtain ⟨h1, h2⟩ := part_good p base
    obtain ⟨h3, h4⟩ := parts_good ps (base + p.bytes.length)
    simp only [partsNodes_cons, partsBytes_cons, List.length_append, List.mem_append, List.pairwise_append]
    refine ⟨?_, h2, h4, ?_⟩
    · rintro n (hn | hn)
      · exact (h1 n hn).mono (Nat.le_refl _) (by omega)
      · exact (h3 n hn).mono (by omega) (by omega)
    · intro a ha b hb
      have := (h1 a ha).self
      have := (h3 b hb).self
      exact Or.inl (by omega)
end

/-! ### searching -/

mutual
theorem mem_nodesOf : ∀ t n, n ∈ nodesOf t ↔ InTree t n
  | .mk f o l cs, n => by
    rw [inTree_iff, nodesOf, List.mem_cons, mem_nodesOfList]
    rfl
theorem mem_nodesOfList : ∀ cs n, n ∈ nodesOfList cs ↔ ∃ c ∈ cs, InTree c n
  | [], n => by simp [nodesOfList]
  | c :: cs, n => by
    rw [nodesOfList, List.mem_append, mem_nodesOf c, mem_nodesOfList cs]
    simp
end

mutual
theorem findAll_filter (x : String) : ∀ t : Node, t.findAll x = (nodesOf t).filter (·.field == x)
  | .mk f o l cs => by
    rw [Node.findAll, nodesOf, List.filter_cons, findAllList_filter x cs]
    by_cases h : f = x <;> simp [h, Node.field]
theorem findAllList_filter (x : String) : ∀ cs : List Node, Node.findAllList x cs = (nodesOfList cs).filter (·.field == x)
  | [] => rfl
  | c :: cs => by
    rw [Node.findAllList, nodesOfList, List.filter_append, findAll_filter x c, findAllList_filter x cs]
end

mutual
theorem find_find? (x : String) : ∀ t : Node, t.find x = (nodesOf t).find? (·.field == x)
  | .mk f o l cs => by
    rw [Node.find, nodesOf, List.find?_cons, findList_find? x cs, Node.field_mk]
    by_cases h : f = x
    · simp [h]
    · rw [if_neg h, beq_false_of_ne h]
theorem findList_find? (x : String) : ∀ cs : List Node, Node.findList x cs = (nodesOfList cs).find? (·.field == x)
  | [] => rfl
  | c :: cs => by
    rw [Node.findList, nodesOfList, List.find?_append, find_find? x c, findList_find? x cs]
    cases (nodesOf c).find? (·.field == x) <;> rfl
end

/-! ### messages that declare at least what is given -/

mutual
/-- no BGP message in it -/
def noMsg : Part → Bool
  | .gap _ => true
  | .group _ ps => noMsgs ps
  | .msg _ _ _ _ => false
def noMsgs : List Part → Bool
  | [] => true
  | p :: ps => noMsg p && noMsgs ps
end

@[simp] theorem noMsgs_nil : noMsgs [] = true := rfl
@[simp] theorem noMsgs_cons (p ps) : noMsgs (p :: ps) = (noMsg p && noMsgs ps) := rfl
@[simp] theorem noMsg_gap (b) : noMsg (.gap b) = true := rfl
@[simp] theorem noMsg_group (f ps) : noMsg (.group f ps) = noMsgs ps := rfl
@[simp] theorem noMsg_leaf (f b) : noMsg (leaf f b) = true := rfl
@[simp] theorem noMsgs_append : ∀ ps qs, noMsgs (ps ++ qs) = (noMsgs ps && noMsgs qs)
  | [], _ => rfl
  | p :: ps, qs => by simp [noMsgs_append ps qs, Bool.and_assoc]
@[simp] theorem noMsgs_shown (f b) : noMsgs (shown f b) = true := by unfold shown; split <;> rfl
theorem noMsgs_section {f : String} {ps : List Part} (h : noMsgs ps = true) : noMsgs (section' f ps) = true := by
  unfold section'; split <;> simp [h]

/-- all children inside their parents -/
def StrictTree (t : Node) : Prop := ∀ n, InTree t n → ∀ c ∈ n.children, Inside c n

theorem strictTree_node {t : Node} (h : ∀ c ∈ t.children, StrictTree c ∧ Inside c t) : StrictTree t := by
  intro n hn c hc
  rcases (inTree_iff t n).1 hn with rfl | ⟨d, hd, hw⟩
  · exact (h c hc).2
  · exact (h d hd).1 n hw c hc

mutual
theorem part_strict : ∀ (p : Part) (base : Nat), noMsg p = true → ∀ n ∈ p.nodes base, StrictTree n
  | .gap _, _, _ => by simp
  | .group f ps, base, h => by
    simp only [group_nodes, List.mem_singleton, forall_eq]
    apply strictTree_node
    intro c hc
    exact ⟨parts_strict ps base h c hc, ((parts_good ps base).1 c hc).self⟩
  | .msg _ _ _ _, _, h => by cases h
theorem parts_strict : ∀ (ps : List Part) (base : Nat), noMsgs ps = true → ∀ n ∈ partsNodes base ps, StrictTree n
  | [], _, _ => by simp
  | p :: ps, base, h => by
    simp at h
    simp only [partsNodes_cons, List.mem_append]
    rintro n (hn | hn)
    · exact part_strict p base h.1 n hn
    · exact parts_strict ps _ h.2 n hn
end

theorem noMsgs_items {Item : Part → Prop} (h : ∀ e, Item e → noMsg e = true) : ∀ items : List Part, (∀ e ∈ items, Item e) → noMsgs items = true
  | [], _ => rfl
  | e :: es, hi => by
    simp [h e (hi e (by simp)), noMsgs_items h es (fun x hx => hi x (by simp [hx]))]

theorem noMsgs_walked {Item : Part → Prop} (h : ∀ e, Item e → noMsg e = true) {ps : List Part} (hw : Walked Item ps) : noMsgs ps = true := by
  obtain ⟨items, rest, rfl, hi, _⟩ := hw
  simp [noMsgs_items h items hi]

theorem noMsgs_nlri {ap : Bool} {ps : List Part} (hw : Walked (PrefixItem ap) ps) : noMsgs ps = true :=
  noMsgs_walked (by rintro e ⟨_, _, _, _, _, rfl⟩; rfl) hw

theorem noMsgs_attrValue {k : Nat} {ap : Bool} {c : UInt8} {ps : List Part} (h : AttrValueParts k ap c ps) : noMsgs ps = true := by
  have seg : ∀ k, Walked (SegmentItem k) ps → noMsgs ps = true := fun k hw => noMsgs_walked (by rintro e ⟨_, _, _, _, rfl⟩; rfl) hw
  have ent : ∀ f k, Walked (EntryItem f k) ps → noMsgs ps = true := fun f k hw => noMsgs_walked (by rintro e ⟨_, _, rfl⟩; rfl) hw
  have four : ∀ f, FourOctets f ps → noMsgs ps = true := by
    rintro f ⟨v, rfl⟩; simp; split <;> rfl
  have agg : AggregatorParts ps → noMsgs ps = true := by
    rintro (⟨_, _, rfl⟩ | ⟨_, _, _, _, rfl⟩) <;> rfl
  unfold AttrValueParts at h
  split at h
  · rcases h with rfl | ⟨_, _, rfl⟩ <;> rfl
  · exact seg _ h
  · exact four _ h
  · exact four _ h
  · exact four _ h
  · exact agg h
  · exact ent _ _ h
  · exact four _ h
  · exact ent _ _ h
  · cases h with
    | short => rfl
    | cutNextHop => rfl
    | noNlri => simp
    | full _ _ _ _ _ _ _ _ hw => simp [noMsgs_nlri hw]
  · cases h with
    | short => rfl
    | full _ _ _ _ hw => simp [noMsgs_nlri hw]
  · exact ent _ _ h
  · exact seg _ h
  · exact agg h
  · exact ent _ _ h
  · exact noMsgs_walked (by rintro e ⟨_, _, _, rfl⟩; rfl) h
  · exact ent _ _ h
  · exact four _ h
  · obtain ⟨v, rfl⟩ := h; rfl

theorem noMsgs_attrList {k : Nat} {ap : Bool} {ps : List Part} (h : AttrListParts k ap ps) : noMsgs ps = true := by
  obtain ⟨items, tail, rfl, hi, ht⟩ := h
  have h1 : noMsgs items = true := noMsgs_items (Item := AttrItem k ap) (by
    rintro e ⟨_, _, _, _, _, hv, rfl⟩
    simp [noMsgs_attrValue hv]) items hi
  have h2 : noMsg tail = true := by cases ht <;> rfl
  simp [h1, h2]

theorem noMsgs_update {k : Nat} {ap : Bool} {ps : List Part} (h : UpdateParts k ap ps) : noMsgs ps = true := by
  cases h with
  | empty => rfl
  | cutLength => rfl
  | cutWithdrawn => rfl
  | full w t _ hw ht =>
    have h1 : noMsgs t = true := by
      cases ht with
      | empty => rfl
      | cutLength => rfl
      | cutAttributes _ _ _ ha => simp [noMsgs_attrList ha]
      | full _ _ _ ha hn => simp [noMsgs_section (noMsgs_attrList ha), noMsgs_section (noMsgs_nlri hn)]
    simp [h1, noMsgs_section (noMsgs_nlri hw)]

theorem noMsgs_open {ps : List Part} (h : OpenParts ps) : noMsgs ps = true := by
  have item : ∀ x, ∀ e, ParamItem x e → noMsg e = true := by
    rintro x e ⟨ty, _, v, _, hv, rfl⟩
    have : noMsgs v = true := by
      split at hv
      · exact noMsgs_walked (by rintro e ⟨_, _, _, _, rfl⟩; rfl) hv
      · obtain ⟨_, rfl⟩ := hv; rfl
    simp [this]
  cases h with
  | short => simp
  | full _ _ _ _ _ _ _ _ _ hp =>
    have h1 := hp
    cases hp with
    | extended n qs _ _ hq =>
      have : noMsgs qs = true := by
        split at hq
        · obtain ⟨_, rfl⟩ := hq; rfl
        · exact noMsgs_walked (item true) hq
      simp [this]
    | cutExtended => simp
    | plain _ _ hw => simp [noMsgs_walked (item false) hw]

theorem noMsgs_body {k : Nat} {ap : Bool} {ty : UInt8} {ps : List Part} (h : BodyParts k ap ty ps) : noMsgs ps = true := by
  cases h with
  | open_ _ h => simp [noMsgs_open h]
  | update _ h => simp [noMsgs_update h]
  | notification _ h => cases h <;> simp
  | keepalive => rfl
  | refresh _ h => cases h <;> simp
  | other => rfl

/-- the tree of a message without extra bytes -/
theorem msg_strict {m : Bytes} {n : Nat} {ty : UInt8} {cut : Bool} {k : Nat} {ap : Bool} {body : List Part}
    (h : BodyParts k ap ty body) (base : Nat) :
    ∀ t ∈ (Part.msg (headerParts m n ty) cut body []).nodes base, StrictTree t := by
  simp only [Part.nodes, List.mem_singleton, forall_eq]
  apply strictTree_node
  intro c hc
  simp only [Node.children, List.mem_append, if_true, List.not_mem_nil, or_false] at hc
  rcases hc with (hc | hc) | hc
  · have := ((parts_good _ _).1 c hc).self
    exact ⟨parts_strict _ _ rfl c hc, ⟨by simp only [Node.offset_mk]; omega, by simp only [Node.offset_mk, Node.length_mk]; omega⟩⟩
  · have : c = .mk "bgp.truncated" (base + ((partsBytes (headerParts m n ty)).length + (partsBytes body).length)) 0 [] := by
      split at hc <;> simp_all
    subst this
    exact ⟨strictTree_node (by intro c hc; cases hc), ⟨by simp only [Node.offset_mk]; omega, by simp only [Node.offset_mk, Node.length_mk]; omega⟩⟩
  · have := ((parts_good _ _).1 c hc).self
    exact ⟨parts_strict _ _ (noMsgs_body h) c hc, ⟨by simp only [Node.offset_mk]; omega, by simp only [Node.offset_mk, Node.length_mk]; omega⟩⟩

end Verif
