import Verif.Lemmas.AttrVal
/-
Link-state attribute and NLRI: round trip of the attribute, panic freedom.
-/
namespace Verif
open Spec

theorem rdLsTlv_safe : Safe 4 rdLsTlv :=
  Safe.weaken (n := 2 + (2 + (0 + 0))) (.bind .rdU16 fun _ => .bind .rdU16 fun _ =>
    .bind (.weaken (.rdN _) (Nat.zero_le _)) fun _ => .pure _) (by omega)

theorem parseLsAttr_noPanic (s : Bytes) : parseLsAttr s ≠ .error .panic := by
  unfold parseLsAttr
  split
  · simp
  · rename_i e he
    intro h
    have : e = .panic := by injection h
    subst this
    exact rdLsTlv_safe.whileGe (by decide) (by decide) s he

theorem mapInsert_fresh {k : UInt16} {v : Bytes} : ∀ {m : List (UInt16 × Bytes)}, k ∉ m.map Prod.fst →
    mapInsert k v m = m ++ [(k, v)]
  | [], _ => rfl
  | (k', v') :: m, h => by
    have h1 : k' ≠ k := fun e => h (by simp [e])
    have h2 : k ∉ m.map Prod.fst := fun e => h (by simp at e ⊢; exact Or.inr e)
    simp only [mapInsert, if_neg h1, mapInsert_fresh h2, List.cons_append]

/-- code ranges of the classification, for every 16-bit code. -/
theorem lsAdd_node (a : LsAttr) (t : Tlv16) (h : LsNodeCode t.type) :
    a.add t = { a with node := mapInsert t.type t.value a.node } := by
  obtain ⟨c, v⟩ := t
  simp only [LsNodeCode, List.mem_cons, List.not_mem_nil, or_false] at h
  rcases h with rfl | rfl | rfl | rfl | rfl | rfl | rfl | rfl | rfl | rfl <;> rfl

theorem lsAdd_link (a : LsAttr) (t : Tlv16) (h : LsLinkCode t.type) :
    a.add t = { a with link := mapInsert t.type t.value a.link } := by
  obtain ⟨c, v⟩ := t
  simp only [LsLinkCode, List.mem_cons, List.not_mem_nil, or_false] at h
  rcases h with rfl | rfl | rfl | rfl | rfl | rfl | rfl | rfl | rfl | rfl | rfl | rfl | rfl | rfl | rfl | rfl | rfl |
    rfl | rfl | rfl | rfl | rfl | rfl | rfl | rfl <;> rfl

theorem lsAdd_pfx (a : LsAttr) (t : Tlv16) (h : LsPrefixCode t.type) :
    a.add t = { a with pfx := mapInsert t.type t.value a.pfx } := by
  obtain ⟨c, v⟩ := t
  simp only [LsPrefixCode, List.mem_cons, List.not_mem_nil, or_false] at h
  rcases h with rfl | rfl | rfl | rfl | rfl | rfl | rfl | rfl | rfl | rfl | rfl | rfl | rfl | rfl <;> rfl

theorem lsAdd_unknown (a : LsAttr) (t : Tlv16) (h1 : ¬ LsNodeCode t.type) (h2 : ¬ LsLinkCode t.type)
    (h3 : ¬ LsPrefixCode t.type) : a.add t = { a with unknown := a.unknown ++ [t] } := by
  obtain ⟨c, v⟩ := t
  unfold LsAttr.add
  have e1 : c ∉ nodeAttrCodes := h1
  have e3 : c ∉ prefixAttrCodes := h3
  simp only [e1, e3, if_false]
  split
  · rfl
  · split
    · rename_i hr
      have e2 : c ∉ linkAttrCodes := by
        intro hc
        simp only [linkAttrCodes, List.mem_cons, List.not_mem_nil, or_false] at hc
        simp only [LsLinkCode, List.mem_cons, List.not_mem_nil, or_false] at h2
        rcases hc with rfl | rfl | rfl | rfl | hc
        · revert hr; decide
        · revert hr; decide
        · revert hr; decide
        · revert hr; decide
        · exact h2 hc
      simp only [e2, if_false]
    · split <;> rfl

theorem lsFold_node : ∀ (ps : List (UInt16 × Bytes)) (a : LsAttr), (∀ p ∈ ps, LsNodeCode p.1) →
    (a.node.map Prod.fst ++ ps.map Prod.fst).Nodup →
    (ps.map (fun p => (⟨p.1, p.2⟩ : Tlv16))).foldl LsAttr.add a = { a with node := a.node ++ ps }
  | [], a, _, _ => by simp
  | p :: ps, a, h, hn => by
    simp only [List.map_cons, List.foldl_cons]
    rw [lsAdd_node a ⟨p.1, p.2⟩ (h p (by simp)), mapInsert_fresh (by
      simp only [List.map_cons, List.nodup_append] at hn
      intro hm; exact hn.2.2 _ hm _ (by simp) rfl)]
    rw [lsFold_node ps _ (fun q hq => h q (by simp [hq])) (by simpa using hn)]
    simp

theorem lsFold_link : ∀ (ps : List (UInt16 × Bytes)) (a : LsAttr), (∀ p ∈ ps, LsLinkCode p.1) →
    (a.link.map Prod.fst ++ ps.map Prod.fst).Nodup →
    (ps.map (fun p => (⟨p.1, p.2⟩ : Tlv16))).foldl LsAttr.add a = { a with link := a.link ++ ps }
  | [], a, _, _ => by simp
  | p :: ps, a, h, hn => by
    simp only [List.map_cons, List.foldl_cons]
    rw [lsAdd_link a ⟨p.1, p.2⟩ (h p (by simp)), mapInsert_fresh (by
      simp only [List.map_cons, List.nodup_append] at hn
      intro hm; exact hn.2.2 _ hm _ (by simp) rfl)]
    rw [lsFold_link ps _ (fun q hq => h q (by simp [hq])) (by simpa using hn)]
    simp

theorem lsFold_pfx : ∀ (ps : List (UInt16 × Bytes)) (a : LsAttr), (∀ p ∈ ps, LsPrefixCode p.1) →
    (a.pfx.map Prod.fst ++ ps.map Prod.fst).Nodup →
    (ps.map (fun p => (⟨p.1, p.2⟩ : Tlv16))).foldl LsAttr.add a = { a with pfx := a.pfx ++ ps }
  | [], a, _, _ => by simp
  | p :: ps, a, h, hn => by
    simp only [List.map_cons, List.foldl_cons]
    rw [lsAdd_pfx a ⟨p.1, p.2⟩ (h p (by simp)), mapInsert_fresh (by
      simp only [List.map_cons, List.nodup_append] at hn
      intro hm; exact hn.2.2 _ hm _ (by simp) rfl)]
    rw [lsFold_pfx ps _ (fun q hq => h q (by simp [hq])) (by simpa using hn)]
    simp

theorem lsFold_unknown : ∀ (ts : List Tlv16) (a : LsAttr),
    (∀ t ∈ ts, ¬ LsNodeCode t.type ∧ ¬ LsLinkCode t.type ∧ ¬ LsPrefixCode t.type) →
    ts.foldl LsAttr.add a = { a with unknown := a.unknown ++ ts }
  | [], a, _ => by simp
  | t :: ts, a, h => by
    obtain ⟨h1, h2, h3⟩ := h t (by simp)
    simp only [List.foldl_cons]
    rw [lsAdd_unknown a t h1 h2 h3, lsFold_unknown ts _ (fun q hq => h q (by simp [hq]))]
    simp

theorem parseLsAttr_enc {a : LsAttr} {b : Bytes} (ha : LsAttrOk a) (h : encodeLsAttr a = .ok b) : parseLsAttr b = .ok a := by
  obtain ⟨hn, hl, hp, hu⟩ := ha
  unfold encodeLsAttr at h
  unfold parseLsAttr
  rw [whileGe_encAll (by decide) h fun _ _ _ hb => rdLsTlv_enc hb]
  simp only [List.map_append, List.foldl_append]
  rw [lsFold_node _ _ hn.2 (by simpa using hn.1), lsFold_link _ _ hl.2 (by simpa using hl.1),
    lsFold_pfx _ _ hp.2 (by simpa using hp.1), lsFold_unknown _ _ hu]
  simp

/-! NLRI -/

theorem rdDescBlock_safe : Safe 0 rdDescBlock := by
  unfold rdDescBlock
  refine .bind .remaining fun rem => .ite (fun _ => .pure _) fun _ => ?_
  exact .weaken (n := 2 + (0 + 0)) (.bind .rdU16 fun _ => .bind (.weaken (.rdN _) (Nat.zero_le _)) fun _ => .pure _) (Nat.zero_le _)

theorem rdNodeDesc_safe : Safe 0 rdNodeDesc := .bind rdDescBlock_safe fun _ => .pure _
theorem rdLinkDesc_safe : Safe 0 rdLinkDesc := .bind rdDescBlock_safe fun _ => .pure _
theorem rdPrefixDesc_safe : Safe 0 rdPrefixDesc := .bind rdDescBlock_safe fun _ => .pure _

theorem rdLsNlri_safe (t : UInt16) : Safe 0 (rdLsNlri t) := by
  unfold rdLsNlri
  refine .bind .remaining fun rem => .ite (fun _ => .fail (by simp) 0) fun _ => ?_
  refine .weaken (n := 1 + (8 + (0 + 0))) (.bind .rdU8 fun _ => .bind .rdU64 fun _ => .bind rdNodeDesc_safe fun _ => ?_)
    (Nat.zero_le _)
  refine .ite (fun _ => ?_) fun _ => .ite (fun _ => ?_) fun _ => .pure _
  · exact .bind rdNodeDesc_safe fun _ => .bind rdLinkDesc_safe fun _ => .pure _
  · exact .bind rdPrefixDesc_safe fun _ => .pure _

theorem rdLsEntry_safe : Safe 4 rdLsEntry :=
  Safe.weaken (n := 2 + (2 + (0 + 0))) (.bind .rdU16 fun t => .bind .rdU16 fun _ =>
    .bind (.weaken (.rdN _) (Nat.zero_le _)) fun d => .lift ((rdLsNlri_safe t).noPanic.runOn d)) (by omega)

theorem parseLsNlri_noPanic (s : Bytes) : parseLsNlri s ≠ .error .panic := rdLsEntry_safe.whileGe (by decide) (by decide) s

end Verif
