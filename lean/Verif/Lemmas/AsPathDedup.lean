import Verif.Lemmas.AsPathOps
/-
Helper lemmas: deduplication, equality and hashing of AS paths.
-/
set_option linter.unusedSimpArgs false
set_option linter.unusedVariables false
namespace Verif
open Spec

/-! ### collapse -/

theorem collapse_cons_ne {a : Atom} {l : List Atom} (h : ∀ b ∈ l.head?, ¬ (a = b ∧ a.isHop = true)) :
    collapse (a :: l) = a :: collapse l := by
  cases l with
  | nil => rfl
  | cons b r => simp only [collapse]; rw [if_neg (h b (by simp))]

theorem collapse_cons_eq {a : Atom} {l : List Atom} (h : a.isHop = true) : collapse (a :: a :: l) = collapse (a :: l) := by
  simp [collapse, h]

theorem collapse_head? (l : List Atom) : (collapse l).head? = l.head? := by
  fun_induction collapse l with
  | case1 => rfl
  | case2 a => rfl
  | case3 a b r h ih => rw [ih]; simp [h.1]
  | case4 a b r h ih => rfl

theorem collapse_idem (l : List Atom) : collapse (collapse l) = collapse l := by
  fun_induction collapse l with
  | case1 => rfl
  | case2 a => rfl
  | case3 a b r h ih => exact ih
  | case4 a b r h ih =>
    rw [collapse_cons_ne, ih]
    rw [collapse_head?]
    intro c hc; simp at hc; subst hc; exact h

theorem collapse_append_right (x y : List Atom) : collapse (x ++ collapse y) = collapse (x ++ y) := by
  induction x with
  | nil => exact collapse_idem y
  | cons a x ih =>
    simp only [List.cons_append]
    by_cases hc : ∃ b ∈ (x ++ y).head?, a = b ∧ a.isHop = true
    · obtain ⟨b, hb, rfl, hh⟩ := hc
      have key : ∀ l : List Atom, l.head? = some a → collapse (a :: l) = collapse l := by
        intro l hl
        cases l with
        | nil => simp at hl
        | cons c r => simp at hl; subst hl; exact collapse_cons_eq hh
      have h1 : (x ++ y).head? = some a := hb
      have h2 : (x ++ collapse y).head? = some a := by
        rw [← collapse_head?, ih, collapse_head?]; exact h1
      rw [key _ h1, key _ h2, ih]
    · have h1 : ∀ b ∈ (x ++ y).head?, ¬ (a = b ∧ a.isHop = true) := fun b hb h => hc ⟨b, hb, h⟩
      rw [collapse_cons_ne h1, collapse_cons_ne, ih]
      rw [← collapse_head?, ih, collapse_head?]; exact h1

theorem collapse_append_left (x y : List Atom) : collapse (collapse x ++ y) = collapse (x ++ y) := by
  fun_induction collapse x with
  | case1 => rfl
  | case2 a => rfl
  | case3 a b r h ih =>
    rw [ih]
    obtain ⟨rfl, hh⟩ := h
    simp only [List.cons_append]
    rw [collapse_cons_eq hh]
  | case4 a b r h ih =>
    simp only [List.cons_append]
    rw [collapse_cons_ne (l := collapse (b :: r) ++ y), ih, collapse_cons_ne (l := b :: (r ++ y))]
    · rfl
    · intro c hc; simp at hc; subst hc; exact h
    · intro c hc
      rw [List.head?_append, collapse_head?] at hc
      simp at hc; subst hc; exact h

theorem collapse_append_of_ne : ∀ (x y : List Atom),
    (∀ a ∈ x.getLast?, ∀ b ∈ y.head?, ¬ (a = b ∧ a.isHop = true)) →
    collapse (x ++ y) = collapse x ++ collapse y := by
  intro x
  induction x with
  | nil => intro y _; rfl
  | cons a x ih =>
    intro y h
    cases x with
    | nil =>
      simp only [List.cons_append, List.nil_append]
      rw [collapse_cons_ne (fun b hb => h a (by simp) b hb)]
      rfl
    | cons b r =>
      have ih := ih y (by
        intro c hc d hd
        apply h c _ d hd
        simpa using hc)
      simp only [List.cons_append] at ih ⊢
      simp only [collapse]
      split
      · exact ih
      · rw [ih]; rfl

theorem collapse_ne_nil {l : List Atom} (h : l ≠ []) : collapse l ≠ [] := by
  intro hc
  have := collapse_head? l
  rw [hc] at this
  cases l with
  | nil => exact h rfl
  | cons a r => simp at this

theorem map_dedupAdj {f : Asn → Atom} (hf : ∀ a b, f a = f b → a = b) (hh : ∀ a, (f a).isHop = true) (xs : List Asn) :
    (Seg.dedupAdj xs).map f = collapse (xs.map f) := by
  fun_induction Seg.dedupAdj xs with
  | case1 => rfl
  | case2 a => rfl
  | case3 a r ih =>
    rw [ih]; simp [collapse, hh]
  | case4 a b r h ih =>
    simp only [List.map_cons] at ih ⊢
    rw [ih]
    simp only [collapse]
    rw [if_neg]
    rintro ⟨h1, _⟩
    exact h (hf _ _ h1)

/-! ### sorting -/

theorem insAsn_perm (a : Asn) (l : List Asn) : (Seg.insAsn a l).Perm (a :: l) := by
  induction l with
  | nil => exact .refl _
  | cons b r ih =>
    simp only [Seg.insAsn]
    split
    · exact .refl _
    · exact (ih.cons b).trans (.swap a b r)

theorem insAsn_pairwise (a : Asn) (l : List Asn) (h : l.Pairwise (· ≤ ·)) : (Seg.insAsn a l).Pairwise (· ≤ ·) := by
  induction l with
  | nil => simp [Seg.insAsn]
  | cons b r ih =>
    obtain ⟨h1, h2⟩ := List.pairwise_cons.mp h
    simp only [Seg.insAsn]
    split
    · rename_i hab
      refine List.pairwise_cons.mpr ⟨?_, h⟩
      intro c hc
      rcases List.mem_cons.mp hc with rfl | hc
      · exact hab
      · exact UInt32.le_trans hab (h1 c hc)
    · rename_i hab
      refine List.pairwise_cons.mpr ⟨?_, ih h2⟩
      intro c hc
      rcases List.mem_cons.mp ((insAsn_perm a r).mem_iff.mp hc) with rfl | hc
      · exact (UInt32.le_total c b).resolve_left hab
      · exact h1 c hc

theorem sortAsns_pairwise (xs : List Asn) : (Seg.sortAsns xs).Pairwise (· ≤ ·) := by
  induction xs with
  | nil => exact .nil
  | cons a r ih => exact insAsn_pairwise a _ ih

theorem sortAsns_perm (xs : List Asn) : (Seg.sortAsns xs).Perm xs := by
  induction xs with
  | nil => exact .refl _
  | cons a r ih => exact (insAsn_perm a _).trans (ih.cons a)

theorem eq_of_perm_of_sorted {x y : List Asn} (h : x.Perm y) (hx : x.Pairwise (· ≤ ·)) (hy : y.Pairwise (· ≤ ·)) :
    x = y :=
  List.Perm.eq_of_pairwise (fun a b _ _ h1 h2 => UInt32.le_antisymm h1 h2) hx hy h

theorem sortAsns_eq_iff (x y : List Asn) : Seg.sortAsns x = Seg.sortAsns y ↔ x.Perm y := by
  constructor
  · intro h
    exact (sortAsns_perm x).symm.trans (h ▸ sortAsns_perm y)
  · intro h
    exact eq_of_perm_of_sorted ((sortAsns_perm x).trans (h.trans (sortAsns_perm y).symm)) (sortAsns_pairwise x)
      (sortAsns_pairwise y)

theorem mem_dedupAdj (xs : List Asn) (a : Asn) : a ∈ Seg.dedupAdj xs ↔ a ∈ xs := by
  fun_induction Seg.dedupAdj xs with
  | case1 => rfl
  | case2 b => rfl
  | case3 b r ih => rw [ih]; simp
  | case4 b c r h ih => simp only [List.mem_cons] at ih ⊢; rw [ih]

theorem dedupAdj_pairwise_lt (xs : List Asn) (h : xs.Pairwise (· ≤ ·)) : (Seg.dedupAdj xs).Pairwise (· < ·) := by
  fun_induction Seg.dedupAdj xs with
  | case1 => exact .nil
  | case2 b => simp
  | case3 b r ih => exact ih (List.pairwise_cons.mp h).2
  | case4 b c r hne ih =>
    obtain ⟨h1, h2⟩ := List.pairwise_cons.mp h
    refine List.pairwise_cons.mpr ⟨?_, ih h2⟩
    intro a ha
    rw [mem_dedupAdj] at ha
    have hbc : b < c := by
      have := h1 c (by simp)
      rw [UInt32.lt_iff_toNat_lt, ]
      rw [UInt32.le_iff_toNat_le] at this
      have : b.toNat ≠ c.toNat := fun h => hne (UInt32.toNat_inj.mp h)
      omega
    have hca : c ≤ a := by
      rcases List.mem_cons.mp ha with rfl | ha
      · exact UInt32.le_refl _
      · exact (List.pairwise_cons.mp h2).1 a ha
    rw [UInt32.lt_iff_toNat_lt] at *
    rw [UInt32.le_iff_toNat_le] at hca
    omega

theorem mem_insertU (a b : Asn) (l : List Asn) : b ∈ insertU a l ↔ b = a ∨ b ∈ l := by
  induction l with
  | nil => simp [insertU]
  | cons c r ih =>
    simp only [insertU]
    split
    · simp
    split
    · rename_i h; subst h; simp
    · simp only [List.mem_cons, ih]
      constructor
      · rintro (h | h | h) <;> simp [h]
      · rintro (h | h | h) <;> simp [h]

theorem insertU_pairwise (a : Asn) (l : List Asn) (h : l.Pairwise (· < ·)) : (insertU a l).Pairwise (· < ·) := by
  induction l with
  | nil => simp [insertU]
  | cons c r ih =>
    obtain ⟨h1, h2⟩ := List.pairwise_cons.mp h
    simp only [insertU]
    split
    · rename_i hac
      refine List.pairwise_cons.mpr ⟨?_, h⟩
      intro b hb
      rcases List.mem_cons.mp hb with rfl | hb
      · exact hac
      · exact UInt32.lt_trans hac (h1 b hb)
    split
    · exact h
    · rename_i hac hne
      refine List.pairwise_cons.mpr ⟨?_, ih h2⟩
      intro b hb
      rcases (mem_insertU a b r).mp hb with rfl | hb
      · rw [UInt32.lt_iff_toNat_lt] at *
        have : b.toNat ≠ c.toNat := fun h => hne (UInt32.toNat_inj.mp h)
        omega
      · exact h1 b hb

theorem usort_pairwise (xs : List Asn) : (usort xs).Pairwise (· < ·) := by
  induction xs with
  | nil => exact .nil
  | cons a r ih => exact insertU_pairwise a _ ih

theorem mem_usort (xs : List Asn) (a : Asn) : a ∈ usort xs ↔ a ∈ xs := by
  induction xs with
  | nil => rfl
  | cons b r ih => show a ∈ insertU b (usort r) ↔ _; rw [mem_insertU, ih]; simp

theorem eq_of_strict_sorted {x y : List Asn} (hx : x.Pairwise (· < ·)) (hy : y.Pairwise (· < ·))
    (h : ∀ a, a ∈ x ↔ a ∈ y) : x = y := by
  have nd : ∀ {l : List Asn}, l.Pairwise (· < ·) → l.Nodup := by
    intro l hl
    exact hl.imp (fun {a b} h => by rintro rfl; exact UInt32.lt_irrefl _ h)
  have hp : x.Perm y := by
    apply (List.perm_ext_iff_of_nodup (nd hx) (nd hy)).mpr h
  exact eq_of_perm_of_sorted hp (hx.imp (fun h => UInt32.le_of_lt h)) (hy.imp (fun h => UInt32.le_of_lt h))

theorem dedup_sort_eq_usort (xs : List Asn) : Seg.dedupAdj (Seg.sortAsns xs) = usort xs := by
  apply eq_of_strict_sorted (dedupAdj_pairwise_lt _ (sortAsns_pairwise xs)) (usort_pairwise xs)
  intro a
  rw [mem_dedupAdj, mem_usort, (sortAsns_perm xs).mem_iff]

theorem usort_of_strict {xs : List Asn} (h : xs.Pairwise (· < ·)) : usort xs = xs :=
  eq_of_strict_sorted (usort_pairwise xs) h (mem_usort xs)

/-! ### dedup of one segment -/

theorem dedup_atoms (s : Seg) : segAtoms s.dedup = collapse (normAtoms s) := by
  cases s with
  | seq xs => exact map_dedupAdj (fun a b h => by injection h) (fun _ => rfl) xs
  | confedSeq xs => exact map_dedupAdj (fun a b h => by injection h) (fun _ => rfl) xs
  | set xs =>
    simp only [Seg.dedup, dedup_sort_eq_usort, normAtoms]
    split
    · rename_i h
      obtain ⟨a, ha⟩ := List.length_eq_one_iff.mp h
      simp [ha, segAtoms, collapse]
    · rename_i h
      split
      · rename_i a ha; simp [ha] at h
      · simp [segAtoms, collapse]
  | confedSet xs =>
    simp only [Seg.dedup, dedup_sort_eq_usort, normAtoms]
    split
    · rename_i h
      obtain ⟨a, ha⟩ := List.length_eq_one_iff.mp h
      simp [ha, segAtoms, collapse]
    · rename_i h
      split
      · rename_i a ha; simp [ha] at h
      · simp [segAtoms, collapse]

theorem dedupAdj_idem (xs : List Asn) : Seg.dedupAdj (Seg.dedupAdj xs) = Seg.dedupAdj xs := by
  have h1 := map_dedupAdj (f := Atom.asn) (fun a b h => by injection h) (fun _ => rfl) (Seg.dedupAdj xs)
  have h2 := map_dedupAdj (f := Atom.asn) (fun a b h => by injection h) (fun _ => rfl) xs
  rw [h2, collapse_idem, ← h2] at h1
  exact map_inj_of (f := Atom.asn) (fun a b h => by injection h) h1

theorem dedup_idem (s : Seg) : s.dedup.dedup = s.dedup := by
  cases s with
  | seq xs => simp [Seg.dedup, dedupAdj_idem]
  | confedSeq xs => simp [Seg.dedup, dedupAdj_idem]
  | set xs =>
    by_cases h : (usort xs).length = 1
    · have e : (Seg.set xs).dedup = .seq (usort xs) := by
        simp only [Seg.dedup, dedup_sort_eq_usort]; rw [if_pos h]
      obtain ⟨a, ha⟩ := List.length_eq_one_iff.mp h
      rw [e, ha]; simp [Seg.dedup, Seg.dedupAdj]
    · have e : ∀ ys : List Asn, (usort ys).length ≠ 1 → (Seg.set ys).dedup = .set (usort ys) := by
        intro ys hy
        simp only [Seg.dedup, dedup_sort_eq_usort]; rw [if_neg hy]
      rw [e xs h, e _ (by rw [usort_of_strict (usort_pairwise xs)]; exact h), usort_of_strict (usort_pairwise xs)]
  | confedSet xs =>
    by_cases h : (usort xs).length = 1
    · have e : (Seg.confedSet xs).dedup = .confedSeq (usort xs) := by
        simp only [Seg.dedup, dedup_sort_eq_usort]; rw [if_pos h]
      obtain ⟨a, ha⟩ := List.length_eq_one_iff.mp h
      rw [e, ha]; simp [Seg.dedup, Seg.dedupAdj]
    · have e : ∀ ys : List Asn, (usort ys).length ≠ 1 → (Seg.confedSet ys).dedup = .confedSet (usort ys) := by
        intro ys hy
        simp only [Seg.dedup, dedup_sort_eq_usort]; rw [if_neg hy]
      rw [e xs h, e _ (by rw [usort_of_strict (usort_pairwise xs)]; exact h), usort_of_strict (usort_pairwise xs)]

theorem emptySeq_atoms {s : Seg} (h : s.isEmptySeq = true) : segAtoms s = [] := by
  cases s <;> simp [Seg.isEmptySeq, segAtoms] at h ⊢ <;> exact h

theorem dedupAdj_ne_nil {xs : List Asn} (h : xs ≠ []) : Seg.dedupAdj xs ≠ [] := by
  intro hc
  cases xs with
  | nil => exact h rfl
  | cons a r =>
    have := (mem_dedupAdj (a :: r) a).mpr (by simp)
    rw [hc] at this; simp at this

theorem dedupMerge_true {a b a' b' : Seg} (h : Seg.dedupMerge a b = (a', b', true)) (ha : a.dedup = a) :
    segAtoms a' = collapse (segAtoms a ++ segAtoms b.dedup) ∧ a'.dedup = a' := by
  have hca : collapse (segAtoms a) = segAtoms a := by
    have h1 := dedup_atoms a
    rw [ha] at h1
    rw [h1, collapse_idem]
  have hcb : collapse (segAtoms b.dedup) = segAtoms b.dedup := by rw [dedup_atoms, collapse_idem]
  unfold Seg.dedupMerge at h
  split at h
  · rename_i x y hb
    cases h
    rw [hb]
    refine ⟨?_, by simp [Seg.dedup, dedupAdj_idem]⟩
    simp only [segAtoms]
    rw [map_dedupAdj (fun a b h => by injection h) (fun _ => rfl), List.map_append]
  · rename_i x y hb
    cases h
    rw [hb]
    refine ⟨?_, by simp [Seg.dedup, dedupAdj_idem]⟩
    simp only [segAtoms]
    rw [map_dedupAdj (fun a b h => by injection h) (fun _ => rfl), List.map_append]
  · rename_i bb hb _ _
    split at h
    · rename_i he
      cases h
      rw [emptySeq_atoms he, List.nil_append, hcb]
      exact ⟨rfl, dedup_idem b⟩
    · split at h
      · rename_i he
        cases h
        rw [emptySeq_atoms he, List.append_nil, hca]
        exact ⟨rfl, ha⟩
      · cases h

theorem dedupMerge_false {a b a' b' : Seg} (h : Seg.dedupMerge a b = (a', b', false)) :
    a' = a ∧ b' = b.dedup ∧ a.isEmptySeq = false ∧ b.dedup.isEmptySeq = false ∧
      (segKind a = segKind b.dedup → segKind a = 2) := by
  unfold Seg.dedupMerge at h
  generalize hbb : b.dedup = bb at h ⊢
  split at h
  · cases h
  · cases h
  · rename_i h1 h2
    split at h
    · cases h
    · split at h
      · cases h
      · cases h
        rename_i hb ha
        refine ⟨rfl, rfl, by simpa using hb, by simpa using ha, ?_⟩
        clear hbb
        cases a <;> cases b' <;> simp [segKind]
        · exact h1 _ _ rfl rfl
        · exact h2 _ _ rfl rfl

theorem mergeLike_dedup : MergeLike Seg.dedupMerge where
  t := by
    intro a b a' b' h ha
    unfold Seg.dedupMerge at h
    split at h
    · rename_i x y hb
      cases h
      simp only [Seg.isEmptySeq, List.isEmpty_eq_false_iff, segKind, and_true] at ha ⊢
      exact dedupAdj_ne_nil (by simp [ha])
    · rename_i x y hb
      cases h
      simp only [Seg.isEmptySeq, List.isEmpty_eq_false_iff, segKind, and_true] at ha ⊢
      exact dedupAdj_ne_nil (by simp [ha])
    · rw [if_neg (by simp [ha])] at h
      split at h
      · cases h; exact ⟨ha, rfl⟩
      · cases h
  f := by
    intro a b a' b' h
    obtain ⟨h1, rfl, h2, h3, h4⟩ := dedupMerge_false h
    exact ⟨h1, h2, h3, h4⟩

theorem coFold_dedup : ∀ (rest : List Seg) (cur : Seg), cur.dedup = cur →
    atoms (coFold Seg.dedupMerge cur rest) = collapse (segAtoms cur ++ rest.flatMap normAtoms) ∧
    ∀ s ∈ coFold Seg.dedupMerge cur rest, s.dedup = s := by
  intro rest
  induction rest with
  | nil =>
    intro cur hc
    have h1 := dedup_atoms cur
    rw [hc] at h1
    simp only [coFold, atoms, List.flatMap_cons, List.flatMap_nil, List.append_nil, List.mem_singleton]
    refine ⟨?_, by rintro s rfl; exact hc⟩
    rw [h1, collapse_idem]
  | cons b bs ih =>
    intro cur hc
    simp only [coFold, List.flatMap_cons]
    rcases hm : Seg.dedupMerge cur b with ⟨a', b', flag⟩
    cases flag with
    | true =>
      obtain ⟨h1, h2⟩ := dedupMerge_true hm hc
      obtain ⟨h3, h4⟩ := ih a' h2
      refine ⟨?_, h4⟩
      simp only
      rw [h3, h1, collapse_append_left, dedup_atoms, List.append_assoc]
      rw [← collapse_append_right, collapse_append_left, collapse_append_right]
    | false =>
      obtain ⟨rfl, rfl, he1, he2, hk⟩ := dedupMerge_false hm
      obtain ⟨h3, h4⟩ := ih b.dedup (dedup_idem b)
      simp only
      refine ⟨?_, ?_⟩
      · have hcur : segAtoms a' = collapse (segAtoms a') := by
          have h1 := dedup_atoms a'
          rw [hc] at h1
          rw [h1, collapse_idem]
        have e : atoms (a' :: coFold Seg.dedupMerge b.dedup bs)
            = segAtoms a' ++ atoms (coFold Seg.dedupMerge b.dedup bs) := rfl
        rw [e, h3, ← collapse_append_right (segAtoms a'), ← collapse_append_left (normAtoms b), ← dedup_atoms]
        rw [collapse_append_right, collapse_append_of_ne (segAtoms a'), ← hcur]
        intro x hx y hy
        rintro ⟨rfl, hh⟩
        have hx := segAtoms_kind (List.mem_of_getLast? hx)
        have hne := segAtoms_ne_nil he2
        have hy' : x ∈ (segAtoms b.dedup).head? := by
          rw [List.head?_append] at hy
          cases hz : (segAtoms b.dedup).head? with
          | none => simp at hz; exact absurd hz hne
          | some z => rw [hz] at hy; simpa using hy
        have hy2 := segAtoms_kind (List.mem_of_mem_head? hy')
        have := hk (by rw [← hx, ← hy2])
        rw [← hx] at this
        cases x <;> simp [atomKind, Atom.isHop] at this hh
      · intro s hs
        rcases List.mem_cons.mp hs with rfl | hs
        · exact hc
        · exact h4 s hs

theorem coFold_dedup_fix : ∀ (rest : List Seg) (cur : Seg), Minimal (cur :: rest) → (∀ s ∈ cur :: rest, s.dedup = s) →
    coFold Seg.dedupMerge cur rest = cur :: rest := by
  intro rest
  induction rest with
  | nil => intro cur _ _; rfl
  | cons b bs ih =>
    intro cur h hd
    have h' := (minimal_cons_iff _ _).mp h
    obtain ⟨hc, hk, hr⟩ := h'
    have hr' := (minimal_cons_iff _ _).mp hr
    have hk := hk b (by simp)
    have hb := hd b (by simp)
    have hm : Seg.dedupMerge cur b = (cur, b, false) := by
      unfold Seg.dedupMerge
      rw [hb]
      split
      · simp [segKind] at hk
      · simp [segKind] at hk
      · rw [if_neg (by simp [hc]), if_neg (by simp [hr'.1])]
    simp only [coFold, hm]
    rw [ih b hr (fun s hs => hd s (by simp at hs ⊢; right; exact hs))]

/-! ### equality -/

theorem zip_all_eq {x y : List Asn} (hl : x.length = y.length) :
    ((x.zip y).all fun (a, b) => decide (a = b)) = true ↔ x = y := by
  induction x generalizing y with
  | nil => cases y <;> simp at hl ⊢
  | cons a x ih =>
    cases y with
    | nil => simp at hl
    | cons b y =>
      simp at hl
      have := ih hl
      simp only [List.zip_cons_cons, List.all_cons, Bool.and_eq_true, decide_eq_true_eq, this, List.cons.injEq]

theorem setEq_iff (x y : List Asn) :
    (if x.length ≠ y.length then false
     else if x = y then true
     else if x.length ≤ 32 then decide (Seg.sortAsns x = Seg.sortAsns y)
     else ((Seg.sortAsns x).zip (Seg.sortAsns y)).all fun (a, b) => decide (a = b)) = true ↔ x.Perm y := by
  have hls : ∀ z, (Seg.sortAsns z).length = z.length := fun z => (sortAsns_perm z).length_eq
  by_cases hl : x.length = y.length
  · rw [if_neg (by simp [hl])]
    by_cases he : x = y
    · simp [he]
    · rw [if_neg he]
      split
      · simp only [decide_eq_true_eq]; exact sortAsns_eq_iff x y
      · rw [zip_all_eq (by rw [hls, hls, hl])]; exact sortAsns_eq_iff x y
  · rw [if_pos hl]
    simp only [Bool.false_eq_true, false_iff]
    intro h; exact hl h.length_eq

theorem segEq_iff (a b : Seg) : a.eq b = true ↔
    match a, b with
    | .seq x, .seq y => x = y
    | .confedSeq x, .confedSeq y => x = y
    | .set x, .set y => x.Perm y
    | .confedSet x, .confedSet y => x.Perm y
    | _, _ => False := by
  cases a <;> cases b <;> simp only [Seg.eq, decide_eq_true_eq, Bool.false_eq_true]
  · exact setEq_iff _ _
  · exact setEq_iff _ _

theorem segEq_refl (a : Seg) : a.eq a = true := by
  rw [segEq_iff]; cases a <;> simp

theorem segEq_symm {a b : Seg} (h : a.eq b = true) : b.eq a = true := by
  rw [segEq_iff] at *
  cases a <;> cases b <;> simp_all
  · exact h.symm
  · exact h.symm

theorem segEq_trans {a b c : Seg} (h1 : a.eq b = true) (h2 : b.eq c = true) : a.eq c = true := by
  rw [segEq_iff] at *
  cases a <;> cases b <;> cases c <;> simp_all
  · exact h1.trans h2
  · exact h1.trans h2

theorem segEq_hash {a b : Seg} (h : a.eq b = true) : a.hashFeed = b.hashFeed := by
  rw [segEq_iff] at h
  cases a <;> cases b <;> simp_all [Seg.hashFeed, Seg.disc]
  · rw [(sortAsns_eq_iff _ _).mpr h]
  · rw [(sortAsns_eq_iff _ _).mpr h]

theorem segEq_fix {a b : Seg} (ha : a.dedup = a) (hb : b.dedup = b) (h : a.eq b = true) : a = b := by
  have key : ∀ {x : List Asn}, (Seg.set x).dedup = .set x → x.Pairwise (· < ·) := by
    intro x h
    simp only [Seg.dedup, dedup_sort_eq_usort] at h
    split at h
    · cases h
    · injection h with h; rw [← h]; exact usort_pairwise x
  have key' : ∀ {x : List Asn}, (Seg.confedSet x).dedup = .confedSet x → x.Pairwise (· < ·) := by
    intro x h
    simp only [Seg.dedup, dedup_sort_eq_usort] at h
    split at h
    · cases h
    · injection h with h; rw [← h]; exact usort_pairwise x
  rw [segEq_iff] at h
  cases a <;> cases b <;> simp only at h
  · rw [h]
  · rw [eq_of_strict_sorted (key ha) (key hb) (fun a => h.mem_iff)]
  · rw [h]
  · rw [eq_of_strict_sorted (key' ha) (key' hb) (fun a => h.mem_iff)]

theorem dedupCoalesce_fix_all (p : AsPath) : ∀ s ∈ p.dedupCoalesce, s.dedup = s := by
  cases p with
  | nil => simp [dedupCoalesce_nil]
  | cons s r => rw [dedupCoalesce_cons]; exact (coFold_dedup r s.dedup (dedup_idem s)).2

end Verif
