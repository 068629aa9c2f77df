import Verif.Spec.AsPath
/-
Helper lemmas: coalescing, deduplication, route enumeration, equality of AS paths.
-/
set_option linter.unusedSimpArgs false
set_option linter.unusedVariables false
namespace Verif
open Spec

/-! ### the in-place loop is a left fold -/

/-- what the loop computes, without indices. -/
def coFold (m : Seg → Seg → Seg × Seg × Bool) : Seg → List Seg → List Seg
  | cur, [] => [cur]
  | cur, b :: bs =>
    match m cur b with
    | (a', _, true) => coFold m a' bs
    | (a', b', false) => a' :: coFold m b' bs

theorem coalesceLoop_eq (m : Seg → Seg → Seg × Seg × Bool) :
    ∀ (rest kept : List Seg) (cur : Seg) (garbage : List Seg) (fuel : Nat), rest.length ≤ fuel →
      (let r := AsPath.coalesceLoop m fuel (kept ++ cur :: (garbage ++ rest)) kept.length
        (kept.length + 1 + garbage.length)
       r.1.take (r.2 + 1)) = kept ++ coFold m cur rest := by
  intro rest
  induction rest with
  | nil =>
    intro kept cur garbage fuel _
    cases fuel with
    | zero =>
      simp only [AsPath.coalesceLoop, coFold]
      rw [List.take_append]; simp [List.take_of_length_le]
    | succ n =>
      have : ¬ (kept.length + 1 + garbage.length < (kept ++ cur :: (garbage ++ [])).length) := by simp; omega
      simp only [AsPath.coalesceLoop, coFold, if_neg this]
      rw [List.take_append]; simp [List.take_of_length_le]
  | cons b bs ih =>
    intro kept cur garbage fuel hf
    cases fuel with
    | zero => simp at hf
    | succ fuel =>
      have hlt : kept.length + 1 + garbage.length < (kept ++ cur :: (garbage ++ b :: bs)).length := by simp; omega
      have hcur : (kept ++ cur :: (garbage ++ b :: bs)).getD kept.length (.seq []) = cur := by
        simp [List.getD_eq_getElem?_getD]
      have hb : (kept ++ cur :: (garbage ++ b :: bs)).getD (kept.length + 1 + garbage.length) (.seq []) = b := by
        rw [List.getD_eq_getElem?_getD, List.getElem?_append_right (by omega)]
        have : kept.length + 1 + garbage.length - kept.length = garbage.length + 1 := by omega
        simp [this]
      have hset : ∀ a' b', ((kept ++ cur :: (garbage ++ b :: bs)).set kept.length a').set
          (kept.length + 1 + garbage.length) b' = kept ++ a' :: (garbage ++ b' :: bs) := by
        intro a' b'
        rw [List.set_append_right _ _ (by omega)]
        simp only [Nat.sub_self, List.set_cons_zero]
        rw [List.set_append_right _ _ (by omega)]
        have : kept.length + 1 + garbage.length - kept.length = garbage.length + 1 := by omega
        rw [this, List.set_cons_succ, List.set_append_right _ _ (by omega)]
        simp
      simp only [AsPath.coalesceLoop, if_pos hlt, hcur, hb, coFold]
      rcases hm : m cur b with ⟨a', b', flag⟩
      cases flag with
      | true =>
        simp only [hset]
        have := ih kept a' (garbage ++ [b']) fuel (by simp at hf; omega)
        simp only [List.append_assoc, List.singleton_append, List.length_append, List.length_singleton] at this
        rw [← this]
        congr 2
      | false =>
        simp only [hset]
        cases garbage with
        | nil =>
          simp only [List.nil_append, List.length_nil, Nat.add_zero]
          have h1 : (kept ++ a' :: b' :: bs).getD (kept.length + 1) (.seq []) = b' := by
            simp [List.getD_eq_getElem?_getD, List.getElem?_append_right]
          have h2 : ((kept ++ a' :: b' :: bs).set (kept.length + 1) b').set (kept.length + 1) b'
              = (kept ++ [a']) ++ b' :: bs := by
            rw [List.set_append_right _ _ (by omega)]
            have : kept.length + 1 - kept.length = 1 := by omega
            simp only [this, List.set_cons_succ, List.set_cons_zero]
            rw [List.set_append_right _ _ (by omega)]
            simp [this]
          rw [h1, h2]
          have := ih (kept ++ [a']) b' [] fuel (by simp at hf; omega)
          simp only [List.nil_append, List.length_nil, Nat.add_zero, List.length_append, List.length_singleton] at this
          rw [this]
          simp
        | cons g gs =>
          have h1 : (kept ++ a' :: (g :: gs ++ b' :: bs)).getD (kept.length + 1) (.seq []) = g := by
            simp [List.getD_eq_getElem?_getD, List.getElem?_append_right]
          have h3 : (kept ++ a' :: (g :: gs ++ b' :: bs)).getD (kept.length + 1 + (g :: gs).length) (.seq []) = b' := by
            rw [List.getD_eq_getElem?_getD, List.getElem?_append_right (by omega)]
            have : kept.length + 1 + (g :: gs).length - kept.length = (g :: gs).length + 1 := by omega
            rw [this, List.getElem?_cons_succ, List.getElem?_append_right (by omega)]
            simp
          have h2 : ((kept ++ a' :: (g :: gs ++ b' :: bs)).set (kept.length + 1) b').set
              (kept.length + 1 + (g :: gs).length) g = (kept ++ [a']) ++ b' :: (gs ++ [g] ++ bs) := by
            rw [List.set_append_right _ _ (by omega)]
            have e1 : kept.length + 1 - kept.length = 1 := by omega
            simp only [e1, List.set_cons_succ, List.cons_append, List.set_cons_zero]
            rw [List.set_append_right _ _ (by omega)]
            have e2 : kept.length + 1 + (g :: gs).length - kept.length = gs.length + 1 + 1 := by simp; omega
            rw [e2, List.set_cons_succ, List.set_cons_succ, List.set_append_right _ _ (by omega)]
            simp
          rw [h1, h3, h2]
          have := ih (kept ++ [a']) b' (gs ++ [g]) fuel (by simp at hf; omega)
          simp only [List.length_append, List.length_singleton, List.append_assoc] at this
          simp only [List.append_assoc, List.length_cons]
          have e3 : kept.length + 1 + (gs.length + 1) + 1 = kept.length + (0 + 1) + 1 + (gs.length + (0 + 1)) := by omega
          simp only [Nat.zero_add] at e3
          rw [e3, this]
          simp

theorem coalesce_cons (s : Seg) (r : List Seg) : AsPath.coalesce (s :: r) = coFold Seg.merge s r := by
  have := coalesceLoop_eq Seg.merge r [] s [] (r.length + 1) (by omega)
  simpa [AsPath.coalesce] using this

theorem coalesce_nil : AsPath.coalesce [] = [] := rfl

theorem dedupCoalesce_cons (s : Seg) (r : List Seg) :
    AsPath.dedupCoalesce (s :: r) = coFold Seg.dedupMerge s.dedup r := by
  have := coalesceLoop_eq Seg.dedupMerge r [] s.dedup [] (r.length + 1) (by omega)
  simpa [AsPath.dedupCoalesce] using this

theorem dedupCoalesce_nil : AsPath.dedupCoalesce [] = [] := rfl

/-! ### coalesce -/

/-- 0: AS sequence, 1: confederation sequence, 2: a set. -/
def segKind : Seg → Nat
  | .seq _ => 0
  | .confedSeq _ => 1
  | .set _ | .confedSet _ => 2

theorem merge_true {a b a' b' : Seg} (h : Seg.merge a b = (a', b', true)) :
    segAtoms a' = segAtoms a ++ segAtoms b := by
  unfold Seg.merge at h
  split at h
  · cases h; simp [segAtoms]
  · cases h; simp [segAtoms]
  · split at h
    · cases h
      rename_i hm
      cases a with
      | seq xs => simp [Seg.isEmptySeq] at hm; subst hm; simp [segAtoms]
      | confedSeq xs => simp [Seg.isEmptySeq] at hm; subst hm; simp [segAtoms]
      | set xs => simp [Seg.isEmptySeq] at hm
      | confedSet xs => simp [Seg.isEmptySeq] at hm
    · split at h
      · cases h
        rename_i hm
        cases b with
        | seq xs => simp [Seg.isEmptySeq] at hm; subst hm; simp [segAtoms]
        | confedSeq xs => simp [Seg.isEmptySeq] at hm; subst hm; simp [segAtoms]
        | set xs => simp [Seg.isEmptySeq] at hm
        | confedSet xs => simp [Seg.isEmptySeq] at hm
      · cases h

theorem merge_false {a b a' b' : Seg} (h : Seg.merge a b = (a', b', false)) :
    a' = a ∧ b' = b ∧ a.isEmptySeq = false ∧ b.isEmptySeq = false ∧ (segKind a = segKind b → segKind a = 2) := by
  unfold Seg.merge at h
  split at h
  · cases h
  · cases h
  · rename_i h1 h2
    split at h
    · cases h
    · split at h
      · cases h
      · cases h
        rename_i hb ha
        simp only [Bool.not_eq_true] at hb ha
        refine ⟨rfl, rfl, by simpa using hb, by simpa using ha, ?_⟩
        cases a <;> cases b <;> simp [segKind]
        · exact h1 _ _ rfl rfl
        · exact h2 _ _ rfl rfl

theorem merge_true_nonempty {a b a' b' : Seg} (h : Seg.merge a b = (a', b', true)) (ha : a.isEmptySeq = false) :
    a'.isEmptySeq = false ∧ segKind a' = segKind a := by
  unfold Seg.merge at h
  split at h
  · cases h; simp [Seg.isEmptySeq] at ha ⊢; simp [ha, segKind]
  · cases h; simp [Seg.isEmptySeq] at ha ⊢; simp [ha, segKind]
  · rw [if_neg (by simp [ha])] at h
    split at h
    · cases h; exact ⟨ha, rfl⟩
    · cases h

theorem coFold_merge_atoms : ∀ (rest : List Seg) (cur : Seg),
    atoms (coFold Seg.merge cur rest) = segAtoms cur ++ atoms rest := by
  intro rest
  induction rest with
  | nil => intro cur; simp [coFold, atoms]
  | cons b bs ih =>
    intro cur
    simp only [coFold]
    rcases hm : Seg.merge cur b with ⟨a', b', flag⟩
    cases flag with
    | true =>
      simp only
      rw [ih, merge_true hm]
      simp [atoms]
    | false =>
      simp only
      obtain ⟨rfl, rfl, _⟩ := merge_false hm
      have := ih b'
      simp only [atoms, List.flatMap_cons] at this ⊢
      rw [this]

/-- what the minimality proofs need from `merge_in_place` and `dedup_merge_in_place`. -/
structure MergeLike (m : Seg → Seg → Seg × Seg × Bool) : Prop where
  t : ∀ {a b a' b'}, m a b = (a', b', true) → a.isEmptySeq = false → a'.isEmptySeq = false ∧ segKind a' = segKind a
  f : ∀ {a b a' b'}, m a b = (a', b', false) → a' = a ∧ a.isEmptySeq = false ∧ b'.isEmptySeq = false ∧
    (segKind a = segKind b' → segKind a = 2)

theorem mergeLike_merge : MergeLike Seg.merge where
  t := merge_true_nonempty
  f := fun h => by
    obtain ⟨rfl, rfl, h1, h2, h3⟩ := merge_false h
    exact ⟨rfl, h1, h2, h3⟩

/-- the head of a fold that starts from a non-empty segment keeps its kind. -/
theorem coFold_head {m} (hm' : MergeLike m) : ∀ (rest : List Seg) (cur : Seg), cur.isEmptySeq = false →
    ∃ h t, coFold m cur rest = h :: t ∧ segKind h = segKind cur ∧ h.isEmptySeq = false := by
  intro rest
  induction rest with
  | nil => intro cur hc; exact ⟨cur, [], rfl, rfl, hc⟩
  | cons b bs ih =>
    intro cur hc
    simp only [coFold]
    rcases hm : m cur b with ⟨a', b', flag⟩
    cases flag with
    | true =>
      obtain ⟨h1, h2⟩ := hm'.t hm hc
      obtain ⟨h, t, e, k, n⟩ := ih a' h1
      exact ⟨h, t, e, by rw [k, h2], n⟩
    | false =>
      obtain ⟨rfl, _⟩ := hm'.f hm
      exact ⟨_, _, rfl, rfl, hc⟩

/-- index-free form of `Minimal`. -/
theorem minimal_cons_iff (s : Seg) (rest : List Seg) :
    Minimal (s :: rest) ↔ s.isEmptySeq = false ∧
      (∀ t ∈ rest.head?, segKind s = segKind t → segKind s = 2) ∧ Minimal rest := by
  cases rest with
  | nil =>
    cases s <;> simp [Minimal, Seg.isEmptySeq]
  | cons t r =>
    simp only [Minimal, List.head?_cons, Option.mem_def, Option.some.injEq, forall_eq']
    constructor
    · rintro ⟨h1, h2, h3, h4, h5⟩
      refine ⟨?_, ?_, h5⟩
      · cases s <;> simp [Seg.isEmptySeq] at h1 h2 ⊢ <;> assumption
      · cases s <;> cases t <;> simp [segKind] at h3 h4 ⊢
    · rintro ⟨h1, h2, h3⟩
      refine ⟨?_, ?_, ?_, ?_, h3⟩
      · rintro rfl; simp [Seg.isEmptySeq] at h1
      · rintro rfl; simp [Seg.isEmptySeq] at h1
      · rintro x y ⟨rfl, rfl⟩; simp [segKind] at h2
      · rintro x y ⟨rfl, rfl⟩; simp [segKind] at h2

theorem coFold_minimal {m} (hm' : MergeLike m) : ∀ (rest : List Seg) (cur : Seg), cur.isEmptySeq = false →
    Minimal (coFold m cur rest) := by
  intro rest
  induction rest with
  | nil => intro cur hc; simp only [coFold]; rw [minimal_cons_iff]; simp [hc, Minimal]
  | cons b bs ih =>
    intro cur hc
    simp only [coFold]
    rcases hm : m cur b with ⟨a', b', flag⟩
    cases flag with
    | true =>
      exact ih a' (hm'.t hm hc).1
    | false =>
      obtain ⟨rfl, _, hb, hk⟩ := hm'.f hm
      simp only
      rw [minimal_cons_iff]
      obtain ⟨h, t, e, k, n⟩ := coFold_head hm' bs b' hb
      refine ⟨hc, ?_, ih b' hb⟩
      rw [e]
      simp only [List.head?_cons, Option.mem_def, Option.some.injEq, forall_eq']
      rw [k]; exact hk

theorem coFold_minimal_or {m} (hm' : MergeLike m) : ∀ (rest : List Seg) (cur : Seg),
    Minimal (coFold m cur rest) ∨ ∃ e, coFold m cur rest = [e] ∧ e.isEmptySeq = true := by
  intro rest
  induction rest with
  | nil =>
    intro cur
    cases h : cur.isEmptySeq with
    | true => exact .inr ⟨cur, rfl, h⟩
    | false => exact .inl (coFold_minimal hm' [] cur h)
  | cons b bs ih =>
    intro cur
    cases hc : cur.isEmptySeq with
    | false => exact .inl (coFold_minimal hm' _ cur hc)
    | true =>
      simp only [coFold]
      rcases hm : m cur b with ⟨a', b', flag⟩
      cases flag with
      | true => exact ih a'
      | false =>
        have := (hm'.f hm).2.1
        rw [hc] at this; cases this

theorem coFold_of_minimal : ∀ (rest : List Seg) (cur : Seg), Minimal (cur :: rest) →
    coFold Seg.merge cur rest = cur :: rest := by
  intro rest
  induction rest with
  | nil => intro cur _; rfl
  | cons b bs ih =>
    intro cur h
    rw [minimal_cons_iff] at h
    obtain ⟨hc, hk, hr⟩ := h
    have hr' := hr
    rw [minimal_cons_iff] at hr'
    have hk := hk b (by simp)
    have hm : Seg.merge cur b = (cur, b, false) := by
      unfold Seg.merge
      split
      · simp [segKind] at hk
      · simp [segKind] at hk
      · rw [if_neg (by simp [hc]), if_neg (by simp [hr'.1])]
    simp only [coFold, hm, ih b hr]

/-! uniqueness of the minimal form -/

def atomKind : Atom → Nat
  | .asn _ => 0
  | .confed _ => 1
  | .set _ | .confedSet _ => 2

theorem segAtoms_ne_nil {s : Seg} (h : s.isEmptySeq = false) : segAtoms s ≠ [] := by
  cases s <;> simp [Seg.isEmptySeq, segAtoms] at h ⊢ <;> exact h

theorem segAtoms_kind {s : Seg} {a : Atom} (h : a ∈ segAtoms s) : atomKind a = segKind s := by
  cases s <;> simp [segAtoms] at h
  · obtain ⟨x, _, rfl⟩ := h; rfl
  · subst h; rfl
  · obtain ⟨x, _, rfl⟩ := h; rfl
  · subst h; rfl

theorem atoms_minimal_head {s : Seg} {r : List Seg} (h : Minimal (s :: r)) :
    ∃ a t, atoms (s :: r) = a :: t ∧ atomKind a = segKind s := by
  rw [minimal_cons_iff] at h
  have hne := segAtoms_ne_nil h.1
  obtain ⟨a, t, e⟩ : ∃ a t, segAtoms s = a :: t := by
    cases hs : segAtoms s with
    | nil => exact absurd hs hne
    | cons a t => exact ⟨a, t, rfl⟩
  refine ⟨a, t ++ atoms r, by simp [atoms, e], segAtoms_kind (by rw [e]; simp)⟩

theorem append_eq_append_of_kind {k : Nat} : ∀ {x x' y y' : List Atom},
    (∀ a ∈ x, atomKind a = k) → (∀ a ∈ x', atomKind a = k) →
    (∀ a ∈ y.head?, atomKind a ≠ k) → (∀ a ∈ y'.head?, atomKind a ≠ k) → x ++ y = x' ++ y' → x = x' ∧ y = y' := by
  intro x
  induction x with
  | nil =>
    intro x' y y' _ hx' hy _ h
    cases x' with
    | nil => exact ⟨rfl, h⟩
    | cons a t =>
      simp at h; subst h
      exact absurd (hx' a (by simp)) (hy a (by simp))
  | cons a t ih =>
    intro x' y y' hx hx' hy hy' h
    cases x' with
    | nil =>
      simp at h; subst h
      exact absurd (hx a (by simp)) (hy' a (by simp))
    | cons a' t' =>
      simp at h
      obtain ⟨rfl, h⟩ := h
      obtain ⟨rfl, rfl⟩ := ih (fun z hz => hx z (by simp [hz])) (fun z hz => hx' z (by simp [hz])) hy hy' h
      exact ⟨rfl, rfl⟩

theorem map_inj_of {α β : Type} {f : α → β} (hf : ∀ a b, f a = f b → a = b) : ∀ {x y : List α}, x.map f = y.map f → x = y := by
  intro x
  induction x with
  | nil => intro y h; cases y <;> simp at h ⊢
  | cons a t ih =>
    intro y h
    cases y with
    | nil => simp at h
    | cons b u =>
      simp at h
      rw [hf _ _ h.1, ih h.2]

theorem minimal_unique : ∀ {p q : List Seg}, Minimal p → Minimal q → atoms p = atoms q → p = q := by
  intro p
  induction p with
  | nil =>
    intro q _ hq h
    cases q with
    | nil => rfl
    | cons t r =>
      obtain ⟨a, t', e, _⟩ := atoms_minimal_head hq
      rw [e] at h; simp [atoms] at h
  | cons s ps ih =>
    intro q hp hq h
    cases q with
    | nil =>
      obtain ⟨a, t', e, _⟩ := atoms_minimal_head hp
      rw [e] at h; simp [atoms] at h
    | cons t qs =>
      obtain ⟨a, l, e, k⟩ := atoms_minimal_head hp
      obtain ⟨a', l', e', k'⟩ := atoms_minimal_head hq
      have hkind : segKind s = segKind t := by
        rw [e, e'] at h; simp at h; rw [← k, ← k', h.1]
      have hp' := (minimal_cons_iff s ps).mp hp
      have hq' := (minimal_cons_iff t qs).mp hq
      have hhead : ∀ (u : Seg) (us : List Seg), Minimal (u :: us) → segKind u ≠ 2 →
          ∀ a ∈ (atoms us).head?, atomKind a ≠ segKind u := by
        intro u us hm hu a ha
        have hm' := (minimal_cons_iff u us).mp hm
        cases us with
        | nil => simp [atoms] at ha
        | cons v vs =>
          obtain ⟨b, t, e, k⟩ := atoms_minimal_head hm'.2.2
          rw [e] at ha; simp at ha; subst ha
          rw [k]
          intro hc
          exact hu (hm'.2.1 v (by simp) hc.symm)
      have h' : segAtoms s ++ atoms ps = segAtoms t ++ atoms qs := by simpa [atoms] using h
      by_cases h2 : segKind s = 2
      · have h2' : segKind t = 2 := by rw [← hkind]; exact h2
        cases s <;> simp [segKind] at h2 <;> cases t <;> simp [segKind] at h2' <;> simp [segAtoms] at h'
        · obtain ⟨rfl, h'⟩ := h'
          rw [ih hp'.2.2 hq'.2.2 h']
        · obtain ⟨rfl, h'⟩ := h'
          rw [ih hp'.2.2 hq'.2.2 h']
      · have hs := append_eq_append_of_kind (k := segKind s) (fun a ha => segAtoms_kind ha)
          (fun a ha => by rw [hkind]; exact segAtoms_kind ha) (hhead s ps hp h2)
          (by rw [hkind]; exact hhead t qs hq (by rw [← hkind]; exact h2)) h'
        rw [ih hp'.2.2 hq'.2.2 hs.2]
        congr 1
        have h1 := hs.1
        cases s <;> simp [segKind] at h2 <;> cases t <;> simp [segKind] at hkind <;> simp only [segAtoms] at h1
        · rw [map_inj_of (fun a b h => by injection h) h1]
        · rw [map_inj_of (fun a b h => by injection h) h1]

theorem routeLen_eq_pathLen (p : AsPath) : p.routeLen = pathLen (atoms p) := by
  induction p with
  | nil => rfl
  | cons s r ih =>
    have : AsPath.routeLen (s :: r) = s.routeLen + AsPath.routeLen r := by simp [AsPath.routeLen]
    rw [this, ih]
    simp only [atoms, List.flatMap_cons, pathLen, List.map_append, List.sum_append]
    congr 1
    clear this
    cases s with
    | seq xs =>
      induction xs with
      | nil => simp [Seg.routeLen, segAtoms, Atom.routeLen]
      | cons a t ih' => simp [Seg.routeLen, segAtoms, Atom.routeLen] at ih' ⊢; omega
    | set xs => simp [Seg.routeLen, segAtoms, Atom.routeLen]
    | confedSeq xs =>
      induction xs with
      | nil => simp [Seg.routeLen, segAtoms, Atom.routeLen]
      | cons a t ih' => simp [Seg.routeLen, segAtoms, Atom.routeLen] at ih' ⊢; omega
    | confedSet xs => simp [Seg.routeLen, segAtoms, Atom.routeLen]

theorem coalesce_atoms (p : AsPath) : atoms p.coalesce = atoms p := by
  cases p with
  | nil => rfl
  | cons s r => rw [coalesce_cons, coFold_merge_atoms]; rfl

/-! ### AS4_PATH merge -/

theorem pathLen_append (x y : List Atom) : pathLen (x ++ y) = pathLen x + pathLen y := by simp [pathLen]

theorem pathLen_segAtoms (s : Seg) : pathLen (segAtoms s) = s.routeLen := by
  have := routeLen_eq_pathLen [s]
  simp [AsPath.routeLen, atoms] at this
  exact this.symm

/-- leading hops: a prefix of the AS_PATH hops with the wanted length, not ending in confederation hops. -/
theorem takeLeading_spec : ∀ (p : List Seg) (n : Nat), n ≤ pathLen (atoms p) →
    ∃ l, AsPath.takeLeading p n = some l ∧ atoms l <+: atoms p ∧ pathLen (atoms l) = n ∧
      (n = 0 → l = []) ∧ (∀ a ∈ (atoms l).getLast?, a.routeLen = 1) := by
  intro p
  induction p with
  | nil =>
    intro n hn
    simp [atoms, pathLen] at hn
    subst hn
    exact ⟨[], rfl, by simp, rfl, fun _ => rfl, by simp [atoms]⟩
  | cons s r ih =>
    intro n hn
    have hsplit : atoms (s :: r) = segAtoms s ++ atoms r := rfl
    rw [hsplit, pathLen_append, pathLen_segAtoms] at hn
    simp only [AsPath.takeLeading]
    by_cases h0 : n = 0
    · rw [if_pos h0]
      subst h0
      exact ⟨[], rfl, by simp [atoms], rfl, fun _ => rfl, by simp [atoms]⟩
    rw [if_neg h0]
    by_cases hz : s.routeLen = 0
    · rw [if_pos hz]
      obtain ⟨l, e, hp, hl, h00, hlast⟩ := ih n (by omega)
      refine ⟨s :: l, by rw [e]; rfl, ?_, ?_, fun h => absurd h h0, ?_⟩
      · rw [hsplit]
        show segAtoms s ++ atoms l <+: _
        exact (List.prefix_append_right_inj _).mpr hp
      · show pathLen (segAtoms s ++ atoms l) = n
        rw [pathLen_append, pathLen_segAtoms, hl]; omega
      · intro a ha
        apply hlast a
        have hne : atoms l ≠ [] := by
          intro h; rw [h] at hl; simp [pathLen] at hl; omega
        have : atoms (s :: l) = segAtoms s ++ atoms l := rfl
        rw [this, List.getLast?_append] at ha
        cases hg : (atoms l).getLast? with
        | none => simp at hg; exact absurd hg hne
        | some x => rw [hg] at ha; simpa using ha
    rw [if_neg hz]
    by_cases hle : s.routeLen ≤ n
    · rw [if_pos hle]
      obtain ⟨l, e, hp, hl, h00, hlast⟩ := ih (n - s.routeLen) (by omega)
      refine ⟨s :: l, by rw [e]; rfl, ?_, ?_, fun h => absurd h h0, ?_⟩
      · rw [hsplit]
        show segAtoms s ++ atoms l <+: _
        exact (List.prefix_append_right_inj _).mpr hp
      · show pathLen (segAtoms s ++ atoms l) = n
        rw [pathLen_append, pathLen_segAtoms, hl]; omega
      · intro a ha
        have : atoms (s :: l) = segAtoms s ++ atoms l := rfl
        rw [this, List.getLast?_append] at ha
        cases hg : (atoms l).getLast? with
        | some x => rw [hg] at ha; apply hlast a; rw [hg]; simpa using ha
        | none =>
          rw [hg] at ha
          have ha : a ∈ (segAtoms s).getLast? := by simpa using ha
          have ham := List.mem_of_getLast? ha
          cases s with
          | seq xs => simp [segAtoms] at ham; obtain ⟨x, _, rfl⟩ := ham; rfl
          | set xs => simp [segAtoms] at ham; subst ham; rfl
          | confedSeq xs => simp [Seg.routeLen] at hz
          | confedSet xs => simp [Seg.routeLen] at hz
    rw [if_neg hle]
    cases s with
    | set xs => simp [Seg.routeLen] at hle; omega
    | confedSeq xs => simp [Seg.routeLen] at hle
    | confedSet xs => simp [Seg.routeLen] at hle
    | seq v =>
      have hr : AsPath.takeLeading r 0 = some [] := by cases r <;> simp [AsPath.takeLeading]
      simp only [Seg.routeLen] at hle
      refine ⟨[.seq (v.take n)], by simp [hr], ?_, ?_, fun h => absurd h h0, ?_⟩
      · rw [hsplit]
        simp only [atoms, segAtoms, List.flatMap_cons, List.flatMap_nil, List.append_nil]
        refine List.IsPrefix.trans ?_ (List.prefix_append _ _)
        rw [List.map_take]
        exact List.take_prefix _ _
      · have := pathLen_segAtoms (.seq (v.take n))
        simp only [atoms, List.flatMap_cons, List.flatMap_nil, List.append_nil]
        rw [this]; simp [Seg.routeLen]; omega
      · intro a ha
        have := List.mem_of_getLast? ha
        simp only [atoms, segAtoms, List.flatMap_cons, List.flatMap_nil, List.append_nil, List.mem_map] at this
        obtain ⟨x, _, rfl⟩ := this; rfl

end Verif
