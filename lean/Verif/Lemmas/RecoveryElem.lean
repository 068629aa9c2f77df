import Verif.Lemmas.RecoveryMore
/-
The recovering element iterator.
-/
namespace Verif
open Spec

theorem recoveringNext_item (f : Keep σ) (cfg : RecoveryConfig) (pol : Pol) (N : Nat) : ∀ (st st' : Recovering σ) (m : MrtRecord),
    (del st.reader).length ≤ N → recoveringNext f cfg pol st = (some (.ok (.item m)), st') →
    (del st'.reader).length < (del st.reader).length := by
  induction N with
  | zero =>
    intro st st' m hN h
    by_cases hf : st.finished = true
    · rw [recoveringNext_done f cfg pol st hf] at h; cases h
    by_cases ht : st.text = true
    · unfold recoveringNext at h
      rw [if_neg hf, if_pos ht] at h
      cases h
    have hx := recoveringNext_step f cfg pol st (by simpa using hf) (by simpa using ht)
    have hs := recStep_ok cfg pol st
    generalize recStep cfg pol st = x at hs hx
    obtain ⟨x, s1⟩ := x
    rw [h] at hx
    match x, hs with
    | none, _ => cases hx
    | some (.error _), _ => cases hx
    | some (.ok (.gap _)), _ => cases hx
    | some (.ok (.item m)), ⟨b, d', _, _, hn⟩ => have := hn.size; omega
  | succ N ih =>
    intro st st' m hN h
    by_cases hf : st.finished = true
    · rw [recoveringNext_done f cfg pol st hf] at h; cases h
    by_cases ht : st.text = true
    · unfold recoveringNext at h
      rw [if_neg hf, if_pos ht] at h
      cases h
    have hx := recoveringNext_step f cfg pol st (by simpa using hf) (by simpa using ht)
    have hs := recStep_ok cfg pol st
    generalize recStep cfg pol st = x at hs hx
    obtain ⟨x, s1⟩ := x
    rw [h] at hx
    match x, hs with
    | none, _ => cases hx
    | some (.error _), _ => cases hx
    | some (.ok (.gap _)), _ => cases hx
    | some (.ok (.item m)), ⟨b, d', _, _, hn⟩ =>
      have := hn.size
      simp only at hx
      split at hx
      · cases hx
        exact this
      · have := ih { s1 with filter := (f.step s1.filter m).2 } st' _ (by simp only; omega) hx.symm
        simp only at this
        omega

/-- what is still to come. -/
def elemsToCome (mt : BgpElem → Bool) (it : RecoveringElems) (l : List (Except RecoveryError (Event MrtRecord))) :
    List (Except RecoveryError (Event BgpElem)) :=
  it.cache.reverse.map (fun e => .ok (.item e)) ++ expandEvents mt it.elementor l

theorem recoveringElemLoop_step (env : TextEnv) (fs : List (Filter env.Rx)) (cfg : RecoveryConfig) (pol : Pol) (m : Nat) :
    ∀ (fuel : Nat) (it : RecoveringElems), (del it.inner.reader).length < fuel →
    (forLoop (recoveringNext (filterKeep env []) cfg pol) m it.inner).2.1 = true →
    match elemsToCome (fun e => e.matchFilters env fs) it (forLoop (recoveringNext (filterKeep env []) cfg pol) m it.inner).1 with
    | [] => (recoveringElemLoop env fs cfg pol fuel it).1 = none
    | x :: out => ∃ it' m', recoveringElemLoop env fs cfg pol fuel it = (some x, it') ∧
        (forLoop (recoveringNext (filterKeep env []) cfg pol) m' it'.inner).2.1 = true ∧
        out = elemsToCome (fun e => e.matchFilters env fs) it' (forLoop (recoveringNext (filterKeep env []) cfg pol) m' it'.inner).1 := by
  induction m with
  | zero => intro fuel it _ h; cases h
  | succ m ih =>
    intro fuel it hfuel hend
    cases fuel with
    | zero => omega
    | succ fuel =>
    obtain ⟨st, el, cache⟩ := it
    rcases List.eq_nil_or_concat cache with rfl | ⟨cs, e, hcs⟩
    · simp only at hend hfuel ⊢
      simp only [elemsToCome, List.reverse_nil, List.map_nil, List.nil_append]
      rw [recoveringElemLoop]
      simp only [List.getLast?_nil]
      generalize hx : recoveringNext (filterKeep env []) cfg pol st = x
      obtain ⟨x, st'⟩ := x
      match x, hx with
      | none, hx => rw [forLoop_none hx]; rfl
      | some (.error e), hx =>
        rw [forLoop_some hx] at hend ⊢
        simp only [expandEvents] at hend ⊢
        exact ⟨_, m, rfl, hend, rfl⟩
      | some (.ok (.gap g)), hx =>
        rw [forLoop_some hx] at hend ⊢
        simp only [expandEvents] at hend ⊢
        exact ⟨_, m, rfl, hend, rfl⟩
      | some (.ok (.item r)), hx =>
        have hlt := recoveringNext_item _ cfg pol _ st st' r (Nat.le_refl _) hx
        rw [forLoop_some hx] at hend ⊢
        simp only [expandEvents] at hend ⊢
        generalize el.recordToElems r = y
        obtain ⟨es, el'⟩ := y
        simp only
        have := ih fuel ⟨st', el', (es.filter fun e => e.matchFilters env fs).reverse⟩ (by simp only; omega) hend
        simp only [elemsToCome, List.reverse_reverse] at this
        exact this
    · rw [List.concat_eq_append] at hcs
      subst hcs
      simp only at hend ⊢
      rw [recoveringElemLoop]
      simp only [elemsToCome, List.reverse_append, List.reverse_cons, List.reverse_nil, List.nil_append, List.singleton_append, List.map_cons,
        List.cons_append, List.getLast?_append, List.getLast?_singleton, Option.some_or]
      exact ⟨_, m + 1, rfl, hend, by simp [elemsToCome]⟩

theorem recoveringElems_loop (env : TextEnv) (fs : List (Filter env.Rx)) (cfg : RecoveryConfig) (pol : Pol) (n : Nat) :
    ∀ (m : Nat) (it : RecoveringElems), (forLoop (recoveringNext (filterKeep env []) cfg pol) m it.inner).2.1 = true →
    let out := elemsToCome (fun e => e.matchFilters env fs) it (forLoop (recoveringNext (filterKeep env []) cfg pol) m it.inner).1
    (forLoop (recoveringElemNext env fs cfg pol) n it).1 = out.take n ∧
    ((forLoop (recoveringElemNext env fs cfg pol) n it).2.1 = true ↔ out.length < n) := by
  induction n with
  | zero => intro m it _; exact ⟨rfl, by simp [forLoop]⟩
  | succ n ih =>
    intro m it hm
    simp only
    have hs := recoveringElemLoop_step env fs cfg pol m (Reader.size it.inner.reader + 2) it
      (by have := carry_size it.inner.reader; omega) hm
    generalize elemsToCome (fun e => e.matchFilters env fs) it (forLoop (recoveringNext (filterKeep env []) cfg pol) m it.inner).1 = out at hs ⊢
    have he : recoveringElemLoop env fs cfg pol (Reader.size it.inner.reader + 2) it = recoveringElemNext env fs cfg pol it := rfl
    rw [he] at hs
    cases out with
    | nil =>
      have hx : recoveringElemNext env fs cfg pol it = (none, (recoveringElemNext env fs cfg pol it).2) := Prod.ext hs rfl
      rw [forLoop_none hx]
      exact ⟨rfl, by simp⟩
    | cons x out =>
      obtain ⟨it', m', h1, h2, h3⟩ := hs
      rw [forLoop_some h1]
      have := ih m' it' h2
      simp only at this
      rw [← h3] at this
      simp only
      rw [this.1, this.2]
      exact ⟨rfl, by simp⟩

end Verif
