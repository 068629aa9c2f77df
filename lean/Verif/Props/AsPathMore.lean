import Verif.Props.AsPath
/-
C07: exactly when the enumeration of the routes of a path does not overflow.
-/
namespace Verif.Props
open Spec

theorem numVar_iff : ∀ (p : List Seg) (acc : UInt64),
    (∃ v, p.foldlM (m := Except Err) (init := acc) (fun acc s =>
      match s with
      | .set xs => if acc.toNat * xs.length < 2 ^ 64 then .ok (UInt64.ofNat (acc.toNat * xs.length)) else .error .panic
      | _ => .ok acc) = .ok v) ↔ ∀ q, q <+: p → acc.toNat * variations q < 2 ^ 64 := by
  intro p
  induction p with
  | nil =>
    intro acc
    refine ⟨fun _ q hq => ?_, fun _ => ⟨acc, rfl⟩⟩
    rw [List.prefix_nil.mp hq]
    have := acc.toNat_lt
    simp only [variations]; omega
  | cons s r ih =>
    intro acc
    rw [List.foldlM_cons]
    have pre : ∀ (P : Nat → Prop), (∀ q, q <+: s :: r → P (variations q)) ↔ P 1 ∧ ∀ q, q <+: r → P (variations (s :: q)) := by
      intro P
      constructor
      · exact fun h => ⟨h [] (List.nil_prefix), fun q hq => h _ (List.cons_prefix_cons.mpr ⟨rfl, hq⟩)⟩
      · rintro ⟨h1, h2⟩ q hq
        cases q with
        | nil => exact h1
        | cons t q =>
          obtain ⟨rfl, hq'⟩ := List.cons_prefix_cons.mp hq
          exact h2 q hq'
    have hacc : acc.toNat * 1 < 2 ^ 64 := by have := acc.toNat_lt; omega
    rw [pre (fun n => acc.toNat * n < 2 ^ 64), and_iff_right hacc]
    cases s with
    | seq xs => exact ih acc
    | confedSeq xs => exact ih acc
    | confedSet xs => exact ih acc
    | set xs =>
      simp only [variations]
      by_cases hlt : acc.toNat * xs.length < 2 ^ 64
      · rw [if_pos hlt]
        have := ih (UInt64.ofNat (acc.toNat * xs.length))
        rw [UInt64.toNat_ofNat_of_lt' hlt] at this
        simp only [Nat.mul_assoc] at this
        exact this
      · rw [if_neg hlt]
        refine ⟨fun ⟨v, h⟩ => (by cases h), fun h => absurd ?_ hlt⟩
        have := h [] List.nil_prefix
        simpa only [variations, Nat.mul_one] using this

/-- C07. The routes of a path can be enumerated exactly if the number of variations of no initial part of it needs more
than 64 bits; otherwise the enumeration panics. Only an empty set makes this differ from the number for the whole path. -/
theorem c07_total_iff (p : AsPath) :
    (AsPath.iterRoutes p = .ok (routes p) ↔ ∀ q, q <+: p → variations q < 2 ^ 64) ∧
    (AsPath.iterRoutes p = .ok (routes p) ∨ AsPath.iterRoutes p = .error .panic) ∧
    ((∀ s ∈ p, s ≠ .set []) → ((∀ q, q <+: p → variations q < 2 ^ 64) ↔ variations p < 2 ^ 64)) := by
  have h := numVar_iff p 1
  simp only [UInt64.reduceToNat, Nat.one_mul] at h
  have hpan : ∀ (p : List Seg) (acc : UInt64) (e : Err), p.foldlM (m := Except Err) (init := acc) (fun acc s =>
      match s with
      | .set xs => if acc.toNat * xs.length < 2 ^ 64 then .ok (UInt64.ofNat (acc.toNat * xs.length)) else .error .panic
      | _ => .ok acc) = .error e → e = .panic := by
    intro p
    induction p with
    | nil => intro acc e h; cases h
    | cons s r ih =>
      intro acc e h
      rw [List.foldlM_cons] at h
      cases s with
      | set xs =>
        by_cases hlt : acc.toNat * xs.length < 2 ^ 64
        · simp only [if_pos hlt] at h; exact ih _ _ h
        · simp only [if_neg hlt] at h; cases h; rfl
      | _ => exact ih _ _ h
  have hok : AsPath.iterRoutes p = .ok (routes p) ↔ ∃ v, AsPath.numRouteVariations p = .ok v := by
    constructor
    · intro h
      unfold AsPath.iterRoutes at h
      cases hn : AsPath.numRouteVariations p with
      | error e => rw [hn] at h; cases h
      | ok v => exact ⟨v, rfl⟩
    · rintro ⟨v, hv⟩
      have : ∃ rs, AsPath.iterRoutes p = .ok rs := by
        unfold AsPath.iterRoutes; rw [hv]; exact ⟨_, rfl⟩
      obtain ⟨rs, h⟩ := this
      rw [h, iterRoutes_ok h]
  refine ⟨hok.trans h, ?_, fun hs => ⟨fun h => h p List.prefix_rfl, fun hv => ?_⟩⟩
  · cases hn : AsPath.numRouteVariations p with
    | ok v => exact .inl (hok.mpr ⟨v, hn⟩)
    | error e =>
      right
      unfold AsPath.iterRoutes
      rw [hn, hpan p 1 e hn]
      rfl
  · exact h.mp (numVar_total p 1 hs (by simpa using hv))

/-- an empty set behind too many choices: there is no route at all, and the enumeration panics. -/
theorem c07_empty_set_late :
    variations (List.replicate 64 (.set [1, 2]) ++ [.set []]) = 0 ∧
    AsPath.iterRoutes (List.replicate 64 (.set [1, 2]) ++ [.set []]) = .error .panic := by
  constructor <;> decide +kernel

example : ∀ q, q <+: ([.set [1, 2], .seq [7], .set []] : List Seg) → variations q < 2 ^ 64 := by
  intro q hq
  rw [List.prefix_iff_eq_take] at hq
  rw [hq]
  have hk : q.length ≤ 3 := by have := congrArg List.length hq; simp at this; omega
  revert hk
  generalize q.length = k
  exact fun hk => (by decide : ∀ k ≤ 3, variations (([.set [1, 2], .seq [7], .set []] : List Seg).take k) < 2 ^ 64) k hk

end Verif.Props
