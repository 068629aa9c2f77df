import Verif.Lemmas.AsPathDedup
/-
Helper lemmas: route enumeration.
-/
set_option linter.unusedSimpArgs false
set_option linter.unusedVariables false
namespace Verif
open Spec

/-- the route with a given number, recursively over the segments. -/
def pick : List Seg → Nat → List Asn
  | [], _ => []
  | .seq xs :: rest, n => xs ++ pick rest n
  | .set xs :: rest, n => xs.getD (n % xs.length) 0 :: pick rest (n / xs.length)
  | .confedSeq _ :: rest, n => pick rest n
  | .confedSet _ :: rest, n => pick rest n

/-- what is left of a route when the iterator stands at `index` of the first segment. -/
def pickAt : List Seg → Nat → Nat → List Asn
  | .seq xs :: rest, i, n => xs.drop i ++ pick rest n
  | p, _, n => pick p n

theorem pickAt_zero (p : List Seg) (n : Nat) : pickAt p 0 n = pick p n := by
  cases p with
  | nil => rfl
  | cons s r => cases s <;> simp [pickAt, pick]

def IdxOk : List Seg → Nat → Prop
  | .seq _ :: _, _ => True
  | _, i => i = 0

/-- every set of the path has a member. -/
def SetsOk (p : List Seg) : Prop := ∀ s ∈ p, s ≠ .set []

theorem numNext_spec : ∀ (p : List Seg) (i n : Nat), SetsOk p → IdxOk p i →
    match AsPath.numNext p i n with
    | none => pickAt p i n = []
    | some (a, it) => pickAt p i n = a :: pickAt it.path it.index it.routeNum ∧ SetsOk it.path ∧ IdxOk it.path it.index := by
  intro p
  induction p with
  | nil => intro i n _ _; rfl
  | cons s r ih =>
    intro i n hs hi
    have hr : SetsOk r := fun t ht => hs t (by simp [ht])
    have h0 : IdxOk r 0 := by cases r with
      | nil => rfl
      | cons t u => cases t <;> simp [IdxOk]
    cases s with
    | seq xs =>
      simp only [AsPath.numNext]
      cases hx : xs[i]? with
      | none =>
        have hd : xs.drop i = [] := by
          rw [List.drop_eq_nil_iff]; exact List.getElem?_eq_none_iff.mp hx
        have := ih 0 n hr h0
        simp only [pickAt, hd, List.nil_append]
        rw [← pickAt_zero]
        exact this
      | some a =>
        simp only
        refine ⟨?_, hs, trivial⟩
        simp only [pickAt]
        obtain ⟨hlt, rfl⟩ := List.getElem?_eq_some_iff.mp hx
        rw [List.drop_eq_getElem_cons hlt]; rfl
    | set xs =>
      simp only [IdxOk] at hi
      subst hi
      cases xs with
      | nil => exact absurd rfl (hs (.set []) (by simp))
      | cons x ys =>
        simp only [AsPath.numNext]
        refine ⟨?_, hr, h0⟩
        show pick _ n = _ :: pickAt r 0 (n / (x :: ys).length)
        rw [pickAt_zero]
        simp only [pick]
        congr 1
        rw [List.getD_eq_getElem?_getD, List.getElem?_eq_getElem (Nat.mod_lt _ (by simp))]
        rfl
    | confedSeq xs =>
      simp only [IdxOk] at hi
      subst hi
      have := ih 0 n hr h0
      simp only [AsPath.numNext, pickAt, pick]
      rw [← pickAt_zero]; exact this
    | confedSet xs =>
      simp only [IdxOk] at hi
      subst hi
      have := ih 0 n hr h0
      simp only [AsPath.numNext, pickAt, pick]
      rw [← pickAt_zero]; exact this

theorem numCollect_spec : ∀ (fuel : Nat) (it : AsPath.NumIter), SetsOk it.path → IdxOk it.path it.index →
    (pickAt it.path it.index it.routeNum).length ≤ fuel →
    AsPath.numCollect fuel it = pickAt it.path it.index it.routeNum := by
  intro fuel
  induction fuel with
  | zero => intro it _ _ h; simp at h; rw [h]; rfl
  | succ f ih =>
    intro it hs hi h
    have := numNext_spec it.path it.index it.routeNum hs hi
    simp only [AsPath.numCollect]
    cases hn : AsPath.numNext it.path it.index it.routeNum with
    | none => rw [hn] at this; exact this.symm
    | some x =>
      obtain ⟨a, it'⟩ := x
      rw [hn] at this
      simp only at this ⊢
      obtain ⟨h1, h2, h3⟩ := this
      rw [h1] at h ⊢
      rw [ih it' h2 h3 (by simpa using h)]

theorem pick_length (p : List Seg) : ∀ n, (pick p n).length ≤ (p.map fun s => s.asns.length + 1).sum := by
  induction p with
  | nil => intro n; simp [pick]
  | cons s r ih =>
    intro n
    rw [List.map_cons, List.sum_cons]
    cases s <;> rename_i xs <;> simp only [pick, List.length_append, List.length_cons] <;>
      have e1 : (Seg.seq xs).asns = xs := rfl <;> have e2 : (Seg.set xs).asns = xs := rfl <;>
      (try simp only [e1, e2])
    · have := ih n; omega
    · have := ih (n / xs.length); omega
    · have := ih n; omega
    · have := ih n; omega

theorem routeAt_eq (p : AsPath) (n : Nat) (h : SetsOk p) : AsPath.routeAt p n = pick p n := by
  unfold AsPath.routeAt
  split
  · simp [pick]
  · rw [numCollect_spec _ ⟨p, 0, n⟩ h]
    · exact pickAt_zero p n
    · show IdxOk p 0
      cases p with
      | nil => rfl
      | cons t u => cases t <;> simp [IdxOk]
    · show (pickAt p 0 n).length ≤ _
      rw [pickAt_zero]
      have := pick_length p n
      unfold AsPath.numFuel; omega

theorem range_mul (L V : Nat) : List.range (L * V) = (List.range V).flatMap fun q => (List.range L).map (L * q + ·) := by
  induction V with
  | zero => simp
  | succ V ih =>
    rw [Nat.mul_succ, List.range_add, ih, List.range_succ, List.flatMap_append]
    simp

theorem map_getD_range (xs : List Asn) : (List.range xs.length).map (fun i => xs.getD i 0) = xs := by
  apply List.ext_getElem
  · simp
  · intro i h1 h2
    simp at h1
    simp [h1]

theorem flatMap_congr' {α β : Type} {l : List α} {f g : α → List β} (h : ∀ a ∈ l, f a = g a) :
    l.flatMap f = l.flatMap g := by
  induction l with
  | nil => rfl
  | cons a t ih => rw [List.flatMap_cons, List.flatMap_cons, h a (by simp), ih (fun b hb => h b (by simp [hb]))]

theorem routes_eq_pick (p : List Seg) : routes p = (List.range (variations p)).map (pick p) := by
  induction p with
  | nil => rfl
  | cons s r ih =>
    cases s with
    | seq xs => simp [routes, variations, ih, pick, Function.comp_def]
    | confedSeq xs =>
      simp only [routes, variations, ih]; rfl
    | confedSet xs =>
      simp only [routes, variations, ih]; rfl
    | set xs =>
      simp only [routes, variations]
      rw [range_mul, List.map_flatMap, ih, List.flatMap_map]
      apply flatMap_congr'
      intro q _
      rw [List.map_map]
      conv => lhs; rw [← map_getD_range xs, List.map_map]
      apply List.map_congr_left
      intro i hi
      have hi := List.mem_range.mp hi
      simp only [Function.comp_apply, pick]
      have hpos : 0 < xs.length := by omega
      rw [Nat.mul_add_mod, Nat.mod_eq_of_lt hi, Nat.mul_add_div hpos, Nat.div_eq_of_lt hi, Nat.add_zero]

theorem numVar_ok : ∀ (p : List Seg) (acc v : UInt64),
    p.foldlM (m := Except Err) (init := acc) (fun acc s =>
      match s with
      | .set xs => if acc.toNat * xs.length < 2 ^ 64 then .ok (UInt64.ofNat (acc.toNat * xs.length)) else .error .panic
      | _ => .ok acc) = .ok v → v.toNat = acc.toNat * variations p := by
  intro p
  induction p with
  | nil => intro acc v h; cases h; simp [variations]
  | cons s r ih =>
    intro acc v h
    rw [List.foldlM_cons] at h
    cases s with
    | seq xs => exact ih acc v h
    | confedSeq xs => exact ih acc v h
    | confedSet xs => exact ih acc v h
    | set xs =>
      simp only at h
      split at h
      · rename_i hlt
        have := ih _ v h
        rw [this, UInt64.toNat_ofNat_of_lt' hlt]
        simp [variations, Nat.mul_assoc]
      · cases h

theorem variations_pos {p : List Seg} (h : SetsOk p) : 0 < variations p := by
  induction p with
  | nil => simp [variations]
  | cons s r ih =>
    have ih := ih (fun t ht => h t (by simp [ht]))
    cases s with
    | set xs =>
      have : xs ≠ [] := fun he => h (.set xs) (by simp) (by rw [he])
      simp only [variations]
      exact Nat.mul_pos (List.length_pos_iff.mpr this) ih
    | _ => exact ih

theorem numVar_total : ∀ (p : List Seg) (acc : UInt64), SetsOk p → acc.toNat * variations p < 2 ^ 64 →
    ∃ v, p.foldlM (m := Except Err) (init := acc) (fun acc s =>
      match s with
      | .set xs => if acc.toNat * xs.length < 2 ^ 64 then .ok (UInt64.ofNat (acc.toNat * xs.length)) else .error .panic
      | _ => .ok acc) = .ok v := by
  intro p
  induction p with
  | nil => intro acc _ _; exact ⟨acc, rfl⟩
  | cons s r ih =>
    intro acc hs h
    have hr : SetsOk r := fun t ht => hs t (by simp [ht])
    rw [List.foldlM_cons]
    cases s with
    | seq xs => exact ih acc hr h
    | confedSeq xs => exact ih acc hr h
    | confedSet xs => exact ih acc hr h
    | set xs =>
      simp only [variations] at h
      have hv := variations_pos hr
      rw [← Nat.mul_assoc] at h
      have hlt : acc.toNat * xs.length < 2 ^ 64 := Nat.lt_of_le_of_lt (Nat.le_mul_of_pos_right _ hv) h
      simp only
      rw [if_pos hlt]
      exact ih (UInt64.ofNat (acc.toNat * xs.length)) hr (by rw [UInt64.toNat_ofNat_of_lt' hlt]; exact h)

theorem variations_zero {p : List Seg} (h : ¬ SetsOk p) : variations p = 0 := by
  induction p with
  | nil => exact absurd (fun s hs => by cases hs) h
  | cons s r ih =>
    by_cases hr : SetsOk r
    · cases s with
      | set xs =>
        cases xs with
        | nil => simp [variations]
        | cons a t =>
          exfalso; apply h
          intro s hs
          rcases List.mem_cons.mp hs with rfl | hs
          · simp
          · exact hr s hs
      | _ =>
        exfalso; apply h
        intro s hs
        rcases List.mem_cons.mp hs with rfl | hs
        · simp
        · exact hr s hs
    · cases s <;> simp [variations, ih hr]

theorem iterRoutes_ok {p : AsPath} {rs : List (List Asn)} (h : AsPath.iterRoutes p = .ok rs) : rs = routes p := by
  unfold AsPath.iterRoutes at h
  cases hn : AsPath.numRouteVariations p with
  | error e => rw [hn] at h; cases h
  | ok v =>
    rw [hn] at h
    have h : rs = (List.range v.toNat).map (AsPath.routeAt p) := by injection h with h; exact h.symm
    have hv : v.toNat = variations p := by
      have := numVar_ok p 1 v hn
      simpa using this
    rw [h, hv, routes_eq_pick]
    by_cases hs : SetsOk p
    · apply List.map_congr_left
      intro n _
      exact routeAt_eq p n hs
    · rw [variations_zero hs]; rfl

/-- routes from hops. -/
def aroutes : List Atom → List (List Asn)
  | [] => [[]]
  | .asn a :: rest => (aroutes rest).map (a :: ·)
  | .set xs :: rest => (aroutes rest).flatMap fun r => xs.map (· :: r)
  | _ :: rest => aroutes rest

theorem routes_atoms (p : List Seg) : routes p = aroutes (atoms p) := by
  induction p with
  | nil => rfl
  | cons s r ih =>
    cases s with
    | seq xs =>
      simp only [routes, ih, atoms, List.flatMap_cons, segAtoms]
      induction xs with
      | nil => simp
      | cons a t iht => simp only [List.map_cons, List.cons_append, aroutes, ← iht, List.map_map]; rfl
    | set xs => simp only [routes, ih, atoms, List.flatMap_cons, segAtoms, List.cons_append, List.nil_append, aroutes]
    | confedSeq xs =>
      simp only [routes, ih, atoms, List.flatMap_cons, segAtoms]
      induction xs with
      | nil => simp
      | cons a t iht => simp only [List.map_cons, List.cons_append, aroutes, ← iht]
    | confedSet xs => simp only [routes, ih, atoms, List.flatMap_cons, segAtoms, List.cons_append, List.nil_append, aroutes]

theorem mem_routes (p : List Seg) : ∀ r, r ∈ routes p ↔ IsRoute p r := by
  induction p with
  | nil =>
    intro r
    simp only [routes, List.mem_singleton]
    constructor
    · rintro rfl; exact .nil
    · intro h; cases h; rfl
  | cons s t ih =>
    intro r
    cases s with
    | seq xs =>
      simp only [routes, List.mem_map]
      constructor
      · rintro ⟨r', h, rfl⟩; exact .seq ((ih r').mp h)
      · intro h; cases h with | seq h => exact ⟨_, (ih _).mpr h, rfl⟩
    | set xs =>
      simp only [routes, List.mem_flatMap, List.mem_map]
      constructor
      · rintro ⟨r', h, a, ha, rfl⟩; exact .set ha ((ih r').mp h)
      · intro h; cases h with | set ha h => exact ⟨_, (ih _).mpr h, _, ha, rfl⟩
    | confedSeq xs =>
      simp only [routes]
      rw [ih]
      exact ⟨.confedSeq, fun h => by cases h; assumption⟩
    | confedSet xs =>
      simp only [routes]
      rw [ih]
      exact ⟨.confedSet, fun h => by cases h; assumption⟩

theorem routes_length (p : List Seg) : (routes p).length = variations p := by
  rw [routes_eq_pick]; simp

end Verif
