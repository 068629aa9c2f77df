import Verif.Spec.Layout
import Verif.Lemmas.AttrVal
import Verif.Model.Capability
/-
Readers characterised exactly by a relation between the value read and the bytes consumed.
-/
namespace Verif
open Spec

/-- `p` succeeds exactly on inputs that begin with a block `c` with `R a c`, returns `a` and leaves the rest. -/
def Exact (p : Rd α) (R : α → Bytes → Prop) : Prop :=
  ∀ s a r, p s = .ok (a, r) ↔ ∃ c, s = c ++ r ∧ R a c

namespace Exact

theorem congr {p : Rd α} {R R' : α → Bytes → Prop} (h : Exact p R) (hr : ∀ a c, R a c ↔ R' a c) : Exact p R' := by
  intro s a r; rw [h]; simp only [hr]

theorem pure (a : α) : Exact (Pure.pure a : Rd α) (fun b c => b = a ∧ c = []) := by
  intro s b r
  constructor
  · intro h; cases h; exact ⟨[], rfl, rfl, rfl⟩
  · rintro ⟨c, rfl, rfl, rfl⟩; rfl

theorem fail (e : Err) : Exact (Rd.fail e : Rd α) (fun _ _ => False) := by
  intro s b r; simp

theorem bind {p : Rd α} {f : α → Rd β} {R : α → Bytes → Prop} {Q : α → β → Bytes → Prop} (hp : Exact p R)
    (hf : ∀ a, Exact (f a) (Q a)) :
    Exact (p >>= f) (fun b c => ∃ a c1 c2, c = c1 ++ c2 ∧ R a c1 ∧ Q a b c2) := by
  intro s b r
  rw [Rd.bind_eq_ok]
  constructor
  · rintro ⟨a, t, h1, h2⟩
    obtain ⟨c1, rfl, h1'⟩ := (hp _ _ _).mp h1
    obtain ⟨c2, rfl, h2'⟩ := (hf a _ _ _).mp h2
    exact ⟨c1 ++ c2, by simp, a, c1, c2, rfl, h1', h2'⟩
  · rintro ⟨_, rfl, a, c1, c2, rfl, h1, h2⟩
    exact ⟨a, c2 ++ r, (hp _ _ _).mpr ⟨c1, by simp, h1⟩, (hf a _ _ _).mpr ⟨c2, rfl, h2⟩⟩

theorem ite {c : Prop} [Decidable c] {p q : Rd α} {R Q : α → Bytes → Prop} (hp : Exact p R) (hq : Exact q Q) :
    Exact (if c then p else q) (fun a b => (c ∧ R a b) ∨ (¬ c ∧ Q a b)) := by
  intro s a r
  by_cases h : c
  · simp only [h, if_true, true_and, not_true, false_and, or_false]; exact hp s a r
  · simp only [h, if_false, false_and, not_false_iff, true_and, false_or]; exact hq s a r

theorem rdU8 : Exact rdU8 (fun a c => c = [a]) := by
  intro s a r
  constructor
  · intro h; exact ⟨[a], rdU8_ok h, rfl⟩
  · rintro ⟨c, rfl, rfl⟩; rfl

theorem rdU16 : Exact rdU16 (fun a c => c = be16 a) := by
  intro s a r
  constructor
  · intro h; exact ⟨be16 a, rdU16_ok h, rfl⟩
  · rintro ⟨c, rfl, rfl⟩; simp

theorem rdU32 : Exact rdU32 (fun a c => c = be32 a) := by
  intro s a r
  constructor
  · intro h; exact ⟨be32 a, rdU32_ok h, rfl⟩
  · rintro ⟨c, rfl, rfl⟩; simp

theorem rdVec (n : Nat) : Exact (rdVec n) (fun a c => c = a.toList) := by
  intro s a r
  constructor
  · intro h; exact ⟨a.toList, rdVec_ok h, rfl⟩
  · rintro ⟨c, rfl, rfl⟩; simp

theorem rdN (n : Nat) : Exact (rdN n) (fun a c => c = a ∧ a.length = n) := by
  intro s a r
  constructor
  · intro h; obtain ⟨h1, h2⟩ := rdN_ok h; exact ⟨a, h1, rfl, h2⟩
  · rintro ⟨c, rfl, rfl, h⟩; exact rdN_append' h r

theorem rdAfi : Exact rdAfi (fun a c => c = be16 a.toU16) := by
  intro s a r
  constructor
  · intro h
    unfold Verif.rdAfi at h
    rw [Rd.bind_eq_ok] at h; obtain ⟨x, t, h1, h⟩ := h
    have := rdU16_ok h1
    unfold Afi.ofU16? at h
    refine ⟨be16 a.toU16, ?_, rfl⟩
    by_cases e1 : x = 1
    · subst e1; cases h; exact this
    by_cases e2 : x = 2
    · subst e2; cases h; exact this
    by_cases e3 : x = 16388
    · subst e3; cases h; exact this
    simp [e1, e2, e3] at h
  · rintro ⟨c, rfl, rfl⟩; simp

theorem safi_ofU8_some {x : UInt8} {a : Safi} (h : Safi.ofU8? x = some a) : x = a.toU8 := by
  have : ∀ n : Fin 256, ∀ a, Safi.ofU8? (UInt8.ofNat n.val) = some a → UInt8.ofNat n.val = a.toU8 := by
    intro n a
    revert n
    cases a <;> decide +kernel
  have := this ⟨x.toNat, x.toNat_lt⟩ a
  simp at this
  exact this h

theorem safiOr (x : UInt8) : Exact (safiOr x) (fun a c => x = a.toU8 ∧ c = []) := by
  intro s a r
  constructor
  · intro h
    unfold Verif.safiOr at h
    cases hx : Safi.ofU8? x with
    | none => rw [hx] at h; cases h
    | some b => rw [hx] at h; cases h; exact ⟨[], rfl, safi_ofU8_some hx, rfl⟩
  · rintro ⟨c, rfl, rfl, rfl⟩; simp [Verif.safiOr]

theorem runOn {p : Rd α} {R : α → Bytes → Prop} (h : Exact p R) (s : Bytes) (a : α) :
    p.runOn s = .ok a ↔ ∃ c r, s = c ++ r ∧ R a c := by
  unfold Rd.runOn
  constructor
  · intro h'
    cases hp : p s with
    | error e => rw [hp] at h'; cases h'
    | ok v =>
      obtain ⟨b, r⟩ := v
      rw [hp] at h'; cases h'
      obtain ⟨c, hc, hr⟩ := (h _ _ _).mp hp
      exact ⟨c, r, hc, hr⟩
  · rintro ⟨c, r, hc, hr⟩
    rw [(h s a r).mpr ⟨c, hc, hr⟩]

theorem manyFuel {p : Rd α} {R : α → Bytes → Prop} (h : Exact p R) (hne : ∀ a c, R a c → c ≠ []) :
    ∀ (fuel : Nat) (s : Bytes) (as : List α), s.length ≤ fuel → (manyFuel p fuel s = .ok as ↔ Blocks R as s) := by
  intro fuel
  induction fuel with
  | zero =>
    intro s as hs
    cases s with
    | cons b bs => simp at hs
    | nil =>
      simp only [Verif.manyFuel]
      constructor
      · intro h; cases h; exact .nil
      · intro hb
        generalize hs' : ([] : Bytes) = s at hb
        cases hb with
        | nil => rfl
        | cons hr hb =>
          rename_i a as c s
          exact absurd (List.append_eq_nil_iff.mp hs'.symm).1 (hne _ _ hr)
  | succ fuel ih =>
    intro s as hs
    cases s with
    | nil =>
      simp only [Verif.manyFuel]
      constructor
      · intro h; cases h; exact .nil
      · intro hb
        generalize hs' : ([] : Bytes) = s at hb
        cases hb with
        | nil => rfl
        | cons hr hb =>
          rename_i a as c s
          exact absurd (List.append_eq_nil_iff.mp hs'.symm).1 (hne _ _ hr)
    | cons b bs =>
      constructor
      · intro hm
        simp only [Verif.manyFuel] at hm
        cases h1 : p (b :: bs) with
        | error e => rw [h1] at hm; cases hm
        | ok v =>
          obtain ⟨a, r⟩ := v
          rw [h1] at hm
          dsimp only at hm
          obtain ⟨c, hc, hr⟩ := (h _ _ _).mp h1
          have hlen : r.length ≤ fuel := by
            have := congrArg List.length hc
            have hp : 0 < c.length := List.length_pos_iff.mpr (hne _ _ hr)
            simp at this hs; omega
          cases h2 : Verif.manyFuel p fuel r with
          | error e => rw [h2] at hm; cases hm
          | ok as' =>
            rw [h2] at hm
            cases hm
            rw [hc]
            exact .cons hr ((ih r as' hlen).mp h2)
      · intro hb
        generalize hs' : b :: bs = s at hb hs
        cases hb with
        | nil => cases hs'
        | cons hr hb =>
          rename_i a as c s
          have hlen : s.length ≤ fuel := by
            have hp : 0 < c.length := List.length_pos_iff.mpr (hne _ _ hr)
            simp at hs; omega
          have h1 := (h (c ++ s) a s).mpr ⟨c, rfl, hr⟩
          have h2 := (ih s as hlen).mpr hb
          rw [← hs'] at h1 ⊢
          simp only [Verif.manyFuel, h1, h2]

theorem many {p : Rd α} {R : α → Bytes → Prop} (h : Exact p R) (hne : ∀ a c, R a c → c ≠ []) (s : Bytes) (as : List α) :
    many p s = .ok as ↔ Blocks R as s := manyFuel h hne _ s as (Nat.le_refl _)

theorem whileGeFuel {p : Rd α} {R : α → Bytes → Prop} {n : Nat} (hn : 0 < n) (h : Exact p R)
    (hl : ∀ a c, R a c → n ≤ c.length) :
    ∀ (fuel : Nat) (s : Bytes) (as : List α), s.length ≤ fuel →
      (whileGeFuel n p fuel s = .ok as ↔ ∃ c t, s = c ++ t ∧ Blocks R as c ∧ t.length < n) := by
  intro fuel
  induction fuel with
  | zero =>
    intro s as hs
    have : s = [] := by cases s; rfl; simp at hs
    subst this
    simp only [Verif.whileGeFuel, List.length_nil, hn, if_true]
    constructor
    · intro h; cases h; exact ⟨[], [], rfl, .nil, hn⟩
    · rintro ⟨c, t, hs, hb, _⟩
      obtain ⟨rfl, rfl⟩ := List.append_eq_nil_iff.mp hs.symm
      generalize hs' : ([] : Bytes) = s at hb
      cases hb with
      | nil => rfl
      | cons hr hb =>
        rename_i a as c s
        have := hl _ _ hr
        rw [(List.append_eq_nil_iff.mp hs'.symm).1] at this
        simp at this; omega
  | succ fuel ih =>
    intro s as hs
    simp only [Verif.whileGeFuel]
    by_cases hlt : s.length < n
    · rw [if_pos hlt]
      constructor
      · intro h; cases h; exact ⟨[], s, rfl, .nil, hlt⟩
      · rintro ⟨c, t, rfl, hb, ht⟩
        cases hb with
        | nil => rfl
        | cons hr hb =>
          have := hl _ _ hr
          simp at hlt; omega
    · rw [if_neg hlt]
      constructor
      · intro hm
        cases h1 : p s with
        | error e => rw [h1] at hm; cases hm
        | ok v =>
          obtain ⟨a, r⟩ := v
          rw [h1] at hm
          dsimp only at hm
          obtain ⟨c, rfl, hr⟩ := (h _ _ _).mp h1
          have := hl _ _ hr
          cases h2 : Verif.whileGeFuel n p fuel r with
          | error e => rw [h2] at hm; cases hm
          | ok as' =>
            rw [h2] at hm
            cases hm
            obtain ⟨c', t, rfl, hb, ht⟩ := (ih r as' (by simp at hs; omega)).mp h2
            exact ⟨c ++ c', t, by simp, .cons hr hb, ht⟩
      · rintro ⟨c, t, rfl, hb, ht⟩
        cases hb with
        | nil => simp at hlt; omega
        | cons hr hb =>
          rename_i a as c s
          have := hl _ _ hr
          have h1 := (h (c ++ s ++ t) a (s ++ t)).mpr ⟨c, by simp, hr⟩
          have h2 := (ih (s ++ t) as (by simp at hs ⊢; omega)).mpr ⟨s, t, rfl, hb, ht⟩
          simp only [h1, h2]

theorem whileGe {p : Rd α} {R : α → Bytes → Prop} {n : Nat} (hn : 0 < n) (h : Exact p R)
    (hl : ∀ a c, R a c → n ≤ c.length) (s : Bytes) (as : List α) :
    whileGe n p s = .ok as ↔ ∃ c t, s = c ++ t ∧ Blocks R as c ∧ t.length < n :=
  whileGeFuel hn h hl _ s as (Nat.le_refl _)

end Exact

theorem Blocks_length {R : α → Bytes → Prop} {n : Nat} (hl : ∀ a c, R a c → c.length = n) {as : List α} {s : Bytes}
    (h : Blocks R as s) : s.length = n * as.length := by
  induction h with
  | nil => simp
  | cons hr _ ih => simp [hl _ _ hr, ih, Nat.mul_add]; omega

/-- a loop over fixed-size entries on a buffer whose length is a multiple of the size. -/
theorem Exact.whileGe_exact {p : Rd α} {R : α → Bytes → Prop} {n : Nat} (hn : 0 < n) (h : Exact p R)
    (hl : ∀ a c, R a c → c.length = n) (s : Bytes) (as : List α) :
    (s.length % n = 0 ∧ Verif.whileGe n p s = .ok as) ↔ Blocks R as s := by
  rw [h.whileGe hn (fun a c hr => Nat.le_of_eq (hl a c hr).symm)]
  constructor
  · rintro ⟨hm, c, t, rfl, hb, ht⟩
    have := Blocks_length hl hb
    rw [List.length_append, this, Nat.mul_add_mod, Nat.mod_eq_of_lt ht] at hm
    have : t = [] := List.length_eq_zero_iff.mp hm
    subst this
    simpa using hb
  · intro hb
    refine ⟨?_, s, [], by simp, hb, hn⟩
    rw [Blocks_length hl hb, Nat.mul_mod_right]

theorem Blocks_flatMap {R : α → Bytes → Prop} {f : α → Bytes} (as : List α) (h : ∀ a ∈ as, R a (f a)) :
    Blocks R as (as.flatMap f) := by
  induction as with
  | nil => exact .nil
  | cons a as ih =>
    rw [List.flatMap_cons]
    exact .cons (h a (by simp)) (ih fun x hx => h x (by simp [hx]))

end Verif
