import Verif.Lemmas.Net
/-
Compositional predicates on readers: how many bytes are consumed, what the result satisfies.
-/
namespace Verif

/-- `p` consumes exactly `n` bytes when it succeeds. -/
def Consumes (n : Nat) (p : Rd α) : Prop := ∀ s a r, p s = .ok (a, r) → s.length = n + r.length

namespace Consumes

theorem pure (a : α) : Consumes 0 (Pure.pure a : Rd α) := by intro s b r h; cases h; simp
theorem fail (e : Err) (n : Nat) : Consumes n (Rd.fail e : Rd α) := by intro s b r h; cases h
theorem bind {p : Rd α} {f : α → Rd β} {n m k : Nat} (hp : Consumes n p) (hf : ∀ a, Consumes m (f a))
    (hk : k = n + m := by rfl) : Consumes k (p >>= f) := by
  intro s b r h
  rw [Rd.bind_eq_ok] at h; obtain ⟨a, t, h1, h⟩ := h
  have := hp _ _ _ h1
  have := hf a _ _ _ h
  omega
theorem ite {c : Prop} [Decidable c] {n : Nat} {p q : Rd α} (hp : c → Consumes n p) (hq : ¬ c → Consumes n q) :
    Consumes n (if c then p else q) := by
  by_cases h : c
  · simpa [h] using hp h
  · simpa [h] using hq h
theorem rdU8 : Consumes 1 rdU8 := by
  intro s a r h; rw [rdU8_ok h]; simp; omega
theorem rdU16 : Consumes 2 rdU16 := by
  intro s a r h; rw [rdU16_ok h]; simp
theorem rdU32 : Consumes 4 rdU32 := by
  intro s a r h; rw [rdU32_ok h]; simp
theorem rdVec (n : Nat) : Consumes n (rdVec n) := by
  intro s a r h; rw [rdVec_ok h]; simp
theorem rdN (n : Nat) : Consumes n (rdN n) := by
  intro s a r h; obtain ⟨rfl, hl⟩ := rdN_ok h; simp; omega

end Consumes

/-- every successful result of `p` satisfies `P`. -/
def Yields (P : α → Prop) (p : Rd α) : Prop := ∀ s a r, p s = .ok (a, r) → P a

namespace Yields

theorem pure {P : α → Prop} {a : α} (h : P a) : Yields P (Pure.pure a : Rd α) := by intro s b r h'; cases h'; exact h
theorem fail {P : α → Prop} (e : Err) : Yields P (Rd.fail e : Rd α) := by intro s b r h'; cases h'
theorem bind {P : β → Prop} {p : Rd α} {f : α → Rd β} (hf : ∀ a, Yields P (f a)) : Yields P (p >>= f) := by
  intro s b r h
  rw [Rd.bind_eq_ok] at h; obtain ⟨a, t, _, h⟩ := h
  exact hf a _ _ _ h
theorem bind' {P : β → Prop} {Q : α → Prop} {p : Rd α} {f : α → Rd β} (hp : Yields Q p)
    (hf : ∀ a, Q a → Yields P (f a)) : Yields P (p >>= f) := by
  intro s b r h
  rw [Rd.bind_eq_ok] at h; obtain ⟨a, t, h1, h⟩ := h
  exact hf a (hp _ _ _ h1) _ _ _ h
theorem ite {c : Prop} [Decidable c] {P : α → Prop} {p q : Rd α} (hp : c → Yields P p) (hq : ¬ c → Yields P q) :
    Yields P (if c then p else q) := by
  by_cases h : c
  · simpa [h] using hp h
  · simpa [h] using hq h

end Yields

theorem manyFuel_all {p : Rd α} {P : α → Prop} (h : Yields P p) :
    ∀ (fuel : Nat) (s : Bytes) (as : List α), manyFuel p fuel s = .ok as → ∀ a ∈ as, P a := by
  intro fuel
  induction fuel with
  | zero =>
    intro s as hm
    cases s with
    | nil => simp [manyFuel] at hm; subst hm; simp
    | cons b bs => simp [manyFuel] at hm
  | succ fuel ih =>
    intro s as hm
    cases s with
    | nil => simp [manyFuel] at hm; subst hm; simp
    | cons b bs =>
      simp only [manyFuel] at hm
      cases h1 : p (b :: bs) with
      | error e => rw [h1] at hm; cases hm
      | ok v =>
        obtain ⟨a, r⟩ := v
        rw [h1] at hm
        simp only at hm
        cases h2 : manyFuel p fuel r with
        | error e => rw [h2] at hm; cases hm
        | ok as' =>
          rw [h2] at hm
          cases hm
          intro x hx
          rcases List.mem_cons.mp hx with rfl | hx
          · exact h _ _ _ h1
          · exact ih _ _ h2 x hx

theorem many_all {p : Rd α} {P : α → Prop} (h : Yields P p) {s : Bytes} {as : List α} (hm : many p s = .ok as) :
    ∀ a ∈ as, P a := manyFuel_all h _ _ _ hm

theorem manyFuel_length {p : Rd α} {n : Nat} (h : Consumes n p) :
    ∀ (fuel : Nat) (s : Bytes) (as : List α), manyFuel p fuel s = .ok as → s.length = n * as.length := by
  intro fuel
  induction fuel with
  | zero =>
    intro s as hm
    cases s with
    | nil => simp [manyFuel] at hm; subst hm; simp
    | cons b bs => simp [manyFuel] at hm
  | succ fuel ih =>
    intro s as hm
    cases s with
    | nil => simp [manyFuel] at hm; subst hm; simp
    | cons b bs =>
      simp only [manyFuel] at hm
      cases h1 : p (b :: bs) with
      | error e => rw [h1] at hm; cases hm
      | ok v =>
        obtain ⟨a, r⟩ := v
        rw [h1] at hm
        simp only at hm
        cases h2 : manyFuel p fuel r with
        | error e => rw [h2] at hm; cases hm
        | ok as' =>
          rw [h2] at hm
          cases hm
          have e1 := h _ _ _ h1
          have e2 := ih _ _ h2
          rw [e1, e2, List.length_cons, Nat.mul_add]; omega

theorem many_length {p : Rd α} {n : Nat} (h : Consumes n p) {s : Bytes} {as : List α} (hm : many p s = .ok as) :
    s.length = n * as.length := manyFuel_length h _ _ _ hm

theorem many_noPanic' {p : Rd α} {n : Nat} (hp : NoPanic p) (hn : 0 < n) (hc : Consumes n p) (s : Bytes) :
    many p s ≠ .error .panic :=
  many_noPanic hp (fun s a r h => by have := hc _ _ _ h; omega) s

theorem toUInt32_toUInt16 {a : UInt32} (h : a.toNat ≤ 65535) : a.toUInt16.toUInt32 = a := by
  apply UInt32.toNat_inj.mp; simp; omega

theorem toUInt32_le (g : UInt16) : g.toUInt32.toNat ≤ 65535 := by
  have := g.toNat_lt; simp; omega

end Verif
