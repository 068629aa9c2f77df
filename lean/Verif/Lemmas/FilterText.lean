import Verif.Spec.Filter
/-
Filters from text.
-/
namespace Verif
open Spec

/-! ### numbers -/

theorem digitChar_toNat (d : Fin 10) : (digitChar d).toNat = 48 + d.val := by
  revert d; decide

theorem digitChar_range (d : Fin 10) : '0' ≤ digitChar d ∧ digitChar d ≤ '9' := by
  revert d; decide

theorem digit_of_range {c : Char} (h : '0' ≤ c ∧ c ≤ '9') : ∃ d : Fin 10, c = digitChar d ∧ c.toNat - '0'.toNat = d.val := by
  have h1 : 48 ≤ c.toNat := h.1
  have h2 : c.toNat ≤ 57 := h.2
  refine ⟨⟨c.toNat - 48, by omega⟩, ?_, rfl⟩
  unfold digitChar
  have : 48 + (c.toNat - 48) = c.toNat := by omega
  simp only [this]
  exact (Char.ofNat_toNat c).symm

/-- the value of digits after `acc`. -/
def decVal (acc : Nat) (ds : List (Fin 10)) : Nat := ds.foldl (fun a d => a * 10 + d.val) acc

theorem decVal_ge (ds : List (Fin 10)) : ∀ acc, acc ≤ decVal acc ds := by
  induction ds with
  | nil => intro acc; exact Nat.le_refl _
  | cons d ds ih =>
    intro acc
    have := ih (acc * 10 + d.val)
    show acc ≤ decVal (acc * 10 + d.val) ds
    omega

theorem digits_iff (cs : List Char) : ∀ acc r, acc < 4294967296 →
    (digits acc cs = some r ↔ ∃ ds, cs = ds.map digitChar ∧ r = decVal acc ds ∧ r < 4294967296) := by
  induction cs with
  | nil =>
    intro acc r h
    simp only [digits, Option.some.injEq]
    constructor
    · rintro rfl; exact ⟨[], rfl, rfl, h⟩
    · rintro ⟨ds, h1, h2, _⟩
      have : ds = [] := by cases ds <;> simp_all
      subst this; exact h2.symm
  | cons c cs ih =>
    intro acc r h
    simp only [digits]
    constructor
    · intro hd
      split at hd
      · next hr =>
        obtain ⟨d, h1, h2⟩ := digit_of_range hr
        split at hd
        · next hlt =>
          obtain ⟨ds, g1, g2, g3⟩ := (ih _ _ hlt).1 hd
          refine ⟨d :: ds, by simp [h1, g1], ?_, g3⟩
          rw [h2] at g2
          exact g2
        · cases hd
      · cases hd
    · rintro ⟨ds, h1, h2, h3⟩
      cases ds with
      | nil => cases h1
      | cons d ds =>
        simp only [List.map_cons, List.cons.injEq] at h1
        obtain ⟨rfl, rfl⟩ := h1
        rw [if_pos (digitChar_range d)]
        have e : (digitChar d).toNat - '0'.toNat = d.val := by
          rw [digitChar_toNat]; show 48 + d.val - 48 = d.val; omega
        rw [e]
        have hv : r = decVal (acc * 10 + d.val) ds := h2
        have hle := decVal_ge ds (acc * 10 + d.val)
        have hlt : acc * 10 + d.val < 4294967296 := by omega
        rw [if_pos hlt]
        exact (ih _ _ hlt).2 ⟨ds, rfl, hv, h3⟩

theorem digits_map_iff (cs : List Char) (n : UInt32) :
    (digits 0 cs).map UInt32.ofNat = some n ↔ ∃ ds, cs = ds.map digitChar ∧ n.toNat = decVal 0 ds := by
  simp only [Option.map_eq_some_iff]
  constructor
  · rintro ⟨r, h1, rfl⟩
    obtain ⟨ds, g1, g2, g3⟩ := (digits_iff cs 0 r (by omega)).1 h1
    refine ⟨ds, g1, ?_⟩
    rw [← g2, UInt32.toNat_ofNat']; exact Nat.mod_eq_of_lt g3
  · rintro ⟨ds, h1, h2⟩
    refine ⟨n.toNat, (digits_iff cs 0 _ (by omega)).2 ⟨ds, h1, h2, n.toNat_lt⟩, by simp⟩

theorem parseU32_iff (v : List Char) (n : UInt32) : parseU32 v = some n ↔ Decimal v n := by
  unfold parseU32
  split
  · simp [Decimal]
    intro ds h1 h2; exact absurd h2 h1
  · next cs =>
    constructor
    · intro h
      split at h
      · cases h
      · next hne =>
        obtain ⟨ds, h1, h2⟩ := (digits_map_iff _ _).1 h
        refine ⟨ds, ?_, .inr (by rw [h1]), h2⟩
        rintro rfl; simp [h1] at hne
    · rintro ⟨ds, h1, h2 | h2, h3⟩
      · cases ds with
        | nil => exact absurd rfl h1
        | cons d ds =>
          simp only [List.map_cons, List.cons.injEq] at h2
          have := digitChar_range d
          rw [← h2.1] at this
          exact absurd this (by decide)
      · simp only [List.cons.injEq, true_and] at h2
        subst h2
        rw [if_neg (by simpa using h1)]
        exact (digits_map_iff _ _).2 ⟨ds, rfl, h3⟩
  · next cs h1 h2 =>
    rw [digits_map_iff]
    constructor
    · rintro ⟨ds, g1, g2⟩
      refine ⟨ds, ?_, .inl g1, g2⟩
      rintro rfl; exact h1 (by simpa using g1)
    · rintro ⟨ds, g1, g2 | g2, g3⟩
      · exact ⟨ds, g2, g3⟩
      · exact absurd g2 (h2 _)

/-! ### lists -/

theorem splitComma_ne (s : List Char) : splitComma s ≠ [] := by
  cases s with
  | nil => simp [splitComma]
  | cons c cs =>
    simp only [splitComma]
    split
    · simp
    · split <;> simp

theorem splitComma_join (s : List Char) : List.intercalate [','] (splitComma s) = s := by
  induction s with
  | nil => rfl
  | cons c cs ih =>
    simp only [splitComma]
    split
    · next h =>
      subst h
      cases hs : splitComma cs with
      | nil => exact absurd hs (splitComma_ne cs)
      | cons p ps =>
        rw [hs] at ih
        rw [← ih]
        simp [List.intercalate, List.intersperse]
    · split
      · next hs => exact absurd hs (splitComma_ne cs)
      · next p ps hs =>
        rw [hs] at ih
        rw [← ih]
        cases ps <;> simp [List.intercalate, List.intersperse]

theorem splitComma_no_comma (s : List Char) : ∀ p ∈ splitComma s, ',' ∉ p := by
  induction s with
  | nil => simp [splitComma]
  | cons c cs ih =>
    simp only [splitComma]
    split
    · intro p hp
      rcases List.mem_cons.1 hp with rfl | hp
      · simp
      · exact ih p hp
    · next hc =>
      split
      · next hs => exact absurd hs (splitComma_ne cs)
      · next p ps hs =>
        rw [hs] at ih
        intro q hq
        rcases List.mem_cons.1 hq with rfl | hq
        · have := ih p (by simp)
          simp only [List.mem_cons, not_or]
          exact ⟨fun h => hc h.symm, this⟩
        · exact ih q (List.mem_cons_of_mem _ hq)

theorem splitComma_append (p : List Char) (hp : ',' ∉ p) (s : List Char) :
    splitComma (p ++ ',' :: s) = p :: splitComma s := by
  induction p with
  | nil => simp [splitComma]
  | cons c p ih =>
    simp only [List.mem_cons, not_or] at hp
    simp only [List.cons_append, splitComma]
    rw [if_neg (fun h => hp.1 h.symm), ih hp.2]

theorem splitComma_one (p : List Char) (hp : ',' ∉ p) : splitComma p = [p] := by
  induction p with
  | nil => rfl
  | cons c p ih =>
    simp only [List.mem_cons, not_or] at hp
    simp only [splitComma]
    rw [if_neg (fun h => hp.1 h.symm), ih hp.2]

theorem splitComma_unique (ps : List (List Char)) (hne : ps ≠ []) (hc : ∀ p ∈ ps, ',' ∉ p) :
    splitComma (List.intercalate [','] ps) = ps := by
  induction ps with
  | nil => exact absurd rfl hne
  | cons p ps ih =>
    cases ps with
    | nil =>
      have : List.intercalate [','] [p] = p := by simp [List.intercalate]
      rw [this]; exact splitComma_one p (hc p (by simp))
    | cons q qs =>
      have : List.intercalate [','] (p :: q :: qs) = p ++ ',' :: List.intercalate [','] (q :: qs) := by
        simp [List.intercalate, List.intersperse]
      rw [this, splitComma_append p (hc p (by simp)), ih (by simp) (fun x hx => hc x (List.mem_cons_of_mem _ hx))]

theorem items_iff (s : List Char) (is : List (List Char)) :
    Items s is ↔ is = (splitComma (noSpaces s)).filter (· ≠ []) := by
  constructor
  · rintro ⟨ps, h1, h2, h3⟩
    unfold noSpaces
    rw [h1, splitComma_unique ps h2 h3]
  · rintro rfl
    exact Items.mk _ _ (splitComma_join _).symm (splitComma_ne _) (splitComma_no_comma _)

/-- all items with the same sign, and their values. -/
def Signed (one : List Char → Option α) (neg : Bool) (is : List (List Char)) (vs : List α) : Prop :=
  Pairwise2 (fun p v => (stripBang p).1 = neg ∧ one (stripBang p).2 = some v) is vs

theorem listLoop_filter (one : List Char → Option α) (ps : List (List Char)) : ∀ vs neg,
    listLoop one ps vs neg = listLoop one (ps.filter (· ≠ [])) vs neg := by
  induction ps with
  | nil => intro vs neg; rfl
  | cons p ps ih =>
    intro vs neg
    cases p with
    | nil =>
      simp only [listLoop, List.isEmpty_nil, if_true]
      rw [ih]; simp
    | cons c p =>
      simp only [ne_eq, reduceCtorEq, not_false_eq_true, decide_true, List.filter_cons_of_pos]
      simp only [listLoop, List.isEmpty_cons, Bool.false_eq_true, if_false]
      simp only [ih]

theorem listLoop_some (one : List Char → Option α) (prev : Bool) (is : List (List Char)) : ∀ vs, (∀ p ∈ is, p ≠ []) →
    ∀ x, (listLoop one is vs (some prev) = x ↔
      (∃ ws, Signed one prev is ws ∧ x = .ok (vs ++ ws, some prev)) ∨
      ((∀ ws, ¬ Signed one prev is ws) ∧ x = .error .filter)) := by
  induction is with
  | nil =>
    intro vs _ x
    simp only [listLoop]
    constructor
    · rintro rfl
      exact .inl ⟨[], .nil, by simp⟩
    · rintro (⟨ws, h1, h2⟩ | ⟨h1, _⟩)
      · cases h1; rw [h2]; simp
      · exact absurd .nil (h1 [])
  | cons p is ih =>
    intro vs hne x
    have hp : p.isEmpty = false := by
      have := hne p (by simp)
      cases p <;> simp_all
    simp only [listLoop, hp, Bool.false_eq_true, if_false]
    generalize hsb : stripBang p = sb
    obtain ⟨isNeg, actual⟩ := sb
    simp only
    by_cases hn : prev = isNeg
    · subst hn
      simp only [ne_eq, not_true_eq_false, if_false]
      cases ho : one actual with
      | none =>
        simp only
        constructor
        · rintro rfl
          refine .inr ⟨?_, rfl⟩
          intro ws hs
          cases hs with
          | cons h _ => rw [hsb, ho] at h; cases h.2
        · rintro (⟨ws, hs, _⟩ | ⟨_, rfl⟩)
          · cases hs with
            | cons h _ => rw [hsb, ho] at h; cases h.2
          · rfl
      | some v =>
        simp only
        rw [ih _ (fun q hq => hne q (List.mem_cons_of_mem _ hq))]
        constructor
        · rintro (⟨ws, h1, h2⟩ | ⟨h1, h2⟩)
          · exact .inl ⟨v :: ws, .cons ⟨by rw [hsb], by rw [hsb]; exact ho⟩ h1, by rw [h2]; simp⟩
          · refine .inr ⟨?_, h2⟩
            intro ws hs
            cases hs with
            | cons h hs => exact h1 _ hs
        · rintro (⟨ws, h1, h2⟩ | ⟨h1, h2⟩)
          · cases h1 with
            | @cons _ w _ ws h hs =>
              rw [hsb, ho] at h
              cases h.2
              exact .inl ⟨ws, hs, by rw [h2]; simp⟩
          · refine .inr ⟨fun ws hs => h1 (v :: ws) (.cons ⟨by rw [hsb], by rw [hsb]; exact ho⟩ hs), h2⟩
    · rw [if_pos hn]
      constructor
      · rintro rfl
        refine .inr ⟨?_, rfl⟩
        intro ws hs
        cases hs with
        | cons h _ => rw [hsb] at h; exact hn h.1.symm
      · rintro (⟨ws, hs, _⟩ | ⟨_, rfl⟩)
        · cases hs with
          | cons h _ => rw [hsb] at h; exact absurd h.1.symm hn
        · rfl

theorem parseList_cases (one : List Char → Option α) (s : List Char) :
    (∃ vs neg, parseList one s = .ok (vs, neg) ∧ vs ≠ [] ∧
      Signed one neg ((splitComma (noSpaces s)).filter (· ≠ [])) vs) ∨
    (parseList one s = .error .filter ∧ ∀ vs neg, vs ≠ [] →
      ¬ Signed one neg ((splitComma (noSpaces s)).filter (· ≠ [])) vs) := by
  unfold parseList
  rw [listLoop_filter]
  have hne : ∀ p ∈ (splitComma (noSpaces s)).filter (· ≠ []), p ≠ [] := by
    intro p hp
    have := (List.mem_filter.1 hp).2
    simpa using this
  generalize (splitComma (noSpaces s)).filter (· ≠ []) = is at hne
  cases is with
  | nil =>
    refine .inr ⟨rfl, ?_⟩
    intro vs neg hv hs
    cases hs
    exact hv rfl
  | cons p is =>
    have hp : p.isEmpty = false := by
      have := hne p (by simp)
      cases p <;> simp_all
    have h0 : listLoop one (p :: is) [] none = listLoop one (p :: is) [] (some (stripBang p).1) := by
      simp only [listLoop, hp, Bool.false_eq_true, if_false]
      generalize stripBang p = sb
      obtain ⟨isNeg, actual⟩ := sb
      simp only [ne_eq, not_true_eq_false, if_false]
    rw [h0]
    rcases (listLoop_some one (stripBang p).1 (p :: is) [] hne _).1 rfl with ⟨ws, h1, h2⟩ | ⟨h1, h2⟩
    · have hw : ws ≠ [] := by rintro rfl; cases h1
      refine .inl ⟨ws, (stripBang p).1, ?_, hw, h1⟩
      rw [h2]
      simp [hw]
    · refine .inr ⟨by rw [h2], ?_⟩
      intro vs neg _ hs
      have : neg = (stripBang p).1 := by
        cases hs with
        | cons h _ => exact h.1.symm
      subst this
      exact h1 vs hs

theorem signed_unique (one : List Char → Option α) {n1 n2 : Bool} {is : List (List Char)} : ∀ {v1 v2 : List α},
    v1 ≠ [] → Signed one n1 is v1 → Signed one n2 is v2 → v1 = v2 ∧ n1 = n2 := by
  intro v1 v2 hv h1 h2
  have key : ∀ {is : List (List Char)} {v1 v2 : List α}, Signed one n1 is v1 → Signed one n2 is v2 → v1 = v2 := by
    intro is
    induction is with
    | nil => intro v1 v2 h1 h2; cases h1; cases h2; rfl
    | cons p is ih =>
      intro v1 v2 h1 h2
      cases h1 with
      | cons a1 b1 =>
        cases h2 with
        | cons a2 b2 =>
          rw [ih b1 b2]
          have := a1.2.symm.trans a2.2
          cases this; rfl
  refine ⟨key h1 h2, ?_⟩
  cases h1 with
  | nil => exact absurd rfl hv
  | cons a1 _ => cases h2 with
    | cons a2 _ => exact a1.1.symm.trans a2.1

theorem stripBang_true {p b : List Char} (h : stripBang p = (true, b)) : p = '!' :: b := by
  unfold stripBang at h
  split at h <;> simp_all

theorem stripBang_false {p b : List Char} (h : stripBang p = (false, b)) : p = b ∧ b.head? ≠ some '!' := by
  unfold stripBang at h
  split at h
  · simp at h
  · next h1 =>
    simp only [Prod.mk.injEq, true_and] at h
    subst h
    refine ⟨rfl, ?_⟩
    cases p with
    | nil => simp
    | cons c cs =>
      intro hc
      simp only [List.head?_cons, Option.some.injEq] at hc
      subst hc
      exact h1 cs rfl

theorem stripBang_plain {b : List Char} (h : b.head? ≠ some '!') : stripBang b = (false, b) := by
  unfold stripBang
  split
  · exact absurd rfl h
  · rfl

theorem valueList_iff (one : List Char → Option α) (one' : List Char → α → Prop) (ho : ∀ v a, one v = some a ↔ one' v a)
    (s : List Char) (neg : Bool) (vs : List α) :
    ValueList one' s neg vs ↔ vs ≠ [] ∧ Signed one neg ((splitComma (noSpaces s)).filter (· ≠ [])) vs := by
  unfold ValueList
  simp only [items_iff]
  refine and_congr_right fun hv => ?_
  generalize (splitComma (noSpaces s)).filter (· ≠ []) = is
  constructor
  · rintro ⟨bodies, h1, h2, h3⟩
    cases neg with
    | true =>
      rw [← h2 rfl]
      clear h2 h3 hv
      induction h1 with
      | nil => exact .nil
      | cons h _ ih => exact .cons ⟨rfl, (ho _ _).2 h⟩ ih
    | false =>
      have hh := h3 rfl
      clear h2 h3 hv
      obtain ⟨h3, h4⟩ := hh
      rw [← h3]
      clear h3
      induction h1 with
      | nil => exact .nil
      | cons h _ ih =>
        refine .cons ?_ (ih fun b hb => h4 b (List.mem_cons_of_mem _ hb))
        rw [stripBang_plain (h4 _ (by simp))]
        exact ⟨rfl, (ho _ _).2 h⟩
  · intro h
    clear hv
    induction h with
    | nil => exact ⟨[], .nil, fun _ => rfl, fun _ => ⟨rfl, by simp⟩⟩
    | @cons p v is vs h _ ih =>
      obtain ⟨bodies, h1, h2, h3⟩ := ih
      obtain ⟨g1, g2⟩ := h
      refine ⟨(stripBang p).2 :: bodies, .cons ((ho _ _).1 g2) h1, ?_, ?_⟩
      · rintro rfl
        have : stripBang p = (true, (stripBang p).2) := by rw [← g1]
        rw [List.map_cons, h2 rfl, ← stripBang_true this]
      · rintro rfl
        have : stripBang p = (false, (stripBang p).2) := by rw [← g1]
        obtain ⟨e1, e2⟩ := stripBang_false this
        obtain ⟨e3, e4⟩ := h3 rfl
        refine ⟨by rw [e3, ← e1], ?_⟩
        intro b hb
        rcases List.mem_cons.1 hb with rfl | hb
        · exact e2
        · exact e4 b hb

theorem parseList_ok_iff (one : List Char → Option α) (one' : List Char → α → Prop) (ho : ∀ v a, one v = some a ↔ one' v a)
    (s : List Char) (neg : Bool) (vs : List α) : parseList one s = .ok (vs, neg) ↔ ValueList one' s neg vs := by
  rw [valueList_iff one one' ho]
  rcases parseList_cases one s with ⟨ws, n, h1, h2, h3⟩ | ⟨h1, h2⟩
  · rw [h1]
    constructor
    · intro h; cases h; exact ⟨h2, h3⟩
    · rintro ⟨_, h5⟩
      obtain ⟨rfl, rfl⟩ := signed_unique one h2 h3 h5
      rfl
  · rw [h1]
    constructor
    · intro h; cases h
    · rintro ⟨h4, h5⟩; exact absurd h5 (h2 _ _ h4)

theorem parseList_error (one : List Char → Option α) (s : List Char) {e : Err} (h : parseList one s = .error e) : e = .filter := by
  rcases parseList_cases one s with ⟨ws, n, h1, _⟩ | ⟨h1, _⟩
  · rw [h1] at h; cases h
  · rw [h1] at h; cases h; rfl

end Verif
