import Verif.Lemmas.MrtLoops
import Verif.Lemmas.Elem
import Verif.Spec.Filter
/-
Filtered iteration.
-/
namespace Verif
open Spec

/-! ### the items of a delivery -/

abbrev Item := Except RecErr MrtRecord

/-- the records of default iteration. -/
inductive RecsD (cd : Bool) (k : Option Bool) : List Tok → List Item → Prop where
  | ok {t r t' l} : nextT k t = (.ok r, t') → RecsD cd k t' l → RecsD cd k t (.ok r :: l)
  | skip {t e t' l} : nextT k t = (.error e, t') → goesOn cd e.error = true → RecsD cd k t' l → RecsD cd k t l
  | stop {t e t'} : nextT k t = (.error e, t') → goesOn cd e.error = false → RecsD cd k t []

/-- the records and errors of fallible iteration. -/
inductive RecsF (k : Option Bool) : List Tok → List Item → Prop where
  | ok {t r t' l} : nextT k t = (.ok r, t') → RecsF k t' l → RecsF k t (.ok r :: l)
  | error {t e t' l} : nextT k t = (.error e, t') → e.error ≠ .eofExpected → RecsF k t' l → RecsF k t (.error e :: l)
  | stop {t e t'} : nextT k t = (.error e, t') → e.error = .eofExpected → RecsF k t []

theorem recsD_exists (cd : Bool) (k : Option Bool) (n : Nat) : ∀ t : List Tok, t.length ≤ n →
    ∃ l, RecsD cd k t l ∧ l.length ≤ t.length ∧ ∀ x ∈ l, ∃ r, x = .ok r := by
  induction n with
  | zero =>
    intro t ht
    cases hc : nextT k t with
    | mk x t' =>
      rcases nextT_progress hc with hp | ⟨e, rfl, hp⟩
      · omega
      · exact ⟨[], .stop hc (hp cd), by simp, by simp⟩
  | succ n ih =>
    intro t ht
    cases hc : nextT k t with
    | mk x t' =>
      rcases nextT_progress hc with hp | ⟨e, rfl, hp⟩
      · obtain ⟨l, h1, h2, h3⟩ := ih t' (by omega)
        cases x with
        | ok r =>
          refine ⟨_, .ok hc h1, by simp; omega, ?_⟩
          intro x hx
          rcases List.mem_cons.1 hx with rfl | hx
          · exact ⟨_, rfl⟩
          · exact h3 x hx
        | error e =>
          cases hg : goesOn cd e.error with
          | true => exact ⟨_, .skip hc hg h1, by omega, h3⟩
          | false => exact ⟨[], .stop hc hg, by simp, by simp⟩
      · exact ⟨[], .stop hc (hp cd), by simp, by simp⟩

theorem recsF_exists (k : Option Bool) (hk : k ≠ some false) (n : Nat) : ∀ t : List Tok, t.length ≤ n →
    ∃ l, RecsF k t l ∧ l.length ≤ t.length := by
  have step : ∀ t x t', nextT k t = (x, t') → (∀ e, x = .error e → e.error ≠ .eofExpected) → t'.length + 1 ≤ t.length := by
    intro t x t' hc hx
    have hp := fallibleT_progress keepAll k hk t.length () t _ (Nat.le_refl _) rfl
    cases x with
    | ok r =>
      rw [fallibleT_of_ok keepAll () hc] at hp
      exact hp rfl
    | error e =>
      rw [fallibleT_of_error keepAll () hc, if_neg (hx e rfl)] at hp
      exact hp rfl
  induction n with
  | zero =>
    intro t ht
    cases hc : nextT k t with
    | mk x t' =>
      by_cases hx : ∃ e, x = .error e ∧ e.error = .eofExpected
      · obtain ⟨e, rfl, he⟩ := hx
        exact ⟨[], .stop hc he, by simp⟩
      · have := step t x t' hc (fun e h1 h2 => hx ⟨e, h1, h2⟩)
        omega
  | succ n ih =>
    intro t ht
    cases hc : nextT k t with
    | mk x t' =>
      by_cases hx : ∃ e, x = .error e ∧ e.error = .eofExpected
      · obtain ⟨e, rfl, he⟩ := hx
        exact ⟨[], .stop hc he, by simp⟩
      · have hl := step t x t' hc (fun e h1 h2 => hx ⟨e, h1, h2⟩)
        obtain ⟨l, h1, h2⟩ := ih t' (by omega)
        cases x with
        | ok r => exact ⟨_, .ok hc h1, by simp; omega⟩
        | error e => exact ⟨_, .error hc (fun h => hx ⟨e, rfl, h⟩) h1, by simp; omega⟩

/-! ### one step of filtered record iteration -/

/-- the first item a filter lets through, its state then, and the rest. -/
def walk (f : Keep σ) (q : σ) : List Item → Option (Item × σ × List Item)
  | [] => none
  | .error e :: l => some (.error e, q, l)
  | .ok r :: l => if (f.step q r).1 then some (.ok r, (f.step q r).2, l) else walk f (f.step q r).2 l

theorem walk_length (f : Keep σ) (l : List Item) : ∀ q x q' l', walk f q l = some (x, q', l') → l'.length < l.length := by
  induction l with
  | nil => intro q x q' l' h; cases h
  | cons i l ih =>
    intro q x q' l' h
    cases i with
    | error e => cases h; simp
    | ok r =>
      simp only [walk] at h
      split at h
      · cases h; simp
      · have := ih _ _ _ _ h; simp; omega

theorem recsD_defaultT (f : Keep σ) {cd : Bool} {k : Option Bool} {t : List Tok} {l : List Item} (h : RecsD cd k t l) : ∀ q,
    (walk f q l = none → (defaultT f cd k q t).1 = none) ∧
    (∀ x q' l', walk f q l = some (x, q', l') → ∃ r t', x = .ok r ∧ defaultT f cd k q t = (some r, q', t') ∧ RecsD cd k t' l') := by
  induction h with
  | @ok t r t' l hc hr ih =>
    intro q
    rw [defaultT_of_ok f cd q hc]
    simp only [walk]
    split
    · refine ⟨by simp, ?_⟩
      intro x q' l' h
      cases h
      exact ⟨r, t', rfl, rfl, hr⟩
    · exact ih _
  | skip hc hg hr ih =>
    intro q
    rw [defaultT_of_error f cd q hc, if_pos hg]
    exact ih q
  | stop hc hg =>
    intro q
    rw [defaultT_of_error f cd q hc, if_neg (by simp [hg])]
    exact ⟨fun _ => rfl, by simp [walk]⟩

theorem recsF_fallibleT (f : Keep σ) {k : Option Bool} {t : List Tok} {l : List Item} (h : RecsF k t l) : ∀ q,
    (walk f q l = none → (fallibleT f k q t).1 = none) ∧
    (∀ x q' l', walk f q l = some (x, q', l') → ∃ t', fallibleT f k q t = (some x, q', t') ∧ RecsF k t' l') := by
  induction h with
  | @ok t r t' l hc hr ih =>
    intro q
    rw [fallibleT_of_ok f q hc]
    simp only [walk]
    split
    · refine ⟨by simp, ?_⟩
      intro x q' l' h
      cases h
      exact ⟨t', rfl, hr⟩
    · exact ih _
  | @error t e t' l hc he hr ih =>
    intro q
    rw [fallibleT_of_error f q hc, if_neg he]
    refine ⟨by simp [walk], ?_⟩
    intro x q' l' h
    cases h
    exact ⟨t', rfl, hr⟩
  | stop hc he =>
    intro q
    rw [fallibleT_of_error f q hc, if_pos he]
    exact ⟨fun _ => rfl, by simp [walk]⟩

theorem defaultIter_step (f : Keep σ) {cd : Bool} {pol : Pol} {k : Option Bool} {s : Src} {t : List Tok} {l : List Item}
    (ha : At k s t) (h : RecsD cd k t l) (q : σ) :
    (walk f q l = none → (defaultIter f cd pol (q, s)).1 = none) ∧
    (∀ x q' l', walk f q l = some (x, q', l') → ∃ r s' t', x = .ok r ∧ defaultIter f cd pol (q, s) = (some r, (q', s')) ∧
      At k s' t' ∧ RecsD cd k t' l') := by
  obtain ⟨rfl, rfl⟩ := ha
  obtain ⟨s', h1, h2, h3⟩ := defaultNext_eq f cd pol (s.size + 1) q s (by have := toks_length s; omega)
  obtain ⟨g1, g2⟩ := recsD_defaultT f h q
  unfold defaultIter
  rw [h1]
  refine ⟨g1, ?_⟩
  intro x q' l' hw
  obtain ⟨r, t', e1, e2, e3⟩ := g2 x q' l' hw
  rw [e2] at h2 ⊢
  exact ⟨r, s', t', e1, rfl, ⟨h2, h3⟩, e3⟩

theorem fallibleIter_step (f : Keep σ) {pol : Pol} {k : Option Bool} {s : Src} {t : List Tok} {l : List Item}
    (ha : At k s t) (h : RecsF k t l) (q : σ) :
    (walk f q l = none → (fallibleIter f pol (q, s)).1 = none) ∧
    (∀ x q' l', walk f q l = some (x, q', l') → ∃ s' t', fallibleIter f pol (q, s) = (some x, (q', s')) ∧
      At k s' t' ∧ RecsF k t' l') := by
  obtain ⟨rfl, rfl⟩ := ha
  obtain ⟨s', h1, h2, h3⟩ := fallibleNext_eq f pol (s.size + 1) q s (by have := toks_length s; omega)
  obtain ⟨g1, g2⟩ := recsF_fallibleT f h q
  unfold fallibleIter
  rw [h1]
  refine ⟨g1, ?_⟩
  intro x q' l' hw
  obtain ⟨t', e2, e3⟩ := g2 x q' l' hw
  rw [e2] at h2 ⊢
  exact ⟨s', t', rfl, ⟨h2, h3⟩, e3⟩

/-! ### elements -/

theorem recordToElems_table (el : Elementor) {r : MrtRecord} {t : PeerIndexTable} (h : r.message = .tableDumpV2 (.peerIndexTable t)) :
    el.recordToElems r = ([], ⟨some t⟩) := by
  unfold Elementor.recordToElems Elementor.setPeerTable
  rw [h]

theorem recordToElems_other (el : Elementor) {r : MrtRecord} (h : ¬ IsTable r) : (el.recordToElems r).2 = el := by
  unfold Elementor.recordToElems
  split
  · next t ht => exact absurd ⟨t, ht⟩ h
  · split <;> rfl

/-- the elements of the items. -/
def elemItems (el : Elementor) : List Item → List (Except RecErr BgpElem)
  | [] => []
  | .error e :: l => .error e :: elemItems el l
  | .ok r :: l => (el.recordToElems r).1.map .ok ++ elemItems (el.recordToElems r).2 l

/-- errors pass, elements if they match. -/
def passItem (p : BgpElem → Bool) : Except RecErr BgpElem → Bool
  | .error _ => true
  | .ok e => p e

theorem filter_map_ok (p : BgpElem → Bool) (es : List BgpElem) :
    (es.map (Except.ok (ε := RecErr))).filter (passItem p) = (es.filter p).map .ok := by
  induction es with
  | nil => rfl
  | cons e es ih =>
    simp only [List.map_cons, List.filter_cons, passItem, ih]
    split <;> rfl

theorem filterKeep_empty (env : TextEnv) (q : Elementor) (r : MrtRecord) : (filterKeep env []).step q r = (true, q) := rfl

theorem filterKeep_step (env : TextEnv) (fs : List (Filter env.Rx)) (hf : fs ≠ []) (q : Elementor) (r : MrtRecord) :
    ((filterKeep env fs).step q r).2 = (q.recordToElems r).2 ∧
    (((filterKeep env fs).step q r).1 = true ↔ IsTable r ∨ ∃ e ∈ (q.recordToElems r).1, e.matchFilters env fs = true) := by
  have he : fs.isEmpty = false := by cases fs <;> simp_all
  by_cases ht : IsTable r
  · obtain ⟨t, ht⟩ := ht
    have hs : (filterKeep env fs).step q r = (true, (q.recordToElems r).2) := by
      show (if fs.isEmpty = true then _ else _) = _
      rw [he]
      simp only [Bool.false_eq_true, if_false]
      rw [ht]
    rw [hs]
    exact ⟨rfl, by simp [show IsTable r from ⟨t, ht⟩]⟩
  · have hs : (filterKeep env fs).step q r =
        (if (q.recordToElems r).1.isEmpty then (false, (q.recordToElems r).2)
         else ((q.recordToElems r).1.any fun e => e.matchFilters env fs, (q.recordToElems r).2)) := by
      show (if fs.isEmpty = true then _ else _) = _
      rw [he]
      simp only [Bool.false_eq_true, if_false]
      split
      · next t ht' => exact absurd ⟨t, ht'⟩ ht
      · rfl
    rw [hs]
    cases (q.recordToElems r).1 with
    | nil => simp [ht]
    | cons e es => simp [ht]

/-- the two elementors of an element iterator agree (without filters one of them is not used). -/
def Agree (fs : List (Filter Rx)) (el q : Elementor) : Prop := fs = [] ∨ q = el

theorem walk_elems (env : TextEnv) (fs : List (Filter env.Rx)) (el : Elementor) (l : List Item) : ∀ q, Agree fs el q →
    (walk (filterKeep env fs) q l = none → (elemItems el l).filter (passItem fun e => e.matchFilters env fs) = []) ∧
    (∀ q' e l', walk (filterKeep env fs) q l = some (.error e, q', l') →
      (elemItems el l).filter (passItem fun e => e.matchFilters env fs) =
        .error e :: (elemItems el l').filter (passItem fun e => e.matchFilters env fs) ∧ Agree fs el q') ∧
    (∀ q' r l', walk (filterKeep env fs) q l = some (.ok r, q', l') →
      (elemItems el l).filter (passItem fun e => e.matchFilters env fs) =
        ((el.recordToElems r).1.filter fun e => e.matchFilters env fs).map .ok ++
          (elemItems (el.recordToElems r).2 l').filter (passItem fun e => e.matchFilters env fs) ∧
      Agree fs (el.recordToElems r).2 q') := by
  induction l with
  | nil => intro q _; exact ⟨fun _ => rfl, by simp [walk], by simp [walk]⟩
  | cons i l ih =>
    intro q ha
    cases i with
    | error e =>
      refine ⟨by simp [walk], ?_, by simp [walk]⟩
      intro q' e' l' h
      cases h
      exact ⟨rfl, ha⟩
    | ok r =>
      by_cases hs : ((filterKeep env fs).step q r).1 = true
      · simp only [walk, hs, if_true]
        refine ⟨by simp, by simp, ?_⟩
        intro q' r' l' h
        simp only [Option.some.injEq, Prod.mk.injEq, Except.ok.injEq] at h
        obtain ⟨rfl, rfl, rfl⟩ := h
        refine ⟨?_, ?_⟩
        · simp only [elemItems, List.filter_append, filter_map_ok]
        · rcases ha with rfl | rfl
          · exact .inl rfl
          · by_cases hf : fs = []
            · exact .inl hf
            · exact .inr (filterKeep_step env fs hf q r).1
      · simp only [walk, hs, Bool.false_eq_true, if_false]
        have hf : fs ≠ [] := by
          rintro rfl; exact hs rfl
        have hq : q = el := by rcases ha with h | h; exact absurd h hf; exact h
        subst hq
        obtain ⟨g1, g2⟩ := filterKeep_step env fs hf q r
        rw [g2] at hs
        have ht : ¬ IsTable r := fun h => hs (.inl h)
        have hn : (q.recordToElems r).1.filter (fun e => e.matchFilters env fs) = [] := by
          rw [List.filter_eq_nil_iff]
          intro e he hm
          exact hs (.inr ⟨e, he, hm⟩)
        have he : (elemItems q (.ok r :: l)).filter (passItem fun e => e.matchFilters env fs) =
            (elemItems q l).filter (passItem fun e => e.matchFilters env fs) := by
          simp only [elemItems, List.filter_append, filter_map_ok, hn, recordToElems_other q ht, List.map_nil, List.nil_append]
        rw [he, g1, recordToElems_other q ht]
        exact ih q (.inr rfl)

theorem popMatch_spec (p : BgpElem → Bool) (n : Nat) : ∀ c : List BgpElem, c.length ≤ n →
    (c.reverse.filter p = [] → popMatch p n c = (none, [])) ∧
    (∀ e l, c.reverse.filter p = e :: l → ∃ c', popMatch p n c = (some e, c') ∧ c'.reverse.filter p = l) := by
  induction n with
  | zero =>
    intro c hc
    have : c = [] := List.length_eq_zero_iff.1 (by omega)
    subst this
    exact ⟨fun _ => rfl, by simp⟩
  | succ n ih =>
    intro c hc
    rcases List.eq_nil_or_concat c with rfl | ⟨d, x, rfl⟩
    · exact ⟨fun _ => rfl, by simp⟩
    · have hr : (d.concat x).reverse.filter p = if p x = true then x :: d.reverse.filter p else d.reverse.filter p := by
        rw [List.concat_eq_append, List.reverse_append]
        simp [List.filter_cons]
      have hp : popMatch p (n + 1) (d.concat x) = if p x = true then (some x, d) else popMatch p n d := by
        simp [popMatch]
      rw [hr, hp]
      by_cases hx : p x = true
      · simp only [hx, if_true]
        refine ⟨by simp, ?_⟩
        intro e l h
        simp only [List.cons.injEq] at h
        obtain ⟨rfl, rfl⟩ := h
        exact ⟨d, rfl, rfl⟩
      · simp only [hx, Bool.false_eq_true, if_false]
        exact ih d (by simp at hc; omega)

/-- What an element iterator still has to say. -/
def Future (R : List Tok → List Item → Prop) (env : TextEnv) (fs : List (Filter env.Rx)) (k : Option Bool) (it : ElemIter)
    (l : List (Except RecErr BgpElem)) : Prop :=
  ∃ t items, At k it.records.2 t ∧ R t items ∧ items.length ≤ it.records.2.size ∧ Agree fs it.elementor it.records.1 ∧
    l = (it.cache.reverse.filter fun e => e.matchFilters env fs).map .ok ++
      (elemItems it.elementor items).filter (passItem fun e => e.matchFilters env fs)

theorem recsD_length {cd : Bool} {k : Option Bool} {t : List Tok} {l : List Item} (h : RecsD cd k t l) : l.length ≤ t.length := by
  induction h with
  | ok hc _ ih =>
    rcases nextT_progress hc with hp | ⟨e, he, _⟩
    · simp; omega
    · cases he
  | skip hc hg _ ih =>
    rcases nextT_progress hc with hp | ⟨e, he, hp⟩
    · omega
    · cases he; rw [hp] at hg; cases hg
  | stop => simp

theorem recsF_length {k : Option Bool} (hk : k ≠ some false) {t : List Tok} {l : List Item} (h : RecsF k t l) : l.length ≤ t.length := by
  induction h with
  | @ok t r t' l hc _ ih =>
    have hp := fallibleT_progress keepAll k hk t.length () t _ (Nat.le_refl _) rfl
    rw [fallibleT_of_ok keepAll () hc] at hp
    have := hp rfl
    simp only [keepAll, if_true] at this
    simp; omega
  | @error t e t' l hc he _ ih =>
    have hp := fallibleT_progress keepAll k hk t.length () t _ (Nat.le_refl _) rfl
    rw [fallibleT_of_error keepAll () hc, if_neg he] at hp
    have := hp rfl
    simp only at this
    simp; omega
  | stop => simp

theorem refill_spec (env : TextEnv) (fs : List (Filter env.Rx)) (cd : Bool) (pol : Pol) (k : Option Bool) (fuel : Nat) :
    ∀ (it : ElemIter) (t : List Tok) (items : List Item), it.cache = [] → At k it.records.2 t → RecsD cd k t items →
      Agree fs it.elementor it.records.1 → items.length < fuel → ∀ l,
      (elemItems it.elementor items).filter (passItem fun e => e.matchFilters env fs) = l →
      (l = [] → (refill env fs cd pol fuel it).1 = none) ∧
      (∀ x l', l = x :: l' → ∃ e it', x = .ok e ∧ refill env fs cd pol fuel it = (some e, it') ∧
        Future (RecsD cd k) env fs k it' l') := by
  induction fuel with
  | zero => intro it t items _ _ _ _ h; omega
  | succ fuel ih =>
    intro it t items hc ha hr hag hlt l hl
    obtain ⟨cache, el, q, s⟩ := it
    simp only at hc ha hag hl
    subst hc
    obtain ⟨g1, g2⟩ := defaultIter_step (filterKeep env fs) (pol := pol) ha hr q
    obtain ⟨w1, w2, w3⟩ := walk_elems env fs el items q hag
    cases hw : walk (filterKeep env fs) q items with
    | none =>
      have h1 := g1 hw
      have h2 := w1 hw
      rw [hl] at h2
      subst h2
      refine ⟨fun _ => ?_, by simp⟩
      simp only [refill]
      generalize defaultIter (filterKeep env fs) cd pol (q, s) = y at h1
      obtain ⟨y, z⟩ := y
      simp only at h1
      subst h1; rfl
    | some w =>
      obtain ⟨x, q', items'⟩ := w
      obtain ⟨r, s', t', rfl, e2, e3, e4⟩ := g2 _ _ _ hw
      obtain ⟨v1, v2⟩ := w3 _ _ _ hw
      have hlen := walk_length _ _ _ _ _ _ hw
      rw [hl] at v1
      simp only [refill, e2]
      generalize hre : el.recordToElems r = re at v1 v2
      obtain ⟨es, el'⟩ := re
      simp only at v1 v2 ⊢
      by_cases hes : es.isEmpty = true
      · have : es = [] := by simpa using hes
        subst this
        simp only [List.isEmpty_nil, if_true]
        refine ih ⟨[], el', q', s'⟩ t' items' rfl e3 e4 v2 (by omega) l ?_
        rw [v1]; rfl
      · simp only [hes, if_false]
        obtain ⟨p1, p2⟩ := popMatch_spec (fun e => e.matchFilters env fs) es.length es.reverse (by simp)
        rw [List.reverse_reverse] at p1 p2
        cases hf : es.filter (fun e => e.matchFilters env fs) with
        | nil =>
          rw [p1 hf]
          simp only
          refine ih ⟨[], el', q', s'⟩ t' items' rfl e3 e4 v2 (by omega) l ?_
          rw [v1, hf]; rfl
        | cons e l0 =>
          obtain ⟨c', h1, h2⟩ := p2 e l0 hf
          rw [h1]
          simp only
          rw [hf] at v1
          refine ⟨?_, ?_⟩
          · rintro rfl; simp at v1
          · intro x l' hx
            rw [hx, List.map_cons, List.cons_append, List.cons.injEq] at v1
            refine ⟨e, _, v1.1, rfl, t', items', e3, e4, ?_, v2, ?_⟩
            · have := toks_length s'
              have h3 := recsD_length e4
              rw [← e3.1] at h3
              exact Nat.le_trans h3 this
            · rw [v1.2, h2]

theorem elemNext_spec (env : TextEnv) (fs : List (Filter env.Rx)) (cd : Bool) (pol : Pol) (k : Option Bool) (it : ElemIter)
    (l : List (Except RecErr BgpElem)) (h : Future (RecsD cd k) env fs k it l) :
    (l = [] → (elemNext env fs cd pol it).1 = none) ∧
    (∀ x l', l = x :: l' → ∃ e it', x = .ok e ∧ elemNext env fs cd pol it = (some e, it') ∧
      Future (RecsD cd k) env fs k it' l') := by
  obtain ⟨t, items, h1, h2, h3, h4, h5⟩ := h
  obtain ⟨p1, p2⟩ := popMatch_spec (fun e => e.matchFilters env fs) it.cache.length it.cache (Nat.le_refl _)
  unfold elemNext
  cases hf : it.cache.reverse.filter (fun e => e.matchFilters env fs) with
  | nil =>
    rw [p1 hf]
    simp only
    rw [hf] at h5
    exact refill_spec env fs cd pol k _ ⟨[], it.elementor, it.records⟩ t items rfl h1 h2 h4 (by show _ < it.records.2.size + 1; omega) l h5.symm
  | cons e l0 =>
    obtain ⟨c', g1, g2⟩ := p2 e l0 hf
    rw [g1]
    simp only
    rw [hf] at h5
    refine ⟨?_, ?_⟩
    · rintro rfl; simp at h5
    · intro x l' hx
      rw [hx, List.map_cons, List.cons_append, List.cons.injEq] at h5
      exact ⟨e, _, h5.1, rfl, t, items, h1, h2, h3, h4, by rw [h5.2, g2]⟩

theorem refillFallible_spec (env : TextEnv) (fs : List (Filter env.Rx)) (pol : Pol) (k : Option Bool) (hk : k ≠ some false)
    (fuel : Nat) :
    ∀ (it : ElemIter) (t : List Tok) (items : List Item), it.cache = [] → At k it.records.2 t → RecsF k t items →
      Agree fs it.elementor it.records.1 → items.length < fuel → ∀ l,
      (elemItems it.elementor items).filter (passItem fun e => e.matchFilters env fs) = l →
      (l = [] → (refillFallible env fs pol fuel it).1 = none) ∧
      (∀ x l', l = x :: l' → ∃ it', refillFallible env fs pol fuel it = (some x, it') ∧
        Future (RecsF k) env fs k it' l') := by
  induction fuel with
  | zero => intro it t items _ _ _ _ h; omega
  | succ fuel ih =>
    intro it t items hc ha hr hag hlt l hl
    obtain ⟨cache, el, q, s⟩ := it
    simp only at hc ha hag hl
    subst hc
    obtain ⟨g1, g2⟩ := fallibleIter_step (filterKeep env fs) (pol := pol) ha hr q
    obtain ⟨w1, w2, w3⟩ := walk_elems env fs el items q hag
    cases hw : walk (filterKeep env fs) q items with
    | none =>
      have h1 := g1 hw
      have h2 := w1 hw
      rw [hl] at h2
      subst h2
      refine ⟨fun _ => ?_, by simp⟩
      simp only [refillFallible]
      generalize fallibleIter (filterKeep env fs) pol (q, s) = y at h1
      obtain ⟨y, z⟩ := y
      simp only at h1
      subst h1; rfl
    | some w =>
      obtain ⟨x, q', items'⟩ := w
      obtain ⟨s', t', e2, e3, e4⟩ := g2 _ _ _ hw
      have hlen := walk_length _ _ _ _ _ _ hw
      have hsz : items'.length ≤ s'.size := by
        have := toks_length s'
        have h3 := recsF_length hk e4
        rw [← e3.1] at h3
        exact Nat.le_trans h3 this
      cases x with
      | error e =>
        obtain ⟨v1, v2⟩ := w2 _ _ _ hw
        rw [hl] at v1
        simp only [refillFallible, e2]
        refine ⟨?_, ?_⟩
        · rintro rfl; cases v1
        · intro x l' hx
          rw [hx, List.cons.injEq] at v1
          obtain ⟨rfl, v1⟩ := v1
          refine ⟨_, rfl, t', items', e3, e4, hsz, v2, ?_⟩
          rw [v1]; rfl
      | ok r =>
        obtain ⟨v1, v2⟩ := w3 _ _ _ hw
        rw [hl] at v1
        simp only [refillFallible, e2]
        generalize hre : el.recordToElems r = re at v1 v2
        obtain ⟨es, el'⟩ := re
        simp only at v1 v2 ⊢
        by_cases hes : es.isEmpty = true
        · have : es = [] := by simpa using hes
          subst this
          simp only [List.isEmpty_nil, if_true]
          refine ih ⟨[], el', q', s'⟩ t' items' rfl e3 e4 v2 (by omega) l ?_
          rw [v1]; rfl
        · simp only [hes, if_false]
          obtain ⟨p1, p2⟩ := popMatch_spec (fun e => e.matchFilters env fs) es.length es.reverse (by simp)
          rw [List.reverse_reverse] at p1 p2
          cases hf : es.filter (fun e => e.matchFilters env fs) with
          | nil =>
            rw [p1 hf]
            simp only
            refine ih ⟨[], el', q', s'⟩ t' items' rfl e3 e4 v2 (by omega) l ?_
            rw [v1, hf]; rfl
          | cons e l0 =>
            obtain ⟨c', h1, h2⟩ := p2 e l0 hf
            rw [h1]
            simp only
            rw [hf] at v1
            refine ⟨?_, ?_⟩
            · rintro rfl; simp at v1
            · intro x l' hx
              rw [hx, List.map_cons, List.cons_append, List.cons.injEq] at v1
              obtain ⟨rfl, v1⟩ := v1
              exact ⟨_, rfl, t', items', e3, e4, hsz, v2, by rw [v1, h2]⟩

theorem fallibleElemNext_spec (env : TextEnv) (fs : List (Filter env.Rx)) (pol : Pol) (k : Option Bool) (hk : k ≠ some false)
    (it : ElemIter) (l : List (Except RecErr BgpElem)) (h : Future (RecsF k) env fs k it l) :
    (l = [] → (fallibleElemNext env fs pol it).1 = none) ∧
    (∀ x l', l = x :: l' → ∃ it', fallibleElemNext env fs pol it = (some x, it') ∧
      Future (RecsF k) env fs k it' l') := by
  obtain ⟨t, items, h1, h2, h3, h4, h5⟩ := h
  obtain ⟨p1, p2⟩ := popMatch_spec (fun e => e.matchFilters env fs) it.cache.length it.cache (Nat.le_refl _)
  unfold fallibleElemNext
  cases hf : it.cache.reverse.filter (fun e => e.matchFilters env fs) with
  | nil =>
    rw [p1 hf]
    simp only
    rw [hf] at h5
    exact refillFallible_spec env fs pol k hk _ ⟨[], it.elementor, it.records⟩ t items rfl h1 h2 h4 (by show _ < it.records.2.size + 1; omega) l h5.symm
  | cons e l0 =>
    obtain ⟨c', g1, g2⟩ := p2 e l0 hf
    rw [g1]
    simp only
    rw [hf] at h5
    refine ⟨?_, ?_⟩
    · rintro rfl; simp at h5
    · intro x l' hx
      rw [hx, List.map_cons, List.cons_append, List.cons.injEq] at h5
      obtain ⟨rfl, h5⟩ := h5
      exact ⟨_, rfl, t, items, h1, h2, h3, h4, by rw [h5, g2]⟩

/-! ### loops -/

/-- a loop over an iterator that says a list. -/
theorem forLoop_list {next : S → Option α × S} {Says : S → List α → Prop}
    (h : ∀ s l, Says s l → (l = [] → (next s).1 = none) ∧ (∀ x l', l = x :: l' → ∃ s', next s = (some x, s') ∧ Says s' l'))
    (n : Nat) : ∀ s l, Says s l → (forLoop next n s).1 = l.take n ∧ ((forLoop next n s).2.1 = true ↔ l.length < n) := by
  induction n with
  | zero => intro s l _; simp [forLoop]
  | succ n ih =>
    intro s l hs
    obtain ⟨h1, h2⟩ := h s l hs
    cases l with
    | nil =>
      have := h1 rfl
      simp only [forLoop]
      generalize next s = y at this
      obtain ⟨y, s'⟩ := y
      simp only at this
      subst this; simp
    | cons x l =>
      obtain ⟨s', e1, e2⟩ := h2 x l rfl
      obtain ⟨g1, g2⟩ := ih s' l e2
      simp only [forLoop, e1]
      exact ⟨by rw [g1]; rfl, by rw [g2]; simp⟩

/-- the items that a filter leaves. -/
def recItems (f : Keep σ) (q : σ) : List Item → List Item
  | [] => []
  | .error e :: l => .error e :: recItems f q l
  | .ok r :: l => if (f.step q r).1 then .ok r :: recItems f (f.step q r).2 l else recItems f (f.step q r).2 l

theorem walk_recItems (f : Keep σ) (l : List Item) : ∀ q,
    (recItems f q l = [] → walk f q l = none) ∧
    (∀ x l', recItems f q l = x :: l' → ∃ q' l0, walk f q l = some (x, q', l0) ∧ l' = recItems f q' l0) := by
  induction l with
  | nil => intro q; exact ⟨fun _ => rfl, by simp [recItems]⟩
  | cons i l ih =>
    intro q
    cases i with
    | error e =>
      refine ⟨by simp [recItems], ?_⟩
      intro x l' h
      simp only [recItems, List.cons.injEq] at h
      exact ⟨q, l, by rw [← h.1]; rfl, h.2.symm⟩
    | ok r =>
      simp only [recItems, walk]
      split
      · refine ⟨by simp, ?_⟩
        intro x l' h
        simp only [List.cons.injEq] at h
        exact ⟨_, l, by rw [← h.1], h.2.symm⟩
      · exact ih _

theorem recItems_keepAll (l : List Item) : recItems keepAll () l = l := by
  induction l with
  | nil => rfl
  | cons i l ih =>
    cases i with
    | error e => show _ :: recItems keepAll () l = _; rw [ih]
    | ok r => show (if true = true then Except.ok r :: recItems keepAll () l else recItems keepAll () l) = _; rw [if_pos rfl, ih]

theorem recsD_all {cd : Bool} {k : Option Bool} {t : List Tok} {l : List Item} (h : RecsD cd k t l) : ∃ rs : List MrtRecord, l = rs.map .ok := by
  induction h with
  | ok _ _ ih => obtain ⟨rs, rfl⟩ := ih; exact ⟨_ :: rs, rfl⟩
  | skip _ _ _ ih => exact ih
  | stop => exact ⟨[], rfl⟩

theorem recItems_ok (f : Keep σ) (rs : List MrtRecord) : ∀ q, ∃ out : List MrtRecord, recItems f q (rs.map .ok) = out.map .ok := by
  induction rs with
  | nil => intro q; exact ⟨[], rfl⟩
  | cons r rs ih =>
    intro q
    simp only [List.map_cons, recItems]
    obtain ⟨out, h⟩ := ih (f.step q r).2
    rw [h]
    split
    · exact ⟨r :: out, rfl⟩
    · exact ⟨out, rfl⟩

/-- the loops over a record iterator. -/
theorem forLoop_records (f : Keep σ) (cd : Bool) (pol : Pol) (k : Option Bool) (s : Src) (t : List Tok) (items : List Item)
    (ha : At k s t) (hr : RecsD cd k t items) (q : σ) (out : List MrtRecord) (ho : recItems f q items = out.map .ok) (n : Nat) :
    (forLoop (defaultIter f cd pol) n (q, s)).1 = out.take n ∧
    ((forLoop (defaultIter f cd pol) n (q, s)).2.1 = true ↔ out.length < n) := by
  refine forLoop_list (Says := fun qs out => ∃ t items, At k qs.2 t ∧ RecsD cd k t items ∧ recItems f qs.1 items = out.map .ok)
    ?_ n (q, s) out ⟨t, items, ha, hr, ho⟩
  rintro ⟨q, s⟩ out ⟨t, items, ha, hr, ho⟩
  obtain ⟨g1, g2⟩ := defaultIter_step f (pol := pol) ha hr q
  obtain ⟨w1, w2⟩ := walk_recItems f items q
  refine ⟨?_, ?_⟩
  · rintro rfl
    exact g1 (w1 ho)
  · rintro x l' rfl
    obtain ⟨q', l0, e1, e2⟩ := w2 _ _ ho
    obtain ⟨r, s', t', d1, d2, d3, d4⟩ := g2 _ _ _ e1
    cases d1
    exact ⟨(q', s'), d2, t', l0, d3, d4, e2.symm⟩

theorem forLoop_fallibleRecords (f : Keep σ) (pol : Pol) (k : Option Bool) (s : Src) (t : List Tok) (items : List Item)
    (ha : At k s t) (hr : RecsF k t items) (q : σ) (n : Nat) :
    (forLoop (fallibleIter f pol) n (q, s)).1 = (recItems f q items).take n ∧
    ((forLoop (fallibleIter f pol) n (q, s)).2.1 = true ↔ (recItems f q items).length < n) := by
  refine forLoop_list (Says := fun qs out => ∃ t items, At k qs.2 t ∧ RecsF k t items ∧ recItems f qs.1 items = out)
    ?_ n (q, s) _ ⟨t, items, ha, hr, rfl⟩
  rintro ⟨q, s⟩ out ⟨t, items, ha, hr, ho⟩
  obtain ⟨g1, g2⟩ := fallibleIter_step f (pol := pol) ha hr q
  obtain ⟨w1, w2⟩ := walk_recItems f items q
  refine ⟨?_, ?_⟩
  · rintro rfl
    exact g1 (w1 ho)
  · rintro x l' rfl
    obtain ⟨q', l0, e1, e2⟩ := w2 _ _ ho
    obtain ⟨s', t', d2, d3, d4⟩ := g2 _ _ _ e1
    exact ⟨(q', s'), d2, t', l0, d3, d4, e2.symm⟩

/-! ### against the specification -/

/-- the elementor after some records. -/
def after (hist : List MrtRecord) : Elementor := hist.foldl (fun (el : Elementor) r => (el.recordToElems r).2) Elementor.new

theorem after_append (hist : List MrtRecord) (r : MrtRecord) : after (hist ++ [r]) = ((after hist).recordToElems r).2 := by
  simp [after, List.foldl_append]

theorem elemItems_after (l : List Item) : ∀ hist, elemItems (after hist) l = elemsFromItems hist l := by
  induction l with
  | nil => intro hist; rfl
  | cons i l ih =>
    intro hist
    cases i with
    | error e => simp only [elemItems, elemsFromItems, ih]
    | ok r => rw [elemItems, elemsFromItems, ← after_append, ih]; rfl

theorem elemsFromItems_ok (rs : List MrtRecord) : ∀ hist, elemsFromItems hist (rs.map .ok) = (elemsFrom hist rs).map .ok := by
  induction rs with
  | nil => intro hist; rfl
  | cons r rs ih => intro hist; simp only [List.map_cons, elemsFromItems, elemsFrom, ih, List.map_append]

theorem keptItems_recItems (env : TextEnv) (fs : List (Filter env.Rx)) (hf : fs ≠ []) (l : List Item) : ∀ hist,
    KeptItems (fun e => e.matchFilters env fs = true) hist l (recItems (filterKeep env fs) (after hist) l) := by
  induction l with
  | nil => intro hist; exact .nil
  | cons i l ih =>
    intro hist
    cases i with
    | error e => exact .error (ih hist)
    | ok r =>
      obtain ⟨g1, g2⟩ := filterKeep_step env fs hf (after hist) r
      simp only [recItems, g1, ← after_append]
      split
      · next h => exact .keep (g2.1 h) (ih _)
      · next h =>
        rw [g2] at h
        exact .drop (fun ht => h (.inl ht)) (fun e he hp => h (.inr ⟨e, he, hp⟩)) (ih _)

theorem kept_of_items {P : BgpElem → Prop} {rs : List MrtRecord} : ∀ {hist : List MrtRecord} {out : List MrtRecord},
    KeptItems P hist (rs.map .ok) (out.map .ok) → Kept P hist rs out := by
  induction rs with
  | nil =>
    intro hist out h
    cases out with
    | nil => exact .nil
    | cons => cases h
  | cons r rs ih =>
    intro hist out h
    rw [List.map_cons] at h
    generalize ho : out.map Except.ok = o at h
    cases h with
    | keep h1 h2 =>
      cases out with
      | nil => cases ho
      | cons r' out =>
        simp only [List.map_cons, List.cons.injEq, Except.ok.injEq] at ho
        obtain ⟨rfl, rfl⟩ := ho
        exact .keep h1 (ih h2)
    | drop h1 h2 h3 =>
      subst ho
      exact .drop h1 h2 (ih h3)

end Verif
