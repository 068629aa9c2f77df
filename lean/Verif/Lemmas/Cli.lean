import Verif.Spec.Cli
import Verif.Props.FilterText
import Verif.Lemmas.Display
/-
The options of the command line tool.
-/
namespace Verif
open Spec Props

theorem isWs_iff (c : Char) : isWs c = true ↔ White c := by
  simp only [isWs, List.contains_eq_mem, List.mem_cons, List.not_mem_nil, or_false, decide_eq_true_eq, White]
  omega

theorem isWs_false (c : Char) : isWs c = false ↔ ¬ White c := by
  rw [← isWs_iff]; simp

theorem dropWhile_all {p : α → Bool} : ∀ {l : List α}, (∀ c ∈ l, p c = true) → ∀ r, (l ++ r).dropWhile p = r.dropWhile p
  | [], _, _ => rfl
  | c :: l, h, r => by
    rw [List.cons_append, List.dropWhile_cons, if_pos (h c (by simp))]
    exact dropWhile_all (fun x hx => h x (List.mem_cons_of_mem _ hx)) r

theorem dropWhile_split (p : α → Bool) (l : List α) : ∃ a, l = a ++ l.dropWhile p ∧ ∀ c ∈ a, p c = true :=
  ⟨l.takeWhile p, (List.takeWhile_append_dropWhile).symm, fun c hc => by
    induction l with
    | nil => simp at hc
    | cons x l ih =>
      rw [List.takeWhile_cons] at hc
      split at hc
      · next h =>
        rcases List.mem_cons.1 hc with rfl | hc
        · exact h
        · exact ih hc
      · simp at hc⟩

theorem dropWhile_head (p : α → Bool) : ∀ (l : List α) (c : α), (l.dropWhile p).head? = some c → p c = false
  | [], c, h => by simp at h
  | x :: l, c, h => by
    rw [List.dropWhile_cons] at h
    split at h
    · exact dropWhile_head p l c h
    · next hx =>
      simp at h
      subst h
      simpa using hx

theorem dropWhile_self {p : α → Bool} {l : List α} (h : ∀ c, l.head? = some c → p c = false) : l.dropWhile p = l := by
  cases l with
  | nil => rfl
  | cons x l =>
    rw [List.dropWhile_cons, if_neg (by simp [h x rfl])]

/-- what `trim` does. -/
theorem trimText_spec (s : List Char) : ∃ l r, s = l ++ trimText s ++ r ∧ (∀ c ∈ l, White c) ∧ (∀ c ∈ r, White c) ∧
    (∀ c, (trimText s).head? = some c → ¬ White c) ∧ (∀ c, (trimText s).getLast? = some c → ¬ White c) := by
  obtain ⟨l, h1, h2⟩ := dropWhile_split isWs s
  obtain ⟨r, h3, h4⟩ := dropWhile_split isWs (s.dropWhile isWs).reverse
  refine ⟨l, r.reverse, ?_, fun c hc => (isWs_iff c).1 (h2 c hc), fun c hc => (isWs_iff c).1 (h4 c (by simpa using hc)), ?_, ?_⟩
  · have : s.dropWhile isWs = trimText s ++ r.reverse := by
      rw [trimText, ← List.reverse_append, ← h3, List.reverse_reverse]
    rw [List.append_assoc, ← this]
    exact h1
  · intro c hc
    have : s.dropWhile isWs = trimText s ++ r.reverse := by
      rw [trimText, ← List.reverse_append, ← h3, List.reverse_reverse]
    refine (isWs_false c).1 (dropWhile_head isWs s c ?_)
    rw [this]
    cases ht : trimText s with
    | nil => rw [ht] at hc; simp at hc
    | cons x t => rw [ht] at hc; exact hc
  · intro c hc
    rw [trimText, List.getLast?_reverse] at hc
    exact (isWs_false c).1 (dropWhile_head isWs _ c hc)

theorem padded_trim {s : List Char} (h : trimText s ≠ []) : Blanked (trimText s) s := by
  obtain ⟨l, r, h1, h2, h3, h4, h5⟩ := trimText_spec s
  exact ⟨l, r, h1, h2, h3, h, h4, h5⟩

theorem trim_blanked {k s : List Char} (h : Blanked k s) : trimText s = k := by
  obtain ⟨l, r, rfl, h2, h3, h4, h5, h6⟩ := h
  have e1 : (l ++ k ++ r).dropWhile isWs = k ++ r := by
    rw [List.append_assoc, dropWhile_all (fun c hc => (isWs_iff c).2 (h2 c hc))]
    refine dropWhile_self fun c hc => (isWs_false c).2 (h5 c ?_)
    cases k with
    | nil => exact absurd rfl h4
    | cons x k => exact hc
  rw [trimText, e1, List.reverse_append, dropWhile_all (fun c hc => (isWs_iff c).2 (h3 c (by simpa using hc))),
    dropWhile_self, List.reverse_reverse]
  intro c hc
  refine (isWs_false c).2 (h6 c ?_)
  rwa [List.head?_reverse] at hc

theorem findNe_cons (c : Char) (cs : List Char) (h : ∀ r, c = '!' → cs ≠ '=' :: r) :
    findNe (c :: cs) = match findNe cs with | some (a, b) => some (c :: a, b) | none => none := by
  conv => lhs; unfold findNe
  split
  · next r => exact absurd rfl (h r rfl)
  · rfl

theorem ne_infix_cons (c : Char) (cs : List Char) (h : ∀ r, c = '!' → cs ≠ '=' :: r) :
    ['!', '='] <:+: c :: cs ↔ ['!', '='] <:+: cs := by
  rw [List.infix_cons_iff]
  constructor
  · rintro (⟨r, hr⟩ | h')
    · cases hr
      exact absurd rfl (h r rfl)
    · exact h'
  · exact .inr

theorem findNe_none : ∀ s, findNe s = none ↔ ¬ ['!', '='] <:+: s
  | [] => by simp [findNe]
  | c :: cs => by
    by_cases h : ∀ r, c = '!' → cs ≠ '=' :: r
    · rw [findNe_cons c cs h, ne_infix_cons c cs h, ← findNe_none cs]
      cases findNe cs <;> simp
    · have : ∃ r, c = '!' ∧ cs = '=' :: r := by
        apply Classical.byContradiction
        intro hn
        exact h fun r h1 h2 => hn ⟨r, h1, h2⟩
      obtain ⟨r, rfl, rfl⟩ := this
      simp only [findNe]
      constructor
      · intro h; cases h
      · intro h; exact absurd ⟨[], r, rfl⟩ h

theorem findNe_some : ∀ s a b, findNe s = some (a, b) ↔ s = a ++ '!' :: '=' :: b ∧ ¬ ['!', '='] <:+: a
  | [], a, b => by simp [findNe]
  | c :: cs, a, b => by
    by_cases h : ∀ r, c = '!' → cs ≠ '=' :: r
    · rw [findNe_cons c cs h]
      constructor
      · intro hf
        cases hr : findNe cs with
        | none => rw [hr] at hf; cases hf
        | some p =>
          obtain ⟨a', b'⟩ := p
          rw [hr] at hf
          cases hf
          obtain ⟨h1, h2⟩ := (findNe_some cs a' _).1 hr
          refine ⟨by rw [h1]; rfl, ?_⟩
          rw [ne_infix_cons]
          · exact h2
          · rintro r rfl rfl
            rw [h1] at h
            exact h _ rfl rfl
      · rintro ⟨h1, h2⟩
        cases a with
        | nil =>
          cases h1
          exact absurd rfl (h b rfl)
        | cons x a =>
          rw [List.cons_append] at h1
          cases h1
          have h3 : ¬ ['!', '='] <:+: a := fun hh => h2 (List.infix_cons hh)
          rw [(findNe_some _ a b).2 ⟨rfl, h3⟩]
    · have : ∃ r, c = '!' ∧ cs = '=' :: r := by
        apply Classical.byContradiction
        intro hn
        exact h fun r h1 h2 => hn ⟨r, h1, h2⟩
      obtain ⟨r, rfl, rfl⟩ := this
      simp only [findNe, Option.some.injEq, Prod.mk.injEq]
      constructor
      · rintro ⟨rfl, rfl⟩
        exact ⟨rfl, by simp⟩
      · rintro ⟨h1, h2⟩
        cases a with
        | nil => cases h1; exact ⟨rfl, rfl⟩
        | cons x a =>
          cases a with
          | nil => cases h1
          | cons y a =>
            cases h1
            exact absurd ⟨[], a, rfl⟩ h2

theorem findEq_none : ∀ s, findEq s = none ↔ '=' ∉ s
  | [] => by simp [findEq]
  | c :: cs => by
    rw [findEq]
    split
    · next h => subst h; simp
    · next h =>
      have := findEq_none cs
      cases hr : findEq cs with
      | none => rw [hr] at this; simp at this; simpa [Ne.symm h] using this
      | some p => rw [hr] at this; simp at this; simpa [Ne.symm h] using this

theorem findEq_some : ∀ s a b, findEq s = some (a, b) ↔ s = a ++ '=' :: b ∧ '=' ∉ a
  | [], a, b => by simp [findEq]
  | c :: cs, a, b => by
    rw [findEq]
    split
    · next h =>
      subst h
      simp only [Option.some.injEq, Prod.mk.injEq]
      constructor
      · rintro ⟨rfl, rfl⟩; exact ⟨rfl, by simp⟩
      · rintro ⟨h1, h2⟩
        cases a with
        | nil => cases h1; exact ⟨rfl, rfl⟩
        | cons x a => cases h1; exact absurd (by simp) h2
    · next h =>
      constructor
      · intro hf
        cases hr : findEq cs with
        | none => rw [hr] at hf; cases hf
        | some p =>
          obtain ⟨a', b'⟩ := p
          rw [hr] at hf
          cases hf
          obtain ⟨h1, h2⟩ := (findEq_some cs a' _).1 hr
          exact ⟨by rw [h1]; rfl, by simp [Ne.symm h, h2]⟩
      · rintro ⟨h1, h2⟩
        cases a with
        | nil => cases h1; exact absurd rfl h
        | cons x a =>
          rw [List.cons_append] at h1
          cases h1
          have h3 : '=' ∉ a := fun hh => h2 (List.mem_cons_of_mem _ hh)
          rw [(findEq_some _ a b).2 ⟨rfl, h3⟩]

/-- the value `parse_filter_expression` gives for a value. -/
def exprValue (neg : Bool) (k v : List Char) : List Char :=
  if neg then
    if multiValue.contains (String.ofList k) then joinSep [','] ((splitComma v).map fun v => '!' :: trimText v) else '!' :: v
  else v

theorem parseExpr_ok (s k x : List Char) : parseExpr s = .ok (k, x) ↔ ∃ neg v, Expr s neg k v ∧ x = exprValue neg k v := by
  unfold parseExpr
  cases hn : findNe s with
  | some p =>
    obtain ⟨a, b⟩ := p
    obtain ⟨rfl, hi⟩ := (findNe_some s a b).1 hn
    simp only [List.isEmpty_iff]
    constructor
    · intro h
      split at h
      · cases h
      · next h1 =>
        split at h
        · cases h
        · next h2 =>
          refine ⟨true, trimText b, ?_, ?_⟩
          · have : k = trimText a := by
              split at h <;> (cases h; rfl)
            subst this
            exact .ne hi (padded_trim h1) (padded_trim h2)
          · rw [exprValue, if_pos rfl]
            split at h <;> cases h
            · next h3 => rw [if_pos h3]
            · next h3 => rw [if_neg h3]
    · rintro ⟨neg, v, he, rfl⟩
      generalize hs : a ++ '!' :: '=' :: b = s at he hn
      cases he with
      | eq h1 => rw [(findNe_none _).2 h1] at hn; cases hn
      | @ne a' b' _ _ h1 h2 h3 =>
        rw [(findNe_some _ _ _).2 ⟨rfl, h1⟩] at hn
        cases hn
        have e1 := trim_blanked h2
        have e2 := trim_blanked h3
        obtain ⟨_, _, _, _, _, hk, _⟩ := h2
        obtain ⟨_, _, _, _, _, hv, _⟩ := h3
        rw [e1, e2, if_neg hk, if_neg hv, exprValue, if_pos rfl]
        split <;> rfl
  | none =>
    have hi := (findNe_none s).1 hn
    simp only
    cases he : findEq s with
    | none =>
      simp only [reduceCtorEq, false_iff]
      rintro ⟨neg, v, hx, _⟩
      have := (findEq_none s).1 he
      cases hx with
      | eq => simp at this
      | ne => simp at this
    | some p =>
      obtain ⟨a, b⟩ := p
      obtain ⟨rfl, ha⟩ := (findEq_some s a b).1 he
      simp only [List.isEmpty_iff]
      constructor
      · intro h
        split at h
        · cases h
        · next h1 =>
          split at h
          · cases h
          · next h2 =>
            cases h
            exact ⟨false, trimText b, .eq hi ha (padded_trim h1) (padded_trim h2), rfl⟩
      · rintro ⟨neg, v, hx, rfl⟩
        generalize hs : a ++ '=' :: b = s at hx he hi
        cases hx with
        | eq h1 h2 h3 h4 =>
          rw [(findEq_some _ _ _).2 ⟨rfl, h2⟩] at he
          cases he
          have e1 := trim_blanked h3
          have e2 := trim_blanked h4
          obtain ⟨_, _, _, _, _, hk, _⟩ := h3
          obtain ⟨_, _, _, _, _, hv, _⟩ := h4
          rw [e1, e2, if_neg hk, if_neg hv]
          rfl
        | @ne a' b' => exact absurd ⟨a', b', by simp⟩ hi

/-! ### negated lists -/

theorem noSpaces_cons_comma (s : List Char) : noSpaces (',' :: s) = ',' :: noSpaces s := by
  simp [noSpaces]

theorem noSpaces_append (s t : List Char) : noSpaces (s ++ t) = noSpaces s ++ noSpaces t := by simp [noSpaces]

theorem joinSep_intercalate (ps : List (List Char)) : joinSep [','] ps = List.intercalate [','] ps := by
  induction ps with
  | nil => rfl
  | cons p ps ih =>
    cases ps with
    | nil => simp [joinSep, List.intercalate]
    | cons q qs =>
      rw [joinSep, ih]
      simp [List.intercalate, List.intersperse]

theorem noSpaces_join (ps : List (List Char)) : noSpaces (joinSep [','] ps) = joinSep [','] (ps.map noSpaces) := by
  induction ps with
  | nil => rfl
  | cons p ps ih =>
    cases ps with
    | nil => rfl
    | cons q qs =>
      rw [joinSep, List.map_cons, List.map_cons, joinSep, noSpaces_append, noSpaces_append, ih]
      rfl

theorem noSpaces_no_comma {p : List Char} (h : ',' ∉ p) : ',' ∉ noSpaces p := fun hc => h (List.mem_filter.1 hc).1

theorem split_noSpaces (v : List Char) : splitComma (noSpaces v) = (splitComma v).map noSpaces := by
  conv => lhs; rw [← splitComma_join v, ← joinSep_intercalate, noSpaces_join, joinSep_intercalate]
  refine splitComma_unique _ (by simpa using splitComma_ne v) ?_
  intro p hp
  obtain ⟨q, hq, rfl⟩ := List.mem_map.1 hp
  exact noSpaces_no_comma (splitComma_no_comma v q hq)

theorem noSpaces_white {l : List Char} (hb : OnlyBlanks l) (h : ∀ c ∈ l, White c) : noSpaces l = [] := by
  rw [noSpaces, List.filter_eq_nil_iff]
  intro c hc
  simp [hb c hc (h c hc)]

theorem noSpaces_trim {p : List Char} (hb : OnlyBlanks p) : noSpaces (trimText p) = noSpaces p := by
  obtain ⟨l, r, h1, h2, h3, _⟩ := trimText_spec p
  have hl : OnlyBlanks l := fun c hc => hb c (by rw [h1]; simp [hc])
  have hr : OnlyBlanks r := fun c hc => hb c (by rw [h1]; simp [hc])
  conv => rhs; rw [h1, noSpaces_append, noSpaces_append, noSpaces_white hl h2, noSpaces_white hr h3]
  simp

theorem split_bang {v : List Char} (hb : OnlyBlanks v) :
    splitComma (noSpaces (joinSep [','] ((splitComma v).map fun p => '!' :: trimText p))) =
      (splitComma (noSpaces v)).map ('!' :: ·) := by
  have hsub : ∀ p ∈ splitComma v, OnlyBlanks p := by
    intro p hp c hc hw
    refine hb c ?_ hw
    rw [← splitComma_join v]
    have : ∀ (ps : List (List Char)), p ∈ ps → c ∈ List.intercalate [','] ps := by
      intro ps
      rw [← joinSep_intercalate]
      induction ps with
      | nil => intro h; simp at h
      | cons q qs ih =>
        intro h
        cases qs with
        | nil =>
          simp at h; subst h
          exact hc
        | cons r rs =>
          rw [joinSep]
          rcases List.mem_cons.1 h with rfl | h
          · simp [hc]
          · simp [ih h]
    exact this _ hp
  rw [noSpaces_join, joinSep_intercalate, splitComma_unique, split_noSpaces]
  · rw [List.map_map, List.map_map]
    refine List.map_congr_left ?_
    intro p hp
    show noSpaces ('!' :: trimText p) = '!' :: noSpaces p
    rw [← noSpaces_trim (hsub p hp)]
    simp [noSpaces]
  · simpa using splitComma_ne v
  · intro p hp
    rw [List.map_map] at hp
    obtain ⟨q, hq, rfl⟩ := List.mem_map.1 hp
    refine noSpaces_no_comma ?_
    obtain ⟨l, r, h1, _⟩ := trimText_spec q
    intro hc
    rcases List.mem_cons.1 hc with hc | hc
    · cases hc
    · exact splitComma_no_comma v q hq (by rw [h1]; simp [hc])

theorem noEmptyItem_iff (v : List Char) : NoEmptyItem v ↔ [] ∉ splitComma (noSpaces v) := by
  constructor
  · intro h
    exact h _ (splitComma_join _).symm (splitComma_ne _) (splitComma_no_comma _)
  · intro h ps h1 h2 h3
    have : splitComma (noSpaces v) = ps := by
      unfold noSpaces
      rw [h1, splitComma_unique ps h2 h3]
    rwa [← this]

/-- what a negated list is. -/
theorem valueList_bang {R : List Char → α → Prop} (hR : ∀ p x, R p x → p ≠ [] ∧ p.head? ≠ some '!') {v : List Char}
    (hb : OnlyBlanks v) (neg : Bool) (vs : List α) :
    ValueList R (joinSep [','] ((splitComma v).map fun p => '!' :: trimText p)) neg vs ↔
      neg = true ∧ ValueList R v false vs ∧ NoEmptyItem v := by
  have hf : ((splitComma (noSpaces v)).map ('!' :: ·)).filter (· ≠ []) = (splitComma (noSpaces v)).map ('!' :: ·) := by
    rw [List.filter_eq_self]
    intro p hp
    obtain ⟨q, _, rfl⟩ := List.mem_map.1 hp
    simp
  rw [noEmptyItem_iff]
  unfold ValueList
  simp only [items_iff, split_bang hb, hf]
  constructor
  · rintro ⟨h1, bs, h2, h3, h4⟩
    cases neg with
    | false =>
      obtain ⟨g1, g2⟩ := h4 rfl
      exfalso
      cases hs : splitComma (noSpaces v) with
      | nil => exact splitComma_ne _ hs
      | cons p ps =>
        rw [hs] at g1
        exact g2 ('!' :: p) (by rw [g1]; simp) rfl
    | true =>
      have g := h3 rfl
      have hbs : bs = splitComma (noSpaces v) := by
        have hinj : Function.Injective (fun p : List Char => '!' :: p) := fun a b h => by cases h; rfl
        exact (List.map_inj_right (fun a b h => hinj h)).1 g
      subst hbs
      have hn : [] ∉ splitComma (noSpaces v) := by
        intro hm
        obtain ⟨x, hx⟩ : ∃ x, R [] x := by
          clear h1 h3 h4 g hf hb
          generalize splitComma (noSpaces v) = l at h2 hm
          induction h2 with
          | nil => simp at hm
          | cons h _ ih =>
            rcases List.mem_cons.1 hm with rfl | hm
            · exact ⟨_, h⟩
            · exact ih hm
        exact (hR _ _ hx).1 rfl
      refine ⟨rfl, ⟨h1, _, h2, (fun h => nomatch h), fun _ => ⟨?_, ?_⟩⟩, hn⟩
      · symm
        rw [List.filter_eq_self]
        intro p hp
        simp only [ne_eq, decide_eq_true_eq]
        rintro rfl; exact hn hp
      · intro b hbm hh
        obtain ⟨x, hx⟩ : ∃ x, R b x := by
          clear h1 h3 h4 g hf hb hn
          generalize splitComma (noSpaces v) = l at h2 hbm
          induction h2 with
          | nil => simp at hbm
          | cons h _ ih =>
            rcases List.mem_cons.1 hbm with rfl | hbm
            · exact ⟨_, h⟩
            · exact ih hbm
        exact (hR _ _ hx).2 hh
  · rintro ⟨rfl, ⟨h1, bs, h2, _, h4⟩, hn⟩
    obtain ⟨g1, _⟩ := h4 trivial
    have : (splitComma (noSpaces v)).filter (· ≠ []) = splitComma (noSpaces v) := by
      rw [List.filter_eq_self]
      intro p hp
      simp only [ne_eq, decide_eq_true_eq]
      rintro rfl; exact hn hp
    rw [this] at g1
    exact ⟨h1, bs, h2, (fun _ => by rw [g1]), (fun h => nomatch h)⟩

end Verif
