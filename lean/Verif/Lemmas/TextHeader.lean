import Verif.Lemmas.TextLines
import Verif.Spec.TextDump
/-
The column header and the preamble of a text dump.
-/
namespace Verif
open Spec

theorem asciiWs_iff (b : UInt8) : asciiWs b = true ↔ AsciiSpace b := by
  unfold asciiWs AsciiSpace
  simp only [Bool.or_eq_true, beq_iff_eq, List.mem_cons, List.not_mem_nil, or_false, ← UInt8.toNat_inj]
  constructor
  · rintro ((((h | h) | h) | h) | h) <;> simp [h]
  · rintro (h | h | h | h | h) <;> simp [h]

/-! ### the words of a line -/

theorem tokensAt_space (l : Bytes) : ∀ (n : Nat) (s : Bytes), (∀ b ∈ l, AsciiSpace b) → tokensAt n [] (l ++ s) = tokensAt (n + l.length) [] s := by
  induction l with
  | nil => intro n s _; rfl
  | cons b l ih =>
    intro n s h
    show tokensAt n [] (b :: (l ++ s)) = _
    conv => lhs; unfold tokensAt
    rw [if_pos ((asciiWs_iff b).mpr (h b (by simp)))]
    simp only [List.isEmpty_nil, if_true, List.nil_append]
    rw [ih (n + 1) s (fun x hx => h x (by simp [hx]))]
    rw [List.length_cons, Nat.add_assoc, Nat.add_comm 1]

theorem tokensAt_word (w : Bytes) : ∀ (n : Nat) (cur s : Bytes), (∀ b ∈ w, ¬ AsciiSpace b) →
    tokensAt n cur (w ++ s) = tokensAt (n + w.length) (cur ++ w) s := by
  induction w with
  | nil => intro n cur s _; simp
  | cons b w ih =>
    intro n cur s h
    show tokensAt n cur (b :: (w ++ s)) = _
    conv => lhs; unfold tokensAt
    rw [if_neg (fun hb => h b (by simp) ((asciiWs_iff b).mp hb)), ih (n + 1) (cur ++ [b]) s (fun x hx => h x (by simp [hx]))]
    simp only [List.append_assoc, List.singleton_append, List.length_cons]
    congr 1; omega

theorem tokensAt_flush (n : Nat) (cur s : Bytes) (hc : cur ≠ []) (h : ∀ b, s.head? = some b → AsciiSpace b) :
    tokensAt n cur s = (n - cur.length, cur) :: tokensAt n [] s := by
  cases s with
  | nil => simp [tokensAt, hc]
  | cons b r =>
    have := h b rfl
    simp [tokensAt, (asciiWs_iff b).mpr this, hc]

theorem tokensAt_eq {n : Nat} {s : Bytes} {ws : List (Nat × Bytes)} (h : WordsAt n s ws) : tokensAt n [] s = ws := by
  induction h with
  | nil hs =>
    rename_i n s
    have := tokensAt_space s n [] hs
    rw [List.append_nil] at this
    rw [this]; rfl
  | cons hl hw hn hr _ ih =>
    rename_i n l w rest ws _
    rw [List.append_assoc, tokensAt_space l n _ hl, tokensAt_word w _ [] rest hn, List.nil_append, tokensAt_flush _ _ _ hw hr, ih]
    congr 2; omega

theorem wordsAt_exist : ∀ (k : Nat) (s : Bytes) (n : Nat), s.length ≤ k → ∃ ws, WordsAt n s ws
  | 0, s, n, h => by
    obtain rfl : s = [] := by simpa using h
    exact ⟨[], .nil (by simp)⟩
  | k + 1, s, n, h => by
    have e1 := List.takeWhile_append_dropWhile (p := asciiWs) (l := s)
    have e2 := List.takeWhile_append_dropWhile (p := fun b => !asciiWs b) (l := s.dropWhile asciiWs)
    by_cases hs : s.dropWhile asciiWs = []
    · rw [hs, List.append_nil] at e1
      refine ⟨[], .nil fun b hb => (asciiWs_iff b).mp ?_⟩
      rw [← e1] at hb
      exact List.all_eq_true.mp (List.all_takeWhile (p := asciiWs) (l := s)) b hb
    · generalize hw : (s.dropWhile asciiWs).takeWhile (fun b => !asciiWs b) = w at e2
      generalize hr : (s.dropWhile asciiWs).dropWhile (fun b => !asciiWs b) = rest at e2
      have hwne : w ≠ [] := by
        rintro rfl
        cases hd : s.dropWhile asciiWs with
        | nil => exact hs hd
        | cons b r =>
          have : asciiWs b = false := by
            have := List.head_dropWhile_not (p := asciiWs) (l := s) (by rw [hd]; simp)
            simp only [hd, List.head_cons] at this
            simpa using this
          rw [hd] at hw
          simp [this] at hw
      have hlen : rest.length ≤ k := by
        have := congrArg List.length e1
        have h2 := congrArg List.length e2
        have h3 := List.length_pos_iff.mpr hwne
        rw [List.length_append] at this h2; omega
      obtain ⟨ws, hws⟩ := wordsAt_exist k rest (n + (s.takeWhile asciiWs).length + w.length) hlen
      refine ⟨(n + (s.takeWhile asciiWs).length, w) :: ws, ?_⟩
      rw [← e2, ← List.append_assoc] at e1
      conv => arg 2; rw [← e1]
      refine .cons ?_ hwne ?_ ?_ hws
      · intro b hb
        exact (asciiWs_iff b).mp (List.all_eq_true.mp (List.all_takeWhile (p := asciiWs) (l := s)) b hb)
      · intro b hb ha
        rw [← hw] at hb
        have := List.all_eq_true.mp (List.all_takeWhile (p := fun b => !asciiWs b) (l := s.dropWhile asciiWs)) b hb
        rw [(asciiWs_iff b).mpr ha] at this
        simp at this
      · intro b hb
        cases rest with
        | nil => simp at hb
        | cons x r =>
          simp at hb; subst hb
          have := List.head_dropWhile_not (p := fun b => !asciiWs b) (l := s.dropWhile asciiWs) (by rw [hr]; simp)
          simp only [hr, List.head_cons] at this
          exact (asciiWs_iff x).mp (by simpa using this)

theorem tokensAt_iff (s : Bytes) (ws : List (Nat × Bytes)) : tokensAt 0 [] s = ws ↔ WordsAt 0 s ws := by
  constructor
  · rintro rfl
    obtain ⟨ws, h⟩ := wordsAt_exist s.length s 0 (Nat.le_refl _)
    rw [tokensAt_eq h]; exact h
  · exact tokensAt_eq

theorem wordsAt_noSpace {n : Nat} {s : Bytes} {ws : List (Nat × Bytes)} (h : WordsAt n s ws) : ∀ x ∈ ws, ∀ b ∈ x.2, ¬ AsciiSpace b := by
  induction h with
  | nil _ => simp
  | cons _ _ hn _ _ ih =>
    intro x hx
    rcases List.mem_cons.mp hx with rfl | hx
    · exact hn
    · exact ih x hx

/-! ### columns -/

theorem lastPos_iff (ws : List (Nat × Bytes)) (name : Bytes) (p : Nat) : lastPos ws name = some p ↔ LastWord ws name p := by
  unfold lastPos LastWord
  rw [Option.map_eq_some_iff]
  constructor
  · rintro ⟨⟨q, w⟩, h, rfl⟩
    rw [List.find?_eq_some_iff_append] at h
    obtain ⟨h1, as, bs, h2, h3⟩ := h
    simp only [beq_iff_eq] at h1
    subst h1
    refine ⟨bs.reverse, as.reverse, ?_, ?_⟩
    · have := congrArg List.reverse h2
      rw [List.reverse_reverse] at this
      rw [this]; simp
    · intro x hx
      have := h3 x (by simpa using hx)
      simpa using this
  · rintro ⟨a, b, rfl, h⟩
    refine ⟨(p, name), ?_, rfl⟩
    rw [List.find?_eq_some_iff_append]
    refine ⟨by simp, b.reverse, a.reverse, by simp, ?_⟩
    intro x hx
    have := h x (by simpa using hx)
    simpa using this

theorem lastPos_cons (t : Nat × Bytes) (ws : List (Nat × Bytes)) (name : Bytes) :
    lastPos (t :: ws) name = (lastPos ws name).or (if t.2 = name then some t.1 else none) := by
  unfold lastPos
  rw [List.reverse_cons, List.find?_append]
  cases h : ws.reverse.find? fun t => t.2 == name with
  | some x => simp
  | none =>
    by_cases ht : t.2 = name
    · simp [ht]
    · have : (t.2 == name) = false := by simpa using ht
      simp [this, ht]

theorem merge_lastPos {name : Bytes} (h1 : name ≠ ascii "Next") (h2 : name ≠ ascii "Hop") (h3 : name ≠ ascii "Next Hop") :
    ∀ ws : List (Nat × Bytes), lastPos (mergeNextHop ws) name = lastPos ws name
  | [] => rfl
  | [t] => rfl
  | t :: u :: r => by
    unfold mergeNextHop
    by_cases h : t.2 = ascii "Next" ∧ u.2 = ascii "Hop"
    · rw [if_pos h, lastPos_cons, lastPos_cons, lastPos_cons, merge_lastPos h1 h2 h3 r, if_neg (Ne.symm h3), h.1, h.2,
        if_neg (Ne.symm h1), if_neg (Ne.symm h2)]
      simp
    · rw [if_neg h, lastPos_cons, lastPos_cons, merge_lastPos h1 h2 h3 (u :: r)]

/-- the position of the last `Next` with a `Hop` behind it. -/
def pairPos : List (Nat × Bytes) → Option Nat
  | [] => none
  | [_] => none
  | t :: u :: r => (pairPos (u :: r)).or (if t.2 = ascii "Next" ∧ u.2 = ascii "Hop" then some t.1 else none)

theorem pairPos_hop (u : Nat × Bytes) (r : List (Nat × Bytes)) (h : u.2 = ascii "Hop") : pairPos (u :: r) = pairPos r := by
  cases r with
  | nil => rfl
  | cons v r =>
    have hn : ¬ (u.2 = ascii "Next" ∧ v.2 = ascii "Hop") := by
      rintro ⟨h1, _⟩
      rw [h] at h1
      exact absurd h1 (by decide)
    conv => lhs; unfold pairPos
    rw [if_neg hn, Option.or_none]

theorem merge_pairPos : ∀ ws : List (Nat × Bytes), (∀ x ∈ ws, x.2 ≠ ascii "Next Hop") →
    lastPos (mergeNextHop ws) (ascii "Next Hop") = pairPos ws
  | [], _ => rfl
  | [t], h => by
    have := h t (by simp)
    rw [show mergeNextHop [t] = [t] from rfl, lastPos_cons, if_neg this]
    rfl
  | t :: u :: r, h => by
    unfold mergeNextHop pairPos
    by_cases hp : t.2 = ascii "Next" ∧ u.2 = ascii "Hop"
    · rw [if_pos hp, if_pos hp, lastPos_cons, if_pos rfl, merge_pairPos r (fun x hx => h x (by simp [hx])), pairPos_hop u r hp.2]
    · rw [if_neg hp, if_neg hp, lastPos_cons, if_neg (h t (by simp)), merge_pairPos (u :: r) (fun x hx => h x (by simp [hx]))]

theorem pairPos_none : ∀ {ws : List (Nat × Bytes)}, pairPos ws = none ↔ ∀ x y u v, ws ≠ x ++ (u, ascii "Next") :: (v, ascii "Hop") :: y
  | [] => by simp [pairPos]
  | [t] => by
    simp only [pairPos, true_iff]
    rintro ⟨⟩ y u v h <;> simp at h
  | t :: u :: r => by
    unfold pairPos
    rw [Option.or_eq_none_iff, pairPos_none (ws := u :: r)]
    constructor
    · rintro ⟨h1, h2⟩ x y a b h
      cases x with
      | nil =>
        simp only [List.nil_append, List.cons.injEq] at h
        obtain ⟨rfl, rfl, rfl⟩ := h
        simp at h2
      | cons z x =>
        simp only [List.cons_append, List.cons.injEq] at h
        exact h1 x y a b h.2
    · intro h
      refine ⟨fun x y a b hx => h (t :: x) y a b (by rw [hx]; rfl), ?_⟩
      by_cases hp : t.2 = ascii "Next" ∧ u.2 = ascii "Hop"
      · refine absurd ?_ (h [] r t.1 u.1)
        rw [← hp.1, ← hp.2]; rfl
      · rw [if_neg hp]

theorem pairPos_iff : ∀ (ws : List (Nat × Bytes)) (p : Nat), pairPos ws = some p ↔ LastNextHop ws p
  | [], p => by simp [pairPos, LastNextHop]
  | [t], p => by
    simp only [pairPos, reduceCtorEq, false_iff]
    rintro ⟨a, q, b, h, _⟩
    cases a <;> simp at h
  | t :: u :: r, p => by
    unfold pairPos
    rw [Option.or_eq_some_iff, pairPos_iff (u :: r) p, pairPos_none]
    constructor
    · rintro (⟨a, q, b, h1, h2⟩ | ⟨h1, h2⟩)
      · exact ⟨t :: a, q, b, by rw [h1]; rfl, h2⟩
      · by_cases hp : t.2 = ascii "Next" ∧ u.2 = ascii "Hop"
        · rw [if_pos hp, Option.some.injEq] at h2
          refine ⟨[], u.1, r, ?_, fun x y a b h => h1 (u :: x) y a b (by rw [h]; rfl)⟩
          rw [← hp.1, ← hp.2, ← h2]; rfl
        · rw [if_neg hp] at h2; simp at h2
    · rintro ⟨a, q, b, h1, h2⟩
      cases a with
      | nil =>
        simp only [List.nil_append, List.cons.injEq] at h1
        obtain ⟨rfl, rfl, rfl⟩ := h1
        refine .inr ⟨?_, by simp⟩
        intro x y u v h
        cases x with
        | nil =>
          simp only [List.nil_append, List.cons.injEq, Prod.mk.injEq] at h
          exact absurd h.1.2 (by decide)
        | cons z x =>
          simp only [List.cons_append, List.cons.injEq] at h
          exact h2 x y u v h.2
      | cons z a =>
        simp only [List.cons_append, List.cons.injEq] at h1
        exact .inl ⟨a, q, b, h1.2, h2⟩

theorem columnHeader_iff (line : Bytes) (c : Cols) : columnHeader line = some c ↔ ColumnsAt line c := by
  have key : ∀ ws, WordsAt 0 line ws → (columnHeader line = some c ↔ LastNextHop ws c.nextHop ∧ LastWord ws (ascii "Metric") c.metric ∧
      LastWord ws (ascii "LocPrf") c.localPref ∧ LastWord ws (ascii "Weight") c.weight ∧ LastWord ws (ascii "Path") c.path ∧
      c.nextHop < c.metric ∧ c.metric < c.localPref ∧ c.localPref < c.weight ∧ c.weight < c.path) := by
    intro ws hw
    have hns : ∀ x ∈ ws, x.2 ≠ ascii "Next Hop" := by
      intro x hx he
      refine wordsAt_noSpace hw x hx 32 ?_ (by simp [AsciiSpace])
      rw [he]; decide
    unfold columnHeader
    rw [tokensAt_eq hw]
    simp only
    rw [merge_lastPos (name := ascii "Metric") (by decide) (by decide) (by decide),
      merge_lastPos (name := ascii "LocPrf") (by decide) (by decide) (by decide),
      merge_lastPos (name := ascii "Weight") (by decide) (by decide) (by decide),
      merge_lastPos (name := ascii "Path") (by decide) (by decide) (by decide), merge_pairPos ws hns]
    simp only [← pairPos_iff, ← lastPos_iff]
    obtain ⟨n, m, l, w, p⟩ := c
    cases pairPos ws <;> cases lastPos ws (ascii "Metric") <;> cases lastPos ws (ascii "LocPrf") <;>
      cases lastPos ws (ascii "Weight") <;> cases lastPos ws (ascii "Path") <;>
      simp only [reduceCtorEq, false_and, and_false, Option.some.injEq]
    rename_i n' m' l' w' p'
    by_cases hlt : n' < m' ∧ m' < l' ∧ l' < w' ∧ w' < p'
    · rw [if_pos hlt]
      simp only [Option.some.injEq, Cols.mk.injEq]
      constructor
      · rintro ⟨rfl, rfl, rfl, rfl, rfl⟩; exact ⟨rfl, rfl, rfl, rfl, rfl, hlt⟩
      · rintro ⟨rfl, rfl, rfl, rfl, rfl, _⟩; exact ⟨rfl, rfl, rfl, rfl, rfl⟩
    · rw [if_neg hlt]
      simp only [reduceCtorEq, false_iff]
      rintro ⟨rfl, rfl, rfl, rfl, rfl, h⟩
      exact hlt h
  constructor
  · intro h
    obtain ⟨ws, hw⟩ := wordsAt_exist line.length line 0 (Nat.le_refl _)
    exact ⟨ws, hw, (key ws hw).mp h⟩
  · rintro ⟨ws, hw, h⟩
    exact (key ws hw).mpr h

end Verif
