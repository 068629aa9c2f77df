import Verif.Props.DissectMp
import Verif.Props.DissectCount
/-
C110: the number of labels of a BGP4MP body.
-/
namespace Verif.Props
open Spec

theorem getU16_at (d : Bytes) (pos k : Nat) : getU16 d (pos + k) = getU16 (d.drop pos) k := by
  simp only [getU16, List.getElem?_drop, Nat.add_assoc]

theorem asnFront_drop (as4 : Bool) (s : Bytes) :
    ((asnFront as4 s).map (·.2)) = if s.length < (if as4 then 4 else 2) then none else some (s.drop (if as4 then 4 else 2)) := by
  cases as4 with
  | true =>
    rcases s with _ | ⟨a, _ | ⟨b, _ | ⟨c, _ | ⟨e, r⟩⟩⟩⟩ <;> simp [asnFront]
  | false =>
    rcases s with _ | ⟨a, _ | ⟨b, r⟩⟩ <;> simp [asnFront]

theorem walk_count (d : Bytes) (base pos : Nat) (ns : List Node) (after : Option Nat) (hp : pos ≤ d.length)
    (h : walkMpAddresses d base pos = some (ns, after)) :
    ns.length = (addressLabels (d.drop pos)).1.length ∧ (addressLabels (d.drop pos)).2 = after.map (d.drop ·) ∧
      ∀ q, after = some q → q ≤ d.length := by
  unfold walkMpAddresses at h
  have hl : (d.drop pos).length = d.length - pos := List.length_drop
  by_cases h4 : d.length < pos + 4
  · simp only [if_pos h4, Option.bind_eq_bind, Option.bind_eq_some_iff] at h
    obtain ⟨_, _, n, _, h⟩ := h
    cases h
    have hs : (d.drop pos).length < 4 := by omega
    have e : addressLabels (d.drop pos) = ([lit "Truncated before interface index / AFI"], none) := by
      generalize d.drop pos = s at hs
      rcases s with _ | ⟨a, _ | ⟨b, _ | ⟨c, _ | ⟨e, r⟩⟩⟩⟩
      all_goals first
        | (exfalso; simp only [List.length_cons] at hs; omega)
        | rfl
    rw [e]
    exact ⟨rfl, rfl, nofun⟩
  · simp only [if_neg h4, Option.bind_eq_bind, Option.bind_eq_some_iff] at h
    obtain ⟨i, _, a, _, h⟩ := h
    have hs : 4 ≤ (d.drop pos).length := by omega
    have hr : d.drop (pos + 4) = (d.drop pos).drop 4 := by rw [List.drop_drop]
    rw [getU16_at] at h
    generalize hg : d.drop pos = s at *
    rcases s with _ | ⟨x, _ | ⟨y, _ | ⟨u, _ | ⟨v, r⟩⟩⟩⟩
    · simp at hs
    · simp at hs
    · simp at hs
    · simp at hs
    have hk : (getU16 (x :: y :: u :: v :: r) 2).getD 0 = (u16of u v).toNat := rfl
    rw [hk] at h
    have hr' : d.drop (pos + 4) = r := hr
    have hrl : r.length = d.length - (pos + 4) := by rw [← hr', List.length_drop]
    generalize hm : (u16of u v).toNat = afi at *
    by_cases ha : afi ≠ 1 ∧ afi ≠ 2
    · simp only [if_pos ha, Option.bind_eq_some_iff] at h
      obtain ⟨_, _, n, _, h⟩ := h
      cases h
      have hn : ¬ (afi = 1 ∨ afi = 2) := by omega
      simp only [addressLabels, hm, if_neg hn]
      exact ⟨rfl, rfl, nofun⟩
    · have hn : afi = 1 ∨ afi = 2 := by omega
      simp only [if_neg ha] at h
      simp only [addressLabels, hm, if_pos hn]
      generalize (if afi = 1 then 4 else 16) = n at *
      by_cases ht : d.length < pos + 4 + 2 * n
      · simp only [if_pos ht, Option.bind_eq_some_iff] at h
        obtain ⟨_, _, m, _, h⟩ := h
        cases h
        have : r.length < 2 * n := by omega
        simp only [if_pos this]
        exact ⟨rfl, rfl, nofun⟩
      · simp only [if_neg ht, Option.bind_eq_some_iff] at h
        obtain ⟨_, _, p, _, _, _, q, _, h⟩ := h
        cases h
        have : ¬ r.length < 2 * n := by omega
        simp only [if_neg this]
        refine ⟨rfl, ?_, ?_⟩
        · rw [← hr', List.drop_drop, List.drop_drop]
          exact congrArg (fun k => some (d.drop k)) (by omega)
        · intro q hq; cases hq; omega

theorem stateNodes_count {base pos : Nat} {ns : List Node} (h : stateNodes base pos = some ns) : ns.length = 2 := by
  unfold stateNodes at h
  simp only [Option.bind_eq_bind, Option.bind_eq_some_iff] at h
  obtain ⟨_, _, _, _, h⟩ := h
  cases h
  rfl

theorem stateLabels_count (s : Bytes) : (stateLabels s).length = if s.length < 4 then 1 else 2 := by
  rcases s with _ | ⟨a, _ | ⟨b, _ | ⟨c, _ | ⟨e, r⟩⟩⟩⟩ <;> simp [stateLabels]

/-- **C110** The body of a BGP4MP record, readable or not, has one label for each node under it other than the message, and
one message if there is a node for it. -/
theorem c110_mp_count (d : Bytes) (base sub : Nat) (ns : List Node) (h : dissectMpFields d base sub = some ns) :
    ns.length = (mpLabels sub d).fields.length + (mpLabels sub d).message.toList.length := by
  unfold dissectMpFields at h
  have e1 := asnFront_drop (decide (sub = 4 ∨ sub = 5 ∨ sub = 7 ∨ sub = 9 ∨ sub = 11)) d
  simp only [mpLabels]
  generalize hf : decide (sub = 4 ∨ sub = 5 ∨ sub = 7 ∨ sub = 9 ∨ sub = 11) = as4 at *
  have hsz : (if sub = 4 ∨ sub = 5 ∨ sub = 7 ∨ sub = 9 ∨ sub = 11 then 4 else 2) = (if as4 = true then 4 else 2) := by
    rw [← hf]; simp only [decide_eq_true_eq]
  have hb16 : (if as4 = true then 4 else 2) = 2 ↔ as4 = false := by cases as4 <;> decide
  simp only [hsz] at h
  generalize hs : (if as4 = true then 4 else 2) = size at *
  by_cases hd : d.length < size
  · rw [if_pos hd] at e1
    have e2 : asnFront as4 d = none := by
      cases hx : asnFront as4 d with
      | none => rfl
      | some x => rw [hx] at e1; cases e1
    simp only [if_pos (by omega : d.length < 2 * size)] at h
    obtain ⟨n, _, rfl⟩ := Option.map_eq_some_iff.mp h
    rw [e2]
    rfl
  · rw [if_neg hd] at e1
    cases hx : asnFront as4 d with
    | none => rw [hx] at e1; cases e1
    | some x =>
      obtain ⟨peer, r⟩ := x
      rw [hx] at e1
      have er : r = d.drop size := by cases e1; rfl
      have e2 := asnFront_drop as4 r
      rw [hs] at e2
      have hrl : r.length = d.length - size := by rw [er, List.length_drop]
      by_cases hd2 : d.length < 2 * size
      · rw [if_pos (by omega : r.length < size)] at e2
        have e3 : asnFront as4 r = none := by
          cases hy : asnFront as4 r with
          | none => rfl
          | some y => rw [hy] at e2; cases e2
        simp only [if_pos hd2] at h
        obtain ⟨n, _, rfl⟩ := Option.map_eq_some_iff.mp h
        dsimp only
        rw [e3]
        rfl
      · rw [if_neg (by omega : ¬ r.length < size)] at e2
        cases hy : asnFront as4 r with
        | none => rw [hy] at e2; cases e2
        | some y =>
          obtain ⟨loc, rest⟩ := y
          rw [hy] at e2
          have erest : rest = d.drop (size + size) := by cases e2; rw [er, List.drop_drop]
          simp only [if_neg hd2, Option.bind_eq_bind, Option.bind_eq_some_iff] at h
          obtain ⟨p, _, q, _, rest', hrest, h⟩ := h
          have : rest' = rest := by
            unfold subslice at hrest
            split at hrest
            · cases hrest; rw [erest]; simp
            · cases hrest
          subst this
          dsimp only
          rw [hy]
          dsimp only
          by_cases hz : 16 ≤ rest'.length ∧ (rest'.take 16).all (· == 0xFF) = true
          · rw [if_pos hz] at h
            rw [if_pos hz]
            simp only [Option.bind_eq_some_iff] at h
            obtain ⟨_, _, _, _, h⟩ := h
            cases h
            rfl
          · rw [if_neg hz] at h
            rw [if_neg hz]
            by_cases h8 : (sub = 0 ∨ sub = 5) ∧ as4 = false ∧ d.length = 8
            · have h8' : ¬¬ (sub = 0 ∨ sub = 5) ∧ size = 2 ∧ d.length = 8 := ⟨not_not_intro h8.1, hb16.mpr h8.2.1, h8.2.2⟩
              rw [if_pos h8'] at h
              rw [if_pos h8]
              simp only [Option.bind_eq_some_iff] at h
              obtain ⟨s, hst, h⟩ := h
              cases h
              have hl4 : ¬ rest'.length < 4 := by rw [erest, List.length_drop]; omega
              have c1 := stateNodes_count hst
              have c2 := stateLabels_count rest'
              rw [if_neg hl4] at c2
              simp [c1, c2]
            · have h8' : ¬ (¬¬ (sub = 0 ∨ sub = 5) ∧ size = 2 ∧ d.length = 8) :=
                fun k => h8 ⟨Classical.not_not.mp k.1, hb16.mp k.2.1, k.2.2⟩
              rw [if_neg h8'] at h
              rw [if_neg h8]
              simp only [Option.bind_eq_some_iff] at h
              obtain ⟨⟨ns', after⟩, hw, h⟩ := h
              obtain ⟨w1, w2, w3⟩ := walk_count d base (size + size) ns' after (by omega) hw
              rw [← erest] at w1 w2
              cases after with
              | none =>
                cases h
                cases hA : addressLabels rest' with
                | mk ls o =>
                  rw [hA] at w1 w2
                  dsimp only at w1 w2
                  subst w2
                  simp [w1]
              | some pos =>
                have hpos := w3 pos rfl
                cases hA : addressLabels rest' with
                | mk ls o =>
                  rw [hA] at w1 w2
                  dsimp only at w1 w2
                  subst w2
                  dsimp only [Option.map_some] at h ⊢
                  by_cases hst : sub = 0 ∨ sub = 5
                  · rw [if_neg (not_not_intro hst)] at h
                    rw [if_pos hst]
                    have hc := stateLabels_count (d.drop pos)
                    rw [List.length_drop] at hc
                    by_cases hp4 : d.length < pos + 4
                    · rw [if_pos hp4] at h
                      rw [if_pos (by omega)] at hc
                      simp only [Option.bind_eq_some_iff] at h
                      obtain ⟨_, _, _, _, h⟩ := h
                      cases h
                      simp only [List.length_append, w1, hc, Option.toList_none, List.length_cons, List.length_nil]
                    · rw [if_neg hp4] at h
                      rw [if_neg (by omega)] at hc
                      simp only [Option.bind_eq_some_iff] at h
                      obtain ⟨s, hs', h⟩ := h
                      cases h
                      simp only [List.length_append, w1, hc, stateNodes_count hs', Option.toList_none, List.length_cons, List.length_nil]
                  · rw [if_pos hst] at h
                    rw [if_neg hst]
                    simp only [Option.bind_eq_some_iff] at h
                    obtain ⟨_, _, _, _, h⟩ := h
                    cases h
                    simp [List.length_append, w1]

/-- the hypotheses are met: a body cut after the address family. -/
example : ∃ ns, dissectMpFields [0, 1, 0, 2, 0, 0, 0, 1, 10] 12 1 = some ns ∧ ns.length = 5 := ⟨_, rfl, rfl⟩

end Verif.Props
