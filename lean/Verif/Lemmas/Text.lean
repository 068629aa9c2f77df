import Verif.Model.TextDump
import Verif.Spec.Text
/-
The text functions of the text dump parser.
-/
namespace Verif
open Spec

/-! ### white space -/

theorem wsChars_eq : wsChars = whiteSpace.map fun n => String.utf8EncodeChar (Char.ofNat n) := by decide +kernel

theorem isSpace_iff (w : Bytes) : IsSpace w ↔ w ∈ wsChars := by
  rw [wsChars_eq, List.mem_map]
  constructor
  · rintro ⟨c, hc, rfl⟩
    exact ⟨c.toNat, hc, by rw [Char.ofNat_toNat]⟩
  · rintro ⟨n, hn, rfl⟩
    refine ⟨Char.ofNat n, ?_, rfl⟩
    have : ∀ n ∈ whiteSpace, (Char.ofNat n).toNat = n := by decide +kernel
    rw [this n hn]; exact hn

/-- no word is empty or starts another one. -/
structure PrefixFree (ws : List Bytes) : Prop where
  ne : ∀ w ∈ ws, w ≠ []
  eq : ∀ w ∈ ws, ∀ w' ∈ ws, w <+: w' → w = w'

theorem wsChars_pf : PrefixFree wsChars := ⟨by decide +kernel, by decide +kernel⟩

theorem wsRev_pf : PrefixFree (wsChars.map List.reverse) := ⟨by decide +kernel, by decide +kernel⟩

theorem PrefixFree.find {ws : List Bytes} (h : PrefixFree ws) {w : Bytes} (hw : w ∈ ws) (t : Bytes) :
    ws.find? (·.isPrefixOf (w ++ t)) = some w := by
  cases hf : ws.find? (·.isPrefixOf (w ++ t)) with
  | none =>
    rw [List.find?_eq_none] at hf
    exact absurd (List.isPrefixOf_iff_prefix.mpr (List.prefix_append w t)) (hf w hw)
  | some w' =>
    have hm := List.mem_of_find?_eq_some hf
    have hp := List.find?_some hf
    rw [List.isPrefixOf_iff_prefix] at hp
    rcases List.prefix_or_prefix_of_prefix hp (List.prefix_append w t) with h1 | h1
    · rw [h.eq _ hm _ hw h1]
    · rw [h.eq _ hw _ hm h1]

theorem find_none {ws : List Bytes} {t : Bytes} (h : ∀ w ∈ ws, ¬ w <+: t) : ws.find? (·.isPrefixOf t) = none := by
  rw [List.find?_eq_none]
  intro w hw hp
  exact h w hw (List.isPrefixOf_iff_prefix.mp hp)

theorem PrefixFree.strip {ws : List Bytes} (h : PrefixFree ws) {t : Bytes} (ht : ∀ w ∈ ws, ¬ w <+: t) :
    ∀ (l : List Bytes) (fuel : Nat), (∀ w ∈ l, w ∈ ws) → (l.flatten ++ t).length ≤ fuel → stripFront ws fuel (l.flatten ++ t) = t
  | [], 0, _, hf => by simp at hf; subst hf; rfl
  | [], fuel + 1, _, _ => by
    show (match ws.find? (·.isPrefixOf t) with | some w => stripFront ws fuel (t.drop w.length) | none => t) = t
    rw [find_none ht]
  | w :: l, 0, hl, hf => by
    have := List.length_pos_iff.mpr (h.ne w (hl w (by simp)))
    rw [List.flatten_cons, List.length_append, List.length_append] at hf; omega
  | w :: l, fuel + 1, hl, hf => by
    have hp := List.length_pos_iff.mpr (h.ne w (hl w (by simp)))
    rw [List.flatten_cons, List.append_assoc]
    unfold stripFront
    rw [h.find (hl w (by simp))]
    simp only [List.drop_left]
    exact h.strip ht l fuel (fun x hx => hl x (by simp [hx])) (by simp at hf ⊢; omega)

theorem strip_exists {ws : List Bytes} (hne : ∀ w ∈ ws, w ≠ []) : ∀ (fuel : Nat) (s : Bytes), s.length ≤ fuel →
    ∃ l : List Bytes, (∀ w ∈ l, w ∈ ws) ∧ s = l.flatten ++ stripFront ws fuel s ∧ ∀ w ∈ ws, ¬ w <+: stripFront ws fuel s
  | 0, s, hf => by
    obtain rfl : s = [] := by simpa using hf
    exact ⟨[], by simp, by simp [stripFront], fun w hw hp => hne w hw (List.prefix_nil.mp hp)⟩
  | fuel + 1, s, hf => by
    unfold stripFront
    cases hfi : ws.find? (·.isPrefixOf s) with
    | none =>
      rw [List.find?_eq_none] at hfi
      exact ⟨[], by simp, by simp, fun w hw hp => hfi w hw (List.isPrefixOf_iff_prefix.mpr hp)⟩
    | some w =>
      have hm := List.mem_of_find?_eq_some hfi
      have hp := List.find?_some hfi
      rw [List.isPrefixOf_iff_prefix] at hp
      obtain ⟨t, rfl⟩ := hp
      have hl := List.length_pos_iff.mpr (hne w hm)
      obtain ⟨l, h1, h2, h3⟩ := strip_exists hne fuel t (by simp at hf; omega)
      simp only [List.drop_left]
      refine ⟨w :: l, ?_, ?_, h3⟩
      · intro x hx
        rcases List.mem_cons.mp hx with rfl | hx
        · exact hm
        · exact h1 x hx
      · rw [List.flatten_cons, List.append_assoc, ← h2]

/-! ### trimming -/

theorem trimEnd_eq {s t : Bytes} (h : TrimmedEnd s t) : trimEnd s = t := by
  obtain ⟨r, ⟨ws, hw, rfl⟩, rfl, ht⟩ := h
  unfold trimEnd
  have e : (t ++ ws.flatten).reverse = (ws.map List.reverse).reverse.flatten ++ t.reverse := by
    rw [List.reverse_append, List.reverse_flatten]
  have hl : (t ++ ws.flatten).length = ((ws.map List.reverse).reverse.flatten ++ t.reverse).length := by
    rw [← e, List.length_reverse]
  rw [hl, e, wsRev_pf.strip (t := t.reverse) _ _ _ _ (Nat.le_refl _), List.reverse_reverse]
  · intro w hwm hp
    rw [List.mem_map] at hwm
    obtain ⟨w', hw', rfl⟩ := hwm
    exact ht w' ((isSpace_iff _).mpr hw') (List.reverse_prefix.mp hp)
  · intro w hwm
    rw [List.mem_reverse, List.mem_map] at hwm
    obtain ⟨w', hw', rfl⟩ := hwm
    exact List.mem_map_of_mem ((isSpace_iff _).mp (hw w' hw'))

theorem trimEnd_spec (s : Bytes) : TrimmedEnd s (trimEnd s) := by
  have hne : ∀ w ∈ wsChars.map List.reverse, w ≠ [] := wsRev_pf.ne
  obtain ⟨l, h1, h2, h3⟩ := strip_exists hne s.length s.reverse (by simp)
  refine ⟨(l.map List.reverse).reverse.flatten, ⟨(l.map List.reverse).reverse, ?_, rfl⟩, ?_, ?_⟩
  · intro w hw
    rw [List.mem_reverse, List.mem_map] at hw
    obtain ⟨w', hw', rfl⟩ := hw
    have := h1 w' hw'
    rw [List.mem_map] at this
    obtain ⟨w, hw, rfl⟩ := this
    rw [List.reverse_reverse]
    exact (isSpace_iff w).mpr hw
  · have := congrArg List.reverse h2
    rw [List.reverse_reverse, List.reverse_append, List.reverse_flatten, ← List.map_reverse] at this
    rw [List.map_reverse] at this
    exact this
  · intro w hw hs
    refine h3 w.reverse (List.mem_map_of_mem ((isSpace_iff w).mp hw)) ?_
    have := List.reverse_prefix.mpr hs
    unfold trimEnd at this
    rwa [List.reverse_reverse] at this

theorem trimEnd_iff (s t : Bytes) : trimEnd s = t ↔ TrimmedEnd s t :=
  ⟨fun h => h ▸ trimEnd_spec s, trimEnd_eq⟩

theorem trimStart_eq {l t : Bytes} (hl : Blank l) (ht : NoSpaceFirst t) : trimStart (l ++ t) = t := by
  obtain ⟨ws, hw, rfl⟩ := hl
  exact wsChars_pf.strip (fun w hw => ht w ((isSpace_iff w).mpr hw)) ws _ (fun w h => (isSpace_iff w).mp (hw w h))
    (Nat.le_refl _)

theorem trimStart_spec (s : Bytes) : ∃ l, Blank l ∧ s = l ++ trimStart s ∧ NoSpaceFirst (trimStart s) := by
  obtain ⟨l, h1, h2, h3⟩ := strip_exists wsChars_pf.ne s.length s (Nat.le_refl _)
  exact ⟨l.flatten, ⟨l, fun w hw => (isSpace_iff w).mpr (h1 w hw), rfl⟩, h2,
    fun w hw => h3 w ((isSpace_iff w).mp hw)⟩

/-- no white space character reaches from white space into what follows. -/
theorem noSpaceLast_append {l t : Bytes} (hl : Blank l) (hne : t ≠ []) (ht : NoSpaceLast t) : NoSpaceLast (l ++ t) := by
  intro w hw hs
  by_cases hlen : w.length ≤ t.length
  · exact ht w hw (List.suffix_of_suffix_length_le hs (List.suffix_append l t) hlen)
  · have hts : t <:+ w := List.suffix_of_suffix_length_le (List.suffix_append l t) hs (by omega)
    obtain ⟨p, rfl⟩ := hts
    have hp : p <:+ l := by
      obtain ⟨q, hq⟩ := hs
      rw [← List.append_assoc] at hq
      exact ⟨q, List.append_cancel_right hq⟩
    have hpne : p ≠ [] := by rintro rfl; simp at hlen
    have hwm := (isSpace_iff _).mp hw
    obtain ⟨ws, hws, rfl⟩ := hl
    have hwsne : ws ≠ [] := by
      rintro rfl
      exact hpne (by simpa using hp)
    rw [← List.dropLast_concat_getLast hwsne, List.flatten_append, List.flatten_singleton] at hp
    have hgm := (isSpace_iff _).mp (hws _ (List.getLast_mem hwsne))
    generalize ws.getLast hwsne = g at hp hgm
    have hpw : p = (p ++ t).take p.length := by simp
    have hi : p.length < 3 := by
      have h3 : ∀ w ∈ wsChars, w.length ≤ 3 := by decide +kernel
      have := List.length_pos_iff.mpr hne
      have := h3 _ hwm
      rw [List.length_append] at this; omega
    have h0 : 0 < p.length := List.length_pos_iff.mpr hpne
    have hlt : p.length < (p ++ t).length := by have := List.length_pos_iff.mpr hne; rw [List.length_append]; omega
    have key : ∀ w ∈ wsChars, ∀ g ∈ wsChars, ∀ i < 3, 0 < i → i < w.length → ¬ w.take i <:+ g ∧ ¬ g <:+ w.take i := by
      decide +kernel
    obtain ⟨k1, k2⟩ := key _ hwm _ hgm p.length hi h0 hlt
    rw [← hpw] at k1 k2
    by_cases hpg : p.length ≤ g.length
    · exact k1 (List.suffix_of_suffix_length_le hp (List.suffix_append _ g) hpg)
    · exact k2 (List.suffix_of_suffix_length_le (List.suffix_append _ g) hp (by omega))

theorem blank_append {a b : Bytes} (ha : Blank a) (hb : Blank b) : Blank (a ++ b) := by
  obtain ⟨x, hx, rfl⟩ := ha
  obtain ⟨y, hy, rfl⟩ := hb
  refine ⟨x ++ y, ?_, by simp⟩
  intro w hw
  rcases List.mem_append.mp hw with h | h
  · exact hx w h
  · exact hy w h

theorem blank_nil : Blank [] := ⟨[], by simp, rfl⟩

theorem noSpaceFirst_nil : NoSpaceFirst [] := by
  intro w hw hp
  exact wsChars_pf.ne w ((isSpace_iff w).mp hw) (List.prefix_nil.mp hp)

theorem noSpaceLast_nil : NoSpaceLast [] := by
  intro w hw hp
  exact wsChars_pf.ne w ((isSpace_iff w).mp hw) (List.suffix_nil.mp hp)

theorem trim_eq {s t : Bytes} (h : Trimmed s t) : trim s = t := by
  obtain ⟨l, r, hl, hr, rfl, h1, h2⟩ := h
  unfold trim
  by_cases hne : t = []
  · subst hne
    rw [List.append_nil, trimEnd_eq (s := l ++ r) (t := []) ⟨l ++ r, blank_append hl hr, rfl, noSpaceLast_nil⟩]
    have := trimStart_eq blank_nil noSpaceFirst_nil
    simpa using this
  · rw [trimEnd_eq (t := l ++ t) ⟨r, hr, rfl, noSpaceLast_append hl hne h2⟩]
    exact trimStart_eq hl h1

theorem trim_spec (s : Bytes) : Trimmed s (trim s) := by
  obtain ⟨r, hr, h1, h2⟩ := trimEnd_spec s
  obtain ⟨l, hl, h3, h4⟩ := trimStart_spec (trimEnd s)
  refine ⟨l, r, hl, hr, ?_, h4, ?_⟩
  · unfold trim
    rw [← h3]; exact h1
  · intro w hw hs
    refine h2 w hw ?_
    rw [h3]
    exact hs.trans (List.suffix_append _ _)

theorem trim_iff (s t : Bytes) : trim s = t ↔ Trimmed s t := ⟨fun h => h ▸ trim_spec s, trim_eq⟩

/-! ### words -/

theorem splitWs_blank (l : List Bytes) : ∀ (fuel : Nat) (t : Bytes), (∀ w ∈ l, w ∈ wsChars) → (l.flatten ++ t).length ≤ fuel →
    ∃ fuel', t.length ≤ fuel' ∧ splitWsLoop fuel [] (l.flatten ++ t) = splitWsLoop fuel' [] t := by
  induction l with
  | nil => intro fuel t _ hf; exact ⟨fuel, by simpa using hf, rfl⟩
  | cons w l ih =>
    intro fuel t hl hf
    have hp := List.length_pos_iff.mpr (wsChars_pf.ne w (hl w (by simp)))
    cases fuel with
    | zero => rw [List.flatten_cons, List.length_append, List.length_append] at hf; omega
    | succ fuel =>
      obtain ⟨f', h1, h2⟩ := ih fuel t (fun x hx => hl x (by simp [hx])) (by simp at hf ⊢; omega)
      refine ⟨f', h1, ?_⟩
      rw [List.flatten_cons, List.append_assoc]
      conv => lhs; unfold splitWsLoop
      rw [wsChars_pf.find (hl w (by simp))]
      simp only [List.drop_left]
      rw [h2]
      rfl

/-- no white space character reaches from a word into the white space behind it. -/
theorem find_word {u rest : Bytes} (hu : u ≠ []) (hs : ∀ c, IsSpace c → ¬ c <:+: u) (hr : rest = [] ∨ ¬ NoSpaceFirst rest) :
    wsChars.find? (·.isPrefixOf (u ++ rest)) = none := by
  refine find_none fun w hw hp => ?_
  by_cases hlen : w.length ≤ u.length
  · exact hs w ((isSpace_iff w).mpr hw) (List.prefix_of_prefix_length_le hp (List.prefix_append u rest) hlen).isInfix
  · have hup : u <+: w := List.prefix_of_prefix_length_le (List.prefix_append u rest) hp (by omega)
    obtain ⟨p, rfl⟩ := hup
    have hpr : p <+: rest := (List.prefix_append_right_inj u).mp hp
    have hpne : p ≠ [] := by rintro rfl; simp at hlen
    rcases hr with rfl | hr
    · exact hpne (List.prefix_nil.mp hpr)
    · have : ∃ g, IsSpace g ∧ g <+: rest := by
        apply Classical.byContradiction
        intro hn
        exact hr fun w hw hp => hn ⟨w, hw, hp⟩
      obtain ⟨g, hg, hgr⟩ := this
      have hgm := (isSpace_iff g).mp hg
      have key : ∀ w ∈ wsChars, ∀ g ∈ wsChars, ∀ i < 3, 0 < i → i < w.length → ¬ w.drop i <+: g ∧ ¬ g <+: w.drop i := by
        decide +kernel
      have h3 : ∀ w ∈ wsChars, w.length ≤ 3 := by decide +kernel
      have hl := h3 _ hw
      have h0 := List.length_pos_iff.mpr hu
      have h0' := List.length_pos_iff.mpr hpne
      rw [List.length_append] at hl
      obtain ⟨k1, k2⟩ := key _ hw _ hgm u.length (by omega) h0 (by rw [List.length_append]; omega)
      rw [List.drop_left] at k1 k2
      rcases List.prefix_or_prefix_of_prefix hpr hgr with h | h
      · exact k1 h
      · exact k2 h

theorem splitWs_word (rest : Bytes) (hr : rest = [] ∨ ¬ NoSpaceFirst rest) : ∀ (u cur : Bytes) (fuel : Nat),
    (∀ c, IsSpace c → ¬ c <:+: u) → (u ++ rest).length ≤ fuel →
    ∃ fuel', rest.length ≤ fuel' ∧ splitWsLoop fuel cur (u ++ rest) = splitWsLoop fuel' (cur ++ u) rest
  | [], cur, fuel, _, hf => ⟨fuel, by simpa using hf, by simp⟩
  | b :: u, cur, 0, _, hf => by simp at hf
  | b :: u, cur, fuel + 1, hs, hf => by
    obtain ⟨f', h1, h2⟩ := splitWs_word rest hr u (cur ++ [b]) fuel
      (fun c hc hi => hs c hc (hi.trans (List.suffix_cons b u).isInfix)) (by simp at hf ⊢; omega)
    refine ⟨f', h1, ?_⟩
    conv => lhs; unfold splitWsLoop
    rw [find_word (by simp) hs hr]
    simp only [List.cons_append]
    rw [h2, List.append_assoc]
    rfl

theorem splitWs_flush {cur rest : Bytes} {fuel : Nat} (hc : cur ≠ []) (hr : rest = [] ∨ ¬ NoSpaceFirst rest)
    (hf : rest.length ≤ fuel) : ∃ fuel', rest.length ≤ fuel' ∧ splitWsLoop fuel cur rest = cur :: splitWsLoop fuel' [] rest := by
  rcases hr with rfl | hr
  · refine ⟨fuel, hf, ?_⟩
    cases fuel with
    | zero => simp [splitWsLoop, flush, hc]
    | succ n =>
      have : wsChars.find? (·.isPrefixOf ([] : Bytes)) = none := by decide +kernel
      simp only [splitWsLoop, this]
      simp [flush, hc]
  · have : ∃ g, IsSpace g ∧ g <+: rest := by
      apply Classical.byContradiction
      intro hn
      exact hr fun w hw hp => hn ⟨w, hw, hp⟩
    obtain ⟨g, hg, t, rfl⟩ := this
    have hgm := (isSpace_iff g).mp hg
    refine ⟨fuel, hf, ?_⟩
    cases fuel with
    | zero => have := List.length_pos_iff.mpr (wsChars_pf.ne g hgm); rw [List.length_append] at hf; omega
    | succ n =>
      simp only [splitWsLoop]
      rw [wsChars_pf.find hgm]
      simp [flush, hc]

theorem splitWsLoop_eq {s : Bytes} {ws : List Bytes} (h : Words s ws) : ∀ fuel, s.length ≤ fuel → splitWsLoop fuel [] s = ws := by
  induction h with
  | nil hb =>
    intro fuel hf
    obtain ⟨l, hl, rfl⟩ := hb
    obtain ⟨f', _, h2⟩ := splitWs_blank l fuel [] (fun w hw => (isSpace_iff w).mp (hl w hw)) (by simpa using hf)
    rw [List.append_nil] at h2
    rw [h2]
    have : wsChars.find? (·.isPrefixOf ([] : Bytes)) = none := by decide +kernel
    cases f' <;> simp [splitWsLoop, flush, this]
  | cons hb hw hs hr _ ih =>
    intro fuel hf
    obtain ⟨l, hl, rfl⟩ := hb
    rw [List.append_assoc] at hf ⊢
    obtain ⟨f1, g1, h1⟩ := splitWs_blank l fuel _ (fun w hw => (isSpace_iff w).mp (hl w hw)) hf
    obtain ⟨f2, g2, h2⟩ := splitWs_word _ hr _ [] f1 hs g1
    obtain ⟨f3, g3, h3⟩ := splitWs_flush (cur := [] ++ _) (by simpa using hw) hr g2
    rw [h1, h2, h3, ih f3 g3]
    rfl

theorem splitWhitespace_eq {s : Bytes} {ws : List Bytes} (h : Words s ws) : splitWhitespace s = ws :=
  splitWsLoop_eq h _ (Nat.le_refl _)

/-- the first word of a text: everything up to the next white space. -/
theorem word_split (s : Bytes) : ∃ w rest, s = w ++ rest ∧ (∀ c, IsSpace c → ¬ c <:+: w) ∧ (rest = [] ∨ ¬ NoSpaceFirst rest) ∧
    (s ≠ [] → NoSpaceFirst s → w ≠ []) := by
  induction s with
  | nil => exact ⟨[], [], rfl, fun c hc hi => wsChars_pf.ne c ((isSpace_iff c).mp hc) (List.infix_nil.mp hi), .inl rfl, by simp⟩
  | cons b s ih =>
    by_cases hns : NoSpaceFirst (b :: s)
    · obtain ⟨w, rest, h1, h2, h3, _⟩ := ih
      refine ⟨b :: w, rest, by rw [h1]; rfl, ?_, h3, fun _ _ => by simp⟩
      intro c hc hi
      rcases List.infix_cons_iff.mp hi with hp | hi
      · exact hns c hc (by rw [h1]; exact hp.trans (List.prefix_append (b :: w) rest))
      · exact h2 c hc hi
    · exact ⟨[], b :: s, rfl, fun c hc hi => wsChars_pf.ne c ((isSpace_iff c).mp hc) (List.infix_nil.mp hi), .inr hns,
        fun _ h => absurd h hns⟩

theorem words_exist : ∀ (n : Nat) (s : Bytes), s.length ≤ n → ∃ ws, Words s ws
  | 0, s, h => by
    obtain rfl : s = [] := by simpa using h
    exact ⟨[], .nil blank_nil⟩
  | n + 1, s, h => by
    obtain ⟨l, hl, h1, h2⟩ := trimStart_spec s
    by_cases he : trimStart s = []
    · rw [he, List.append_nil] at h1
      exact ⟨[], .nil (h1 ▸ hl)⟩
    · obtain ⟨w, rest, h3, h4, h5, h6⟩ := word_split (trimStart s)
      have hw := h6 he h2
      have hlw := List.length_pos_iff.mpr hw
      have : rest.length ≤ n := by
        have := congrArg List.length h1
        have := congrArg List.length h3
        simp at *; omega
      obtain ⟨ws, hws⟩ := words_exist n rest this
      refine ⟨w :: ws, ?_⟩
      rw [h1, h3, ← List.append_assoc]
      exact .cons hl hw h4 h5 hws

theorem splitWhitespace_iff (s : Bytes) (ws : List Bytes) : splitWhitespace s = ws ↔ Words s ws := by
  constructor
  · rintro rfl
    obtain ⟨ws, h⟩ := words_exist s.length s (Nat.le_refl _)
    rw [splitWhitespace_eq h]; exact h
  · exact splitWhitespace_eq

end Verif
