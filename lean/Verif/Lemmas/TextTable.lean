import Verif.Lemmas.TextRows
/-
The table of a text dump.
-/
namespace Verif
open Spec

/-- the columns come in order. -/
def Cols.Ordered (c : Cols) : Prop := c.nextHop < c.metric ∧ c.metric < c.localPref ∧ c.localPref < c.weight ∧ c.weight < c.path

/-- what the parts of a row are made of. -/
theorem row_parts {env : DumpEnv} (hs : AddrSyntax env) {c : Cols} {r : DumpRow} {text : Bytes} (h : RowText env c r text) :
    ∃ flags net hop metric pref weight path, text = flags ++ net ++ hop ++ metric ++ pref ++ weight ++ path ∧ Flags flags ∧
    (net.length = c.nextHop - 3 ∧ (∀ b ∈ net, Graphic b ∧ b ≠ 105 ∨ b = 32) ∧
      (match r.net with | none => trim net = [] | some n => env.ipNet (trim net) = some n)) ∧
    (hop.length = c.metric - c.nextHop ∧ (∀ b ∈ hop, Graphic b ∧ b ≠ 105 ∨ b = 32) ∧ (∃ b ∈ hop, Graphic b) ∧
      env.ipAddr (trim hop) = some r.nextHop) ∧
    NumberColumn (c.localPref - c.metric) r.metric metric ∧ NumberColumn (c.weight - c.localPref) r.localPref pref ∧
    (weight.length = c.path - c.weight ∧ ∀ b ∈ weight, b.toNat < 128) ∧ PathText r.path r.origin path ∧ 3 ≤ c.nextHop := by
  obtain ⟨flags, net, hop, metric, pref, weight, path, h1, h2, h3, h4, ⟨t, h5, h5'⟩, h6, h7, h8, h9⟩ := h
  refine ⟨flags, net, hop, metric, pref, weight, path, h1, h2, ?_, ?_, h6, h7, ⟨h8.1, fun b hb => by have := h8.2 b hb; omega⟩, h9, h3⟩
  · cases hn : r.net with
    | none =>
      rw [hn] at h4
      simp only at h4
      subst h4
      exact ⟨by simp, fun b hb => .inr (List.eq_of_mem_replicate hb), trim_blank _⟩
    | some n =>
      rw [hn] at h4
      obtain ⟨t, h4, p, q, rfl, hl⟩ := h4
      have hg := hs.graphicNet h4
      refine ⟨hl, fun b hb => ?_, ?_⟩
      · simp only [List.mem_append] at hb
        rcases hb with (hb | hb) | hb
        · exact .inr (List.eq_of_mem_replicate hb)
        · refine .inl ⟨hg.2 b hb, ?_⟩
          rintro rfl
          rcases (hs.net t n h4).2 105 hb with h | h
          · revert h; unfold AddrChar; decide
          · revert h; decide
        · exact .inr (List.eq_of_mem_replicate hb)
      · rw [trim_padded hg.2]; exact h4
  · obtain ⟨p, q, rfl, hl⟩ := h5'
    have hg := hs.graphic h5
    refine ⟨hl, fun b hb => ?_, ?_, ?_⟩
    · simp only [List.mem_append] at hb
      rcases hb with (hb | hb) | hb
      · exact .inr (List.eq_of_mem_replicate hb)
      · refine .inl ⟨hg.2 b hb, ?_⟩
        rintro rfl
        have h := (hs.addr t _ h5).2 105 hb
        revert h; unfold AddrChar; decide
      · exact .inr (List.eq_of_mem_replicate hb)
    · obtain ⟨b, hb⟩ := List.exists_mem_of_ne_nil t hg.1
      exact ⟨b, by simp [hb], hg.2 b hb⟩
    · rw [trim_padded hg.2]; exact h5

theorem not_displayed {flags z y text : Bytes} (hf : Flags flags) (hz : ∀ b ∈ z, b ≠ 105)
    (hg : ∃ u b v, z = u ++ b :: v ∧ Graphic b ∧ v ≠ []) (ht : text = flags ++ z ++ y) :
    (ascii "Displayed").isPrefixOf (trimStart text) = false := by
  cases hx : (ascii "Displayed").isPrefixOf (trimStart text) with
  | false => rfl
  | true =>
    exfalso
    rw [List.isPrefixOf_iff_prefix] at hx
    obtain ⟨rest, hr⟩ := hx
    obtain ⟨bl, hbl, h1, _⟩ := trimStart_spec text
    rw [← hr, ht] at h1
    have hD : flags ++ z ++ y = bl ++ 68 :: 105 :: ((ascii "splayed") ++ rest) := h1
    obtain ⟨u, b, v, rfl, hb, hv⟩ := hg
    have hvl := List.length_pos_iff.mpr hv
    by_cases h3 : bl.length < 3
    · have e := congrArg (fun l => l[bl.length]?) hD
      simp only [List.getElem?_append_right (Nat.le_refl bl.length), Nat.sub_self, List.getElem?_cons_zero] at e
      rw [List.append_assoc, List.getElem?_append_left (by rw [hf.1]; exact h3)] at e
      have := List.mem_of_getElem? e
      exact (hf.2 68 this).2.2 rfl
    · have e := congrArg (fun l => l[bl.length + 1]?) hD
      simp only [List.getElem?_append_right (Nat.le_succ bl.length)] at e
      rw [show bl.length + 1 - bl.length = 1 by omega, List.getElem?_cons_succ, List.getElem?_cons_zero] at e
      by_cases hin : bl.length + 1 < 3 + (u ++ b :: v).length
      · rw [List.getElem?_append_left (by rw [List.length_append, hf.1]; exact hin),
          List.getElem?_append_right (by rw [hf.1]; omega)] at e
        exact hz 105 (List.mem_of_getElem? e) rfl
      · have e2 := congrArg (fun l => l[3 + u.length]?) hD
        rw [List.length_append, List.length_cons] at hin
        rw [List.getElem?_append_left (by rw [List.length_append, hf.1, List.length_append, List.length_cons]; omega),
          List.getElem?_append_right (by rw [hf.1]; omega), hf.1, Nat.add_sub_cancel_left,
          List.getElem?_append_right (Nat.le_refl _), Nat.sub_self, List.getElem?_cons_zero,
          List.getElem?_append_left (by omega)] at e2
        exact blank_bytes hbl b (List.mem_of_getElem? e2.symm) hb

theorem row_last {text x : Bytes} {b : UInt8} (h : text = x ++ [b]) (hb : Graphic b) :
    NoSpaceLast text ∧ trimEnd text = text ∧ (trim text).isEmpty = false := by
  have h1 : NoSpaceLast text := h ▸ noSpaceLast_graphic hb
  refine ⟨h1, trimEnd_eq ⟨[], blank_nil, by simp, h1⟩, ?_⟩
  cases ht : trim text with
  | cons a s => rfl
  | nil =>
    obtain ⟨l, r, hl, hr, h2, _⟩ := trim_spec text
    rw [ht, List.append_nil] at h2
    have := blank_bytes (blank_append hl hr) b (by rw [← h2, h]; simp)
    exact absurd hb this

theorem routeLine_row {env : DumpEnv} (hs : AddrSyntax env) {c : Cols} (hc : c.Ordered) {r : DumpRow} {text : Bytes}
    (h : RowText env c r text) : NoSpaceLast text ∧ text ≠ [] ∧ (∀ b ∈ text, b.toNat < 128) ∧
    ∃ pfx path, routeLine env text c = some ⟨pfx, r.nextHop, r.metric, r.localPref, path, some r.origin⟩ ∧
      textAsPath path = [.seq r.path] ∧ (match r.net with | none => pfx = [] | some n => env.ipNet pfx = some n) := by
  obtain ⟨flags, net, hop, metric, pref, weight, path, rfl, hf, ⟨hn1, hn2, hn3⟩, ⟨hh1, hh2, hh3, hh4⟩, hm, hp, ⟨hw1, hw2⟩, hpt, h3⟩ :=
    row_parts hs h
  obtain ⟨hc1, hc2, hc3, hc4⟩ := hc
  obtain ⟨hm1, hm2⟩ := numberColumn_bytes hm
  obtain ⟨hp1, hp2⟩ := numberColumn_bytes hp
  have g128 : ∀ b, Graphic b ∧ b ≠ 105 ∨ b = 32 → b.toNat < 128 := by
    rintro b (⟨h, _⟩ | rfl)
    · unfold Graphic at h; omega
    · decide
  have a128 : ∀ b, AddrChar b ∨ b = 32 → b.toNat < 128 := by
    rintro b (h | rfl)
    · have := addrChar_graphic h; unfold Graphic at this; omega
    · decide
  have hascii : ∀ b ∈ flags ++ net ++ hop ++ metric ++ pref ++ weight ++ path, b.toNat < 128 := by
    intro b hb
    simp only [List.mem_append] at hb
    rcases hb with (((((hb | hb) | hb) | hb) | hb) | hb) | hb
    · have := hf.2 b hb; omega
    · exact g128 b (hn2 b hb)
    · exact g128 b (hh2 b hb)
    · exact a128 b (hm2 b hb)
    · exact a128 b (hp2 b hb)
    · exact hw2 b hb
    · exact path_ascii hpt b hb
  obtain ⟨x, b, hx, hbg⟩ := path_last hpt
  have hl := row_last (text := flags ++ net ++ hop ++ metric ++ pref ++ weight ++ path)
    (x := flags ++ net ++ hop ++ metric ++ pref ++ weight ++ x) (b := b) (by rw [hx]; simp) hbg
  have hd : (ascii "Displayed").isPrefixOf (trimStart (flags ++ net ++ hop ++ metric ++ pref ++ weight ++ path)) = false := by
    refine not_displayed (z := net ++ hop ++ metric) (y := pref ++ weight ++ path) hf ?_ ?_ (by simp)
    · intro b hb
      simp only [List.mem_append] at hb
      rcases hb with (hb | hb) | hb
      · rcases hn2 b hb with h | rfl
        · exact h.2
        · decide
      · rcases hh2 b hb with h | rfl
        · exact h.2
        · decide
      · rcases hm2 b hb with h | rfl
        · rintro rfl; revert h; unfold AddrChar; decide
        · decide
    · obtain ⟨b, hb, hbg⟩ := hh3
      obtain ⟨u, v, rfl⟩ := List.append_of_mem hb
      refine ⟨net ++ u, b, v ++ metric, by simp, hbg, ?_⟩
      have : metric ≠ [] := by rintro rfl; simp at hm1; omega
      simp [this]
  have hfl := hf.1
  refine ⟨hl.1, by rw [hx]; simp, hascii, trim net, (pathColumn (flags ++ net ++ hop ++ metric ++ pref ++ weight ++ path) c.path).1, ?_, ?_, ?_⟩
  · unfold routeLine
    simp only [hl.2.1, hl.2.2, hd, Bool.or_self, Bool.false_eq_true, if_false]
    rw [show flags ++ net ++ hop ++ metric ++ pref ++ weight ++ path = (flags ++ net) ++ hop ++ (metric ++ pref ++ weight ++ path) by simp,
      strGet_mid (by simpa using hascii) (by simp; omega) (by simp; omega)]
    simp only [hh4]
    rw [show (flags ++ net) ++ hop ++ (metric ++ pref ++ weight ++ path) = flags ++ net ++ (hop ++ metric ++ pref ++ weight ++ path) by simp,
      strGet_mid (by simpa using hascii) (by omega) (by omega)]
    simp only
    rw [show flags ++ net ++ (hop ++ metric ++ pref ++ weight ++ path) = (flags ++ net ++ hop) ++ metric ++ (pref ++ weight ++ path) by simp,
      numberColumn_eq hm (by simp; omega) (by simp; omega) (by simpa using hascii)]
    rw [show (flags ++ net ++ hop) ++ metric ++ (pref ++ weight ++ path) = (flags ++ net ++ hop ++ metric) ++ pref ++ (weight ++ path) by simp,
      numberColumn_eq hp (by simp; omega) (by simp; omega) (by simpa using hascii)]
    have := pathColumn_eq (x := flags ++ net ++ hop ++ metric ++ pref ++ weight) (a := c.path) hpt
      (fun b hb => hascii b (List.mem_append_left _ hb)) (by simp; omega)
    rw [show (flags ++ net ++ hop ++ metric) ++ pref ++ (weight ++ path) = flags ++ net ++ hop ++ metric ++ pref ++ weight ++ path by simp,
      this.2]
  · exact (pathColumn_eq (x := flags ++ net ++ hop ++ metric ++ pref ++ weight) (a := c.path) hpt
      (fun b hb => hascii b (List.mem_append_left _ hb)) (by simp; omega)).1
  · cases hn : r.net with
    | none => rw [hn] at hn3; exact hn3
    | some n => rw [hn] at hn3; exact hn3

/-! ### noise and prefixes -/

theorem trimEnd_isPrefix (s : Bytes) : trimEnd s <+: s := by
  obtain ⟨r, _, h, _⟩ := trimEnd_spec s
  exact ⟨r, h.symm⟩

theorem routeLine_noise {env : DumpEnv} {s : Bytes} (h : ∀ t, t <:+: s → env.ipAddr t = none) (c : Cols) : routeLine env s c = none := by
  unfold routeLine
  simp only
  split
  · rfl
  · cases hg : strGet (trimEnd s) c.nextHop c.metric with
    | none => rfl
    | some t =>
      simp only
      rw [h (trim t) ((trim_infix t).trans ((strGet_infix hg).trans (trimEnd_isPrefix s).isInfix))]

theorem wrappedPrefix_noise {env : DumpEnv} {s : Bytes} (ha : ∀ b ∈ s, b.toNat < 128) (h : ∀ t, t <:+: s → env.ipNet t = none) (n : Nat) :
    wrappedPrefix env s n = .ok none := by
  unfold wrappedPrefix
  simp only
  split
  · rename_i hn
    unfold strFrom
    rw [if_pos (charBoundary_ascii ha (by omega))]
    simp only
    split
    · cases hg : strGet s 3 n with
      | none => rfl
      | some t => simp only [h (trim t) ((trim_infix t).trans (strGet_infix hg)), Option.map_none]
    · rfl
  · cases hg : strFrom s 3 with
    | none => simp only
    | some t => simp only [h (trim t) ((trim_infix t).trans (strFrom_infix hg)), Option.map_none]

theorem routeLine_short {env : DumpEnv} {s : Bytes} {c : Cols} (h : s.length < c.metric) : routeLine env s c = none := by
  unfold routeLine
  simp only
  split
  · rfl
  · have hl := (trimEnd_isPrefix s).length_le
    have : strGet (trimEnd s) c.nextHop c.metric = none := by
      unfold strGet
      rw [if_neg]
      rintro ⟨_, _, h3⟩
      rw [charBoundary_long (by omega)] at h3
      exact absurd h3 (by decide)
    rw [this]

theorem prefix_line {env : DumpEnv} (hs : AddrSyntax env) {c : Cols} {n : IpNet} {text : Bytes} (h : PrefixText env c n text) :
    NoSpaceLast text ∧ text ≠ [] ∧ (∀ b ∈ text, b.toNat < 128) ∧ routeLine env text c = none ∧
    (∀ w, c.shiftLeft = some w → routeLine env text w = none) ∧
    ∃ p, wrappedPrefix env text c.nextHop = .ok (some p) ∧ env.ipNet p = some n := by
  obtain ⟨flags, a, t, rfl, hf, hn, hlen, hc⟩ := h
  obtain ⟨hne, hg⟩ := hs.graphicNet hn
  have hlast : flags ++ List.replicate a 32 ++ t = flags ++ List.replicate a 32 ++ t.dropLast ++ [t.getLast hne] := by
    rw [List.append_assoc _ t.dropLast, List.dropLast_concat_getLast]
  have hl := row_last hlast (hg _ (List.getLast_mem hne))
  have hascii : ∀ b ∈ flags ++ List.replicate a 32 ++ t, b.toNat < 128 := by
    intro b hb
    simp only [List.mem_append] at hb
    rcases hb with (hb | hb) | hb
    · have := hf.2 b hb; omega
    · obtain rfl := List.eq_of_mem_replicate hb; decide
    · have := hg b hb; unfold Graphic at this; omega
  refine ⟨hl.1, by simp [hne], hascii, routeLine_short (by omega), ?_, t, ?_, hn⟩
  · intro w hw
    unfold Cols.shiftLeft at hw
    split at hw
    · simp only [Option.some.injEq] at hw
      subst hw
      exact routeLine_short (by simp only; omega)
    · simp at hw
  · unfold wrappedPrefix
    simp only
    rw [if_neg (by omega), List.append_assoc, strFrom_end (by rw [← List.append_assoc]; exact hascii) hf.1.symm]
    have ht : trim (List.replicate a 32 ++ t) = t := by
      have := trim_padded (a := a) (b := 0) hg
      simpa using this
    simp only [ht, hn, Option.map_some]

/-! ### one line -/

/-- the state of the iteration: the text of the current prefix. -/
def CurIs (env : DumpEnv) : Option IpNet → Bytes → Prop
  | none, cur => cur = []
  | some n, cur => env.ipNet cur = some n

theorem lineStep_row {env : DumpEnv} (hs : AddrSyntax env) {it : TextIter} (hc : it.cols.Ordered) {r : DumpRow} {text : Bytes}
    (h : RowText env it.cols r text) :
    (∀ n, r.net = some n → ∃ cur, it.lineStep env text = .ok (some (rowElem it.time it.peerIp it.peerAsn n r), cur) ∧ CurIs env (some n) cur) ∧
    (r.net = none → ∀ n, CurIs env (some n) it.current →
      it.lineStep env text = .ok (some (rowElem it.time it.peerIp it.peerAsn n r), it.current)) ∧
    (r.net = none → it.current = [] → it.lineStep env text = .ok (none, [])) := by
  obtain ⟨_, _, _, pfx, path, h1, h2, h3⟩ := routeLine_row hs hc h
  refine ⟨?_, ?_, ?_⟩
  · intro n hn
    rw [hn] at h3
    simp only at h3
    have hne : pfx.isEmpty = false := by
      cases pfx with
      | nil => exact absurd rfl (hs.net _ n h3).1
      | cons a b => rfl
    refine ⟨pfx, ?_, h3⟩
    unfold TextIter.lineStep
    simp only [h1, hne, Bool.false_eq_true, if_false]
    unfold textElem
    simp only [h3, h2, textOrigins_seq]
    rfl
  · intro hn n hcur
    rw [hn] at h3
    simp only at h3
    subst h3
    have hne : it.current.isEmpty = false := by
      cases hi : it.current with
      | nil => rw [hi] at hcur; exact absurd rfl (hs.net _ n hcur).1
      | cons a b => rfl
    unfold TextIter.lineStep
    simp only [h1, List.isEmpty_nil, if_true, hne, Bool.false_eq_true, if_false]
    unfold textElem
    have hcur : env.ipNet it.current = some n := hcur
    simp only [hcur, h2, textOrigins_seq]
    rfl
  · intro hn hcur
    rw [hn] at h3
    simp only at h3
    subst h3
    unfold TextIter.lineStep
    simp only [h1, List.isEmpty_nil, if_true, hcur]

theorem routeLine_noHop {env : DumpEnv} {c : Cols} {text : Bytes} (hl : trimEnd text = text) (h : NoHopThere env c text) :
    routeLine env text c = none := by
  unfold routeLine
  simp only [hl]
  split
  · rfl
  · cases hg : strGet text c.nextHop c.metric with
    | none => rfl
    | some t =>
      unfold strGet at hg
      split at hg
      · simp only [Option.some.injEq] at hg
        have := h (trim t) (by rw [hg]; exact trim_spec t)
        simp only [this]
      · simp at hg

theorem lineStep_shift {env : DumpEnv} (hs : AddrSyntax env) {it : TextIter} (hc : it.cols.Ordered) (hw : it.wrapped = it.cols.shiftLeft)
    {r : DumpRow} {text : Bytes} (h : RowText env (colsLeft it.cols) r text) (hno : NoHopThere env it.cols text) (hn : r.net = none) {n : IpNet}
    (hcur : CurIs env (some n) it.current) : it.lineStep env text = .ok (some (rowElem it.time it.peerIp it.peerAsn n r), it.current) ∧
    NoSpaceLast text ∧ text ≠ [] ∧ (∀ b ∈ text, b.toNat < 128) := by
  obtain ⟨_, _, _, _, _, _, _, _, _, h3, _⟩ := id h
  have h3 : 3 ≤ it.cols.nextHop - 1 := h3
  have ho : (colsLeft it.cols).Ordered := by
    obtain ⟨a, b, c, d⟩ := hc
    refine ⟨?_, ?_, ?_, ?_⟩ <;> simp only [colsLeft] <;> omega
  have hsl : it.cols.shiftLeft = some (colsLeft it.cols) := by
    obtain ⟨a, b, c, d⟩ := hc
    unfold Cols.shiftLeft
    rw [if_pos (by omega)]; rfl
  have hstep := (lineStep_row hs (it := { it with cols := colsLeft it.cols }) ho h).2.1 hn n hcur
  obtain ⟨hl, hne, ha, pfx, path, h1, _⟩ := routeLine_row hs ho h
  refine ⟨?_, hl, hne, ha⟩
  rw [← hstep]
  unfold TextIter.lineStep
  simp only [routeLine_noHop (trimEnd_eq ⟨[], blank_nil, by simp, hl⟩) hno, hw, hsl, Option.bind_some, h1]

/-! ### lines of a text -/

theorem linesOf_cons : ∀ {b l : Bytes} {ls : List Bytes}, linesOf b = l :: ls →
    b = l ++ ls.flatten ∧ ((∃ x, l = x ++ [10] ∧ 10 ∉ x ∧ linesOf ls.flatten = ls) ∨ (10 ∉ l ∧ l ≠ [] ∧ ls = []))
  | [], _, _, h => by simp [linesOf] at h
  | c :: b, l, ls, h => by
    unfold linesOf at h
    by_cases hc : c = 10
    · rw [if_pos hc] at h
      simp only [List.cons.injEq] at h
      obtain ⟨rfl, rfl⟩ := h
      have hb : b = (linesOf b).flatten := by
        cases hl : linesOf b with
        | nil =>
          cases b with
          | nil => rfl
          | cons d b =>
            unfold linesOf at hl
            split at hl
            · simp at hl
            · split at hl <;> simp at hl
        | cons l ls => exact (linesOf_cons hl).1
      refine ⟨by rw [← hb]; rfl, .inl ⟨[], by rw [hc]; rfl, by simp, ?_⟩⟩
      rw [← hb]
    · rw [if_neg hc] at h
      cases hl : linesOf b with
      | nil =>
        rw [hl] at h
        simp only [List.cons.injEq] at h
        obtain ⟨rfl, rfl⟩ := h
        have hb : b = [] := by
          cases b with
          | nil => rfl
          | cons d b =>
            unfold linesOf at hl
            split at hl
            · simp at hl
            · split at hl <;> simp at hl
        subst hb
        exact ⟨rfl, .inr ⟨by simp [Ne.symm hc], by simp, rfl⟩⟩
      | cons l' ls' =>
        rw [hl] at h
        simp only [List.cons.injEq] at h
        obtain ⟨rfl, rfl⟩ := h
        obtain ⟨h1, h2⟩ := linesOf_cons hl
        refine ⟨by rw [h1]; rfl, ?_⟩
        rcases h2 with ⟨x, rfl, hx, h3⟩ | ⟨h3, h4, rfl⟩
        · exact .inl ⟨c :: x, rfl, by simp [hx, Ne.symm hc], h3⟩
        · exact .inr ⟨by simp [h3, Ne.symm hc], by simp, rfl⟩

theorem linesOf_nil {b : Bytes} (h : linesOf b = []) : b = [] := by
  cases b with
  | nil => rfl
  | cons d b =>
    unfold linesOf at h
    split at h
    · simp at h
    · split at h <;> simp at h

theorem lineT_lines {b l : Bytes} {ls : List Bytes} (h : linesOf b = l :: ls) :
    lineT none (byteToks b) = (if utf8Ok l = true then .line l else .failed, byteToks ls.flatten) ∧ linesOf ls.flatten = ls ∧ l ≠ [] := by
  obtain ⟨h1, h2⟩ := linesOf_cons h
  rcases h2 with ⟨x, rfl, hx, h3⟩ | ⟨h3, h4, rfl⟩
  · refine ⟨?_, h3, by simp⟩
    unfold lineT
    rw [h1, byteToks_append, untilT_line none _ x [] hx]
    simp
  · refine ⟨?_, rfl, h4⟩
    have : untilT none [] (byteToks b) = (some l, []) := by
      rw [h1, List.flatten_nil, List.append_nil]
      have := untilT_bytes none [] l [] h3
      rw [List.append_nil, List.nil_append] at this
      rw [this]; rfl
    unfold lineT
    rw [this]
    simp [h4, byteToks]

theorem lineT_nil : lineT none (byteToks []) = (.eof, []) := by
  have hu : utf8Ok [] = true := by decide
  simp [lineT, untilT, byteToks, hu]

/-- the iteration over the lines of a text. -/
def dumpLines (env : DumpEnv) (it : TextIter) : Bytes → List Bytes → Except Err (List BgpElem)
  | _, [] => .ok []
  | cur, l :: ls =>
    if utf8Ok l = true then
      if (trimEnd l).isEmpty then dumpLines env it cur ls
      else
        match TextIter.lineStep env { it with current := cur } (trimEnd l) with
        | .error e => .error e
        | .ok (some e, cur) => (dumpLines env it cur ls).map (e :: ·)
        | .ok (none, cur) => dumpLines env it cur ls
    else .ok []

theorem dumpT_lines (env : DumpEnv) (it : TextIter) (n : Nat) : ∀ (b cur : Bytes) , b.length < n →
    dumpT env it none n cur (byteToks b) = dumpLines env it cur (linesOf b) := by
  induction n with
  | zero => intro b cur h; omega
  | succ n ih =>
    intro b cur h
    unfold dumpT
    cases hl : linesOf b with
    | nil =>
      rw [linesOf_nil hl, lineT_nil]
      rfl
    | cons l ls =>
      obtain ⟨h1, h2, h3⟩ := lineT_lines hl
      have hlen : ls.flatten.length < n := by
        have := congrArg List.length (linesOf_cons hl).1
        rw [List.length_append] at this
        have := List.length_pos_iff.mpr h3
        omega
      have ih' : ∀ c, dumpT env it none n c (byteToks ls.flatten) = dumpLines env it c ls := by
        intro c
        rw [ih ls.flatten c hlen, h2]
      rw [h1]
      unfold dumpLines
      by_cases hu : utf8Ok l = true
      · simp only [hu, if_true, ih']
        rfl
      · simp only [hu]
        rfl

/-! ### tables -/

theorem utf8Ok_ascii {s : Bytes} (h : ∀ b ∈ s, b.toNat < 128) : utf8Ok s = true := by
  induction s with
  | nil => decide
  | cons b s ih =>
    unfold utf8Ok
    rw [if_pos (h b (by simp))]
    exact ih fun x hx => h x (by simp [hx])

theorem lineOf_ascii {text line : Bytes} (h : LineOf text line) (ha : ∀ b ∈ text, b.toNat < 128) : utf8Ok line = true := by
  obtain ⟨tail, rfl, ht⟩ := h
  refine utf8Ok_ascii fun b hb => ?_
  rcases List.mem_append.mp hb with hb | hb
  · exact ha b hb
  · have := ht b hb
    simp only [List.mem_cons, List.not_mem_nil, or_false] at this
    omega

theorem dumpLines_table {env : DumpEnv} (hs : AddrSyntax env) {it : TextIter} (hc : it.cols.Ordered) (hw : it.wrapped = it.cols.shiftLeft)
    {o : Option IpNet} {ls : List Bytes} {rs : List (IpNet × DumpRow)} (h : TableLines env it.cols o ls rs) :
    ∀ cur, CurIs env o cur →
    dumpLines env it cur ls = .ok (rs.map fun r => rowElem it.time it.peerIp it.peerAsn r.1 r.2) := by
  induction h with
  | done => intro cur _; rfl
  | row h1 h2 h3 _ ih =>
    intro cur _
    obtain ⟨hl, hne, ha, _⟩ := routeLine_row hs hc h1
    obtain ⟨cur', hst, hcur⟩ := (lineStep_row hs (it := { it with current := cur }) hc h1).1 _ h3
    unfold dumpLines
    rw [if_pos (lineOf_ascii h2 ha), trimEnd_line h2 hl, if_neg (by simp [hne])]
    simp only [hst, ih cur' hcur]
    rfl
  | again h1 h2 h3 _ ih =>
    intro cur hcur
    obtain ⟨hl, hne, ha, _⟩ := routeLine_row hs hc h1
    have hst := (lineStep_row hs (it := { it with current := cur }) hc h1).2.1 h3 _ hcur
    unfold dumpLines
    rw [if_pos (lineOf_ascii h2 ha), trimEnd_line h2 hl, if_neg (by simp [hne])]
    simp only [hst, ih cur hcur]
    rfl
  | shifted h1 h0 h2 h3 _ ih =>
    intro cur hcur
    obtain ⟨hst, hl, hne, ha⟩ := lineStep_shift hs (it := { it with current := cur }) hc hw h1 h0 h3 hcur
    unfold dumpLines
    rw [if_pos (lineOf_ascii h2 ha), trimEnd_line h2 hl, if_neg (by simp [hne])]
    simp only [hst, ih cur hcur]
    rfl
  | orphan h1 h2 h3 _ ih =>
    intro cur hcur
    obtain rfl : cur = [] := hcur
    obtain ⟨hl, hne, ha, _⟩ := routeLine_row hs hc h1
    have hst := (lineStep_row hs (it := { it with current := [] }) hc h1).2.2 h3 rfl
    unfold dumpLines
    rw [if_pos (lineOf_ascii h2 ha), trimEnd_line h2 hl, if_neg (by simp [hne])]
    simp only [hst, ih [] rfl]
  | wrapped h1 h2 _ ih =>
    intro cur _
    obtain ⟨hl, hne, ha, g1, g2, p, g3, g4⟩ := prefix_line hs h1
    rename_i _ _ text _ _ _ _ _
    unfold dumpLines
    rw [if_pos (lineOf_ascii h2 ha), trimEnd_line h2 hl, if_neg (by simp [hne])]
    have hst : TextIter.lineStep env { it with current := cur } text = .ok (none, p) := by
      unfold TextIter.lineStep
      have hw' : it.wrapped.bind (routeLine env text) = none := by
        rw [hw]
        cases hsl : it.cols.shiftLeft with
        | none => rfl
        | some w => exact g2 w hsl
      simp only [g1, hw', g3]
    simp only [hst]
    exact ih p g4
  | noise h1 h2 _ ih =>
    intro cur hcur
    obtain ⟨ha, hno⟩ := h1
    have hp := trimEnd_prefix h2
    unfold dumpLines
    rw [if_pos (lineOf_ascii h2 ha)]
    split
    · exact ih cur hcur
    · rename_i _ _ line _ _ _ _
      have hst : TextIter.lineStep env { it with current := cur } (trimEnd line) = .ok (none, cur) := by
        unfold TextIter.lineStep
        have hn : ∀ c, routeLine env (trimEnd line) c = none :=
          routeLine_noise fun t ht => (hno t (ht.trans hp.isInfix)).1
        have hw' : it.wrapped.bind (routeLine env (trimEnd line)) = none := by
          cases it.wrapped with
          | none => rfl
          | some w => exact hn w
        simp only [hn, hw', wrappedPrefix_noise (fun b hb => ha b (hp.subset hb)) (fun t ht => (hno t (ht.trans hp.isInfix)).2)]
      simp only [hst]
      exact ih cur hcur

end Verif
