import Verif.Lemmas.TextHeader
/-
The rows of a text dump.
-/
namespace Verif
open Spec

/-- printable ASCII without the blank. -/
def Graphic (b : UInt8) : Prop := 33 ≤ b.toNat ∧ b.toNat < 127

instance (b : UInt8) : Decidable (Graphic b) := by unfold Graphic; infer_instance

theorem addrChar_graphic {b : UInt8} (h : AddrChar b) : Graphic b := by
  unfold AddrChar at h; unfold Graphic
  rcases h with h | h | h | rfl | rfl
  · omega
  · omega
  · omega
  · decide
  · decide

theorem Spec.AddrSyntax.graphic {env : DumpEnv} (h : AddrSyntax env) {t : Bytes} {a : Ip} (ht : env.ipAddr t = some a) :
    t ≠ [] ∧ ∀ b ∈ t, Graphic b := ⟨(h.addr t a ht).1, fun b hb => addrChar_graphic ((h.addr t a ht).2 b hb)⟩

theorem Spec.AddrSyntax.graphicNet {env : DumpEnv} (h : AddrSyntax env) {t : Bytes} {n : IpNet} (ht : env.ipNet t = some n) :
    t ≠ [] ∧ ∀ b ∈ t, Graphic b := by
  refine ⟨(h.net t n ht).1, fun b hb => ?_⟩
  rcases (h.net t n ht).2 b hb with h | rfl
  · exact addrChar_graphic h
  · decide

/-! ### white space and printable characters -/

theorem ws_bytes : ∀ w ∈ wsChars, ∀ b ∈ w, ¬ Graphic b := by decide +kernel

theorem blank_bytes {s : Bytes} (h : Blank s) : ∀ b ∈ s, ¬ Graphic b := by
  obtain ⟨ws, hw, rfl⟩ := h
  intro b hb
  rw [List.mem_flatten] at hb
  obtain ⟨w, h1, h2⟩ := hb
  exact ws_bytes w ((isSpace_iff w).mp (hw w h1)) b h2

theorem noSpaceLast_graphic {s : Bytes} {b : UInt8} (hb : Graphic b) : NoSpaceLast (s ++ [b]) := by
  intro w hw hs
  have hm := (isSpace_iff w).mp hw
  have hne := wsChars_pf.ne w hm
  obtain ⟨p, hp⟩ := hs
  rw [← List.dropLast_concat_getLast hne, ← List.append_assoc] at hp
  have := (List.append_inj' hp rfl).2
  simp only [List.cons.injEq, and_true] at this
  exact ws_bytes w hm _ (List.getLast_mem hne) (this ▸ hb)

theorem noSpaceLast_of_graphic {s : Bytes} (h : ∀ b ∈ s, Graphic b) : NoSpaceLast s := by
  by_cases hs : s = []
  · subst hs; exact noSpaceLast_nil
  · rw [← List.dropLast_concat_getLast hs]
    exact noSpaceLast_graphic (h _ (List.getLast_mem hs))

theorem noSpaceFirst_graphic {s : Bytes} {b : UInt8} (hb : Graphic b) : NoSpaceFirst (b :: s) := by
  intro w hw hs
  have hm := (isSpace_iff w).mp hw
  cases w with
  | nil => exact wsChars_pf.ne _ hm rfl
  | cons x w =>
    have := (List.cons_prefix_cons.mp hs).1
    exact ws_bytes _ hm x (by simp) (this ▸ hb)

theorem noSpaceFirst_of_graphic {s : Bytes} (h : ∀ b ∈ s, Graphic b) : NoSpaceFirst s := by
  cases s with
  | nil => exact noSpaceFirst_nil
  | cons b s => exact noSpaceFirst_graphic (h b (by simp))

theorem noSpaceIn_of_graphic {s : Bytes} (h : ∀ b ∈ s, Graphic b) : ∀ c, IsSpace c → ¬ c <:+: s := by
  intro c hc hi
  have hm := (isSpace_iff c).mp hc
  cases c with
  | nil => exact wsChars_pf.ne _ hm rfl
  | cons x c => exact ws_bytes _ hm x (by simp) (h x (hi.subset (by simp)))

theorem isSpace_32 : IsSpace [32] := (isSpace_iff _).mpr (by decide)

theorem blank_singletons {s : Bytes} (h : ∀ b ∈ s, [b] ∈ wsChars) : Blank s := by
  refine ⟨s.map fun b => [b], ?_, ?_⟩
  · intro w hw
    rw [List.mem_map] at hw
    obtain ⟨b, hb, rfl⟩ := hw
    exact (isSpace_iff _).mpr (h b hb)
  · induction s with
    | nil => rfl
    | cons b s ih => rw [List.map_cons, List.flatten_cons, ← ih (fun x hx => h x (by simp [hx]))]; rfl

theorem blank_replicate (n : Nat) : Blank (List.replicate n 32) := by
  refine blank_singletons fun b hb => ?_
  obtain rfl := List.eq_of_mem_replicate hb
  decide

theorem u8_ext {a b : UInt8} (h : a.toNat = b.toNat) : a = b := UInt8.toNat_inj.mp h

theorem blank_tail {s : Bytes} (h : ∀ b ∈ s, b.toNat ∈ [9, 10, 13, 32]) : Blank s := by
  refine blank_singletons fun b hb => ?_
  have := h b hb
  simp only [List.mem_cons, List.not_mem_nil, or_false] at this
  rcases this with h | h | h | h
  · rw [u8_ext (b := 9) h]; decide
  · rw [u8_ext (b := 10) h]; decide
  · rw [u8_ext (b := 13) h]; decide
  · rw [u8_ext (b := 32) h]; decide

theorem trim_padded {a b : Nat} {t : Bytes} (h : ∀ x ∈ t, Graphic x) : trim (List.replicate a 32 ++ t ++ List.replicate b 32) = t :=
  trim_eq ⟨_, _, blank_replicate a, blank_replicate b, rfl, noSpaceFirst_of_graphic h, noSpaceLast_of_graphic h⟩

theorem trim_graphic {t : Bytes} (h : ∀ x ∈ t, Graphic x) : trim t = t := by
  have := trim_padded (a := 0) (b := 0) h
  simpa using this

theorem trim_blank (n : Nat) : trim (List.replicate n 32) = [] := by
  have := trim_padded (a := n) (b := 0) (t := []) (by simp)
  simpa using this

theorem trimEnd_line {text line : Bytes} (h : LineOf text line) (hl : NoSpaceLast text) : trimEnd line = text := by
  obtain ⟨tail, rfl, ht⟩ := h
  exact trimEnd_eq ⟨tail, blank_tail ht, rfl, hl⟩

theorem trimEnd_prefix {text line : Bytes} (h : LineOf text line) : trimEnd line <+: text := by
  obtain ⟨tail, rfl, ht⟩ := h
  obtain ⟨r, hr, h1, h2⟩ := trimEnd_spec (text ++ tail)
  by_cases hlen : (trimEnd (text ++ tail)).length ≤ text.length
  · exact List.prefix_of_prefix_length_le (l₃ := text ++ tail) ⟨r, h1.symm⟩ (List.prefix_append _ _) hlen
  · have hp : text <+: trimEnd (text ++ tail) :=
      List.prefix_of_prefix_length_le (l₃ := text ++ tail) (List.prefix_append _ _) ⟨r, h1.symm⟩ (by omega)
    obtain ⟨m, hm⟩ := hp
    have hmne : m ≠ [] := by rintro rfl; rw [List.append_nil] at hm; rw [← hm] at hlen; omega
    rw [← hm, List.append_assoc] at h1
    have h1 := List.append_cancel_left h1
    have hb : [m.getLast hmne] ∈ wsChars := by
      have := ht (m.getLast hmne) (by rw [h1]; exact List.mem_append_left _ (List.getLast_mem hmne))
      simp only [List.mem_cons, List.not_mem_nil, or_false] at this
      rcases this with h | h | h | h
      · rw [u8_ext (b := 9) h]; decide
      · rw [u8_ext (b := 10) h]; decide
      · rw [u8_ext (b := 13) h]; decide
      · rw [u8_ext (b := 32) h]; decide
    refine absurd ?_ (h2 _ ((isSpace_iff _).mpr hb))
    rw [← hm]
    refine List.IsSuffix.trans ?_ (List.suffix_append text m)
    exact ⟨m.dropLast, List.dropLast_concat_getLast hmne⟩

/-! ### numbers -/

theorem decLoop_digits (bound : Nat) : ∀ (t : Bytes) (acc : Nat), (∀ b ∈ t, 48 ≤ b.toNat ∧ b.toNat ≤ 57) →
    decLoop bound acc t = if t = [] ∨ t.foldl (fun n b => 10 * n + (b.toNat - 48)) acc < bound
      then some (t.foldl (fun n b => 10 * n + (b.toNat - 48)) acc) else none
  | [], acc, _ => by simp [decLoop]
  | b :: t, acc, h => by
    have hb := h b (by simp)
    have hd : asciiDigit b = true := by
      unfold asciiDigit
      simp only [Bool.and_eq_true, decide_eq_true_eq, UInt8.le_iff_toNat_le]
      exact hb
    have mono : ∀ (t : Bytes) (x : Nat), x ≤ t.foldl (fun n b => 10 * n + (b.toNat - 48)) x := by
      intro t
      induction t with
      | nil => intro x; exact Nat.le_refl _
      | cons b t ih => intro x; exact Nat.le_trans (show x ≤ 10 * x + (b.toNat - 48) by omega) (ih _)
    unfold decLoop
    rw [if_pos hd]
    simp only [List.foldl_cons, reduceCtorEq, false_or]
    rw [Nat.mul_comm acc 10]
    by_cases hlt : 10 * acc + (b.toNat - 48) < bound
    · rw [if_pos hlt, decLoop_digits bound t _ (fun x hx => h x (by simp [hx]))]
      by_cases ht : t = []
      · subst ht; simp [hlt]
      · simp [ht]
    · rw [if_neg hlt, if_neg]
      have := mono t (10 * acc + (b.toNat - 48))
      omega

theorem decU32_digits {t : Bytes} {n : UInt32} (h : Digits t n.toNat) : decU32 t = some n := by
  obtain ⟨hne, hd, hv⟩ := h
  cases t with
  | nil => exact absurd rfl hne
  | cons b t =>
    have hb : b ≠ 43 := by
      rintro rfl
      have := hd 43 (by simp)
      revert this; decide
    unfold decU32 parseDec
    simp only
    rw [if_neg hb, decLoop_digits _ _ _ hd, ← hv, if_pos (.inr (by simpa using n.toNat_lt))]
    simp

theorem digits_graphic {t : Bytes} {n : Nat} (h : Digits t n) : ∀ b ∈ t, Graphic b := by
  intro b hb
  have := h.2.1 b hb
  unfold Graphic; omega

/-! ### pieces of a line -/

theorem charBoundary_ascii {s : Bytes} {i : Nat} (h : ∀ b ∈ s, b.toNat < 128) (hi : i ≤ s.length) : charBoundary s i = true := by
  unfold charBoundary
  by_cases h2 : i = s.length
  · simp [h2]
  · have hlt : i < s.length := by omega
    rw [List.getElem?_eq_getElem hlt]
    have := h _ (List.getElem_mem hlt)
    have : s[i] < 0x80 := by rw [UInt8.lt_iff_toNat_lt]; exact this
    simp [this]

theorem charBoundary_long {s : Bytes} {i : Nat} (hi : s.length < i) : charBoundary s i = false := by
  unfold charBoundary
  rw [List.getElem?_eq_none (by omega)]
  have h0 : (i == 0) = false := by simp; omega
  have h1 : (i == s.length) = false := by simp; omega
  rw [h0, h1]; rfl

theorem strGet_mid {x y z : Bytes} {a b : Nat} (h : ∀ c ∈ x ++ y ++ z, c.toNat < 128) (ha : a = x.length) (hb : b = x.length + y.length) :
    strGet (x ++ y ++ z) a b = some y := by
  unfold strGet
  rw [if_pos ⟨by omega, charBoundary_ascii h (by simp; omega), charBoundary_ascii h (by simp; omega)⟩]
  subst ha hb
  simp

theorem strFrom_end {x y : Bytes} {a : Nat} (h : ∀ c ∈ x ++ y, c.toNat < 128) (ha : a = x.length) : strFrom (x ++ y) a = some y := by
  unfold strFrom
  rw [if_pos (charBoundary_ascii h (by simp; omega))]
  subst ha; simp

theorem strGet_infix {s t : Bytes} {a b : Nat} (h : strGet s a b = some t) : t <:+: s := by
  unfold strGet at h
  split at h
  · simp only [Option.some.injEq] at h
    subst h
    exact (List.take_prefix _ _).isInfix.trans (List.drop_suffix _ _).isInfix
  · simp at h

theorem strFrom_infix {s t : Bytes} {a : Nat} (h : strFrom s a = some t) : t <:+: s := by
  unfold strFrom at h
  split at h
  · simp only [Option.some.injEq] at h
    subst h
    exact (List.drop_suffix _ _).isInfix
  · simp at h

theorem trim_infix (s : Bytes) : trim s <:+: s := by
  obtain ⟨l, r, _, _, h, _⟩ := trim_spec s
  exact ⟨l, r, h.symm⟩

/-! ### the path column -/

theorem words_blank {l s : Bytes} {ws : List Bytes} (hl : Blank l) (h : Words s ws) : Words (l ++ s) ws := by
  cases h with
  | nil hs => exact .nil (blank_append hl hs)
  | cons h1 h2 h3 h4 h5 =>
    rw [← List.append_assoc, ← List.append_assoc]
    exact .cons (blank_append hl h1) h2 h3 h4 h5

/-- the number that a token of a path stands for. -/
def tokenAsn (t : Bytes) : Option UInt32 := if t = [123] ∨ t = [125] then none else decU32 t

theorem tokenAsn_digits {t : Bytes} {a : Asn} (h : Digits t a.toNat) : tokenAsn t = some a := by
  unfold tokenAsn
  rw [if_neg, decU32_digits h]
  rintro (rfl | rfl)
  · have := h.2.1 123 (by simp); revert this; decide
  · have := h.2.1 125 (by simp); revert this; decide

theorem originText_graphic (o : Origin) : originText o ≠ [] ∧ ∀ b ∈ originText o, Graphic b := by
  cases o <;> decide

theorem originCode_text (o : Origin) : originCode (originText o) = some o := by cases o <;> decide

theorem path_words {as : List Asn} {o : Origin} {s : Bytes} (h : PathText as o s) :
    ∃ ts, Words s (ts ++ [originText o]) ∧ ts.filterMap tokenAsn = as := by
  induction h with
  | origin =>
    rename_i n o
    refine ⟨[], ?_, rfl⟩
    obtain ⟨h1, h2⟩ := originText_graphic o
    have := Words.cons (rest := []) (blank_replicate n) h1 (noSpaceIn_of_graphic h2) (.inl rfl) (.nil blank_nil)
    simpa using this
  | hop hd _ ih =>
    rename_i n t rest a as o _
    obtain ⟨ts, h1, h2⟩ := ih
    refine ⟨t :: ts, ?_, ?_⟩
    · rw [List.append_assoc]
      refine .cons (blank_replicate n) hd.1 (noSpaceIn_of_graphic (digits_graphic hd)) (.inr ?_) (words_blank ?_ h1)
      · intro hns
        exact hns [32] isSpace_32 (List.prefix_append _ _)
      · exact blank_replicate 1
    · rw [List.filterMap_cons_some (tokenAsn_digits hd), h2]

theorem path_ascii {as : List Asn} {o : Origin} {s : Bytes} (h : PathText as o s) : ∀ b ∈ s, b.toNat < 128 := by
  induction h with
  | origin =>
    rename_i n o
    intro b hb
    rcases List.mem_append.mp hb with hb | hb
    · obtain rfl := List.eq_of_mem_replicate hb; decide
    · have := (originText_graphic o).2 b hb
      unfold Graphic at this; omega
  | hop hd _ ih =>
    intro b hb
    simp only [List.mem_append, List.mem_singleton] at hb
    rcases hb with ((hb | hb) | rfl) | hb
    · obtain rfl := List.eq_of_mem_replicate hb; decide
    · have := digits_graphic hd b hb
      unfold Graphic at this; omega
    · decide
    · exact ih b hb

theorem path_last {as : List Asn} {o : Origin} {s : Bytes} (h : PathText as o s) : ∃ x b, s = x ++ [b] ∧ Graphic b := by
  induction h with
  | origin =>
    rename_i n o
    cases o
    · exact ⟨List.replicate n 32, 105, rfl, by decide⟩
    · exact ⟨List.replicate n 32, 101, rfl, by decide⟩
    · exact ⟨List.replicate n 32, 63, rfl, by decide⟩
  | hop _ _ ih =>
    obtain ⟨x, b, rfl, hb⟩ := ih
    exact ⟨_, b, (List.append_assoc _ x [b]).symm, hb⟩

theorem pathColumn_eq {x p : Bytes} {as : List Asn} {o : Origin} {a : Nat} (h : PathText as o p) (hx : ∀ b ∈ x, b.toNat < 128)
    (ha : a = x.length) : textAsPath (pathColumn (x ++ p) a).1 = [.seq as] ∧ (pathColumn (x ++ p) a).2 = some o := by
  obtain ⟨ts, h1, h2⟩ := path_words h
  unfold pathColumn
  rw [strFrom_end (by
    intro c hc
    rcases List.mem_append.mp hc with hc | hc
    · exact hx c hc
    · exact path_ascii h c hc) ha]
  simp only [splitWhitespace_eq h1]
  simp only [List.getLast?_append, List.getLast?_singleton, Option.some_or, Option.bind_some, originCode_text]
  refine ⟨?_, trivial⟩
  unfold textAsPath
  rw [List.dropLast_concat]
  rw [← h2]; rfl

theorem textOrigins_seq (as : List Asn) : textOrigins [.seq as] = as.getLast?.map fun a => [a] := rfl

theorem numberColumn_eq {x f z : Bytes} {w a b : Nat} {o : Option UInt32} (h : NumberColumn w o f)
    (ha : a = x.length) (hb : b = x.length + f.length) (hs : ∀ c ∈ x ++ f ++ z, c.toNat < 128) :
    u32Column (x ++ f ++ z) a b = o := by
  unfold u32Column
  rw [strGet_mid hs ha hb]
  cases o with
  | none =>
    simp only [NumberColumn] at h
    subst h
    simp only [trim_blank]
    rfl
  | some n =>
    obtain ⟨t, hd, p, q, rfl, _⟩ := h
    simp only [trim_padded (digits_graphic hd), decU32_digits hd]

theorem numberColumn_bytes {f : Bytes} {w : Nat} {o : Option UInt32} (h : NumberColumn w o f) :
    f.length = w ∧ ∀ b ∈ f, AddrChar b ∨ b = 32 := by
  cases o with
  | none =>
    simp only [NumberColumn] at h
    subst h
    exact ⟨by simp, fun b hb => .inr (List.eq_of_mem_replicate hb)⟩
  | some n =>
    obtain ⟨t, hd, p, q, rfl, hl⟩ := h
    refine ⟨hl, fun b hb => ?_⟩
    simp only [List.mem_append] at hb
    rcases hb with (hb | hb) | hb
    · exact .inr (List.eq_of_mem_replicate hb)
    · exact .inl (.inl (hd.2.1 b hb))
    · exact .inr (List.eq_of_mem_replicate hb)

end Verif
