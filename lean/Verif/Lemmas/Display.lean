import Verif.Spec.Display
/-
Text output.
-/
namespace Verif
open Spec

/-! ### numbers -/

theorem digitChar_eq (d : Fin 10) : Nat.digitChar d.val = digitChar d := by
  revert d; decide

theorem decText_lt {n : Nat} (h : n < 10) : decText n = [digitChar ⟨n, h⟩] := by
  unfold decText
  rw [Nat.toDigits_of_lt_base h, ← digitChar_eq]

theorem decText_ge {n : Nat} (h : 10 ≤ n) : decText n = decText (n / 10) ++ [digitChar ⟨n % 10, by omega⟩] := by
  unfold decText
  rw [Nat.toDigits_of_base_le (by omega) h, ← digitChar_eq]

theorem numeral_dec (n : Nat) : Numeral (decText n) n := by
  induction n using Nat.strongRecOn with
  | ind n ih =>
    by_cases h : n < 10
    · rw [decText_lt h]; exact .digit ⟨n, h⟩
    · rw [decText_ge (by omega)]
      have := Numeral.more ⟨n % 10, by omega⟩ (ih (n / 10) (by omega)) (by omega)
      have e : 10 * (n / 10) + n % 10 = n := by omega
      rw [show 10 * (n / 10) + (⟨n % 10, by omega⟩ : Fin 10).val = n from e] at this
      exact this

theorem numeral_eq {t : List Char} {n : Nat} (h : Numeral t n) : t = decText n := by
  induction h with
  | digit d => rw [decText_lt d.isLt]
  | @more t n d h hn ih =>
    have hd := d.isLt
    have e1 : (10 * n + d.val) / 10 = n := by omega
    have e2 : (⟨(10 * n + d.val) % 10, by omega⟩ : Fin 10) = d := Fin.ext (by show (10 * n + d.val) % 10 = d.val; omega)
    rw [decText_ge (by omega), e2, ih]
    simp only [e1]

theorem numeral_iff (t : List Char) (n : Nat) : Numeral t n ↔ t = decText n := ⟨numeral_eq, fun h => h ▸ numeral_dec n⟩

theorem decText_inj {n m : Nat} (h : decText n = decText m) : n = m := by
  have := congrArg (Nat.ofDigitChars 10 · 0) h
  simpa only [decText, Nat.ofDigitChars_ten_toDigits] using this

theorem decText_digit {n : Nat} {c : Char} (h : c ∈ decText n) : c.isDigit = true := Nat.isDigit_of_mem_toDigits (by omega) (by omega) h

theorem decText_ne_nil (n : Nat) : decText n ≠ [] := Nat.toDigits_ne_nil

/-! ### hexadecimal -/

theorem hexUpper_get : ∀ n < 16, capitalHex[n]? = some (hexUpper n) := by decide

theorem hex_text (bs : Bytes) : Hex (hexText bs) bs := by
  induction bs with
  | nil => exact .nil
  | cons b bs ih =>
    have := b.toNat_lt
    exact .cons (hexUpper_get _ (by omega)) (hexUpper_get _ (by omega)) ih

theorem hex_eq {t : List Char} {bs : Bytes} (h : Hex t bs) : t = hexText bs := by
  induction h with
  | nil => rfl
  | @cons h l b t bs h1 h2 _ ih =>
    have := b.toNat_lt
    rw [hexUpper_get _ (by omega)] at h1 h2
    cases h1; cases h2
    rw [ih]; rfl

theorem hexUpper_inj : ∀ n < 16, ∀ m < 16, hexUpper n = hexUpper m → n = m := by decide

theorem hexText_inj {a b : Bytes} (h : hexText a = hexText b) : a = b := by
  induction a generalizing b with
  | nil =>
    cases b with
    | nil => rfl
    | cons y b => cases h
  | cons x a ih =>
    cases b with
    | nil => cases h
    | cons y b =>
      have hx := x.toNat_lt
      have hy := y.toNat_lt
      simp only [hexText, List.flatMap_cons, List.cons_append, List.nil_append, List.cons.injEq] at h
      have h1 := hexUpper_inj _ (by omega) _ (by omega) h.1
      have h2 := hexUpper_inj _ (by omega) _ (by omega) h.2.1
      have e : x = y := UInt8.toNat_inj.mp (by omega)
      rw [e, ih h.2.2]

theorem hexText_length (bs : Bytes) : (hexText bs).length = 2 * bs.length := by
  induction bs with
  | nil => rfl
  | cons b bs ih =>
    simp only [hexText, List.flatMap_cons, List.length_append, List.length_cons, List.length_nil] at ih ⊢
    omega

theorem hexUpper_alnum : ∀ n < 16, (hexUpper n).isAlphanum = true := by decide

theorem hexText_alnum {bs : Bytes} {c : Char} (h : c ∈ hexText bs) : c.isAlphanum = true := by
  unfold hexText at h
  rw [List.mem_flatMap] at h
  obtain ⟨b, _, hb⟩ := h
  have := b.toNat_lt
  simp only [List.mem_cons, List.not_mem_nil, or_false] at hb
  rcases hb with rfl | rfl
  · exact hexUpper_alnum _ (by omega)
  · exact hexUpper_alnum _ (by omega)

/-! ### joining and splitting -/

theorem fields_join {sep : Char} : ∀ {xs : List (List Char)}, xs ≠ [] → (∀ x ∈ xs, sep ∉ x) → Fields sep (joinSep [sep] xs) xs
  | [x], _, h => .last (h x (List.mem_cons_self ..))
  | x :: y :: r, _, h => by
    have := fields_join (sep := sep) (xs := y :: r) (by simp) fun z hz => h z (List.mem_cons_of_mem _ hz)
    simp only [joinSep, List.append_assoc, List.cons_append, List.nil_append]
    exact .more (h x (List.mem_cons_self ..)) this

theorem sep_split {sep : Char} {a b r s : List Char} (ha : sep ∉ a) (hb : sep ∉ b) (h : a ++ sep :: r = b ++ sep :: s) : a = b ∧ r = s := by
  induction a generalizing b with
  | nil =>
    cases b with
    | nil => simp_all
    | cons y b =>
      simp only [List.nil_append, List.cons_append, List.cons.injEq] at h
      exact absurd (h.1 ▸ List.mem_cons_self ..) hb
  | cons x a ih =>
    cases b with
    | nil =>
      simp only [List.nil_append, List.cons_append, List.cons.injEq] at h
      exact absurd (h.1 ▸ List.mem_cons_self ..) ha
    | cons y b =>
      simp only [List.cons_append, List.cons.injEq] at h
      obtain ⟨e1, e2⟩ := ih (fun m => ha (List.mem_cons_of_mem _ m)) (fun m => hb (List.mem_cons_of_mem _ m)) h.2
      exact ⟨by rw [h.1, e1], e2⟩

theorem fields_unique {sep : Char} {l : List Char} {fs gs : List (List Char)} (h : Fields sep l fs) (g : Fields sep l gs) : fs = gs := by
  induction h generalizing gs with
  | last hf =>
    cases g with
    | last _ => rfl
    | more hg _ => exact absurd (List.mem_append_right _ (List.mem_cons_self ..)) hf
  | @more f r fs hf h ih =>
    generalize e : f ++ sep :: r = l at g
    cases g with
    | last hg => exact absurd (e ▸ List.mem_append_right _ (List.mem_cons_self ..)) hg
    | more hg g =>
      obtain ⟨e1, e2⟩ := sep_split hf hg e
      subst e1 e2
      rw [ih g]

theorem fields_eq {sep : Char} {l : List Char} {fs : List (List Char)} (h : Fields sep l fs) :
    l = joinSep [sep] fs ∧ fs ≠ [] ∧ ∀ f ∈ fs, sep ∉ f := by
  induction h with
  | last h => exact ⟨rfl, by simp, by simpa using h⟩
  | @more f r fs hf h ih =>
    obtain ⟨h1, h2, h3⟩ := ih
    refine ⟨?_, by simp, by simpa using ⟨hf, h3⟩⟩
    cases fs with
    | nil => exact absurd rfl h2
    | cons g fs => simp [joinSep, h1]

theorem join_inj {sep : Char} {xs ys : List (List Char)} (hx : xs ≠ []) (hy : ys ≠ []) (h1 : ∀ x ∈ xs, sep ∉ x) (h2 : ∀ y ∈ ys, sep ∉ y)
    (h : joinSep [sep] xs = joinSep [sep] ys) : xs = ys := by
  have a := fields_join hx h1
  rw [h] at a
  exact fields_unique a (fields_join hy h2)

theorem join_append {sep : List Char} : ∀ {xs ys : List (List Char)}, xs ≠ [] → ys ≠ [] →
    joinSep sep (xs ++ ys) = joinSep sep xs ++ sep ++ joinSep sep ys
  | [x], y :: ys, _, _ => rfl
  | x :: x' :: xs, y :: ys, _, _ => by
    have := join_append (sep := sep) (xs := x' :: xs) (ys := y :: ys) (by simp) (by simp)
    simp only [joinSep, List.cons_append, List.append_assoc] at this ⊢
    rw [this]

theorem join_flatMap {sep : List Char} {g : α → List (List Char)} : ∀ {xs : List α}, (∀ x ∈ xs, g x ≠ []) →
    joinSep sep (xs.map fun x => joinSep sep (g x)) = joinSep sep (xs.flatMap g)
  | [], _ => rfl
  | [x], _ => by simp [joinSep]
  | x :: y :: r, h => by
    have ih := join_flatMap (sep := sep) (g := g) (xs := y :: r) fun z hz => h z (List.mem_cons_of_mem _ hz)
    rw [List.flatMap_cons, join_append (h x (List.mem_cons_self ..)), ← ih]
    · rfl
    · intro e
      simp only [List.flatMap_cons, List.append_eq_nil_iff] at e
      exact h y (by simp) e.1

theorem listed_join {shows : α → List Char → Prop} {sep : Char} {f : α → List Char} : ∀ {xs : List α}, (∀ x ∈ xs, shows x (f x)) →
    Listed shows sep xs (joinSep [sep] (xs.map f))
  | [], _ => .nil
  | [x], h => .last (h x (List.mem_cons_self ..))
  | x :: y :: r, h => by
    have := listed_join (shows := shows) (sep := sep) (f := f) (xs := y :: r) fun z hz => h z (List.mem_cons_of_mem _ hz)
    simp only [List.map_cons, joinSep, List.append_assoc, List.cons_append, List.nil_append] at this ⊢
    exact .more (h x (List.mem_cons_self ..)) this

theorem mem_join {sep : List Char} {c : Char} : ∀ {xs : List (List Char)}, c ∈ joinSep sep xs → c ∈ sep ∨ ∃ x ∈ xs, c ∈ x
  | [x], h => .inr ⟨x, by simp, h⟩
  | x :: y :: r, h => by
    simp only [joinSep, List.mem_append] at h
    rcases h with (h | h) | h
    · exact .inr ⟨x, by simp, h⟩
    · exact .inl h
    · rcases mem_join h with h | ⟨z, h1, h2⟩
      · exact .inl h
      · exact .inr ⟨z, List.mem_cons_of_mem _ h1, h2⟩

/-! ### addresses -/

theorem digit_alnum {c : Char} (h : c.isDigit = true) : c.isAlphanum = true := by
  simp [Char.isAlphanum, h]

/-- a character that no text of a number has. -/
theorem not_mem_dec {c : Char} (h : c.isDigit = false) (n : Nat) : c ∉ decText n := by
  intro m
  rw [decText_digit m] at h
  cases h

theorem not_mem_hex {c : Char} (h : c.isAlphanum = false) (bs : Bytes) : c ∉ hexText bs := by
  intro m
  rw [hexText_alnum m] at h
  cases h

theorem v4_chars {a : V4} {c : Char} (h : c ∈ v4Text a) : c.isDigit = true ∨ c = '.' := by
  rcases mem_join h with h | ⟨x, hx, h⟩
  · exact .inr (by simpa using h)
  · obtain ⟨b, _, rfl⟩ := List.mem_map.mp hx
    exact .inl (decText_digit h)

theorem shows_v4 (a : V4) : ShowsV4 a (v4Text a) := listed_join fun b _ => numeral_dec b.toNat

theorem map_dec_inj {f : α → Nat} (hf : ∀ x y, f x = f y → x = y) {xs ys : List α} (h : xs.map (fun x => decText (f x)) = ys.map (fun x => decText (f x))) :
    xs = ys := by
  induction xs generalizing ys with
  | nil => cases ys with
    | nil => rfl
    | cons y ys => cases h
  | cons x xs ih =>
    cases ys with
    | nil => cases h
    | cons y ys =>
      simp only [List.map_cons, List.cons.injEq] at h
      rw [hf _ _ (decText_inj h.1), ih h.2]

theorem not_mem_map_dec {f : α → Nat} {c : Char} (h : c.isDigit = false) {xs : List α} : ∀ x ∈ xs.map (fun x => decText (f x)), c ∉ x := by
  intro x hx
  obtain ⟨b, _, rfl⟩ := List.mem_map.mp hx
  exact not_mem_dec h _

theorem v4_ne {a : V4} : a.toList ≠ [] := by
  intro h
  have := congrArg List.length h
  simp at this

theorem v4Text_inj {a b : V4} (h : v4Text a = v4Text b) : a = b := by
  have := join_inj (by simpa using v4_ne) (by simpa using v4_ne) (not_mem_map_dec (by decide)) (not_mem_map_dec (by decide)) h
  have := map_dec_inj (fun x y e => UInt8.toNat_inj.mp e) this
  exact Vector.toList_inj.mp this

theorem ip_shows (env : ShowEnv) (a : Ip) : ShowsIp env a (a.text env) := by
  cases a with
  | v4 a => exact .v4 (shows_v4 a)
  | v6 a => exact .v6

theorem ip_chars {env : ShowEnv} (ok : ShowOk env) {a : Ip} {c : Char} (h : c ∈ a.text env) : c.isAlphanum = true ∨ c = '.' ∨ c = ':' := by
  cases a with
  | v4 a =>
    rcases v4_chars h with h | h
    · exact .inl (digit_alnum h)
    · exact .inr (.inl h)
  | v6 a => exact ok.v6_chars a c h

theorem v4_no_colon (a : V4) : ':' ∉ v4Text a := by
  intro h
  rcases v4_chars h with h | h
  · revert h; decide
  · revert h; decide

theorem v6_colon {env : ShowEnv} (ok : ShowOk env) (a : V6) : ':' ∈ env.v6 a := by
  have := ok.v6_colons a
  exact List.count_pos_iff.mp (by omega)

theorem ipText_inj {env : ShowEnv} (ok : ShowOk env) {a b : Ip} (h : a.text env = b.text env) : a = b := by
  cases a with
  | v4 a =>
    cases b with
    | v4 b => rw [v4Text_inj h]
    | v6 b => exact absurd ((show v4Text a = env.v6 b from h) ▸ v6_colon ok b : ':' ∈ v4Text a) (v4_no_colon a)
  | v6 a =>
    cases b with
    | v4 b => exact absurd ((show env.v6 a = v4Text b from h) ▸ v6_colon ok a : ':' ∈ v4Text b) (v4_no_colon b)
    | v6 b => rw [ok.v6_inj a b h]

theorem not_mem_ip {env : ShowEnv} (ok : ShowOk env) {c : Char} (h : c.isAlphanum = false) (h1 : c ≠ '.') (h2 : c ≠ ':') (a : Ip) : c ∉ a.text env := by
  intro m
  rcases ip_chars ok m with m | m | m
  · rw [m] at h; cases h
  · exact h1 m
  · exact h2 m

theorem net_shows (env : ShowEnv) (n : IpNet) : ShowsNet env n (n.text env) :=
  ⟨_, _, ip_shows env n.addr, numeral_dec _, by simp [IpNet.text]⟩

theorem netText_inj {env : ShowEnv} (ok : ShowOk env) {a b : IpNet} (h : a.text env = b.text env) : a = b := by
  simp only [IpNet.text, List.append_assoc, List.cons_append, List.nil_append] at h
  obtain ⟨h1, h2⟩ := sep_split (not_mem_ip ok (by decide) (by decide) (by decide) _) (not_mem_ip ok (by decide) (by decide) (by decide) _) h
  cases a; cases b
  simp only at h1 h2
  rw [ipText_inj ok h1, UInt8.toNat_inj.mp (decText_inj h2)]

theorem not_mem_net {env : ShowEnv} (ok : ShowOk env) {c : Char} (h : c.isAlphanum = false) (h1 : c ≠ '.') (h2 : c ≠ ':') (h3 : c ≠ '/') (n : IpNet) :
    c ∉ n.text env := by
  intro m
  simp only [IpNet.text, List.mem_append, List.mem_singleton] at m
  rcases m with (m | m) | m
  · exact not_mem_ip ok h h1 h2 _ m
  · exact h3 m
  · rw [digit_alnum (decText_digit m)] at h; cases h

/-! ### AS paths -/

/-- the text of a word of a path. -/
def wordText : PathWord → List Char
  | .hop a => asnText a
  | .set xs => ['{'] ++ joinSep [','] (xs.map asnText) ++ ['}']
  | .gap => []

theorem segWords_ne (s : Seg) : segWords s ≠ [] := by
  cases s <;> simp only [segWords] <;> (try split) <;> simp_all

theorem segText_words (s : Seg) : segText s = joinSep [' '] ((segWords s).map wordText) := by
  cases s with
  | seq xs =>
    by_cases h : xs = []
    · subst h; rfl
    · simp only [segText, segWords, if_neg h, List.map_map]; rfl
  | confedSeq xs =>
    by_cases h : xs = []
    · subst h; rfl
    · simp only [segText, segWords, if_neg h, List.map_map]; rfl
  | set xs => rfl
  | confedSet xs => rfl

theorem pathWords_ne (p : AsPath) : pathWords p ≠ [] := by
  unfold pathWords
  split
  · simp
  · cases p with
    | nil => contradiction
    | cons s p =>
      intro h
      simp only [List.flatMap_cons, List.append_eq_nil_iff] at h
      exact segWords_ne s h.1

theorem asPathText_words (p : AsPath) : asPathText p = joinSep [' '] ((pathWords p).map wordText) := by
  unfold asPathText pathWords
  split
  · rename_i h; subst h; rfl
  · rw [List.map_flatMap, ← join_flatMap]
    · congr 1
      exact List.map_congr_left fun s _ => segText_words s
    · intro s _
      simpa using segWords_ne s

theorem word_shows (w : PathWord) : ShowsWord w (wordText w) := by
  cases w with
  | hop a => exact .hop (numeral_dec _)
  | set xs => exact .set (listed_join fun a _ => numeral_dec _)
  | gap => exact .gap

theorem path_shows (p : AsPath) : ShowsPath p (asPathText p) := by
  rw [asPathText_words]
  exact listed_join fun w _ => word_shows w

theorem asns_chars {xs : List Asn} {sep c : Char} (h : c ∈ joinSep [sep] (xs.map asnText)) : c.isDigit = true ∨ c = sep := by
  rcases mem_join h with h | ⟨x, hx, h⟩
  · exact .inr (by simpa using h)
  · obtain ⟨b, _, rfl⟩ := List.mem_map.mp hx
    exact .inl (decText_digit h)

theorem word_chars {w : PathWord} {c : Char} (h : c ∈ wordText w) : c.isDigit = true ∨ c = '{' ∨ c = '}' ∨ c = ',' := by
  cases w with
  | hop a => exact .inl (decText_digit h)
  | set xs =>
    simp only [wordText, List.mem_append, List.mem_singleton] at h
    rcases h with (h | h) | h
    · exact .inr (.inl h)
    · rcases asns_chars h with h | h
      · exact .inl h
      · exact .inr (.inr (.inr h))
    · exact .inr (.inr (.inl h))
  | gap => cases h

theorem asns_inj {sep : Char} (hs : sep.isDigit = false) {xs ys : List Asn} (h : joinSep [sep] (xs.map asnText) = joinSep [sep] (ys.map asnText)) :
    xs = ys := by
  have key : ∀ zs : List Asn, zs ≠ [] → joinSep [sep] (zs.map asnText) ≠ [] := by
    intro zs hz e
    cases zs with
    | nil => exact hz rfl
    | cons z zs =>
      cases zs with
      | nil => exact decText_ne_nil _ e
      | cons z' zs => simp [joinSep] at e
  by_cases hx : xs = []
  · subst hx
    by_cases hy : ys = []
    · exact hy.symm
    · exact absurd h.symm (key ys hy)
  · by_cases hy : ys = []
    · subst hy; exact absurd h (key xs hx)
    · exact map_dec_inj (fun x y e => UInt32.toNat_inj.mp e)
        (join_inj (by simpa using hx) (by simpa using hy) (not_mem_map_dec hs) (not_mem_map_dec hs) h)

theorem wordText_inj {w v : PathWord} (h : wordText w = wordText v) : w = v := by
  have brace : ∀ (a : Asn) (r : List Char), asnText a ≠ '{' :: r := by
    intro a r e
    have : '{' ∈ decText a.toNat := by unfold asnText at e; rw [e]; exact List.mem_cons_self ..
    have := decText_digit this
    revert this; decide
  cases w with
  | hop a =>
    cases v with
    | hop b => rw [UInt32.toNat_inj.mp (decText_inj h)]
    | set ys => exact absurd h (brace a _)
    | gap => exact absurd h (decText_ne_nil _)
  | set xs =>
    cases v with
    | hop b => exact absurd h.symm (brace b _)
    | set ys =>
      simp only [wordText, List.cons_append, List.nil_append, List.cons.injEq, true_and, List.append_cancel_right_eq] at h
      rw [asns_inj (by decide) h]
    | gap => cases h
  | gap =>
    cases v with
    | hop b => exact absurd h.symm (decText_ne_nil _)
    | set ys => cases h
    | gap => rfl

theorem mapText_inj_of {f : α → β} (hf : ∀ x y, f x = f y → x = y) {xs ys : List α} (h : xs.map f = ys.map f) : xs = ys := by
  induction xs generalizing ys with
  | nil => cases ys with
    | nil => rfl
    | cons y ys => cases h
  | cons x xs ih =>
    cases ys with
    | nil => cases h
    | cons y ys =>
      simp only [List.map_cons, List.cons.injEq] at h
      rw [hf _ _ h.1, ih h.2]

theorem asPathText_iff (p q : AsPath) : asPathText p = asPathText q ↔ pathWords p = pathWords q := by
  rw [asPathText_words, asPathText_words]
  constructor
  · intro h
    have blank : ∀ (l : List PathWord), ∀ x ∈ l.map wordText, ' ' ∉ x := by
      intro l x hx
      obtain ⟨w, _, rfl⟩ := List.mem_map.mp hx
      intro m
      rcases word_chars m with m | m | m | m <;> revert m <;> decide
    have := join_inj (by simpa using pathWords_ne p) (by simpa using pathWords_ne q) (blank _) (blank _) h
    exact mapText_inj_of (fun x y e => wordText_inj e) this
  · intro h; rw [h]

theorem path_chars {p : AsPath} {c : Char} (h : c ∈ asPathText p) : c.isDigit = true ∨ c = '{' ∨ c = '}' ∨ c = ',' ∨ c = ' ' := by
  rw [asPathText_words] at h
  rcases mem_join h with h | ⟨x, hx, h⟩
  · simp only [List.mem_singleton] at h; simp [h]
  · obtain ⟨w, _, rfl⟩ := List.mem_map.mp hx
    rcases word_chars h with h | h | h | h <;> simp [h]

end Verif
