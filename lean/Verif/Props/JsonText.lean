import Verif.Spec.JsonText
import Verif.Lemmas.LsAccess
import Verif.Props.Json
import Verif.Props.RisLive
import Verif.Props.CliRun
/-
C98: JSON as text.
-/
namespace Verif.Props
open Spec

/-! ### strings -/

theorem hex_back : ∀ n : Fin 16, hexNumber (hexDigit n.val) = some n.val := by decide

theorem readString_char (c : Char) (rest : List Char) :
    readString (escapeChar c ++ rest) = (readString rest).map fun (s, r) => (c :: s, r) := by
  have back : ∀ n, c.toNat = n → c = Char.ofNat n := fun n h => by rw [← h, Char.ofNat_toNat]
  have esc : ∀ e x, escaped e = some x → e ≠ 'u' →
      readString ('\\' :: e :: rest) = (readString rest).map fun (s, r) => (x :: s, r) := by
    intro e x h hu
    rw [readString.eq_def]
    split
    · next h => cases h
    · next h => cases h
    · next h => simp only [List.cons.injEq] at h; exact absurd h.2.1 hu
    · next e' r' _ h' =>
      simp only [List.cons.injEq, true_and] at h'
      obtain ⟨rfl, rfl⟩ := h'
      rw [h]
      cases readString rest with
      | none => rfl
      | some x => rfl
    · next hne h' => simp only [List.cons.injEq] at h'; obtain ⟨rfl, rfl⟩ := h'; exact absurd rfl (hne e rest rfl)
  unfold escapeChar
  split
  · next h => subst h; exact esc _ _ rfl (by decide)
  split
  · next h => subst h; exact esc _ _ rfl (by decide)
  split
  · next h => rw [back 8 h]; exact esc _ _ rfl (by decide)
  split
  · next h => rw [back 9 h]; exact esc _ _ rfl (by decide)
  split
  · next h => rw [back 10 h]; exact esc _ _ rfl (by decide)
  split
  · next h => rw [back 12 h]; exact esc _ _ rfl (by decide)
  split
  · next h => rw [back 13 h]; exact esc _ _ rfl (by decide)
  split
  · next h =>
    have h1 := hex_back ⟨c.toNat / 16, by omega⟩
    have h2 := hex_back ⟨c.toNat % 16, by omega⟩
    have h0 : hexNumber '0' = some 0 := by decide
    have hc : Char.ofNat (0 * 4096 + 0 * 256 + c.toNat / 16 * 16 + c.toNat % 16) = c := by
      rw [show 0 * 4096 + 0 * 256 + c.toNat / 16 * 16 + c.toNat % 16 = c.toNat by omega, Char.ofNat_toNat]
    simp only [List.cons_append, List.nil_append]
    rw [readString]
    simp only at h1 h2
    rw [h0, h1, h2]
    cases hr : readString rest with
    | none => rfl
    | some x => simp only [hc, Option.map_some]
  · next h1 h2 _ _ _ _ _ h3 =>
    rw [List.singleton_append, readString.eq_def]
    split
    · next h => cases h
    · next h => cases h; exact absurd rfl h1
    · next h => cases h; exact absurd rfl h2
    · next h => cases h; exact absurd rfl h2
    · next h =>
      cases h
      rw [if_neg h3]
      cases readString rest with
      | none => rfl
      | some x => rfl

theorem readString_text (s : List Char) (r : List Char) : readString (s.flatMap escapeChar ++ '"' :: r) = some (s, r) := by
  induction s with
  | nil => rfl
  | cons c s ih => rw [List.flatMap_cons, List.append_assoc, readString_char, ih]; rfl

/-! ### numbers -/

theorem digits_fold (t : List Char) (c : Char) : (t ++ [c]).foldl (fun n c => n * 10 + (c.toNat - 48)) 0 =
    t.foldl (fun n c => n * 10 + (c.toNat - 48)) 0 * 10 + (c.toNat - 48) := by simp

theorem digitChar_value : ∀ d : Fin 10, (digitChar d).toNat - 48 = d.val := by decide
theorem digitChar_zero : ∀ d : Fin 10, digitChar d = '0' → d.val = 0 := by decide

theorem fold_dec (n : Nat) : (decText n).foldl (fun n c => n * 10 + (c.toNat - 48)) 0 = n := by
  induction n using Nat.strongRecOn with
  | ind n ih =>
    by_cases h : n < 10
    · rw [decText_lt h]
      simp [digitChar_value]
    · rw [decText_ge (by omega), digits_fold, ih (n / 10) (by omega), digitChar_value]
      show n / 10 * 10 + n % 10 = n
      omega

theorem head_dec (n : Nat) (h : (decText n).head? = some '0') : n = 0 := by
  induction n using Nat.strongRecOn with
  | ind n ih =>
    by_cases hn : n < 10
    · rw [decText_lt hn] at h
      simp only [List.head?_cons, Option.some.injEq] at h
      exact digitChar_zero ⟨n, hn⟩ h
    · rw [decText_ge (by omega), List.head?_append] at h
      have h' : (decText (n / 10)).head? = some '0' := by
        cases hd : decText (n / 10) with
        | nil => exact absurd hd (decText_ne_nil _)
        | cons c t => rw [hd] at h; exact h
      have := ih (n / 10) (by omega) h'
      omega

theorem all_dec (n : Nat) : (decText n).all Char.isDigit = true := by
  rw [List.all_eq_true]
  exact fun c hc => decText_digit hc

theorem whole_dec (n : Nat) : wholeNumber (decText n) = some n := by
  rw [wholeNumber, if_neg, fold_dec]
  rintro (h | h | ⟨h, h'⟩)
  · exact decText_ne_nil n h
  · exact h (all_dec n)
  · rw [head_dec n h] at h'
    exact h' rfl

theorem dec_numberChars (n : Nat) : (decText n).all numberChar = true := by
  rw [List.all_eq_true]
  intro c hc
  simp [numberChar, decText_digit hc]

theorem read_nat (real : List Char → Option Rat) (n : Nat) (h : n < 18446744073709551616) : readNumber real (decText n) = some (.int n) := by
  have h1 : (decText n).all (fun c => c.isDigit || c == '-') = true := by
    rw [List.all_eq_true]
    intro c hc
    simp [decText_digit hc]
  have h2 : (decText n).head? ≠ some '-' := by
    intro h2
    have := decText_digit (List.mem_of_head? h2)
    simp at this
  rw [readNumber, if_pos h1, if_neg h2, whole_dec]
  simp only [h, if_true]

theorem read_neg (real : List Char → Option Rat) (n : Nat) (h : n + 1 ≤ 9223372036854775808) :
    readNumber real ('-' :: decText (n + 1)) = some (.int (.negSucc n)) := by
  have h1 : ('-' :: decText (n + 1)).all (fun c => c.isDigit || c == '-') = true := by
    rw [List.all_eq_true]
    intro c hc
    rcases List.mem_cons.1 hc with rfl | hc
    · simp
    · simp [decText_digit hc]
  rw [readNumber, if_pos h1, if_pos (List.head?_cons ..), List.tail_cons, whole_dec]
  simp only [h, Nat.zero_lt_succ, and_self, if_true]
  rfl

/-- What follows a number does not belong to it. -/
def Ends (r : List Char) : Prop := ∀ c t, r = c :: t → numberChar c = false

theorem take_number {t r : List Char} (ht : t.all numberChar = true) (hr : Ends r) :
    (t ++ r).takeWhile numberChar = t ∧ (t ++ r).dropWhile numberChar = r := by
  induction t with
  | nil =>
    cases r with
    | nil => exact ⟨rfl, rfl⟩
    | cons c r => simp [hr c r rfl]
  | cons a t ih =>
    rw [List.all_cons, Bool.and_eq_true] at ht
    have := ih ht.2
    simp [ht.1, this.1, this.2]

/-! ### values -/

theorem skip_of {c : Char} {t : List Char} (h : ¬ (c = ' ' ∨ c = '\t' ∨ c = '\n' ∨ c = '\r')) : skipWhite (c :: t) = c :: t := by
  rw [skipWhite, if_neg h]

theorem skip_spaces (n : Nat) (r : List Char) : skipWhite (List.replicate n ' ' ++ r) = skipWhite r := by
  induction n with
  | zero => rfl
  | succ n ih => rw [List.replicate_succ, List.cons_append, skipWhite, if_pos (.inl rfl), ih]

theorem skip_gap (st : JsonStyle) (d : Nat) (r : List Char) : skipWhite (st.gap d ++ r) = skipWhite r := by
  cases st with
  | compact => rfl
  | pretty => rw [JsonStyle.gap, List.cons_append, skipWhite, if_pos (.inr (.inr (.inl rfl))), skip_spaces]

theorem value_skip (real : List Char → Option Rat) (n : Nat) {r r' : List Char} (h : skipWhite r = skipWhite r') : jsonValue real n r = jsonValue real n r' := by
  cases n with
  | zero => rfl
  | succ n => rw [jsonValue, jsonValue, h]

theorem items_skip (real : List Char → Option Rat) (n : Nat) {r r' : List Char} (h : skipWhite r = skipWhite r') : jsonItems real n r = jsonItems real n r' := by
  cases n with
  | zero => rfl
  | succ n => rw [jsonItems, jsonItems, value_skip real n h]

theorem entries_skip (real : List Char → Option Rat) (n : Nat) {r r' : List Char} (h : skipWhite r = skipWhite r') : jsonEntries real n r = jsonEntries real n r' := by
  cases n with
  | zero => rfl
  | succ n => rw [jsonEntries, jsonEntries, h]

theorem gap_ends (st : JsonStyle) (d : Nat) {c : Char} {r : List Char} (h : numberChar c = false) : Ends (st.gap d ++ c :: r) := by
  intro c' t e
  cases st with
  | compact => cases e; exact h
  | pretty => cases e; rfl

section
variable {wr : Rat → List Char} {rd : List Char → Option Rat}

/-- the first character of a value. -/
theorem write_first (ok : RealText wr rd) (st : JsonStyle) (d : Nat) (j : Json) : ∃ c t, writeJson wr st d j = c :: t ∧
    (∀ t', skipWhite (c :: t') = c :: t') ∧ c ≠ ']' ∧ c ≠ '}' := by
  have hc : ∀ c, numberChar c = true → (∀ t', skipWhite (c :: t') = c :: t') ∧ c ≠ ']' ∧ c ≠ '}' := by
    intro c h
    refine ⟨fun t' => skip_of ?_, ?_, ?_⟩
    · rintro (rfl | rfl | rfl | rfl) <;> exact absurd h (by decide)
    · rintro rfl; exact absurd h (by decide)
    · rintro rfl; exact absurd h (by decide)
  have hs : ∀ c t, writeJson wr st d j = c :: t → ¬ (c = ' ' ∨ c = '\t' ∨ c = '\n' ∨ c = '\r' ∨ c = ']' ∨ c = '}') →
      ∃ c t, writeJson wr st d j = c :: t ∧ (∀ t', skipWhite (c :: t') = c :: t') ∧ c ≠ ']' ∧ c ≠ '}' := by
    intro c t h h'
    refine ⟨c, t, h, fun t' => skip_of ?_, ?_, ?_⟩ <;> grind
  have hn : ∀ t, writeJson wr st d j = t → t ≠ [] → t.all numberChar = true →
      ∃ c t, writeJson wr st d j = c :: t ∧ (∀ t', skipWhite (c :: t') = c :: t') ∧ c ≠ ']' ∧ c ≠ '}' := by
    intro t h h1 h2
    cases t with
    | nil => exact absurd rfl h1
    | cons c t => rw [List.all_cons, Bool.and_eq_true] at h2; exact ⟨c, t, h, hc c h2.1⟩
  cases j with
  | null => exact hs 'n' _ (by rw [writeJson]) (by decide)
  | bool b => cases b
              · exact hs 'f' _ (by rw [writeJson]) (by decide)
              · exact hs 't' _ (by rw [writeJson]) (by decide)
  | int z =>
    cases z with
    | ofNat n => exact hn (decText n) (by simp only [writeJson]) (decText_ne_nil n) (dec_numberChars n)
    | negSucc n => exact hs '-' (decText (n + 1)) (by simp only [writeJson]) (by decide)
  | float x =>
    refine hn (wr x) (by simp only [writeJson]) ?_ (ok.chars x)
    intro h
    have := ok.form x
    rw [h] at this
    cases this
  | str s => exact hs '"' _ (by simp only [writeJson, writeStr]; rfl) (by decide)
  | arr xs => cases xs <;> exact hs '[' _ (by simp only [writeJson]; rfl) (by decide)
  | obj kvs => cases kvs <;> exact hs '{' _ (by simp only [writeJson]; rfl) (by decide)

/-- a number is read as such. -/
theorem value_number (n : Nat) {t r : List Char} (h0 : t ≠ []) (h1 : t.all numberChar = true) (h2 : ∀ c t', t = c :: t' → c.isDigit = true ∨ c = '-' ∨ c = '+' ∨ c = '.' ∨ c = 'e' ∨ c = 'E')
    (hr : Ends r) : jsonValue rd (n + 1) (t ++ r) = (readNumber rd t).map fun j => (j, r) := by
  obtain ⟨h3, h4⟩ := take_number h1 hr
  cases t with
  | nil => exact absurd rfl h0
  | cons c t =>
    have hc : c ≠ 'n' ∧ c ≠ 't' ∧ c ≠ 'f' ∧ c ≠ '"' ∧ c ≠ '[' ∧ c ≠ '{' ∧ ¬ (c = ' ' ∨ c = '\t' ∨ c = '\n' ∨ c = '\r') := by
      have := h2 c t rfl
      refine ⟨?_, ?_, ?_, ?_, ?_, ?_, ?_⟩
      · rintro rfl; revert this; decide
      · rintro rfl; revert this; decide
      · rintro rfl; revert this; decide
      · rintro rfl; revert this; decide
      · rintro rfl; revert this; decide
      · rintro rfl; revert this; decide
      · rintro (rfl | rfl | rfl | rfl) <;> (revert this; decide)
    rw [jsonValue, List.cons_append, skip_of hc.2.2.2.2.2.2]
    obtain ⟨i1, i2, i3, i4, i5, i6, -⟩ := hc
    rw [List.cons_append] at h3 h4
    split
    · next h => simp only [List.cons.injEq] at h; exact absurd h.1 i1
    · next h => simp only [List.cons.injEq] at h; exact absurd h.1 i2
    · next h => simp only [List.cons.injEq] at h; exact absurd h.1 i3
    · next h => simp only [List.cons.injEq] at h; exact absurd h.1 i4
    · next h => simp only [List.cons.injEq] at h; exact absurd h.1 i5
    · next h => simp only [List.cons.injEq] at h; exact absurd h.1 i6
    · rw [h3, h4]

theorem first_number {t : List Char} (h : t.all numberChar = true) :
    ∀ c t', t = c :: t' → c.isDigit = true ∨ c = '-' ∨ c = '+' ∨ c = '.' ∨ c = 'e' ∨ c = 'E' := by
  rintro c t' rfl
  rw [List.all_cons, Bool.and_eq_true] at h
  simpa [numberChar, or_assoc] using h.1

theorem value_arr (n : Nat) {r t : List Char} {c : Char} (h : skipWhite r = c :: t) (hc : c ≠ ']') :
    jsonValue rd (n + 1) ('[' :: r) = (jsonItems rd n r).map fun p => (.arr p.1, p.2) := by
  rw [jsonValue, skip_of (by decide)]
  show (match skipWhite r with
      | ']' :: r => some (Json.arr [], r)
      | _ => (jsonItems rd n r).map fun (xs, r) => (Json.arr xs, r)) = _
  rw [h]
  split
  · next h7 => simp only [List.cons.injEq] at h7; exact absurd h7.1 hc
  · rfl

theorem value_obj (n : Nat) {r t : List Char} {c : Char} (h : skipWhite r = c :: t) (hc : c ≠ '}') :
    jsonValue rd (n + 1) ('{' :: r) = (jsonEntries rd n r).map fun p => (.obj p.1, p.2) := by
  rw [jsonValue, skip_of (by decide)]
  show (match skipWhite r with
      | '}' :: r => some (Json.obj [], r)
      | _ => (jsonEntries rd n r).map fun (xs, r) => (Json.obj xs, r)) = _
  rw [h]
  split
  · next h7 => simp only [List.cons.injEq] at h7; exact absurd h7.1 hc
  · rfl

theorem text_str (s : String) (r : List Char) : writeStr s ++ r = '"' :: (s.toList.flatMap escapeChar ++ '"' :: r) := by simp [writeStr]

mutual
theorem read_value (ok : RealText wr rd) (st : JsonStyle) : ∀ (j : Json) (d : Nat), Proper j → ∀ (n : Nat) (r : List Char), Ends r →
    (writeJson wr st d j).length ≤ n → jsonValue rd n (writeJson wr st d j ++ r) = some (j, r)
  | .null, d, _, n, r, _, hn => by
    cases n with
    | zero => simp [writeJson] at hn
    | succ n => simp only [writeJson]; rfl
  | .bool b, d, _, n, r, _, hn => by
    cases n with
    | zero => cases b <;> simp [writeJson] at hn
    | succ n => cases b <;> simp only [writeJson] <;> rfl
  | .int (.ofNat m), d, h, n, r, hr, hn => by
    simp only [writeJson] at hn ⊢
    have h0 := decText_ne_nil m
    cases n with
    | zero => exact absurd (List.length_eq_zero_iff.1 (by omega)) h0
    | succ n =>
      rw [value_number n h0 (dec_numberChars m) (first_number (dec_numberChars m)) hr, read_nat rd m (by have := h.2; simp only [Int.ofNat_eq_natCast] at this; omega)]
      rfl
  | .int (.negSucc m), d, h, n, r, hr, hn => by
    simp only [writeJson] at hn ⊢
    have h1 : ('-' :: decText (m + 1)).all numberChar = true := by rw [List.all_cons, dec_numberChars]; rfl
    cases n with
    | zero => simp at hn
    | succ n =>
      rw [value_number n (by simp) h1 (first_number h1) hr, read_neg rd m (by have := h.1; omega)]
      rfl
  | .float x, d, hx, n, r, hr, hn => by
    simp only [writeJson] at hn ⊢
    have h0 : wr x ≠ [] := by
      intro h
      have := ok.form x
      rw [h] at this
      cases this
    cases n with
    | zero => exact absurd (List.length_eq_zero_iff.1 (by omega)) h0
    | succ n =>
      rw [value_number n h0 (ok.chars x) (first_number (ok.chars x)) hr, readNumber, if_neg (by rw [ok.form x]; decide), ok.back x hx]
      rfl
  | .str s, d, _, n, r, _, hn => by
    simp only [writeJson] at hn ⊢
    cases n with
    | zero => simp [writeStr] at hn
    | succ n =>
      rw [text_str, jsonValue, skip_of (by decide)]
      simp only [readString_text, Option.map_some, String.ofList_toList]
  | .arr [], d, _, n, r, _, hn => by
    simp only [writeJson] at hn ⊢
    cases n with
    | zero => simp at hn
    | succ n => rfl
  | .arr (x :: xs), d, h, n, r, _, hn => by
    have hp : Proper x ∧ ProperItems xs := by simpa only [Proper, ProperItems] using h
    simp only [writeJson] at hn ⊢
    simp only [List.length_cons, List.length_append] at hn
    cases n with
    | zero => omega
    | succ n =>
      obtain ⟨c, t, h1, h2, h3, -⟩ := write_first ok st (d + 1) x
      have e : skipWhite (st.gap (d + 1) ++ (writeJson wr st (d + 1) x ++ (writeItems wr st (d + 1) xs ++ (st.gap d ++ [']']))) ++ r) =
          writeJson wr st (d + 1) x ++ (writeItems wr st (d + 1) xs ++ (st.gap d ++ ']' :: r)) := by
        simp only [List.append_assoc, List.singleton_append]
        rw [skip_gap, h1]
        exact h2 _
      have hi := read_items ok st xs x (d + 1) hp.1 hp.2 d n r (by omega)
      rw [List.cons_append, value_arr n (e.trans (by rw [h1]; rfl)) h3,
        items_skip rd n (r' := writeJson wr st (d + 1) x ++ (writeItems wr st (d + 1) xs ++ (st.gap d ++ ']' :: r))) (e.trans (by rw [h1]; exact (h2 _).symm)), hi]
      rfl
  | .obj [], d, _, n, r, _, hn => by
    simp only [writeJson] at hn ⊢
    cases n with
    | zero => simp at hn
    | succ n => rfl
  | .obj ((k, v) :: kvs), d, h, n, r, _, hn => by
    have hp : Proper v ∧ (∀ kv ∈ kvs, kv.1 ≠ k) ∧ ProperEntries kvs := by simpa only [Proper, ProperEntries] using h
    simp only [writeJson] at hn ⊢
    simp only [List.length_cons, List.length_append] at hn
    cases n with
    | zero => omega
    | succ n =>
      have e : skipWhite (st.gap (d + 1) ++ (writeStr k ++ (st.colon ++ (writeJson wr st (d + 1) v ++ (writeEntries wr st (d + 1) kvs ++ (st.gap d ++ ['}']))))) ++ r) =
          writeStr k ++ (st.colon ++ (writeJson wr st (d + 1) v ++ (writeEntries wr st (d + 1) kvs ++ (st.gap d ++ '}' :: r)))) := by
        simp only [List.append_assoc, List.singleton_append]
        rw [skip_gap, writeStr]
        exact skip_of (by decide)
      have hi := read_entries ok st kvs k v (d + 1) hp.1 hp.2.2 d n r (by omega)
      rw [List.cons_append, value_obj n (e.trans (text_str k _)) (by decide),
        entries_skip rd n (r' := writeStr k ++ (st.colon ++ (writeJson wr st (d + 1) v ++ (writeEntries wr st (d + 1) kvs ++ (st.gap d ++ '}' :: r)))))
          (e.trans (by rw [text_str]; exact (skip_of (by decide)).symm)), hi]
      rfl
termination_by _ _ _ n => n
theorem read_items (ok : RealText wr rd) (st : JsonStyle) : ∀ (xs : List Json) (x : Json) (d : Nat), Proper x → ProperItems xs → ∀ (d' n : Nat) (r : List Char),
    (writeJson wr st d x).length + (writeItems wr st d xs).length + 1 ≤ n →
    jsonItems rd n (writeJson wr st d x ++ (writeItems wr st d xs ++ (st.gap d' ++ ']' :: r))) = some (x :: xs, r)
  | [], x, d, hx, _, d', n, r, hn => by
    simp only [writeItems, List.nil_append, List.length_nil] at hn ⊢
    cases n with
    | zero => omega
    | succ n =>
      rw [jsonItems, read_value ok st x d hx n _ (gap_ends st d' (by decide)) (by omega)]
      simp only [skip_gap, skip_of (c := ']') (by decide)]
  | y :: ys, x, d, hx, hys, d', n, r, hn => by
    have hp : Proper y ∧ ProperItems ys := by simpa only [ProperItems] using hys
    simp only [writeItems, List.length_cons, List.length_append] at hn
    simp only [writeItems, List.cons_append, List.append_assoc]
    cases n with
    | zero => omega
    | succ n =>
      rw [jsonItems, read_value ok st x d hx n _ (by intro c t e; cases e; decide) (by omega)]
      simp only [skip_of (c := ',') (by decide)]
      rw [items_skip rd n (skip_gap st d _), read_items ok st ys y d hp.1 hp.2 d' n r (by omega)]
      rfl
termination_by _ _ _ _ _ _ n => n
theorem read_entries (ok : RealText wr rd) (st : JsonStyle) : ∀ (kvs : List (String × Json)) (k : String) (v : Json) (d : Nat), Proper v → ProperEntries kvs →
    ∀ (d' n : Nat) (r : List Char),
    (writeStr k).length + (st.colon.length + ((writeJson wr st d v).length + ((writeEntries wr st d kvs).length + 1))) ≤ n →
    jsonEntries rd n (writeStr k ++ (st.colon ++ (writeJson wr st d v ++ (writeEntries wr st d kvs ++ (st.gap d' ++ '}' :: r))))) = some ((k, v) :: kvs, r)
  | [], k, v, d, hv, _, d', n, r, hn => by
    simp only [writeEntries, List.nil_append, List.length_nil] at hn ⊢
    cases n with
    | zero => omega
    | succ n =>
      rw [text_str, jsonEntries, skip_of (by decide)]
      simp only [readString_text]
      have hcol : ∀ z, ∃ z', skipWhite (st.colon ++ z) = ':' :: z' ∧ skipWhite z' = skipWhite z := by
        intro z; cases st with
        | compact => exact ⟨z, skip_of (by decide), rfl⟩
        | pretty => exact ⟨' ' :: z, skip_of (by decide), by rw [skipWhite, if_pos (.inl rfl)]⟩
      obtain ⟨z', e1, e2⟩ := hcol (writeJson wr st d v ++ (st.gap d' ++ '}' :: r))
      simp only [e1]
      rw [value_skip rd n e2, read_value ok st v d hv n _ (gap_ends st d' (by decide)) (by omega)]
      simp only [skip_gap, skip_of (c := '}') (by decide), String.ofList_toList]
  | (k', v') :: kvs, k, v, d, hv, hk, d', n, r, hn => by
    have hp : Proper v' ∧ (∀ kv ∈ kvs, kv.1 ≠ k') ∧ ProperEntries kvs := by simpa only [ProperEntries] using hk
    simp only [writeEntries, List.length_cons, List.length_append] at hn
    simp only [writeEntries, List.cons_append, List.append_assoc]
    cases n with
    | zero => omega
    | succ n =>
      rw [text_str, jsonEntries, skip_of (by decide)]
      simp only [readString_text]
      have hcol : ∀ z, ∃ z', skipWhite (st.colon ++ z) = ':' :: z' ∧ skipWhite z' = skipWhite z := by
        intro z; cases st with
        | compact => exact ⟨z, skip_of (by decide), rfl⟩
        | pretty => exact ⟨' ' :: z, skip_of (by decide), by rw [skipWhite, if_pos (.inl rfl)]⟩
      obtain ⟨z', e1, e2⟩ := hcol (writeJson wr st d v ++ ',' :: (st.gap d ++ (writeStr k' ++ (st.colon ++ (writeJson wr st d v' ++ (writeEntries wr st d kvs ++ (st.gap d' ++ '}' :: r)))))))
      simp only [e1]
      rw [value_skip rd n e2, read_value ok st v d hv n _ (by intro c t e; cases e; decide) (by omega)]
      simp only [skip_of (c := ',') (by decide), String.ofList_toList]
      rw [entries_skip rd n (skip_gap st d _), read_entries ok st kvs k' v' d hp.1 hp.2.2 d' n r (by omega)]
      rfl
termination_by _ _ _ _ _ _ _ n => n
end

/-- **C98** What is written of a document, in the compact or the pretty form, is read as this document. -/
theorem c98_text (ok : RealText wr rd) (st : JsonStyle) (j : Json) (h : Proper j) : readJson rd (writeJson wr st 0 j) = some j := by
  rw [readJson]
  have := read_value ok st j 0 h ((writeJson wr st 0 j).length + 1) [] (by intro c t e; cases e) (by omega)
  rw [List.append_nil] at this
  rw [this]
  rfl

end

/-! ### maps -/

theorem properEntries_iff (kvs : List (String × Json)) : ProperEntries kvs ↔ (∀ kv ∈ kvs, Proper kv.2) ∧ (kvs.map (·.1)).Nodup := by
  induction kvs with
  | nil => simp [ProperEntries]
  | cons x kvs ih =>
    obtain ⟨k, v⟩ := x
    simp only [ProperEntries, ih, List.mem_cons, forall_eq_or_imp, List.map_cons, List.nodup_cons, List.mem_map, not_exists, not_and]
    constructor
    · rintro ⟨h1, h2, h3, h4⟩; exact ⟨⟨h1, h3⟩, fun x hx e => h2 x hx e, h4⟩
    · rintro ⟨⟨h1, h3⟩, h2, h4⟩; exact ⟨h1, fun x hx e => h2 x hx e, h3, h4⟩

theorem properItems_iff (xs : List Json) : ProperItems xs ↔ ∀ x ∈ xs, Proper x := by
  induction xs with
  | nil => simp [ProperItems]
  | cons x xs ih => simp [ProperItems, ih]

theorem insert_perm (k : String) (v : Json) (m : List (String × Json)) (h : ∀ kv ∈ m, kv.1 ≠ k) : (insertEntry k v m).Perm ((k, v) :: m) := by
  induction m with
  | nil => exact .refl _
  | cons x m ih =>
    obtain ⟨k', v'⟩ := x
    rw [insertEntry]
    split
    · exact .refl _
    · rw [if_neg (fun e => h (k', v') (by simp) e.symm)]
      exact ((ih fun kv hkv => h kv (by simp [hkv])).cons _).trans (.swap ..)

theorem valueItems_eq (xs : List Json) : valueItems xs = xs.map Json.value := by
  induction xs with
  | nil => simp only [valueItems, List.map_nil]
  | cons x xs ih => simp only [valueItems, List.map_cons, ih]

theorem valueEntries_perm (kvs m : List (String × Json)) (h : (kvs.map (·.1)).Nodup) (hm : ∀ kv ∈ m, ∀ kv' ∈ kvs, kv.1 ≠ kv'.1) :
    (valueEntries kvs m).Perm (kvs.map (fun kv => (kv.1, kv.2.value)) ++ m) := by
  induction kvs generalizing m with
  | nil => simp only [valueEntries]; exact .refl _
  | cons x kvs ih =>
    obtain ⟨k, v⟩ := x
    simp only [valueEntries]
    rw [List.map_cons, List.nodup_cons] at h
    have hk : ∀ kv ∈ m, kv.1 ≠ k := fun kv hkv => hm kv hkv (k, v) (by simp)
    have hp := insert_perm k v.value m hk
    refine (ih _ h.2 ?_).trans ?_
    · intro kv hkv kv' hkv'
      rcases List.mem_cons.1 (hp.mem_iff.1 hkv) with rfl | hkv
      · intro e
        exact h.1 (List.mem_map.2 ⟨kv', hkv', e.symm⟩)
      · exact hm kv hkv kv' (by simp [hkv'])
    · rw [List.map_cons, List.cons_append]
      exact ((List.perm_append_left_iff _).2 hp).trans List.perm_middle

theorem value_perm (kvs : List (String × Json)) (h : (kvs.map (·.1)).Nodup) : (valueEntries kvs []).Perm (kvs.map fun kv => (kv.1, kv.2.value)) := by
  have := valueEntries_perm kvs [] h (by simp)
  rwa [List.append_nil] at this

theorem value_obj_eq (kvs : List (String × Json)) : (Json.obj kvs).value = .obj (valueEntries kvs []) := by simp only [Json.value]
theorem value_arr_eq (xs : List Json) : (Json.arr xs).value = .arr (xs.map Json.value) := by simp only [Json.value, valueItems_eq]

mutual
theorem proper_value : ∀ j : Json, Proper j → Proper j.value
  | .null, _ => by simp only [Json.value, Proper]
  | .bool _, _ => by simp only [Json.value, Proper]
  | .int _, h => by simpa only [Json.value] using h
  | .float _, h => by simpa only [Json.value] using h
  | .str _, _ => by simp only [Json.value, Proper]
  | .arr xs, h => by
    rw [value_arr_eq]
    simp only [Proper] at h ⊢
    rw [properItems_iff]
    have := proper_items xs h
    intro x hx
    obtain ⟨y, hy, rfl⟩ := List.mem_map.1 hx
    exact this y hy
  | .obj kvs, h => by
    rw [value_obj_eq]
    simp only [Proper] at h ⊢
    have h1 := proper_entries kvs h
    rw [properEntries_iff] at h ⊢
    have hp := value_perm kvs h.2
    refine ⟨?_, ?_⟩
    · intro kv hkv
      obtain ⟨x, hx, rfl⟩ := List.mem_map.1 (hp.mem_iff.1 hkv)
      exact h1 x hx
    · have := (hp.map (·.1)).nodup_iff
      rw [this, List.map_map]
      exact h.2
theorem proper_items : ∀ xs : List Json, ProperItems xs → ∀ x ∈ xs, Proper x.value
  | [], _, x, hx => by cases hx
  | y :: ys, h, x, hx => by
    simp only [ProperItems] at h
    rcases List.mem_cons.1 hx with e | hx
    · rw [e]; exact proper_value y h.1
    · exact proper_items ys h.2 x hx
theorem proper_entries : ∀ kvs : List (String × Json), ProperEntries kvs → ∀ kv ∈ kvs, Proper kv.2.value
  | [], _, x, hx => by cases hx
  | (k, v) :: ys, h, x, hx => by
    simp only [ProperEntries] at h
    rcases List.mem_cons.1 hx with e | hx
    · rw [e]; exact proper_value v h.1
    · exact proper_entries ys h.2.2 x hx
end

/-- **C98** A document that went through a map is read as the same document, up to the order of entries: what is read is the value,
and its entries are those of the document, each value again such a value. -/
theorem c98_value {wr : Rat → List Char} {rd : List Char → Option Rat} (ok : RealText wr rd) (j : Json) (h : Proper j) :
    readJson rd (valueText wr j) = some j.value ∧ readJson rd (valuePretty wr j) = some j.value ∧
    (∀ kvs, j = .obj kvs → ∃ kvs', j.value = .obj kvs' ∧ kvs'.Perm (kvs.map fun kv => (kv.1, kv.2.value))) ∧
    (∀ xs, j = .arr xs → j.value = .arr (xs.map Json.value)) ∧
    ((∀ kvs, j ≠ .obj kvs) → (∀ xs, j ≠ .arr xs) → j.value = j) := by
  refine ⟨c98_text ok .compact _ (proper_value j h), c98_text ok .pretty _ (proper_value j h), ?_, ?_, ?_⟩
  · rintro kvs rfl
    simp only [Proper] at h
    exact ⟨_, value_obj_eq kvs, value_perm kvs ((properEntries_iff kvs).1 h).2⟩
  · rintro xs rfl; exact value_arr_eq xs
  · intro h1 h2
    cases j with
    | obj kvs => exact absurd rfl (h1 kvs)
    | arr xs => exact absurd rfl (h2 xs)
    | _ => simp only [Json.value]

/-! ### readers do not see the order of entries -/

/-- The reader gives the same for a document and for its value. -/
def Stable (f : Json → Option α) : Prop := ∀ j, Proper j → f j.value = f j

theorem stable_scalar {f : Json → Option α} (h1 : ∀ xs, f (.arr xs) = none) (h2 : ∀ kvs, f (.obj kvs) = none) : Stable f := by
  intro j _
  cases j with
  | arr xs => rw [value_arr_eq, h1, h1]
  | obj kvs => rw [value_obj_eq, h2, h2]
  | _ => simp only [Json.value]

theorem stable_natBelow (b : Nat) : Stable (Json.natBelow b) := stable_scalar (fun _ => rfl) (fun _ => rfl)
theorem stable_u8 : Stable Json.u8 := stable_scalar (fun _ => rfl) (fun _ => rfl)
theorem stable_u16 : Stable Json.u16 := stable_scalar (fun _ => rfl) (fun _ => rfl)
theorem stable_u32 : Stable Json.u32 := stable_scalar (fun _ => rfl) (fun _ => rfl)
theorem stable_bool : Stable Json.boolean := stable_scalar (fun _ => rfl) (fun _ => rfl)
theorem stable_viaText (f : List Char → Option α) : Stable (Json.viaText f) := stable_scalar (fun _ => rfl) (fun _ => rfl)

theorem stable_number {f : Json → Option α} (h : ∀ j x, f j = some x → IsNumber j) : Stable f := by
  refine stable_scalar (fun xs => ?_) (fun kvs => ?_)
  · cases hf : f (.arr xs) with
    | none => rfl
    | some x => rcases h _ _ hf with ⟨_, e⟩ | ⟨_, e⟩ <;> cases e
  · cases hf : f (.obj kvs) with
    | none => rfl
    | some x => rcases h _ _ hf with ⟨_, e⟩ | ⟨_, e⟩ <;> cases e

theorem mapM_value {f : Json → Option α} (hf : Stable f) (xs : List Json) (h : ∀ x ∈ xs, Proper x) : (xs.map Json.value).mapM f = xs.mapM f := by
  induction xs with
  | nil => rfl
  | cons x xs ih =>
    rw [List.map_cons, List.mapM_cons, List.mapM_cons, hf x (h x (by simp)), ih fun y hy => h y (by simp [hy])]

theorem stable_list {f : Json → Option α} (hf : Stable f) : Stable (Json.list f) := by
  intro j h
  cases j with
  | arr xs =>
    simp only [Proper] at h
    rw [value_arr_eq]
    exact mapM_value hf xs ((properItems_iff xs).1 h)
  | obj kvs => rw [value_obj_eq]; rfl
  | _ => simp only [Json.value]

theorem stable_octets (n : Nat) : Stable (Json.octets n) := by
  intro j h
  rw [Json.octets, stable_list stable_u8 j h, Json.octets]

theorem filter_key_le (kvs : List (String × Json)) (k : String) (h : (kvs.map (·.1)).Nodup) : (kvs.filter fun kv => kv.1 == k).length ≤ 1 := by
  induction kvs with
  | nil => simp
  | cons x kvs ih =>
    rw [List.map_cons, List.nodup_cons] at h
    rw [List.filter_cons]
    split
    · next hx =>
      have : kvs.filter (fun kv => kv.1 == k) = [] := by
        rw [List.filter_eq_nil_iff]
        intro kv hkv hk
        rw [beq_iff_eq] at hx hk
        exact h.1 (List.mem_map.2 ⟨kv, hkv, hk.trans hx.symm⟩)
      simp [this]
    · exact ih h.2

theorem perm_short {l l' : List α} (h : l.Perm l') (hl : l'.length ≤ 1) : l = l' := by
  match l', hl with
  | [], _ => exact h.eq_nil
  | [x], _ => exact List.perm_singleton.1 h

theorem filter_value (kvs : List (String × Json)) (k : String) (h : (kvs.map (·.1)).Nodup) :
    (valueEntries kvs []).filter (fun kv => kv.1 == k) = (kvs.filter fun kv => kv.1 == k).map fun kv => (kv.1, kv.2.value) := by
  have h1 := (value_perm kvs h).filter (fun kv => kv.1 == k)
  rw [List.filter_map] at h1
  refine perm_short h1 ?_
  rw [List.length_map]
  exact filter_key_le kvs k h

theorem entry_value (kvs : List (String × Json)) (k : String) (h : (kvs.map (·.1)).Nodup) :
    Json.entry (valueEntries kvs []) k = (Json.entry kvs k).map (·.map Json.value) := by
  rw [Json.entry, filter_value kvs k h, Json.entry]
  generalize kvs.filter (fun kv => kv.1 == k) = l
  rcases l with _ | ⟨a, _ | ⟨b, l⟩⟩ <;> rfl

theorem entry_proper (kvs : List (String × Json)) (k : String) (o : Option Json) (h : ∀ kv ∈ kvs, Proper kv.2) (he : Json.entry kvs k = some o) :
    ∀ x, o = some x → Proper x := by
  rintro x rfl
  rw [Json.entry] at he
  have hm : ∀ kv ∈ kvs.filter (fun kv => kv.1 == k), Proper kv.2 := fun kv hkv => h kv (List.mem_filter.1 hkv).1
  revert he hm
  generalize kvs.filter (fun kv => kv.1 == k) = l
  rcases l with _ | ⟨a, _ | ⟨b, l⟩⟩
  · rintro he -; cases he
  · rintro he hm; cases he; exact hm _ (by simp)
  · rintro he -; cases he

theorem fields_value (names : List String) (j : Json) (h : Proper j) :
    Json.fields names j.value = (Json.fields names j).map (List.map (Option.map Json.value)) := by
  cases j with
  | arr xs =>
    rw [value_arr_eq, Json.fields, Json.fields, List.length_map]
    split <;> simp
  | obj kvs =>
    rw [value_obj_eq, Json.fields, Json.fields]
    simp only [Proper] at h
    have hn := ((properEntries_iff kvs).1 h).2
    induction names with
    | nil => rfl
    | cons k ks ih =>
      rw [List.mapM_cons, List.mapM_cons, entry_value kvs k hn, ih]
      cases Json.entry kvs k with
      | none => rfl
      | some o => cases ks.mapM (Json.entry kvs) <;> rfl
  | _ => simp only [Json.value, Json.fields] <;> rfl

theorem fields_proper (names : List String) (j : Json) (h : Proper j) (l : List (Option Json)) (hl : Json.fields names j = some l) :
    ∀ o ∈ l, ∀ x, o = some x → Proper x := by
  cases j with
  | arr xs =>
    rw [Json.fields] at hl
    split at hl
    · cases hl
      simp only [Proper] at h
      intro o ho x hx
      obtain ⟨y, hy, rfl⟩ := List.mem_map.1 ho
      cases hx
      exact (properItems_iff xs).1 h _ hy
    · cases hl
  | obj kvs =>
    simp only [Proper] at h
    have hp := ((properEntries_iff kvs).1 h).1
    rw [Json.fields] at hl
    induction names generalizing l with
    | nil => cases hl; simp
    | cons k ks ih =>
      rw [List.mapM_cons] at hl
      cases he : Json.entry kvs k with
      | none => rw [he] at hl; cases hl
      | some o =>
        cases hm : ks.mapM (Json.entry kvs) with
        | none => rw [he, hm] at hl; cases hl
        | some l' =>
          rw [he, hm] at hl
          cases hl
          intro o' ho'
          rcases List.mem_cons.1 ho' with rfl | ho'
          · exact entry_proper kvs k _ hp he
          · exact ih l' hm o' ho'
  | _ => cases hl

/-- a reader of the fields of a struct. -/
theorem stable_fields (names : List String) {F : List (Option Json) → Option α}
    (hF : ∀ l, (∀ o ∈ l, ∀ x, o = some x → Proper x) → F (l.map (Option.map Json.value)) = F l) : Stable fun j => (Json.fields names j).bind F := by
  intro j h
  simp only [fields_value names j h]
  cases hl : Json.fields names j with
  | none => rfl
  | some l => exact hF l (fields_proper names j h l hl)

theorem req_value {f : Json → Option α} (hf : Stable f) {o : Option Json} (h : ∀ x, o = some x → Proper x) : Json.req f (o.map Json.value) = Json.req f o := by
  cases o with
  | none => rfl
  | some x => exact hf x (h x rfl)

theorem opt_value {f : Json → Option α} (hf : Stable f) {o : Option Json} (h : ∀ x, o = some x → Proper x) : Json.opt f (o.map Json.value) = Json.opt f o := by
  cases o with
  | none => rfl
  | some x =>
    have := hf x (h x rfl)
    cases x with
    | arr xs => rw [value_arr_eq] at this; rw [Option.map_some, value_arr_eq]; simp only [Json.opt, this]
    | obj kvs => rw [value_obj_eq] at this; rw [Option.map_some, value_obj_eq]; simp only [Json.opt, this]
    | _ => simp only [Option.map_some, Json.value]

theorem variant_value (j : Json) (h : Proper j) : Json.variant j.value = (Json.variant j).map fun p => (p.1, p.2.map Json.value) := by
  cases j with
  | arr xs => rw [value_arr_eq]; rfl
  | obj kvs =>
    simp only [Proper] at h
    rw [value_obj_eq]
    have hl := (value_perm kvs ((properEntries_iff kvs).1 h).2).length_eq
    rw [List.length_map] at hl
    rcases kvs with _ | ⟨⟨k, v⟩, _ | ⟨b, l⟩⟩
    · simp only [valueEntries]; rfl
    · simp only [valueEntries, insertEntry]; rfl
    · generalize valueEntries ((k, v) :: b :: l) [] = m at hl ⊢
      rcases m with _ | ⟨x, _ | ⟨y, l'⟩⟩
      · rfl
      · simp at hl
      · rfl
  | _ => simp only [Json.value, Json.variant] <;> rfl

theorem variant_proper (j : Json) (h : Proper j) (n : String) (c : Option Json) (hv : Json.variant j = some (n, c)) : ∀ x, c = some x → Proper x := by
  rintro x rfl
  cases j with
  | obj kvs =>
    rcases kvs with _ | ⟨⟨k, v⟩, _ | ⟨b, l⟩⟩
    · cases hv
    · cases hv
      simp only [Proper, ProperEntries] at h
      exact h.1
    · cases hv
  | str s => cases hv
  | _ => cases hv

theorem isUnit_value (c : Option Json) : Json.isUnit (c.map Json.value) = Json.isUnit c := by
  cases c with
  | none => rfl
  | some j =>
    cases j with
    | arr xs => rw [Option.map_some, value_arr_eq]; rfl
    | obj kvs => rw [Option.map_some, value_obj_eq]; rfl
    | _ => simp only [Option.map_some, Json.value]

/-- a reader of the variant of an enum. -/
theorem stable_variant {F : String × Option Json → Option α}
    (hF : ∀ n c, (∀ x, c = some x → Proper x) → F (n, c.map Json.value) = F (n, c)) : Stable fun j => (Json.variant j).bind F := by
  intro j h
  simp only [variant_value j h]
  cases hv : Json.variant j with
  | none => rfl
  | some p => exact hF p.1 p.2 (variant_proper j h p.1 p.2 hv)

theorem stable_seg : Stable segOfJson := by
  refine stable_fields ["ty", "values"] (fun l h => ?_)
  rcases l with _ | ⟨a, _ | ⟨b, _ | ⟨c, l⟩⟩⟩
  · rfl
  · rfl
  · simp only [List.map_cons, List.map_nil]
    rw [req_value (stable_list stable_u32) (h b (by simp))]
    cases a with
    | none => rfl
    | some j =>
      have hj := h (some j) (by simp) j rfl
      simp only [Option.map_some, Json.req, variant_value j hj]
      cases Json.variant j with
      | none => rfl
      | some p =>
        simp only [Option.map_some, Option.bind_eq_bind, Option.bind_some, isUnit_value]
  · rfl

theorem stable_pathItem : Stable pathItemOf := by
  intro j h
  rw [pathItemOf, stable_u32 j h, stable_list stable_u32 j h, stable_seg j h, pathItemOf]

theorem stable_asPath : Stable asPathOf := by
  intro j h
  rw [asPathOf, stable_list stable_pathItem j h, asPathOf]

theorem stable_prefix (env : JsonEnv) : Stable (prefixOf env) := by
  intro j h
  unfold prefixOf
  rw [stable_viaText _ j h]
  cases hv : Json.viaText env.net j with
  | some n => rfl
  | none =>
    cases j with
    | arr xs => rw [value_arr_eq]
    | obj kvs =>
      simp only [Proper] at h
      have hp := (properEntries_iff kvs).1 h
      rw [value_obj_eq]
      simp only [entry_value kvs _ hp.2]
      have ha : (valueEntries kvs []).all (fun kv => kv.1 == "prefix" || kv.1 == "path_id") = kvs.all (fun kv => kv.1 == "prefix" || kv.1 == "path_id") := by
        rw [(value_perm kvs hp.2).all_eq, List.all_map]
        rfl
      rw [ha]
      split
      · cases h1 : Json.entry kvs "prefix" with
        | none => rfl
        | some o1 =>
          cases h2 : Json.entry kvs "path_id" with
          | none => cases o1 <;> rfl
          | some o2 =>
            have p1 := entry_proper kvs _ _ hp.1 h1
            have p2 := entry_proper kvs _ _ hp.1 h2
            cases o1 with
            | none => rfl
            | some a =>
              cases o2 with
              | none => rfl
              | some b =>
                simp only [Option.map_some, Option.bind_eq_bind, Option.bind_some, stable_viaText _ a (p1 a rfl), stable_u32 b (p2 b rfl)]
      · rfl
    | _ => simp only [Json.value]

theorem stable_plain : Stable plainOfJson := by
  refine stable_variant (fun n c h => ?_)
  dsimp only
  split
  · cases c with
    | none => rfl
    | some j =>
      cases j with
      | arr xs =>
        have hx := h _ rfl
        simp only [Proper] at hx
        rw [properItems_iff] at hx
        rw [Option.map_some, value_arr_eq]
        rcases xs with _ | ⟨a, _ | ⟨b, _ | ⟨c, l⟩⟩⟩
        · rfl
        · rfl
        · simp only [List.map_cons, List.map_nil, stable_u32 a (hx a (by simp)), stable_u16 b (hx b (by simp))]
        · rfl
      | obj kvs => rw [Option.map_some, value_obj_eq]
      | _ => simp only [Option.map_some, Json.value]
  · rw [isUnit_value]

theorem stable_large : Stable largeOfJson := by
  refine stable_fields _ (fun l h => ?_)
  rcases l with _ | ⟨a, _ | ⟨b, _ | ⟨c, l⟩⟩⟩
  · rfl
  · rfl
  · simp only [List.map_cons, List.map_nil]
    rw [req_value (stable_list stable_u32) (h b (by simp)), req_value stable_u32 (h a (by simp))]
  · rfl

theorem stable_extType : Stable extTypeOf := by
  refine stable_variant (fun n c h => ?_)
  dsimp only
  rw [isUnit_value, req_value stable_u8 h]

theorem stable_asExt (n : Nat) (f : UInt8 → Asn → Vector UInt8 n → ExtCommunity) : Stable (asExtOf n f) := by
  refine stable_fields _ (fun l h => ?_)
  rcases l with _ | ⟨a, _ | ⟨b, _ | ⟨c, _ | ⟨d, l⟩⟩⟩⟩
  · rfl
  · rfl
  · rfl
  · simp only [List.map_cons, List.map_nil]
    rw [req_value stable_u8 (h a (by simp)), req_value stable_u32 (h b (by simp)), req_value (stable_octets n) (h c (by simp))]
  · rfl

theorem stable_v4Ext (env : JsonEnv) (f : UInt8 → V4 → Vector UInt8 2 → ExtCommunity) : Stable (v4ExtOf env f) := by
  refine stable_fields _ (fun l h => ?_)
  rcases l with _ | ⟨a, _ | ⟨b, _ | ⟨c, _ | ⟨d, l⟩⟩⟩⟩
  · rfl
  · rfl
  · rfl
  · simp only [List.map_cons, List.map_nil]
    rw [req_value stable_u8 (h a (by simp)), req_value (stable_viaText _) (h b (by simp)), req_value (stable_octets 2) (h c (by simp))]
  · rfl

theorem stable_opaqueExt (f : UInt8 → Vector UInt8 6 → ExtCommunity) : Stable (opaqueExtOf f) := by
  refine stable_fields _ (fun l h => ?_)
  rcases l with _ | ⟨a, _ | ⟨b, _ | ⟨c, l⟩⟩⟩
  · rfl
  · rfl
  · simp only [List.map_cons, List.map_nil]
    rw [req_value stable_u8 (h a (by simp)), req_value (stable_octets 6) (h b (by simp))]
  · rfl

theorem stable_ipv6Ext (env : JsonEnv) : Stable (ipv6ExtOf env) := by
  refine stable_fields _ (fun l h => ?_)
  rcases l with _ | ⟨a, _ | ⟨b, _ | ⟨c, _ | ⟨d, _ | ⟨e, l⟩⟩⟩⟩⟩
  · rfl
  · rfl
  · rfl
  · rfl
  · simp only [List.map_cons, List.map_nil]
    rw [req_value stable_extType (h a (by simp)), req_value stable_u8 (h b (by simp)), req_value (stable_viaText _) (h c (by simp)),
      req_value (stable_octets 2) (h d (by simp))]
  · rfl

theorem stable_attrRaw : Stable attrRawOf := by
  refine stable_fields _ (fun l h => ?_)
  rcases l with _ | ⟨a, _ | ⟨b, _ | ⟨c, l⟩⟩⟩
  · rfl
  · rfl
  · simp only [List.map_cons, List.map_nil]
    rw [req_value stable_u8 (h a (by simp)), req_value (show Stable bytesOf from stable_list stable_u8) (h b (by simp))]
  · rfl

theorem stable_ext (env : JsonEnv) (nok : NumbersOk env) : Stable (extOf env) := by
  have sf : Stable env.f32Of := stable_number nok.f32Of
  refine stable_variant (fun n c h => ?_)
  cases c with
  | none => rfl
  | some c =>
    have hc := h c rfl
    have s1 : Stable fun j => (Json.fields ["as_number", "rate_bytes_per_sec"] j).bind fun
        | [a, r] => (Json.req Json.u16 a).bind fun a => (Json.req env.f32Of r).bind fun r => some (ExtCommunity.trafficRate a r)
        | _ => none := by
      refine stable_fields _ (fun l h => ?_)
      rcases l with _ | ⟨a, _ | ⟨b, _ | ⟨c, l⟩⟩⟩
      · rfl
      · rfl
      · simp only [List.map_cons, List.map_nil]
        rw [req_value stable_u16 (h a (by simp)), req_value sf (h b (by simp))]
      · rfl
    have s2 : Stable fun j => (Json.fields ["as_number", "terminal", "sample"] j).bind fun
        | [a, t, s] => (Json.req Json.u16 a).bind fun a => (Json.req Json.boolean t).bind fun t => (Json.req Json.boolean s).bind fun s =>
            some (ExtCommunity.trafficAction a t s)
        | _ => none := by
      refine stable_fields _ (fun l h => ?_)
      rcases l with _ | ⟨a, _ | ⟨b, _ | ⟨c, _ | ⟨d, l⟩⟩⟩⟩
      · rfl
      · rfl
      · rfl
      · simp only [List.map_cons, List.map_nil]
        rw [req_value stable_u16 (h a (by simp)), req_value stable_bool (h b (by simp)), req_value stable_bool (h c (by simp))]
      · rfl
    have s3 : Stable fun j => (Json.fields ["as_number", "dscp"] j).bind fun
        | [a, d] => (Json.req Json.u16 a).bind fun a => (Json.req Json.u8 d).bind fun d => some (ExtCommunity.trafficMarking a d)
        | _ => none := by
      refine stable_fields _ (fun l h => ?_)
      rcases l with _ | ⟨a, _ | ⟨b, _ | ⟨c, l⟩⟩⟩
      · rfl
      · rfl
      · simp only [List.map_cons, List.map_nil]
        rw [req_value stable_u16 (h a (by simp)), req_value stable_u8 (h b (by simp))]
      · rfl
    have s4 : Stable fun j => (Json.fields ["global_admin", "bandwidth", "transitive"] j).bind fun
        | [g, b, t] => (Json.req Json.u16 g).bind fun g => (Json.req env.f32Of b).bind fun b => (Json.req Json.boolean t).bind fun t =>
            some (ExtCommunity.linkBandwidth g b t)
        | _ => none := by
      refine stable_fields _ (fun l h => ?_)
      rcases l with _ | ⟨a, _ | ⟨b, _ | ⟨c, _ | ⟨d, l⟩⟩⟩⟩
      · rfl
      · rfl
      · rfl
      · simp only [List.map_cons, List.map_nil]
        rw [req_value stable_u16 (h a (by simp)), req_value sf (h b (by simp)), req_value stable_bool (h c (by simp))]
      · rfl
    have s1 := s1 c hc
    have s2 := s2 c hc
    have s3 := s3 c hc
    have s4 := s4 c hc
    simp only [Option.map_some, Option.bind_eq_bind, Option.bind_some, stable_asExt _ _ c hc, stable_v4Ext env _ c hc, stable_opaqueExt _ c hc,
      stable_octets 8 c hc]
    simp only [Option.pure_def]
    repeat' (first | refine ite_congr rfl (fun _ => ?_) (fun _ => ?_) | with_reducible rfl | exact s1 | exact s2 | exact s3 | exact s4)

theorem stable_community (env : JsonEnv) (nok : NumbersOk env) : Stable (communityOf env) := by
  intro j h
  rw [communityOf, stable_plain j h, stable_ext env nok j h, stable_ipv6Ext env j h, stable_large j h, communityOf]

theorem stable_elemType : Stable elemTypeOf := by
  refine stable_variant (fun n c h => ?_)
  dsimp only
  rw [isUnit_value]

theorem stable_origin : Stable originOf := by
  refine stable_variant (fun n c h => ?_)
  dsimp only
  rw [isUnit_value]

/-- a reader of a list of fields of known number. -/
theorem stable_elem (env : JsonEnv) (nok : NumbersOk env) : Stable (elemOf env) := by
  have st : Stable env.timeOf := stable_number nok.timeOf
  refine stable_fields _ (fun l h => ?_)
  by_cases hl : ∃ a b c d e f g h i j k l' m n o p q r s, l = [a, b, c, d, e, f, g, h, i, j, k, l', m, n, o, p, q, r, s]
  · obtain ⟨a, b, c, d, e, f, g, h', i, j, k, l', m, n, o, p, q, r, s, rfl⟩ := hl
    simp only [List.map_cons, List.map_nil]
    rw [req_value st (h a (by simp)), req_value stable_elemType (h b (by simp)), req_value (stable_viaText _) (h c (by simp)),
      req_value stable_u32 (h d (by simp)), opt_value (stable_viaText _) (h e (by simp)), req_value (stable_prefix env) (h f (by simp)),
      opt_value (stable_viaText _) (h g (by simp)), opt_value stable_asPath (h h' (by simp)), opt_value (stable_list stable_u32) (h i (by simp)),
      opt_value stable_origin (h j (by simp)), opt_value stable_u32 (h k (by simp)), opt_value stable_u32 (h l' (by simp)),
      opt_value (stable_list (stable_community env nok)) (h m (by simp)), req_value stable_bool (h n (by simp)),
      opt_value stable_u32 (h o (by simp)), opt_value (stable_viaText _) (h p (by simp)), opt_value stable_u32 (h q (by simp)),
      opt_value (stable_list stable_attrRaw) (h r (by simp)), opt_value (stable_list stable_attrRaw) (h s (by simp))]
  · have e1 : ∀ (l : List (Option Json)) {F : Option Json → Option Json → Option Json → Option Json → Option Json → Option Json → Option Json →
        Option Json → Option Json → Option Json → Option Json → Option Json → Option Json → Option Json → Option Json → Option Json →
        Option Json → Option Json → Option Json → Option BgpElem}, (¬ ∃ a b c d e f g h i j k l' m n o p q r s, l = [a, b, c, d, e, f, g, h, i, j, k, l', m, n, o, p, q, r, s]) →
        (match l with
        | [a, b, c, d, e, f, g, h, i, j, k, l', m, n, o, p, q, r, s] => F a b c d e f g h i j k l' m n o p q r s
        | _ => none) = (none : Option BgpElem) := by
      intro l F hl
      split
      · exact absurd ⟨_, _, _, _, _, _, _, _, _, _, _, _, _, _, _, _, _, _, _, rfl⟩ hl
      · rfl
    have hl' : ¬ ∃ a b c d e f g h i j k l' m n o p q r s, l.map (Option.map Json.value) = [a, b, c, d, e, f, g, h, i, j, k, l', m, n, o, p, q, r, s] := by
      rintro ⟨a, b, c, d, e, f, g, h, i, j, k, l', m, n, o, p, q, r, s, he⟩
      apply hl
      have := congrArg List.length he
      rw [List.length_map] at this
      simp only [List.length_cons, List.length_nil] at this
      rcases l with _ | ⟨a, _ | ⟨b, _ | ⟨c, _ | ⟨d, _ | ⟨e, _ | ⟨f, _ | ⟨g, _ | ⟨h, _ | ⟨i, _ | ⟨j, _ | ⟨k, _ | ⟨l', _ | ⟨m, _ | ⟨n, _ | ⟨o, _ | ⟨p, _ | ⟨q, _ | ⟨r, _ | ⟨s, _ | ⟨t, u⟩⟩⟩⟩⟩⟩⟩⟩⟩⟩⟩⟩⟩⟩⟩⟩⟩⟩⟩⟩ <;>
        simp only [List.length_cons, List.length_nil] at this <;> first | omega | exact ⟨_, _, _, _, _, _, _, _, _, _, _, _, _, _, _, _, _, _, _, rfl⟩
    exact (e1 _ hl').trans (e1 _ hl).symm

theorem stable_route (env : JsonEnv) (nok : NumbersOk env) : Stable (routeOfJson env) := by
  have st : Stable env.timeOf := stable_number nok.timeOf
  refine stable_fields _ (fun l h => ?_)
  rcases l with _ | ⟨a, _ | ⟨b, _ | ⟨c, _ | ⟨d, _ | ⟨e, _ | ⟨f, _ | ⟨g, l⟩⟩⟩⟩⟩⟩⟩
  · rfl
  · rfl
  · rfl
  · rfl
  · rfl
  · rfl
  · simp only [List.map_cons, List.map_nil]
    rw [req_value st (h a (by simp)), req_value stable_elemType (h b (by simp)), req_value (stable_viaText _) (h c (by simp)),
      req_value stable_u32 (h d (by simp)), req_value (stable_prefix env) (h e (by simp)), opt_value stable_asPath (h f (by simp))]
  · rfl

/-! ### the documents are proper -/

theorem proper_nat {n : Nat} (h : n < 18446744073709551616) : Proper (natJson n) := by
  simp only [natJson, Proper]
  omega

theorem proper_u8 (n : UInt8) : Proper (natJson n.toNat) := proper_nat (by have := n.toNat_lt; omega)
theorem proper_u16 (n : UInt16) : Proper (natJson n.toNat) := proper_nat (by have := n.toNat_lt; omega)
theorem proper_u32 (n : UInt32) : Proper (natJson n.toNat) := proper_nat (by have := n.toNat_lt; omega)
theorem proper_asn (n : Asn) : Proper (asnJson n) := proper_u32 n
theorem proper_str (s : String) : Proper (.str s) := by simp only [Proper]
theorem proper_text (s : List Char) : Proper (textJson s) := proper_str _
theorem proper_map {f : α → Json} (h : ∀ x, Proper (f x)) (xs : List α) : Proper (.arr (xs.map f)) := by
  simp only [Proper]
  rw [properItems_iff]
  intro x hx
  obtain ⟨y, -, rfl⟩ := List.mem_map.1 hx
  exact h y
theorem proper_optJson {f : α → Json} (h : ∀ x, Proper (f x)) (o : Option α) : Proper (optJson f o) := by
  cases o with
  | none => simp only [optJson, Proper]
  | some x => exact h x
theorem proper_bytes (bs : Bytes) : Proper (bytesJson bs) := proper_map (fun b => proper_u8 b) bs

theorem proper_obj {kvs : List (String × Json)} (h : ∀ kv ∈ kvs, Proper kv.2) (hn : (kvs.map (·.1)).Nodup) : Proper (.obj kvs) := by
  simp only [Proper]
  exact (properEntries_iff kvs).2 ⟨h, hn⟩

theorem proper_path (p : AsPath) : Proper (asPathJson p) := by
  unfold asPathJson
  have hs : ∀ xs : List Asn, Proper (.arr (xs.map asnJson)) := fun xs => proper_map proper_asn xs
  split
  · simp only [Proper]
    rw [properItems_iff]
    intro x hx
    obtain ⟨s, -, hx⟩ := List.mem_flatMap.1 hx
    cases s with
    | seq xs =>
      obtain ⟨a, -, rfl⟩ := List.mem_map.1 hx
      exact proper_asn a
    | _ => rw [List.mem_singleton.1 hx]; exact hs _
  · refine proper_map (fun s => proper_obj ?_ (by simp)) p
    intro kv hkv
    simp only [List.mem_cons, List.not_mem_nil, or_false] at hkv
    rcases hkv with rfl | rfl
    · exact proper_str _
    · exact hs _

theorem proper_prefix (env : JsonEnv) (p : NetworkPrefix) : Proper (prefixJson env p) := by
  unfold prefixJson
  split
  · refine proper_obj ?_ (by simp)
    intro kv hkv
    simp only [List.mem_cons, List.not_mem_nil, or_false] at hkv
    rcases hkv with rfl | rfl
    · exact proper_text _
    · exact proper_u32 _
  · exact proper_text _

theorem proper_attrRaw (a : AttrRaw) : Proper (attrRawJson a) := by
  refine proper_obj ?_ (by simp)
  intro kv hkv
  simp only [List.mem_cons, List.not_mem_nil, or_false] at hkv
  rcases hkv with rfl | rfl
  · exact proper_u8 _
  · exact proper_bytes _

theorem proper_one (k : String) {v : Json} (h : Proper v) : Proper (.obj [(k, v)]) :=
  proper_obj (by intro kv hkv; rw [List.mem_singleton.1 hkv]; exact h) (by simp)

theorem proper_community (env : JsonEnv) (nok : NumbersOk env) (c : MetaCommunity) : Proper (communityJson env c) := by
  have hb : ∀ b, Proper (.bool b) := fun b => by simp only [Proper]
  have as : ∀ s a l, Proper (asExtJson s a l) := by
    intro s a l
    refine proper_obj ?_ (by simp)
    intro kv hkv
    simp only [List.mem_cons, List.not_mem_nil, or_false] at hkv
    rcases hkv with rfl | rfl | rfl
    · exact proper_u8 _
    · exact proper_asn _
    · exact proper_bytes _
  have v4 : ∀ s a l, Proper (v4ExtJson s a l) := by
    intro s a l
    refine proper_obj ?_ (by simp)
    intro kv hkv
    simp only [List.mem_cons, List.not_mem_nil, or_false] at hkv
    rcases hkv with rfl | rfl | rfl
    · exact proper_u8 _
    · exact proper_text _
    · exact proper_bytes _
  have op : ∀ s v, Proper (opaqueExtJson s v) := by
    intro s a
    refine proper_obj ?_ (by simp)
    intro kv hkv
    simp only [List.mem_cons, List.not_mem_nil, or_false] at hkv
    rcases hkv with rfl | rfl
    · exact proper_u8 _
    · exact proper_bytes _
  cases c with
  | plain c =>
    cases c with
    | custom a v =>
      refine proper_one _ ?_
      simp only [Proper, ProperItems]
      exact ⟨proper_asn a, proper_u16 v, trivial⟩
    | _ => exact proper_str _
  | extended c =>
    cases c with
    | twoOctetAs => exact proper_one _ (as ..)
    | ipv4Addr => exact proper_one _ (v4 ..)
    | fourOctetAs => exact proper_one _ (as ..)
    | opaq => exact proper_one _ (op ..)
    | ntTwoOctetAs => exact proper_one _ (as ..)
    | ntIpv4Addr => exact proper_one _ (v4 ..)
    | ntFourOctetAs => exact proper_one _ (as ..)
    | ntOpaque => exact proper_one _ (op ..)
    | trafficRate a r =>
      refine proper_one _ (proper_obj ?_ (by simp))
      intro kv hkv
      simp only [List.mem_cons, List.not_mem_nil, or_false] at hkv
      rcases hkv with rfl | rfl
      · exact proper_u16 _
      · exact (nok.f32 r).1
    | trafficAction a t s =>
      refine proper_one _ (proper_obj ?_ (by simp))
      intro kv hkv
      simp only [List.mem_cons, List.not_mem_nil, or_false] at hkv
      rcases hkv with rfl | rfl | rfl
      · exact proper_u16 _
      · exact hb _
      · exact hb _
    | redirect => exact proper_one _ (as ..)
    | trafficMarking a d =>
      refine proper_one _ (proper_obj ?_ (by simp))
      intro kv hkv
      simp only [List.mem_cons, List.not_mem_nil, or_false] at hkv
      rcases hkv with rfl | rfl
      · exact proper_u16 _
      · exact proper_u8 _
    | linkBandwidth g b t =>
      refine proper_one _ (proper_obj ?_ (by simp))
      intro kv hkv
      simp only [List.mem_cons, List.not_mem_nil, or_false] at hkv
      rcases hkv with rfl | rfl | rfl
      · exact proper_u16 _
      · exact (nok.f32 b).1
      · exact hb _
    | raw => exact proper_one _ (proper_bytes _)
  | ipv6Extended c =>
    refine proper_obj ?_ (by simp)
    intro kv hkv
    simp only [List.mem_cons, List.not_mem_nil, or_false] at hkv
    rcases hkv with rfl | rfl | rfl | rfl
    · cases c.type with
      | unknown x => exact proper_one _ (proper_u8 x)
      | _ => exact proper_str _
    · exact proper_u8 _
    · exact proper_text _
    · exact proper_bytes _
  | large c =>
    refine proper_obj ?_ (by simp)
    intro kv hkv
    simp only [List.mem_cons, List.not_mem_nil, or_false] at hkv
    rcases hkv with rfl | rfl
    · exact proper_u32 _
    · simp only [Proper, ProperItems]
      exact ⟨proper_u32 _, proper_u32 _, trivial⟩

theorem proper_elemType (t : ElemType) : Proper (elemTypeJson t) := by cases t <;> exact proper_str _
theorem proper_origin (t : Origin) : Proper (originJson t) := by cases t <;> exact proper_str _

theorem proper_elem (env : JsonEnv) (nok : NumbersOk env) (e : BgpElem) : Proper (elemJson env e) := by
  refine proper_obj ?_ ?_
  · intro kv hkv
    have := (List.of_mem_zip hkv).2
    simp only [List.mem_cons, List.not_mem_nil, or_false] at this
    rcases this with h | h | h | h | h | h | h | h | h | h | h | h | h | h | h | h | h | h | h <;> rw [h]
    · exact (nok.time _).1
    · exact proper_elemType _
    · exact proper_text _
    · exact proper_asn _
    · exact proper_optJson (fun _ => proper_text _) _
    · exact proper_prefix env _
    · exact proper_optJson (fun _ => proper_text _) _
    · exact proper_optJson proper_path _
    · exact proper_optJson (fun xs => proper_map proper_asn xs) _
    · exact proper_optJson proper_origin _
    · exact proper_optJson (fun n => proper_u32 n) _
    · exact proper_optJson (fun n => proper_u32 n) _
    · exact proper_optJson (fun cs => proper_map (proper_community env nok) cs) _
    · simp only [Proper]
    · exact proper_optJson proper_asn _
    · exact proper_optJson (fun _ => proper_text _) _
    · exact proper_optJson proper_asn _
    · exact proper_optJson (fun xs => proper_map proper_attrRaw xs) _
    · exact proper_optJson (fun xs => proper_map proper_attrRaw xs) _
  · exact (show ["timestamp", "type", "peer_ip", "peer_asn", "peer_bgp_id", "prefix", "next_hop", "as_path", "origin_asns", "origin", "local_pref",
      "med", "communities", "atomic", "aggr_asn", "aggr_ip", "only_to_customer", "unknown", "deprecated"].Nodup by decide)

theorem proper_route (env : JsonEnv) (nok : NumbersOk env) (e : RouteElem) : Proper (routeJson env e) := by
  refine proper_obj ?_ ?_
  · intro kv hkv
    have := (List.of_mem_zip hkv).2
    simp only [List.mem_cons, List.not_mem_nil, or_false] at this
    rcases this with h | h | h | h | h | h <;> rw [h]
    · exact (nok.time _).1
    · exact proper_elemType _
    · exact proper_text _
    · exact proper_asn _
    · exact proper_prefix env _
    · exact proper_optJson proper_path _
  · exact (show ["timestamp", "type", "peer_ip", "peer_asn", "prefix", "as_path"].Nodup by decide)


/-! ### paths, elements and routes -/

section
variable {wr : Rat → List Char} {rd : List Char → Option Rat}

/-- **C98** The text of a path is read as this path. Partial as C79: an empty sequence in the flat form is lost. -/
theorem c98_path_partial (ok : RealText wr rd) (p : AsPath) (h : Flat p → ¬ HasEmptySeq p) :
    (readJson rd (jsonText wr (asPathJson p))).bind asPathOf = some p ∧
    (readJson rd (valueText wr (asPathJson p))).bind asPathOf = some p ∧
    (readJson rd (valuePretty wr (asPathJson p))).bind asPathOf = some p := by
  have hp := proper_path p
  have h0 := c79_roundtrip_partial p h
  rw [jsonText, c98_text ok _ _ hp, (c98_value ok _ hp).1, (c98_value ok _ hp).2.1]
  simp only [Option.bind_some, stable_asPath _ hp, h0, and_self]

/-- **C98** The JSON text of an element, by `to_string` or by the command in either format, is read as this element. Partial as C80. -/
theorem c98_elem_partial (ok : RealText wr rd) (env : JsonEnv) (jok : JsonOk env) (nok : NumbersOk env) (e : BgpElem)
    (hn : e.prefix_.prefix_.len.toNat ≤ e.prefix_.prefix_.addr.maxLen) (hp : PathKept e.asPath) (hf : FloatsKept env e) :
    (readJson rd (jsonText wr (elemJson env e))).bind (elemOf env) = some e ∧
    (readJson rd (elemJsonText wr env e)).bind (elemOf env) = some e ∧
    (readJson rd (elemJsonPretty wr env e)).bind (elemOf env) = some e := by
  have hd := proper_elem env nok e
  have h0 := c80_elem_partial env jok e hn hp hf
  rw [jsonText, elemJsonText, elemJsonPretty, c98_text ok _ _ hd, (c98_value ok _ hd).1, (c98_value ok _ hd).2.1]
  simp only [Option.bind_some, stable_elem env nok _ hd, h0, and_self]

/-- **C98** The same for routes. -/
theorem c98_route_partial (ok : RealText wr rd) (env : JsonEnv) (jok : JsonOk env) (nok : NumbersOk env) (e : RouteElem)
    (hn : e.prefix_.prefix_.len.toNat ≤ e.prefix_.prefix_.addr.maxLen) (hp : PathKept e.asPath) :
    (readJson rd (jsonText wr (routeJson env e))).bind (routeOfJson env) = some e ∧
    (readJson rd (valueText wr (routeJson env e))).bind (routeOfJson env) = some e := by
  have hd := proper_route env nok e
  have h0 := c80_route_partial env jok e hn hp
  rw [jsonText, c98_text ok _ _ hd, (c98_value ok _ hd).1]
  simp only [Option.bind_some, stable_route env nok _ hd, h0, and_self]

/-! ### lines -/

theorem escape_line (c : Char) : ∀ x ∈ escapeChar c, x ≠ '\n' := by
  have hd : ∀ n : Fin 16, hexDigit n.val ≠ '\n' := by decide
  intro x hx
  unfold escapeChar at hx
  split at hx
  · intro e; subst e; exact absurd hx (by decide)
  split at hx
  · intro e; subst e; exact absurd hx (by decide)
  split at hx
  · intro e; subst e; exact absurd hx (by decide)
  split at hx
  · intro e; subst e; exact absurd hx (by decide)
  split at hx
  · intro e; subst e; exact absurd hx (by decide)
  split at hx
  · intro e; subst e; exact absurd hx (by decide)
  split at hx
  · intro e; subst e; exact absurd hx (by decide)
  split at hx
  · next h =>
    simp only [List.mem_cons, List.not_mem_nil, or_false] at hx
    rcases hx with rfl | rfl | rfl | rfl | rfl | rfl
    · decide
    · decide
    · decide
    · decide
    · exact hd ⟨c.toNat / 16, by omega⟩
    · exact hd ⟨c.toNat % 16, by omega⟩
  · next h10 _ _ _ =>
    rw [List.mem_singleton] at hx
    rintro rfl
    exact h10 (by rw [← hx]; rfl)

theorem str_line (s : String) : '\n' ∉ writeStr s := by
  intro h
  simp only [writeStr, List.mem_cons, List.mem_append, List.mem_flatMap, List.not_mem_nil, or_false] at h
  rcases h with h | ⟨c, -, hc⟩ | h
  · revert h; decide
  · exact escape_line c _ hc rfl
  · revert h; decide

theorem number_line {t : List Char} (h : t.all numberChar = true) : '\n' ∉ t := by
  intro hm
  have := List.all_eq_true.1 h _ hm
  revert this
  decide

mutual
theorem line_value (ok : RealText wr rd) : ∀ (j : Json) (d : Nat), '\n' ∉ writeJson wr .compact d j
  | .null, _ => by simp only [writeJson]; decide
  | .bool b, _ => by cases b <;> simp only [writeJson] <;> decide
  | .int (.ofNat n), _ => by simp only [writeJson]; exact number_line (dec_numberChars n)
  | .int (.negSucc n), _ => by
    simp only [writeJson]
    refine number_line ?_
    rw [List.all_cons, dec_numberChars]
    rfl
  | .float x, _ => by simp only [writeJson]; exact number_line (ok.chars x)
  | .str s, _ => by simp only [writeJson]; exact str_line s
  | .arr [], _ => by simp only [writeJson]; decide
  | .arr (x :: xs), d => by
    have h1 := line_value ok x (d + 1)
    have h2 := line_items ok xs (d + 1)
    simp only [writeJson, JsonStyle.gap, List.nil_append, List.mem_cons, List.mem_append, List.not_mem_nil, or_false, not_or]
    exact ⟨by decide, h1, h2, by decide⟩
  | .obj [], _ => by simp only [writeJson]; decide
  | .obj ((k, v) :: kvs), d => by
    have h1 := line_value ok v (d + 1)
    have h2 := line_entries ok kvs (d + 1)
    simp only [writeJson, JsonStyle.gap, JsonStyle.colon, List.nil_append, List.mem_cons, List.mem_append, List.not_mem_nil, or_false, not_or]
    exact ⟨by decide, str_line k, by decide, h1, h2, by decide⟩
theorem line_items (ok : RealText wr rd) : ∀ (xs : List Json) (d : Nat), '\n' ∉ writeItems wr .compact d xs
  | [], _ => by simp only [writeItems]; decide
  | x :: xs, d => by
    have h1 := line_value ok x d
    have h2 := line_items ok xs d
    simp only [writeItems, JsonStyle.gap, List.nil_append, List.mem_cons, List.mem_append, not_or]
    exact ⟨by decide, h1, h2⟩
theorem line_entries (ok : RealText wr rd) : ∀ (kvs : List (String × Json)) (d : Nat), '\n' ∉ writeEntries wr .compact d kvs
  | [], _ => by simp only [writeEntries]; decide
  | (k, v) :: kvs, d => by
    have h1 := line_value ok v d
    have h2 := line_entries ok kvs d
    simp only [writeEntries, JsonStyle.gap, JsonStyle.colon, List.nil_append, List.mem_cons, List.mem_append, List.not_mem_nil, or_false, not_or]
    exact ⟨by decide, str_line k, by decide, h1, h2⟩
end

/-- **C98** In the compact form a document is one line, whatever is in its strings. -/
theorem c98_one_line (ok : RealText wr rd) (j : Json) : '\n' ∉ jsonText wr j ∧ '\n' ∉ valueText wr j :=
  ⟨line_value ok j 0, line_value ok j.value 0⟩

theorem textLines_cons (l t : List Char) (h : '\n' ∉ l) : textLines (l ++ '\n' :: t) = l :: textLines t := by
  induction l with
  | nil => simp [textLines]
  | cons c l ih =>
    simp only [List.mem_cons, not_or] at h
    rw [List.cons_append, textLines, if_neg (fun e => h.1 e.symm), ih h.2]

theorem textLines_lines (ls : List (List Char)) (h : ∀ l ∈ ls, '\n' ∉ l) : textLines (linesText ls) = ls := by
  induction ls with
  | nil => rfl
  | cons l ls ih =>
    have := textLines_cons l (linesText ls) (h l (by simp))
    rw [ih fun x hx => h x (by simp [hx])] at this
    refine Eq.trans (congrArg textLines ?_) this
    simp [linesText]

/-- what is kept by the JSON form of an element (C80). -/
structure ElemKept (env : JsonEnv) (e : BgpElem) : Prop where
  net : e.prefix_.prefix_.len.toNat ≤ e.prefix_.prefix_.addr.maxLen
  path : PathKept e.asPath
  floats : FloatsKept env e

theorem lines_elems (ok : RealText wr rd) (env : JsonEnv) (jok : JsonOk env) (nok : NumbersOk env) (sh : ShowEnv) (oe : OutEnv)
    (ho : oe.elemJson = elemJsonText wr env) (es : List BgpElem) (h : ∀ e ∈ es, ElemKept env e) :
    (textLines (linesText (elemLines sh oe .json es))).mapM (fun l => (readJson rd l).bind (elemOf env)) = some es := by
  have h0 : elemLines sh oe .json es = es.map (elemJsonText wr env) := by
    simp only [elemLines, reduceCtorEq, false_and, if_false, List.nil_append]
    refine List.map_congr_left fun e _ => ?_
    rw [elemLine, ho]
  rw [h0, textLines_lines _ (fun l hl => by
    obtain ⟨e, -, rfl⟩ := List.mem_map.1 hl
    exact (c98_one_line ok (elemJson env e)).2)]
  induction es with
  | nil => rfl
  | cons e es ih =>
    have he := h e (by simp)
    rw [List.map_cons, List.mapM_cons, (c98_elem_partial ok env jok nok e he.net he.path he.floats).2.1,
      ih (fun x hx => h x (by simp [hx])) (by
        simp only [elemLines, reduceCtorEq, false_and, if_false, List.nil_append]
        refine List.map_congr_left fun e _ => ?_
        rw [elemLine, ho])]
    rfl

/-- **C98** What the command writes in the JSON format, cut into lines and each line read as JSON, is the list of elements: all of
them, or those before a write was refused. Partial as C80. -/
theorem c98_command_partial (ok : RealText wr rd) (env : JsonEnv) (jok : JsonOk env) (nok : NumbersOk env) (sh : ShowEnv) (oe : OutEnv)
    (ho : oe.elemJson = elemJsonText wr env) (w : Nat → WriteRes) (recovering : Bool) (evs : List (Except ε (Event BgpElem)))
    (h : ∀ e ∈ shownItems evs, ElemKept env e) :
    ∃ k, k ≤ (shownItems evs).length ∧ (∀ i < k, w i = .ok) ∧ (k = (shownItems evs).length ∨ w k ≠ .ok) ∧
      (textLines (stdoutOf (runElems sh oe w .json false recovering evs))).mapM (fun l => (readJson rd l).bind (elemOf env)) =
        some ((shownItems evs).take k) := by
  have hk : ∀ k, ∀ e ∈ (shownItems evs).take k, ElemKept env e := fun k e he => h e (List.mem_of_mem_take he)
  rcases c85_elements sh oe w .json (by decide) recovering evs with ⟨h1, h2, -⟩ | ⟨k, h1, h2, h3, h4, -⟩
  · exact ⟨_, Nat.le_refl _, h1, .inl rfl, by rw [h2, lines_elems ok env jok nok sh oe ho _ (hk _)]⟩
  · refine ⟨k, by omega, h2, .inr ?_, by rw [h3, lines_elems ok env jok nok sh oe ho _ (hk _)]⟩
    rcases h4 with ⟨h4, -⟩ | ⟨h4, -⟩ <;> rw [h4] <;> decide

/-! ### messages of a RIS Live client -/

theorem shows_value {kvs : List (String × Json)} (hn : (kvs.map (·.1)).Nodup) {k : String} {o : Option Json} (h : ShowsKey kvs k o) :
    ShowsKey (valueEntries kvs []) k (o.map Json.value) := by
  cases o with
  | none => exact entry_eq_none.mp (by rw [entry_value kvs k hn, entry_eq_none.mpr h]; rfl)
  | some j => exact entry_eq_some.mp (by rw [entry_value kvs k hn, entry_eq_some.mpr h]; rfl)

theorem entryOf_keys (k : String) (f : α → Json) (o : Option α) : ((entryOf k f o).map (·.1)).Sublist [k] := by
  cases o <;> simp [entryOf]

theorem options_keys (o : SocketOptions) : ∃ kvs, o.json = .obj kvs ∧ (kvs.map (·.1)).Nodup := by
  refine ⟨_, rfl, ?_⟩
  rw [List.map_append]
  exact ((entryOf_keys ..).append (entryOf_keys ..)).nodup (show ["includeRaw", "acknowledge"].Nodup by decide)

theorem proper_entryOf (k : String) {f : α → Json} (h : ∀ x, Proper (f x)) (o : Option α) : ∀ kv ∈ entryOf k f o, Proper kv.2 := by
  cases o with
  | none => intro kv h; cases h
  | some x => intro kv hkv; rw [List.mem_singleton.1 hkv]; exact h x

theorem proper_options (o : SocketOptions) : Proper o.json := by
  have hb : ∀ b, Proper (.bool b) := fun b => by simp only [Proper]
  obtain ⟨kvs, h1, h2⟩ := options_keys o
  rw [h1]
  refine proper_obj ?_ h2
  cases h1
  intro kv hkv
  rcases List.mem_append.1 hkv with h | h
  · exact proper_entryOf _ hb _ kv h
  · exact proper_entryOf _ hb _ kv h

theorem proper_subscribe (env : ShowEnv) (s : Subscribe) : ∃ kvs, s.json env = .obj kvs ∧ (∀ kv ∈ kvs, Proper kv.2) ∧ (kvs.map (·.1)).Nodup := by
  have hb : ∀ b, Proper (.bool b) := fun b => by simp only [Proper]
  refine ⟨_, rfl, ?_, ?_⟩
  · intro kv hkv
    simp only [List.mem_append] at hkv
    rcases hkv with (((((((h | h) | h) | h) | h) | h) | h) | h) | h
    · exact proper_entryOf _ proper_str _ kv h
    · exact proper_entryOf _ (fun t => proper_str _) _ kv h
    · exact proper_entryOf _ proper_str _ kv h
    · exact proper_entryOf _ (fun t => proper_text _) _ kv h
    · exact proper_entryOf _ proper_str _ kv h
    · exact proper_entryOf _ (fun t => proper_text _) _ kv h
    · exact proper_entryOf _ hb _ kv h
    · exact proper_entryOf _ hb _ kv h
    · exact proper_entryOf _ proper_options _ kv h
  · simp only [List.map_append]
    exact (((((((((entryOf_keys ..).append (entryOf_keys ..)).append (entryOf_keys ..)).append (entryOf_keys ..)).append (entryOf_keys ..)).append
      (entryOf_keys ..)).append (entryOf_keys ..)).append (entryOf_keys ..)).append (entryOf_keys ..)).nodup
      (show ["host", "type", "require", "peer", "path", "prefix", "moreSpecific", "lessSpecific", "socketOptions"].Nodup by decide)

theorem map_scalar {f : α → Json} (h : ∀ x, (f x).value = f x) (o : Option α) : (o.map f).map Json.value = o.map f := by
  cases o with
  | none => rfl
  | some x => simp only [Option.map_some, h]

theorem subscribe_value (env : ShowEnv) (ops : List SubscribeOp) : ∃ kvs kvs', (ops.foldl Subscribe.set Subscribe.new).json env = .obj kvs ∧
    Proper (.obj kvs) ∧ (Json.obj kvs).value = .obj kvs' ∧ SubscribeDoc env ops kvs' := by
  obtain ⟨kvs, h1, h2⟩ := c83_subscription env ops
  obtain ⟨kvs0, h3, h4, h5⟩ := proper_subscribe env (ops.foldl Subscribe.set Subscribe.new)
  rw [h1] at h3
  cases h3
  have hs : ∀ s, (Json.str s).value = .str s := fun s => by simp only [Json.value]
  have hb : ∀ s, (Json.bool s).value = .bool s := fun s => by simp only [Json.value]
  refine ⟨kvs, _, h1, proper_obj h4 h5, value_obj_eq kvs, ?_⟩
  constructor
  case host => rw [← map_scalar hs]; exact shows_value h5 h2.host
  case type => rw [← map_scalar (fun _ => hs _)]; exact shows_value h5 h2.type
  case require => rw [← map_scalar hs]; exact shows_value h5 h2.require
  case peer => rw [← map_scalar (fun _ => hs _)]; exact shows_value h5 h2.peer
  case path => rw [← map_scalar hs]; exact shows_value h5 h2.path
  case prefix_ => rw [← map_scalar (fun _ => hs _)]; exact shows_value h5 h2.prefix_
  case more => rw [← map_scalar hb]; exact shows_value h5 h2.more
  case less => rw [← map_scalar hb]; exact shows_value h5 h2.less
  case noOptions => intro a b; exact shows_value (o := none) h5 (h2.noOptions a b)
  case options =>
    intro h
    obtain ⟨os, g1, g2, g3, g4⟩ := h2.options h
    have ho : (os.map (·.1)).Nodup := by
      obtain ⟨a, b, e, -, -⟩ := g1
      have := h4 ("socketOptions", .obj os) (by rw [e]; simp)
      simp only [Proper] at this
      exact ((properEntries_iff os).1 this).2
    refine ⟨valueEntries os [], ?_, ?_, ?_, ?_⟩
    · have := shows_value (o := some (.obj os)) h5 g1
      rwa [Option.map_some, value_obj_eq] at this
    · rw [← map_scalar hb]; exact shows_value ho g2
    · rw [← map_scalar hb]; exact shows_value ho g3
    · intro kv hkv
      obtain ⟨x, hx, rfl⟩ := List.mem_map.1 ((value_perm os ho).mem_iff.1 hkv)
      exact g4 x hx
  case only =>
    intro kv hkv
    obtain ⟨x, hx, rfl⟩ := List.mem_map.1 ((value_perm kvs h5).mem_iff.1 hkv)
    exact h2.only x hx

theorem message_read (ok : RealText wr rd) (env : ShowEnv) (m : ClientMessage) (t : String) (d : Json) (hm : m.json env = .obj [("type", .str t), ("data", d)])
    (hd : Proper d) : ∃ kvs, readJson rd (m.text wr env) = some (.obj kvs) ∧ HasEntry kvs "type" (.str t) ∧ HasEntry kvs "data" d.value ∧
      kvs.length = 2 := by
  have hn : ([("type", Json.str t), ("data", d)].map (·.1)).Nodup := by simp
  have hp : Proper (m.json env) := by
    rw [hm]
    refine proper_obj ?_ hn
    intro kv hkv
    simp only [List.mem_cons, List.not_mem_nil, or_false] at hkv
    rcases hkv with rfl | rfl
    · exact proper_str t
    · exact hd
  refine ⟨valueEntries [("type", .str t), ("data", d)] [], ?_, ?_, ?_, ?_⟩
  · rw [ClientMessage.text, (c98_value ok _ hp).1, hm, value_obj_eq]
  · have := shows_value (k := "type") (o := some (.str t)) hn (entry_eq_some.mp rfl)
    simp only [Option.map_some, Json.value] at this
    exact this
  · exact shows_value (k := "data") (o := some d) hn (entry_eq_some.mp rfl)
  · rw [(value_perm _ hn).length_eq]; rfl

/-- **C98** The text that a RIS Live client sends is read by the server as a message of the right kind, whose data is exactly what the
calls asked for (C83), whatever characters are in the arguments. -/
theorem c98_client (ok : RealText wr rd) (env : ShowEnv) (ops : List SubscribeOp) (names : List String) :
    ∃ t1 t2 t3 t4 kvs, readJson rd ((ClientMessage.subscribe (ops.foldl Subscribe.set Subscribe.new)).text wr env) = some (.obj t1) ∧
      readJson rd ((ClientMessage.unsubscribe (ops.foldl Subscribe.set Subscribe.new)).text wr env) = some (.obj t2) ∧
      readJson rd (ClientMessage.ping.text wr env) = some (.obj t3) ∧
      readJson rd ((ClientMessage.requestRrcList names).text wr env) = some (.obj t4) ∧ SubscribeDoc env ops kvs ∧
      HasEntry t1 "type" (.str "ris_subscribe") ∧ HasEntry t1 "data" (.obj kvs) ∧
      HasEntry t2 "type" (.str "ris_unsubscribe") ∧ HasEntry t2 "data" (.obj kvs) ∧
      HasEntry t3 "type" (.str "ping") ∧ HasEntry t3 "data" .null ∧
      HasEntry t4 "type" (.str "request_rrc_list") ∧ HasEntry t4 "data" (.arr (names.map .str)) ∧
      t1.length = 2 ∧ t2.length = 2 ∧ t3.length = 2 ∧ t4.length = 2 := by
  obtain ⟨kvs, kvs', h1, h2, h3, h4⟩ := subscribe_value env ops
  obtain ⟨t1, a1, a2, a3, a4⟩ := message_read ok env (.subscribe (ops.foldl Subscribe.set Subscribe.new)) "ris_subscribe" (.obj kvs)
    (by rw [ClientMessage.json, h1]) h2
  obtain ⟨t2, b1, b2, b3, b4⟩ := message_read ok env (.unsubscribe (ops.foldl Subscribe.set Subscribe.new)) "ris_unsubscribe" (.obj kvs)
    (by rw [ClientMessage.json, h1]) h2
  obtain ⟨t3, c1, c2, c3, c4⟩ := message_read ok env .ping "ping" .null rfl (by simp only [Proper])
  obtain ⟨t4, d1, d2, d3, d4⟩ := message_read ok env (.requestRrcList names) "request_rrc_list" (.arr (names.map .str)) rfl (proper_map proper_str names)
  rw [h3] at a3 b3
  rw [show Json.null.value = .null by simp only [Json.value]] at c3
  rw [value_arr_eq, List.map_map, show Json.value ∘ Json.str = Json.str from funext fun s => by simp only [Function.comp_apply, Json.value]] at d3
  exact ⟨t1, t2, t3, t4, kvs', a1, b1, c1, d1, h4, a2, a3, b2, b3, c2, c3, d2, d3, a4, b4, c4, d4⟩

end

/-! ### examples -/

/-- the assumptions on the texts of real numbers can be met. -/
theorem realText_met : ∃ wr rd, RealText wr rd := by
  let enc : Rat → List Char := fun x => List.replicate x.den '.' ++ (List.replicate x.num.natAbs '1' ++ if x.num < 0 then ['-'] else [])
  have hinj : ∀ x y, enc x = enc y → x = y := by
    intro x y h
    have h1 := congrArg (List.count '.') h
    have h2 := congrArg (List.count '1') h
    have h3 := congrArg (List.count '-') h
    have e : ∀ (c : Char) (z : Rat), List.count c (enc z) = (if c = '.' then z.den else 0) + ((if c = '1' then z.num.natAbs else 0) + if z.num < 0 ∧ c = '-' then 1 else 0) := by
      intro c z
      simp only [enc, List.count_append, List.count_replicate]
      by_cases h1 : z.num < 0 <;> by_cases h2 : c = '-' <;> simp [h1, h2, beq_iff_eq, eq_comm (b := c)]
    simp only [e] at h1 h2 h3
    simp at h1 h2 h3
    refine Rat.ext ?_ h1
    by_cases a : x.num < 0 <;> by_cases b : y.num < 0 <;> simp [a, b] at h3 <;> omega
  refine ⟨enc, fun t => open Classical in if h : ∃ x, enc x = t then some h.choose else none, ?_, ?_, ?_⟩
  · intro x
    simp only [enc, List.all_append, List.all_replicate, Bool.and_eq_true]
    refine ⟨by split <;> decide, by split <;> decide, by split <;> decide⟩
  · intro x
    have : x.den ≠ 0 := x.den_nz
    simp only [enc, List.all_append, List.all_replicate, if_neg this]
    rfl
  · intro x _
    have h : ∃ y, enc y = enc x := ⟨x, rfl⟩
    simp only [dif_pos h]
    exact congrArg some (hinj _ _ h.choose_spec)

/-- the two options do not displace each other, and quotes and newlines are escaped. -/
example (env : ShowEnv) (wr : Rat → List Char) :
    (ClientMessage.subscribe ([SubscribeOp.includeRaw true, .host "a\"\n", .acknowledge true].foldl Subscribe.set Subscribe.new)).text wr env =
      "{\"data\":{\"host\":\"a\\\"\\n\",\"socketOptions\":{\"acknowledge\":true,\"includeRaw\":true}},\"type\":\"ris_subscribe\"}".toList := by
  rfl


/-- an environment whose times are doubles. -/
noncomputable def textEnv : JsonEnv := { jsonEnv with
  time := fun t => .float ((2 ^ t : Nat) : Rat)
  timeOf := invOf fun t : Nat => Json.float ((2 ^ t : Nat) : Rat) }

theorem textEnv_time (x y : Nat) (h : Json.float ((2 ^ x : Nat) : Rat) = Json.float ((2 ^ y : Nat) : Rat)) : x = y := by
  simp only [Json.float.injEq] at h
  have h2 : (2 ^ x : Nat) = 2 ^ y := Rat.natCast_inj.1 h
  exact Nat.pow_right_inj (by decide : 1 < 2) |>.1 h2

theorem textEnv_ok : JsonOk textEnv where
  ip := jsonEnv_ok.ip
  v4 := jsonEnv_ok.v4
  v6 := jsonEnv_ok.v6
  net := jsonEnv_ok.net
  time := invOf_eq textEnv_time

theorem textEnv_numbers : NumbersOk textEnv where
  time t := ⟨by simp only [textEnv, Proper]; exact ⟨1, t, by decide, .inl (by simp)⟩, .inr ⟨_, rfl⟩⟩
  f32 r := by
    simp only [textEnv, jsonEnv]
    split
    · exact ⟨by simp only [Proper], .inr rfl⟩
    · have := r.toNat_lt
      exact ⟨by simp only [Proper]; omega, .inl (.inl ⟨_, rfl⟩)⟩
  timeOf j t h := by
    simp only [textEnv, invOf] at h
    split at h
    · next e => obtain ⟨x, rfl⟩ := e; exact .inr ⟨_, rfl⟩
    · cases h
  f32Of j r h := by
    simp only [textEnv, jsonEnv] at h
    cases j <;> simp [Json.u32, Json.natBelow] at h
    exact .inl ⟨_, rfl⟩

/-- An element with communities, through its text. -/
example : ∃ wr rd, ∀ t, t = elemJsonText wr textEnv exShown ∨ t = elemJsonPretty wr textEnv exShown → (readJson rd t).bind (elemOf textEnv) = some exShown := by
  obtain ⟨wr, rd, ok⟩ := realText_met
  have := c98_elem_partial ok textEnv textEnv_ok textEnv_numbers exShown (by decide) ?_ ?_
  · refine ⟨wr, rd, ?_⟩
    rintro t (rfl | rfl)
    · exact this.2.1
    · exact this.2.2
  · intro q hq _
    simp only [exShown, Option.some.injEq] at hq
    subst hq
    simp [HasEmptySeq]
  · intro cs hcs c hc r hr
    simp only [exShown, Option.some.injEq] at hcs
    subst hcs
    simp only [List.mem_cons, List.not_mem_nil, or_false] at hc
    rcases hc with rfl | rfl | rfl <;> simp [communityFloat] at hr
    subst hr
    exact jsonEnv_f32 0 (by unfold FiniteF32; decide)

end Verif.Props
