import Verif.Model.MrtBody
import Verif.Spec.Utf8
/-
The check for UTF-8 that peer tables, GEO peer tables and Error Reports use accepts exactly the UTF-8 strings.
-/
namespace Verif.Props
open Verif Spec

theorem u8ofNat_toNat {n : Nat} (h : n < 256) : (UInt8.ofNat n).toNat = n := by simp; omega

theorem u8_eq_ofNat {b : UInt8} {n : Nat} (h : b.toNat = n) : b = UInt8.ofNat n := by
  rw [← h, UInt8.ofNat_toNat]

theorem utf8_step (c : Nat) (r : Bytes) (h : IsScalar c) : utf8Ok (utf8Char c ++ r) = utf8Ok r := by
  unfold IsScalar at h
  unfold utf8Char
  by_cases h1 : c < 0x80
  · rw [if_pos h1]
    simp only [List.cons_append, List.nil_append]
    rw [utf8Ok.eq_def]; dsimp only; rw [if_pos (by rw [u8ofNat_toNat (by omega)]; omega)]
  rw [if_neg h1]
  by_cases h2 : c < 0x800
  · rw [if_pos h2]
    simp only [List.cons_append, List.nil_append]
    have e1 := u8ofNat_toNat (n := 0xC0 + c / 64) (by omega)
    have e2 := u8ofNat_toNat (n := 0x80 + c % 64) (by omega)
    rw [utf8Ok.eq_def]; dsimp only; rw [e1, if_neg (by omega), if_pos (by omega)]
    simp only [e2]
    have a1 : decide (0x80 ≤ 0x80 + c % 64) = true := by simp
    have a2 : decide (0x80 + c % 64 ≤ 0xBF) = true := by simp; omega
    rw [a1, a2]; rfl
  rw [if_neg h2]
  by_cases h3 : c < 0x10000
  · rw [if_pos h3]
    simp only [List.cons_append, List.nil_append]
    have e1 := u8ofNat_toNat (n := 0xE0 + c / 4096) (by omega)
    have e2 := u8ofNat_toNat (n := 0x80 + c / 64 % 64) (by omega)
    have e3 := u8ofNat_toNat (n := 0x80 + c % 64) (by omega)
    rw [utf8Ok.eq_def]; dsimp only; rw [e1, if_neg (by omega), if_neg (by omega), if_pos (by omega)]
    simp only [e2, e3]
    have a1 : decide ((if UInt8.ofNat (0xE0 + c / 4096) = 0xE0 then 0xA0 else 0x80) ≤ 0x80 + c / 64 % 64) = true := by
      simp only [decide_eq_true_eq]
      split
      · rename_i q
        have := congrArg UInt8.toNat q
        rw [e1] at this
        have k : (0xE0 : UInt8).toNat = 0xE0 := rfl
        omega
      · omega
    have a2 : decide (0x80 + c / 64 % 64 ≤ (if UInt8.ofNat (0xE0 + c / 4096) = 0xED then 0x9F else 0xBF)) = true := by
      simp only [decide_eq_true_eq]
      split
      · rename_i q
        have := congrArg UInt8.toNat q
        rw [e1] at this
        have k : (0xED : UInt8).toNat = 0xED := rfl
        omega
      · omega
    have a3 : decide (0x80 ≤ 0x80 + c % 64) = true := by simp
    have a4 : decide (0x80 + c % 64 ≤ 0xBF) = true := by simp; omega
    rw [a1, a2, a3, a4]; rfl
  · rw [if_neg h3]
    simp only [List.cons_append, List.nil_append]
    have e1 := u8ofNat_toNat (n := 0xF0 + c / 262144) (by omega)
    have e2 := u8ofNat_toNat (n := 0x80 + c / 4096 % 64) (by omega)
    have e3 := u8ofNat_toNat (n := 0x80 + c / 64 % 64) (by omega)
    have e4 := u8ofNat_toNat (n := 0x80 + c % 64) (by omega)
    rw [utf8Ok.eq_def]; dsimp only; rw [e1, if_neg (by omega), if_neg (by omega), if_neg (by omega), if_pos (by omega)]
    simp only [e2, e3, e4]
    have a1 : decide ((if UInt8.ofNat (0xF0 + c / 262144) = 0xF0 then 0x90 else 0x80) ≤ 0x80 + c / 4096 % 64) = true := by
      simp only [decide_eq_true_eq]
      split
      · rename_i q
        have := congrArg UInt8.toNat q
        rw [e1] at this
        have k : (0xF0 : UInt8).toNat = 0xF0 := rfl
        omega
      · omega
    have a2 : decide (0x80 + c / 4096 % 64 ≤ (if UInt8.ofNat (0xF0 + c / 262144) = 0xF4 then 0x8F else 0xBF)) = true := by
      simp only [decide_eq_true_eq]
      split
      · rename_i q
        have := congrArg UInt8.toNat q
        rw [e1] at this
        have k : (0xF4 : UInt8).toNat = 0xF4 := rfl
        omega
      · omega
    have a3 : decide (0x80 ≤ 0x80 + c / 64 % 64) = true := by simp
    have a4 : decide (0x80 + c / 64 % 64 ≤ 0xBF) = true := by simp; omega
    have a5 : decide (0x80 ≤ 0x80 + c % 64) = true := by simp
    have a6 : decide (0x80 + c % 64 ≤ 0xBF) = true := by simp; omega
    rw [a1, a2, a3, a4, a5, a6]; rfl

theorem isUtf8_cons {c : Nat} {r : Bytes} (hc : IsScalar c) (hr : IsUtf8 r) : IsUtf8 (utf8Char c ++ r) := by
  obtain ⟨cs, h1, rfl⟩ := hr
  refine ⟨c :: cs, ?_, by simp⟩
  intro x hx
  rcases List.mem_cons.1 hx with rfl | hx
  · exact hc
  · exact h1 x hx

theorem utf8_split : ∀ (n : Nat) (b : Bytes), b.length ≤ n → utf8Ok b = true → IsUtf8 b := by
  intro n
  induction n with
  | zero =>
    intro b hb _
    have : b = [] := by cases b <;> simp at hb ⊢
    subst this
    exact ⟨[], by simp, rfl⟩
  | succ n ih =>
    intro b hb h
    cases b with
    | nil => exact ⟨[], by simp, rfl⟩
    | cons a r =>
      rw [utf8Ok.eq_def] at h
      dsimp only at h
      have ha := a.toNat_lt
      by_cases h1 : a.toNat < 0x80
      · rw [if_pos h1] at h
        have := isUtf8_cons (c := a.toNat) (.inl (by omega)) (ih r (by simpa using hb) h)
        rw [utf8Char, if_pos h1, UInt8.ofNat_toNat] at this
        exact this
      rw [if_neg h1] at h
      by_cases h2 : 0xC2 ≤ a.toNat ∧ a.toNat ≤ 0xDF
      · rw [if_pos h2] at h
        match r, h with
        | b :: r, h =>
          simp only [Bool.and_eq_true, decide_eq_true_eq] at h
          obtain ⟨⟨h3, h4⟩, h5⟩ := h
          generalize hN : (a.toNat - 0xC0) * 64 + (b.toNat - 0x80) = N
          have := isUtf8_cons (c := N) (.inl (by omega))
            (ih r (by simp at hb ⊢; omega) h5)
          rw [utf8Char, if_neg (by omega), if_pos (by omega)] at this
          rw [u8_eq_ofNat (b := a) (n := 0xC0 + N / 64) (by omega),
            u8_eq_ofNat (b := b) (n := 0x80 + N % 64) (by omega)]
          exact this
      rw [if_neg h2] at h
      by_cases h3 : 0xE0 ≤ a.toNat ∧ a.toNat ≤ 0xEF
      · rw [if_pos h3] at h
        match r, h with
        | b :: c :: r, h =>
          simp only [Bool.and_eq_true, decide_eq_true_eq] at h
          obtain ⟨⟨⟨⟨h4, h5⟩, h6⟩, h7⟩, h8⟩ := h
          have g4 : 0x80 ≤ b.toNat ∧ (a.toNat = 0xE0 → 0xA0 ≤ b.toNat) := by
            split at h4
            · omega
            · rename_i q
              refine ⟨by omega, fun g => (q (UInt8.toNat_inj.mp (by rw [g]; rfl))).elim⟩
          have g5 : b.toNat ≤ 0xBF ∧ (a.toNat = 0xED → b.toNat ≤ 0x9F) := by
            split at h5
            · omega
            · rename_i q
              refine ⟨by omega, fun g => (q (UInt8.toNat_inj.mp (by rw [g]; rfl))).elim⟩
          generalize hN : (a.toNat - 0xE0) * 4096 + (b.toNat - 0x80) * 64 + (c.toNat - 0x80) = N
          have := isUtf8_cons (c := N) (by unfold IsScalar; omega)
            (ih r (by simp at hb ⊢; omega) h8)
          rw [utf8Char, if_neg (by omega), if_neg (by omega), if_pos (by omega)] at this
          rw [u8_eq_ofNat (b := a) (n := 0xE0 + N / 4096) (by omega),
            u8_eq_ofNat (b := b) (n := 0x80 + N / 64 % 64) (by omega),
            u8_eq_ofNat (b := c) (n := 0x80 + N % 64) (by omega)]
          exact this
      rw [if_neg h3] at h
      by_cases h4 : 0xF0 ≤ a.toNat ∧ a.toNat ≤ 0xF4
      · rw [if_pos h4] at h
        match r, h with
        | b :: c :: d :: r, h =>
          simp only [Bool.and_eq_true, decide_eq_true_eq] at h
          obtain ⟨⟨⟨⟨⟨⟨k1, k2⟩, k3⟩, k4⟩, k5⟩, k6⟩, k7⟩ := h
          have g4 : 0x80 ≤ b.toNat ∧ (a.toNat = 0xF0 → 0x90 ≤ b.toNat) := by
            split at k1
            · omega
            · rename_i q
              refine ⟨by omega, fun g => (q (UInt8.toNat_inj.mp (by rw [g]; rfl))).elim⟩
          have g5 : b.toNat ≤ 0xBF ∧ (a.toNat = 0xF4 → b.toNat ≤ 0x8F) := by
            split at k2
            · omega
            · rename_i q
              refine ⟨by omega, fun g => (q (UInt8.toNat_inj.mp (by rw [g]; rfl))).elim⟩
          generalize hN : (a.toNat - 0xF0) * 262144 + (b.toNat - 0x80) * 4096 + (c.toNat - 0x80) * 64 + (d.toNat - 0x80) = N
          have := isUtf8_cons (c := N) (by unfold IsScalar; omega) (ih r (by simp at hb ⊢; omega) k7)
          rw [utf8Char, if_neg (by omega), if_neg (by omega), if_neg (by omega)] at this
          rw [u8_eq_ofNat (b := a) (n := 0xF0 + N / 262144) (by omega),
            u8_eq_ofNat (b := b) (n := 0x80 + N / 4096 % 64) (by omega),
            u8_eq_ofNat (b := c) (n := 0x80 + N / 64 % 64) (by omega),
            u8_eq_ofNat (b := d) (n := 0x80 + N % 64) (by omega)]
          exact this
      · rw [if_neg h4] at h; cases h

/-- C26, C40, C58: the strings accepted as UTF-8 are exactly the UTF-8 strings. -/
theorem utf8_exact (b : Bytes) : utf8Ok b = true ↔ IsUtf8 b := by
  constructor
  · exact utf8_split b.length b (Nat.le_refl _)
  · rintro ⟨cs, h, rfl⟩
    induction cs with
    | nil => rfl
    | cons c cs ih =>
      rw [List.flatMap_cons, utf8_step _ _ (h c (by simp))]
      exact ih fun x hx => h x (by simp [hx])

/-- `é`, `€`, a smiley; a surrogate and an overlong slash are refused. -/
example : IsUtf8 [0x63, 0xC3, 0xA9, 0xE2, 0x82, 0xAC, 0xF0, 0x9F, 0x98, 0x80] ∧ ¬ IsUtf8 [0xED, 0xA0, 0x80] ∧ ¬ IsUtf8 [0xC0, 0xAF] := by
  rw [← utf8_exact, ← utf8_exact, ← utf8_exact]; decide

/-- C58: the name of a GEO peer table, taken octet by octet, is always UTF-8. -/
theorem latin1_utf8 (s : Bytes) : IsUtf8 (latin1 s) := by
  refine ⟨s.map UInt8.toNat, ?_, ?_⟩
  · intro c hc
    obtain ⟨b, -, rfl⟩ := List.mem_map.1 hc
    have := b.toNat_lt
    exact .inl (by omega)
  · induction s with
    | nil => rfl
    | cons b s ih =>
      simp only [latin1, List.flatMap_cons, List.map_cons] at ih ⊢
      rw [ih]
      congr 1
      have := b.toNat_lt
      by_cases h : b.toNat < 0x80
      · rw [if_pos h, utf8Char, if_pos h, UInt8.ofNat_toNat]
      · rw [if_neg h, utf8Char, if_neg h, if_pos (by omega)]

end Verif.Props
