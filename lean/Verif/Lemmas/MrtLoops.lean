import Verif.Lemmas.MrtIter
/-
Whole iterations.
-/
namespace Verif
open Spec

/-! ### from readers to deliveries -/

/-- the reader is at this point of a delivery. -/
def At (k : Option Bool) (s : Src) (t : List Tok) : Prop := toks s.evs = t ∧ s.stuck = k

theorem At.self (s : Src) : At s.stuck s (toks s.evs) := ⟨rfl, rfl⟩

theorem loop_raw (cd : Bool) (pol : Pol) (k : Option Bool) (n : Nat) (s : Src) (t : List Tok) (h : At k s t) :
    (forLoop (rawIter cd pol) n s).1 = (forLoop (rawT cd k) n t).1 ∧
    (forLoop (rawIter cd pol) n s).2.1 = (forLoop (rawT cd k) n t).2.1 ∧
    At k (forLoop (rawIter cd pol) n s).2.2 (forLoop (rawT cd k) n t).2.2 := by
  have := forLoop_sim (next := rawIter cd pol) (next' := rawT cd k) (At k) (· = ·) (by
    rintro s t ⟨rfl, rfl⟩
    obtain ⟨s', h1, h2, h3⟩ := rawNext_eq cd pol (s.size + 1) s (by have := toks_length s; omega)
    unfold rawIter
    rw [h1]
    refine ⟨⟨h2, h3⟩, ?_⟩
    cases (rawT cd s.stuck (toks s.evs)).1 <;> simp) n s t h
  exact ⟨Pairwise2_eq this.1, this.2⟩

theorem loop_default (f : Keep σ) (cd : Bool) (pol : Pol) (k : Option Bool) (n : Nat) (q : σ) (s : Src) (t : List Tok)
    (h : At k s t) :
    (forLoop (defaultIter f cd pol) n (q, s)).1 = (forLoop (fun p => defaultT f cd k p.1 p.2) n (q, t)).1 ∧
    (forLoop (defaultIter f cd pol) n (q, s)).2.1 = (forLoop (fun p => defaultT f cd k p.1 p.2) n (q, t)).2.1 ∧
    (forLoop (defaultIter f cd pol) n (q, s)).2.2.1 = (forLoop (fun p => defaultT f cd k p.1 p.2) n (q, t)).2.2.1 ∧
    At k (forLoop (defaultIter f cd pol) n (q, s)).2.2.2 (forLoop (fun p => defaultT f cd k p.1 p.2) n (q, t)).2.2.2 := by
  have := forLoop_sim (next := defaultIter f cd pol) (next' := fun p : σ × List Tok => defaultT f cd k p.1 p.2)
    (fun a b => a.1 = b.1 ∧ At k a.2 b.2) (· = ·) (by
    rintro ⟨q, s⟩ ⟨q', t⟩ ⟨rfl, rfl, rfl⟩
    simp only
    obtain ⟨s', h1, h2, h3⟩ := defaultNext_eq f cd pol (s.size + 1) q s (by have := toks_length s; omega)
    unfold defaultIter
    rw [h1]
    refine ⟨⟨rfl, h2, h3⟩, ?_⟩
    cases (defaultT f cd s.stuck q (toks s.evs)).1 <;> simp) n (q, s) (q, t) ⟨rfl, h⟩
  exact ⟨Pairwise2_eq this.1, this.2.1, this.2.2.1, this.2.2.2⟩

theorem loop_fallible (f : Keep σ) (pol : Pol) (k : Option Bool) (n : Nat) (q : σ) (s : Src) (t : List Tok)
    (h : At k s t) :
    (forLoop (fallibleIter f pol) n (q, s)).1 = (forLoop (fun p => fallibleT f k p.1 p.2) n (q, t)).1 ∧
    (forLoop (fallibleIter f pol) n (q, s)).2.1 = (forLoop (fun p => fallibleT f k p.1 p.2) n (q, t)).2.1 ∧
    (forLoop (fallibleIter f pol) n (q, s)).2.2.1 = (forLoop (fun p => fallibleT f k p.1 p.2) n (q, t)).2.2.1 ∧
    At k (forLoop (fallibleIter f pol) n (q, s)).2.2.2 (forLoop (fun p => fallibleT f k p.1 p.2) n (q, t)).2.2.2 := by
  have := forLoop_sim (next := fallibleIter f pol) (next' := fun p : σ × List Tok => fallibleT f k p.1 p.2)
    (fun a b => a.1 = b.1 ∧ At k a.2 b.2) (· = ·) (by
    rintro ⟨q, s⟩ ⟨q', t⟩ ⟨rfl, rfl, rfl⟩
    simp only
    obtain ⟨s', h1, h2, h3⟩ := fallibleNext_eq f pol (s.size + 1) q s (by have := toks_length s; omega)
    unfold fallibleIter
    rw [h1]
    refine ⟨⟨rfl, h2, h3⟩, ?_⟩
    cases (fallibleT f s.stuck q (toks s.evs)).1 <;> simp) n (q, s) (q, t) ⟨rfl, h⟩
  exact ⟨Pairwise2_eq this.1, this.2.1, this.2.2.1, this.2.2.2⟩

theorem loop_filtered (f : Keep σ) (cd : Bool) (pol : Pol) (k : Option Bool) (n : Nat) (q : σ) (s : Src) (t : List Tok)
    (h : At k s t) :
    Pairwise2 (fun (x : Raw × MrtRecord) r => x.2 = r ∧ x.1.parse = .ok r ∧ Frame x.1 x.1.bytes)
      (forLoop (filteredRawIter f cd pol) n (q, s)).1 (forLoop (fun p => defaultT f cd k p.1 p.2) n (q, t)).1 ∧
    (forLoop (filteredRawIter f cd pol) n (q, s)).2.1 = (forLoop (fun p => defaultT f cd k p.1 p.2) n (q, t)).2.1 ∧
    (forLoop (filteredRawIter f cd pol) n (q, s)).2.2.1 = (forLoop (fun p => defaultT f cd k p.1 p.2) n (q, t)).2.2.1 ∧
    At k (forLoop (filteredRawIter f cd pol) n (q, s)).2.2.2 (forLoop (fun p => defaultT f cd k p.1 p.2) n (q, t)).2.2.2 := by
  have := forLoop_sim (next := filteredRawIter f cd pol) (next' := fun p : σ × List Tok => defaultT f cd k p.1 p.2)
    (fun a b => a.1 = b.1 ∧ At k a.2 b.2)
    (fun (x : Raw × MrtRecord) r => x.2 = r ∧ x.1.parse = .ok r ∧ Frame x.1 x.1.bytes) (by
    rintro ⟨q, s⟩ ⟨q', t⟩ ⟨rfl, rfl, rfl⟩
    simp only
    obtain ⟨x, s', h1, h2, h3, h4, h5⟩ := filteredRawNext_eq f cd pol (s.size + 1) q s (by have := toks_length s; omega)
    unfold filteredRawIter
    rw [h1]
    refine ⟨⟨rfl, h4, h5⟩, ?_⟩
    rw [← h2]
    cases x with
    | none => simp
    | some x =>
      obtain ⟨raw, r⟩ := x
      obtain ⟨g1, g2⟩ := h3 raw r rfl
      exact .inr ⟨_, _, rfl, rfl, rfl, g1, g2⟩) n (q, s) (q, t) ⟨rfl, h⟩
  exact ⟨this.1, this.2.1, this.2.2.1, this.2.2.2⟩

/-! ### progress -/

theorem forLoop_measure {next : S → Option α × S} (m : S → Nat) (c : Nat)
    (h : ∀ s a s', next s = (some a, s') → m s' + c ≤ m s) (n : Nat) (s : S) :
    c * (forLoop next n s).1.length ≤ m s ∧ (m s < c * n → (forLoop next n s).2.1 = true) := by
  induction n generalizing s with
  | zero => simp [forLoop]
  | succ n ih =>
    simp only [forLoop]
    cases hs : next s with
    | mk x s' =>
      cases x with
      | none => simp
      | some a =>
        have h1 := h _ _ _ hs
        obtain ⟨h2, h3⟩ := ih s'
        simp only [List.length_cons, Nat.mul_add, Nat.mul_one]
        exact ⟨by omega, fun h => h3 (by omega)⟩

/-- more rounds than the end of the iteration change nothing. -/
theorem forLoop_ended {next : S → Option α × S} (n m : Nat) (s : S) (h : (forLoop next n s).2.1 = true) (hm : n ≤ m) :
    forLoop next m s = forLoop next n s := by
  induction n generalizing m s with
  | zero => simp [forLoop] at h
  | succ n ih =>
    cases m with
    | zero => omega
    | succ m =>
      simp only [forLoop] at h ⊢
      cases hs : next s with
      | mk x s' =>
        rw [hs] at h
        cases x with
        | none => rfl
        | some a => simp only at h ⊢; rw [ih m s' h (by omega)]

theorem chunkT_data {k : Option Bool} {t t' : List Tok} {x : Except ChunkErr Raw} (h : chunkT k t = (x, t')) :
    (dataOf t').length + 12 ≤ (dataOf t).length ∨ ∃ e, x = .error e ∧ ∀ cd, goesOn cd e.error = false := by
  cases x with
  | ok r =>
    obtain ⟨h1, h2⟩ := chunkT_ok h
    left
    rw [h2, dataOf_append, List.length_append, dataOf_byteToks]
    have := Frame_length h1
    omega
  | error e =>
    rcases chunkT_error h with ⟨b, _, h2, h3, _⟩ | ⟨b, e', st, h1, h2, h3, h4⟩
    · left
      rw [h2, dataOf_append, List.length_append, dataOf_byteToks]; omega
    · right
      refine ⟨e, rfl, fun cd => ?_⟩
      rcases h4 with ⟨h, _⟩ | ⟨h, _⟩ | ⟨h, _⟩
      · rw [h]; rfl
      · rw [h]; exact goesOn_stop cd st
      · rw [h]; exact goesOn_body _ st

theorem nextT_data {k : Option Bool} {t t' : List Tok} {x : Except RecErr MrtRecord} (h : nextT k t = (x, t')) :
    (dataOf t').length + 12 ≤ (dataOf t).length ∨ ∃ e, x = .error e ∧ ∀ cd, goesOn cd e.error = false := by
  unfold nextT at h
  cases hc : chunkT k t with
  | mk y t1 =>
    rw [hc] at h
    have hp := chunkT_data hc
    cases y with
    | error e =>
      simp only [Prod.mk.injEq] at h
      obtain ⟨rfl, rfl⟩ := h
      rcases hp with hp | ⟨e', he, hp⟩
      · exact .inl hp
      · cases he; exact .inr ⟨_, rfl, hp⟩
    | ok raw =>
      rcases hp with hp | ⟨e', he, hp⟩
      · simp only at h
        cases hr : raw.parse with
        | ok r => rw [hr] at h; simp only [Prod.mk.injEq] at h; rw [← h.2]; exact .inl hp
        | error e => rw [hr] at h; simp only [Prod.mk.injEq] at h; rw [← h.2]; exact .inl hp
      · cases he

theorem rawT_data (cd : Bool) (k : Option Bool) (n : Nat) : ∀ t t' raw, t.length ≤ n → rawT cd k t = (some raw, t') →
    (dataOf t').length + 12 ≤ (dataOf t).length := by
  induction n with
  | zero =>
    intro t t' raw hl h
    have := (rawT_progress cd k _ _ _ _ (Nat.le_refl _) h).2
    omega
  | succ n ih =>
    intro t t' raw hl h
    rw [rawT] at h
    split at h
    · next r t1 hc =>
      rcases chunkT_data hc with hp | ⟨e', he, hp⟩
      · simp only [Prod.mk.injEq, Option.some.injEq] at h
        rw [← h.2]; exact hp
      · cases he
    · next e t1 hc =>
      split at h
      · next hg =>
        rcases chunkT_data hc with hp | ⟨e', he, hp⟩
        · have hq : t1.length + 12 ≤ t.length := by
            rcases chunkT_progress hc with hq | ⟨e', he, hq⟩
            · exact hq
            · cases he; rw [hq cd] at hg; cases hg
          have := ih _ _ _ (by omega) h
          omega
        · cases he; rw [hp cd] at hg; cases hg
      · cases h

theorem defaultT_data (f : Keep σ) (cd : Bool) (k : Option Bool) (n : Nat) : ∀ q t x, t.length ≤ n →
    defaultT f cd k q t = x → x.1.isSome → (dataOf x.2.2).length + 12 ≤ (dataOf t).length := by
  induction n with
  | zero =>
    intro q t x hl h hx
    rw [defaultT] at h
    split at h
    · next r t1 hc =>
      rcases nextT_progress hc with hp | ⟨e', he, hp⟩
      · omega
      · cases he
    · next e t1 hc =>
      rcases nextT_progress hc with hp | ⟨e', he, hp⟩
      · omega
      · cases he; rw [dif_neg (by simp [hp cd])] at h; subst h; cases hx
  | succ n ih =>
    intro q t x hl h hx
    rw [defaultT] at h
    split at h
    · next r t1 hc =>
      have hd : (dataOf t1).length + 12 ≤ (dataOf t).length := by
        rcases nextT_data hc with hp | ⟨e', he, hp⟩
        · exact hp
        · cases he
      split at h
      · subst h; exact hd
      · have hq : t1.length + 12 ≤ t.length := by
          rcases nextT_progress hc with hq | ⟨e', he, hq⟩
          · exact hq
          · cases he
        have := ih _ _ _ (by omega) h hx
        omega
    · next e t1 hc =>
      split at h
      · next hg =>
        have hd : (dataOf t1).length + 12 ≤ (dataOf t).length := by
          rcases nextT_data hc with hp | ⟨e', he, hp⟩
          · exact hp
          · cases he; rw [hp cd] at hg; cases hg
        have hq : t1.length + 12 ≤ t.length := by
          rcases nextT_progress hc with hq | ⟨e', he, hq⟩
          · exact hq
          · cases he; rw [hq cd] at hg; cases hg
        have := ih _ _ _ (by omega) h hx
        omega
      · subst h; cases hx

/-! ### tiling -/

theorem headerT_bad (k : Option Bool) {c : Bytes} (t : List Tok) (h : BadHeader c) :
    headerT k (byteToks c ++ t) = (c, .error .parse, t) := by
  obtain ⟨h1, h2⟩ := h
  obtain ⟨time, type, subtype, length, r1, r2⟩ := rdBaseHeader_total c h1
  unfold headerT
  rw [takeT_full' k 12 _ _ h1]
  simp only [r1]
  cases ht : EntryType.ofU16? type with
  | none => rfl
  | some ty =>
    have hty := (entryType_of _ _).mp ht
    by_cases het : ty = .bgp4mpEt
    · subst het
      simp only
      by_cases hl : length < 4
      · rw [if_pos hl]
      · exfalso
        refine h2 ⟨time, some 0, .bgp4mpEt, subtype, length - 4⟩ (c ++ n32 0) ⟨rfl, ?_, ?_⟩ ?_
        · have := sub4 hl; have := length.toNat_lt; show (length - 4).toNat + 4 < _; omega
        · show _ = n32 time.toNat ++ n16 _ ++ n16 subtype.toNat ++ n32 ((length - 4).toNat + 4) ++ n32 (0 : UInt32).toNat
          rw [sub4 hl, ← be32_n32, ← hty, ← be16_n16, ← be32_n32, r2]
          simp [List.append_assoc]
        · rw [List.take_left' h1]
    · exfalso
      refine h2 ⟨time, none, ty, subtype, length⟩ c ⟨het, ?_⟩ (List.take_of_length_le (by omega))
      rw [r2, hty, be32_n32, be16_n16, be32_n32]
      simp [List.append_assoc]

theorem chunkT_bad (k : Option Bool) {c : Bytes} (t : List Tok) (h : BadHeader c) :
    chunkT k (byteToks c ++ t) = (.error ⟨.parse, none, some c⟩, t) := by
  unfold chunkT
  rw [headerT_bad k t h]
  simp

theorem chunkT_long (k : Option Bool) {c : Bytes} (t : List Tok) {h : Header} (h1 : HeaderBytes h c)
    (h2 : 16777216 < h.length.toNat) : chunkT k (byteToks c ++ t) = (.error ⟨.unsupported, some h, some c⟩, t) := by
  unfold chunkT
  rw [headerT_complete k h1]
  simp only
  rw [if_pos h2]

theorem rawT_frame (cd : Bool) (k : Option Bool) {r : Raw} {b : Bytes} (t : List Tok) (h : Frame r b) :
    rawT cd k (byteToks b ++ t) = (some r, t) := by
  rw [rawT]
  split
  · next r' t' hc => rw [chunkT_complete k h] at hc; cases hc; rfl
  · next e t' hc => rw [chunkT_complete k h] at hc; cases hc

theorem rawT_skip (cd : Bool) (k : Option Bool) {c : Bytes} (t : List Tok) (h : Skippable c)
    (hn : ¬ (cd = true ∧ BadHeader c)) : rawT cd k (byteToks c ++ t) = rawT cd k t := by
  rw [rawT]
  rcases h with h | ⟨hd, h1, h2⟩
  · have hcd : cd = false := by cases cd <;> simp_all
    split
    · next r' t' hc => rw [chunkT_bad k t h] at hc; cases hc
    · next e t' hc => rw [chunkT_bad k t h] at hc; cases hc; rw [dif_pos (by rw [hcd]; rfl)]
  · split
    · next r' t' hc => rw [chunkT_long k t h1 h2] at hc; cases hc
    · next e t' hc => rw [chunkT_long k t h1 h2] at hc; cases hc; simp [goesOn]

theorem rawT_stop (cd : Bool) (k : Option Bool) {c : Bytes} (t : List Tok) (h : BadHeader c) (hcd : cd = true) :
    rawT cd k (byteToks c ++ t) = (none, t) := by
  rw [rawT]
  split
  · next r' t' hc => rw [chunkT_bad k t h] at hc; cases hc
  · next e t' hc => rw [chunkT_bad k t h] at hc; cases hc; rw [dif_neg (by rw [hcd]; simp [goesOn])]

theorem byteToks_split {b c : Bytes} {t : List Tok} (h : byteToks b = byteToks c ++ t) :
    ∃ rest, b = c ++ rest ∧ t = byteToks rest := by
  unfold byteToks at h
  obtain ⟨l1, l2, h1, h2, h3⟩ := List.map_eq_append_iff.mp h
  have hinj : Function.Injective Tok.byte := by intro a b h; injection h
  rw [List.map_inj_right (fun a b h => hinj h)] at h2
  exact ⟨l2, by rw [h1, h2], h3.symm⟩

theorem byteToks_ends {k : Option Bool} {b c : Bytes} {e t : List Tok} {st : Stop} (h : byteToks b = byteToks c ++ (e ++ t))
    (he : Ends k e t st) : b = c ∧ t = [] := by
  obtain ⟨rest, h1, h2⟩ := byteToks_split h
  rcases he with ⟨rfl, rfl, _⟩ | ⟨rfl, _⟩ | ⟨z, rfl, _⟩
  · cases rest with
    | nil => exact ⟨by simpa using h1, rfl⟩
    | cons x xs => simp [byteToks] at h2
  · cases rest with
    | nil => simp [byteToks] at h2
    | cons x xs => simp [byteToks] at h2
  · cases rest with
    | nil => simp [byteToks] at h2
    | cons x xs => simp [byteToks] at h2

/-- what the end of a file looks like. -/
theorem chunkT_last {k : Option Bool} {b : Bytes} {t' : List Tok} {er : ChunkErr} (h : chunkT k (byteToks b) = (.error er, t')) :
    (∃ c rest, b = c ++ rest ∧ t' = byteToks rest ∧ Skippable c ∧ (er.error = .parse ∧ BadHeader c ∨
      er.error = .unsupported ∧ ∃ h, HeaderBytes h c ∧ 16777216 < h.length.toNat)) ∨
    t' = [] ∧ (∀ cd, goesOn cd er.error = false) ∧ (∀ r c t, b = c ++ t → ¬ Frame r c) ∧ ∀ c t, b = c ++ t → ¬ Skippable c := by
  rcases chunkT_error h with ⟨c, h1, h2, h3, h4⟩ | ⟨c, e, st, h1, h2, h3, h4⟩
  · left
    obtain ⟨rest, rfl, rfl⟩ := byteToks_split h2
    refine ⟨c, rest, rfl, rfl, ?_, h4⟩
    rcases h4 with ⟨_, h4⟩ | ⟨_, h4⟩
    · exact .inl h4
    · exact .inr h4
  · right
    obtain ⟨_, h5⟩ := byteToks_ends h2 h3
    have hg : ∀ cd, goesOn cd er.error = false := by
      intro cd
      rcases h4 with ⟨h, _⟩ | ⟨h, _⟩ | ⟨h, _⟩
      · rw [h]; rfl
      · rw [h]; exact goesOn_stop cd st
      · rw [h]; exact goesOn_body _ st
    refine ⟨h5, hg, ?_, ?_⟩
    · rintro r c' t rfl hf
      rw [byteToks_append, chunkT_complete k hf] at h
      cases h
    · rintro c' t rfl hs
      rw [byteToks_append] at h
      rcases hs with hb | ⟨hd, g1, g2⟩
      · rw [chunkT_bad k _ hb] at h; cases h; exact absurd (hg false) (by simp [goesOn])
      · rw [chunkT_long k _ g1 g2] at h; cases h; exact absurd (hg false) (by simp [goesOn])

theorem tiles_exist (cd : Bool) (n : Nat) : ∀ b : Bytes, b.length ≤ n → ∃ rs, Tiles cd b rs := by
  induction n with
  | zero =>
    intro b hb
    have : b = [] := List.length_eq_zero_iff.mp (by omega)
    subst this
    exact ⟨[], .done⟩
  | succ n ih =>
    intro b hb
    cases hc : chunkT none (byteToks b) with
    | mk x t =>
      cases x with
      | ok r =>
        obtain ⟨h1, h2⟩ := chunkT_ok hc
        obtain ⟨rest, rfl, rfl⟩ := byteToks_split h2
        have := Frame_length h1
        obtain ⟨rs, hrs⟩ := ih rest (by simp at hb; omega)
        exact ⟨_, .record h1 hrs⟩
      | error e =>
        rcases chunkT_last hc with ⟨c, rest, rfl, rfl, h1, h2⟩ | ⟨_, _, h1, h2⟩
        · by_cases hs : cd = true ∧ BadHeader c
          · exact ⟨_, .stop hs.1 hs.2⟩
          · have : 12 ≤ c.length := by
              rcases h1 with h1 | ⟨h, h1, _⟩
              · rw [h1.1]; omega
              · exact HeaderBytes_ge h1
            obtain ⟨rs, hrs⟩ := ih rest (by simp at hb; omega)
            exact ⟨_, .skip h1 hs hrs⟩
        · exact ⟨_, .truncated h1 h2⟩

theorem tiles_loop {cd : Bool} {b : Bytes} {rs : List Raw} (h : Tiles cd b rs) : ∀ n, rs.length < n →
    (forLoop (rawT cd none) n (byteToks b)).1 = rs ∧ (forLoop (rawT cd none) n (byteToks b)).2.1 = true := by
  induction h with
  | done =>
    intro n hn
    cases n with
    | zero => cases hn
    | succ n =>
      simp only [forLoop]
      have : rawT cd none (byteToks []) = (none, []) := by
        rw [rawT]; rfl
      rw [this]
      simp
  | record hf ht ih =>
    intro n hn
    cases n with
    | zero => cases hn
    | succ n =>
      simp only [forLoop, byteToks_append, rawT_frame cd none _ hf]
      obtain ⟨h1, h2⟩ := ih n (by simpa using hn)
      simp [h1, h2]
  | @skip c rest rs hs hns ht ih =>
    intro n hn
    cases n with
    | zero => cases hn
    | succ n =>
      have := ih (n + 1) hn
      simp only [forLoop, byteToks_append, rawT_skip cd none _ hs hns]
      simpa only [forLoop] using this
  | stop hcd hb =>
    intro n hn
    cases n with
    | zero => cases hn
    | succ n =>
      simp only [forLoop, byteToks_append, rawT_stop cd none _ hb hcd]
      simp
  | @truncated c h1 h2 =>
    intro n hn
    cases n with
    | zero => cases hn
    | succ n =>
      have : (rawT cd none (byteToks c)).1 = none := by
        rw [rawT]
        split
        · next r t hc =>
          obtain ⟨g1, g2⟩ := chunkT_ok hc
          obtain ⟨rest, rfl, rfl⟩ := byteToks_split g2
          exact absurd g1 (h1 _ _ _ rfl)
        · next e t hc =>
          rcases chunkT_last hc with ⟨c', rest, rfl, rfl, g1, g2⟩ | ⟨_, g1, _⟩
          · exact absurd g1 (h2 _ _ rfl)
          · rw [dif_neg (by simp [g1 cd])]
      simp only [forLoop]
      cases hr : rawT cd none (byteToks c) with
      | mk x t => rw [hr] at this; simp only at this; subst this; simp

/-! ### default and fallible iteration -/

theorem goesOn_fatal (cd : Bool) (e : Err) : goesOn cd e = true ↔ ¬ Fatal cd e := by
  cases e <;> cases cd <;> simp [goesOn, Fatal]

theorem default_fallible (f : Keep σ) (cd : Bool) (k : Option Bool) (N : Nat) : ∀ (q : σ) (t : List Tok) (n m : Nat),
    t.length ≤ N → t.length < n → t.length < m →
    (forLoop (fun p => defaultT f cd k p.1 p.2) n (q, t)).1 =
      okBefore cd (forLoop (fun p => fallibleT f k p.1 p.2) m (q, t)).1 := by
  induction N with
  | zero =>
    intro q t n m hN hn hm
    obtain ⟨n, rfl⟩ : ∃ n', n = n' + 1 := ⟨n - 1, by omega⟩
    obtain ⟨m, rfl⟩ : ∃ m', m = m' + 1 := ⟨m - 1, by omega⟩
    simp only [forLoop]
    cases hc : nextT k t with
    | mk x t' =>
      rcases nextT_progress hc with hp | ⟨e, rfl, hp⟩
      · omega
      · have hd := defaultT_of_error f cd q hc
        have hf := fallibleT_of_error f q hc
        rw [if_neg (by simp [hp cd])] at hd
        have hfa : Fatal cd e.error := by
          have := goesOn_fatal cd e.error
          rw [hp cd] at this
          simpa using this
        rw [hd, hf]
        by_cases he : e.error = .eofExpected
        · rw [if_pos he]; rfl
        · rw [if_neg he]; simp [okBefore, hfa]
  | succ N ih =>
    intro q t n m hN hn hm
    obtain ⟨n, rfl⟩ : ∃ n', n = n' + 1 := ⟨n - 1, by omega⟩
    obtain ⟨m, rfl⟩ : ∃ m', m = m' + 1 := ⟨m - 1, by omega⟩
    cases hc : nextT k t with
    | mk x t' =>
      have hp := nextT_progress hc
      cases x with
      | ok r =>
        have hl : t'.length + 12 ≤ t.length := by
          rcases hp with hp | ⟨e, he, hp⟩
          · exact hp
          · cases he
        have hd := defaultT_of_ok f cd q hc
        have hf := fallibleT_of_ok f q hc
        by_cases hs : (f.step q r).1 = true
        · rw [if_pos hs] at hd hf
          simp only [forLoop, hd, hf, okBefore]
          rw [ih (f.step q r).2 t' n m (by omega) (by omega) (by omega)]
        · rw [if_neg hs] at hd hf
          have := ih (f.step q r).2 t' (n + 1) (m + 1) (by omega) (by omega) (by omega)
          simp only [forLoop] at this ⊢
          rw [hd, hf]
          exact this
      | error e =>
        by_cases hg : goesOn cd e.error = true
        · have hl : t'.length + 12 ≤ t.length := by
            rcases hp with hp | ⟨e', he, hp⟩
            · exact hp
            · cases he; rw [hp cd] at hg; cases hg
          have hne : e.error ≠ .eofExpected := by intro h; rw [h] at hg; cases hg
          have hd := defaultT_of_error f cd q hc
          have hf := fallibleT_of_error f q hc
          rw [if_pos hg] at hd
          rw [if_neg hne] at hf
          have := ih q t' (n + 1) m (by omega) (by omega) (by omega)
          rw [forLoop]
          simp only [forLoop] at this
          rw [forLoop]
          simp only [hf, okBefore, if_neg ((goesOn_fatal cd e.error).mp hg), hd]
          exact this
        · have hd := defaultT_of_error f cd q hc
          have hf := fallibleT_of_error f q hc
          rw [if_neg hg] at hd
          have hfa : Fatal cd e.error := by
            have := goesOn_fatal cd e.error
            simp only [hg] at this
            simpa using this
          simp only [forLoop, hd, hf]
          by_cases he : e.error = .eofExpected
          · rw [if_pos he]; rfl
          · rw [if_neg he]; simp [okBefore, hfa]

/-! ### accounting -/

theorem bodyErr_ne (st : Stop) : bodyErr st ≠ .eofExpected := by
  cases st with
  | failed z => cases z <;> simp [bodyErr]
  | _ => simp [bodyErr]

theorem chunkT_took {k : Option Bool} {t t' : List Tok} {x : Except ChunkErr Raw} (h : chunkT k t = (x, t')) :
    ∃ pre, t = pre ++ t' ∧ match x with
      | .ok r => pre = byteToks r.bytes ∧ Frame r r.bytes
      | .error e => dataOf pre = e.bytes.getD [] ∧ (e.bytes = none ↔ e.error = .eofExpected) ∧
          (e.error = .eofExpected → t = [] ∨ t = .zero :: t' ∨ t = .fail true :: t') := by
  cases x with
  | ok r =>
    obtain ⟨h1, h2⟩ := chunkT_ok h
    exact ⟨_, h2, rfl, h1⟩
  | error e =>
    rcases chunkT_error h with ⟨b, h1, h2, h3, h4⟩ | ⟨b, e', st, h1, h2, h3, h4⟩
    · refine ⟨_, h2, by rw [dataOf_byteToks, h1]; rfl, ?_, ?_⟩
      · rw [h1]
        rcases h4 with ⟨h4, _⟩ | ⟨h4, _⟩ <;> simp [h4]
      · rcases h4 with ⟨h4, _⟩ | ⟨h4, _⟩ <;> simp [h4]
    · refine ⟨byteToks b ++ e', by rw [h2, List.append_assoc], by rw [dataOf_append, dataOf_byteToks, h3.dataOf, h1]; simp, ?_, ?_⟩
      · rcases h4 with ⟨g1, g2, _⟩ | ⟨g1, g2, _⟩ | ⟨g1, g2, _⟩
        · simp [g1, g2]
        · rw [g1, g2]
          cases st with
          | failed z => cases z <;> simp [stopErr]
          | _ => simp [stopErr]
        · simpa [g1, g2] using bodyErr_ne st
      · intro he
        rcases h4 with ⟨g1, g2, g3, g4⟩ | ⟨g1, g2, _⟩ | ⟨g1, g2, _⟩
        · subst g3
          rw [h2]
          rcases h3 with ⟨rfl, rfl, _⟩ | ⟨rfl, _⟩ | ⟨z, rfl, rfl⟩
          · exact .inl rfl
          · exact .inr (.inl rfl)
          · cases z with
            | true => exact .inr (.inr rfl)
            | false => simp [stopErr] at g4
        · rw [he] at g1
          cases st with
          | failed z => cases z <;> simp [stopErr] at g1
          | _ => simp [stopErr] at g1
        · rw [he] at g1; exact absurd g1.symm (bodyErr_ne st)

theorem nextT_took {k : Option Bool} {t t' : List Tok} {x : Except RecErr MrtRecord} (h : nextT k t = (x, t')) :
    ∃ pre, t = pre ++ t' ∧ match x with
      | .ok r => ∃ raw, Frame raw raw.bytes ∧ pre = byteToks raw.bytes ∧ raw.parse = .ok r
      | .error e => dataOf pre = e.bytes.getD [] ∧ (e.bytes = none → e.error = .eofExpected) := by
  unfold nextT at h
  cases hc : chunkT k t with
  | mk y t1 =>
    rw [hc] at h
    obtain ⟨pre, h1, h2⟩ := chunkT_took hc
    cases y with
    | error e =>
      simp only [Prod.mk.injEq] at h
      obtain ⟨rfl, rfl⟩ := h
      exact ⟨pre, h1, h2.1, h2.2.1.mp⟩
    | ok raw =>
      simp only at h h2
      cases hr : raw.parse with
      | ok r =>
        rw [hr] at h
        simp only [Prod.mk.injEq] at h
        obtain ⟨rfl, rfl⟩ := h
        exact ⟨pre, h1, raw, h2.2, h2.1, hr⟩
      | error e =>
        rw [hr] at h
        simp only [Prod.mk.injEq] at h
        obtain ⟨rfl, rfl⟩ := h
        exact ⟨pre, h1, by rw [h2.1, dataOf_byteToks]; rfl, by simp⟩

/-- what an item of the fallible iterator stands for. -/
def ItemBytes (x : Except RecErr MrtRecord) (c : Bytes) : Prop :=
  match x with
  | .ok r => ∃ raw, Frame raw c ∧ raw.parse = .ok r
  | .error e => e.bytes.getD [] = c

theorem fallible_account (k : Option Bool) (n : Nat) : ∀ t : List Tok,
    (forLoop (fun p => fallibleT keepAll k p.1 p.2) n ((), t)).2.1 = false →
    ∃ parts pre, t = pre ++ (forLoop (fun p => fallibleT keepAll k p.1 p.2) n ((), t)).2.2.2 ∧
      dataOf pre = parts.flatten ∧ Pairwise2 ItemBytes (forLoop (fun p => fallibleT keepAll k p.1 p.2) n ((), t)).1 parts := by
  induction n with
  | zero => intro t _; exact ⟨[], [], by simp [forLoop], rfl, .nil⟩
  | succ n ih =>
    intro t h
    cases hc : nextT k t with
    | mk x t' =>
      obtain ⟨pre, h1, h2⟩ := nextT_took hc
      have hf : fallibleT keepAll k () t = match x with
          | .ok r => (some (.ok r), (), t')
          | .error e => if e.error = .eofExpected then (none, (), t') else (some (.error e), (), t') := by
        cases x with
        | ok r => rw [fallibleT_of_ok keepAll () hc]; rfl
        | error e => rw [fallibleT_of_error keepAll () hc]
      cases x with
      | ok r =>
        simp only at hf h2
        simp only [forLoop, hf] at h ⊢
        obtain ⟨parts, pre', g1, g2, g3⟩ := ih t' h
        obtain ⟨raw, k1, k2, k3⟩ := h2
        refine ⟨raw.bytes :: parts, pre ++ pre', ?_, ?_, .cons ⟨raw, k1, k3⟩ g3⟩
        · rw [List.append_assoc, ← g1, h1]
        · rw [dataOf_append, g2, k2, dataOf_byteToks, List.flatten_cons]
      | error e =>
        simp only at hf h2
        by_cases he : e.error = .eofExpected
        · rw [if_pos he] at hf
          simp only [forLoop, hf] at h
          cases h
        · rw [if_neg he] at hf
          simp only [forLoop, hf] at h ⊢
          obtain ⟨parts, pre', g1, g2, g3⟩ := ih t' h
          refine ⟨e.bytes.getD [] :: parts, pre ++ pre', ?_, ?_, .cons rfl g3⟩
          · rw [List.append_assoc, ← g1, h1]
          · rw [dataOf_append, g2, h2.1, List.flatten_cons]

/-- every call of the fallible iterator takes something from the reader, or ends, or the reader fails for ever. -/
theorem fallibleT_progress (f : Keep σ) (k : Option Bool) (hk : k ≠ some false) (N : Nat) : ∀ q t x, t.length ≤ N →
    fallibleT f k q t = x → x.1.isSome → x.2.2.length + 1 ≤ t.length := by
  induction N with
  | zero =>
    intro q t x hN h hx
    have ht : t = [] := List.length_eq_zero_iff.mp (by omega)
    subst ht
    have hc : nextT k [] = (.error ⟨.eofExpected, none⟩, []) := by
      cases k with
      | none => rfl
      | some z => cases z with
        | true => rfl
        | false => exact absurd rfl hk
    rw [fallibleT_of_error f q hc, if_pos rfl] at h
    subst h; cases hx
  | succ N ih =>
    intro q t x hN h hx
    cases hc : nextT k t with
    | mk y t' =>
      have hlen : t = [] ∨ t'.length + 1 ≤ t.length := by
        rcases nextT_progress hc with hp | ⟨e, rfl, hp⟩
        · right; omega
        · unfold nextT at hc
          cases hcc : chunkT k t with
          | mk z t1 =>
            rw [hcc] at hc
            cases z with
            | ok raw =>
              have hl := Frame_length (chunkT_ok hcc).1
              have hl2 := congrArg List.length (chunkT_ok hcc).2
              rw [List.length_append, byteToks_length] at hl2
              simp only at hc
              cases hr : raw.parse <;> rw [hr] at hc <;> simp only [Prod.mk.injEq] at hc <;> obtain ⟨_, rfl⟩ := hc <;> right <;> omega
            | error ce =>
              simp only [Prod.mk.injEq] at hc
              obtain ⟨_, rfl⟩ := hc
              rcases chunkT_error hcc with ⟨b, h1, h2, h3, h4⟩ | ⟨b, e', st, h1, h2, h3, h4⟩
              · right
                rw [h2, List.length_append, byteToks_length]; omega
              · rcases h3 with ⟨rfl, rfl, _⟩ | ⟨rfl, _⟩ | ⟨z, rfl, _⟩
                · cases t with
                  | nil => exact .inl rfl
                  | cons a l => right; simp
                · right; rw [h2]; simp
                · right; rw [h2]; simp
      rcases hlen with rfl | hlen
      · exact ih q [] x (by simp) h hx
      · cases y with
        | ok r =>
          rw [fallibleT_of_ok f q hc] at h
          split at h
          · subst h; exact hlen
          · have := ih _ _ _ (by omega) h hx
            omega
        | error e =>
          rw [fallibleT_of_error f q hc] at h
          split at h
          · subst h; cases hx
          · subst h; exact hlen

end Verif
