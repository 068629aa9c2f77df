import Verif.Spec.Recovery
import Verif.Lemmas.MrtLoops
/-
The two buffering readers of framing recovery, and the scanning window.
-/
namespace Verif
open Spec

instance [LReader ρ] : LReader (Carry ρ) where
  toReader := inferInstance
  del c := byteToks c.carry ++ del c.inner
  stk c := stk c.inner
  read_ok := by
    rintro ⟨i, carry, o⟩ n hn
    show stk (Carry.read ⟨i, carry, o⟩ n).2.inner = stk i ∧ ReadLaw n (Carry.read ⟨i, carry, o⟩ n).1 (byteToks carry ++ del i)
      (byteToks (Carry.read ⟨i, carry, o⟩ n).2.carry ++ del (Carry.read ⟨i, carry, o⟩ n).2.inner) (stk i)
      (carry.length + Reader.size i)
      ((Carry.read ⟨i, carry, o⟩ n).2.carry.length + Reader.size (Carry.read ⟨i, carry, o⟩ n).2.inner)
    cases carry with
    | nil =>
      have h := LReader.read_ok i n hn
      simp only [Carry.read]
      generalize Reader.read i n = x at h ⊢
      obtain ⟨x, i'⟩ := x
      cases x <;> simpa [byteToks, ReadLaw] using h
    | cons b bs =>
      refine ⟨rfl, ?_⟩
      show (b :: bs).take n ≠ [] ∧ ((b :: bs).take n).length ≤ n ∧ byteToks (b :: bs) ++ del i =
        byteToks ((b :: bs).take n) ++ (byteToks ((b :: bs).drop n) ++ del i) ∧
        ((b :: bs).drop n).length + Reader.size i < (b :: bs).length + Reader.size i
      refine ⟨?_, by simp; omega, ?_, by simp; omega⟩
      · cases n with
        | zero => omega
        | succ n => simp
      · rw [← List.append_assoc, ← byteToks_append, List.take_append_drop]
  calm c := calm c.inner
  calm_ok := by
    rintro ⟨i, carry, o⟩ n h
    show (Carry.read ⟨i, carry, o⟩ n).1 ≠ .interrupted ∧ calm (Carry.read ⟨i, carry, o⟩ n).2.inner
    cases carry with
    | nil =>
      have h := LReader.calm_ok i n h
      simp only [Carry.read]
      generalize Reader.read i n = x at h ⊢
      obtain ⟨x, i'⟩ := x
      cases x <;> simpa using h
    | cons b bs => exact ⟨by simp [Carry.read], h⟩

instance [LReader ρ] : LReader (Replay ρ) where
  toReader := inferInstance
  del w := byteToks (w.data.drop w.cursor) ++ del w.inner
  stk w := stk w.inner
  read_ok := by
    rintro ⟨i, data, cursor, base⟩ n hn
    show stk (Replay.read ⟨i, data, cursor, base⟩ n).2.inner = stk i ∧ ReadLaw n (Replay.read ⟨i, data, cursor, base⟩ n).1 (byteToks (data.drop cursor) ++ del i)
      (byteToks ((Replay.read ⟨i, data, cursor, base⟩ n).2.data.drop (Replay.read ⟨i, data, cursor, base⟩ n).2.cursor) ++ del (Replay.read ⟨i, data, cursor, base⟩ n).2.inner) (stk i)
      (data.length - cursor + Reader.size i) ((Replay.read ⟨i, data, cursor, base⟩ n).2.data.length - (Replay.read ⟨i, data, cursor, base⟩ n).2.cursor + Reader.size (Replay.read ⟨i, data, cursor, base⟩ n).2.inner)
    simp only [Replay.read]
    cases hd : data.drop cursor with
    | nil =>
      have hlen : data.length ≤ cursor := List.drop_eq_nil_iff.mp hd
      have h := LReader.read_ok i n hn
      simp only
      generalize Reader.read i n = x at h ⊢
      obtain ⟨x, i'⟩ := x
      cases x with
      | got c =>
        obtain ⟨h1, h2, h3, h4, h5⟩ := h
        refine ⟨h1, h2, h3, ?_, ?_⟩
        · have : (data ++ c).drop (cursor + c.length) = [] := List.drop_eq_nil_iff.mpr (by simp; omega)
          simp only [this, h4, byteToks, List.map_nil, List.nil_append]
        · have h5 : Reader.size i' < Reader.size i := h5
          simp only [List.length_append]; omega
      | zero => simpa [byteToks, hd, ReadLaw] using h
      | interrupted =>
        obtain ⟨h1, h2, h3⟩ := h
        exact ⟨h1, by simpa [byteToks, hd] using h2, Nat.add_lt_add_left h3 _⟩
      | failed k => simpa [byteToks, hd, ReadLaw] using h
    | cons b bs =>
      have hlen : (b :: bs).length = data.length - cursor := by rw [← hd]; simp
      refine ⟨rfl, ?_, by simp; omega, ?_, ?_⟩
      · cases n with
        | zero => omega
        | succ n => simp
      · have e1 : data.drop (cursor + ((b :: bs).take n).length) = (b :: bs).drop n := by
          rw [← List.drop_drop, hd]
          by_cases hn : n ≤ (b :: bs).length
          · rw [List.length_take, Nat.min_eq_left hn]
          · rw [List.drop_eq_nil_iff.mpr (by rw [List.length_take]; omega), List.drop_eq_nil_iff.mpr (by omega)]
        simp only [e1]
        rw [← List.append_assoc, ← byteToks_append, List.take_append_drop]
      · have : 1 ≤ ((b :: bs).take n).length := by rw [List.length_take]; simp; omega
        have : 1 ≤ (b :: bs).length := by simp
        simp only
        omega
  calm w := calm w.inner
  calm_ok := by
    rintro ⟨i, data, cursor, base⟩ n h
    show (Replay.read ⟨i, data, cursor, base⟩ n).1 ≠ .interrupted ∧ calm (Replay.read ⟨i, data, cursor, base⟩ n).2.inner
    simp only [Replay.read]
    cases hd : data.drop cursor with
    | nil =>
      have h := LReader.calm_ok i n h
      simp only
      generalize Reader.read i n = x at h ⊢
      obtain ⟨x, i'⟩ := x
      cases x <;> simpa using h
    | cons b bs => exact ⟨by simp, h⟩

theorem del_carry [LReader ρ] (c : Carry ρ) : del c = byteToks c.carry ++ del c.inner := rfl
theorem stk_carry [LReader ρ] (c : Carry ρ) : stk c = stk c.inner := rfl
theorem del_replay [LReader ρ] (w : Replay ρ) : del w = byteToks (w.data.drop w.cursor) ++ del w.inner := rfl
theorem stk_replay [LReader ρ] (w : Replay ρ) : stk w = stk w.inner := rfl

/-! ### what holds before reading and is kept by `read` holds afterwards -/

theorem readLoop_inv [Reader ρ] (P : ρ → Prop) (hP : ∀ s n, 1 ≤ n → P s → P (Reader.read s n).2) (pol : Pol) (total fuel : Nat) :
    ∀ (hist : List Nat) (n : Nat) (s : ρ), P s → P (readLoop pol total fuel hist n s).2.2 := by
  induction fuel with
  | zero => intro hist n s h; exact h
  | succ fuel ih =>
    intro hist n s h
    cases n with
    | zero => exact h
    | succ n =>
      have h' := hP s (max 1 (min (n + 1) (pol total hist))) (by omega) h
      simp only [readLoop]
      generalize Reader.read s (max 1 (min (n + 1) (pol total hist))) = x at h' ⊢
      obtain ⟨x, s'⟩ := x
      cases x with
      | got c => exact ih _ _ _ h'
      | zero => exact h'
      | interrupted => exact ih _ _ _ h'
      | failed k => exact h'

theorem parseHeader_inv [Reader ρ] (P : ρ → Prop) (hP : ∀ s n, 1 ≤ n → P s → P (Reader.read s n).2) (s : ρ) (h : P s) :
    P (parseHeader s).2.2 := by
  have h1 : P (readExact 12 s).2.2 := readLoop_inv P hP _ _ _ _ _ _ h
  unfold parseHeader
  generalize readExact 12 s = x at h1 ⊢
  obtain ⟨b, st, s1⟩ := x
  have h2 : P (readExact 4 s1).2.2 := readLoop_inv P hP _ _ _ _ _ _ h1
  simp only at h1
  split
  · next heq =>
    cases heq
    split
    · exact h1
    · split
      · exact h1
      · split
        · exact h1
        · split
          · next heq => rw [heq] at h2; split <;> exact h2
          · next heq => rw [heq] at h2; exact h2
      · exact h1
  · next heq => cases heq; exact h1

theorem chunkCtx_inv [Reader ρ] (P : ρ → Prop) (hP : ∀ s n, 1 ≤ n → P s → P (Reader.read s n).2) (pol : Pol) (s : ρ) (h : P s) :
    P (chunkCtx pol s).2 := by
  have h1 := parseHeader_inv P hP s h
  unfold chunkCtx
  generalize parseHeader s = x at h1 ⊢
  obtain ⟨c, x, s1⟩ := x
  simp only at h1
  cases x with
  | error e => simp only; split <;> exact h1
  | ok v =>
    obtain ⟨hd, hb⟩ := v
    simp only
    split
    · exact h1
    · have h2 : P (readUpTo pol hd.length.toNat s1).2.2 := readLoop_inv P hP _ _ _ _ _ _ h1
      generalize readUpTo pol hd.length.toNat s1 = x at h2 ⊢
      obtain ⟨b, st, s2⟩ := x
      simp only at h2
      have h3 : P (readUpTo pol 4 s2).2.2 := readLoop_inv P hP _ _ _ _ _ _ h2
      split
      · next heq => cases heq; exact h2
      · next heq =>
        cases heq
        split
        · exact h2
        · split
          · split
            · next heq => rw [heq] at h3; exact h3
            · next heq => rw [heq] at h3; split <;> exact h3
          · exact h2

theorem chunk_inv [Reader ρ] (P : ρ → Prop) (hP : ∀ s n, 1 ≤ n → P s → P (Reader.read s n).2) (pol : Pol) (s : ρ) (h : P s) :
    P (chunk pol s).2 := by
  have h1 := chunkCtx_inv P hP pol s h
  unfold chunk
  generalize chunkCtx pol s = x at h1 ⊢
  obtain ⟨x, s1⟩ := x
  cases x <;> exact h1

theorem nextRecord_inv [Reader ρ] (P : ρ → Prop) (hP : ∀ s n, 1 ≤ n → P s → P (Reader.read s n).2) (pol : Pol) (s : ρ) (h : P s) :
    P (nextRecord pol s).2 := by
  have h1 := chunk_inv P hP pol s h
  unfold nextRecord
  generalize chunk pol s = x at h1 ⊢
  obtain ⟨x, s1⟩ := x
  cases x with
  | error e => exact h1
  | ok r => simp only; cases r.parse <;> exact h1

theorem readCandidate_inv [Reader ρ] (P : ρ → Prop) (hP : ∀ s n, 1 ≤ n → P s → P (Reader.read s n).2) (pol : Pol) (s : ρ) (h : P s) :
    P (readCandidate pol s).2 := by
  have h1 := parseHeader_inv P hP s h
  unfold readCandidate
  generalize parseHeader s = x at h1 ⊢
  obtain ⟨c, x, s1⟩ := x
  simp only at h1
  cases x with
  | error e => exact h1
  | ok v =>
    obtain ⟨hd, hb⟩ := v
    simp only
    split
    · exact h1
    · generalize microsTooBig hd = big
      cases big with
      | true => exact h1
      | false =>
        rw [if_neg (by simp)]
        have h2 : P (readUpTo pol hd.length.toNat s1).2.2 := readLoop_inv P hP _ _ _ _ _ _ h1
        split
        · next heq => rw [heq] at h2; exact h2
        · next heq =>
          rw [heq] at h2
          split
          · exact h2
          · split <;> exact h2

/-! ### the window -/

/-- nothing but bytes. -/
def PureT (t : List Tok) : Prop := t = byteToks (dataOf t)

theorem PureT.bytes (b : Bytes) : PureT (byteToks b) := by rw [PureT, dataOf_byteToks]

theorem PureT.right {a : Bytes} {t : List Tok} (h : PureT (byteToks a ++ t)) : PureT t := by
  rw [PureT, dataOf_append, dataOf_byteToks, byteToks_append] at h
  exact List.append_cancel_left h

theorem PureT.append {a : Bytes} {t : List Tok} (h : PureT t) : PureT (byteToks a ++ t) := by
  rw [PureT, dataOf_append, dataOf_byteToks, byteToks_append, ← h]

theorem PureT.not_zero {t : List Tok} : ¬ PureT (.zero :: t) := by
  intro h
  rw [PureT] at h
  cases hd : dataOf (.zero :: t) <;> rw [hd] at h <;> simp [byteToks] at h

theorem PureT.not_fail {k : Bool} {t : List Tok} : ¬ PureT (.fail k :: t) := by
  intro h
  rw [PureT] at h
  cases hd : dataOf (.fail k :: t) <;> rw [hd] at h <;> simp [byteToks] at h

/-- A calm reader of a file. -/
def FileLike [LReader ρ] (s : ρ) : Prop := PureT (del s) ∧ stk s = none ∧ calm s

/-- `A` are the bytes from the start of the window on; `pure` says that the reader is that of a file. -/
structure WInv [LReader ρ] (A : Bytes) (base : Nat) (pure : Prop) (w : Replay ρ) : Prop where
  base : w.base = base
  cursor : w.cursor ≤ w.data.length
  all : w.data ++ dataOf (del w.inner) = A
  file : pure → FileLike w.inner

theorem FileLike.read [LReader ρ] {s : ρ} (h : FileLike s) (n : Nat) (hn : 1 ≤ n) :
    FileLike (Reader.read s n).2 ∧ match Reader.read s n with
      | (.got c, s') => c ≠ [] ∧ c.length ≤ n ∧ del s = byteToks c ++ del s'
      | (.zero, s') => del s = [] ∧ del s' = []
      | _ => False := by
  obtain ⟨h1, h2, h3⟩ := h
  have a := LReader.read_ok s n hn
  have b := LReader.calm_ok s n h3
  generalize Reader.read s n = x at a b ⊢
  obtain ⟨x, s'⟩ := x
  obtain ⟨a1, a2⟩ := a
  cases x with
  | got c =>
    obtain ⟨g1, g2, g3, g4⟩ := a2
    exact ⟨⟨by rw [g3] at h1; exact h1.right, by rw [a1, h2], b.2⟩, g1, g2, g3⟩
  | zero =>
    rcases a2 with a2 | ⟨a2, a3, _⟩
    · rw [a2] at h1; exact absurd h1 PureT.not_zero
    · exact ⟨⟨by rw [a3]; rfl, by rw [a1, h2], b.2⟩, a2, a3⟩
  | interrupted => exact absurd rfl b.1
  | failed k =>
    rcases a2 with a2 | ⟨_, _, a3⟩
    · rw [a2] at h1; exact absurd h1 PureT.not_fail
    · rw [h2] at a3; cases a3

/-- one `read` keeps the data together. -/
theorem read_data [LReader ρ] (s : ρ) (n : Nat) (hn : 1 ≤ n) :
    dataOf (del s) = (match (Reader.read s n).1 with | .got c => c | _ => []) ++ dataOf (del (Reader.read s n).2) := by
  have a := LReader.read_ok s n hn
  generalize Reader.read s n = x at a ⊢
  obtain ⟨x, s'⟩ := x
  obtain ⟨a1, a2⟩ := a
  cases x with
  | got c => rw [a2.2.2.1, dataOf_append, dataOf_byteToks]
  | zero => rcases a2 with a2 | ⟨a2, a3, _⟩ <;> simp_all [dataOf]
  | interrupted => rw [a2.1]; rfl
  | failed k => rcases a2 with a2 | ⟨a2, a3, _⟩ <;> simp_all [dataOf]

theorem WInv.read [LReader ρ] {A : Bytes} {base : Nat} {pure : Prop} (w : Replay ρ) (n : Nat) (hn : 1 ≤ n)
    (h : WInv A base pure w) : WInv A base pure (Reader.read w n).2 := by
  obtain ⟨i, data, cursor, b⟩ := w
  obtain ⟨h1, h2, h3, h4⟩ := h
  simp only at h1 h2 h3 h4
  show WInv A base pure (Replay.read ⟨i, data, cursor, b⟩ n).2
  simp only [Replay.read]
  cases hd : data.drop cursor with
  | nil =>
    have hlen : data.length ≤ cursor := List.drop_eq_nil_iff.mp hd
    have a := read_data i n hn
    have f := fun hp => ((h4 hp).read n hn).1
    simp only
    generalize Reader.read i n = x at a f ⊢
    obtain ⟨x, i'⟩ := x
    simp only at a f
    cases x with
    | got c => exact ⟨h1, by simp; omega, by rw [← h3, a]; simp, f⟩
    | _ => exact ⟨h1, h2, by rw [← h3, a]; simp, f⟩
  | cons x bs =>
    refine ⟨h1, ?_, h3, h4⟩
    have : (x :: bs).length = data.length - cursor := by rw [← hd]; simp
    simp only [List.length_take]
    omega

theorem WInv.rest [LReader ρ] {A : Bytes} {base : Nat} {pure : Prop} {w : Replay ρ} (h : WInv A base pure w) :
    dataOf (del w) = A.drop w.cursor := by
  rw [del_replay, dataOf_append, dataOf_byteToks, ← h.all, List.drop_append_of_le_length h.cursor]

theorem WInv.cursor_le [LReader ρ] {A : Bytes} {base : Nat} {pure : Prop} {w : Replay ρ} (h : WInv A base pure w) :
    w.cursor ≤ A.length := by
  have := h.cursor
  rw [← h.all, List.length_append]; omega

theorem WInv.pureT [LReader ρ] {A : Bytes} {base : Nat} {pure : Prop} {w : Replay ρ} (h : WInv A base pure w) (hp : pure) :
    del w = byteToks (A.drop w.cursor) ∧ stk w = none := by
  refine ⟨?_, (h.file hp).2.1⟩
  have : PureT (del w) := by rw [del_replay]; exact (h.file hp).1.append
  rw [← h.rest]; exact this

/-- where the cursor is after bytes were taken. -/
theorem WInv.moved [LReader ρ] {A : Bytes} {base : Nat} {pure : Prop} {w w' : Replay ρ} (h : WInv A base pure w)
    (h' : WInv A base pure w') {b : Bytes} (hd : del w = byteToks b ++ del w') :
    A.drop w.cursor = b ++ A.drop w'.cursor ∧ w'.cursor = w.cursor + b.length := by
  have e : A.drop w.cursor = b ++ A.drop w'.cursor := by
    rw [← h.rest, ← h'.rest, hd, dataOf_append, dataOf_byteToks]
  refine ⟨e, ?_⟩
  have := congrArg List.length e
  have a := h.cursor_le
  have b := h'.cursor_le
  simp only [List.length_drop, List.length_append] at this
  omega

theorem WInv.fill [LReader ρ] {A : Bytes} {base : Nat} {pure : Prop} (target fuel : Nat) : ∀ w : Replay ρ,
    WInv A base pure w → target - w.data.length < fuel →
    WInv A base pure (w.fill target fuel).2 ∧ match w.fill target fuel with
      | (.ok true, w') => w'.cursor = target
      | (.ok false, w') => w'.data.length < target ∧ (pure → w'.data = A)
      | (.error e, _) => e ≠ .panic ∧ ¬ pure := by
  induction fuel with
  | zero => intro w _ h; omega
  | succ fuel ih =>
    intro w h hf
    simp only [Replay.fill]
    by_cases hl : w.data.length < target
    · rw [if_pos hl]
      have hn : 1 ≤ min (target - w.data.length) 8192 := by omega
      have a := read_data w.inner _ hn
      have l := (LReader.read_ok w.inner _ hn).2
      have f := fun hp => (h.file hp).read _ hn
      generalize Reader.read w.inner (min (target - w.data.length) 8192) = x at a f l ⊢
      obtain ⟨x, i'⟩ := x
      simp only at a f l
      cases x with
      | got c =>
        have hc : 1 ≤ c.length := by
          have := l.1
          cases c with
          | nil => exact absurd rfl this
          | cons _ _ => simp
        exact ih _ ⟨h.base, by have := h.cursor; simp; omega, by rw [← h.all, a]; simp, fun hp => (f hp).1⟩
          (by simp; omega)
      | zero =>
        refine ⟨⟨h.base, Nat.le_refl _, by rw [← h.all, a]; rfl, fun hp => (f hp).1⟩, hl, fun hp => ?_⟩
        rw [← h.all, a, (f hp).2.2]
        simp [dataOf]
      | interrupted => exact ⟨⟨h.base, h.cursor, by rw [← h.all, a]; rfl, fun hp => (f hp).1⟩, by simp, fun hp => (f hp).2⟩
      | failed k => exact ⟨⟨h.base, h.cursor, by rw [← h.all, a]; rfl, fun hp => (f hp).1⟩, by simp, fun hp => (f hp).2⟩
    · rw [if_neg hl]
      exact ⟨⟨h.base, by simp only; omega, h.all, h.file⟩, rfl⟩

theorem WInv.moveTo [LReader ρ] {A : Bytes} {base : Nat} {pure : Prop} {w : Replay ρ} (h : WInv A base pure w) (j : Nat) :
    WInv A base pure (w.moveTo (base + j)).2 ∧ match w.moveTo (base + j) with
      | (.ok true, w') => w'.cursor = j
      | (.ok false, w') => w'.data.length < j ∧ (pure → w'.data = A)
      | (.error e, _) => e ≠ .panic ∧ ¬ pure := by
  unfold Replay.moveTo
  rw [h.base, if_neg (by omega)]
  have : base + j - base = j := by omega
  rw [this]
  exact h.fill j _ w (by omega)

theorem WInv.peek [LReader ρ] {A : Bytes} {base : Nat} {pure : Prop} {w : Replay ρ} (h : WInv A base pure w) (j : Nat) :
    WInv A base pure (w.peekTwoAt (base + j)).2 ∧ match w.peekTwoAt (base + j) with
      | (.ok (some (a, b)), _) => ∃ t, A.drop j = a :: b :: t
      | (.ok none, w') => w'.data.length < j + 2 ∧ (pure → w'.data = A)
      | (.error e, _) => e ≠ .panic ∧ ¬ pure := by
  have hm := h.moveTo (j + 2)
  unfold Replay.peekTwoAt
  rw [Nat.add_assoc]
  generalize w.moveTo (base + (j + 2)) = x at hm ⊢
  obtain ⟨x, w'⟩ := x
  obtain ⟨h1, h2⟩ := hm
  cases x with
  | error e => exact ⟨h1, h2⟩
  | ok v =>
    cases v with
    | false => exact ⟨h1, h2⟩
    | true =>
      simp only at h1 h2 ⊢
      have hc := h1.cursor
      have e : w'.data.drop (base + j - w'.base) = w'.data.drop j := by rw [h1.base]; congr 1; omega
      rw [e]
      have hl : (w'.data.drop j).length ≥ 2 := by simp; omega
      have e2 : A.drop j = w'.data.drop j ++ dataOf (del w'.inner) := by
        rw [← h1.all, List.drop_append_of_le_length (by omega)]
      rw [e2]
      match hd : w'.data.drop j with
      | [] => rw [hd] at hl; simp at hl
      | [x] => rw [hd] at hl; simp at hl
      | x :: y :: t => exact ⟨h1, _, rfl⟩

end Verif
