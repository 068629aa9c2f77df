import Verif.Spec.MrtFrame
import Verif.Lemmas.Rd
/-
The read loops depend on what the reader delivers only.
-/
namespace Verif
open Spec

/-- Taking `n` bytes from a delivery. -/
def takeT (k : Option Bool) : Nat → List Tok → Bytes × Stop × List Tok
  | 0, t => ([], .full, t)
  | _ + 1, [] => ([], match k with | none => .short | some k => .failed k, [])
  | n + 1, .byte b :: t => (b :: (takeT k n t).1, (takeT k n t).2.1, (takeT k n t).2.2)
  | _ + 1, .zero :: t => ([], .short, t)
  | _ + 1, .fail k :: t => ([], .failed k, t)

theorem toks_push (c : Bytes) (r : List Ev) : toks (push c r) = byteToks c ++ toks r := by
  cases c <;> simp [push, toks, byteToks]

def evSize (evs : List Ev) : Nat := Src.size ⟨evs, none⟩

theorem size_push (c : Bytes) (r : List Ev) (k : Option Bool) :
    Src.size ⟨push c r, k⟩ = c.length + Src.size ⟨r, k⟩ := by
  cases c <;> simp [push, Src.size]

theorem takeT_bytes (k : Option Bool) (c : Bytes) (n : Nat) (t : List Tok) (h : c.length ≤ n) :
    takeT k n (byteToks c ++ t) =
      (c ++ (takeT k (n - c.length) t).1, (takeT k (n - c.length) t).2.1, (takeT k (n - c.length) t).2.2) := by
  induction c generalizing n with
  | nil => simp [byteToks]
  | cons b bs ih =>
    cases n with
    | zero => simp at h
    | succ n =>
      have := ih n (by simpa using h)
      simp only [byteToks, List.map_cons, List.cons_append, takeT, List.length_cons, Nat.add_sub_add_right] at *
      rw [this]

/-- What one `read` does to what the reader will deliver (`d` before, `d'` after) and to the fuel. -/
def ReadLaw (n : Nat) (r : ReadRes) (d d' : List Tok) (k : Option Bool) (z z' : Nat) : Prop :=
  match r with
  | .got c => c ≠ [] ∧ c.length ≤ n ∧ d = byteToks c ++ d' ∧ z' < z
  | .zero => d = .zero :: d' ∨ d = [] ∧ d' = [] ∧ k = none
  | .interrupted => d' = d ∧ z' < z
  | .failed e => d = .fail e :: d' ∨ d = [] ∧ d' = [] ∧ k = some e

/-- What the loops need to know about a reader: what it will deliver, how it ends, and that `read` takes from the front of
that. -/
class LReader (ρ : Type) extends Reader ρ where
  del : ρ → List Tok
  stk : ρ → Option Bool
  read_ok : ∀ (s : ρ) (n : Nat), 1 ≤ n → stk (read s n).2 = stk s ∧
    ReadLaw n (read s n).1 (del s) (del (read s n).2) (stk s) (size s) (size (read s n).2)
  /-- the reader never says `Interrupted` -/
  calm : ρ → Prop
  calm_ok : ∀ (s : ρ) (n : Nat), calm s → (read s n).1 ≠ .interrupted ∧ calm (read s n).2

export LReader (del stk calm)

instance : LReader Src where
  del s := toks s.evs
  stk s := s.stuck
  read_ok := by
    rintro ⟨evs, k⟩ n hn
    show (Src.read ⟨evs, k⟩ n).2.stuck = k ∧ ReadLaw n (Src.read ⟨evs, k⟩ n).1 (toks evs) (toks (Src.read ⟨evs, k⟩ n).2.evs) k
      (Src.size ⟨evs, k⟩) (Src.size (Src.read ⟨evs, k⟩ n).2)
    cases evs with
    | nil => cases k <;> exact ⟨rfl, .inr ⟨rfl, rfl, rfl⟩⟩
    | cons e r =>
      cases e with
      | data b bs =>
        refine ⟨rfl, ?_, ?_, ?_, ?_⟩
        · cases n with
          | zero => omega
          | succ n => simp
        · simp; omega
        · show toks (Ev.data b bs :: r) = byteToks ((b :: bs).take n) ++ toks (push ((b :: bs).drop n) r)
          rw [toks_push, ← List.append_assoc]
          simp only [toks, byteToks, ← List.map_append, List.take_append_drop]
        · show Src.size ⟨push ((b :: bs).drop n) r, k⟩ < Src.size ⟨.data b bs :: r, k⟩
          rw [size_push]; simp [Src.size]; omega
      | interrupted => exact ⟨rfl, rfl, by show Src.size ⟨r, k⟩ < Src.size ⟨.interrupted :: r, k⟩; simp [Src.size]⟩
      | zero => exact ⟨rfl, .inl rfl⟩
      | fail x => exact ⟨rfl, .inl rfl⟩
  calm s := .interrupted ∉ s.evs
  calm_ok := by
    rintro ⟨evs, k⟩ n h
    show (Src.read ⟨evs, k⟩ n).1 ≠ .interrupted ∧ Ev.interrupted ∉ (Src.read ⟨evs, k⟩ n).2.evs
    cases evs with
    | nil => cases k <;> simp [Src.read]
    | cons e r =>
      cases e with
      | data b bs =>
        refine ⟨by simp [Src.read], ?_⟩
        show Ev.interrupted ∉ push ((b :: bs).drop n) r
        cases (b :: bs).drop n <;> simpa [push] using h
      | interrupted => exact absurd (List.mem_cons_self ..) h
      | zero => exact ⟨by simp [Src.read], fun hh => h (List.mem_cons_of_mem _ hh)⟩
      | fail x => exact ⟨by simp [Src.read], fun hh => h (List.mem_cons_of_mem _ hh)⟩

theorem readLoop_eqG [LReader ρ] (pol : Pol) (total fuel : Nat) : ∀ (hist : List Nat) (n : Nat) (s : ρ),
    Reader.size s < fuel →
    ∃ s', readLoop pol total fuel hist n s = ((takeT (stk s) n (del s)).1, (takeT (stk s) n (del s)).2.1, s') ∧
      del s' = (takeT (stk s) n (del s)).2.2 ∧ stk s' = stk s := by
  induction fuel with
  | zero => intro hist n s h; omega
  | succ fuel ih =>
    intro hist n s h
    cases n with
    | zero => exact ⟨s, rfl, rfl, rfl⟩
    | succ n =>
      generalize hm : max 1 (min (n + 1) (pol total hist)) = m
      have hm1 : 1 ≤ m := by omega
      have hm2 : m ≤ n + 1 := by omega
      have hr := LReader.read_ok s m hm1
      simp only [readLoop, hm]
      generalize Reader.read s m = x at hr ⊢
      obtain ⟨x, s1⟩ := x
      obtain ⟨hk, hr⟩ := hr
      simp only at hk hr
      cases x with
      | got c =>
        obtain ⟨hc, hcn, hd, hsz⟩ := hr
        obtain ⟨s', h1, h2, h3⟩ := ih (c.length :: hist) (n + 1 - c.length) s1 (by omega)
        rw [hk] at h1 h2 h3
        refine ⟨s', ?_, ?_, h3⟩
        · simp only
          rw [h1, hd, takeT_bytes _ _ _ _ (by omega)]
        · rw [h2, hd, takeT_bytes _ _ _ _ (by omega)]
      | zero =>
        refine ⟨s1, ?_⟩
        rcases hr with hr | ⟨hr, h1, h2⟩
        · rw [hr]; exact ⟨rfl, rfl, hk⟩
        · rw [hr, h2]; exact ⟨rfl, h1, by rw [hk, h2]⟩
      | interrupted =>
        obtain ⟨hd, hsz⟩ := hr
        obtain ⟨s', h1, h2, h3⟩ := ih (0 :: hist) (n + 1) s1 (by omega)
        rw [hk, hd] at h1 h2
        exact ⟨s', h1, h2, by rw [h3, hk]⟩
      | failed k =>
        refine ⟨s1, ?_⟩
        rcases hr with hr | ⟨hr, h1, h2⟩
        · rw [hr]; exact ⟨rfl, rfl, hk⟩
        · rw [hr, h2]; exact ⟨rfl, h1, by rw [hk, h2]⟩

theorem readExact_eqG [LReader ρ] (n : Nat) (s : ρ) :
    ∃ s', readExact n s = ((takeT (stk s) n (del s)).1, (takeT (stk s) n (del s)).2.1, s') ∧
      del s' = (takeT (stk s) n (del s)).2.2 ∧ stk s' = stk s :=
  readLoop_eqG _ _ _ _ _ _ (by omega)

theorem readUpTo_eqG [LReader ρ] (pol : Pol) (n : Nat) (s : ρ) :
    ∃ s', readUpTo pol n s = ((takeT (stk s) n (del s)).1, (takeT (stk s) n (del s)).2.1, s') ∧
      del s' = (takeT (stk s) n (del s)).2.2 ∧ stk s' = stk s :=
  readLoop_eqG _ _ _ _ _ _ (by omega)

theorem readExact_eq (n : Nat) (s : Src) :
    ∃ s', readExact n s = ((takeT s.stuck n (toks s.evs)).1, (takeT s.stuck n (toks s.evs)).2.1, s') ∧
      toks s'.evs = (takeT s.stuck n (toks s.evs)).2.2 ∧ s'.stuck = s.stuck := readExact_eqG n s

theorem readUpTo_eq (pol : Pol) (n : Nat) (s : Src) :
    ∃ s', readUpTo pol n s = ((takeT s.stuck n (toks s.evs)).1, (takeT s.stuck n (toks s.evs)).2.1, s') ∧
      toks s'.evs = (takeT s.stuck n (toks s.evs)).2.2 ∧ s'.stuck = s.stuck := readUpTo_eqG pol n s

/-! ### facts about `takeT` -/

theorem dataOf_append (a b : List Tok) : dataOf (a ++ b) = dataOf a ++ dataOf b := by
  induction a with
  | nil => rfl
  | cons x a ih => cases x <;> simp [dataOf, ih]

theorem dataOf_byteToks (b : Bytes) : dataOf (byteToks b) = b := by
  induction b with
  | nil => rfl
  | cons x b ih => simpa [byteToks, dataOf] using ih

theorem byteToks_append (a b : Bytes) : byteToks (a ++ b) = byteToks a ++ byteToks b := by simp [byteToks]

/-- What was taken: bytes in front, then possibly the token that ended it. -/
theorem takeT_split (k : Option Bool) (n : Nat) (t : List Tok) :
    ∃ e, t = byteToks (takeT k n t).1 ++ e ++ (takeT k n t).2.2 ∧ dataOf e = [] ∧
      ((takeT k n t).2.1 = .full → e = [] ∧ (takeT k n t).1.length = n) ∧
      ((takeT k n t).2.1 ≠ .full → (takeT k n t).1.length < n) ∧
      ((takeT k n t).2.1 ≠ .full → e = [] → (takeT k n t).2.2 = []) := by
  induction n generalizing t with
  | zero => exact ⟨[], by simp [takeT, byteToks, dataOf]⟩
  | succ n ih =>
    cases t with
    | nil =>
      refine ⟨[], ?_⟩
      cases k <;> simp [takeT, byteToks, dataOf]
    | cons x t =>
      cases x with
      | byte b =>
        obtain ⟨e, h1, h2, h3, h4, h5⟩ := ih t
        refine ⟨e, ?_, h2, ?_, ?_, ?_⟩
        · simp only [takeT, byteToks, List.map_cons, List.cons_append, List.cons.injEq, true_and]
          simpa [byteToks] using h1
        · simpa [takeT] using h3
        · simpa [takeT] using h4
        · simpa [takeT] using h5
      | zero => exact ⟨[.zero], by simp [takeT, byteToks, dataOf]⟩
      | fail z => exact ⟨[.fail z], by simp [takeT, byteToks, dataOf]⟩

theorem takeT_full (k : Option Bool) (c : Bytes) (t : List Tok) :
    takeT k c.length (byteToks c ++ t) = (c, .full, t) := by
  rw [takeT_bytes _ _ _ _ (Nat.le_refl _)]
  simp [takeT]

theorem takeT_full' (k : Option Bool) (n : Nat) (c : Bytes) (t : List Tok) (h : c.length = n) :
    takeT k n (byteToks c ++ t) = (c, .full, t) := by
  subst h; exact takeT_full k c t

end Verif
