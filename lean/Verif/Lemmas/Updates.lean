import Verif.Lemmas.FilterIter
import Verif.Lemmas.RouteRec
import Verif.Spec.Updates
/-
The iterators over announcements.
-/
namespace Verif
open Spec

theorem micros_header (h : Header) : h.micros = headerMicros h := by
  unfold Header.micros headerMicros
  cases h.micro <;> simp

/-- one round of the loop against the specification. -/
theorem recordUpdate_spec (el : Elementor) (r : MrtRecord) :
    (∃ u el', recordUpdate [] el r = (some u, [], el') ∧ updatesOf r = [u]) ∨
    (∃ p el', recordUpdate [] el r = (none, p, el') ∧ updatesOf r = p.reverse.map .tableDump) := by
  obtain ⟨h, m⟩ := r
  cases m with
  | tableDump m => exact .inl ⟨_, _, rfl, rfl⟩
  | tableDumpBatch ms => exact .inr ⟨ms.reverse, el, rfl, by simp [updatesOf]⟩
  | tableDumpV2 m =>
    cases m with
    | ribAfi t => exact .inl ⟨_, _, rfl, by rw [micros_header]; rfl⟩
    | _ => exact .inr ⟨[], _, rfl, rfl⟩
  | bgp4mp m =>
    cases m with
    | stateChange m => exact .inr ⟨[], _, rfl, rfl⟩
    | message m =>
      obtain ⟨a, b, c, d, e, f, g⟩ := m
      cases g with
      | update u => exact .inl ⟨_, _, rfl, by rw [micros_header]; rfl⟩
      | _ => exact .inr ⟨[], _, rfl, rfl⟩
  | legacyBgp m =>
    cases m with
    | stateChange m => exact .inr ⟨[], _, rfl, rfl⟩
    | message m =>
      obtain ⟨a, b, c, d, g⟩ := m
      cases g with
      | update u => exact .inl ⟨_, _, rfl, by rw [micros_header]; rfl⟩
      | _ => exact .inr ⟨[], _, rfl, rfl⟩

/-- what is still to come from an iterator at this point of a delivery. -/
def UpdatesLeft (R : List Tok → List Item → Prop) (k : Option Bool) (it : UpdatesIter) (l : List (Except RecErr MrtUpdate)) : Prop :=
  ∃ t items, it.text = false ∧ At k it.src t ∧ R t items ∧ l = it.pending.reverse.map (.ok ∘ .tableDump) ++ updateItems items

theorem getLast?_reverse_cons {l : List α} {x : α} {xs : List α} (h : l.reverse = x :: xs) :
    l.getLast? = some x ∧ l.dropLast.reverse = xs := by
  have : l = xs.reverse ++ [x] := by rw [← List.reverse_reverse l, h]; simp
  subst this
  simp

theorem updatesLoop_spec (cd : Bool) (pol : Pol) (k : Option Bool) (fuel : Nat) : ∀ (it : UpdatesIter) (l : List (Except RecErr MrtUpdate)),
    UpdatesLeft (RecsD cd k) k it l → (toks it.src.evs).length < fuel →
    (l = [] → (updatesLoop cd pol fuel it).1 = none) ∧
    (∀ x l', l = x :: l' → ∃ u it', x = .ok u ∧ updatesLoop cd pol fuel it = (some u, it') ∧ UpdatesLeft (RecsD cd k) k it' l') := by
  induction fuel with
  | zero => intro _ _ _ h; omega
  | succ fuel ih =>
    intro it l hl hf
    obtain ⟨t, items, h0, ha, hr, rfl⟩ := hl
    cases hp : it.pending.reverse with
    | cons m ms =>
      obtain ⟨g1, g2⟩ := getLast?_reverse_cons hp
      simp only [updatesLoop, g1]
      refine ⟨by simp, ?_⟩
      intro x l' hx
      simp only [List.map_cons, List.cons_append, List.cons.injEq, Function.comp_apply] at hx
      exact ⟨_, _, hx.1.symm, rfl, t, items, h0, ha, hr, by rw [g2, hx.2]⟩
    | nil =>
      have hp : it.pending = [] := by simpa using hp
      obtain ⟨s', e1, e2, e3⟩ := nextRecord_eq pol it.src
      obtain ⟨rfl, rfl⟩ := ha
      simp only [updatesLoop, hp, List.getLast?_nil, List.map_nil, List.nil_append, e1]
      have prog : ∀ {x t'}, nextT it.src.stuck (toks it.src.evs) = (x, t') → (∀ e, x = .error e → goesOn cd e.error = true) →
          t'.length < (toks it.src.evs).length := by
        intro x t' hn hx
        rcases nextT_progress hn with h | ⟨e, rfl, h⟩
        · omega
        · have := hx e rfl; rw [h cd] at this; cases this
      cases hr with
      | @ok _ r t' l hn hl =>
        have hlt := prog hn (by intro e h; cases h)
        rw [hn] at e2
        simp only [hn]
        simp only at e2
        rcases recordUpdate_spec it.elementor r with ⟨u, el', w1, w2⟩ | ⟨p, el', w1, w2⟩
        · simp only [w1]
          refine ⟨by simp [updateItems, w2], ?_⟩
          intro x l' hx
          simp only [updateItems, List.flatMap_cons, w2, List.map_cons, List.map_nil, List.cons_append, List.nil_append,
            List.cons.injEq] at hx
          exact ⟨u, _, hx.1.symm, rfl, t', l, h0, ⟨e2, e3⟩, hl, by rw [← hx.2]; rfl⟩
        · simp only [w1]
          refine ih ⟨it.text, p, el', s'⟩ _ ⟨t', l, h0, ⟨e2, e3⟩, hl, ?_⟩ (by show (toks s'.evs).length < fuel; rw [e2]; omega)
          simp [updateItems, w2]
      | @skip _ e t' _ hn hg hl =>
        have hlt := prog hn (by intro e h; cases h; exact hg)
        rw [hn] at e2
        simp only [hn, hg, if_true]
        simp only at e2
        refine ih { it with src := s', pending := [] } (updateItems items) ⟨t', _, h0, ⟨e2, e3⟩, hl, rfl⟩ (by show (toks s'.evs).length < fuel; rw [e2]; omega)
      | stop hn hg =>
        simp only [hn, hg, Bool.false_eq_true, if_false]
        exact ⟨fun _ => trivial, by simp [updateItems]⟩

theorem fallibleUpdatesLoop_spec (pol : Pol) (k : Option Bool) (hk : k ≠ some false) (fuel : Nat) : ∀ (it : UpdatesIter) (l : List (Except RecErr MrtUpdate)),
    UpdatesLeft (RecsF k) k it l → (toks it.src.evs).length < fuel →
    (l = [] → (fallibleUpdatesLoop pol fuel it).1 = none) ∧
    (∀ x l', l = x :: l' → ∃ it', fallibleUpdatesLoop pol fuel it = (some x, it') ∧ UpdatesLeft (RecsF k) k it' l') := by
  induction fuel with
  | zero => intro _ _ _ h; omega
  | succ fuel ih =>
    intro it l hl hf
    obtain ⟨t, items, h0, ha, hr, rfl⟩ := hl
    cases hp : it.pending.reverse with
    | cons m ms =>
      obtain ⟨g1, g2⟩ := getLast?_reverse_cons hp
      simp only [fallibleUpdatesLoop, g1]
      refine ⟨by simp, ?_⟩
      intro x l' hx
      simp only [List.map_cons, List.cons_append, List.cons.injEq, Function.comp_apply] at hx
      obtain ⟨rfl, rfl⟩ := hx
      exact ⟨_, rfl, t, items, h0, ha, hr, by rw [g2]⟩
    | nil =>
      have hp : it.pending = [] := by simpa using hp
      obtain ⟨s', e1, e2, e3⟩ := nextRecord_eq pol it.src
      obtain ⟨rfl, rfl⟩ := ha
      simp only [fallibleUpdatesLoop, hp, List.getLast?_nil, List.map_nil, List.nil_append, e1]
      cases hr with
      | @ok _ r t' l hn hl =>
        have hlt : t'.length < (toks it.src.evs).length := by
          rcases nextT_progress hn with h | ⟨e, h, _⟩
          · omega
          · cases h
        rw [hn] at e2
        simp only [hn]
        simp only at e2
        rcases recordUpdate_spec it.elementor r with ⟨u, el', w1, w2⟩ | ⟨p, el', w1, w2⟩
        · simp only [w1]
          refine ⟨by simp [updateItems, w2], ?_⟩
          intro x l' hx
          simp only [updateItems, List.flatMap_cons, w2, List.map_cons, List.map_nil, List.cons_append, List.nil_append,
            List.cons.injEq] at hx
          obtain ⟨rfl, rfl⟩ := hx
          exact ⟨_, rfl, t', l, h0, ⟨e2, e3⟩, hl, rfl⟩
        · simp only [w1]
          refine ih ⟨it.text, p, el', s'⟩ _ ⟨t', l, h0, ⟨e2, e3⟩, hl, ?_⟩ (by show (toks s'.evs).length < fuel; rw [e2]; omega)
          simp [updateItems, w2]
      | @error _ e t' l hn hg hl =>
        rw [hn] at e2
        simp only [hn, hg, if_false]
        simp only at e2
        refine ⟨by simp [updateItems], ?_⟩
        intro x l' hx
        simp only [updateItems, List.flatMap_cons, List.cons_append, List.nil_append, List.cons.injEq] at hx
        obtain ⟨rfl, rfl⟩ := hx
        exact ⟨_, rfl, t', l, h0, ⟨e2, e3⟩, hl, by simp [hp, updateItems]⟩
      | stop hn hg =>
        simp only [hn, hg, if_true]
        exact ⟨fun _ => trivial, by simp [updateItems]⟩

end Verif
