import Verif.Spec.Wasm
import Verif.Lemmas.MrtIter
import Verif.Lemmas.RecoveryMore
import Verif.Props.Mrt
/-
Lemmas about the functions exported to JavaScript.
-/
namespace Verif.Props
open Spec

theorem left_bytes : ∀ (evs : List Ev) (k : Option Bool) (b : Bytes), toks evs = byteToks b → (Src.mk evs k).left = b.length
  | [], k, b, h => by
    have : b = [] := by simpa [toks, byteToks] using h.symm
    subst this; rfl
  | .data x xs :: r, k, b, h => by
    simp only [toks] at h
    have hl := congrArg List.length h.symm
    have hx : b.take (xs.length + 1) = x :: xs ∧ toks r = byteToks (b.drop (xs.length + 1)) := by
      have e : byteToks b = byteToks (b.take (xs.length + 1)) ++ byteToks (b.drop (xs.length + 1)) := by
        simp only [byteToks, ← List.map_append, List.take_append_drop]
      rw [e] at h
      have hlen : (byteToks (x :: xs)).length = (byteToks (b.take (xs.length + 1))).length := by
        have : (byteToks (x :: xs)).length ≤ (byteToks b).length := by rw [hl]; simp
        rw [byteToks_length, byteToks_length] at this ⊢
        rw [List.length_take]; simp at this ⊢; omega
      obtain ⟨h1, h2⟩ := List.append_inj h hlen
      exact ⟨(byteToks_inj h1).symm, h2⟩
    have ih := left_bytes r k _ hx.2
    have hb : (xs.length + 1) ≤ b.length := by
      have := congrArg List.length hx.1
      rw [List.length_take] at this; simp at this; omega
    simp only [Src.left, List.map_cons, List.sum_cons] at ih ⊢
    rw [ih, List.length_drop]; omega
  | .interrupted :: r, k, b, h => by
    have ih := left_bytes r k b h
    simp only [Src.left, List.map_cons, List.sum_cons] at ih ⊢
    omega
  | .zero :: r, k, b, h => by
    simp only [toks] at h
    cases b <;> simp [byteToks] at h
  | .fail _ :: r, k, b, h => by
    simp only [toks] at h
    cases b <;> simp [byteToks] at h

theorem cursor_delivers (d : Bytes) : Delivers (cursor d) d := by
  cases d with
  | nil => exact ⟨rfl, rfl⟩
  | cons x xs => exact ⟨by simp [cursor, push, toks], rfl⟩

theorem byteToks_append (a b : Bytes) : byteToks (a ++ b) = byteToks a ++ byteToks b := by simp [byteToks]

theorem frame_small {raw : Raw} {b : Bytes} (h : Frame raw b) : b.length < 4294967296 := by
  obtain ⟨h1, h2, h3, h4⟩ := h
  have := HeaderBytes_length h1
  rw [h3, List.length_append, h4]
  split <;> split at this <;> omega

/-- reading a record from a buffer -/
theorem chunk_cursor (pol : Pol) {raw : Raw} {b : Bytes} (rest : Bytes) (hf : Frame raw b) :
    ∃ s, chunk pol (cursor (b ++ rest)) = (.ok raw, s) ∧ toks s.evs = byteToks rest ∧ s.left = rest.length := by
  obtain ⟨s, h1, h2, h3⟩ := c21_record_read pol (cursor (b ++ rest)) raw b (byteToks rest) hf
    (by rw [(cursor_delivers _).1, byteToks_append])
  exact ⟨s, h1, h2, left_bytes s.evs s.stuck _ h2⟩

theorem chunk_cursor_ok (pol : Pol) {raw : Raw} {d : Bytes} {s : Src} (h : chunk pol (cursor d) = (.ok raw, s)) :
    ∃ rest, d = raw.bytes ++ rest ∧ Frame raw raw.bytes ∧ s.left = rest.length := by
  obtain ⟨h1, _, _, h4⟩ := c21_record_bytes pol _ _ _ h
  rw [(cursor_delivers d).1] at h4
  have hd : ∃ rest, d = raw.bytes ++ rest := by
    refine ⟨d.drop raw.bytes.length, ?_⟩
    have e : byteToks d = byteToks (d.take raw.bytes.length) ++ byteToks (d.drop raw.bytes.length) := by
      rw [← byteToks_append, List.take_append_drop]
    have hl : raw.bytes.length ≤ d.length := by
      have := congrArg List.length h4
      rw [byteToks_length, List.length_append, byteToks_length] at this; omega
    rw [e] at h4
    obtain ⟨g1, g2⟩ := List.append_inj h4 (by rw [byteToks_length, byteToks_length, List.length_take]; omega)
    have := byteToks_inj g1
    conv => lhs; rw [← List.take_append_drop raw.bytes.length d, this]
  obtain ⟨rest, rfl⟩ := hd
  refine ⟨rest, rfl, h1, left_bytes s.evs s.stuck _ ?_⟩
  rw [byteToks_append] at h4
  exact (List.append_cancel_left h4).symm

/-- records at the front are unique -/
theorem frame_unique {r1 r2 : Raw} {b1 b2 t1 t2 : Bytes} (h1 : Frame r1 b1) (h2 : Frame r2 b2) (h : b1 ++ t1 = b2 ++ t2) :
    r1 = r2 ∧ b1 = b2 ∧ t1 = t2 := by
  obtain ⟨s1, g1, k1, _⟩ := chunk_cursor (fun n _ => n) t1 h1
  obtain ⟨s2, g2, k2, _⟩ := chunk_cursor (fun n _ => n) t2 h2
  rw [h, g2] at g1
  cases g1
  have ht : t1 = t2 := byteToks_inj (k1.symm.trans k2)
  subst ht
  exact ⟨rfl, List.append_cancel_right h, rfl⟩

end Verif.Props
