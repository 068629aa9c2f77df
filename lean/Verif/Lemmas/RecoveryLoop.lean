import Verif.Lemmas.Recovery
/-
The recovering iterators as loops.
-/
namespace Verif
open Spec

theorem carry_size (c : Carry Src) : (del c).length ≤ Reader.size c := by
  have := toks_length c.inner
  rw [del_carry, List.length_append, byteToks_length]
  exact Nat.add_le_add_left this _

/-- `recoveringLoop` does not depend on the fuel. -/
theorem recoveringLoop_fuel (f : Keep σ) (cfg : RecoveryConfig) (pol : Pol) (n : Nat) : ∀ (m : Nat) (st : Recovering σ),
    (del st.reader).length < n → (del st.reader).length < m →
    recoveringLoop f cfg pol n st = recoveringLoop f cfg pol m st := by
  induction n with
  | zero => intro m st h; omega
  | succ n ih =>
    intro m st h1 h2
    cases m with
    | zero => omega
    | succ m =>
      rw [recoveringLoop_step, recoveringLoop_step]
      have hs := recStep_ok cfg pol st
      generalize recStep cfg pol st = x at hs ⊢
      obtain ⟨x, st'⟩ := x
      match x, hs with
      | none, _ => rfl
      | some (.error _), _ => rfl
      | some (.ok (.gap _)), _ => rfl
      | some (.ok (.item m)), ⟨b, d', _, _, hn⟩ =>
        simp only
        split
        · rfl
        · exact ih _ _ (by have := hn.size; simp only; omega) (by have := hn.size; simp only; omega)

/-- One `next` in terms of the unfiltered step. -/
theorem recoveringNext_step (f : Keep σ) (cfg : RecoveryConfig) (pol : Pol) (st : Recovering σ) (hf : st.finished = false)
    (ht : st.text = false) :
    recoveringNext f cfg pol st = match recStep cfg pol st with
      | (some (.ok (.item m)), st') =>
        if (f.step st'.filter m).1 = true then (some (.ok (.item m)), { st' with filter := (f.step st'.filter m).2 })
        else recoveringNext f cfg pol { st' with filter := (f.step st'.filter m).2 }
      | x => x := by
  have e : ∀ st : Recovering σ, st.finished = false → st.text = false →
      recoveringNext f cfg pol st = recoveringLoop f cfg pol (Reader.size st.reader + 1) st := by
    intro st h1 h2
    unfold recoveringNext
    rw [h1, h2]
    rfl
  rw [e st hf ht, recoveringLoop_step]
  have hs := recStep_ok cfg pol st
  generalize recStep cfg pol st = x at hs ⊢
  obtain ⟨x, st'⟩ := x
  match x, hs with
  | none, _ => rfl
  | some (.error _), _ => rfl
  | some (.ok (.gap _)), _ => rfl
  | some (.ok (.item m)), ⟨b, d', _, _, hn⟩ =>
    simp only
    split
    · rfl
    · rw [e _ (by simp only; rw [hn.finished, hf]) (by simp only; rw [hn.text, ht])]
      have h1 := hn.size
      have h2 := carry_size st.reader
      have h3 := carry_size st'.reader
      exact recoveringLoop_fuel f cfg pol _ _ _ (by simp only; omega) (by simp only; omega)

theorem recoveringNext_done (f : Keep σ) (cfg : RecoveryConfig) (pol : Pol) (st : Recovering σ) (hf : st.finished = true) :
    recoveringNext f cfg pol st = (none, st) := by
  unfold recoveringNext
  rw [if_pos hf]

theorem forLoop_same {next : S → Option α × S} {s s' : S} (h : next s = next s') (n : Nat) :
    forLoop next (n + 1) s = forLoop next (n + 1) s' := by
  rw [forLoop, forLoop, h]

theorem forLoop_some {next : S → Option α × S} {s s' : S} {a : α} (h : next s = (some a, s')) (n : Nat) :
    forLoop next (n + 1) s = (a :: (forLoop next n s').1, (forLoop next n s').2.1, (forLoop next n s').2.2) := by
  rw [forLoop, h]

theorem forLoop_none {next : S → Option α × S} {s s' : S} (h : next s = (none, s')) (n : Nat) :
    forLoop next (n + 1) s = ([], true, s') := by
  rw [forLoop, h]

theorem intact_ne {m : MrtRecord} {b : Bytes} (h : Intact m b) : 12 ≤ b.length := by
  obtain ⟨r, hf, _⟩ := h
  exact Frame_length hf

theorem damaged_ne {e : Err} {b : Bytes} (h : Damaged e b) : 12 ≤ b.length := by
  obtain ⟨r, hf, _⟩ := h
  exact Frame_length hf

theorem noRecord_ne {d taken : Bytes} {e : Err} (h : NoRecord d e taken) : d ≠ [] := by
  rintro rfl
  rcases h.2 with ⟨_, h1, t, h2⟩ | ⟨_, ⟨hd, h1, _⟩, t, h2⟩ | ⟨_, _, _, h1, _⟩ | ⟨_, _, _, hd, hb, t, h1, h2⟩
  · have := h1.1
    have := congrArg List.length h2
    simp at this; omega
  · have := HeaderBytes_ge h1
    have := congrArg List.length h2
    simp at this; omega
  · exact h1 rfl
  · have := HeaderBytes_ge h1
    have := congrArg List.length h2
    simp at this; omega

theorem stuck_ne {n : Nat} {d : Bytes} {e : RecErr} (h : Stuck n d e) : d ≠ [] := by
  rcases h with ⟨taken, h, _⟩ | ⟨b, t, rfl, h, _⟩
  · exact noRecord_ne h
  · have := damaged_ne h
    intro h0
    have := congrArg List.length h0
    rw [List.length_append, List.length_nil] at this; omega

theorem fileEvents_nil {cfg : RecoveryConfig} {o : Nat} {d : Bytes} {es : List (Except RecoveryError (Event MrtRecord))}
    (h : FileEvents cfg o d es) (hd : d = []) : es = [] := by
  cases h with
  | done => rfl
  | record h _ => have := intact_ne h; have := congrArg List.length hd; rw [List.length_append, List.length_nil] at this; omega
  | aligned h _ _ => have := damaged_ne h; have := congrArg List.length hd; rw [List.length_append, List.length_nil] at this; omega
  | falseIo h _ => have := damaged_ne h; have := congrArg List.length hd; rw [List.length_append, List.length_nil] at this; omega
  | found h => exact absurd hd (stuck_ne h)
  | tail h => exact absurd hd (stuck_ne h)
  | exhausted h => exact absurd hd (stuck_ne h)

/-- The recovering iterator on a file. -/
theorem recovering_file (f : Keep σ) (cfg : RecoveryConfig) (pol : Pol) (N : Nat) : ∀ st : Recovering σ,
    (del st.reader).length ≤ N → st.finished = false → st.text = false → FileLike st.reader →
    ∃ es, FileEvents cfg st.reader.offset (dataOf (del st.reader)) es ∧
      ∀ n, (del st.reader).length < n → (forLoop (recoveringNext f cfg pol) n st).1 = applyKeep f st.filter es ∧
        (forLoop (recoveringNext f cfg pol) (n + 1) st).2.1 = true := by
  induction N with
  | zero =>
    intro st hN hfin htext hfile
    have hnil : del st.reader = [] := List.length_eq_zero_iff.mp (by omega)
    have hs := recStep_ok cfg pol st
    have hx := recoveringNext_step f cfg pol st hfin htext
    have hd : dataOf (del st.reader) = [] := by rw [hnil]; rfl
    rw [hd] at hs ⊢
    generalize recStep cfg pol st = x at hs hx
    obtain ⟨x, st'⟩ := x
    refine ⟨[], .done, ?_⟩
    match x, hs with
    | none, _ =>
      intro n hn
      cases n with
      | zero => omega
      | succ n => rw [forLoop_none hx]; exact ⟨rfl, by rw [forLoop_none hx]⟩
    | some (.error _), ⟨_, _, _, _, h⟩ =>
      rcases h hfile with ⟨e, b, d', h1, h2, _⟩ | ⟨e, h1, _⟩
      · have := damaged_ne h2; have := congrArg List.length h1; simp at this; omega
      · exact absurd rfl (stuck_ne h1)
    | some (.ok (.gap _)), ⟨b, d', h1, h2, _⟩ =>
      have := List.append_eq_nil_iff.mp h1.symm
      exact absurd this.1 h2
    | some (.ok (.item m)), ⟨b, d', h1, h2, _⟩ => have := intact_ne h2; have := congrArg List.length h1; simp at this; omega
  | succ N ih =>
    intro st hN hfin htext hfile
    have hs := recStep_ok cfg pol st
    have hx := recoveringNext_step f cfg pol st hfin htext
    generalize hst : recStep cfg pol st = x at hs hx
    obtain ⟨x, st'⟩ := x
    match x, hs with
    | none, ⟨_, _, h⟩ =>
      rw [h hfile]
      refine ⟨[], .done, fun n hn => ?_⟩
      cases n with
      | zero => omega
      | succ n => rw [forLoop_none hx]; exact ⟨rfl, by rw [forLoop_none hx]⟩
    | some (.error y), ⟨_, _, h2, _, h⟩ =>
      have hend : ∀ n, (del st.reader).length < n → (forLoop (recoveringNext f cfg pol) n st).1 = applyKeep f st.filter [.error y] ∧
          (forLoop (recoveringNext f cfg pol) (n + 1) st).2.1 = true := by
        intro n hn
        cases n with
        | zero => omega
        | succ n =>
          rw [forLoop_some hx, forLoop_some hx]
          have hd := recoveringNext_done f cfg pol st' h2
          refine ⟨?_, by rw [forLoop_none hd]⟩
          cases n with
          | zero => rfl
          | succ n => rw [forLoop_none hd]; rfl
      rcases h hfile with ⟨e, b, d', h1, h2, h3, rfl⟩ | ⟨e, h1, h2, h3, rfl⟩
      · rw [h1]
        exact ⟨_, .falseIo h2 h3, hend⟩
      · exact ⟨_, .exhausted h1 h2 h3, hend⟩
    | some (.ok (.item m)), ⟨b, d', h1, h2, hn⟩ =>
      simp only at hx
      have hfin' : st'.finished = false := by rw [hn.finished, hfin]
      have htext' : st'.text = false := by rw [hn.text, htext]
      obtain ⟨es, i1, i2⟩ := ih { st' with filter := (f.step st'.filter m).2 } (by have := hn.size; simp only; omega) hfin' htext' (hn.file hfile)
      simp only at i1 i2
      rw [hn.offset, hn.data] at i1
      rw [hn.filter] at hx i2
      refine ⟨.ok (.item m) :: es, by rw [h1]; exact .record h2 i1, fun n hlen => ?_⟩
      have hlen' := hn.size
      cases n with
      | zero => omega
      | succ n =>
        by_cases hk : (f.step st.filter m).1 = true
        · rw [if_pos hk] at hx
          rw [forLoop_some hx, forLoop_some hx]
          have := i2 n (by omega)
          simp only [applyKeep]
          rw [if_pos hk, this.1]
          exact ⟨rfl, this.2⟩
        · rw [if_neg hk] at hx
          have e := fun n => forLoop_same hx n
          rw [e, e]
          have := i2 (n + 1) (by omega)
          simp only [applyKeep]
          rw [if_neg hk]
          exact this
    | some (.ok (.gap g)), ⟨b, d', h1, h2, h3, h4, h5, hn, h6⟩ =>
      simp only at hx
      have hfin' : st'.finished = false := by rw [hn.finished, hfin]
      have htext' : st'.text = false := by rw [hn.text, htext]
      have hlen' := hn.size
      obtain ⟨es, i1, i2⟩ := ih st' (by omega) hfin' htext' (hn.file hfile)
      rw [hn.offset, hn.data] at i1
      rw [hn.filter] at i2
      have hend : ∀ n, (del st.reader).length < n → (forLoop (recoveringNext f cfg pol) n st).1 = applyKeep f st.filter (.ok (.gap g) :: es) ∧
          (forLoop (recoveringNext f cfg pol) (n + 1) st).2.1 = true := by
        intro n hlen
        cases n with
        | zero => omega
        | succ n =>
          rw [forLoop_some hx, forLoop_some hx]
          have := i2 n (by omega)
          simp only [applyKeep]
          rw [this.1]
          exact ⟨rfl, this.2⟩
      refine ⟨.ok (.gap g) :: es, ?_, hend⟩
      rcases h6 hfile with ⟨e, k, k1, k2, rfl⟩ | ⟨e, j, ev, k1, k2, k3, k4, k5, k6, rfl⟩ | ⟨e, k1, k2, k3, k4, k5, rfl⟩
      · rw [h1]
        exact .aligned k1 k2 i1
      · have hd : (dataOf (del st.reader)).drop j = d' := by rw [h1, ← k4]; simp
        refine .found k1 k2 k3 k5 k6 ?_
        rw [hd, ← k4]
        exact i1
      · rw [fileEvents_nil i1 k5]
        exact .tail k1 k2 k3 k4

/-- The recovering iterator on an arbitrary reader. -/
theorem recovering_accounts (f : Keep σ) (cfg : RecoveryConfig) (pol : Pol) (N : Nat) : ∀ (n : Nat) (st : Recovering σ),
    (del st.reader).length ≤ N → st.finished = false → st.text = false →
    ∃ es d rest fin, dataOf (del st.reader) = d ++ rest ∧ Accounts cfg rest st.reader.offset d es ∧
      (forLoop (recoveringNext f cfg pol) n st).1 = (applyKeepOk f st.filter es).map .ok ++ fin ∧
      (fin = [] ∨ ∃ y, fin = [.error y] ∧ y.offset = st.reader.offset + d.length ∧ y.scanned ≤ rest.length ∧
        (y.error.error = .panic → ∃ raw : Raw, raw.parse = .error .panic)) ∧
      ((del st.reader).length + 1 < n → (forLoop (recoveringNext f cfg pol) n st).2.1 = true) := by
  induction N with
  | zero =>
    intro n st hN hfin htext
    have hnil : del st.reader = [] := List.length_eq_zero_iff.mp (by omega)
    have hd : dataOf (del st.reader) = [] := by rw [hnil]; rfl
    have hs := recStep_ok cfg pol st
    have hx := recoveringNext_step f cfg pol st hfin htext
    rw [hd] at hs ⊢
    generalize recStep cfg pol st = x at hs hx
    obtain ⟨x, st'⟩ := x
    cases n with
    | zero => exact ⟨[], [], [], [], rfl, .done, rfl, .inl rfl, fun h => by omega⟩
    | succ n =>
    match x, hs with
    | none, _ =>
      rw [forLoop_none hx]
      exact ⟨[], [], [], [], rfl, .done, rfl, .inl rfl, fun _ => rfl⟩
    | some (.error y), ⟨k1, k2, k3, _⟩ =>
      have hdone := recoveringNext_done f cfg pol st' k3
      rw [forLoop_some hx]
      refine ⟨[], [], [], [.error y], rfl, .done, ?_, .inr ⟨y, rfl, k1.1, k1.2, k2⟩, fun hl => ?_⟩
      · cases n with
        | zero => rfl
        | succ n => rw [forLoop_none hdone]; rfl
      · cases n with
        | zero => omega
        | succ n => rw [forLoop_none hdone]
    | some (.ok (.gap _)), ⟨b, d', h1, h2, _⟩ =>
      have := List.append_eq_nil_iff.mp h1.symm
      exact absurd this.1 h2
    | some (.ok (.item m)), ⟨b, d', h1, h2, _⟩ => have := intact_ne h2; have := congrArg List.length h1; simp at this; omega
  | succ N ih =>
    intro n st hN hfin htext
    have hs := recStep_ok cfg pol st
    have hx := recoveringNext_step f cfg pol st hfin htext
    generalize recStep cfg pol st = x at hs hx
    obtain ⟨x, st'⟩ := x
    cases n with
    | zero => exact ⟨[], [], _, [], rfl, .done, rfl, .inl rfl, fun h => by omega⟩
    | succ n =>
    match x, hs with
    | none, _ =>
      rw [forLoop_none hx]
      exact ⟨[], [], _, [], rfl, .done, rfl, .inl rfl, fun _ => rfl⟩
    | some (.error y), ⟨k1, k2, k3, _⟩ =>
      have hdone := recoveringNext_done f cfg pol st' k3
      rw [forLoop_some hx]
      refine ⟨[], [], _, [.error y], rfl, .done, ?_, .inr ⟨y, rfl, k1.1, k1.2, k2⟩, fun hl => ?_⟩
      · cases n with
        | zero => rfl
        | succ n => rw [forLoop_none hdone]; rfl
      · cases n with
        | zero => omega
        | succ n => rw [forLoop_none hdone]
    | some (.ok (.gap g)), ⟨b, d', h1, h2, h3, h4, h5, hn, h6⟩ =>
      have hlen := hn.size
      obtain ⟨es, d, rest, fin, i1, i2, i3, i4, i5⟩ := ih n st' (by omega) (by rw [hn.finished, hfin]) (by rw [hn.text, htext])
      rw [hn.data] at i1
      rw [hn.offset] at i2 i4
      rw [hn.filter] at i3
      rw [forLoop_some hx]
      refine ⟨.gap g :: es, b ++ d, rest, fin, by rw [h1, i1]; simp, .gap h2 h3 h4 (by rw [← i1]; exact h5) i2, ?_, ?_, fun h => i5 (by omega)⟩
      · simp only [applyKeepOk, List.map_cons, List.cons_append, i3]
      · simpa [Nat.add_assoc] using i4
    | some (.ok (.item m)), ⟨b, d', h1, h2, hn⟩ =>
      simp only at hx
      rw [hn.filter] at hx
      have hlen := hn.size
      by_cases hk : (f.step st.filter m).1 = true
      · rw [if_pos hk] at hx
        obtain ⟨es, d, rest, fin, i1, i2, i3, i4, i5⟩ := ih n { st' with filter := (f.step st.filter m).2 } (by simp only; omega)
          (by simp only; rw [hn.finished, hfin]) (by simp only; rw [hn.text, htext])
        simp only at i1 i2 i4 i5
        rw [hn.data] at i1
        rw [hn.offset] at i2 i4
        rw [forLoop_some hx]
        refine ⟨.item m :: es, b ++ d, rest, fin, by rw [h1, i1]; simp, .record h2 i2, ?_, ?_, fun h => i5 (by omega)⟩
        · simp only [applyKeepOk]
          rw [if_pos hk, i3]
          rfl
        · simpa [Nat.add_assoc] using i4
      · rw [if_neg hk] at hx
        obtain ⟨es, d, rest, fin, i1, i2, i3, i4, i5⟩ := ih (n + 1) { st' with filter := (f.step st.filter m).2 } (by simp only; omega)
          (by simp only; rw [hn.finished, hfin]) (by simp only; rw [hn.text, htext])
        simp only at i1 i2 i4 i5
        rw [hn.data] at i1
        rw [hn.offset] at i2 i4
        rw [forLoop_same hx]
        refine ⟨.item m :: es, b ++ d, rest, fin, by rw [h1, i1]; simp, .record h2 i2, ?_, ?_, fun h => i5 (by omega)⟩
        · simp only [applyKeepOk]
          rw [if_neg hk, i3]
        · simpa [Nat.add_assoc] using i4

end Verif
