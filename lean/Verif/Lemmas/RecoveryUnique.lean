import Verif.Lemmas.RecoveryMore
import Verif.Lemmas.Diagnostic
/-
The report of recovery is determined by the bytes of the file.
-/
namespace Verif
open Spec

theorem noRecord_unique {d : Bytes} {e e' : Err} {k k' : Bytes} (h : NoRecord d e k) (h' : NoRecord d e' k') : e = e' ∧ k = k' := by
  obtain ⟨_, h⟩ := h
  obtain ⟨_, h'⟩ := h'
  rcases h with ⟨rfl, b, t, et⟩ | ⟨rfl, ⟨hd, b, bl⟩, t, et⟩ | ⟨rfl, rfl, ns, ne, _, nh⟩ | ⟨rfl, rfl, ns, hd, hb, t, hh, et⟩
  · rcases h' with ⟨rfl, b', t', et'⟩ | ⟨rfl, ⟨hd', b', bl'⟩, t', et'⟩ | ⟨rfl, rfl, ns', _⟩ | ⟨rfl, rfl, ns', _⟩
    · exact ⟨rfl, (List.append_inj (et.symm.trans et') (by rw [b.1, b'.1])).1⟩
    · exact (badHeader_clash b b' et et').elim
    · exact (ns' _ _ et (.inl b)).elim
    · exact (ns' _ _ et (.inl b)).elim
  · rcases h' with ⟨rfl, b', t', et'⟩ | ⟨rfl, ⟨hd', b', bl'⟩, t', et'⟩ | ⟨rfl, rfl, ns', _⟩ | ⟨rfl, rfl, ns', _⟩
    · exact (badHeader_clash b' b et' et).elim
    · exact ⟨rfl, (headerBytes_prefix b b' et et').2⟩
    · exact (ns' _ _ et (.inr ⟨hd, b, bl⟩)).elim
    · exact (ns' _ _ et (.inr ⟨hd, b, bl⟩)).elim
  · rcases h' with ⟨rfl, b', t', et'⟩ | ⟨rfl, ⟨hd', b', bl'⟩, t', et'⟩ | ⟨rfl, rfl, ns', _⟩ | ⟨rfl, rfl, ns', hd', hb', t', hh', et'⟩
    · exact (ns _ _ et' (.inl b')).elim
    · exact (ns _ _ et' (.inr ⟨hd', b', bl'⟩)).elim
    · exact ⟨rfl, rfl⟩
    · exact (nh _ _ _ hh' et').elim
  · rcases h' with ⟨rfl, b', t', et'⟩ | ⟨rfl, ⟨hd', b', bl'⟩, t', et'⟩ | ⟨rfl, rfl, ns', _, _, nh'⟩ | ⟨rfl, rfl, ns', _⟩
    · exact (ns _ _ et' (.inl b')).elim
    · exact (ns _ _ et' (.inr ⟨hd', b', bl'⟩)).elim
    · exact (nh' _ _ _ hh et).elim
    · exact ⟨rfl, rfl⟩

/-- of two runs of intact records at the same place, one continues the other. -/
theorem intact_runs {ms : List MrtRecord} {c : Bytes} (h : Blocks Intact ms c) : ∀ {ms' : List MrtRecord} {c' t t' : Bytes},
    Blocks Intact ms' c' → c ++ t = c' ++ t' →
    (∃ r d, ms' = ms ++ r ∧ t = d ++ t' ∧ Blocks Intact r d) ∨ (∃ r d, ms = ms' ++ r ∧ t' = d ++ t ∧ Blocks Intact r d) := by
  induction h with
  | nil => intro ms' c' t t' h' he; exact .inl ⟨ms', c', rfl, he, h'⟩
  | @cons m ms b c hi hb ih =>
    intro ms' c' t t' h' he
    cases h' with
    | nil => exact .inr ⟨_, _, rfl, he.symm, .cons hi hb⟩
    | cons hi' hb' =>
      rw [List.append_assoc, List.append_assoc] at he
      obtain ⟨rfl, rfl, he'⟩ := intact_unique hi hi' he
      rcases ih hb' he' with ⟨r, d, rfl, h1, h2⟩ | ⟨r, d, rfl, h1, h2⟩
      · exact .inl ⟨r, d, rfl, h1, h2⟩
      · exact .inr ⟨r, d, rfl, h1, h2⟩

/-- where a run of intact records ends, because there is no intact record. -/
def RunEnds (t : Bytes) : Prop := ∀ m b t', t = b ++ t' → ¬ Intact m b

theorem runEnds_nil : RunEnds [] := by
  intro m b t' he hi
  have := intact_ne hi
  have := congrArg List.length he
  simp at this; omega

theorem runEnds_damaged {e : Err} {b t : Bytes} (h : Damaged e b) : RunEnds (b ++ t) :=
  fun _ _ _ he hi => intact_not_damaged hi h he.symm

theorem runEnds_noRecord {t taken : Bytes} {e : Err} (h : NoRecord t e taken) : RunEnds t := by
  rintro m b t' rfl hi
  exact intact_record hi h

/-- two complete runs are the same. -/
theorem runs_same {ms ms' : List MrtRecord} {c c' t t' : Bytes} (h : Blocks Intact ms c) (h' : Blocks Intact ms' c')
    (he : c ++ t = c' ++ t') (e : RunEnds t) (e' : RunEnds t') : ms = ms' ∧ t = t' := by
  rcases intact_runs h h' he with ⟨r, d, rfl, rfl, h2⟩ | ⟨r, d, rfl, rfl, h2⟩
  · cases h2 with
    | nil => simp
    | cons hi _ => exact (e _ _ _ (List.append_assoc _ _ _) hi).elim
  · cases h2 with
    | nil => simp
    | cons hi _ => exact (e' _ _ _ (List.append_assoc _ _ _) hi).elim

/-- a complete run is at least as long as any other. -/
theorem runs_le {ms ms' : List MrtRecord} {c c' t t' : Bytes} (h : Blocks Intact ms c) (h' : Blocks Intact ms' c')
    (he : c ++ t = c' ++ t') (e : RunEnds t) : ms'.length ≤ ms.length := by
  rcases intact_runs h h' he with ⟨r, d, rfl, rfl, h2⟩ | ⟨r, d, rfl, rfl, h2⟩
  · cases h2 with
    | nil => simp
    | cons hi _ => exact (e _ _ _ (List.append_assoc _ _ _) hi).elim
  · simp

/-- the end of an aligned boundary that lacks records. -/
theorem aligned_end {n k : Nat} {d : Bytes} (h : Aligned n d k) : ∃ ms c t, d = c ++ t ∧ Blocks Intact ms c ∧ k = ms.length ∧
    (k = n ∨ k < n ∧ RunEnds t ∧ (t = [] ∨ ∃ b t', t = b ++ t' ∧ Damaged .eofExpected b)) := by
  obtain ⟨ms, c, t, h1, h2, h3, h4⟩ := h
  refine ⟨ms, c, t, h1, h2, h3, ?_⟩
  rcases h4 with h4 | ⟨h4, rfl | ⟨b, t', rfl, h5⟩⟩
  · exact .inl h4
  · exact .inr ⟨h4, runEnds_nil, .inl rfl⟩
  · exact .inr ⟨h4, runEnds_damaged h5, .inr ⟨b, t', rfl, h5⟩⟩

theorem aligned_unique {n k k' : Nat} {d : Bytes} (h : Aligned n d k) (h' : Aligned n d k') : k = k' := by
  obtain ⟨ms, c, t, rfl, h2, h3, h4⟩ := aligned_end h
  obtain ⟨ms', c', t', he, h2', h3', h4'⟩ := aligned_end h'
  rcases h4 with h4 | ⟨h4, h5, _⟩ <;> rcases h4' with h4' | ⟨h4', h5', _⟩
  · omega
  · have := runs_le h2' h2 he.symm h5'; omega
  · have := runs_le h2 h2' he h5; omega
  · rw [h3, h3', (runs_same h2 h2' he h5 h5').1]

theorem aligned_not_falseIo {n k : Nat} {d : Bytes} (h : Aligned n d k) (h' : FalseIo n d) : False := by
  obtain ⟨ms, c, t, rfl, h2, h3, h4⟩ := aligned_end h
  obtain ⟨ms', c', b, t', he, h2', h3', h4'⟩ := h'
  have e' := runEnds_damaged (t := t') h4'
  rcases h4 with h4 | ⟨h4, h5, h6⟩
  · have := runs_le h2' h2 he.symm e'; omega
  · obtain ⟨_, rfl⟩ := runs_same h2 h2' he h5 e'
    rcases h6 with h6 | ⟨b', t'', h6, h7⟩
    · exact long_ne (damaged_ne h4') h6
    · cases (damaged_unique h4' h7 h6).1

/-- the end of the run after a damaged record that does not help. -/
theorem misaligned_end {n : Nat} {d : Bytes} (h : Misaligned n d) : ∃ ms c t, d = c ++ t ∧ Blocks Intact ms c ∧ ms.length < n ∧
    RunEnds t ∧ t ≠ [] ∧ ∀ e b t', t = b ++ t' → Damaged e b → e ≠ .io ∧ e ≠ .eofExpected := by
  obtain ⟨ms, c, t, h1, h2, h3, ⟨e, taken, h4⟩ | ⟨e, b, t', rfl, h4, h5, h6⟩⟩ := h
  · refine ⟨ms, c, t, h1, h2, h3, runEnds_noRecord h4, noRecord_ne h4, ?_⟩
    rintro e b t' rfl hd
    exact (damaged_record hd h4).elim
  · refine ⟨ms, c, _, h1, h2, h3, runEnds_damaged h4, fun h => long_ne (damaged_ne h4) h, ?_⟩
    intro e' b' t'' he hd
    obtain ⟨rfl, _⟩ := damaged_unique h4 hd he
    exact ⟨h5, h6⟩

theorem aligned_not_misaligned {n k : Nat} {d : Bytes} (h : Aligned n d k) (h' : Misaligned n d) : False := by
  obtain ⟨ms, c, t, rfl, h2, h3, h4⟩ := aligned_end h
  obtain ⟨ms', c', t', he, h2', h3', h4', h5', h6'⟩ := misaligned_end h'
  rcases h4 with h4 | ⟨h4, h5, h6⟩
  · have := runs_le h2' h2 he.symm h4'; omega
  · obtain ⟨_, rfl⟩ := runs_same h2 h2' he h5 h4'
    rcases h6 with h6 | ⟨b', t'', h6, h7⟩
    · exact h5' h6
    · exact (h6' _ _ _ h6 h7).2 rfl

theorem falseIo_not_misaligned {n : Nat} {d : Bytes} (h : FalseIo n d) (h' : Misaligned n d) : False := by
  obtain ⟨ms, c, b, t, rfl, h2, h3, h4⟩ := h
  obtain ⟨ms', c', t', he, h2', h3', h4', h5', h6'⟩ := misaligned_end h'
  obtain ⟨_, rfl⟩ := runs_same h2 h2' he (runEnds_damaged h4) h4'
  exact (h6' _ _ _ rfl h4).1 rfl

theorem stuck_unique {n : Nat} {d : Bytes} {e e' : RecErr} (h : Stuck n d e) (h' : Stuck n d e') : e = e' := by
  obtain ⟨e, b⟩ := e
  obtain ⟨e', b'⟩ := e'
  rcases h with ⟨k, h1, h2⟩ | ⟨x, t, h0, h1, h2, h3⟩ <;> rcases h' with ⟨k', h1', h2'⟩ | ⟨x', t', h0', h1', h2', h3'⟩
  · obtain ⟨h, rfl⟩ := noRecord_unique h1 h1'
    simp only at h h2 h2'
    rw [h, h2, h2']
  · exact (damaged_record h1' (h0' ▸ h1)).elim
  · exact (damaged_record h1 (h0 ▸ h1')).elim
  · obtain ⟨h, rfl, _⟩ := damaged_unique h1 h1' (h0.symm.trans h0')
    simp only at h h2 h2'
    rw [h, h2, h2']

theorem chain_unique {n : Nat} {ev ev' : Evidence} {d : Bytes} (h : ChainAt n ev d) (h' : ChainAt n ev' d) : ev = ev' := by
  obtain ⟨c, t, rfl, f, rs, _, hb, r, hr, hp⟩ := h
  obtain ⟨c', t', he, f', rs', _, hb', r', hr', hp'⟩ := h'
  cases hb with
  | nil => cases hr
  | cons hf _ =>
    cases hr
    cases hb' with
    | nil => cases hr'
    | cons hf' _ =>
      cases hr'
      rw [List.append_assoc, List.append_assoc] at he
      obtain ⟨rfl, rfl, _⟩ := frame_unique hf.1 hf'.1 he
      have k := (frame_plain (plausible_type hp).1 (plausible_type hp).2.2).mp hf.1
      have a := (plausible_iff f ev _ k.1 k.2.2).mpr hp
      have a' := (plausible_iff f' ev' _ k.1 k.2.2).mpr hp'
      rw [a.1] at a'
      have : f = f' := Option.some.inj a'.1
      subst this
      rw [a.2.2] at a'
      exact Option.some.inj a'.2.2

/-- there is only one report. -/
theorem fileEvents_unique {cfg : RecoveryConfig} {o : Nat} {d : Bytes} {es : List (Except RecoveryError (Event MrtRecord))}
    (h : FileEvents cfg o d es) : ∀ {es' : List (Except RecoveryError (Event MrtRecord))}, FileEvents cfg o d es' → es = es' := by
  have nostuck_intact : ∀ {n m b t e}, Intact m b → ¬ Stuck n (b ++ t) e := by
    rintro n m b t e hi (⟨_, h, _⟩ | ⟨b', t', h0, h1, _⟩)
    · exact intact_record hi h
    · exact intact_not_damaged hi h1 h0
  have stuck_damaged : ∀ {n x b t e}, Damaged x b → Stuck n (b ++ t) e → Misaligned n t := by
    rintro n x b t e hd (⟨_, h, _⟩ | ⟨b', t', h0, h1, _, h3⟩)
    · exact (damaged_record hd h).elim
    · obtain ⟨_, _, rfl⟩ := damaged_unique hd h1 h0
      exact h3
  induction h with
  | done => intro es' h'; exact (fileEvents_nil h' rfl).symm
  | @record o m b d es hi hr ih =>
    intro es' h'
    generalize hx : b ++ d = x at h'
    cases h' with
    | done => exact (long_ne (intact_ne hi) hx).elim
    | record hi' hr' =>
      obtain ⟨rfl, rfl, rfl⟩ := intact_unique hi hi' hx
      rw [ih hr']
    | aligned h1 _ _ => exact (intact_not_damaged hi h1 hx).elim
    | falseIo h1 _ => exact (intact_not_damaged hi h1 hx).elim
    | found h1 => exact (nostuck_intact hi (hx ▸ h1)).elim
    | tail h1 => exact (nostuck_intact hi (hx ▸ h1)).elim
    | exhausted h1 => exact (nostuck_intact hi (hx ▸ h1)).elim
  | @aligned o e b d k es hd ha hr ih =>
    intro es' h'
    generalize hx : b ++ d = x at h'
    cases h' with
    | done => exact (long_ne (damaged_ne hd) hx).elim
    | record hi' hr' => exact (intact_not_damaged hi' hd hx.symm).elim
    | aligned h1 h2 h3 =>
      obtain ⟨rfl, rfl, rfl⟩ := damaged_unique hd h1 hx
      rw [ih h3, aligned_unique ha h2]
    | falseIo h1 h2 =>
      obtain ⟨rfl, rfl, rfl⟩ := damaged_unique hd h1 hx
      exact (aligned_not_falseIo ha h2).elim
    | found h1 => exact (aligned_not_misaligned ha (stuck_damaged hd (hx ▸ h1))).elim
    | tail h1 => exact (aligned_not_misaligned ha (stuck_damaged hd (hx ▸ h1))).elim
    | exhausted h1 => exact (aligned_not_misaligned ha (stuck_damaged hd (hx ▸ h1))).elim
  | @falseIo o e b d hd hf =>
    intro es' h'
    generalize hx : b ++ d = x at h'
    cases h' with
    | done => exact (long_ne (damaged_ne hd) hx).elim
    | record hi' hr' => exact (intact_not_damaged hi' hd hx.symm).elim
    | aligned h1 h2 h3 =>
      obtain ⟨rfl, rfl, rfl⟩ := damaged_unique hd h1 hx
      exact (aligned_not_falseIo h2 hf).elim
    | falseIo h1 h2 => rfl
    | found h1 => exact (falseIo_not_misaligned hf (stuck_damaged hd (hx ▸ h1))).elim
    | tail h1 => exact (falseIo_not_misaligned hf (stuck_damaged hd (hx ▸ h1))).elim
    | exhausted h1 => exact (falseIo_not_misaligned hf (stuck_damaged hd (hx ▸ h1))).elim
  | @found o d e j ev es hs h1 h2 hc hno hr ih =>
    intro es' h'
    cases h' with
    | done => exact (stuck_ne hs rfl).elim
    | record hi' => exact (nostuck_intact hi' hs).elim
    | aligned k1 k2 => exact (aligned_not_misaligned k2 (stuck_damaged k1 hs)).elim
    | falseIo k1 k2 => exact (falseIo_not_misaligned k2 (stuck_damaged k1 hs)).elim
    | @found _ _ e' j' ev' es' hs' h1' h2' hc' hno' hr' =>
      have hj : j = j' := by
        rcases Nat.lt_trichotomy j j' with hl | hl | hl
        · exact (hno' j h1 hl ev hc).elim
        · exact hl
        · exact (hno j' h1' hl ev' hc').elim
      subst hj
      rw [stuck_unique hs hs', chain_unique hc hc', ih hr']
    | tail _ hno' => exact (hno' j h1 h2 ev hc).elim
    | exhausted _ hno' => exact (hno' j h1 h2 ev hc).elim
  | @tail o d e hs hno h1 h2 =>
    intro es' h'
    cases h' with
    | done => exact (stuck_ne hs rfl).elim
    | record hi' => exact (nostuck_intact hi' hs).elim
    | aligned k1 k2 => exact (aligned_not_misaligned k2 (stuck_damaged k1 hs)).elim
    | falseIo k1 k2 => exact (falseIo_not_misaligned k2 (stuck_damaged k1 hs)).elim
    | found _ h1' h2' hc' => exact (hno _ h1' h2' _ hc').elim
    | tail hs' => rw [stuck_unique hs hs']
    | exhausted _ _ h3 => omega
  | @exhausted o d e hs hno h1 =>
    intro es' h'
    cases h' with
    | done => exact (stuck_ne hs rfl).elim
    | record hi' => exact (nostuck_intact hi' hs).elim
    | aligned k1 k2 => exact (aligned_not_misaligned k2 (stuck_damaged k1 hs)).elim
    | falseIo k1 k2 => exact (falseIo_not_misaligned k2 (stuck_damaged k1 hs)).elim
    | found _ h1' h2' hc' => exact (hno _ h1' h2' _ hc').elim
    | tail _ _ h3 h4 => omega
    | exhausted hs' => rw [stuck_unique hs hs']

end Verif
