import Verif.Lemmas.RecoveryLoop
import Verif.Lemmas.MrtNoPanic
/-
Recovery on files with intact and damaged records.
-/
namespace Verif
open Spec

theorem long_ne {b t : Bytes} (h : 12 ≤ b.length) (he : b ++ t = []) : False := by
  have := congrArg List.length he
  rw [List.length_append, List.length_nil] at this
  omega

theorem byteToks_inj {a b : Bytes} (h : byteToks a = byteToks b) : a = b := by
  rw [← dataOf_byteToks a, ← dataOf_byteToks b, h]

theorem frame_unique {r r' : Raw} {b b' t t' : Bytes} (h : Frame r b) (h' : Frame r' b') (he : b ++ t = b' ++ t') :
    r = r' ∧ b = b' ∧ t = t' := by
  have h1 := chunkT_complete none (t' := byteToks t) h
  have h2 := chunkT_complete none (t' := byteToks t') h'
  rw [← byteToks_append, he] at h1
  rw [← byteToks_append, h1] at h2
  simp only [Prod.mk.injEq, Except.ok.injEq] at h2
  have ht := byteToks_inj h2.2
  subst ht
  exact ⟨h2.1, List.append_cancel_right he, rfl⟩

theorem intact_unique {m m' : MrtRecord} {b b' t t' : Bytes} (h : Intact m b) (h' : Intact m' b') (he : b ++ t = b' ++ t') :
    m = m' ∧ b = b' ∧ t = t' := by
  obtain ⟨r, f, p⟩ := h
  obtain ⟨r', f', p'⟩ := h'
  obtain ⟨rfl, rfl, rfl⟩ := frame_unique f f' he
  rw [p] at p'
  exact ⟨Except.ok.inj p', rfl, rfl⟩

theorem damaged_unique {e e' : Err} {b b' t t' : Bytes} (h : Damaged e b) (h' : Damaged e' b') (he : b ++ t = b' ++ t') :
    e = e' ∧ b = b' ∧ t = t' := by
  obtain ⟨r, f, p⟩ := h
  obtain ⟨r', f', p'⟩ := h'
  obtain ⟨rfl, rfl, rfl⟩ := frame_unique f f' he
  rw [p] at p'
  exact ⟨Except.error.inj p', rfl, rfl⟩

theorem intact_not_damaged {m : MrtRecord} {e : Err} {b b' t t' : Bytes} (h : Intact m b) (h' : Damaged e b')
    (he : b ++ t = b' ++ t') : False := by
  obtain ⟨r, f, p⟩ := h
  obtain ⟨r', f', p'⟩ := h'
  obtain ⟨rfl, rfl, rfl⟩ := frame_unique f f' he
  rw [p] at p'
  cases p'

theorem intact_record {m : MrtRecord} {b t taken : Bytes} {e : Err} (h : Intact m b) : ¬ NoRecord (b ++ t) e taken := by
  obtain ⟨r, f, p⟩ := h
  exact fun hn => hn.1 r b t rfl f

theorem damaged_record {x : Err} {b t taken : Bytes} {e : Err} (h : Damaged x b) : ¬ NoRecord (b ++ t) e taken := by
  obtain ⟨r, f, p⟩ := h
  exact fun hn => hn.1 r b t rfl f

/-- intact records at the start of a file of intact records are the first of these. -/
theorem intact_prefix {ms : List MrtRecord} {d : Bytes} (h : Blocks Intact ms d) : ∀ {ms' : List MrtRecord} {c t : Bytes},
    Blocks Intact ms' c → d = c ++ t → ∃ rest, ms = ms' ++ rest ∧ Blocks Intact rest t := by
  induction h with
  | nil =>
    intro ms' c t h' he
    have he := List.append_eq_nil_iff.mp he.symm
    obtain ⟨hc, rfl⟩ := he
    cases h' with
    | nil => exact ⟨[], rfl, .nil⟩
    | cons hi _ => exact (long_ne (intact_ne hi) hc).elim
  | cons hi hb ih =>
    intro ms' c t h' he
    cases h' with
    | nil => subst he; exact ⟨_, rfl, .cons hi hb⟩
    | cons hi' hb' =>
      rw [List.append_assoc] at he
      obtain ⟨rfl, rfl, he'⟩ := intact_unique hi hi' he
      obtain ⟨rest, rfl, hr⟩ := ih hb' he'
      exact ⟨rest, rfl, hr⟩

theorem intact_nil {ms : List MrtRecord} (h : Blocks Intact ms []) : ms = [] := by
  generalize hd : ([] : Bytes) = d at h
  cases h with
  | nil => rfl
  | cons hi _ => exact (long_ne (intact_ne hi) (by first | exact hd | exact hd.symm)).elim

/-- what recovery reports for a file of intact records. -/
theorem fileEvents_clean {cfg : RecoveryConfig} {ms : List MrtRecord} {d : Bytes} (h : Blocks Intact ms d) : ∀ {o : Nat}
    {es : List (Except RecoveryError (Event MrtRecord))}, FileEvents cfg o d es → es = ms.map fun m => .ok (.item m) := by
  induction h with
  | nil => intro o es he; exact fileEvents_nil he rfl
  | @cons m ms b d hi hb ih =>
    intro o es he
    generalize hd : b ++ d = x at he
    cases he with
    | done => exact (long_ne (intact_ne hi) (by first | exact hd | exact hd.symm)).elim
    | record h1 h2 =>
      obtain ⟨rfl, rfl, rfl⟩ := intact_unique hi h1 hd
      rw [ih h2]; rfl
    | aligned h1 _ _ => exact (intact_not_damaged hi h1 hd).elim
    | falseIo h1 _ => exact (intact_not_damaged hi h1 hd).elim
    | found h1 =>
      rcases h1 with ⟨_, h1, _⟩ | ⟨_, _, h0, h1, _⟩
      · exact (intact_record hi (hd ▸ h1)).elim
      · exact (intact_not_damaged hi h1 (hd.trans h0)).elim
    | tail h1 =>
      rcases h1 with ⟨_, h1, _⟩ | ⟨_, _, h0, h1, _⟩
      · exact (intact_record hi (hd ▸ h1)).elim
      · exact (intact_not_damaged hi h1 (hd.trans h0)).elim
    | exhausted h1 =>
      rcases h1 with ⟨_, h1, _⟩ | ⟨_, _, h0, h1, _⟩
      · exact (intact_record hi (hd ▸ h1)).elim
      · exact (intact_not_damaged hi h1 (hd.trans h0)).elim

theorem blocks_append {R : α → Bytes → Prop} {as bs : List α} {c d : Bytes} (h : Blocks R as c) (h' : Blocks R bs d) :
    Blocks R (as ++ bs) (c ++ d) := by
  induction h with
  | nil => exact h'
  | cons hr _ ih => rw [List.append_assoc, List.cons_append]; exact .cons hr ih

/-- the intact records before something else are reported first. -/
theorem fileEvents_prefix {cfg : RecoveryConfig} {ms : List MrtRecord} {c : Bytes} (h : Blocks Intact ms c) : ∀ {o : Nat} {d : Bytes}
    {es : List (Except RecoveryError (Event MrtRecord))}, FileEvents cfg o (c ++ d) es →
    ∃ es', es = ms.map (fun m => .ok (.item m)) ++ es' ∧ FileEvents cfg (o + c.length) d es' := by
  induction h with
  | nil => intro o d es he; exact ⟨es, rfl, he⟩
  | @cons m ms b c hi hb ih =>
    intro o d es he
    generalize hd : (b ++ c) ++ d = x at he
    rw [List.append_assoc] at hd
    cases he with
    | done => exact (long_ne (intact_ne hi) (by first | exact hd | exact hd.symm)).elim
    | record h1 h2 =>
      obtain ⟨rfl, rfl, rfl⟩ := intact_unique hi h1 hd
      obtain ⟨es', rfl, h3⟩ := ih h2
      exact ⟨es', rfl, by rw [List.length_append, ← Nat.add_assoc]; exact h3⟩
    | aligned h1 _ _ => exact (intact_not_damaged hi h1 hd).elim
    | falseIo h1 _ => exact (intact_not_damaged hi h1 hd).elim
    | found h1 =>
      rcases h1 with ⟨_, h1, _⟩ | ⟨_, _, h0, h1, _⟩
      · exact (intact_record hi (hd ▸ h1)).elim
      · exact (intact_not_damaged hi h1 (hd.trans h0)).elim
    | tail h1 =>
      rcases h1 with ⟨_, h1, _⟩ | ⟨_, _, h0, h1, _⟩
      · exact (intact_record hi (hd ▸ h1)).elim
      · exact (intact_not_damaged hi h1 (hd.trans h0)).elim
    | exhausted h1 =>
      rcases h1 with ⟨_, h1, _⟩ | ⟨_, _, h0, h1, _⟩
      · exact (intact_record hi (hd ▸ h1)).elim
      · exact (intact_not_damaged hi h1 (hd.trans h0)).elim

theorem not_misaligned {n : Nat} {ms : List MrtRecord} {d : Bytes} (h : Blocks Intact ms d) : ¬ Misaligned n d := by
  rintro ⟨ms', c, t, rfl, h1, h2, h3⟩
  obtain ⟨rest, rfl, hr⟩ := intact_prefix h h1 rfl
  cases hr with
  | nil =>
    rcases h3 with ⟨e, taken, h3⟩ | ⟨e, b, t', h0, h3, _⟩
    · exact noRecord_ne h3 rfl
    · exact long_ne (damaged_ne h3) h0.symm
  | cons hi hb =>
    rcases h3 with ⟨e, taken, h3⟩ | ⟨e, b, t', h0, h3, _⟩
    · exact intact_record hi h3
    · exact intact_not_damaged hi h3 h0

theorem not_falseIo {n : Nat} {ms : List MrtRecord} {d : Bytes} (h : Blocks Intact ms d) : ¬ FalseIo n d := by
  rintro ⟨ms', c, b, t, rfl, h1, h2, h3⟩
  obtain ⟨rest, rfl, hr⟩ := intact_prefix h h1 rfl
  generalize hd : b ++ t = x at hr
  cases hr with
  | nil => exact long_ne (damaged_ne h3) hd
  | cons hi hb => exact intact_not_damaged hi h3 hd.symm

theorem aligned_count {n k : Nat} {ms : List MrtRecord} {d : Bytes} (h : Blocks Intact ms d) (ha : Aligned n d k) :
    k = min n ms.length := by
  obtain ⟨ms', c, t, rfl, h1, rfl, h3⟩ := ha
  obtain ⟨rest, rfl, hr⟩ := intact_prefix h h1 rfl
  rw [List.length_append]
  rcases h3 with h3 | ⟨h3, rfl | ⟨b, t', rfl, h4⟩⟩
  · omega
  · rw [intact_nil hr]; simp; omega
  · generalize hd : b ++ t' = x at hr
    cases hr with
    | nil => exact (long_ne (damaged_ne h4) hd).elim
    | cons hi hb => exact (intact_not_damaged hi h4 hd.symm).elim

/-- a single damaged record among intact ones. -/
theorem fileEvents_isolated {cfg : RecoveryConfig} {ms1 ms2 : List MrtRecord} {c1 c2 bad : Bytes} {e : Err} {o : Nat}
    {es : List (Except RecoveryError (Event MrtRecord))} (h1 : Blocks Intact ms1 c1) (hd : Damaged e bad) (h2 : Blocks Intact ms2 c2)
    (h : FileEvents cfg o (c1 ++ (bad ++ c2)) es) :
    es = ms1.map (fun m => .ok (.item m)) ++
      .ok (.gap ⟨o + c1.length, o + c1.length + bad.length, e, .alignedRecordChain, min (required cfg) ms2.length⟩) ::
      ms2.map (fun m => .ok (.item m)) := by
  obtain ⟨es', rfl, h'⟩ := fileEvents_prefix h1 h
  clear h
  congr 1
  generalize hx : bad ++ c2 = x at h'
  have nostuck : ∀ er, ¬ Stuck (required cfg) x er := by
    rintro er (⟨_, h1, _⟩ | ⟨b, t, h0, h1, _, h3⟩)
    · exact damaged_record hd (hx ▸ h1)
    · obtain ⟨_, _, rfl⟩ := damaged_unique hd h1 (hx.trans h0)
      exact not_misaligned h2 h3
  cases h' with
  | done => exact (long_ne (damaged_ne hd) hx).elim
  | record k1 _ => exact (intact_not_damaged k1 hd hx.symm).elim
  | aligned k1 k2 k3 =>
    obtain ⟨rfl, rfl, rfl⟩ := damaged_unique hd k1 hx
    rw [aligned_count h2 k2, fileEvents_clean h2 k3]
  | falseIo k1 k2 =>
    obtain ⟨rfl, rfl, rfl⟩ := damaged_unique hd k1 hx
    exact (not_falseIo h2 k2).elim
  | found k1 => exact (nostuck _ k1).elim
  | tail k1 => exact (nostuck _ k1).elim
  | exhausted k1 => exact (nostuck _ k1).elim

/-! ### clean streams, with interruptions -/

theorem recStep_intact (cfg : RecoveryConfig) (pol : Pol) (st : Recovering σ) {m : MrtRecord} {b : Bytes} {t : List Tok}
    (h : Intact m b) (hd : del st.reader = byteToks b ++ t) :
    ∃ r, recStep cfg pol st = (some (.ok (.item m)), { st with reader := r }) ∧ del r = t ∧ stk r = stk st.reader := by
  obtain ⟨raw, hf, hp⟩ := h
  obtain ⟨r, g1, g2, g3⟩ := chunk_eqG pol st.reader
  rw [hd, chunkT_complete _ hf] at g1 g2
  refine ⟨r, ?_, g2, g3⟩
  unfold recStep
  rw [g1]
  simp only [hp]

theorem recStep_end (cfg : RecoveryConfig) (pol : Pol) (st : Recovering σ) (hd : del st.reader = []) (hk : stk st.reader = none) :
    ∃ r, recStep cfg pol st = (none, { st with reader := r, finished := true }) := by
  obtain ⟨r, g1, g2, g3⟩ := chunk_eqG pol st.reader
  have hc : ∃ er t, chunkT none [] = (.error er, t) ∧ er.error = .eofExpected := by
    cases hc : chunkT none [] with
    | mk x t =>
      cases x with
      | ok r =>
        obtain ⟨h1, h2⟩ := chunkT_ok hc
        have := Frame_length h1
        have := congrArg List.length h2
        simp [byteToks_length] at this
        omega
      | error er =>
        refine ⟨er, t, rfl, ?_⟩
        rcases chunkT_file (d := []) (by simpa [byteToks] using hc) with ⟨h, _⟩ | ⟨_, _, taken, _, h⟩
        · exact h
        · exact absurd rfl (noRecord_ne h)
  obtain ⟨er, t, hc, he⟩ := hc
  rw [hd, hk, hc] at g1
  refine ⟨r, ?_⟩
  unfold recStep
  rw [g1]
  have : er.toRec.error = .eofExpected := by rw [← he]; rfl
  simp only
  rw [if_pos this]

/-- Recovery on a clean stream. -/
theorem recovering_clean (f : Keep σ) (cfg : RecoveryConfig) (pol : Pol) {ms : List MrtRecord} {d : Bytes} (h : Blocks Intact ms d) :
    ∀ (n : Nat) (st : Recovering σ), st.finished = false → st.text = false → del st.reader = byteToks d → stk st.reader = none →
    (forLoop (recoveringNext f cfg pol) n st).1 = ((keptRecords f st.filter ms).take n).map (fun m => .ok (.item m)) ∧
    ((forLoop (recoveringNext f cfg pol) n st).2.1 = true ↔ (keptRecords f st.filter ms).length < n) := by
  induction h with
  | nil =>
    intro n st h1 h2 h3 h4
    obtain ⟨r, hr⟩ := recStep_end cfg pol st h3 h4
    have hx := recoveringNext_step f cfg pol st h1 h2
    rw [hr] at hx
    cases n with
    | zero => exact ⟨rfl, by simp [forLoop]⟩
    | succ n => rw [forLoop_none hx]; exact ⟨rfl, by simp [keptRecords]⟩
  | @cons m ms b d hi _ ih =>
    intro n st h1 h2 h3 h4
    rw [byteToks_append] at h3
    obtain ⟨r, hr, hd, hk⟩ := recStep_intact cfg pol st hi h3
    have hx := recoveringNext_step f cfg pol st h1 h2
    rw [hr] at hx
    simp only at hx
    have ih := fun n => ih n { st with reader := r, filter := (f.step st.filter m).2 } h1 h2 hd (hk.trans h4)
    simp only at ih
    simp only [keptRecords]
    cases n with
    | zero => exact ⟨by simp [forLoop], by simp [forLoop]⟩
    | succ n =>
      by_cases hs : (f.step st.filter m).1 = true
      · rw [if_pos hs] at hx ⊢
        rw [forLoop_some hx]
        simp only
        rw [(ih n).1]
        exact ⟨rfl, by rw [(ih n).2]; simp⟩
      · rw [if_neg hs] at hx ⊢
        rw [forLoop_same hx]
        exact ih (n + 1)

/-- The ordinary iterator on a clean stream. -/
theorem fallible_clean (f : Keep σ) (pol : Pol) {ms : List MrtRecord} {d : Bytes} (h : Blocks Intact ms d) (q : σ) (s : Src)
    (hs : Delivers s d) (n : Nat) :
    (forLoop (fallibleIter f pol) n (q, s)).1 = ((keptRecords f q ms).take n).map .ok ∧
    ((forLoop (fallibleIter f pol) n (q, s)).2.1 = true ↔ (keptRecords f q ms).length < n) := by
  have g := loop_fallible f pol none n q s (byteToks d) hs
  rw [g.1, g.2.1]
  clear g hs s
  induction h generalizing q n with
  | nil =>
    have hx : fallibleT f none q [] = (none, q, []) := by
      have : nextT none [] = (.error ⟨.eofExpected, none⟩, []) := rfl
      rw [fallibleT_of_error f q this, if_pos rfl]
    have hx : (fun p : σ × List Tok => fallibleT f none p.1 p.2) (q, byteToks []) = (none, q, []) := hx
    cases n with
    | zero => exact ⟨rfl, by simp [forLoop]⟩
    | succ n => rw [forLoop_none hx]; exact ⟨rfl, by simp [keptRecords]⟩
  | @cons m ms b d hi _ ih =>
    obtain ⟨raw, hf, hp⟩ := hi
    have hn : nextT none (byteToks (b ++ d)) = (.ok m, byteToks d) := by
      unfold nextT
      rw [byteToks_append, chunkT_complete none hf]
      simp only [hp]
    have hx : (fun p : σ × List Tok => fallibleT f none p.1 p.2) (q, byteToks (b ++ d)) = _ := fallibleT_of_ok f q hn
    simp only [keptRecords]
    cases n with
    | zero => exact ⟨by simp [forLoop], by simp [forLoop]⟩
    | succ n =>
      by_cases hs : (f.step q m).1 = true
      · rw [if_pos hs] at hx ⊢
        rw [forLoop_some hx]
        simp only
        rw [(ih (f.step q m).2 n).1]
        exact ⟨rfl, by rw [(ih (f.step q m).2 n).2]; simp⟩
      · rw [if_neg hs] at hx ⊢
        have hx : (fun p : σ × List Tok => fallibleT f none p.1 p.2) (q, byteToks (b ++ d)) =
          (fun p : σ × List Tok => fallibleT f none p.1 p.2) ((f.step q m).2, byteToks d) := hx
        rw [forLoop_same hx]
        exact ih (f.step q m).2 (n + 1)

theorem applyKeep_items (f : Keep σ) (ms : List MrtRecord) : ∀ (q : σ) (l : List (Except RecoveryError (Event MrtRecord))),
    applyKeep f q (ms.map (fun m => .ok (.item m)) ++ l) =
      (keptRecords f q ms).map (fun m => .ok (.item m)) ++ applyKeep f (filterAfter f q ms) l := by
  induction ms with
  | nil => intro q l; rfl
  | cons m ms ih =>
    intro q l
    simp only [List.map_cons, List.cons_append, applyKeep, keptRecords, filterAfter, List.foldl_cons]
    rw [ih]
    split <;> rfl

/-! ### gaps -/

/-- the gaps of events without errors. -/
def gapsOk : List (Event MrtRecord) → List Gap
  | [] => []
  | .gap g :: l => g :: gapsOk l
  | .item _ :: l => gapsOk l

theorem gapsOf_append {α : Type} (a b : List (Except RecoveryError (Event α))) : gapsOf (a ++ b) = gapsOf a ++ gapsOf b := by
  induction a with
  | nil => rfl
  | cons x l ih =>
    match x with
    | .ok (.item _) => exact ih
    | .ok (.gap _) => simp [gapsOf, ih]
    | .error _ => exact ih

theorem gapsOf_keep (f : Keep σ) (l : List (Event MrtRecord)) : ∀ q, gapsOf ((applyKeepOk f q l).map .ok) = gapsOk l := by
  induction l with
  | nil => intro q; rfl
  | cons x l ih =>
    intro q
    cases x with
    | gap g => simp [applyKeepOk, gapsOf, gapsOk, ih]
    | item m =>
      simp only [applyKeepOk, gapsOk]
      split
      · simp [gapsOf, ih]
      · exact ih _

theorem gapsOf_applyKeep (f : Keep σ) (l : List (Except RecoveryError (Event MrtRecord))) : ∀ q, gapsOf (applyKeep f q l) = gapsOf l := by
  induction l with
  | nil => intro q; rfl
  | cons x l ih =>
    intro q
    match x with
    | .ok (.item m) =>
      simp only [applyKeep, gapsOf]
      split
      · simp [gapsOf, ih]
      · exact ih _
    | .ok (.gap g) => simp [applyKeep, gapsOf, ih]
    | .error e => simp [applyKeep, gapsOf, ih]

theorem accounts_gaps {cfg : RecoveryConfig} {rest : Bytes} {o : Nat} {d : Bytes} {es : List (Event MrtRecord)}
    (h : Accounts cfg rest o d es) : ∀ g ∈ gapsOk es, ∃ pre skipped post, d ++ rest = pre ++ skipped ++ post ∧ skipped ≠ [] ∧
      g.start = o + pre.length ∧ g.stop = o + pre.length + skipped.length ∧ GapFits cfg g skipped post := by
  induction h with
  | done => intro g hg; cases hg
  | @record o m b d es hi _ ih =>
    intro g hg
    obtain ⟨pre, sk, post, h1, h2, h3, h4, h5⟩ := ih g hg
    exact ⟨b ++ pre, sk, post, by rw [List.append_assoc, h1]; simp, h2, by rw [h3, List.length_append, Nat.add_assoc],
      by rw [h4, List.length_append]; omega, h5⟩
  | @gap o g0 b d es hb hs hst hf _ ih =>
    intro g hg
    rcases List.mem_cons.mp hg with rfl | hg
    · exact ⟨[], b, d ++ rest, by simp, hb, by rw [hs]; rfl, by rw [hst]; rfl, hf⟩
    · obtain ⟨pre, sk, post, h1, h2, h3, h4, h5⟩ := ih g hg
      exact ⟨b ++ pre, sk, post, by rw [List.append_assoc, h1]; simp, h2, by rw [h3, List.length_append, Nat.add_assoc],
        by rw [h4, List.length_append]; omega, h5⟩

theorem accounts_ordered {cfg : RecoveryConfig} {rest : Bytes} {o : Nat} {d : Bytes} {es : List (Event MrtRecord)}
    (h : Accounts cfg rest o d es) : (∀ g ∈ gapsOk es, o ≤ g.start) ∧ (gapsOk es).Pairwise (fun g g' => g.stop ≤ g'.start) := by
  induction h with
  | done => exact ⟨by simp [gapsOk], .nil⟩
  | record _ _ ih => exact ⟨fun g hg => by have := ih.1 g hg; omega, ih.2⟩
  | @gap o g0 b d es hb hs hst hf _ ih =>
    refine ⟨fun g hg => ?_, List.pairwise_cons.mpr ⟨fun g hg => ?_, ih.2⟩⟩
    · rcases List.mem_cons.mp hg with rfl | hg
      · omega
      · have := ih.1 g hg; omega
    · have := ih.1 g hg; omega

/-- What a gap of a file says about the places that were passed over. -/
theorem fileEvents_gaps {cfg : RecoveryConfig} {o : Nat} {d : Bytes} {es : List (Except RecoveryError (Event MrtRecord))}
    (h : FileEvents cfg o d es) : ∀ pre : Bytes, pre.length = o → ∀ g ∈ gapsOf es,
      (g.evidence = .alignedRecordChain → ∃ bad, Damaged g.cause bad ∧ ((pre ++ d).drop g.start).take (g.stop - g.start) = bad ∧
        Aligned (required cfg) ((pre ++ d).drop g.stop) g.confirmed) ∧
      (g.evidence ≠ .alignedRecordChain → ∀ i, g.start < i → i < g.stop → i ≤ g.start + cfg.maxScan →
        ∀ ev, ¬ ChainAt (required cfg) ev ((pre ++ d).drop i)) ∧
      (g.evidence = .endOfStream → g.stop = (pre ++ d).length) := by
  have chain_ev : ∀ {n ev d}, ChainAt n ev d → ev ≠ .alignedRecordChain ∧ ev ≠ .endOfStream := by
    rintro n ev d ⟨c, t, _, f, rs, _, _, r, _, h⟩
    unfold PlausibleAs at h
    constructor <;> rintro rfl <;> cases f <;> exact h.2
  induction h with
  | done => intro pre _ g hg; cases hg
  | @record o m b d es hi _ ih =>
    intro pre hp g hg
    have := ih (pre ++ b) (by simp [hp]) g hg
    rw [List.append_assoc] at this
    exact this
  | @aligned o e b d k es hd ha _ ih =>
    intro pre hp g hg
    rcases List.mem_cons.mp hg with rfl | hg
    · refine ⟨fun _ => ⟨b, hd, ?_, ?_⟩, fun h => absurd rfl h, fun h => by cases h⟩
      · rw [← hp]; simp
      · simp only
        rw [← hp, ← List.append_assoc, ← List.length_append, List.drop_left]; exact ha
    · have := ih (pre ++ b) (by simp [hp]) g hg
      rw [List.append_assoc] at this
      exact this
  | falseIo _ _ => intro pre _ g hg; cases hg
  | @found o d e j ev es hs h1 h2 hc hno _ ih =>
    intro pre hp g hg
    have hj : j < d.length := by
      obtain ⟨c, t, h0, f, rs, _, hb, r, hr, _⟩ := hc
      cases hb with
      | nil => cases hr
      | cons hf _ =>
        have := Frame_length hf.1
        have := congrArg List.length h0
        simp at this
        omega
    rcases List.mem_cons.mp hg with rfl | hg
    · refine ⟨fun h => absurd h (chain_ev hc).1, fun _ i hi hi' _ ev' => ?_, fun h => absurd h (chain_ev hc).2⟩
      simp only at hi hi'
      have := hno (i - o) (by omega) (by omega) ev'
      rwa [List.drop_append, List.drop_eq_nil_of_le (by omega), List.nil_append, hp]
    · have := ih (pre ++ d.take j) (by simp [hp]; omega) g hg
      rw [List.append_assoc, List.take_append_drop] at this
      exact this
  | @tail o d e hs hno h1 h2 =>
    intro pre hp g hg
    rcases List.mem_cons.mp hg with rfl | hg
    · refine ⟨fun h => (by cases h), fun _ i hi hi' hm ev' => ?_, fun _ => by simp [hp]⟩
      simp only at hi hi' hm
      have := hno (i - o) (by omega) (by omega) ev'
      rwa [List.drop_append, List.drop_eq_nil_of_le (by omega), List.nil_append, hp]
    · cases hg
  | exhausted _ _ _ => intro pre _ g hg; cases hg

end Verif
