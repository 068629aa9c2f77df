import Verif.Spec.Diagnostic
import Verif.Lemmas.MrtLoops
import Verif.Lemmas.DissectMrt
/-
The diagnostic iterator on deliveries.
-/
namespace Verif
open Spec

theorem treeOf_exists (b : Bytes) (h : b.length < 4294967296) : ∃ t, dissectMrtBytes b = some t ∧ TreeOf b t := by
  obtain ⟨ps, hp, rfl⟩ := mrt_exists b
  have := dissectMrtBytes_parts hp h
  cases hn : dissectMrtBytes (partsBytes ps) with
  | none => rw [hn] at this; cases this
  | some t => rw [hn] at this; simp at this; exact ⟨t, rfl, ps, hp, rfl, this⟩

theorem treeOf_dissect {b : Bytes} {t : Node} (h : b.length < 4294967296) (ht : TreeOf b t) : dissectMrtBytes b = some t := by
  obtain ⟨ps, hp, rfl, rfl⟩ := ht
  have := dissectMrtBytes_parts hp h
  cases hn : dissectMrtBytes (partsBytes ps) with
  | none => rw [hn] at this; cases this
  | some t => rw [hn] at this; simp at this; rw [this]

/-! ### framing errors -/

theorem takeT_le (k : Option Bool) (n : Nat) (t : List Tok) : (takeT k n t).1.length ≤ n := by
  rcases takeT_stop k n t with ⟨_, _, h⟩ | ⟨_, _, _, h⟩ <;> omega

theorem chunkT_error_header {k : Option Bool} {t t' : List Tok} {er : ChunkErr} {hd : Header}
    (h : chunkT k t = (.error er, t')) (hh : er.header = some hd) :
    ∃ x rest, HeaderBytes hd x ∧ er.bytes = some (x ++ rest) ∧ rest.length ≤ 16777220 ∧ er.error ≠ .parse ∧
      (er.error ≠ .unsupported → hd.length.toNat ≤ 16777216) := by
  unfold chunkT at h
  cases hx : headerT k t with
  | mk cap x =>
    obtain ⟨x, t1⟩ := x
    rw [hx] at h
    cases x with
    | error e =>
      simp only at h
      split at h <;> (simp only [Prod.mk.injEq, Except.error.injEq] at h; obtain ⟨rfl, rfl⟩ := h; cases hh)
    | ok v =>
      obtain ⟨hd', hb⟩ := v
      obtain ⟨rfl, hbytes, ht⟩ := headerT_ok hx
      simp only at h
      by_cases hl : hd'.length.toNat > 16777216
      · rw [if_pos hl] at h
        simp only [Prod.mk.injEq, Except.error.injEq] at h
        obtain ⟨rfl, rfl⟩ := h
        cases hh
        exact ⟨cap, [], hbytes, by simp, by simp, by simp, by simp⟩
      rw [if_neg hl] at h
      have a := takeT_le k hd'.length.toNat t1
      generalize takeT k hd'.length.toNat t1 = x1 at h a
      obtain ⟨b, st, t2⟩ := x1
      simp only at a
      have main : (∃ e rest, er = ⟨e, some hd', some (cap ++ rest)⟩ ∧ rest.length ≤ 16777220 ∧ e ≠ .parse) := by
        cases st with
        | failed z =>
          simp only [Prod.mk.injEq, Except.error.injEq] at h
          obtain ⟨rfl, rfl⟩ := h
          exact ⟨_, b, rfl, by omega, by cases z <;> simp [bodyErr]⟩
        | _ =>
          simp only at h
          split at h
          · simp only [Prod.mk.injEq, Except.error.injEq] at h
            obtain ⟨rfl, rfl⟩ := h
            exact ⟨_, b, rfl, by omega, by simp⟩
          · split at h
            · have a' := takeT_le k 4 t2
              generalize takeT k 4 t2 = x2 at h a'
              obtain ⟨c, st, t3⟩ := x2
              simp only at a'
              cases st with
              | failed z =>
                simp only [Prod.mk.injEq, Except.error.injEq] at h
                obtain ⟨rfl, rfl⟩ := h
                exact ⟨_, b ++ c, rfl, by simp; omega, by cases z <;> simp [bodyErr]⟩
              | _ =>
                simp only at h
                split at h
                · simp only [Prod.mk.injEq, Except.error.injEq] at h
                  obtain ⟨rfl, rfl⟩ := h
                  exact ⟨_, b ++ c, rfl, by simp; omega, by simp⟩
                · cases h
            · cases h
      obtain ⟨e, rest, rfl, h1, h2⟩ := main
      cases hh
      exact ⟨cap, rest, hbytes, rfl, h1, h2, fun _ => by omega⟩

/-- a complete header is reported. -/
theorem chunkT_error_complete {k : Option Bool} {x : Bytes} {t t' : List Tok} {er : ChunkErr} {hd : Header}
    (hx : HeaderBytes hd x) (h : chunkT k (byteToks x ++ t) = (.error er, t')) : er.header = some hd := by
  unfold chunkT at h
  rw [headerT_complete k hx] at h
  simp only at h
  split at h
  · simp only [Prod.mk.injEq, Except.error.injEq] at h; obtain ⟨rfl, rfl⟩ := h; rfl
  · generalize takeT k hd.length.toNat t = x1 at h
    obtain ⟨b, st, t2⟩ := x1
    cases st with
    | failed z => simp only [Prod.mk.injEq, Except.error.injEq] at h; obtain ⟨rfl, rfl⟩ := h; rfl
    | _ =>
      simp only at h
      split at h
      · simp only [Prod.mk.injEq, Except.error.injEq] at h; obtain ⟨rfl, rfl⟩ := h; rfl
      · split at h
        · generalize takeT k 4 t2 = x2 at h
          obtain ⟨c, st, t3⟩ := x2
          cases st with
          | failed z => simp only [Prod.mk.injEq, Except.error.injEq] at h; obtain ⟨rfl, rfl⟩ := h; rfl
          | _ =>
            simp only at h
            split at h
            · simp only [Prod.mk.injEq, Except.error.injEq] at h; obtain ⟨rfl, rfl⟩ := h; rfl
            · cases h
        · cases h

theorem chunkT_error_small {k : Option Bool} {t t' : List Tok} {er : ChunkErr} (h : chunkT k t = (.error er, t')) :
    ∀ b, er.bytes = some b → b.length < 4294967296 := by
  intro b hb
  cases hh : er.header with
  | some hd =>
    obtain ⟨x, rest, h1, h2, h3, _⟩ := chunkT_error_header h hh
    rw [hb] at h2
    cases h2
    have := HeaderBytes_length h1
    rw [List.length_append]
    split at this <;> omega
  | none =>
    rcases chunkT_error h with ⟨c, h1, h2, h3, h4⟩ | ⟨c, e, st, h1, h2, h3, h4⟩
    · rw [hb] at h1
      cases h1
      rcases h4 with ⟨_, h4⟩ | ⟨_, hd, h4, _⟩
      · rw [h4.1]; omega
      · have := HeaderBytes_length h4
        split at this <;> omega
    · rw [hb] at h1
      simp only [Option.getD_some] at h1
      subst h1
      rcases h4 with ⟨_, h4, _⟩ | ⟨_, _, _, h4, _⟩ | ⟨_, _, _, h4⟩
      · rw [h4] at hb; cases hb
      · omega
      · rw [hh] at h4; cases h4

theorem badHeader_clash {c b x r1 r2 : Bytes} {hd : Header} (hb : BadHeader b) (hx : HeaderBytes hd x) (e1 : c = b ++ r1)
    (e2 : c = x ++ r2) : False := by
  refine hb.2 hd x hx ?_
  have := HeaderBytes_ge hx
  have h12 := hb.1
  have : (x ++ r2).take 12 = x.take 12 := List.take_append_of_le_length (by omega)
  rw [← this, ← e2, e1, List.take_append_of_le_length (by omega)]
  exact List.take_of_length_le (by omega)

theorem headerBytes_prefix {c x y r1 r2 : Bytes} {h1 h2 : Header} (hx : HeaderBytes h1 x) (hy : HeaderBytes h2 y)
    (e1 : c = x ++ r1) (e2 : c = y ++ r2) : h1 = h2 ∧ x = y := by
  have a := headerT_complete none (t' := byteToks r1) hx
  have b := headerT_complete none (t' := byteToks r2) hy
  rw [← byteToks_append, ← e1] at a
  rw [← byteToks_append, ← e2, a] at b
  simp at b
  exact ⟨b.2.1.1, b.1⟩

theorem frame_no_bad {c b x r1 r2 : Bytes} {r : Raw} (hb : BadHeader b) (hf : Frame r x) (e1 : c = b ++ r1)
    (e2 : c = x ++ r2) : False := by
  obtain ⟨h1, _, rfl, _⟩ := hf
  exact badHeader_clash hb h1 e1 (by rw [e2, List.append_assoc])

/-- what a framing error in a file is. -/
theorem chunkT_broken {c : Bytes} {t' : List Tok} {er : ChunkErr} (h : chunkT none (byteToks c) = (.error er, t')) :
    c = [] ∧ er.error = .eofExpected ∨
    er.error ≠ .eofExpected ∧ ∃ b, er.bytes = some b ∧ BrokenAt c er.error er.header b := by
  have nof : ∀ r b rest, c = b ++ rest → ¬ Frame r b := by
    rintro r b rest rfl hf
    rw [byteToks_append, chunkT_complete none hf] at h
    cases h
  rcases chunkT_error h with ⟨b, h1, h2, h3, h4⟩ | ⟨b, e, st, h1, h2, h3, h4⟩
  · right
    obtain ⟨rest, rfl, rfl⟩ := byteToks_split h2
    rcases h4 with ⟨h4, h5⟩ | ⟨h4, hd, h5, h6⟩
    · refine ⟨by simp [h4], b, h1, ?_⟩
      rw [byteToks_append, chunkT_bad none _ h5] at h
      cases h
      exact .bad b rest rfl h5
    · refine ⟨by simp [h4], b, h1, ?_⟩
      rw [byteToks_append, chunkT_long none _ h5 h6] at h
      cases h
      exact .long b rest hd rfl h5 h6
  · obtain ⟨rfl, rfl⟩ := byteToks_ends h2 h3
    have hst : st = .short := by
      rcases h3 with ⟨_, _, h3⟩ | ⟨_, h3⟩ | ⟨z, h3, _⟩
      · exact h3
      · exact h3
      · subst h3
        have : byteToks c = byteToks c ++ [Tok.fail z] := by simpa using h2
        have := congrArg List.length this
        simp at this
    subst hst
    rcases h4 with ⟨g1, g2, g3, g4⟩ | ⟨g1, g2, g3, g4, g5⟩ | ⟨g1, g2, g3, g4⟩
    · exact .inl ⟨g3, g1⟩
    · right
      refine ⟨by rw [g1]; simp [stopErr], c, g2, ?_⟩
      rw [g1, g5]
      refine .header (g3 rfl) ?_
      intro b rest hb
      constructor
      · intro hbad
        subst hb
        rw [byteToks_append, chunkT_bad none _ hbad] at h
        simp only [Prod.mk.injEq, Except.error.injEq] at h
        rw [← h.1] at g1
        simp [stopErr] at g1
      · intro hd hh
        subst hb
        rw [byteToks_append] at h
        have := chunkT_error_complete hh h
        rw [g5] at this
        cases this
    · right
      refine ⟨by rw [g1]; exact bodyErr_ne _, c, g2, ?_⟩
      obtain ⟨hd, hhd⟩ := Option.isSome_iff_exists.mp g4
      obtain ⟨x, rest, k1, k2, k3, k4, k5⟩ := chunkT_error_header h hhd
      rw [g2] at k2
      simp only [Option.some.injEq] at k2
      rw [g1, hhd]
      exact .body x rest hd k2 k1 (k5 (by rw [g1]; simp [bodyErr])) nof

theorem brokenAt_no_frame {c b : Bytes} {x : Err} {h : Option Header} (hb : BrokenAt c x h b) :
    c ≠ [] ∧ ∀ r b rest, c = b ++ rest → ¬ Frame r b := by
  cases hb with
  | bad b rest e hb =>
    refine ⟨?_, fun r b' rest' e' hf => frame_no_bad hb hf e e'⟩
    rintro rfl
    have := congrArg List.length e
    have := hb.1
    simp at *
    omega
  | long b rest hd e hb hl =>
    refine ⟨?_, ?_⟩
    · rintro rfl
      have := congrArg List.length e
      have := HeaderBytes_ge hb
      simp at *
      omega
    · rintro r b' rest' e' ⟨h1, h2, rfl, _⟩
      obtain ⟨rfl, rfl⟩ := headerBytes_prefix hb h1 e (by rw [e', List.append_assoc])
      omega
  | header h1 h2 =>
    refine ⟨h1, ?_⟩
    rintro r b' rest' e' ⟨g1, g2, rfl, _⟩
    exact (h2 _ _ (by rw [e', List.append_assoc])).2 _ g1
  | body b rest hd e hb hl hn =>
    refine ⟨?_, hn⟩
    rintro rfl
    have := congrArg List.length e
    have := HeaderBytes_ge hb
    simp at *
    omega

theorem broken_chunkT {c b : Bytes} {x : Err} {h : Option Header} (hb : BrokenAt c x h b) :
    ∃ t', chunkT none (byteToks c) = (.error ⟨x, h, some b⟩, t') := by
  obtain ⟨hne, hnf⟩ := brokenAt_no_frame hb
  cases hc : chunkT none (byteToks c) with
  | mk y t' =>
    cases y with
    | ok r =>
      obtain ⟨h1, h2⟩ := chunkT_ok hc
      obtain ⟨rest, rfl, rfl⟩ := byteToks_split h2
      exact absurd h1 (hnf _ _ _ rfl)
    | error er =>
      refine ⟨t', ?_⟩
      rcases chunkT_broken hc with ⟨h1, _⟩ | ⟨_, b', h1, h2⟩
      · exact absurd h1 hne
      · obtain ⟨e0, h0, b0⟩ := er
        simp only at h1 h2
        subst h1
        have : e0 = x ∧ h0 = h ∧ b' = b := by
          cases hb with
          | bad b rest e hb =>
            cases h2 with
            | bad b2 rest2 e2 hb2 =>
              refine ⟨rfl, rfl, ?_⟩
              rw [e] at e2
              exact ((List.append_inj e2 (by rw [hb.1, hb2.1])).1).symm
            | long b2 rest2 hd e2 hb2 _ => exact (badHeader_clash hb hb2 e e2).elim
            | header _ h2 => exact absurd hb (h2 _ _ e).1
            | body b2 rest2 hd e2 hb2 _ _ => exact (badHeader_clash hb hb2 e e2).elim
          | long b rest hd e hb hl =>
            cases h2 with
            | bad b2 rest2 e2 hb2 => exact (badHeader_clash hb2 hb e2 e).elim
            | long b2 rest2 hd2 e2 hb2 _ => obtain ⟨rfl, rfl⟩ := headerBytes_prefix hb hb2 e e2; exact ⟨rfl, rfl, rfl⟩
            | header _ h2 => exact absurd hb ((h2 _ _ e).2 _)
            | body b2 rest2 hd2 e2 hb2 _ _ => obtain ⟨rfl, rfl⟩ := headerBytes_prefix hb hb2 e e2; omega
          | header g1 g2 =>
            cases h2 with
            | bad b2 rest2 e2 hb2 => exact absurd hb2 (g2 _ _ e2).1
            | long b2 rest2 hd2 e2 hb2 _ => exact absurd hb2 ((g2 _ _ e2).2 _)
            | header _ h2 => exact ⟨rfl, rfl, rfl⟩
            | body b2 rest2 hd2 e2 hb2 _ _ => exact absurd hb2 ((g2 _ _ e2).2 _)
          | body b rest hd e hb hl hn =>
            cases h2 with
            | bad b2 rest2 e2 hb2 => exact (badHeader_clash hb2 hb e2 e).elim
            | long b2 rest2 hd2 e2 hb2 _ => obtain ⟨rfl, rfl⟩ := headerBytes_prefix hb hb2 e e2; omega
            | header _ h2 => exact absurd hb ((h2 _ _ e).2 _)
            | body b2 rest2 hd2 e2 hb2 _ _ => obtain ⟨rfl, rfl⟩ := headerBytes_prefix hb hb2 e e2; exact ⟨rfl, rfl, rfl⟩
        obtain ⟨rfl, rfl, rfl⟩ := this
        rfl

/-! ### the iterator on deliveries -/

/-- `DiagIter.next` on a delivery: whether the iteration is over, and what is left. -/
def diagT (k : Option Bool) (p : Bool × List Tok) : Option DiagEvent × (Bool × List Tok) :=
  if p.1 then (none, p)
  else
    match chunkT k p.2 with
    | (.error e, t) =>
      if e.error = .eofExpected then (none, (true, t)) else (some (errorEvent e.error e.header e.bytes), (true, t))
    | (.ok raw, t) =>
      match raw.parse with
      | .error e => (some (errorEvent e (some raw.header) (some raw.bytes)), (false, t))
      | .ok r => (some (.record r raw (recordFindings r)), (false, t))

/-- the iterator is at this point of a delivery. -/
def DiagAt (k : Option Bool) (it : DiagIter) (p : Bool × List Tok) : Prop :=
  it.text = false ∧ it.terminated = p.1 ∧ At k it.src p.2

theorem diagNext_eq (pol : Pol) (k : Option Bool) (it : DiagIter) (p : Bool × List Tok) (h : DiagAt k it p) :
    (it.next pol).1 = (diagT k p).1 ∧ DiagAt k (it.next pol).2 (diagT k p).2 := by
  obtain ⟨text, term, s⟩ := it
  obtain ⟨b, t⟩ := p
  obtain ⟨rfl, rfl, rfl, rfl⟩ := h
  unfold DiagIter.next diagT
  simp only [Bool.or_false]
  cases term with
  | true => simp only [if_true]; exact ⟨trivial, rfl, rfl, rfl, rfl⟩
  | false =>
    simp only [Bool.false_eq_true, if_false]
    obtain ⟨s', h1, h2, h3⟩ := chunkCtx_eq pol s
    rw [h1]
    cases hc : chunkT s.stuck (toks s.evs) with
    | mk x t' =>
      rw [hc] at h2
      simp only at h2
      subst h2
      cases x with
      | error e =>
        simp only
        split
        · exact ⟨rfl, rfl, rfl, rfl, h3⟩
        · exact ⟨rfl, rfl, rfl, rfl, h3⟩
      | ok raw =>
        simp only
        cases raw.parse with
        | error e => exact ⟨rfl, rfl, rfl, rfl, h3⟩
        | ok r => exact ⟨rfl, rfl, rfl, rfl, h3⟩

theorem loop_diag (pol : Pol) (k : Option Bool) (n : Nat) (it : DiagIter) (p : Bool × List Tok) (h : DiagAt k it p) :
    (forLoop (DiagIter.next pol) n it).1 = (forLoop (diagT k) n p).1 ∧
    (forLoop (DiagIter.next pol) n it).2.1 = (forLoop (diagT k) n p).2.1 ∧
    DiagAt k (forLoop (DiagIter.next pol) n it).2.2 (forLoop (diagT k) n p).2.2 := by
  have := forLoop_sim (next := DiagIter.next pol) (next' := diagT k) (DiagAt k) (· = ·) (by
    intro it p h
    obtain ⟨h1, h2⟩ := diagNext_eq pol k it p h
    refine ⟨h2, ?_⟩
    rw [h1]
    cases (diagT k p).1 <;> simp) n it p h
  exact ⟨Pairwise2_eq this.1, this.2⟩

theorem diagStart_at (s : Src) : DiagAt s.stuck (diagStart s) (false, toks s.evs) := ⟨rfl, rfl, rfl, rfl⟩

theorem frame_small {r : Raw} {b : Bytes} (h : Frame r b) : b.length < 4294967296 := by
  obtain ⟨h1, h2, rfl, h3⟩ := h
  have := HeaderBytes_length h1
  rw [List.length_append, h3]
  split at this <;> split <;> omega

theorem frame_bytes {r : Raw} {b : Bytes} (h : Frame r b) : r.bytes = b := h.2.2.1.symm

end Verif
