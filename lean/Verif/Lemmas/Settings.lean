import Verif.Spec.Settings
import Verif.Lemmas.MrtIter
import Verif.Lemmas.Wasm
import Verif.Props.NoPanic
import Verif.Props.FilterIter
/-
Lemmas about settings, log lines and core dumps.
-/
namespace Verif.Props
open Spec

/-! ### errors are reproducible -/

theorem takeT_cut (n : Nat) : ∀ (b : Bytes), b.length < n → takeT none n (byteToks b) = (b, .short, []) := by
  induction n with
  | zero => intro b h; omega
  | succ n ih =>
    intro b h
    cases b with
    | nil => rfl
    | cons x xs =>
      have e : byteToks (x :: xs) = .byte x :: byteToks xs := rfl
      rw [e]
      simp only [takeT]
      rw [ih xs (by simp at h; omega)]

theorem stopErr_again {st : Stop} (h : stopErr st ≠ .io) : stopErr st = .eof := by
  cases st with
  | failed z => cases z <;> simp_all [stopErr]
  | _ => rfl

theorem bodyErr_again {st : Stop} (h : bodyErr st ≠ .io) : bodyErr st = .ioEof := by
  cases st with
  | failed z => cases z <;> simp_all [bodyErr]
  | _ => rfl

theorem headerT_again {k : Option Bool} {t t' : List Tok} {cap : Bytes} {e : Err} (h : headerT k t = (cap, .error e, t'))
    (hio : e ≠ .io) : headerT none (byteToks cap) = (cap, .error e, []) := by
  unfold headerT at h
  have a := takeT_stop k 12 t
  generalize takeT k 12 t = x0 at h a
  obtain ⟨b, st, t1⟩ := x0
  rcases a with ⟨h1, h2, h3⟩ | ⟨e', h1, h2, h3⟩
  · simp only at h1 h2 h3
    subst h1
    obtain ⟨time, type, subtype, length, r1, r2⟩ := rdBaseHeader_total b h3
    simp only [r1] at h
    have full : ∀ x : Bytes, takeT none 12 (byteToks (b ++ x)) = (b, .full, byteToks x) := fun x => by
      rw [byteToks_append]; exact takeT_full' none 12 _ _ h3
    have full0 := full []
    rw [List.append_nil] at full0
    cases ht : EntryType.ofU16? type with
    | none =>
      simp only [ht, Prod.mk.injEq, Except.error.injEq] at h
      obtain ⟨rfl, rfl, rfl⟩ := h
      unfold headerT
      rw [full0]
      simp only [r1, ht]
      rfl
    | some ty =>
      simp only [ht] at h
      by_cases het : ty = .bgp4mpEt
      · subst het
        simp only at h
        by_cases hl : length < 4
        · rw [if_pos hl] at h
          simp only [Prod.mk.injEq, Except.error.injEq] at h
          obtain ⟨rfl, rfl, rfl⟩ := h
          unfold headerT
          rw [full0]
          simp only [r1, ht, if_pos hl]
          rfl
        · rw [if_neg hl] at h
          have a := takeT_stop k 4 t1
          generalize takeT k 4 t1 = x1 at h a
          obtain ⟨m, st, t2⟩ := x1
          simp only at a
          rcases a with ⟨g1, g2, g3⟩ | ⟨e2, g1, g2, g3⟩
          · subst g1
            simp only at h
            obtain ⟨micro, rest, hm⟩ : ∃ micro rest, rdU32 m = .ok (micro, rest) := by
              match m, g3 with
              | [a, b, c, d], _ => exact ⟨_, _, rfl⟩
            rw [hm] at h
            simp at h
          · have hc : (b ++ m, stopErr st) = (cap, e) := by
              cases st with
              | full => exact absurd rfl g2.ne_full
              | short => simp only [Prod.mk.injEq, Except.error.injEq] at h; rw [h.1, ← h.2.1]
              | failed z => simp only [Prod.mk.injEq, Except.error.injEq] at h; rw [h.1, ← h.2.1]
            simp only [Prod.mk.injEq] at hc
            obtain ⟨rfl, rfl⟩ := hc
            unfold headerT
            rw [full m]
            simp only [r1, ht, if_neg hl]
            rw [takeT_cut 4 m g3]
            simp only [stopErr_again hio]
            rfl
      · exfalso
        cases ty <;> simp_all
  · simp only at h1 h2 h3
    have hc : (b, stopErr st) = (cap, e) := by
      cases st with
      | full => exact absurd rfl h2.ne_full
      | short => simp only [Prod.mk.injEq, Except.error.injEq] at h; rw [h.1, ← h.2.1]
      | failed z => simp only [Prod.mk.injEq, Except.error.injEq] at h; rw [h.1, ← h.2.1]
    simp only [Prod.mk.injEq] at hc
    obtain ⟨rfl, rfl⟩ := hc
    unfold headerT
    rw [takeT_cut 12 b h3]
    simp only [stopErr_again hio]
    rfl

theorem chunkT_again {k : Option Bool} {t t' : List Tok} {er : ChunkErr} {d : Bytes} (h : chunkT k t = (.error er, t'))
    (hb : er.bytes = some d) (hio : er.error ≠ .io) : chunkT none (byteToks d) = (.error er, []) := by
  unfold chunkT at h
  cases hh : headerT k t with
  | mk cap x =>
    obtain ⟨x, t1⟩ := x
    rw [hh] at h
    cases x with
    | error e =>
      simp only at h
      by_cases hc : e = .eof ∧ cap = []
      · rw [if_pos hc] at h
        simp only [Prod.mk.injEq, Except.error.injEq] at h
        rw [← h.1] at hb; cases hb
      · rw [if_neg hc] at h
        simp only [Prod.mk.injEq, Except.error.injEq] at h
        obtain ⟨rfl, rfl⟩ := h
        cases hb
        unfold chunkT
        rw [headerT_again hh hio]
        simp only [if_neg hc]
    | ok v =>
      obtain ⟨hd, hb'⟩ := v
      obtain ⟨rfl, hbytes, ht⟩ := headerT_ok hh
      have comp : ∀ x : Bytes, headerT none (byteToks (cap ++ x)) = (cap, .ok (hd, cap), byteToks x) := fun x => by
        rw [byteToks_append]; exact headerT_complete none hbytes
      simp only at h
      by_cases hl : hd.length.toNat > 16777216
      · rw [if_pos hl] at h
        simp only [Prod.mk.injEq, Except.error.injEq] at h
        obtain ⟨rfl, rfl⟩ := h
        cases hb
        have := comp []
        rw [List.append_nil] at this
        unfold chunkT
        rw [this]
        simp only [if_pos hl]
        rfl
      rw [if_neg hl] at h
      have a := takeT_stop k hd.length.toNat t1
      generalize takeT k hd.length.toNat t1 = x1 at h a
      obtain ⟨b, st, t2⟩ := x1
      simp only at a
      rcases a with ⟨rfl, g2, g3⟩ | ⟨e, g1, g2, g3⟩
      · simp only at h
        rw [if_neg (by simp [g3])] at h
        by_cases hc : hd.type = .tableDump ∧ needsLegacyCorrection hd.subtype b = true
        · rw [if_pos hc] at h
          have a := takeT_stop k 4 t2
          generalize takeT k 4 t2 = x2 at h a
          obtain ⟨c, st, t3⟩ := x2
          simp only at a
          rcases a with ⟨rfl, k2, k3⟩ | ⟨e, k1, k2, k3⟩
          · simp only at h
            rw [if_neg (by simp [k3])] at h
            cases h
          · have : ((.error ⟨bodyErr st, some hd, some (cap ++ (b ++ c))⟩, t3) : Except ChunkErr Raw × List Tok) = (.error er, t') := by
              cases st with
              | full => exact absurd rfl k2.ne_full
              | short => simp only at h; rw [if_pos (by simp; omega)] at h; exact h
              | failed z => exact h
            simp only [Prod.mk.injEq, Except.error.injEq] at this
            obtain ⟨rfl, rfl⟩ := this
            cases hb
            unfold chunkT
            rw [comp]
            simp only [if_neg hl]
            rw [byteToks_append, takeT_full' none _ _ _ g3]
            simp only
            rw [if_neg (by simp [g3]), if_pos hc, takeT_cut 4 c k3]
            simp only
            rw [if_pos (by omega), bodyErr_again hio]
        · rw [if_neg hc] at h
          cases h
      · have : ((.error ⟨bodyErr st, some hd, some (cap ++ b)⟩, t2) : Except ChunkErr Raw × List Tok) = (.error er, t') := by
          cases st with
          | full => exact absurd rfl g2.ne_full
          | short => simp only at h; rw [if_pos (by omega)] at h; exact h
          | failed z => exact h
        simp only [Prod.mk.injEq, Except.error.injEq] at this
        obtain ⟨rfl, rfl⟩ := this
        cases hb
        unfold chunkT
        rw [comp]
        simp only [if_neg hl]
        rw [takeT_cut _ b g3]
        simp only
        rw [if_pos (by omega), bodyErr_again hio]

/-- the same for an error of the reader: it is one of the two kinds of an early end -/
theorem failsAgain_chunk {pol : Pol} {s s' : Src} {e : RecErr} {d : Bytes} (h : chunk pol s = (.error e, s')) (hb : e.bytes = some d)
    (hio : e.error ≠ .io) : FailsAgain d e.error := by
  intro pol2 s2 hd
  obtain ⟨s1, g1, _, _⟩ := chunk_eq pol s
  rw [h] at g1
  cases hc : chunkT s.stuck (toks s.evs) with
  | mk x t =>
    rw [hc] at g1
    cases x with
    | ok r => cases g1
    | error ce =>
      cases g1
      have := chunkT_again hc hb hio
      obtain ⟨s3, k1, _, _⟩ := nextRecord_eq pol2 s2
      rw [k1]
      simp only [nextT]
      rw [hd.1, hd.2, this]
      simp only [ChunkErr.toRec] at hb ⊢
      rw [hb]

theorem failsAgain_body {raw : Raw} {e : Err} (hf : Frame raw raw.bytes) (h : raw.parse = .error e) : FailsAgain raw.bytes e := by
  intro pol s hd
  obtain ⟨s', g1, _, _⟩ := c21_record_read pol s raw raw.bytes [] hf (by rw [hd.1, List.append_nil])
  unfold nextRecord
  rw [g1]
  simp only [h]

/-! ### the record iterator with its effects -/

variable {env : TextEnv}

theorem handleError_goesOn (p : Parser env) (w : World) (e : RecErr) : (p.handleError w e).1 = goesOn p.coreDump e.error := by
  unfold Parser.handleError
  cases e.error <;> rfl

theorem warnZebra_input (p : Parser env) (w : World) : (p.warnZebra w).1.input = p.input ∧ (p.warnZebra w).1.filters = p.filters ∧
    (p.warnZebra w).1.coreDump = p.coreDump ∧ (p.warnZebra w).1.showWarnings = p.showWarnings := by
  unfold Parser.warnZebra
  split <;> exact ⟨rfl, rfl, rfl, rfl⟩

/-- reading a record with its effects is reading a record -/
theorem parser_nextRecord (pol : Pol) (p : Parser env) (w : World) (s : Src) (hs : p.input = .mrt s) :
    (p.nextRecord pol w).1 = (nextRecord pol s).1 ∧ (p.nextRecord pol w).2.1.input = .mrt (nextRecord pol s).2 ∧
    (p.nextRecord pol w).2.1.filters = p.filters ∧ (p.nextRecord pol w).2.1.coreDump = p.coreDump ∧
    (p.nextRecord pol w).2.1.showWarnings = p.showWarnings := by
  unfold Parser.nextRecord nextRecord
  rw [hs]
  simp only
  rcases chunk pol s with ⟨x, s1⟩
  cases x with
  | error e => exact ⟨rfl, rfl, rfl, rfl, rfl⟩
  | ok raw =>
    simp only
    cases raw.parse with
    | error e => exact ⟨rfl, rfl, rfl, rfl, rfl⟩
    | ok r =>
      simp only
      split
      · have := warnZebra_input ({ p with input := .mrt s1 } : Parser env) w
        exact ⟨trivial, this.1, this.2.1, this.2.2.1, this.2.2.2⟩
      · exact ⟨trivial, rfl, rfl, rfl, rfl⟩

theorem parser_progress (pol : Pol) (p : Parser env) (w : World) (s : Src) (hs : p.input = .mrt s) :
    (Spec.toks (nextRecord pol s).2.evs).length + 12 ≤ (Spec.toks s.evs).length ∨
    ∃ e, (p.nextRecord pol w).1 = .error e ∧ ∀ cd, goesOn cd e.error = false := by
  obtain ⟨s', h1, h2, h3⟩ := nextRecord_eq pol s
  rw [(parser_nextRecord pol p w s hs).1, h1]
  simp only
  rcases nextT_progress (k := s.stuck) (t := Spec.toks s.evs) rfl with h | h
  · left; rw [h2]; exact h
  · right; exact h

theorem loop_fuel (pol : Pol) (n : Nat) : ∀ (it : RecordRun env) (s : Src), it.parser.input = .mrt s → (Spec.toks s.evs).length < n →
    ∀ m, (Spec.toks s.evs).length < m → it.loop pol n = it.loop pol m := by
  induction n with
  | zero => intro it s _ h; omega
  | succ n ih =>
    intro it s hs hn m hm
    cases m with
    | zero => omega
    | succ m =>
      have hp := parser_progress pol it.parser it.world s hs
      have hi := (parser_nextRecord pol it.parser it.world s hs).2.1
      simp only [RecordRun.loop]
      rcases hx : it.parser.nextRecord pol it.world with ⟨x, p, w⟩
      rw [hx] at hp hi
      simp only at hp hi
      cases x with
      | ok r =>
        simp only
        rcases (filterKeep env p.filters).step it.elementor r with ⟨b, el⟩
        cases b with
        | true => rfl
        | false =>
          rcases hp with hp | ⟨e, he, _⟩
          · exact ih ⟨p, el, w⟩ _ hi (by omega) m (by omega)
          · cases he
      | error e =>
        simp only
        have hg := handleError_goesOn p w e
        rcases hh : p.handleError w e with ⟨g, w'⟩
        rw [hh] at hg
        cases g with
        | false => rfl
        | true =>
          rcases hp with hp | ⟨e', he, hp⟩
          · exact ih ⟨p, it.elementor, w'⟩ _ hi (by omega) m (by omega)
          · cases he; rw [hp] at hg; cases hg

theorem next_eq_loop (pol : Pol) (it : RecordRun env) (s : Src) (hs : it.parser.input = .mrt s) (n : Nat)
    (hn : (Spec.toks s.evs).length < n) : it.next pol = it.loop pol n := by
  unfold RecordRun.next
  rw [hs]
  have := toks_length s
  exact loop_fuel pol _ it s hs (by simp only [Input.size]; omega) n hn

theorem next_ok (pol : Pol) (it : RecordRun env) (s : Src) (hs : it.parser.input = .mrt s) {r : MrtRecord} {p : Parser env} {w : World}
    (h : it.parser.nextRecord pol it.world = (.ok r, p, w)) :
    it.next pol = if ((filterKeep env p.filters).step it.elementor r).1 = true
      then (some r, ⟨p, ((filterKeep env p.filters).step it.elementor r).2, w⟩)
      else RecordRun.next pol ⟨p, ((filterKeep env p.filters).step it.elementor r).2, w⟩ := by
  have hp := parser_progress pol it.parser it.world s hs
  have hi := (parser_nextRecord pol it.parser it.world s hs).2.1
  rw [h] at hp hi
  simp only at hp hi
  rw [next_eq_loop pol it s hs _ (Nat.lt_succ_self _)]
  simp only [RecordRun.loop, h]
  rcases (filterKeep env p.filters).step it.elementor r with ⟨b, el⟩
  cases b with
  | true => rfl
  | false =>
    rcases hp with hp | ⟨e, he, _⟩
    · simp only [Bool.false_eq_true, if_false]
      exact (next_eq_loop pol ⟨p, el, w⟩ _ hi _ (by omega)).symm
    · cases he

theorem next_error (pol : Pol) (it : RecordRun env) (s : Src) (hs : it.parser.input = .mrt s) {e : RecErr} {p : Parser env} {w : World}
    (h : it.parser.nextRecord pol it.world = (.error e, p, w)) :
    it.next pol = if goesOn p.coreDump e.error = true then RecordRun.next pol ⟨p, it.elementor, (p.handleError w e).2⟩
      else (none, ⟨p, it.elementor, (p.handleError w e).2⟩) := by
  have hp := parser_progress pol it.parser it.world s hs
  have hi := (parser_nextRecord pol it.parser it.world s hs).2.1
  rw [h] at hp hi
  simp only at hp hi
  rw [next_eq_loop pol it s hs _ (Nat.lt_succ_self _)]
  simp only [RecordRun.loop, h]
  have hg := handleError_goesOn p w e
  rcases hh : p.handleError w e with ⟨g, w'⟩
  rw [hh] at hg
  simp only at hg
  rw [← hg]
  cases g with
  | false => simp
  | true =>
    rcases hp with hp | ⟨e', he, hp⟩
    · simp only [if_true]
      exact (next_eq_loop pol ⟨p, it.elementor, w'⟩ _ hi _ (by omega)).symm
    · cases he; rw [hp] at hg; cases hg

/-! ### running to the end -/

theorem leaves_same {next : σ → Except Err (Option α) × σ} {a b c : σ} (h : next a = next b) : Leaves next a c ↔ Leaves next b c := by
  constructor
  · intro hl
    cases hl with
    | done hd => rw [h]; exact .done (by rw [← h]; exact hd)
    | item hd hl => exact .item (by rw [← h]; exact hd) (by rw [← h]; exact hl)
  · intro hl
    cases hl with
    | done hd => rw [← h]; exact .done (by rw [h]; exact hd)
    | item hd hl => exact .item (by rw [h]; exact hd) (by rw [h]; exact hl)

theorem leaves_ok {pol : Pol} {it it' : RecordRun env} {s : Src} (hs : it.parser.input = .mrt s) {r : MrtRecord} {p : Parser env} {w : World}
    (h : it.parser.nextRecord pol it.world = (.ok r, p, w)) :
    Leaves (recordStep pol) it it' ↔
      Leaves (recordStep pol) ⟨p, ((filterKeep env p.filters).step it.elementor r).2, w⟩ it' := by
  have hn := next_ok pol it s hs h
  by_cases hk : ((filterKeep env p.filters).step it.elementor r).1 = true
  · rw [if_pos hk] at hn
    constructor
    · intro hl
      cases hl with
      | done hd => simp [recordStep, hn] at hd
      | item _ hl => simpa [recordStep, hn] using hl
    · intro hl
      exact .item (e := r) (by simp [recordStep, hn]) (by simpa [recordStep, hn] using hl)
  · rw [if_neg hk] at hn
    have he : recordStep pol it = recordStep pol ⟨p, ((filterKeep env p.filters).step it.elementor r).2, w⟩ := by
      simp only [recordStep, hn]
    exact leaves_same he

theorem leaves_on {pol : Pol} {it it' : RecordRun env} {s : Src} (hs : it.parser.input = .mrt s) {e : RecErr} {p : Parser env} {w : World}
    (h : it.parser.nextRecord pol it.world = (.error e, p, w)) (hg : goesOn p.coreDump e.error = true) :
    Leaves (recordStep pol) it it' ↔ Leaves (recordStep pol) ⟨p, it.elementor, (p.handleError w e).2⟩ it' := by
  have hn := next_error pol it s hs h
  rw [if_pos hg] at hn
  exact leaves_same (by simp only [recordStep, hn])

theorem leaves_stop {pol : Pol} {it it' : RecordRun env} {s : Src} (hs : it.parser.input = .mrt s) {e : RecErr} {p : Parser env} {w : World}
    (h : it.parser.nextRecord pol it.world = (.error e, p, w)) (hg : goesOn p.coreDump e.error = false) :
    Leaves (recordStep pol) it it' ↔ it' = ⟨p, it.elementor, (p.handleError w e).2⟩ := by
  have hn := next_error pol it s hs h
  rw [if_neg (by simp [hg])] at hn
  constructor
  · intro hl
    cases hl with
    | done hd => simp [recordStep, hn]
    | item hd _ => simp [recordStep, hn] at hd
  · rintro rfl
    have := Leaves.done (next := recordStep pol) (s := it) (by simp [recordStep, hn])
    simpa [recordStep, hn] using this

/-! ### effects of reading one record -/

theorem short_open (d : Bytes) : isShortZebraOpen d .b16 = true ↔
    ∃ asns len rest, d = asns ++ List.replicate 16 0xFF ++ len ++ 1 :: rest ∧ asns.length = 4 ∧ len.length = 2 := by
  unfold isShortZebraOpen
  simp only [beq_self_eq_true, Bool.true_and, Bool.and_eq_true, decide_eq_true_eq, beq_iff_eq]
  constructor
  · rintro ⟨⟨h1, h2⟩, h3⟩
    refine ⟨d.take 4, (d.drop 20).take 2, d.drop 23, ?_, by rw [List.length_take]; omega, by rw [List.length_take, List.length_drop]; omega⟩
    rw [← h2]
    have e1 : d = d.take 4 ++ d.drop 4 := (List.take_append_drop 4 d).symm
    have e2 : d.drop 4 = (d.drop 4).take 16 ++ d.drop 20 := by
      have := (List.take_append_drop 16 (d.drop 4)).symm
      rwa [List.drop_drop] at this
    have e3 : d.drop 20 = (d.drop 20).take 2 ++ d.drop 22 := by
      have := (List.take_append_drop 2 (d.drop 20)).symm
      rwa [List.drop_drop] at this
    have e4 : d.drop 22 = 1 :: d.drop 23 := by
      obtain ⟨hl, hx⟩ := List.getElem?_eq_some_iff.mp h3
      rw [List.drop_eq_getElem_cons hl, hx]
    conv => lhs; rw [e1, e2, e3, e4]
    simp only [List.append_assoc]
  · rintro ⟨asns, len, rest, rfl, h1, h2⟩
    refine ⟨⟨by simp; omega, ?_⟩, ?_⟩
    · simp only [List.append_assoc]
      rw [List.drop_append_of_le_length (by omega), List.drop_of_length_le (by omega), List.nil_append]
      rw [List.take_append_of_le_length (by simp)]
      exact List.take_of_length_le (by simp)
    · rw [List.getElem?_append_right (by simp; omega)]
      simp [h1, h2]

theorem shortForm_iff {raw : Raw} {r : MrtRecord} (h : raw.parse = .ok r) : ShortForm raw ↔ raw.zebra = true := by
  have ht : (raw.header.type = .bgp4mp ∨ raw.header.type = .bgp4mpEt) ∧ usesZebraCompat raw.header.subtype raw.body = true ↔
      raw.zebra = true := by
    unfold Raw.zebra
    cases raw.header.type <;> simp
  rw [← ht]
  have hu : usesZebraCompat raw.header.subtype raw.body = true ↔
      (raw.header.subtype = 0 ∧ raw.body.length = 8 ∨
     (raw.header.subtype = 1 ∨ raw.header.subtype = 6 ∨ raw.header.subtype = 8 ∨ raw.header.subtype = 10) ∧
       ∃ asns len rest, raw.body = asns ++ List.replicate 16 0xFF ++ len ++ 1 :: rest ∧ asns.length = 4 ∧ len.length = 2) := by
    rw [← short_open]
    unfold usesZebraCompat MpType.ofU16?
    generalize raw.header.subtype = x
    by_cases h0 : x = 0
    · subst h0; simp
    by_cases h1 : x = 1
    · subst h1; simp
    by_cases h4 : x = 4
    · subst h4; simp
    by_cases h5 : x = 5
    · subst h5; simp
    by_cases h6 : x = 6
    · subst h6; simp
    by_cases h7 : x = 7
    · subst h7; simp
    by_cases h8 : x = 8
    · subst h8; simp
    by_cases h9 : x = 9
    · subst h9; simp
    by_cases h10 : x = 10
    · subst h10; simp
    by_cases h11 : x = 11
    · subst h11; simp
    simp [h0, h1, h4, h5, h6, h7, h8, h9, h10, h11]
  rw [hu]
  unfold ShortForm
  constructor
  · exact fun h => h.2
  · exact fun hh => ⟨⟨r, h⟩, hh⟩

/-! ### what happens to the world in any case -/

/-- The effects between two states. -/
structure Grows (faulty : Prop) (p : Parser env) (w : World) (p' : Parser env) (w' : World) (ls : List LogLine) : Prop where
  log : w'.log = w.log ++ ls
  settings : p'.filters = p.filters ∧ p'.coreDump = p.coreDump ∧ p'.showWarnings = p.showWarnings
  once : (ls.filter (· = .zebra)).length + p.warnedZebra.toNat ≤ p'.warnedZebra.toNat ∨ .zebra ∉ ls ∧ p'.warnedZebra = p.warnedZebra
  quiet : p.showWarnings = false → ∀ l ∈ ls, ∃ e, l = .failure e
  off : p.coreDump = false → w'.dump = w.dump
  dump : w'.dump = w.dump ∨ ∃ d, w'.dump = some d ∧ ((∃ e, FailsAgain d e) ∨ faulty)

theorem Grows.refl (faulty : Prop) (p : Parser env) (w : World) : Grows faulty p w p w [] :=
  ⟨by simp, ⟨rfl, rfl, rfl⟩, .inr ⟨by simp, rfl⟩, by simp, fun _ => rfl, .inl rfl⟩

theorem Grows.trans {faulty : Prop} {p p1 p2 : Parser env} {w w1 w2 : World} {l1 l2 : List LogLine}
    (a : Grows faulty p w p1 w1 l1) (b : Grows faulty p1 w1 p2 w2 l2) : Grows faulty p w p2 w2 (l1 ++ l2) := by
  refine ⟨by rw [b.log, a.log, List.append_assoc], ⟨b.settings.1.trans a.settings.1, b.settings.2.1.trans a.settings.2.1,
    b.settings.2.2.trans a.settings.2.2⟩, ?_, ?_, ?_, ?_⟩
  · have z : ∀ l : List LogLine, .zebra ∉ l → l.filter (· = .zebra) = [] := fun l h => by
      rw [List.filter_eq_nil_iff]; intro x hx; simp; rintro rfl; exact h hx
    rcases a.once with ha | ⟨ha, ha'⟩ <;> rcases b.once with hb | ⟨hb, hb'⟩
    · left; rw [List.filter_append, List.length_append]; omega
    · left; rw [List.filter_append, z l2 hb, hb']; simpa using ha
    · left; rw [List.filter_append, z l1 ha, ← ha']; simpa using hb
    · right; exact ⟨by simp [ha, hb], hb'.trans ha'⟩
  · intro h l hl
    rcases List.mem_append.mp hl with hl | hl
    · exact a.quiet h l hl
    · exact b.quiet (a.settings.2.2.trans h) l hl
  · intro h
    rw [b.off (a.settings.2.1.trans h), a.off h]
  · rcases b.dump with hb | hb
    · rcases a.dump with ha | ha
      · exact .inl (hb.trans ha)
      · rw [hb]; exact .inr ha
    · exact .inr hb

theorem chunk_io {pol : Pol} {s s' : Src} {e : RecErr} (h : chunk pol s = (.error e, s')) (hio : e.error = .io) : Faulty s := by
  obtain ⟨s1, g1, _, _⟩ := chunk_eq pol s
  rw [h] at g1
  cases hc : chunkT s.stuck (toks s.evs) with
  | mk x t =>
    rw [hc] at g1
    cases x with
    | ok r => cases g1
    | error ce =>
      cases g1
      have hio : ce.error = .io := hio
      rcases chunkT_error hc with ⟨b, _, _, _, h5 | h5⟩ | ⟨b, e', st, h1, h2, h3, h4⟩
      · rw [h5.1] at hio; cases hio
      · rw [h5.1] at hio; cases hio
      · have hst : st = .failed false := by
          rcases h4 with ⟨h, _⟩ | ⟨h, _⟩ | ⟨h, _⟩
          · rw [h] at hio; cases hio
          · rw [h] at hio
            cases st with
            | failed z => cases z <;> simp_all [stopErr]
            | _ => simp [stopErr] at hio
          · rw [h] at hio
            cases st with
            | failed z => cases z <;> simp_all [bodyErr]
            | _ => simp [bodyErr] at hio
        subst hst
        rcases h3 with ⟨_, _, hk⟩ | ⟨_, hk⟩ | ⟨z, he, hk⟩
        · left
          cases hs : s.stuck with
          | none => rw [hs] at hk; cases hk
          | some z => rw [hs] at hk; cases hk; rfl
        · cases hk
        · cases hk
          right
          rw [h2, he]; simp

theorem nextRecord_faulty {pol : Pol} {s : Src} (h : Faulty (nextRecord pol s).2) : Faulty s := by
  obtain ⟨s', h1, h2, h3⟩ := nextRecord_eq pol s
  rw [h1] at h
  rcases h with h | h
  · exact .inl (h3 ▸ h)
  · right
    obtain ⟨pre, hpre⟩ : ∃ pre, toks s.evs = pre ++ toks s'.evs := by
      rw [h2]
      obtain ⟨pre, hp, _⟩ := nextT_took (k := s.stuck) (t := toks s.evs) rfl
      exact ⟨pre, hp⟩
    rw [hpre]; exact List.mem_append_right _ h

theorem handleError_grows {faulty : Prop} (p : Parser env) (w : World) (e : RecErr)
    (hd : ∀ d, e.bytes = some d → (∃ e, FailsAgain d e) ∨ faulty) :
    ∃ ls, Grows faulty p w p (p.handleError w e).2 ls := by
  have dump : ∀ w' : World, w'.dump = w.dump → (w'.writeDump p.coreDump e.bytes).log = w'.log ∧
      (p.coreDump = false → (w'.writeDump p.coreDump e.bytes).dump = w.dump) ∧
      ((w'.writeDump p.coreDump e.bytes).dump = w.dump ∨ ∃ d, (w'.writeDump p.coreDump e.bytes).dump = some d ∧ ((∃ e, FailsAgain d e) ∨ faulty)) := by
    intro w' hw
    unfold World.writeDump
    cases hc : p.coreDump with
    | false => exact ⟨rfl, fun _ => hw, .inl hw⟩
    | true =>
      cases hb : e.bytes with
      | none => exact ⟨rfl, fun h => (by cases h), .inl hw⟩
      | some b => exact ⟨rfl, fun h => (by cases h), .inr ⟨b, rfl, hd b hb⟩⟩
  have warn : ∀ er, (∃ ls, (w.warn p.showWarnings (.warning er)).log = w.log ++ ls ∧ .zebra ∉ ls ∧ (p.showWarnings = false → ls = [])) ∧
      (w.warn p.showWarnings (.warning er)).dump = w.dump := by
    intro er
    unfold World.warn
    cases p.showWarnings with
    | false => exact ⟨⟨[], by simp, by simp, fun _ => rfl⟩, rfl⟩
    | true => exact ⟨⟨[.warning er], rfl, by simp, fun h => (by cases h)⟩, rfl⟩
  have g1 : ∀ er, ∃ ls, Grows faulty p w p ((w.warn p.showWarnings (.warning er)).writeDump p.coreDump e.bytes) ls := by
    intro er
    obtain ⟨⟨ls, h1, h2, h3⟩, h4⟩ := warn er
    obtain ⟨k1, k2, k3⟩ := dump _ h4
    exact ⟨ls, k1.trans h1, ⟨rfl, rfl, rfl⟩, .inr ⟨h2, rfl⟩, fun h => by rw [h3 h]; simp, k2, k3⟩
  have g2 : ∀ er, ∃ ls, Grows faulty p w p ((w.fail er).writeDump p.coreDump e.bytes) ls := by
    intro er
    obtain ⟨k1, k2, k3⟩ := dump (w.fail er) rfl
    exact ⟨[.failure er], k1, ⟨rfl, rfl, rfl⟩, .inr ⟨by simp, rfl⟩, fun _ => by simp, k2, k3⟩
  have g3 : ∀ er, ∃ ls, Grows faulty p w p (w.warn p.showWarnings (.warning er)) ls := by
    intro er
    obtain ⟨⟨ls, h1, h2, h3⟩, h4⟩ := warn er
    exact ⟨ls, h1, ⟨rfl, rfl, rfl⟩, .inr ⟨h2, rfl⟩, fun h => by rw [h3 h]; simp, fun _ => h4, .inl h4⟩
  have g0 : ∃ ls, Grows faulty p w p w ls := ⟨[], .refl _ _ _⟩
  unfold Parser.handleError
  cases e.error <;> first | exact g0 | exact g1 _ | exact g2 _ | exact g3 _

theorem parser_grows (pol : Pol) (p : Parser env) (w : World) (s : Src) (hs : p.input = .mrt s) :
    (∃ ls, Grows (Faulty s) p w (p.nextRecord pol w).2.1 (p.nextRecord pol w).2.2 ls) ∧
    ∀ e d, (p.nextRecord pol w).1 = .error e → e.bytes = some d → (∃ e, FailsAgain d e) ∨ Faulty s := by
  unfold Parser.nextRecord
  rw [hs]
  simp only
  rcases hc : chunk pol s with ⟨x, s1⟩
  cases x with
  | error e =>
    refine ⟨⟨[], by simp, ⟨rfl, rfl, rfl⟩, .inr ⟨by simp, rfl⟩, by simp, fun _ => rfl, .inl rfl⟩, ?_⟩
    intro e' d he hd
    cases he
    by_cases hio : e.error = .io
    · exact .inr (chunk_io hc hio)
    · exact .inl ⟨_, failsAgain_chunk hc hd hio⟩
  | ok raw =>
    simp only
    cases hp : raw.parse with
    | error e =>
      refine ⟨⟨[], by simp, ⟨rfl, rfl, rfl⟩, .inr ⟨by simp, rfl⟩, by simp, fun _ => rfl, .inl rfl⟩, ?_⟩
      intro e' d he hd
      cases he
      cases hd
      exact .inl ⟨_, failsAgain_body (c21_record_bytes pol _ _ _ hc).1 hp⟩
    | ok r =>
      simp only
      refine ⟨?_, fun e d he => by cases he⟩
      split
      · unfold Parser.warnZebra
        cases hsw : p.showWarnings with
        | false => exact ⟨[], by simp, ⟨by simp, by simp, by simp [hsw]⟩, .inr ⟨by simp, by simp⟩, by simp, fun _ => by simp, .inl (by simp)⟩
        | true =>
          cases hz : p.warnedZebra with
          | true => exact ⟨[], by simp, ⟨by simp, by simp, by simp [hsw]⟩, .inr ⟨by simp, by simp [hz]⟩, by simp, fun _ => by simp, .inl (by simp)⟩
          | false =>
            refine ⟨[.zebra], by simp, ⟨by simp, by simp, by simp [hsw]⟩, .inl (by simp [hz]), ?_, fun _ => by simp, .inl (by simp)⟩
            intro h; rw [hsw] at h; cases h
      · exact ⟨[], by simp, ⟨rfl, rfl, rfl⟩, .inr ⟨by simp, rfl⟩, by simp, fun _ => rfl, .inl rfl⟩

theorem loop_grows (pol : Pol) (n : Nat) : ∀ (it : RecordRun env) (s : Src), it.parser.input = .mrt s →
    (∃ ls, Grows (Faulty s) it.parser it.world (it.loop pol n).2.parser (it.loop pol n).2.world ls) ∧
    ∃ s', (it.loop pol n).2.parser.input = .mrt s' ∧ (Faulty s' → Faulty s) := by
  induction n with
  | zero => intro it s hs; exact ⟨⟨[], .refl _ _ _⟩, s, hs, id⟩
  | succ n ih =>
    intro it s hs
    have hi := (parser_nextRecord pol it.parser it.world s hs).2.1
    obtain ⟨⟨l1, g1⟩, g2⟩ := parser_grows pol it.parser it.world s hs
    have hf := @nextRecord_faulty pol s
    simp only [RecordRun.loop]
    rcases hx : it.parser.nextRecord pol it.world with ⟨x, p, w⟩
    rw [hx] at hi g1 g2
    simp only at hi g1 g2
    have weaken : ∀ {p2 w2 l}, Grows (Faulty (nextRecord pol s).2) p w p2 w2 l → Grows (Faulty s) p w p2 w2 l := fun g =>
      ⟨g.log, g.settings, g.once, g.quiet, g.off, g.dump.imp id fun ⟨d, h1, h2⟩ => ⟨d, h1, h2.imp id hf⟩⟩
    cases x with
    | ok r =>
      simp only
      rcases (filterKeep env p.filters).step it.elementor r with ⟨b, el⟩
      cases b with
      | true => exact ⟨⟨l1, g1⟩, _, hi, hf⟩
      | false =>
        obtain ⟨⟨l2, k1⟩, s', k2, k3⟩ := ih ⟨p, el, w⟩ _ hi
        exact ⟨⟨l1 ++ l2, g1.trans (weaken k1)⟩, s', k2, fun h => hf (k3 h)⟩
    | error e =>
      simp only
      obtain ⟨l2, k⟩ := handleError_grows (faulty := Faulty s) p w e (fun d hd => g2 e d rfl hd)
      rcases hh : p.handleError w e with ⟨g, w'⟩
      rw [hh] at k
      cases g with
      | false => exact ⟨⟨l1 ++ l2, g1.trans k⟩, _, hi, hf⟩
      | true =>
        obtain ⟨⟨l3, k1⟩, s', k2, k3⟩ := ih ⟨p, it.elementor, w'⟩ _ hi
        have weaken' : Grows (Faulty s) p w' _ _ l3 :=
          ⟨k1.log, k1.settings, k1.once, k1.quiet, k1.off, k1.dump.imp id fun ⟨d, h1, h2⟩ => ⟨d, h1, h2.imp id hf⟩⟩
        exact ⟨⟨_, (g1.trans k).trans weaken'⟩, s', k2, fun h => hf (k3 h)⟩

/-! ### a file of records, run to its end -/

theorem goesOn_fatal (cd : Bool) (e : Err) : goesOn cd e = false ↔ Fatal cd e := by
  cases e <;> simp [goesOn, Fatal]

/-- the lines about records. -/
def Talk (l : List LogLine) : List LogLine := l.filter (· ≠ .zebra)

/-- the remarks about Zebra. -/
def Zebras (l : List LogLine) : List LogLine := l.filter (· = .zebra)

theorem handleError_exact (p : Parser env) (w : World) (raw : Raw) (e : Err) (h : raw.parse = .error e) (hp : e ≠ .panic) :
    Talk (p.handleError w ⟨e, some raw.bytes⟩).2.log = Talk w.log ++ (complaint p.showWarnings raw).toList ∧
    Zebras (p.handleError w ⟨e, some raw.bytes⟩).2.log = Zebras w.log ∧
    (p.handleError w ⟨e, some raw.bytes⟩).2.dump = if p.coreDump = true ∧ WorthDump raw then some raw.bytes else w.dump := by
  have hw : WorthDump raw ↔ (e = .parse ∨ e = .io ∨ e = .ioEof ∨ e = .eof ∨ e = .truncated ∨ e = .unsupported) := by
    constructor
    · rintro ⟨e', h1, h2⟩
      rw [h] at h1; cases h1; exact h2
    · exact fun hh => ⟨e, h, hh⟩
  simp only [hw]
  unfold Parser.handleError complaint
  rw [h]
  cases hc : p.coreDump <;> cases hsw : p.showWarnings <;> cases e <;>
    simp [World.warn, World.fail, World.writeDump, Talk, Zebras, List.filter_append]

theorem last_append {P : Raw → Prop} [DecidablePred P] (r : Raw) (l : List Raw) (old : Option Bytes) :
    (match ((r :: l).filter (fun x => decide (P x))).getLast? with | some x => some x.bytes | none => old) =
    (match (l.filter (fun x => decide (P x))).getLast? with | some x => some x.bytes | none => if P r then some r.bytes else old) := by
  by_cases h : P r
  · rw [List.filter_cons_of_pos (by simpa using h)]
    cases hl : l.filter (fun x => decide (P x)) with
    | nil => simp [h]
    | cons a t =>
      rw [List.getLast?_cons_cons]
      cases hg : (a :: t).getLast? with
      | none => simp at hg
      | some x => rfl
  · rw [List.filter_cons_of_neg (by simpa using h)]
    cases (l.filter (fun x => decide (P x))).getLast? <;> simp [h]

theorem run_file (pol : Pol) {rs : List Raw} {b : Bytes} (hb : Blocks Frame rs b) : ∀ (it : RecordRun env) (s : Src),
    it.parser.input = .mrt s → Delivers s b → ∃ it', Leaves (recordStep pol) it it' ∧
      Talk it'.world.log = Talk it.world.log ++ (lookedAt it.parser.coreDump rs).filterMap (complaint it.parser.showWarnings) ∧
      (it.parser.showWarnings = true ∧ it.parser.warnedZebra = false ∧ (∃ r ∈ lookedAt it.parser.coreDump rs, ShortForm r) →
        Zebras it'.world.log = Zebras it.world.log ++ [LogLine.zebra]) ∧
      (¬ (it.parser.showWarnings = true ∧ it.parser.warnedZebra = false ∧ (∃ r ∈ lookedAt it.parser.coreDump rs, ShortForm r)) →
        Zebras it'.world.log = Zebras it.world.log) ∧
      it'.world.dump = if it.parser.coreDump = true then
          (match ((lookedAt it.parser.coreDump rs).filter (fun x => decide (WorthDump x))).getLast? with
            | some r => some r.bytes | none => it.world.dump) else it.world.dump := by
  induction hb with
  | nil =>
    intro it s hs hd
    obtain ⟨s1, k1, _, _⟩ := chunk_eq pol s
    rw [hd.1, hd.2] at k1
    have hn : it.parser.nextRecord pol it.world = (.error ⟨.eofExpected, none⟩, { it.parser with input := .mrt s1 }, it.world) := by
      unfold Parser.nextRecord
      rw [hs]
      simp only [k1]
      rfl
    refine ⟨⟨{ it.parser with input := .mrt s1 }, it.elementor, it.world⟩, ?_, ?_, ?_, ?_, ?_⟩
    · exact (leaves_stop hs hn rfl).mpr rfl
    · simp [lookedAt]
    · rintro ⟨_, _, r, hr, _⟩; simp [lookedAt] at hr
    · intro _; rfl
    · simp [lookedAt]
  | @cons raw rs b0 rest hf _ ih =>
    intro it s hs hd
    obtain ⟨s1, g1, g2, g3⟩ := c21_record_read pol s raw b0 (byteToks rest) hf (by rw [hd.1, byteToks_append])
    have hd1 : Delivers s1 rest := ⟨g2, g3.trans hd.2⟩
    cases hp : raw.parse with
    | error e =>
      have hnp : e ≠ .panic := by
        rintro rfl
        unfold Raw.parse at hp
        cases hb : parseMrtBody raw.header.type raw.header.subtype raw.body with
        | ok m => rw [hb] at hp; cases hp
        | error e => rw [hb] at hp; cases hp; exact parseMrtBody_noPanic _ _ _ hb
      have hn : it.parser.nextRecord pol it.world = (.error ⟨e, some raw.bytes⟩, { it.parser with input := .mrt s1 }, it.world) := by
        unfold Parser.nextRecord
        rw [hs]
        simp only [g1, hp]
      obtain ⟨k1, k2, k3⟩ := handleError_exact ({ it.parser with input := .mrt s1 } : Parser env) it.world raw e hp hnp
      simp only at k1 k2 k3
      have hns : ¬ ShortForm raw := by rintro ⟨⟨m, hm⟩, _⟩; rw [hp] at hm; cases hm
      by_cases hfat : Fatal it.parser.coreDump e
      · have hl : LastRead it.parser.coreDump raw := ⟨e, hp, hfat⟩
        refine ⟨_, (leaves_stop hs hn ((goesOn_fatal _ _).mpr hfat)).mpr rfl, ?_, ?_, ?_, ?_⟩
        · simp only [lookedAt, if_pos hl, k1, List.filterMap_cons, List.filterMap_nil]
          cases complaint it.parser.showWarnings raw <;> rfl
        · simp [lookedAt, if_pos hl, hns]
        · intro _; exact k2
        · simp only [lookedAt, if_pos hl, k3]
          cases hcd : it.parser.coreDump with
          | false => simp
          | true =>
            by_cases hw : WorthDump raw
            · simp [hw]
            · simp [hw]
      · have hl : ¬ LastRead it.parser.coreDump raw := by
          rintro ⟨e', h1, h2⟩
          rw [hp] at h1; cases h1; exact hfat h2
        have hg : goesOn it.parser.coreDump e = true := by
          rcases hx : goesOn it.parser.coreDump e with _ | _
          · exact absurd ((goesOn_fatal _ _).mp hx) hfat
          · rfl
        obtain ⟨it', m1, m2, m3, m3', m4⟩ := ih ⟨{ it.parser with input := .mrt s1 }, it.elementor,
          (Parser.handleError ({ it.parser with input := .mrt s1 } : Parser env) it.world ⟨e, some raw.bytes⟩).2⟩ s1 rfl hd1
        refine ⟨it', (leaves_on hs hn hg).mpr m1, ?_, ?_, ?_, ?_⟩
        · rw [m2, k1]
          simp only [lookedAt, if_neg hl, List.filterMap_cons, List.append_assoc]
          cases complaint it.parser.showWarnings raw <;> rfl
        · simp only [lookedAt, if_neg hl, List.mem_cons, exists_eq_or_imp, hns, false_or]
          intro hz; rw [m3 hz, k2]
        · simp only [lookedAt, if_neg hl, List.mem_cons, exists_eq_or_imp, hns, false_or]
          intro hz; rw [m3' hz, k2]
        · rw [m4]
          simp only [lookedAt, if_neg hl, k3]
          cases hcd : it.parser.coreDump with
          | false => simp
          | true =>
            simp only [if_true, true_and]
            rw [last_append (P := WorthDump)]
    | ok r =>
      have hn : ∃ p w, it.parser.nextRecord pol it.world = (.ok r, p, w) ∧ p.input = .mrt s1 ∧ p.coreDump = it.parser.coreDump ∧
          p.showWarnings = it.parser.showWarnings ∧ w.dump = it.world.dump ∧ Talk w.log = Talk it.world.log ∧
          (if raw.zebra = true ∧ it.parser.showWarnings = true ∧ it.parser.warnedZebra = false
            then Zebras w.log = Zebras it.world.log ++ [.zebra] ∧ p.warnedZebra = true
            else Zebras w.log = Zebras it.world.log ∧ p.warnedZebra = it.parser.warnedZebra) := by
        unfold Parser.nextRecord
        rw [hs]
        simp only [g1, hp]
        cases hz : raw.zebra with
        | false => exact ⟨{ it.parser with input := .mrt s1 }, it.world, rfl, rfl, rfl, rfl, rfl, rfl, rfl, rfl⟩
        | true =>
          unfold Parser.warnZebra
          cases hwz : it.parser.warnedZebra with
          | true =>
            refine ⟨{ it.parser with input := .mrt s1 }, it.world, ?_, rfl, rfl, rfl, rfl, rfl, ?_⟩
            · cases hsw : it.parser.showWarnings <;> simp [hwz, hsw]
            · simp [hwz]
          | false =>
            cases hsw : it.parser.showWarnings with
            | false =>
              refine ⟨{ it.parser with input := .mrt s1 }, it.world, ?_, rfl, rfl, hsw, rfl, rfl, ?_⟩
              · simp [hwz, hsw]
              · simp [hwz]
            | true =>
              refine ⟨{ it.parser with input := .mrt s1, warnedZebra := true }, { it.world with log := it.world.log ++ [.zebra] }, ?_,
                rfl, rfl, hsw, rfl, ?_, ?_⟩
              · simp [hsw]
              · simp [Talk]
              · simp [Zebras]
      obtain ⟨p, w, hn, e1, e2, e3, e4, e5, e6⟩ := hn
      have hl : ¬ LastRead it.parser.coreDump raw := by
        rintro ⟨e', h1, _⟩
        rw [hp] at h1; cases h1
      have hw : ¬ WorthDump raw := by
        rintro ⟨e', h1, _⟩
        rw [hp] at h1; cases h1
      have hc : complaint it.parser.showWarnings raw = none := by unfold complaint; rw [hp]
      obtain ⟨it', m1, m2, m3, m3', m4⟩ := ih ⟨p, ((filterKeep env p.filters).step it.elementor r).2, w⟩ s1 e1 hd1
      simp only at m2 m3 m3' m4
      rw [e2, e3] at m3 m3'
      refine ⟨it', (leaves_ok hs hn).mpr m1, ?_, ?_, ?_, ?_⟩
      · rw [m2, e5, e2, e3]
        simp only [lookedAt, if_neg hl, List.filterMap_cons, hc]
      · simp only [lookedAt, if_neg hl, List.mem_cons, exists_eq_or_imp, shortForm_iff hp]
        rintro ⟨z1, z2, z3⟩
        by_cases hz : raw.zebra = true
        · rw [if_pos ⟨hz, z1, z2⟩] at e6
          rw [m3' (fun hh => by rw [e6.2] at hh; cases hh.2.1), e6.1]
        · rw [if_neg (fun hh => hz hh.1)] at e6
          rw [m3 ⟨z1, e6.2.trans z2, z3.resolve_left hz⟩, e6.1]
      · simp only [lookedAt, if_neg hl, List.mem_cons, exists_eq_or_imp, shortForm_iff hp]
        intro hno
        rw [if_neg (fun hh => hno ⟨hh.2.1, hh.2.2, .inl hh.1⟩)] at e6
        rw [m3' (fun hh => hno ⟨hh.1, e6.2 ▸ hh.2.1, .inr hh.2.2⟩), e6.1]
      · rw [m4, e2, e4]
        simp only [lookedAt, if_neg hl]
        rw [last_append (P := WorthDump), if_neg hw]

end Verif.Props
