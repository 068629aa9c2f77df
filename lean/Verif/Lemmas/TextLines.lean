import Verif.Lemmas.Text
import Verif.Lemmas.MrtLoops
/-
Text dumps: from readers to lines.
-/
namespace Verif
open Spec

/-! ### reading lines -/

/-- `read_until` on a delivery. -/
def untilT (k : Option Bool) : Bytes → List Tok → Option Bytes × List Tok
  | acc, [] => (match k with | none => some acc | some _ => none, [])
  | acc, .byte b :: r => if b = 10 then (some (acc ++ [10]), r) else untilT k (acc ++ [b]) r
  | acc, .zero :: r => (some acc, r)
  | _, .fail _ :: r => (none, r)

/-- `read_line` on a delivery. -/
def lineT (k : Option Bool) (t : List Tok) : LineRes × List Tok :=
  match untilT k [] t with
  | (none, t) => (.failed, t)
  | (some b, t) => (if utf8Ok b = true then (if b.isEmpty then .eof else .line b) else .failed, t)

theorem atNewline_some : ∀ {c x y : Bytes}, atNewline c = some (x, y) → c = x ++ 10 :: y ∧ 10 ∉ x
  | [], _, _, h => by simp [atNewline] at h
  | b :: r, x, y, h => by
    unfold atNewline at h
    by_cases hb : b = 10
    · rw [if_pos hb] at h
      simp only [Option.some.injEq, Prod.mk.injEq] at h
      obtain ⟨rfl, rfl⟩ := h
      simp [hb]
    · rw [if_neg hb] at h
      simp only [Option.map_eq_some_iff, Prod.mk.injEq, Prod.exists] at h
      obtain ⟨x', y', h1, rfl, rfl⟩ := h
      obtain ⟨h2, h3⟩ := atNewline_some h1
      exact ⟨by rw [h2]; rfl, by simp [h3, Ne.symm hb]⟩

theorem atNewline_none : ∀ {c : Bytes}, atNewline c = none → 10 ∉ c
  | [], _ => by simp
  | b :: r, h => by
    unfold atNewline at h
    by_cases hb : b = 10
    · rw [if_pos hb] at h; simp at h
    · rw [if_neg hb, Option.map_eq_none_iff] at h
      simp [atNewline_none h, Ne.symm hb]

theorem untilT_bytes (k : Option Bool) (t : List Tok) : ∀ (c acc : Bytes), 10 ∉ c → untilT k acc (byteToks c ++ t) = untilT k (acc ++ c) t
  | [], acc, _ => by simp [byteToks]
  | b :: c, acc, h => by
    have hb : b ≠ 10 := by rintro rfl; simp at h
    show (if b = 10 then _ else untilT k (acc ++ [b]) (byteToks c ++ t)) = _
    rw [if_neg hb, untilT_bytes k t c (acc ++ [b]) (fun hc => h (by simp [hc]))]
    simp

theorem untilT_line (k : Option Bool) (t : List Tok) (x acc : Bytes) (h : 10 ∉ x) :
    untilT k acc (byteToks (x ++ [10]) ++ t) = (some (acc ++ x ++ [10]), t) := by
  have : byteToks (x ++ [10]) ++ t = byteToks x ++ (.byte 10 :: t) := by simp [byteToks]
  rw [this, untilT_bytes k _ x acc h]
  simp [untilT]

theorem untilT_progress (k : Option Bool) : ∀ (t : List Tok) (acc : Bytes), (untilT k acc t).2.length ≤ t.length - 1
  | [], acc => by simp [untilT]
  | .byte b :: r, acc => by
    unfold untilT
    by_cases hb : b = 10
    · rw [if_pos hb]; simp
    · rw [if_neg hb]
      have := untilT_progress k r (acc ++ [b])
      simp; omega
  | .zero :: r, acc => by simp [untilT]
  | .fail _ :: r, acc => by simp [untilT]

theorem readUntil_eq (fuel : Nat) : ∀ (acc : Bytes) (s : Src), s.size < fuel →
    ∃ s', readUntil fuel acc s = ((untilT s.stuck acc (toks s.evs)).1, s') ∧ At s.stuck s' (untilT s.stuck acc (toks s.evs)).2 := by
  induction fuel with
  | zero => intro _ s h; omega
  | succ fuel ih =>
    intro acc s h
    obtain ⟨evs, stuck⟩ := s
    unfold readUntil
    cases evs with
    | nil => cases stuck <;> exact ⟨_, rfl, rfl, rfl⟩
    | cons e r =>
      cases e with
      | interrupted =>
        obtain ⟨s', h1, h2⟩ := ih acc ⟨r, stuck⟩ (by simp [Src.size] at h ⊢; omega)
        exact ⟨s', h1, h2⟩
      | zero => exact ⟨_, rfl, rfl, rfl⟩
      | fail k => exact ⟨_, rfl, rfl, rfl⟩
      | data b bs =>
        simp only [Src.read]
        have hd : byteToks (b :: bs) ++ toks r = byteToks ((b :: bs).take 8192) ++ (byteToks ((b :: bs).drop 8192) ++ toks r) := by
          rw [← List.append_assoc]
          congr 1
          rw [byteToks, byteToks, byteToks, ← List.map_append, List.take_append_drop]
        have ht : toks (Ev.data b bs :: r) = byteToks ((b :: bs).take 8192) ++ toks (push ((b :: bs).drop 8192) r) := by
          rw [toks_push, ← hd]; rfl
        generalize hc : (b :: bs).take 8192 = c at *
        cases hn : atNewline c with
        | some xy =>
          obtain ⟨x, y⟩ := xy
          obtain ⟨h1, h2⟩ := atNewline_some hn
          refine ⟨⟨push y (push ((b :: bs).drop 8192) r), stuck⟩, ?_, ?_, rfl⟩
          · simp only [hn]
            rw [Prod.mk.injEq]
            refine ⟨?_, rfl⟩
            rw [ht, h1]
            have : byteToks (x ++ 10 :: y) = byteToks (x ++ [10]) ++ byteToks y := by simp [byteToks]
            rw [this, List.append_assoc (byteToks _), untilT_line _ _ x acc h2]
          · rw [ht, h1]
            have : byteToks (x ++ 10 :: y) = byteToks (x ++ [10]) ++ byteToks y := by simp [byteToks]
            rw [this, List.append_assoc, untilT_line _ _ x acc h2]
            simp only [toks_push]
        | none =>
          have hsz : (⟨push ((b :: bs).drop 8192) r, stuck⟩ : Src).size < fuel := by
            have hle : (⟨push ((b :: bs).drop 8192) r, stuck⟩ : Src).size = ((b :: bs).drop 8192).length + (⟨r, stuck⟩ : Src).size := by
              cases hh : (b :: bs).drop 8192 with
              | nil => simp [push]
              | cons x xs => simp [push, Src.size]
            rw [hle]
            simp [Src.size] at h ⊢
            omega
          obtain ⟨s', h1, h2⟩ := ih (acc ++ c) _ hsz
          refine ⟨s', ?_, ?_⟩
          · simp only
            rw [h1, ht, untilT_bytes _ _ _ _ (atNewline_none hn)]
          · rw [ht, untilT_bytes _ _ _ _ (atNewline_none hn)]
            exact h2

theorem readLine_eq (s : Src) : ∃ s', readLine s = ((lineT s.stuck (toks s.evs)).1, s') ∧ At s.stuck s' (lineT s.stuck (toks s.evs)).2 := by
  obtain ⟨s', h1, h2⟩ := readUntil_eq (s.size + 1) [] s (by omega)
  unfold readLine lineT
  rw [h1]
  rcases hu : untilT s.stuck [] (toks s.evs) with ⟨_ | b, t⟩
  · rw [hu] at h2; exact ⟨s', rfl, h2⟩
  · rw [hu] at h2; exact ⟨s', rfl, h2⟩

theorem lineT_progress {k : Option Bool} {t t' : List Tok} {b : Bytes} (h : lineT k t = (.line b, t')) : t'.length < t.length := by
  have := untilT_progress k t []
  cases t with
  | nil =>
    have hu : utf8Ok [] = true := by decide
    cases k <;> simp [lineT, untilT, hu] at h
  | cons x t =>
    unfold lineT at h
    rcases hu : untilT k [] (x :: t) with ⟨_ | b', u⟩
    · rw [hu] at h; simp at h
    · rw [hu] at h this
      simp only [Prod.mk.injEq] at h
      obtain ⟨_, rfl⟩ := h
      simp at this ⊢; omega

/-! ### elements -/

/-- the rounds of `TextIter.next` on a delivery. -/
def nextTxt (env : DumpEnv) (it : TextIter) (k : Option Bool) : Nat → Bytes → List Tok → Except Err (Option BgpElem) × Bytes × List Tok
  | 0, cur, t => (.ok none, cur, t)
  | fuel + 1, cur, t =>
    match lineT k t with
    | (.eof, t) => (.ok none, cur, t)
    | (.failed, t) => (.ok none, cur, t)
    | (.line b, t) =>
      if (trimEnd b).isEmpty then nextTxt env it k fuel cur t
      else
        match TextIter.lineStep env { it with current := cur } (trimEnd b) with
        | .error e => (.error e, cur, t)
        | .ok (some e, cur) => (.ok (some e), cur, t)
        | .ok (none, cur) => nextTxt env it k fuel cur t

/-- what stays the same during an iteration. -/
def TextIter.Like (a b : TextIter) : Prop :=
  a.cols = b.cols ∧ a.wrapped = b.wrapped ∧ a.peerIp = b.peerIp ∧ a.peerAsn = b.peerAsn ∧ a.time = b.time

theorem lineStep_like {env : DumpEnv} {a b : TextIter} (h : a.Like b) (hc : a.current = b.current) (line : Bytes) :
    a.lineStep env line = b.lineStep env line := by
  obtain ⟨h1, h2, h3, h4, h5⟩ := h
  unfold TextIter.lineStep
  rw [h1, h2, h3, h4, h5, hc]

theorem nextTxt_like {env : DumpEnv} {a b : TextIter} (h : a.Like b) (k : Option Bool) (fuel : Nat) : ∀ cur t,
    nextTxt env a k fuel cur t = nextTxt env b k fuel cur t := by
  induction fuel with
  | zero => intro cur t; rfl
  | succ fuel ih =>
    intro cur t
    unfold nextTxt
    rcases lineT k t with ⟨_ | _ | _, t⟩
    · simp only [ih]
      rw [lineStep_like (a := { a with current := cur }) (b := { b with current := cur }) h rfl]
    · rfl
    · rfl

theorem loop_txt (env : DumpEnv) (fuel : Nat) : ∀ (it : TextIter), ∃ it', it.Like it' ∧
    it.loop env fuel = ((nextTxt env it it.src.stuck fuel it.current (toks it.src.evs)).1, it') ∧
    it'.current = (nextTxt env it it.src.stuck fuel it.current (toks it.src.evs)).2.1 ∧
    At it.src.stuck it'.src (nextTxt env it it.src.stuck fuel it.current (toks it.src.evs)).2.2 := by
  induction fuel with
  | zero => intro it; exact ⟨it, ⟨rfl, rfl, rfl, rfl, rfl⟩, rfl, rfl, rfl, rfl⟩
  | succ fuel ih =>
    intro it
    obtain ⟨s', h1, h2⟩ := readLine_eq it.src
    unfold TextIter.loop nextTxt
    rw [h1]
    rcases hl : lineT it.src.stuck (toks it.src.evs) with ⟨r, t⟩
    rw [hl] at h2
    cases r with
    | eof => exact ⟨{ it with src := s' }, ⟨rfl, rfl, rfl, rfl, rfl⟩, rfl, rfl, h2⟩
    | failed => exact ⟨{ it with src := s' }, ⟨rfl, rfl, rfl, rfl, rfl⟩, rfl, rfl, h2⟩
    | line b =>
      simp only
      by_cases he : (trimEnd b).isEmpty
      · simp only [he, if_true]
        obtain ⟨it', g1, g2, g3, g4⟩ := ih { it with src := s' }
        rw [show (⟨s', it.cols, it.wrapped, it.peerIp, it.peerAsn, it.time, it.current⟩ : TextIter).src.stuck = it.src.stuck from h2.2] at g2 g3 g4
        simp only [h2.1] at g2 g3 g4
        rw [nextTxt_like (a := { it with src := s' }) (b := it) ⟨rfl, rfl, rfl, rfl, rfl⟩] at g2 g3 g4
        exact ⟨it', g1, g2, g3, g4⟩
      · simp only [he, Bool.false_eq_true, if_false]
        have hcur : ({ it with current := it.current } : TextIter) = it := rfl
        rw [hcur]
        rcases hst : it.lineStep env (trimEnd b) with e | ⟨o, cur⟩
        · exact ⟨{ it with src := s' }, ⟨rfl, rfl, rfl, rfl, rfl⟩, rfl, rfl, h2⟩
        · cases o with
          | some e => exact ⟨{ it with src := s', current := cur }, ⟨rfl, rfl, rfl, rfl, rfl⟩, rfl, rfl, h2⟩
          | none =>
            simp only
            obtain ⟨it', g1, g2, g3, g4⟩ := ih { it with src := s', current := cur }
            rw [show (⟨s', it.cols, it.wrapped, it.peerIp, it.peerAsn, it.time, cur⟩ : TextIter).src.stuck = it.src.stuck from h2.2] at g2 g3 g4
            simp only [h2.1] at g2 g3 g4
            rw [nextTxt_like (a := { it with src := s', current := cur }) (b := it) ⟨rfl, rfl, rfl, rfl, rfl⟩] at g2 g3 g4
            exact ⟨it', g1, g2, g3, g4⟩

theorem nextTxt_fuel (env : DumpEnv) (it : TextIter) (k : Option Bool) (n : Nat) : ∀ (m : Nat) (cur : Bytes) (t : List Tok),
    t.length < n → t.length < m → nextTxt env it k n cur t = nextTxt env it k m cur t := by
  induction n with
  | zero => intro m cur t h; omega
  | succ n ih =>
    intro m cur t hn hm
    cases m with
    | zero => omega
    | succ m =>
      unfold nextTxt
      rcases hl : lineT k t with ⟨r, t'⟩
      cases r with
      | eof => rfl
      | failed => rfl
      | line b =>
        have hp := lineT_progress hl
        simp only [ih m _ t' (by omega) (by omega)]

theorem nextTxt_progress (env : DumpEnv) (it : TextIter) (k : Option Bool) (n : Nat) : ∀ (cur cur' : Bytes) (t t' : List Tok) (e : BgpElem),
    nextTxt env it k n cur t = (.ok (some e), cur', t') → t'.length < t.length := by
  induction n with
  | zero => intro cur cur' t t' e h; simp [nextTxt] at h
  | succ n ih =>
    intro cur cur' t t' e h
    unfold nextTxt at h
    rcases hl : lineT k t with ⟨r, u⟩
    rw [hl] at h
    cases r with
    | eof => simp at h
    | failed => simp at h
    | line b =>
      have hp := lineT_progress hl
      simp only at h
      by_cases he : (trimEnd b).isEmpty
      · simp only [he, if_true] at h
        have := ih _ _ _ _ _ h; omega
      · simp only [he, Bool.false_eq_true, if_false] at h
        rcases hst : TextIter.lineStep env { it with current := cur } (trimEnd b) with x | ⟨o, c⟩
        · rw [hst] at h; simp at h
        · rw [hst] at h
          cases o with
          | some x =>
            simp only [Prod.mk.injEq] at h
            obtain ⟨_, _, rfl⟩ := h
            exact hp
          | none => have := ih _ _ _ _ _ h; omega

/-- `next` on a delivery. -/
def TextIter.nextT (env : DumpEnv) (it : TextIter) (k : Option Bool) (cur : Bytes) (t : List Tok) :
    Except Err (Option BgpElem) × Bytes × List Tok := nextTxt env it k (t.length + 1) cur t

theorem next_txt (env : DumpEnv) (it : TextIter) : ∃ it', it.Like it' ∧
    it.next env = ((it.nextT env it.src.stuck it.current (toks it.src.evs)).1, it') ∧
    it'.current = (it.nextT env it.src.stuck it.current (toks it.src.evs)).2.1 ∧
    At it.src.stuck it'.src (it.nextT env it.src.stuck it.current (toks it.src.evs)).2.2 := by
  have := loop_txt env (it.src.size + 1) it
  have hs := toks_length it.src
  rw [nextTxt_fuel env it it.src.stuck (it.src.size + 1) ((toks it.src.evs).length + 1) it.current (toks it.src.evs)
    (by omega) (by omega)] at this
  exact this

/-- all the rounds of an iteration on a delivery: one element per line. -/
def dumpT (env : DumpEnv) (it : TextIter) (k : Option Bool) : Nat → Bytes → List Tok → Except Err (List BgpElem)
  | 0, _, _ => .ok []
  | fuel + 1, cur, t =>
    match lineT k t with
    | (.eof, _) => .ok []
    | (.failed, _) => .ok []
    | (.line b, t) =>
      if (trimEnd b).isEmpty then dumpT env it k fuel cur t
      else
        match TextIter.lineStep env { it with current := cur } (trimEnd b) with
        | .error e => .error e
        | .ok (some e, cur) => (dumpT env it k fuel cur t).map (e :: ·)
        | .ok (none, cur) => dumpT env it k fuel cur t

theorem dumpT_fuel (env : DumpEnv) (it : TextIter) (k : Option Bool) (n : Nat) : ∀ (m : Nat) (cur : Bytes) (t : List Tok),
    t.length < n → t.length < m → dumpT env it k n cur t = dumpT env it k m cur t := by
  induction n with
  | zero => intro m cur t h; omega
  | succ n ih =>
    intro m cur t hn hm
    cases m with
    | zero => omega
    | succ m =>
      unfold dumpT
      rcases hl : lineT k t with ⟨r, t'⟩
      cases r with
      | eof => rfl
      | failed => rfl
      | line b =>
        have hp := lineT_progress hl
        simp only [ih m _ t' (by omega) (by omega)]

theorem dumpT_like {env : DumpEnv} {a b : TextIter} (h : a.Like b) (k : Option Bool) (fuel : Nat) : ∀ cur t,
    dumpT env a k fuel cur t = dumpT env b k fuel cur t := by
  induction fuel with
  | zero => intro cur t; rfl
  | succ fuel ih =>
    intro cur t
    unfold dumpT
    rcases lineT k t with ⟨_ | _ | _, t⟩
    · simp only [ih]
      rw [lineStep_like (a := { a with current := cur }) (b := { b with current := cur }) h rfl]
    · rfl
    · rfl

/-- one call of `next`, then the rest. -/
theorem dumpT_next (env : DumpEnv) (it : TextIter) (k : Option Bool) (n : Nat) : ∀ (m : Nat) (cur : Bytes) (t : List Tok),
    t.length < n → t.length < m → dumpT env it k n cur t =
      match nextTxt env it k m cur t with
      | (.error e, _, _) => .error e
      | (.ok none, _, _) => .ok []
      | (.ok (some e), cur, t) => (dumpT env it k n cur t).map (e :: ·) := by
  induction n with
  | zero => intro m cur t h; omega
  | succ n ih =>
    intro m cur t hn hm
    cases m with
    | zero => omega
    | succ m =>
      conv => lhs; unfold dumpT
      unfold nextTxt
      rcases hl : lineT k t with ⟨r, t'⟩
      cases r with
      | eof => rfl
      | failed => rfl
      | line b =>
        have hp := lineT_progress hl
        have fin : ∀ c, dumpT env it k n c t' = match nextTxt env it k m c t' with
            | (.error e, _, _) => .error e
            | (.ok none, _, _) => .ok []
            | (.ok (some e), cur, t) => (dumpT env it k (n + 1) cur t).map (e :: ·) := by
          intro c
          rw [ih m c t' (by omega) (by omega)]
          rcases hx : nextTxt env it k m c t' with ⟨_ | _ | e, c', t''⟩
          · rfl
          · rfl
          · have := nextTxt_progress env it k m _ _ _ _ _ hx
            simp only
            rw [dumpT_fuel env it k n (n + 1) c' t'' (by omega) (by omega)]
        simp only
        by_cases he : (trimEnd b).isEmpty
        · simp only [he, if_true]
          exact fin cur
        · simp only [he, Bool.false_eq_true, if_false]
          rcases hst : TextIter.lineStep env { it with current := cur } (trimEnd b) with x | ⟨o, c⟩
          · rfl
          · cases o with
            | some x =>
              simp only
              rw [dumpT_fuel env it k n (n + 1) c t' (by omega) (by omega)]
            | none => exact fin c

theorem collect_txt (env : DumpEnv) (fuel : Nat) : ∀ (it : TextIter), (toks it.src.evs).length < fuel →
    it.collect env fuel = dumpT env it it.src.stuck ((toks it.src.evs).length + 1) it.current (toks it.src.evs) := by
  induction fuel with
  | zero => intro it h; omega
  | succ fuel ih =>
    intro it h
    obtain ⟨it', g1, g2, g3, g4, g5⟩ := next_txt env it
    unfold TextIter.collect
    rw [g2, dumpT_next env it it.src.stuck _ ((toks it.src.evs).length + 1) it.current (toks it.src.evs) (by omega) (by omega)]
    unfold TextIter.nextT at g2 g3 g4 ⊢
    rcases hx : nextTxt env it it.src.stuck ((toks it.src.evs).length + 1) it.current (toks it.src.evs) with ⟨_ | _ | e, c', t''⟩
    · rfl
    · rfl
    · have hp := nextTxt_progress env it _ _ _ _ _ _ _ hx
      rw [hx] at g3 g4
      simp only
      simp only at g3 g4
      rw [ih it' (by rw [g4]; omega), g5, g3, g4]
      rw [dumpT_like (b := it) ⟨g1.1.symm, g1.2.1.symm, g1.2.2.1.symm, g1.2.2.2.1.symm, g1.2.2.2.2.symm⟩]
      rw [dumpT_fuel env it _ _ ((toks it.src.evs).length + 1) _ t'' (by omega) (by omega)]

/-! ### the preamble -/

/-- `parse_header` on a delivery. -/
def headerTxt (env : DumpEnv) (k : Option Bool) : Nat → DumpHeader → List Tok → Option DumpHeader × List Tok
  | 0, h, t => (some h, t)
  | n + 1, h, t =>
    match lineT k t with
    | (.failed, t) => (none, t)
    | (.eof, t) => (some h, t)
    | (.line b, t) =>
      if (headerLine env h b).cols.isSome then (some (headerLine env h b), t) else headerTxt env k n (headerLine env h b) t

theorem dumpHeaderLoop_eq (env : DumpEnv) (n : Nat) : ∀ (h : DumpHeader) (s : Src), ∃ s',
    dumpHeaderLoop env n h s = ((headerTxt env s.stuck n h (toks s.evs)).1, s') ∧ At s.stuck s' (headerTxt env s.stuck n h (toks s.evs)).2 := by
  induction n with
  | zero => intro h s; exact ⟨s, rfl, rfl, rfl⟩
  | succ n ih =>
    intro h s
    obtain ⟨s', h1, h2⟩ := readLine_eq s
    unfold dumpHeaderLoop headerTxt
    rw [h1]
    rcases hl : lineT s.stuck (toks s.evs) with ⟨r, t⟩
    rw [hl] at h2
    cases r with
    | eof => exact ⟨s', rfl, h2⟩
    | failed => exact ⟨s', rfl, h2⟩
    | line b =>
      simp only
      by_cases hc : (headerLine env h b).cols.isSome
      · simp only [hc, if_true]; exact ⟨s', rfl, h2⟩
      · simp only [hc, Bool.false_eq_true, if_false]
        obtain ⟨s'', g1, g2⟩ := ih (headerLine env h b) s'
        rw [h2.1, h2.2] at g1 g2
        exact ⟨s'', g1, g2⟩

/-- a whole dump on a delivery. -/
def parseDumpT (env : DumpEnv) (k : Option Bool) (t : List Tok) (time : Nat) : Except Err (List BgpElem) :=
  match headerTxt env k 64 ⟨none, none, none, none⟩ t with
  | (none, _) => .error .io
  | (some h, t) =>
    match h.cols with
    | none => .error .io
    | some c => dumpT env ⟨⟨[], none⟩, c, c.shiftLeft, h.routerId.getD (.v4 #v[0, 0, 0, 0]), h.localAs.getD 0, time, []⟩ k (t.length + 1) [] t

theorem parseTextDump_eq (env : DumpEnv) (s : Src) (time : Nat) :
    parseTextDump env s time = parseDumpT env s.stuck (toks s.evs) time := by
  obtain ⟨s', h1, h2⟩ := dumpHeaderLoop_eq env 64 ⟨none, none, none, none⟩ s
  unfold parseTextDump TextIter.new parseDumpHeader parseDumpT
  rw [h1]
  rcases hx : headerTxt env s.stuck 64 ⟨none, none, none, none⟩ (toks s.evs) with ⟨_ | h, t⟩
  · rfl
  · rw [hx] at h2
    simp only
    cases hc : h.cols with
    | none => rfl
    | some c =>
      simp only
      rw [collect_txt env _ _ (by have := toks_length s'; simp only; omega)]
      simp only [h2.1, h2.2]
      apply dumpT_like
      exact ⟨rfl, rfl, rfl, rfl, rfl⟩

end Verif
