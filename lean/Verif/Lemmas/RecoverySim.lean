import Verif.Lemmas.RecoveryLoop
/-
Recovery on two readers that deliver the same without interruptions.
-/
namespace Verif
open Spec

/-- two windows that look the same from here on. -/
structure Alike [LReader ρ] (w w' : Replay ρ) : Prop where
  base : w.base = w'.base
  data : w.data = w'.data
  cursor : w.cursor = w'.cursor
  le : w.cursor ≤ w.data.length
  del : del w.inner = LReader.del w'.inner
  stk : stk w.inner = LReader.stk w'.inner
  calm : calm w.inner
  calm' : LReader.calm w'.inner

/-- `u` is `w` after some reading. -/
structure From [LReader ρ] (w u : Replay ρ) : Prop where
  base : u.base = w.base
  stk : stk u.inner = LReader.stk w.inner
  calm : calm u.inner
  le : u.cursor ≤ u.data.length
  took : ∃ pre, del w.inner = pre ++ del u.inner ∧ u.data = w.data ++ dataOf pre
  place : (u.data = w.data ∧ del u.inner = del w.inner) ∨ u.cursor = u.data.length

theorem From.refl [LReader ρ] {w : Replay ρ} (hl : w.cursor ≤ w.data.length) (hc : LReader.calm w.inner) : From w w :=
  ⟨rfl, rfl, hc, hl, ⟨[], rfl, by simp [dataOf]⟩, .inl ⟨rfl, rfl⟩⟩

/-- one `read` takes from the front. -/
theorem read_took [LReader ρ] (s : ρ) (n : Nat) (hn : 1 ≤ n) :
    ∃ pre, del s = pre ++ del (Reader.read s n).2 ∧ dataOf pre = (match (Reader.read s n).1 with | .got c => c | _ => []) := by
  have a := LReader.read_ok s n hn
  generalize Reader.read s n = x at a ⊢
  obtain ⟨x, s'⟩ := x
  obtain ⟨a1, a2⟩ := a
  cases x with
  | got c => exact ⟨byteToks c, a2.2.2.1, dataOf_byteToks c⟩
  | zero =>
    rcases a2 with a2 | ⟨a2, a3, _⟩
    · exact ⟨[.zero], a2, rfl⟩
    · exact ⟨[], by rw [a2, a3]; rfl, rfl⟩
  | interrupted => exact ⟨[], by rw [a2.1]; rfl, rfl⟩
  | failed k =>
    rcases a2 with a2 | ⟨a2, a3, _⟩
    · exact ⟨[.fail k], a2, rfl⟩
    · exact ⟨[], by rw [a2, a3]; rfl, rfl⟩

theorem From.read [LReader ρ] {w : Replay ρ} (u : Replay ρ) (n : Nat) (hn : 1 ≤ n) (h : From w u) : From w (Reader.read u n).2 := by
  obtain ⟨i, data, cursor, b⟩ := u
  obtain ⟨h1, h2, h3, h4, ⟨pre, h5, h6⟩, h7⟩ := h
  simp only at h1 h2 h3 h4 h5 h6 h7
  show From w (Replay.read ⟨i, data, cursor, b⟩ n).2
  simp only [Replay.read]
  cases hd : data.drop cursor with
  | nil =>
    have hlen : data.length ≤ cursor := List.drop_eq_nil_iff.mp hd
    have a := read_took i n hn
    have c := LReader.calm_ok i n h3
    have k := (LReader.read_ok i n hn).1
    simp only
    generalize Reader.read i n = x at a c k ⊢
    obtain ⟨x, i'⟩ := x
    simp only at a c k
    obtain ⟨p, a1, a2⟩ := a
    cases x with
    | got c' =>
      refine ⟨h1, k.trans h2, c.2, by simp; omega, ⟨pre ++ p, by rw [h5, a1, List.append_assoc], ?_⟩, .inr (by simp; omega)⟩
      simp only at a2 ⊢
      rw [h6, dataOf_append, a2, List.append_assoc]
    | _ =>
      refine ⟨h1, k.trans h2, c.2, h4, ⟨pre ++ p, by rw [h5, a1, List.append_assoc], ?_⟩, .inr (by simp only; omega)⟩
      simp only at a2 ⊢
      rw [h6, dataOf_append, a2, List.append_nil]
  | cons x bs =>
    have hlt : cursor < data.length := by
      have : (x :: bs).length = data.length - cursor := by rw [← hd]; simp
      simp at this; omega
    have : (x :: bs).length = data.length - cursor := by rw [← hd]; simp
    refine ⟨h1, h2, h3, ?_, ⟨pre, h5, h6⟩, ?_⟩
    · simp only [List.length_take]
      omega
    · rcases h7 with h7 | h7
      · exact .inl h7
      · omega

theorem From.alike [LReader ρ] {w w' u u' : Replay ρ} (h : Alike w w') (f : From w u) (f' : From w' u') (hd : LReader.del u = LReader.del u') :
    Alike u u' := by
  have hk : LReader.stk u.inner = LReader.stk u'.inner := by rw [f.stk, f'.stk, h.stk]
  have hb : u.base = u'.base := by rw [f.base, f'.base, h.base]
  rw [del_replay, del_replay] at hd
  obtain ⟨p, p1, p2⟩ := f.took
  obtain ⟨p', p1', p2'⟩ := f'.took
  rcases f.place with ⟨a1, a2⟩ | a <;> rcases f'.place with ⟨b1, b2⟩ | b
  · have hdata : u.data = u'.data := by rw [a1, b1, h.data]
    have hdel : LReader.del u.inner = LReader.del u'.inner := by rw [a2, b2, h.del]
    refine ⟨hb, hdata, ?_, f.le, hdel, hk, f.calm, f'.calm⟩
    have := congrArg List.length hd
    rw [List.length_append, List.length_append, hdel, byteToks_length, byteToks_length, List.length_drop, List.length_drop,
      hdata] at this
    have l1 := f.le
    have l2 := f'.le
    rw [hdata] at l1
    omega
  · rw [b, List.drop_length] at hd
    have hl := congrArg List.length hd
    have hq := congrArg List.length p1'
    rw [← h.del, ← a2] at hq
    rw [List.length_append, List.length_append, byteToks_length, byteToks_length, List.length_drop, List.length_nil] at hl
    rw [List.length_append] at hq
    have l1 := f.le
    have hc : u.cursor = u.data.length := by omega
    have hp : p' = [] := List.length_eq_zero_iff.mp (by omega)
    have hdata : u.data = u'.data := by rw [a1, h.data, p2', hp]; simp [dataOf]
    have hdel : LReader.del u.inner = LReader.del u'.inner := by rw [a2, h.del, p1', hp]; rfl
    exact ⟨hb, hdata, by rw [hc, b, hdata], f.le, hdel, hk, f.calm, f'.calm⟩
  · rw [a, List.drop_length] at hd
    have hl := congrArg List.length hd
    have hq := congrArg List.length p1
    rw [h.del, ← b2] at hq
    rw [List.length_append, List.length_append, byteToks_length, byteToks_length, List.length_drop, List.length_nil] at hl
    rw [List.length_append] at hq
    have l1 := f'.le
    have hc : u'.cursor = u'.data.length := by omega
    have hp : p = [] := List.length_eq_zero_iff.mp (by omega)
    have hdata : u.data = u'.data := by rw [b1, ← h.data, p2, hp]; simp [dataOf]
    have hdel : LReader.del u.inner = LReader.del u'.inner := by rw [b2, ← h.del, p1, hp]; rfl
    exact ⟨hb, hdata, by rw [hc, a, hdata], f.le, hdel, hk, f.calm, f'.calm⟩
  · rw [a, b, List.drop_length, List.drop_length] at hd
    have hdel : LReader.del u.inner = LReader.del u'.inner := by simpa [byteToks] using hd
    have hp : p = p' := by
      rw [h.del, p1', ← hdel] at p1
      exact (List.append_cancel_right p1).symm
    have hdata : u.data = u'.data := by rw [p2, p2', h.data, hp]
    exact ⟨hb, hdata, by rw [a, b, hdata], f.le, hdel, hk, f.calm, f'.calm⟩

theorem Alike.del_eq [LReader ρ] {w w' : Replay ρ} (h : Alike w w') : LReader.del w = LReader.del w' := by
  rw [del_replay, del_replay, h.data, h.cursor, h.del]

theorem Alike.stk_eq [LReader ρ] {w w' : Replay ρ} (h : Alike w w') : LReader.stk w = LReader.stk w' := h.stk

theorem Alike.from [LReader ρ] {w w' : Replay ρ} (h : Alike w w') : From w w ∧ From w' w' :=
  ⟨.refl h.le h.calm, .refl (by rw [← h.cursor, ← h.data]; exact h.le) h.calm'⟩

/-- the same result, and windows that look the same. -/
def SameOut [LReader ρ] (x y : α × Replay ρ) : Prop := x.1 = y.1 ∧ Alike x.2 y.2

theorem alike_candidate [LReader ρ] (pol pol' : Pol) {w w' : Replay ρ} (h : Alike w w') :
    SameOut (readCandidate pol w) (readCandidate pol' w') := by
  obtain ⟨u, g1, g2, _⟩ := readCandidate_eqG pol w
  obtain ⟨u', g1', g2', _⟩ := readCandidate_eqG pol' w'
  have f := readCandidate_inv (From w) (fun u n hn hu => hu.read u n hn) pol w h.from.1
  have f' := readCandidate_inv (From w') (fun u n hn hu => hu.read u n hn) pol' w' h.from.2
  rw [g1] at f
  rw [g1'] at f'
  rw [g1, g1']
  refine ⟨by rw [h.del_eq, h.stk_eq], f.alike h f' ?_⟩
  rw [g2, g2', h.del_eq, h.stk_eq]

theorem alike_record [LReader ρ] (pol pol' : Pol) {w w' : Replay ρ} (h : Alike w w') :
    SameOut (nextRecord pol w) (nextRecord pol' w') := by
  obtain ⟨u, g1, g2, _⟩ := nextRecord_eqG pol w
  obtain ⟨u', g1', g2', _⟩ := nextRecord_eqG pol' w'
  have f := nextRecord_inv (From w) (fun u n hn hu => hu.read u n hn) pol w h.from.1
  have f' := nextRecord_inv (From w') (fun u n hn hu => hu.read u n hn) pol' w' h.from.2
  rw [g1] at f
  rw [g1'] at f'
  rw [g1, g1']
  refine ⟨by rw [h.del_eq, h.stk_eq], f.alike h f' ?_⟩
  rw [g2, g2', h.del_eq, h.stk_eq]

/-- `fill` in terms of what it takes. -/
def fillR (w : Replay ρ) (target : Nat) (i : ρ) (x : Bytes × Stop × List Tok) : Except ScanErr Bool × Replay ρ :=
  match x.2.1 with
  | .full => (.ok true, ⟨i, w.data ++ x.1, target, w.base⟩)
  | .short => (.ok false, ⟨i, w.data ++ x.1, (w.data ++ x.1).length, w.base⟩)
  | .failed k => (.error (.io k), ⟨i, w.data ++ x.1, w.cursor, w.base⟩)

theorem fill_eq [LReader ρ] (target fuel : Nat) : ∀ w : Replay ρ, calm w.inner → target - w.data.length < fuel →
    ∃ i, stk i = stk w.inner ∧ calm i ∧ del i = (takeT (stk w.inner) (target - w.data.length) (del w.inner)).2.2 ∧
      w.fill target fuel = fillR w target i (takeT (stk w.inner) (target - w.data.length) (del w.inner)) := by
  induction fuel with
  | zero => intro w _ h; omega
  | succ fuel ih =>
    intro w hc hf
    simp only [Replay.fill]
    by_cases hl : w.data.length < target
    · rw [if_pos hl]
      have hn : 1 ≤ min (target - w.data.length) 8192 := by omega
      obtain ⟨k, l⟩ := LReader.read_ok w.inner _ hn
      have c := LReader.calm_ok w.inner (min (target - w.data.length) 8192) hc
      generalize Reader.read w.inner (min (target - w.data.length) 8192) = x at k l c ⊢
      obtain ⟨x, i'⟩ := x
      simp only at k l c
      obtain ⟨m, hm⟩ : ∃ m, target - w.data.length = m + 1 := ⟨target - w.data.length - 1, by omega⟩
      cases x with
      | got b =>
        obtain ⟨l1, l2, l3, _⟩ := l
        have hb : 1 ≤ b.length := by
          cases b with
          | nil => exact absurd rfl l1
          | cons _ _ => simp
        obtain ⟨i, g1, g2, g3, g4⟩ := ih { w with inner := i', data := w.data ++ b } c.2 (by simp; omega)
        simp only [List.length_append] at g1 g3 g4
        rw [k] at g1 g3 g4
        have e : target - (w.data.length + b.length) = target - w.data.length - b.length := by omega
        rw [e] at g3 g4
        refine ⟨i, g1, g2, ?_, ?_⟩
        · rw [g3, l3, takeT_bytes _ _ _ _ (by omega)]
        · simp only
          rw [g4, l3, takeT_bytes _ _ _ _ (by omega)]
          unfold fillR
          simp only
          generalize (takeT (stk w.inner) (target - w.data.length - b.length) (del i')).2.1 = st
          cases st <;> simp only [List.append_assoc]
      | zero =>
        refine ⟨i', k, c.2, ?_⟩
        rw [hm]
        rcases l with l | ⟨l1, l2, l3⟩
        · rw [l]; exact ⟨rfl, by simp [fillR, takeT]⟩
        · rw [l1, l2, l3]; exact ⟨rfl, by simp [fillR, takeT]⟩
      | interrupted => exact absurd rfl c.1
      | failed z =>
        refine ⟨i', k, c.2, ?_⟩
        rw [hm]
        rcases l with l | ⟨l1, l2, l3⟩
        · rw [l]; exact ⟨rfl, by simp [fillR, takeT]⟩
        · rw [l1, l2, l3]; exact ⟨rfl, by simp [fillR, takeT]⟩
    · rw [if_neg hl]
      have : target - w.data.length = 0 := by omega
      rw [this]
      exact ⟨w.inner, rfl, hc, rfl, by simp [fillR, takeT]⟩

theorem alike_moveTo [LReader ρ] {w w' : Replay ρ} (h : Alike w w') (offset : Nat) : SameOut (w.moveTo offset) (w'.moveTo offset) := by
  unfold Replay.moveTo
  rw [← h.base]
  by_cases hb : offset < w.base
  · rw [if_pos hb, if_pos hb]; exact ⟨rfl, h⟩
  · rw [if_neg hb, if_neg hb]
    obtain ⟨i, g1, g2, g3, g4⟩ := fill_eq (offset - w.base) (offset - w.base - w.data.length + 1) w h.calm (by omega)
    obtain ⟨i', g1', g2', g3', g4'⟩ := fill_eq (offset - w.base) (offset - w.base - w'.data.length + 1) w' h.calm' (by omega)
    rw [← h.data, ← h.stk, ← h.del] at g3' g4'
    rw [← h.stk] at g1'
    rw [← h.data, g4, g4']
    obtain ⟨e, s1, _, s3, s4, _⟩ := takeT_split (stk w.inner) (offset - w.base - w.data.length) (del w.inner)
    generalize takeT (stk w.inner) (offset - w.base - w.data.length) (del w.inner) = x at *
    obtain ⟨b, st, t⟩ := x
    simp only at *
    have hl := h.le
    unfold fillR
    cases st with
    | full =>
      refine ⟨rfl, h.base, by rw [h.data], rfl, ?_, by rw [g3, g3'], by rw [g1, g1'], g2, g2'⟩
      have := (s3 rfl).2
      simp; omega
    | short => exact ⟨rfl, h.base, by rw [h.data], by rw [h.data], Nat.le_refl _, by rw [g3, g3'], by rw [g1, g1'], g2, g2'⟩
    | failed z => exact ⟨rfl, h.base, by rw [h.data], h.cursor, by simp; omega, by rw [g3, g3'], by rw [g1, g1'], g2, g2'⟩

theorem alike_peek [LReader ρ] {w w' : Replay ρ} (h : Alike w w') (offset : Nat) : SameOut (w.peekTwoAt offset) (w'.peekTwoAt offset) := by
  have hm := alike_moveTo h (offset + 2)
  unfold Replay.peekTwoAt
  generalize w.moveTo (offset + 2) = x at hm ⊢
  generalize w'.moveTo (offset + 2) = y at hm ⊢
  obtain ⟨x, u⟩ := x
  obtain ⟨y, u'⟩ := y
  obtain ⟨rfl, ha⟩ := hm
  simp only at ha
  match x with
  | .error e => exact ⟨rfl, ha⟩
  | .ok false => exact ⟨rfl, ha⟩
  | .ok true =>
    simp only
    rw [ha.data, ha.base]
    split <;> exact ⟨rfl, ha⟩

theorem alike_chain [LReader ρ] (pol pol' : Pol) (n : Nat) : ∀ (first : Option (StreamFamily × Evidence)) {w w' : Replay ρ}, Alike w w' →
    SameOut (chainLoop pol n first w) (chainLoop pol' n first w') := by
  induction n with
  | zero => intro first w w' h; exact ⟨rfl, h⟩
  | succ n ih =>
    intro first w w' h
    have hc := alike_candidate pol pol' h
    have hpos : w.position = w'.position := by rw [Replay.position, Replay.position, h.base, h.cursor]
    simp only [chainLoop]
    rw [hpos]
    generalize readCandidate pol w = x at hc ⊢
    generalize readCandidate pol' w' = y at hc ⊢
    obtain ⟨x, u⟩ := x
    obtain ⟨y, u'⟩ := y
    obtain ⟨rfl, ha⟩ := hc
    simp only at ha
    match x with
    | .error e => exact ⟨rfl, ha⟩
    | .ok none =>
      have hm := alike_moveTo ha w'.position
      simp only
      generalize u.moveTo w'.position = x at hm ⊢
      generalize u'.moveTo w'.position = y at hm ⊢
      obtain ⟨x, v⟩ := x
      obtain ⟨y, v'⟩ := y
      obtain ⟨rfl, hv⟩ := hm
      cases x <;> exact ⟨rfl, hv⟩
    | .ok (some (f, e)) =>
      simp only
      cases first with
      | none => exact ih _ ha
      | some fe =>
        simp only
        split
        · exact ⟨rfl, ha⟩
        · exact ih _ ha

theorem alike_validate [LReader ρ] (pol pol' : Pol) {w w' : Replay ρ} (h : Alike w w') (offset n : Nat) :
    SameOut (validateChain pol w offset n) (validateChain pol' w' offset n) := by
  have hm := alike_moveTo h offset
  unfold validateChain
  generalize w.moveTo offset = x at hm ⊢
  generalize w'.moveTo offset = y at hm ⊢
  obtain ⟨x, u⟩ := x
  obtain ⟨y, u'⟩ := y
  obtain ⟨rfl, ha⟩ := hm
  simp only at ha
  match x with
  | .error e => exact ⟨rfl, ha⟩
  | .ok false => exact ⟨rfl, ha⟩
  | .ok true =>
    have hc := alike_chain pol pol' n none ha
    simp only
    generalize chainLoop pol n none u = x at hc ⊢
    generalize chainLoop pol' n none u' = y at hc ⊢
    obtain ⟨x, v⟩ := x
    obtain ⟨y, v'⟩ := y
    obtain ⟨rfl, hv⟩ := hc
    cases x <;> exact ⟨rfl, hv⟩

theorem alike_find [LReader ρ] (pol pol' : Pol) (start required todo : Nat) : ∀ (distance : Nat) {w w' : Replay ρ}, Alike w w' →
    SameOut (findRecovery pol start required todo distance w) (findRecovery pol' start required todo distance w') := by
  induction todo with
  | zero => intro d w w' h; exact ⟨rfl, h⟩
  | succ todo ih =>
    intro d w w' h
    have hp := alike_peek h (start + d + 4)
    simp only [findRecovery]
    generalize w.peekTwoAt (start + d + 4) = x at hp ⊢
    generalize w'.peekTwoAt (start + d + 4) = y at hp ⊢
    obtain ⟨x, u⟩ := x
    obtain ⟨y, u'⟩ := y
    obtain ⟨rfl, ha⟩ := hp
    simp only at ha
    match x with
    | .error e => exact ⟨rfl, ha⟩
    | .ok none => exact ⟨by simp only [Replay.bufferedEnd, ha.base, ha.data], ha⟩
    | .ok (some (a, b)) =>
      simp only
      split
      · have hv := alike_validate pol pol' ha (start + d) required
        generalize validateChain pol u (start + d) required = x at hv ⊢
        generalize validateChain pol' u' (start + d) required = y at hv ⊢
        obtain ⟨x, v⟩ := x
        obtain ⟨y, v'⟩ := y
        obtain ⟨rfl, hv⟩ := hv
        simp only at hv
        match x with
        | .error e => exact ⟨rfl, hv⟩
        | .ok none => exact ih _ hv
        | .ok (some ev) => exact ⟨rfl, hv⟩
      · exact ih _ ha

theorem alike_confirmLoop [LReader ρ] (pol pol' : Pol) (todo : Nat) : ∀ (c : Nat) {w w' : Replay ρ}, Alike w w' →
    SameOut (confirmLoop pol todo c w) (confirmLoop pol' todo c w') := by
  induction todo with
  | zero => intro c w w' h; exact ⟨rfl, h⟩
  | succ todo ih =>
    intro c w w' h
    have hr := alike_record pol pol' h
    simp only [confirmLoop]
    generalize nextRecord pol w = x at hr ⊢
    generalize nextRecord pol' w' = y at hr ⊢
    obtain ⟨x, u⟩ := x
    obtain ⟨y, u'⟩ := y
    obtain ⟨rfl, ha⟩ := hr
    simp only at ha
    match x with
    | .ok _ => exact ih _ ha
    | .error e =>
      simp only
      split
      · exact ⟨rfl, ha⟩
      · split <;> exact ⟨rfl, ha⟩

theorem alike_confirm [LReader ρ] (pol pol' : Pol) {w w' : Replay ρ} (h : Alike w w') (boundary n : Nat) :
    SameOut (confirmAligned pol w boundary n) (confirmAligned pol' w' boundary n) := by
  have hm := alike_moveTo h boundary
  unfold confirmAligned
  generalize w.moveTo boundary = x at hm ⊢
  generalize w'.moveTo boundary = y at hm ⊢
  obtain ⟨x, u⟩ := x
  obtain ⟨y, u'⟩ := y
  obtain ⟨rfl, ha⟩ := hm
  simp only at ha
  match x with
  | .error e => exact ⟨rfl, ha⟩
  | .ok false => exact ⟨rfl, ha⟩
  | .ok true => exact alike_confirmLoop pol pol' n 0 ha

/-- two carry-over readers that look the same from here on. -/
structure AlikeC (c c' : Carry Src) : Prop where
  del : del c = LReader.del c'
  stk : stk c = LReader.stk c'
  calm : calm c
  calm' : LReader.calm c'
  offset : c.offset = c'.offset

/-- two states that look the same from here on. -/
structure AlikeS (st st' : Recovering σ) : Prop where
  filter : st.filter = st'.filter
  text : st.text = st'.text
  finished : st.finished = st'.finished
  reader : st.finished = false → AlikeC st.reader st'.reader

theorem alike_resume {w w' : Replay (Carry Src)} (h : Alike w w') (o : Nat) :
    AlikeC (w.inner.resumeWith (w.leftover o) o) (w'.inner.resumeWith (w'.leftover o) o) := by
  refine ⟨?_, h.stk, h.calm, h.calm', rfl⟩
  have hl : w.leftover o = w'.leftover o := by rw [Replay.leftover, Replay.leftover, h.base, h.data]
  have e := h.del
  simp only [del_carry] at e ⊢
  simp only [Carry.resumeWith, byteToks_append, List.append_assoc]
  rw [hl, e]

theorem alike_scan (cfg : RecoveryConfig) (pol pol' : Pol) {st st' : Recovering σ} (hf : st.filter = st'.filter) (ht : st.text = st'.text)
    (hfin : st.finished = st'.finished) (start : Nat) (e : RecErr) {w w' : Replay (Carry Src)} (h : Alike w w') :
    (recoverScan cfg pol st start e w).1 = (recoverScan cfg pol' st' start e w').1 ∧
    AlikeS (recoverScan cfg pol st start e w).2 (recoverScan cfg pol' st' start e w').2 := by
  have hr := alike_find pol pol' start (max cfg.confirmations.toNat 1) cfg.maxScan 1 h
  unfold recoverScan
  generalize findRecovery pol start (max cfg.confirmations.toNat 1) cfg.maxScan 1 w = x at hr ⊢
  generalize findRecovery pol' start (max cfg.confirmations.toNat 1) cfg.maxScan 1 w' = y at hr ⊢
  obtain ⟨x, u⟩ := x
  obtain ⟨y, u'⟩ := y
  obtain ⟨rfl, ha⟩ := hr
  simp only at ha
  match x with
  | .ok (.found o ev n) => exact ⟨rfl, hf, ht, hfin, fun _ => alike_resume ha o⟩
  | .ok (.endOfStream o) => exact ⟨rfl, hf, ht, hfin, fun _ => alike_resume ha o⟩
  | .ok .exhausted => exact ⟨rfl, hf, ht, rfl, fun h => by cases h⟩
  | .error x =>
    refine ⟨?_, hf, ht, rfl, fun h => by cases h⟩
    simp only [Replay.position, ha.base, ha.cursor]

theorem alike_recover (cfg : RecoveryConfig) (pol pol' : Pol) {st st' : Recovering σ} (hf : st.filter = st'.filter) (ht : st.text = st'.text)
    (hfin : st.finished = st'.finished) (hc : AlikeC st.reader st'.reader) (start : Nat) (stop : Option Nat) (e : RecErr) :
    (recover cfg pol st start stop e).1 = (recover cfg pol' st' start stop e).1 ∧
    AlikeS (recover cfg pol st start stop e).2 (recover cfg pol' st' start stop e).2 := by
  have h : Alike (ρ := Carry Src) ⟨st.reader, e.bytes.getD [], 0, start⟩ ⟨st'.reader, e.bytes.getD [], 0, start⟩ :=
    ⟨rfl, rfl, rfl, Nat.zero_le _, hc.del, hc.stk, hc.calm, hc.calm'⟩
  unfold recover
  simp only
  rw [hc.offset]
  split
  · exact ⟨rfl, hf, ht, rfl, fun h => by cases h⟩
  · cases stop with
    | none => exact alike_scan cfg pol pol' hf ht hfin start e h
    | some stop =>
      have hr := alike_confirm pol pol' h stop (max cfg.confirmations.toNat 1)
      simp only
      generalize confirmAligned pol ⟨st.reader, e.bytes.getD [], 0, start⟩ stop (max cfg.confirmations.toNat 1) = x at hr ⊢
      generalize confirmAligned pol' ⟨st'.reader, e.bytes.getD [], 0, start⟩ stop (max cfg.confirmations.toNat 1) = y at hr ⊢
      obtain ⟨x, u⟩ := x
      obtain ⟨y, u'⟩ := y
      obtain ⟨rfl, ha⟩ := hr
      simp only at ha
      match x with
      | .ok (some n) => exact ⟨rfl, hf, ht, hfin, fun _ => alike_resume ha stop⟩
      | .ok none => exact alike_scan cfg pol pol' hf ht hfin start e ha
      | .error x => exact ⟨rfl, hf, ht, rfl, fun h => by cases h⟩

theorem alike_chunk (pol pol' : Pol) {c c' : Carry Src} (h : AlikeC c c') :
    (chunk pol c).1 = (chunk pol' c').1 ∧ AlikeC (chunk pol c).2 (chunk pol' c').2 := by
  obtain ⟨u, g1, g2, g3⟩ := chunk_eqG pol c
  obtain ⟨u', g1', g2', g3'⟩ := chunk_eqG pol' c'
  have f := chunk_inv (calm) (fun u n _ hu => (LReader.calm_ok u n hu).2) pol c h.calm
  have f' := chunk_inv (calm) (fun u n _ hu => (LReader.calm_ok u n hu).2) pol' c' h.calm'
  have k := chunk_inv (fun c => c.offset + (dataOf (del c)).length = c'.offset + (dataOf (del c')).length)
    (fun c n hn hc => carry_total _ c n hn hc) pol c (by rw [h.offset, h.del])
  have k' := chunk_inv (fun c => c.offset + (dataOf (del c)).length = c'.offset + (dataOf (del c')).length)
    (fun c n hn hc => carry_total _ c n hn hc) pol' c' rfl
  rw [g1] at f k
  rw [g1'] at f' k'
  rw [g1, g1']
  simp only at f f' k k' ⊢
  rw [← h.del, ← h.stk] at g2'
  have hd : del u = del u' := by rw [g2, g2']
  refine ⟨by rw [h.del, h.stk], hd, by rw [g3, g3', h.stk], f, f', ?_⟩
  rw [hd] at k
  omega

theorem alike_step (cfg : RecoveryConfig) (pol pol' : Pol) {st st' : Recovering σ} (h : AlikeS st st') (hn : st.finished = false) :
    (recStep cfg pol st).1 = (recStep cfg pol' st').1 ∧ AlikeS (recStep cfg pol st).2 (recStep cfg pol' st').2 := by
  have hc := h.reader hn
  obtain ⟨h1, h2⟩ := alike_chunk pol pol' hc
  unfold recStep
  rw [← hc.offset]
  generalize chunk pol st.reader = x at h1 h2 ⊢
  generalize chunk pol' st'.reader = y at h1 h2 ⊢
  obtain ⟨x, r⟩ := x
  obtain ⟨y, r'⟩ := y
  simp only at h1 h2
  subst h1
  match x with
  | .error e =>
    simp only
    split
    · exact ⟨rfl, h.filter, h.text, rfl, fun h => by cases h⟩
    · split
      · exact ⟨rfl, h.filter, h.text, rfl, fun h => by cases h⟩
      · have := alike_recover cfg pol pol' (st := { st with reader := r }) (st' := { st' with reader := r' }) h.filter h.text h.finished h2
          st.reader.offset none e
        exact ⟨by rw [this.1], this.2⟩
  | .ok raw =>
    simp only
    cases raw.parse with
    | ok m => exact ⟨rfl, h.filter, h.text, h.finished, fun _ => h2⟩
    | error e =>
      have := alike_recover cfg pol pol' (st := { st with reader := r }) (st' := { st' with reader := r' }) h.filter h.text h.finished h2
          st.reader.offset (some r.offset) ⟨e, some raw.bytes⟩
      rw [← h2.offset]
      exact ⟨by simp only; rw [this.1], this.2⟩

/-- Two readers that deliver the same without interruptions: the iterator returns the same. -/
theorem recovering_alike (f : Keep σ) (cfg : RecoveryConfig) (pol pol' : Pol) (N : Nat) : ∀ (n : Nat) (st st' : Recovering σ),
    (del st.reader).length < N → AlikeS st st' →
    (forLoop (recoveringNext f cfg pol) n st).1 = (forLoop (recoveringNext f cfg pol') n st').1 ∧
    (forLoop (recoveringNext f cfg pol) n st).2.1 = (forLoop (recoveringNext f cfg pol') n st').2.1 := by
  induction N with
  | zero => intro n st st' h; omega
  | succ N ih =>
    intro n st st' hN h
    cases n with
    | zero => exact ⟨rfl, rfl⟩
    | succ n =>
    have done : ∀ (n : Nat) (s s' : Recovering σ), s.finished = true → s'.finished = true →
        (forLoop (recoveringNext f cfg pol) n s).1 = (forLoop (recoveringNext f cfg pol') n s').1 ∧
        (forLoop (recoveringNext f cfg pol) n s).2.1 = (forLoop (recoveringNext f cfg pol') n s').2.1 := by
      intro n s s' h1 h2
      cases n with
      | zero => exact ⟨rfl, rfl⟩
      | succ n =>
        rw [forLoop_none (recoveringNext_done f cfg pol s h1), forLoop_none (recoveringNext_done f cfg pol' s' h2)]
        exact ⟨rfl, rfl⟩
    cases hfin : st.finished with
    | true => exact done _ _ _ hfin (by rw [← h.finished, hfin])
    | false =>
      have hfin' : st'.finished = false := by rw [← h.finished, hfin]
      cases ht : st.text with
      | true =>
        have ht' : st'.text = true := by rw [← h.text, ht]
        have e : recoveringNext f cfg pol st = (some (.error ⟨0, 0, ⟨.unsupported, none⟩⟩), { st with text := false, finished := true }) := by
          unfold recoveringNext; rw [hfin, ht]; rfl
        have e' : recoveringNext f cfg pol' st' = (some (.error ⟨0, 0, ⟨.unsupported, none⟩⟩), { st' with text := false, finished := true }) := by
          unfold recoveringNext; rw [hfin', ht']; rfl
        rw [forLoop_some e, forLoop_some e']
        have := done n { st with text := false, finished := true } { st' with text := false, finished := true } rfl rfl
        exact ⟨by simp only; rw [this.1], this.2⟩
      | false =>
        have ht' : st'.text = false := by rw [← h.text, ht]
        have hx := recoveringNext_step f cfg pol st hfin ht
        have hx' := recoveringNext_step f cfg pol' st' hfin' ht'
        have hs := recStep_ok cfg pol st
        obtain ⟨h1, h2⟩ := alike_step cfg pol pol' h hfin
        generalize recStep cfg pol st = x at hs hx h1 h2
        generalize recStep cfg pol' st' = y at hx' h1 h2
        obtain ⟨x, u⟩ := x
        obtain ⟨y, u'⟩ := y
        simp only at h1 h2
        subst h1
        match x, hs with
        | none, _ =>
          rw [forLoop_none hx, forLoop_none hx']
          exact ⟨rfl, rfl⟩
        | some (.error y), ⟨_, _, k, _⟩ =>
          rw [forLoop_some hx, forLoop_some hx']
          have := done n u u' k (by rw [← h2.finished, k])
          exact ⟨by simp only; rw [this.1], this.2⟩
        | some (.ok (.gap g)), ⟨b, d', k1, k2, k3, k4, k5, hn, k6⟩ =>
          rw [forLoop_some hx, forLoop_some hx']
          have := ih n u u' (by have := hn.size; omega) h2
          exact ⟨by simp only; rw [this.1], this.2⟩
        | some (.ok (.item m)), ⟨b, d', k1, k2, hn⟩ =>
          simp only at hx hx'
          rw [← h2.filter] at hx'
          have hr := h2.reader (by rw [hn.finished, hfin])
          have ha : AlikeS { u with filter := (f.step u.filter m).2 } { u' with filter := (f.step u.filter m).2 } :=
            ⟨rfl, h2.text, h2.finished, fun _ => hr⟩
          have hlen := hn.size
          by_cases hk : (f.step u.filter m).1 = true
          · rw [if_pos hk] at hx hx'
            rw [forLoop_some hx, forLoop_some hx']
            have := ih n _ _ (by simp only; omega) ha
            exact ⟨by simp only; rw [this.1], this.2⟩
          · rw [if_neg hk] at hx hx'
            rw [forLoop_same hx, forLoop_same hx']
            exact ih (n + 1) _ _ (by simp only; omega) ha

end Verif
