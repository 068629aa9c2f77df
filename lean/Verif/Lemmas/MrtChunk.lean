import Verif.Lemmas.MrtRead
import Verif.Lemmas.MrtMsgs
/-
Headers and raw records as functions of what the reader delivers.
-/
namespace Verif
open Spec

/-- `parseHeader` on a delivery. -/
def headerT (k : Option Bool) (t : List Tok) : Bytes × Except Err (Header × Bytes) × List Tok :=
  match takeT k 12 t with
  | (b, .full, t) =>
    match rdBaseHeader b with
    | .error e => (b, .error e, t)
    | .ok ((time, type, subtype, length), _) =>
      match EntryType.ofU16? type with
      | none => (b, .error .parse, t)
      | some .bgp4mpEt =>
        if length < 4 then (b, .error .parse, t)
        else
          match takeT k 4 t with
          | (m, .full, t) =>
            match rdU32 m with
            | .error e => (b ++ m, .error e, t)
            | .ok (micro, _) => (b ++ m, .ok (⟨time, some micro, .bgp4mpEt, subtype, length - 4⟩, b ++ m), t)
          | (m, st, t) => (b ++ m, .error (stopErr st), t)
      | some ty => (b, .ok (⟨time, none, ty, subtype, length⟩, b), t)
  | (b, st, t) => (b, .error (stopErr st), t)

/-- `chunkCtx` on a delivery. -/
def chunkT (k : Option Bool) (t : List Tok) : Except ChunkErr Raw × List Tok :=
  match headerT k t with
  | (captured, .error e, t) =>
    if e = .eof ∧ captured = [] then (.error ⟨.eofExpected, none, none⟩, t)
    else (.error ⟨e, none, some captured⟩, t)
  | (_, .ok (h, hb), t) =>
    if h.length.toNat > 16777216 then (.error ⟨.unsupported, some h, some hb⟩, t)
    else
      match takeT k h.length.toNat t with
      | (b, .failed k, t) => (.error ⟨bodyErr (.failed k), some h, some (hb ++ b)⟩, t)
      | (b, _, t) =>
        if b.length ≠ h.length.toNat then (.error ⟨.ioEof, some h, some (hb ++ b)⟩, t)
        else if h.type = .tableDump ∧ needsLegacyCorrection h.subtype b = true then
          match takeT k 4 t with
          | (c, .failed k, t) => (.error ⟨bodyErr (.failed k), some h, some (hb ++ (b ++ c))⟩, t)
          | (c, _, t) =>
            if c.length ≠ 4 then (.error ⟨.ioEof, some h, some (hb ++ (b ++ c))⟩, t)
            else (.ok ⟨h, hb, b ++ c⟩, t)
        else (.ok ⟨h, hb, b⟩, t)

theorem parseHeader_eqG [LReader ρ] (s : ρ) :
    ∃ s', parseHeader s = ((headerT (stk s) (del s)).1, (headerT (stk s) (del s)).2.1, s') ∧
      del s' = (headerT (stk s) (del s)).2.2 ∧ stk s' = stk s := by
  obtain ⟨s1, h1, h2, h3⟩ := readExact_eqG 12 s
  unfold parseHeader headerT
  rw [h1]
  generalize takeT (stk s) 12 (del s) = x0 at h2 ⊢
  obtain ⟨b, st, t⟩ := x0
  simp only at h2 ⊢
  cases st with
  | short => exact ⟨s1, rfl, h2, h3⟩
  | failed k => exact ⟨s1, rfl, h2, h3⟩
  | full =>
    simp only
    cases hb : rdBaseHeader b with
    | error e => exact ⟨s1, rfl, h2, h3⟩
    | ok v =>
      obtain ⟨⟨time, type, subtype, length⟩, rest⟩ := v
      simp only
      cases ht : EntryType.ofU16? type with
      | none => exact ⟨s1, rfl, h2, h3⟩
      | some ty =>
        by_cases het : ty = .bgp4mpEt
        · subst het
          simp only
          by_cases hl : length < 4
          · rw [if_pos hl, if_pos hl]; exact ⟨s1, rfl, h2, h3⟩
          · rw [if_neg hl, if_neg hl]
            obtain ⟨s2, g1, g2, g3⟩ := readExact_eqG 4 s1
            rw [g1]
            rw [h2, h3] at g2 ⊢
            generalize takeT (stk s) 4 t = x0 at g2 ⊢
            obtain ⟨m, st, t'⟩ := x0
            rw [h3] at g3
            simp only at g2 ⊢
            cases st with
            | short => exact ⟨s2, rfl, g2, g3⟩
            | failed k => exact ⟨s2, rfl, g2, g3⟩
            | full =>
              simp only
              cases hm : rdU32 m with
              | error e => exact ⟨s2, rfl, g2, g3⟩
              | ok v => exact ⟨s2, rfl, g2, g3⟩
        · cases ty <;> first | exact absurd rfl het | exact ⟨s1, rfl, h2, h3⟩

theorem parseHeader_eq (s : Src) :
    ∃ s', parseHeader s = ((headerT s.stuck (toks s.evs)).1, (headerT s.stuck (toks s.evs)).2.1, s') ∧
      toks s'.evs = (headerT s.stuck (toks s.evs)).2.2 ∧ s'.stuck = s.stuck := parseHeader_eqG s

theorem chunkCtx_eqG [LReader ρ] (pol : Pol) (s : ρ) :
    ∃ s', chunkCtx pol s = ((chunkT (stk s) (del s)).1, s') ∧
      del s' = (chunkT (stk s) (del s)).2 ∧ stk s' = stk s := by
  obtain ⟨s1, h1, h2, h3⟩ := parseHeader_eqG s
  unfold chunkCtx chunkT
  rw [h1]
  generalize headerT (stk s) (del s) = x0 at h2 ⊢
  obtain ⟨cap, x, t⟩ := x0
  simp only at h2 ⊢
  cases x with
  | error e =>
    simp only
    by_cases he : e = .eof ∧ cap = []
    · rw [if_pos he, if_pos he]; exact ⟨s1, rfl, h2, h3⟩
    · rw [if_neg he, if_neg he]; exact ⟨s1, rfl, h2, h3⟩
  | ok v =>
    obtain ⟨h, hb⟩ := v
    simp only
    by_cases hl : h.length.toNat > 16777216
    · rw [if_pos hl, if_pos hl]; exact ⟨s1, rfl, h2, h3⟩
    · rw [if_neg hl, if_neg hl]
      obtain ⟨s2, g1, g2, g3⟩ := readUpTo_eqG pol h.length.toNat s1
      rw [g1]
      rw [h2, h3] at g2 ⊢
      rw [h3] at g3
      generalize takeT (stk s) h.length.toNat t = x0 at g2 ⊢
      obtain ⟨b, st, t'⟩ := x0
      simp only at g2 ⊢
      have key : ∃ s', (if b.length ≠ h.length.toNat then ((.error ⟨.ioEof, some h, some (hb ++ b)⟩, s2) : Except ChunkErr Raw × ρ)
          else if h.type = .tableDump ∧ needsLegacyCorrection h.subtype b = true then
            match readUpTo pol 4 s2 with
            | (c, .failed k, s) => (.error ⟨bodyErr (.failed k), some h, some (hb ++ (b ++ c))⟩, s)
            | (c, _, s) =>
              if c.length ≠ 4 then (.error ⟨.ioEof, some h, some (hb ++ (b ++ c))⟩, s)
              else (.ok ⟨h, hb, b ++ c⟩, s)
          else (.ok ⟨h, hb, b⟩, s2)) =
        ((if b.length ≠ h.length.toNat then ((.error ⟨.ioEof, some h, some (hb ++ b)⟩, t') : Except ChunkErr Raw × List Tok)
          else if h.type = .tableDump ∧ needsLegacyCorrection h.subtype b = true then
            match takeT (stk s) 4 t' with
            | (c, .failed k, t) => (.error ⟨bodyErr (.failed k), some h, some (hb ++ (b ++ c))⟩, t)
            | (c, _, t) =>
              if c.length ≠ 4 then (.error ⟨.ioEof, some h, some (hb ++ (b ++ c))⟩, t)
              else (.ok ⟨h, hb, b ++ c⟩, t)
          else (.ok ⟨h, hb, b⟩, t')).1, s') ∧ del s' =
        (if b.length ≠ h.length.toNat then ((.error ⟨.ioEof, some h, some (hb ++ b)⟩, t') : Except ChunkErr Raw × List Tok)
          else if h.type = .tableDump ∧ needsLegacyCorrection h.subtype b = true then
            match takeT (stk s) 4 t' with
            | (c, .failed k, t) => (.error ⟨bodyErr (.failed k), some h, some (hb ++ (b ++ c))⟩, t)
            | (c, _, t) =>
              if c.length ≠ 4 then (.error ⟨.ioEof, some h, some (hb ++ (b ++ c))⟩, t)
              else (.ok ⟨h, hb, b ++ c⟩, t)
          else (.ok ⟨h, hb, b⟩, t')).2 ∧ stk s' = stk s := by
        by_cases hbl : b.length ≠ h.length.toNat
        · rw [if_pos hbl, if_pos hbl]; exact ⟨s2, rfl, g2, g3⟩
        · rw [if_neg hbl, if_neg hbl]
          by_cases hc : h.type = .tableDump ∧ needsLegacyCorrection h.subtype b = true
          · rw [if_pos hc, if_pos hc]
            obtain ⟨s3, k1, k2, k3⟩ := readUpTo_eqG pol 4 s2
            rw [k1]
            rw [g2, g3] at k2 ⊢
            rw [g3] at k3
            generalize takeT (stk s) 4 t' = x0 at k2 ⊢
            obtain ⟨c, st, t''⟩ := x0
            simp only at k2 ⊢
            cases st with
            | failed z => exact ⟨s3, rfl, k2, k3⟩
            | full =>
              simp only
              by_cases h4 : c.length ≠ 4
              · rw [if_pos h4, if_pos h4]; exact ⟨s3, rfl, k2, k3⟩
              · rw [if_neg h4, if_neg h4]; exact ⟨s3, rfl, k2, k3⟩
            | short =>
              simp only
              by_cases h4 : c.length ≠ 4
              · rw [if_pos h4, if_pos h4]; exact ⟨s3, rfl, k2, k3⟩
              · rw [if_neg h4, if_neg h4]; exact ⟨s3, rfl, k2, k3⟩
          · rw [if_neg hc, if_neg hc]; exact ⟨s2, rfl, g2, g3⟩
      cases st with
      | failed z => exact ⟨s2, rfl, g2, g3⟩
      | full => exact key
      | short => exact key

theorem chunkCtx_eq (pol : Pol) (s : Src) :
    ∃ s', chunkCtx pol s = ((chunkT s.stuck (toks s.evs)).1, s') ∧
      toks s'.evs = (chunkT s.stuck (toks s.evs)).2 ∧ s'.stuck = s.stuck := chunkCtx_eqG pol s

/-! ### layout of headers -/

theorem entryType_of (x : UInt16) (t : EntryType) : EntryType.ofU16? x = some t ↔ be16 x = n16 (entryNum t) := by
  constructor
  · intro h
    have := List.find?_some h
    simp only [beq_iff_eq] at this
    subst this
    cases t <;> rfl
  · intro h
    have hx : x = t.toU16 := by
      have : be16 x = be16 t.toU16 := by rw [h]; cases t <;> rfl
      have e := congrArg (fun b => rdU16 b) this
      have e1 := rdU16_be16 x []
      have e2 := rdU16_be16 t.toU16 []
      simp only [List.append_nil] at e1 e2
      simp only [e1, e2, Except.ok.injEq, Prod.mk.injEq, and_true] at e
      exact e
    subst hx
    cases t <;> rfl

theorem rdBaseHeader_eq (time : UInt32) (type subtype : UInt16) (length : UInt32) :
    rdBaseHeader (be32 time ++ (be16 type ++ (be16 subtype ++ be32 length))) = .ok ((time, type, subtype, length), []) := by
  have e := rdU32_be32 length []
  rw [List.append_nil] at e
  simp only [rdBaseHeader]
  rw [Rd.bind_ok (rdU32_be32 _ _), Rd.bind_ok (rdU16_be16 _ _), Rd.bind_ok (rdU16_be16 _ _), Rd.bind_ok e]
  rfl

theorem rdBaseHeader_total (b : Bytes) (h : b.length = 12) :
    ∃ time type subtype length, rdBaseHeader b = .ok ((time, type, subtype, length), []) ∧
      b = be32 time ++ (be16 type ++ (be16 subtype ++ be32 length)) := by
  match b, h with
  | [a, b, c, d, e, f, g, i, j, k, l, m], _ =>
    have : [a, b, c, d, e, f, g, i, j, k, l, m] =
        be32 (u32of a b c d) ++ (be16 (u16of e f) ++ (be16 (u16of g i) ++ be32 (u32of j k l m))) := by
      simp [be32_u32of, be16_u16of]
    exact ⟨_, _, _, _, by rw [this, rdBaseHeader_eq], this⟩

theorem HeaderBytes_length {h : Header} {b : Bytes} (hh : HeaderBytes h b) :
    b.length = if h.micro.isSome then 16 else 12 := by
  obtain ⟨time, micro, type, subtype, length⟩ := h
  cases micro with
  | none => obtain ⟨_, rfl⟩ := hh; rfl
  | some m => obtain ⟨_, _, rfl⟩ := hh; rfl

theorem HeaderBytes_ge {h : Header} {b : Bytes} (hh : HeaderBytes h b) : 12 ≤ b.length := by
  have := HeaderBytes_length hh
  split at this <;> omega

theorem lt4 (x : UInt32) : x < 4 ↔ x.toNat < 4 := by rw [UInt32.lt_iff_toNat_lt]; rfl

theorem sub4 {x : UInt32} (h : ¬ x < 4) : (x - 4).toNat + 4 = x.toNat := by
  rw [lt4] at h
  have := x.toNat_lt
  simp [UInt32.toNat_sub]; omega

theorem headerT_ok {k : Option Bool} {t t' : List Tok} {cap hb : Bytes} {h : Header}
    (hh : headerT k t = (cap, .ok (h, hb), t')) : cap = hb ∧ HeaderBytes h hb ∧ t = byteToks hb ++ t' := by
  unfold headerT at hh
  obtain ⟨e, a1, _, a3, _, _⟩ := takeT_split k 12 t
  generalize takeT k 12 t = x0 at hh a1 a3
  obtain ⟨b, st, t1⟩ := x0
  cases st with
  | short => cases hh
  | failed z => cases hh
  | full =>
    obtain ⟨rfl, hbl⟩ := a3 rfl
    simp only [List.append_nil] at a1 hbl
    obtain ⟨time, type, subtype, length, r1, r2⟩ := rdBaseHeader_total b hbl
    simp only [r1] at hh
    cases ht : EntryType.ofU16? type with
    | none => rw [ht] at hh; cases hh
    | some ty =>
      simp only [ht] at hh
      have hty := (entryType_of _ _).mp ht
      by_cases het : ty = .bgp4mpEt
      · subst het
        simp only at hh
        by_cases hl : length < 4
        · rw [if_pos hl] at hh; cases hh
        · rw [if_neg hl] at hh
          obtain ⟨e', b1, _, b3, _, _⟩ := takeT_split k 4 t1
          generalize takeT k 4 t1 = x1 at hh b1 b3
          obtain ⟨m, st, t2⟩ := x1
          cases st with
          | short => cases hh
          | failed z => cases hh
          | full =>
            obtain ⟨rfl, hml⟩ := b3 rfl
            simp only [List.append_nil] at b1 hml
            match m, hml with
            | [m1, m2, m3, m4], _ =>
              have hm : rdU32 [m1, m2, m3, m4] = .ok (u32of m1 m2 m3 m4, []) := rfl
              simp only [hm, Prod.mk.injEq, Except.ok.injEq] at hh
              obtain ⟨rfl, ⟨rfl, rfl⟩, rfl⟩ := hh
              refine ⟨rfl, ⟨rfl, ?_, ?_⟩, ?_⟩
              · have := length.toNat_lt; have := sub4 hl; show (length - 4).toNat + 4 < _; omega
              · show _ = n32 time.toNat ++ n16 _ ++ n16 subtype.toNat ++ n32 ((length - 4).toNat + 4) ++ n32 (u32of m1 m2 m3 m4).toNat
                rw [sub4 hl, ← be32_n32, ← hty, ← be16_n16, ← be32_n32, ← be32_n32, be32_u32of, r2]
                simp [List.append_assoc]
              · rw [a1, b1, byteToks_append, List.append_assoc]
      · have : HeaderBytes ⟨time, none, ty, subtype, length⟩ b := by
          refine ⟨het, ?_⟩
          rw [r2, hty, be32_n32, be16_n16, be32_n32]
          simp [List.append_assoc]
        cases ty <;> first
          | exact absurd rfl het
          | (simp only [Prod.mk.injEq, Except.ok.injEq] at hh
             obtain ⟨rfl, ⟨rfl, rfl⟩, rfl⟩ := hh
             exact ⟨rfl, this, a1⟩)

theorem entryType_toU16 (t : EntryType) : EntryType.ofU16? t.toU16 = some t := by cases t <;> rfl

theorem be16_entry (t : EntryType) : be16 t.toU16 = n16 (entryNum t) := by cases t <;> rfl

theorem headerT_complete (k : Option Bool) {t' : List Tok} {hb : Bytes} {h : Header} (hh : HeaderBytes h hb) :
    headerT k (byteToks hb ++ t') = (hb, .ok (h, hb), t') := by
  obtain ⟨time, micro, type, subtype, length⟩ := h
  cases micro with
  | none =>
    obtain ⟨het, e⟩ := hh
    have e' : hb = be32 time ++ (be16 type.toU16 ++ (be16 subtype ++ be32 length)) := by
      rw [e, be16_entry, be32_n32, be16_n16, be32_n32]; simp [List.append_assoc]
    unfold headerT
    rw [takeT_full' k 12 hb t' (by rw [e]; rfl), e']
    simp only [rdBaseHeader_eq, entryType_toU16]
  | some m =>
    obtain ⟨het, hl, e⟩ := hh
    simp only at het hl e
    subst het
    have e' : hb = (be32 time ++ (be16 EntryType.bgp4mpEt.toU16 ++ (be16 subtype ++ be32 (length + 4)))) ++ be32 m := by
      have : (length + 4).toNat = length.toNat + 4 := by
        have : (4 : UInt32).toNat = 4 := rfl
        simp [UInt32.toNat_add, this]; omega
      rw [e, be16_entry, be32_n32, be16_n16, be32_n32, be32_n32, this]; simp [List.append_assoc]
    unfold headerT
    rw [e', byteToks_append, List.append_assoc, takeT_full' k 12 _ _ rfl]
    simp only [rdBaseHeader_eq, entryType_toU16]
    have hlt : ¬ length + 4 < 4 := by
      have : (4 : UInt32).toNat = 4 := rfl
      rw [lt4]; simp [UInt32.toNat_add, this]; omega
    rw [if_neg hlt, takeT_full' k 4 _ _ rfl]
    have e := rdU32_be32 m []
    rw [List.append_nil] at e
    simp [e]

/-- How reading ended: with the tokens `e` and `t'` left, and this stop. -/
def Ends (k : Option Bool) (e t' : List Tok) (st : Stop) : Prop :=
  e = [] ∧ t' = [] ∧ (st = match k with | none => .short | some z => .failed z) ∨
  e = [.zero] ∧ st = .short ∨ ∃ z, e = [.fail z] ∧ st = .failed z

theorem Ends.dataOf {k : Option Bool} {e t' : List Tok} {st : Stop} (h : Ends k e t' st) : dataOf e = [] := by
  rcases h with ⟨rfl, _⟩ | ⟨rfl, _⟩ | ⟨z, rfl, _⟩ <;> rfl

theorem Ends.ne_full {k : Option Bool} {e t' : List Tok} {st : Stop} (h : Ends k e t' st) : st ≠ .full := by
  rintro rfl
  rcases h with ⟨_, _, h⟩ | ⟨_, h⟩ | ⟨z, _, h⟩ <;> cases k <;> cases h

theorem takeT_stop (k : Option Bool) (n : Nat) (t : List Tok) :
    (takeT k n t).2.1 = .full ∧ t = byteToks (takeT k n t).1 ++ (takeT k n t).2.2 ∧ (takeT k n t).1.length = n ∨
    ∃ e, t = byteToks (takeT k n t).1 ++ (e ++ (takeT k n t).2.2) ∧ Ends k e (takeT k n t).2.2 (takeT k n t).2.1 ∧
      (takeT k n t).1.length < n := by
  induction n generalizing t with
  | zero => left; simp [takeT, byteToks]
  | succ n ih =>
    cases t with
    | nil => right; exact ⟨[], by simp [takeT, byteToks], .inl ⟨rfl, rfl, rfl⟩, by simp [takeT]⟩
    | cons x t =>
      cases x with
      | byte b =>
        rcases ih t with ⟨h1, h2, h3⟩ | ⟨e, h1, h2, h3⟩
        · left
          refine ⟨h1, ?_, by simp [takeT, h3]⟩
          simp only [takeT, byteToks, List.map_cons, List.cons_append, List.cons.injEq, true_and]
          simpa [byteToks] using h2
        · right
          refine ⟨e, ?_, h2, by simp [takeT, h3]⟩
          simp only [takeT, byteToks, List.map_cons, List.cons_append, List.cons.injEq, true_and]
          simpa [byteToks] using h1
      | zero => right; exact ⟨[.zero], by simp [takeT, byteToks], .inr (.inl ⟨rfl, rfl⟩), by simp [takeT]⟩
      | fail z => right; exact ⟨[.fail z], by simp [takeT, byteToks], .inr (.inr ⟨z, rfl, rfl⟩), by simp [takeT]⟩

theorem headerT_bytes {h : Header} {c : Bytes} (hc : HeaderBytes h c) :
    (match rdBaseHeader (c.take 12) with
    | .error e => (c.take 12, .error e, byteToks (c.drop 12))
    | .ok ((time, type, subtype, length), _) =>
      match EntryType.ofU16? type with
      | none => (c.take 12, .error .parse, byteToks (c.drop 12))
      | some .bgp4mpEt =>
        if length < 4 then (c.take 12, .error .parse, byteToks (c.drop 12))
        else
          match takeT none 4 (byteToks (c.drop 12)) with
          | (m, .full, t) =>
            match rdU32 m with
            | .error e => (c.take 12 ++ m, .error e, t)
            | .ok (micro, _) => (c.take 12 ++ m, .ok (⟨time, some micro, .bgp4mpEt, subtype, length - 4⟩, c.take 12 ++ m), t)
          | (m, st, t) => (c.take 12 ++ m, .error (stopErr st), t)
      | some ty => (c.take 12, .ok (⟨time, none, ty, subtype, length⟩, c.take 12), byteToks (c.drop 12))) =
    ((c, .ok (h, c), []) : Bytes × Except Err (Header × Bytes) × List Tok) := by
  have h1 := headerT_complete none (t' := []) hc
  rw [List.append_nil] at h1
  have e : byteToks c = byteToks (c.take 12) ++ byteToks (c.drop 12) := by
    rw [← byteToks_append, List.take_append_drop]
  rw [e] at h1
  unfold headerT at h1
  rw [takeT_full' none 12 _ _ (by have := HeaderBytes_ge hc; rw [List.length_take]; omega)] at h1
  exact h1

/-- A header error: the captured bytes were taken, with possibly one token that ended the reading. -/
theorem headerT_error {k : Option Bool} {t t' : List Tok} {cap : Bytes} {er : Err}
    (hh : headerT k t = (cap, .error er, t')) : er = .parse ∧ BadHeader cap ∧ t = byteToks cap ++ t' ∨
      ∃ e st, t = byteToks cap ++ (e ++ t') ∧ er = stopErr st ∧ Ends k e t' st ∧ cap.length < 16 := by
  unfold headerT at hh
  have a := takeT_stop k 12 t
  generalize takeT k 12 t = x0 at hh a
  obtain ⟨b, st, t1⟩ := x0
  rcases a with ⟨h1, h2, h3⟩ | ⟨e, h1, h2, h3⟩
  · simp only at h1 h2 h3
    subst h1
    obtain ⟨time, type, subtype, length, r1, r2⟩ := rdBaseHeader_total b h3
    simp only [r1] at hh
    cases ht : EntryType.ofU16? type with
    | none =>
      simp only [ht, Prod.mk.injEq, Except.error.injEq] at hh
      obtain ⟨rfl, rfl, rfl⟩ := hh
      refine .inl ⟨rfl, ⟨h3, fun h c hc he => ?_⟩, h2⟩
      have hb := headerT_bytes hc
      rw [he] at hb
      simp only [r1, ht] at hb
      cases hb
    | some ty =>
      simp only [ht] at hh
      by_cases het : ty = .bgp4mpEt
      · subst het
        simp only at hh
        by_cases hl : length < 4
        · rw [if_pos hl] at hh
          simp only [Prod.mk.injEq, Except.error.injEq] at hh
          obtain ⟨rfl, rfl, rfl⟩ := hh
          refine .inl ⟨rfl, ⟨h3, fun h c hc he => ?_⟩, h2⟩
          have hb := headerT_bytes hc
          rw [he] at hb
          simp only [r1, ht, if_pos hl] at hb
          cases hb
        · rw [if_neg hl] at hh
          have a := takeT_stop k 4 t1
          generalize takeT k 4 t1 = x1 at hh a
          obtain ⟨m, st, t2⟩ := x1
          rcases a with ⟨g1, g2, g3⟩ | ⟨e, g1, g2, g3⟩
          · simp only at g1 g2 g3
            subst g1
            match m, g3 with
            | [m1, m2, m3, m4], _ =>
              have hm : rdU32 [m1, m2, m3, m4] = .ok (u32of m1 m2 m3 m4, []) := rfl
              simp only [hm] at hh
              cases hh
          · simp only at g1 g2 g3
            have : (b ++ m, (Except.error (stopErr st) : Except Err (Header × Bytes)), t2) = (cap, .error er, t') := by
              cases st with
              | full => exact absurd rfl g2.ne_full
              | short => exact hh
              | failed z => exact hh
            simp only [Prod.mk.injEq, Except.error.injEq] at this
            obtain ⟨rfl, rfl, rfl⟩ := this
            refine .inr ⟨e, st, ?_, rfl, g2, ?_⟩
            · rw [h2, g1, byteToks_append, List.append_assoc]
            · rw [List.length_append]; omega
      · cases ty <;> first | exact absurd rfl het | cases hh
  · simp only at h1 h2 h3
    have : (b, (Except.error (stopErr st) : Except Err (Header × Bytes)), t1) = (cap, .error er, t') := by
      cases st with
      | full => exact absurd rfl h2.ne_full
      | short => exact hh
      | failed z => exact hh
    simp only [Prod.mk.injEq, Except.error.injEq] at this
    obtain ⟨rfl, rfl, rfl⟩ := this
    exact .inr ⟨e, st, h1, rfl, h2, by omega⟩

/-! ### records that are too short by four -/

theorem attrLenAt_iff (d : Bytes) (off n : Nat) :
    attrLenAt d off = some n ↔ ∃ head rest : Bytes, head.length = off ∧ n < 65536 ∧ d = head ++ n16 n ++ rest := by
  unfold attrLenAt
  constructor
  · intro h
    split at h
    · next a b r hd =>
      simp only [Option.some.injEq] at h
      subst h
      refine ⟨d.take off, r, ?_, (u16of a b).toNat_lt, ?_⟩
      · have := congrArg List.length hd
        simp at this ⊢; omega
      · rw [← be16_n16, be16_u16of, List.append_assoc]
        simp only [List.cons_append, List.nil_append]
        rw [← hd, List.take_append_drop]
    · cases h
  · rintro ⟨head, rest, rfl, hn, rfl⟩
    rw [List.append_assoc, List.drop_left]
    have : n16 n ++ rest = UInt8.ofNat (n / 256) :: UInt8.ofNat n :: rest := rfl
    rw [this]
    simp only [Option.some.injEq]
    rw [u16of_toNat]; simp; omega

theorem legacyLoop_short (fixed : Nat) (hf : 2 ≤ fixed) (fuel : Nat) : ∀ d : Bytes, d.length ≤ fuel →
    (legacyLoop fixed fuel d = true ↔ ∃ (es : List Bytes) (last : Bytes), (∀ e ∈ es, EntryShape fixed e) ∧
      ShortEntry fixed last ∧ d = es.flatten ++ last) := by
  induction fuel with
  | zero =>
    intro d hd
    simp only [legacyLoop, Bool.false_eq_true, false_iff]
    rintro ⟨es, last, _, ⟨head, ab, h1, _, rfl⟩, rfl⟩
    simp [n16] at hd
  | succ fuel ih =>
    intro d hd
    constructor
    · intro h
      simp only [legacyLoop] at h
      by_cases he : d.isEmpty
      · rw [if_pos he] at h; cases h
      rw [if_neg he] at h
      cases ha : attrLenAt d (fixed - 2) with
      | none => rw [ha] at h; cases h
      | some n =>
        rw [ha] at h
        simp only at h
        obtain ⟨head, rest, h1, h2, h3⟩ := (attrLenAt_iff _ _ _).mp ha
        have hl : d.length = fixed + rest.length := by rw [h3]; simp [n16]; omega
        by_cases e1 : fixed + n = d.length + 4
        · refine ⟨[], d, by simp, ⟨head, rest, by omega, by omega, ?_⟩, by simp⟩
          rw [show rest.length + 4 = n by omega]; exact h3
        · rw [if_neg e1] at h
          by_cases e2 : fixed + n > d.length
          · rw [if_pos e2] at h; cases h
          · rw [if_neg e2] at h
            obtain ⟨es, last, g1, g2, g3⟩ := (ih _ (by rw [List.length_drop]; omega)).mp h
            have hshape : EntryShape fixed (d.take (fixed + n)) := by
              refine ⟨head, rest.take n, by omega, by rw [List.length_take]; omega, ?_⟩
              rw [List.length_take, Nat.min_eq_left (by omega), h3, List.take_append,
                List.take_of_length_le (by simp [n16]; omega)]
              congr 2
              simp [n16]; omega
            refine ⟨d.take (fixed + n) :: es, last, ?_, g2, ?_⟩
            · intro e he
              rcases List.mem_cons.mp he with rfl | he
              · exact hshape
              · exact g1 e he
            · rw [List.flatten_cons, List.append_assoc, ← g3, List.take_append_drop]
    · rintro ⟨es, last, h1, h2, h3⟩
      cases es with
      | nil =>
        obtain ⟨head, ab, h4, h5, h6⟩ := h2
        simp only [List.flatten_nil, List.nil_append] at h3
        subst h3
        have ha : attrLenAt d (fixed - 2) = some (ab.length + 4) := (attrLenAt_iff _ _ _).mpr ⟨head, ab, by omega, h5, h6⟩
        have hl : d.length = fixed + ab.length := by rw [h6]; simp [n16]; omega
        have hne : ¬ d.isEmpty := by intro h; rw [List.isEmpty_iff] at h; simp [h] at hl; omega
        simp only [legacyLoop, if_neg hne, ha]
        rw [if_pos (by omega)]
      | cons e es =>
        obtain ⟨head, ab, h4, h5, h6⟩ := h1 e (by simp)
        have hel : e.length = fixed + ab.length := by rw [h6]; simp [n16]; omega
        have h3' : d = e ++ (es.flatten ++ last) := by rw [h3]; simp
        have ha : attrLenAt d (fixed - 2) = some ab.length :=
          (attrLenAt_iff _ _ _).mpr ⟨head, ab ++ (es.flatten ++ last), by omega, h5, by rw [h3', h6]; simp⟩
        have hl : d.length = e.length + (es.flatten ++ last).length := by rw [h3']; simp
        have hne : ¬ d.isEmpty := by intro h; rw [List.isEmpty_iff] at h; simp [h] at hl; omega
        simp only [legacyLoop, if_neg hne, ha]
        rw [if_neg (by omega), if_neg (by omega)]
        have hd' : d.drop (fixed + ab.length) = es.flatten ++ last := by rw [h3', ← hel, List.drop_left]
        rw [hd']
        exact (ih _ (by omega)).mpr ⟨es, last, fun x hx => h1 x (by simp [hx]), h2, rfl⟩

theorem needsLegacy_iff (subtype : UInt16) (d : Bytes) :
    needsLegacyCorrection subtype d = true ↔ LegacyShort subtype d := by
  unfold needsLegacyCorrection LegacyShort
  have key : ∀ fixed, 2 ≤ fixed → ((if d.length < 4 then false else legacyLoop fixed d.length (d.drop 4)) = true ↔
      ∃ (v : Bytes) (es : List Bytes) (last : Bytes), v.length = 4 ∧ (∀ e ∈ es, EntryShape fixed e) ∧
      ShortEntry fixed last ∧ d = v ++ es.flatten ++ last) := by
    intro fixed hf
    by_cases hd : d.length < 4
    · rw [if_pos hd]
      constructor
      · intro h; cases h
      · rintro ⟨v, es, last, hv, _, _, rfl⟩; simp at hd; omega
    · rw [if_neg hd, legacyLoop_short fixed hf _ _ (by simp)]
      constructor
      · rintro ⟨es, last, h1, h2, h3⟩
        refine ⟨d.take 4, es, last, by simp; omega, h1, h2, ?_⟩
        rw [List.append_assoc, ← h3, List.take_append_drop]
      · rintro ⟨v, es, last, hv, h1, h2, h3⟩
        refine ⟨es, last, h1, h2, ?_⟩
        rw [h3, List.append_assoc, List.drop_left' hv]
  by_cases h1 : subtype = 1
  · subst h1
    rw [if_pos (.inl rfl), if_pos rfl, key 18 (by omega)]
    constructor
    · rintro ⟨v, h⟩; exact ⟨18, .inl ⟨rfl, rfl⟩, v, h⟩
    · rintro ⟨f, ⟨_, rfl⟩ | ⟨h, _⟩, v, hh⟩
      · exact ⟨v, hh⟩
      · cases h
  · by_cases h2 : subtype = 2
    · subst h2
      rw [if_pos (.inr rfl), if_neg h1, key 42 (by omega)]
      constructor
      · rintro ⟨v, h⟩; exact ⟨42, .inr ⟨rfl, rfl⟩, v, h⟩
      · rintro ⟨f, ⟨h, _⟩ | ⟨_, rfl⟩, v, hh⟩
        · cases h
        · exact ⟨v, hh⟩
    · rw [if_neg (by rintro (h | h) <;> contradiction)]
      constructor
      · intro h; cases h
      · rintro ⟨f, ⟨h, _⟩ | ⟨h, _⟩, _⟩ <;> contradiction

/-! ### raw records -/

theorem chunkT_ok {k : Option Bool} {t t' : List Tok} {r : Raw} (h : chunkT k t = (.ok r, t')) :
    Frame r r.bytes ∧ t = byteToks r.bytes ++ t' := by
  unfold chunkT at h
  cases hh : headerT k t with
  | mk cap x =>
    obtain ⟨x, t1⟩ := x
    rw [hh] at h
    cases x with
    | error e =>
      simp only at h
      split at h <;> cases h
    | ok v =>
      obtain ⟨hd, hb⟩ := v
      obtain ⟨rfl, hbytes, ht⟩ := headerT_ok hh
      simp only at h
      by_cases hl : hd.length.toNat > 16777216
      · rw [if_pos hl] at h; cases h
      rw [if_neg hl] at h
      have a := takeT_stop k hd.length.toNat t1
      generalize takeT k hd.length.toNat t1 = x1 at h a
      obtain ⟨b, st, t2⟩ := x1
      simp only at a
      rcases a with ⟨rfl, g2, g3⟩ | ⟨e, g1, g2, g3⟩
      · simp only at h
        rw [if_neg (by simp [g3])] at h
        by_cases hc : hd.type = .tableDump ∧ needsLegacyCorrection hd.subtype b = true
        · rw [if_pos hc] at h
          have a := takeT_stop k 4 t2
          generalize takeT k 4 t2 = x2 at h a
          obtain ⟨c, st, t3⟩ := x2
          simp only at a
          rcases a with ⟨rfl, k2, k3⟩ | ⟨e, k1, k2, k3⟩
          · simp only at h
            rw [if_neg (by simp [k3])] at h
            simp only [Prod.mk.injEq, Except.ok.injEq] at h
            obtain ⟨rfl, rfl⟩ := h
            refine ⟨⟨hbytes, by simpa using hl, rfl, ?_⟩, ?_⟩
            · simp only
              have : (b ++ c).take hd.length.toNat = b := List.take_left' g3
              rw [this, if_pos ⟨hc.1, (needsLegacy_iff _ _).mp hc.2⟩, List.length_append, g3, k3]
            · simp only [Raw.bytes, byteToks_append, List.append_assoc]
              rw [ht, g2, k2]
          · cases st with
            | full => exact absurd rfl k2.ne_full
            | short => simp only at h; rw [if_pos (by simp; omega)] at h; cases h
            | failed z => cases h
        · rw [if_neg hc] at h
          simp only [Prod.mk.injEq, Except.ok.injEq] at h
          obtain ⟨rfl, rfl⟩ := h
          refine ⟨⟨hbytes, by simpa using hl, rfl, ?_⟩, ?_⟩
          · simp only
            have : b.take hd.length.toNat = b := List.take_of_length_le (by omega)
            rw [this, if_neg (fun h => hc ⟨h.1, (needsLegacy_iff _ _).mpr h.2⟩), g3]
          · simp only [Raw.bytes, byteToks_append, List.append_assoc]
            rw [ht, g2]
      · cases st with
        | full => exact absurd rfl g2.ne_full
        | short => simp only at h; rw [if_pos (by simp; omega)] at h; cases h
        | failed z => cases h

theorem chunkT_complete (k : Option Bool) {t' : List Tok} {r : Raw} {b : Bytes} (h : Frame r b) :
    chunkT k (byteToks b ++ t') = (.ok r, t') := by
  obtain ⟨hd, hb, body⟩ := r
  obtain ⟨h1, h2, rfl, h4⟩ := h
  simp only at h1 h2 h4
  unfold chunkT
  simp only [byteToks_append, List.append_assoc]
  rw [headerT_complete k h1]
  simp only
  rw [if_neg (by omega)]
  by_cases hc : hd.type = .tableDump ∧ LegacyShort hd.subtype (body.take hd.length.toNat)
  · rw [if_pos hc] at h4
    have e : byteToks body = byteToks (body.take hd.length.toNat) ++ byteToks (body.drop hd.length.toNat) := by
      rw [← byteToks_append, List.take_append_drop]
    have hl : (body.take hd.length.toNat).length = hd.length.toNat := by rw [List.length_take]; omega
    rw [e, List.append_assoc, takeT_full' k _ _ _ hl]
    simp only
    rw [if_neg (by simp [hl]), if_pos ⟨hc.1, (needsLegacy_iff _ _).mpr hc.2⟩,
      takeT_full' k 4 _ _ (by rw [List.length_drop]; omega)]
    simp only
    rw [if_neg (by simp; omega), List.take_append_drop]
  · rw [if_neg hc] at h4
    rw [takeT_full' k _ _ _ h4]
    simp only
    have : body.take hd.length.toNat = body := List.take_of_length_le (by omega)
    rw [this] at hc
    rw [if_neg (by simp [h4]), if_neg (fun h => hc ⟨h.1, (needsLegacy_iff _ _).mp h.2⟩)]

/-- What an error of `chunkT` says. -/
theorem chunkT_error {k : Option Bool} {t t' : List Tok} {er : ChunkErr} (h : chunkT k t = (.error er, t')) :
    (∃ b, er.bytes = some b ∧ t = byteToks b ++ t' ∧ 12 ≤ b.length ∧ (er.error = .parse ∧ BadHeader b ∨
      er.error = .unsupported ∧ ∃ h, HeaderBytes h b ∧ 16777216 < h.length.toNat)) ∨
    ∃ b e st, er.bytes.getD [] = b ∧ t = byteToks b ++ (e ++ t') ∧ Ends k e t' st ∧
      (er.error = .eofExpected ∧ er.bytes = none ∧ b = [] ∧ stopErr st = .eof ∨
       er.error = stopErr st ∧ er.bytes = some b ∧ (stopErr st = .eof → b ≠ []) ∧ b.length < 16 ∧ er.header = none ∨
       er.error = bodyErr st ∧ er.bytes = some b ∧ 12 ≤ b.length ∧ er.header.isSome) := by
  unfold chunkT at h
  cases hh : headerT k t with
  | mk cap x =>
    obtain ⟨x, t1⟩ := x
    rw [hh] at h
    cases x with
    | error e =>
      simp only at h
      rcases headerT_error hh with ⟨rfl, h2, h3⟩ | ⟨e', st, h1, h2, h3, h4⟩
      · rw [if_neg (by simp)] at h
        simp only [Prod.mk.injEq, Except.error.injEq] at h
        obtain ⟨rfl, rfl⟩ := h
        exact .inl ⟨cap, rfl, h3, by have := h2.1; omega, .inl ⟨rfl, h2⟩⟩
      · right
        by_cases hc : e = .eof ∧ cap = []
        · rw [if_pos hc] at h
          simp only [Prod.mk.injEq, Except.error.injEq] at h
          obtain ⟨rfl, rfl⟩ := h
          refine ⟨[], e', st, rfl, ?_, h3, .inl ⟨rfl, rfl, rfl, by rw [← h2, hc.1]⟩⟩
          rw [h1, hc.2]
        · rw [if_neg hc] at h
          simp only [Prod.mk.injEq, Except.error.injEq] at h
          obtain ⟨rfl, rfl⟩ := h
          exact ⟨cap, e', st, rfl, h1, h3, .inr (.inl ⟨h2, rfl, fun h hcap => hc ⟨by rw [h2, h], hcap⟩, h4, rfl⟩)⟩
    | ok v =>
      obtain ⟨hd, hb⟩ := v
      obtain ⟨rfl, hbytes, ht⟩ := headerT_ok hh
      have hge := HeaderBytes_ge hbytes
      simp only at h
      by_cases hl : hd.length.toNat > 16777216
      · rw [if_pos hl] at h
        simp only [Prod.mk.injEq, Except.error.injEq] at h
        obtain ⟨rfl, rfl⟩ := h
        exact .inl ⟨cap, rfl, ht, hge, .inr ⟨rfl, hd, hbytes, hl⟩⟩
      rw [if_neg hl] at h
      right
      have a := takeT_stop k hd.length.toNat t1
      generalize takeT k hd.length.toNat t1 = x1 at h a
      obtain ⟨b, st, t2⟩ := x1
      simp only at a
      rcases a with ⟨rfl, g2, g3⟩ | ⟨e, g1, g2, g3⟩
      · simp only at h
        rw [if_neg (by simp [g3])] at h
        by_cases hc : hd.type = .tableDump ∧ needsLegacyCorrection hd.subtype b = true
        · rw [if_pos hc] at h
          have a := takeT_stop k 4 t2
          generalize takeT k 4 t2 = x2 at h a
          obtain ⟨c, st, t3⟩ := x2
          simp only at a
          rcases a with ⟨rfl, k2, k3⟩ | ⟨e, k1, k2, k3⟩
          · simp only at h
            rw [if_neg (by simp [k3])] at h
            cases h
          · have : ((.error ⟨bodyErr st, some hd, some (cap ++ (b ++ c))⟩, t3) : Except ChunkErr Raw × List Tok) = (.error er, t') := by
              cases st with
              | full => exact absurd rfl k2.ne_full
              | short => simp only at h; rw [if_pos (by simp; omega)] at h; exact h
              | failed z => exact h
            simp only [Prod.mk.injEq, Except.error.injEq] at this
            obtain ⟨rfl, rfl⟩ := this
            refine ⟨cap ++ (b ++ c), e, st, rfl, ?_, k2, .inr (.inr ⟨rfl, rfl, by simp; omega, rfl⟩)⟩
            simp only [byteToks_append, List.append_assoc]
            rw [ht, g2, k1]
        · rw [if_neg hc] at h; cases h
      · have : ((.error ⟨bodyErr st, some hd, some (cap ++ b)⟩, t2) : Except ChunkErr Raw × List Tok) = (.error er, t') := by
          cases st with
          | full => exact absurd rfl g2.ne_full
          | short => simp only at h; rw [if_pos (by simp; omega)] at h; exact h
          | failed z => exact h
        simp only [Prod.mk.injEq, Except.error.injEq] at this
        obtain ⟨rfl, rfl⟩ := this
        refine ⟨cap ++ b, e, st, rfl, ?_, g2, .inr (.inr ⟨rfl, rfl, by simp; omega, rfl⟩)⟩
        simp only [byteToks_append, List.append_assoc]
        rw [ht, g1]

end Verif
