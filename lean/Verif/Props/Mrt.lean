import Verif.Lemmas.MrtLoops
/-
C20 – C25: MRT framing, record iteration.
-/
namespace Verif.Props
open Spec

/-! ### C20 common header -/

/-- The microseconds are there exactly for BGP4MP_ET, and the length field can count them. -/
def HeaderOk (h : Header) : Prop :=
  (h.micro.isSome ↔ h.type = .bgp4mpEt) ∧ (h.type = .bgp4mpEt → h.length.toNat + 4 < 4294967296)

/-- C20: headers are written with the specified layout, in 12 octets, or 16 with microseconds. -/
theorem c20_layout (h : Header) (hh : HeaderOk h) : ∃ b, encodeHeader h = .ok b ∧ HeaderBytes h b ∧
    b.length = if h.type = .bgp4mpEt then 16 else 12 := by
  obtain ⟨time, micro, type, subtype, length⟩ := h
  obtain ⟨h1, h2⟩ := hh
  simp only at h1 h2
  cases micro with
  | none =>
    have ht : type ≠ .bgp4mpEt := fun h => by simpa using h1.mpr h
    refine ⟨_, rfl, ⟨ht, ?_⟩, by rw [if_neg ht]; rfl⟩
    simp only
    rw [be16_entry, be32_n32, be16_n16, be32_n32]; simp
  | some m =>
    have ht : type = .bgp4mpEt := h1.mp rfl
    have hl := h2 ht
    have e : (length + 4).toNat = length.toNat + 4 := by
      have : (4 : UInt32).toNat = 4 := rfl
      simp [UInt32.toNat_add, this]; omega
    refine ⟨_, by unfold encodeHeader; simp only; rw [if_neg (by omega)], ⟨ht, hl, ?_⟩, by rw [if_pos ht]; rfl⟩
    simp only
    rw [be16_entry, be32_n32, be16_n16, be32_n32, be32_n32, e]; simp

/-- C20: reading an encoded header, from whatever reader, gives the header, and takes exactly its bytes. -/
theorem c20_roundtrip (h : Header) (b : Bytes) (hh : HeaderOk h) (he : encodeHeader h = .ok b) (s : Src) (t : List Tok)
    (hs : toks s.evs = byteToks b ++ t) :
    ∃ s', parseHeader s = (b, .ok (h, b), s') ∧ toks s'.evs = t ∧ s'.stuck = s.stuck := by
  obtain ⟨b', h1, h2, _⟩ := c20_layout h hh
  rw [he] at h1
  cases h1
  obtain ⟨s', g1, g2, g3⟩ := parseHeader_eq s
  rw [hs, headerT_complete _ h2] at g1 g2
  exact ⟨s', g1, g2, g3⟩

example : HeaderOk ⟨1700000000, some 999999, .bgp4mpEt, 4, 4294967291⟩ ∧ HeaderOk ⟨1700000000, none, .tableDumpV2, 1, 4294967295⟩ := by
  refine ⟨⟨by simp, by decide⟩, ⟨by simp, by decide⟩⟩

/-- C20: whatever is read as a header is a header with that content. -/
theorem c20_read (s s' : Src) (c b : Bytes) (h : Header) (hr : parseHeader s = (c, .ok (h, b), s')) :
    HeaderBytes h b ∧ HeaderOk h ∧ c = b ∧ toks s.evs = byteToks b ++ toks s'.evs := by
  obtain ⟨s1, g1, g2, g3⟩ := parseHeader_eq s
  rw [hr] at g1
  simp only [Prod.mk.injEq] at g1
  obtain ⟨e1, e2, rfl⟩ := g1
  obtain ⟨k1, k2, k3⟩ := headerT_ok (k := s.stuck) (t := toks s.evs) (t' := toks s'.evs) (cap := c) (h := h) (hb := b) (by
    rw [e1, e2, g2])
  refine ⟨k2, ?_, k1, k3⟩
  obtain ⟨time, micro, type, subtype, length⟩ := h
  cases micro with
  | none => exact ⟨⟨by simp, fun h => absurd h k2.1⟩, fun h => absurd h k2.1⟩
  | some m => exact ⟨⟨fun _ => k2.1, by simp⟩, fun _ => k2.2.1⟩

/-- The condition on the microseconds is needed: without them a BGP4MP_ET header comes back with the first four octets of
the body as microseconds; with them, another header loses them to the body. -/
theorem c20_micro_needed :
    (∃ b s, encodeHeader ⟨1, none, .bgp4mpEt, 4, 8⟩ = .ok b ∧ Delivers s (b ++ [0, 0, 0, 7, 1, 1, 1, 1]) ∧
      (parseHeader s).2.1.toOption.map Prod.fst = some ⟨1, some 7, .bgp4mpEt, 4, 4⟩) ∧
    (∃ b s, encodeHeader ⟨1, some 7, .bgp4mp, 4, 8⟩ = .ok b ∧ Delivers s (b ++ [1, 1, 1, 1, 1, 1, 1, 1]) ∧
      (parseHeader s).2.1.toOption.map Prod.fst = some ⟨1, none, .bgp4mp, 4, 12⟩) := by
  refine ⟨⟨_, ⟨[.data 0 [0, 0, 1, 0, 17, 0, 4, 0, 0, 0, 8, 0, 0, 0, 7, 1, 1, 1, 1]], none⟩, rfl, ⟨rfl, rfl⟩, by decide +kernel⟩,
    ⟨_, ⟨[.data 0 [0, 0, 1, 0, 16, 0, 4, 0, 0, 0, 12, 0, 0, 0, 7, 1, 1, 1, 1, 1, 1, 1, 1]], none⟩, rfl, ⟨rfl, rfl⟩, by decide +kernel⟩⟩

/-- The condition on the length is needed: encoding such a header panics on overflow (in debug builds). -/
theorem c20_length_needed : encodeHeader ⟨1, some 7, .bgp4mpEt, 4, 4294967292⟩ = .error .panic := by decide +kernel

/-! ### C21 raw records -/

/-- C21: the bytes of a raw record are its header and its body, framed as specified, and they are exactly what was taken
from the reader. -/
theorem c21_record_bytes (pol : Pol) (s s' : Src) (r : Raw) (h : chunk pol s = (.ok r, s')) :
    Frame r r.bytes ∧ r.bytes = r.headerBytes ++ r.body ∧ r.totalLen = r.bytes.length ∧
      toks s.evs = byteToks r.bytes ++ toks s'.evs := by
  obtain ⟨s1, g1, g2, g3⟩ := chunk_eq pol s
  rw [h] at g1
  cases hc : chunkT s.stuck (toks s.evs) with
  | mk x t =>
    rw [hc] at g1 g2
    cases x with
    | error e => cases g1
    | ok r' =>
      cases g1
      obtain ⟨k1, k2⟩ := chunkT_ok hc
      exact ⟨k1, rfl, by simp [Raw.totalLen, Raw.bytes], by rw [k2, g2]⟩

/-- C21: where a framed record stands in the input, it is read, and nothing more. -/
theorem c21_record_read (pol : Pol) (s : Src) (r : Raw) (b : Bytes) (t : List Tok) (hf : Frame r b)
    (hs : toks s.evs = byteToks b ++ t) : ∃ s', chunk pol s = (.ok r, s') ∧ toks s'.evs = t ∧ s'.stuck = s.stuck := by
  obtain ⟨s1, g1, g2, g3⟩ := chunk_eq pol s
  rw [hs, chunkT_complete _ hf] at g1 g2
  exact ⟨s1, g1, g2, g3⟩

/-- C21: the records an iteration over a file returns are exactly those of the tiling of the file: records follow each
other without gaps or overlaps; only headers without a record are skipped; what is left at the end is not a record. -/
theorem c21_tiling (coreDump : Bool) (pol : Pol) (s : Src) (b : Bytes) (hs : Delivers s b) (n : Nat) (hn : b.length < n)
    (rs : List Raw) : Tiles coreDump b rs ↔ (forLoop (rawIter coreDump pol) n s).1 = rs := by
  obtain ⟨h1, h2⟩ := hs
  have hl := (loop_raw coreDump pol none n s (byteToks b) ⟨h1, h2⟩).1
  have hlen : ∀ rs, Tiles coreDump b rs → rs.length < n := by
    intro rs h
    have : ∀ {b rs}, Tiles coreDump b rs → rs.length ≤ b.length := by
      intro b rs h
      induction h with
      | record hf _ ih => have := Frame_length hf; simp; omega
      | skip _ _ _ ih => simp; omega
      | _ => simp
    have := this h
    omega
  constructor
  · intro h
    rw [hl]
    exact (tiles_loop h n (hlen _ h)).1
  · intro h
    obtain ⟨rs', h'⟩ := tiles_exist coreDump b.length b (Nat.le_refl _)
    have := (tiles_loop h' n (hlen _ h')).1
    rw [← hl, h] at this
    rw [this]
    exact h'

/-- C21: a file that consists of framed records is returned completely, in order. -/
theorem c21_file (coreDump : Bool) (pol : Pol) (s : Src) (b : Bytes) (rs : List Raw) (hb : Blocks Frame rs b)
    (hs : Delivers s b) (n : Nat) (hn : b.length < n) :
    (forLoop (rawIter coreDump pol) n s).1 = rs ∧ (rs.map Raw.bytes).flatten = b := by
  refine ⟨(c21_tiling coreDump pol s b hs n hn rs).mp ?_, ?_⟩
  · clear hs hn
    induction hb with
    | nil => exact .done
    | cons h _ ih => exact .record h ih
  · clear hs hn
    induction hb with
    | nil => rfl
    | cons h _ ih => rw [List.map_cons, List.flatten_cons, ih, h.2.2.1]; rfl

/-- a keepalive record (BGP4MP_ET, 23 octets of body) and one of another type. -/
def c21A : Raw := ⟨⟨1700000000, some 5, .bgp4mpEt, 1, 3⟩, [0x65, 0x53, 0xf1, 0, 0, 17, 0, 1, 0, 0, 0, 7, 0, 0, 0, 5], [1, 2, 3]⟩
def c21B : Raw := ⟨⟨9, none, .ospfv2, 0, 2⟩, [0, 0, 0, 9, 0, 11, 0, 0, 0, 0, 0, 2], [7, 7]⟩

theorem c21AB_frames : Blocks Frame [c21A, c21B] (c21A.bytes ++ (c21B.bytes ++ [])) := by
  refine .cons ⟨⟨rfl, by decide, by decide⟩, by decide, rfl, ?_⟩ (.cons ⟨⟨by decide, by decide⟩, by decide, rfl, ?_⟩ .nil)
  · rw [if_neg (by rintro ⟨h, _⟩; cases h)]; rfl
  · rw [if_neg (by rintro ⟨h, _⟩; cases h)]; rfl

/-- an example of all theorems of this section: two records read in odd pieces with an interruption. -/
example : Delivers ⟨[.data 0x65 [0x53, 0xf1], .interrupted, .data 0 ((c21A.bytes ++ (c21B.bytes ++ [])).drop 4)], none⟩
    (c21A.bytes ++ (c21B.bytes ++ [])) := ⟨rfl, rfl⟩

/-- a bad header is skipped: an unassigned type. -/
example : Tiles false ([0, 0, 0, 9, 0, 99, 0, 0, 0, 0, 0, 2] ++ (c21B.bytes ++ [])) [c21B] := by
  rw [c21_tiling false (fun n _ => n) ⟨[.data 0 [0, 0, 9, 0, 99, 0, 0, 0, 0, 0, 2, 0, 0, 0, 9, 0, 11, 0, 0, 0, 0, 0, 2, 7, 7]], none⟩
    _ ⟨rfl, rfl⟩ 27 (by decide)]
  decide +kernel

/-! ### C22 termination -/

/-- C22: raw iteration over any reader ends after at most one call more than there are twelves of bytes, and each record
takes at least twelve bytes. -/
theorem c22_raw (coreDump : Bool) (pol : Pol) (s : Src) (n : Nat) :
    12 * (forLoop (rawIter coreDump pol) n s).1.length ≤ (dataOf (toks s.evs)).length ∧
    ((dataOf (toks s.evs)).length / 12 < n → (forLoop (rawIter coreDump pol) n s).2.1 = true) := by
  obtain ⟨h1, h2, _⟩ := loop_raw coreDump pol s.stuck n s _ (At.self s)
  rw [h1, h2]
  have := forLoop_measure (next := rawT coreDump s.stuck) (fun t => (dataOf t).length) 12
    (fun t a t' h => rawT_data _ _ _ _ _ _ (Nat.le_refl _) h) n (toks s.evs)
  exact ⟨this.1, fun h => this.2 (by show (dataOf (toks s.evs)).length < 12 * n; omega)⟩

/-- C22: the same for the default record iterator, with any filter. -/
theorem c22_default (f : Keep σ) (q : σ) (coreDump : Bool) (pol : Pol) (s : Src) (n : Nat) :
    12 * (forLoop (defaultIter f coreDump pol) n (q, s)).1.length ≤ (dataOf (toks s.evs)).length ∧
    ((dataOf (toks s.evs)).length / 12 < n → (forLoop (defaultIter f coreDump pol) n (q, s)).2.1 = true) := by
  obtain ⟨h1, h2, _⟩ := loop_default f coreDump pol s.stuck n q s _ (At.self s)
  rw [h1, h2]
  have := forLoop_measure (next := fun p : σ × List Tok => defaultT f coreDump s.stuck p.1 p.2) (fun p => (dataOf p.2).length) 12
    (fun p a p' h => by
      have := defaultT_data f coreDump s.stuck _ p.1 p.2 _ (Nat.le_refl _) h rfl
      exact this) n (q, toks s.evs)
  exact ⟨this.1, fun h => this.2 (by show (dataOf (toks s.evs)).length < 12 * n; omega)⟩

/-- C22: the same for the filtered raw record iterator. -/
theorem c22_filtered_raw (f : Keep σ) (q : σ) (coreDump : Bool) (pol : Pol) (s : Src) (n : Nat) :
    12 * (forLoop (filteredRawIter f coreDump pol) n (q, s)).1.length ≤ (dataOf (toks s.evs)).length ∧
    ((dataOf (toks s.evs)).length / 12 < n → (forLoop (filteredRawIter f coreDump pol) n (q, s)).2.1 = true) := by
  obtain ⟨h1, h2, _⟩ := loop_filtered f coreDump pol s.stuck n q s _ (At.self s)
  obtain ⟨g1, g2, _⟩ := loop_default f coreDump pol s.stuck n q s _ (At.self s)
  rw [h2, Pairwise2_length h1, ← g2, ← g1]
  exact c22_default f q coreDump pol s n

/-- C22: fallible iteration ends after at most one call more than the reader has bytes and temporary errors, unless the
reader fails for ever. -/
theorem c22_fallible_partial (f : Keep σ) (q : σ) (pol : Pol) (s : Src) (hs : s.stuck ≠ some false) (n : Nat)
    (hn : (toks s.evs).length < n) : (forLoop (fallibleIter f pol) n (q, s)).2.1 = true := by
  obtain ⟨_, h2, _⟩ := loop_fallible f pol s.stuck n q s _ (At.self s)
  rw [h2]
  have := forLoop_measure (next := fun p : σ × List Tok => fallibleT f s.stuck p.1 p.2) (fun p => p.2.length) 1
    (fun p a p' h => by
      have := fallibleT_progress f s.stuck hs _ p.1 p.2 _ (Nat.le_refl _) h rfl
      exact this) n (q, toks s.evs)
  exact this.2 (by show (toks s.evs).length < 1 * n; omega)

/-- C22: in particular on every file. -/
theorem c22_fallible_file (f : Keep σ) (q : σ) (pol : Pol) (s : Src) (b : Bytes) (hs : Delivers s b) (n : Nat)
    (hn : b.length < n) : (forLoop (fallibleIter f pol) n (q, s)).2.1 = true :=
  c22_fallible_partial f q pol s (by rw [hs.2]; simp) n (by rw [hs.1, byteToks_length]; exact hn)

theorem fallible_stuck (f : Keep σ) (pol : Pol) (q : σ) :
    fallibleIter f pol (q, ⟨[], some false⟩) = (some (.error ⟨.io, some []⟩), (q, ⟨[], some false⟩)) := rfl

/-- C22 fails here: a reader that keeps failing (not with `UnexpectedEof`) makes the fallible iterator return errors for
ever; a loop that merely skips errors does not end. -/
theorem c22_fallible_endless (f : Keep σ) (q : σ) (pol : Pol) (n : Nat) :
    (forLoop (fallibleIter f pol) n (q, ⟨[], some false⟩)).2.1 = false ∧
    (forLoop (fallibleIter f pol) n (q, ⟨[], some false⟩)).1.length = n := by
  induction n with
  | zero => exact ⟨rfl, rfl⟩
  | succ n ih =>
    simp only [forLoop, fallible_stuck]
    exact ⟨ih.1, by simp [ih.2]⟩

/-! ### C23 errors account for the bytes -/

/-- C23: the bytes of an error of raw reading are exactly the bytes taken from the reader; there are none exactly at the
end of the input. -/
theorem c23_chunk_error (pol : Pol) (s s' : Src) (e : RecErr) (h : chunk pol s = (.error e, s')) :
    Took s (e.bytes.getD []) s' ∧ (e.bytes = none ↔ e.error = .eofExpected) := by
  obtain ⟨s1, g1, g2, g3⟩ := chunk_eq pol s
  rw [h] at g1
  cases hc : chunkT s.stuck (toks s.evs) with
  | mk x t =>
    rw [hc] at g1 g2
    cases x with
    | ok r => cases g1
    | error ce =>
      cases g1
      obtain ⟨pre, k1, k2, k3, _⟩ := chunkT_took hc
      exact ⟨⟨pre, by rw [k1, g2], k2, g3⟩, k3⟩

/-- C23: the same for reading and parsing a record, including errors in the body. -/
theorem c23_record_error (pol : Pol) (s s' : Src) (e : RecErr) (h : nextRecord pol s = (.error e, s')) :
    Took s (e.bytes.getD []) s' ∧ (e.bytes = none → e.error = .eofExpected) := by
  obtain ⟨s1, g1, g2, g3⟩ := nextRecord_eq pol s
  rw [h] at g1
  cases hc : nextT s.stuck (toks s.evs) with
  | mk x t =>
    rw [hc] at g1 g2
    cases x with
    | ok r => cases g1
    | error ce =>
      cases g1
      obtain ⟨pre, k1, k2, k3⟩ := nextT_took hc
      exact ⟨⟨pre, by rw [k1, g2], k2, g3⟩, k3⟩

/-- C23: over a whole unfiltered fallible iteration, the bytes of the records and of the errors, in order, are what was
taken from the reader. -/
theorem c23_iteration (pol : Pol) (s : Src) (n : Nat) (hn : (forLoop (fallibleIter keepAll pol) n ((), s)).2.1 = false) :
    ∃ parts : List Bytes, Took s parts.flatten (forLoop (fallibleIter keepAll pol) n ((), s)).2.2.2 ∧
      Pairwise2 (fun x c => match x with
        | .ok r => ∃ raw, Frame raw c ∧ raw.parse = .ok r
        | .error e => e.bytes.getD [] = c) (forLoop (fallibleIter keepAll pol) n ((), s)).1 parts := by
  obtain ⟨h1, h2, _, h3⟩ := loop_fallible keepAll pol s.stuck n () s _ (At.self s)
  rw [h2] at hn
  obtain ⟨parts, pre, k1, k2, k3⟩ := fallible_account s.stuck n (toks s.evs) hn
  refine ⟨parts, ⟨pre, by rw [h3.1]; exact k1, k2, h3.2⟩, ?_⟩
  rw [h1]
  exact k3

/-- a truncated record: header and one of three octets. -/
def c23Src : Src := ⟨[.data 0 [0, 0, 9, 0, 11], .data 0 [0, 0, 0, 0, 3], .data 7 []], none⟩

example : (chunk (fun n _ => n) c23Src).1 = .error ⟨.ioEof, some [0, 0, 0, 9, 0, 11, 0, 0, 0, 0, 0, 3, 7]⟩ := by decide +kernel

/-- the record, then the error, of an unsupported type. -/
example : (forLoop (fallibleIter keepAll (fun n _ => n)) 1 ((), ⟨[.data 0 [0, 0, 9, 0, 11, 0, 0, 0, 0, 0, 2, 7, 7]], none⟩)).2.1 = false := by
  decide +kernel

/-- A reader error of kind `UnexpectedEof` right at a record boundary, as from a truncated compressed file, is reported as
a normal end of the input, and nothing is attached. -/
theorem c23_truncation_hidden (pol : Pol) :
    (chunk pol (⟨[.fail true], none⟩ : Src)).1 = .error ⟨.eofExpected, none⟩ ∧
    (chunk pol (⟨[.fail false], none⟩ : Src)).1 = .error ⟨.io, some []⟩ := ⟨rfl, rfl⟩

/-! ### C24 independence of read sizes -/

/-- C24: two readers that deliver the same bytes (and the same errors), in whatever chunks, with whatever interruptions and
with whatever buffer sizes, give the same raw records, or the same error with the same bytes. -/
theorem c24_chunk (pol pol' : Pol) (s s' : Src) (h : SameDelivery s s') :
    (chunk pol s).1 = (chunk pol' s').1 ∧ SameDelivery (chunk pol s).2 (chunk pol' s').2 := by
  obtain ⟨h1, h2⟩ := h
  obtain ⟨s1, g1, g2, g3⟩ := chunk_eq pol s
  obtain ⟨s1', k1, k2, k3⟩ := chunk_eq pol' s'
  rw [← h1, ← h2] at k1 k2
  rw [g1, k1]
  exact ⟨rfl, g2.trans k2.symm, g3.trans (h2.trans k3.symm)⟩

/-- C24: reading and parsing one record. -/
theorem c24_record (pol pol' : Pol) (s s' : Src) (h : SameDelivery s s') :
    (nextRecord pol s).1 = (nextRecord pol' s').1 ∧ SameDelivery (nextRecord pol s).2 (nextRecord pol' s').2 := by
  obtain ⟨h1, h2⟩ := h
  obtain ⟨s1, g1, g2, g3⟩ := nextRecord_eq pol s
  obtain ⟨s1', k1, k2, k3⟩ := nextRecord_eq pol' s'
  rw [← h1, ← h2] at k1 k2
  rw [g1, k1]
  exact ⟨rfl, g2.trans k2.symm, g3.trans (h2.trans k3.symm)⟩

/-- C24: raw iteration. -/
theorem c24_raw (coreDump : Bool) (pol pol' : Pol) (s s' : Src) (h : SameDelivery s s') (n : Nat) :
    (forLoop (rawIter coreDump pol) n s).1 = (forLoop (rawIter coreDump pol') n s').1 ∧
    (forLoop (rawIter coreDump pol) n s).2.1 = (forLoop (rawIter coreDump pol') n s').2.1 := by
  obtain ⟨h1, h2, _⟩ := loop_raw coreDump pol s.stuck n s _ (At.self s)
  obtain ⟨g1, g2, _⟩ := loop_raw coreDump pol' s.stuck n s' (toks s.evs) ⟨h.1.symm, h.2.symm⟩
  exact ⟨h1.trans g1.symm, h2.trans g2.symm⟩

/-- C24: default iteration. -/
theorem c24_default (f : Keep σ) (q : σ) (coreDump : Bool) (pol pol' : Pol) (s s' : Src) (h : SameDelivery s s') (n : Nat) :
    (forLoop (defaultIter f coreDump pol) n (q, s)).1 = (forLoop (defaultIter f coreDump pol') n (q, s')).1 ∧
    (forLoop (defaultIter f coreDump pol) n (q, s)).2.1 = (forLoop (defaultIter f coreDump pol') n (q, s')).2.1 := by
  obtain ⟨h1, h2, _⟩ := loop_default f coreDump pol s.stuck n q s _ (At.self s)
  obtain ⟨g1, g2, _⟩ := loop_default f coreDump pol' s.stuck n q s' (toks s.evs) ⟨h.1.symm, h.2.symm⟩
  exact ⟨h1.trans g1.symm, h2.trans g2.symm⟩

/-- C24: fallible iteration, with its errors. -/
theorem c24_fallible (f : Keep σ) (q : σ) (pol pol' : Pol) (s s' : Src) (h : SameDelivery s s') (n : Nat) :
    (forLoop (fallibleIter f pol) n (q, s)).1 = (forLoop (fallibleIter f pol') n (q, s')).1 ∧
    (forLoop (fallibleIter f pol) n (q, s)).2.1 = (forLoop (fallibleIter f pol') n (q, s')).2.1 := by
  obtain ⟨h1, h2, _⟩ := loop_fallible f pol s.stuck n q s _ (At.self s)
  obtain ⟨g1, g2, _⟩ := loop_fallible f pol' s.stuck n q s' (toks s.evs) ⟨h.1.symm, h.2.symm⟩
  exact ⟨h1.trans g1.symm, h2.trans g2.symm⟩

/-- two readers of the same 14 bytes: at once; byte by byte, with interruptions. -/
example : SameDelivery ⟨[.data 0 [0, 0, 9, 0, 11, 0, 0, 0, 0, 0, 2, 7, 7]], none⟩
    ⟨[.interrupted, .data 0 [], .data 0 [], .interrupted, .data 0 [], .data 9 [0, 11, 0, 0, 0], .data 0 [0, 2, 7],
      .interrupted, .interrupted, .data 7 [], .interrupted], none⟩ := ⟨rfl, rfl⟩

/-! ### C25 default and fallible iteration -/

/-- C25: the default iterator returns the successful records of the fallible iterator, in order, up to the first fatal
error: I/O, truncation, and, if bad records are to be dumped, parse errors. -/
theorem c25_default (f : Keep σ) (q : σ) (coreDump : Bool) (pol : Pol) (s : Src) (n m : Nat)
    (hn : (toks s.evs).length < n) (hm : (toks s.evs).length < m) :
    (forLoop (defaultIter f coreDump pol) n (q, s)).1 =
      okBefore coreDump (forLoop (fallibleIter f pol) m (q, s)).1 := by
  rw [(loop_default f coreDump pol s.stuck n q s _ (At.self s)).1, (loop_fallible f pol s.stuck m q s _ (At.self s)).1]
  exact default_fallible f coreDump s.stuck _ q _ n m (Nat.le_refl _) hn hm

/-- C25: the filtered raw iterator returns the same records as the default iterator, each with the raw record it is parsed
from. -/
theorem c25_filtered_raw (f : Keep σ) (q : σ) (coreDump : Bool) (pol : Pol) (s : Src) (n : Nat) :
    ((forLoop (filteredRawIter f coreDump pol) n (q, s)).1.map Prod.snd =
      (forLoop (defaultIter f coreDump pol) n (q, s)).1) ∧
    ∀ x ∈ (forLoop (filteredRawIter f coreDump pol) n (q, s)).1, x.1.parse = .ok x.2 ∧ Frame x.1 x.1.bytes := by
  obtain ⟨h1, _⟩ := loop_filtered f coreDump pol s.stuck n q s _ (At.self s)
  rw [(loop_default f coreDump pol s.stuck n q s _ (At.self s)).1]
  generalize (forLoop (filteredRawIter f coreDump pol) n (q, s)).1 = as at h1
  generalize (forLoop (fun p : σ × List Tok => defaultT f coreDump s.stuck p.1 p.2) n (q, toks s.evs)).1 = bs at h1
  induction h1 with
  | nil => exact ⟨rfl, by simp⟩
  | cons h _ ih =>
    obtain ⟨e1, e2, e3⟩ := h
    refine ⟨by rw [List.map_cons, e1, ih.1], ?_⟩
    intro x hx
    rcases List.mem_cons.mp hx with rfl | hx
    · rw [e1]; exact ⟨e2, e3⟩
    · exact ih.2 x hx

/-- a TABLE_DUMP record with a prefix length of 33: its body does not parse, with an I/O error. -/
def c25Bad : Bytes :=
  [0, 0, 0, 9, 0, 12, 0, 1, 0, 0, 0, 22] ++
  [0, 0, 0, 0, 10, 0, 0, 0, 33, 1, 0, 0, 0, 0, 10, 0, 0, 1, 0, 1, 0, 0]

/-- a state change record. -/
def c25Good : Bytes :=
  [0, 0, 0, 9, 0, 16, 0, 0, 0, 0, 0, 8, 0, 1, 0, 2, 0, 3, 0, 4]

/-- "Fatal" includes errors that concern one record only: a TABLE_DUMP entry with a mask that is too long is an I/O error,
and ends the default iterator, although the fallible one reads the next record. -/
theorem c25_one_bad_record_ends_iteration :
    ((forLoop (fallibleIter keepAll (fun n _ => n)) 9 ((), ⟨[.data 0 ((c25Bad ++ c25Good).drop 1)], none⟩)).1.map Except.isOk = [false, true]) ∧
    ((forLoop (defaultIter keepAll false (fun n _ => n)) 9 ((), ⟨[.data 0 ((c25Bad ++ c25Good).drop 1)], none⟩)).1 = []) ∧
    ((forLoop (rawIter false (fun n _ => n)) 9 ⟨[.data 0 ((c25Bad ++ c25Good).drop 1)], none⟩).1.length = 2) := by
  decide +kernel

end Verif.Props
