import Verif.Lemmas.Diagnostic
import Verif.Props.Mrt
/-
C67: the diagnostic iterator reports every record of a file, and stops at the first bytes that are no record.
-/
namespace Verif.Props
open Verif Spec

/-- C67: the findings reported with a parsed record are all findings in it, in order. -/
theorem c67_findings (raw : Raw) (r : MrtRecord) (h : raw.parse = .ok r) : recordFindings r = findingsOf r.message := by
  have hg : ∀ g, r.message ≠ .tableDumpV2 (.ribGeneric g) := by
    intro g hg
    unfold Raw.parse at h
    cases hm : parseMrtBody raw.header.type raw.header.subtype raw.body with
    | error e => rw [hm] at h; cases h
    | ok m =>
      rw [hm] at h
      cases h
      simp only at hg
      subst hg
      unfold parseMrtBody at hm
      have hv : ∀ x, parseTableDumpV2 raw.header.subtype raw.body ≠ .ok (.ribGeneric x) := by
        intro x hx
        unfold parseTableDumpV2 at hx
        split at hx
        all_goals first
          | cases hx
          | (generalize parsePeerIndexTable.runOn raw.body = y at hx; cases y <;> cases hx)
          | (generalize parseGeoPeerTable.runOn raw.body = y at hx; cases y <;> cases hx)
          | (generalize parseRibAfi _ raw.body = y at hx; cases y <;> cases hx)
      split at hm
      · split at hm <;> cases hm
      · cases hy : parseTableDumpV2 raw.header.subtype raw.body with
        | error e => rw [hy] at hm; cases hm
        | ok y => rw [hy] at hm; cases hm; exact hv _ hy
      · generalize parseBgp4Mp raw.header.subtype raw.body = y at hm; cases y <;> cases hm
      · generalize parseBgp4Mp raw.header.subtype raw.body = y at hm; cases y <;> cases hm
      · generalize parseLegacyBgp raw.header.subtype raw.body = y at hm; cases y <;> cases hm
      · cases hm
  unfold recordFindings findingsOf
  cases hm : r.message with
  | tableDump m => simp [attributeLists, refreshOf]
  | tableDumpBatch ms => simp [attributeLists, refreshOf, List.flatMap_map]
  | tableDumpV2 m =>
    cases m with
    | ribAfi x => simp [attributeLists, refreshOf, List.flatMap_map]
    | ribGeneric x => exact absurd hm (hg x)
    | _ => simp [attributeLists, refreshOf]
  | bgp4mp m =>
    cases m with
    | stateChange x => simp [attributeLists, refreshOf]
    | message x => cases hx : x.message <;> simp [attributeLists, refreshOf, messageFindings, hx]
  | legacyBgp m =>
    cases m with
    | stateChange x => simp [attributeLists, refreshOf]
    | message x => cases hx : x.message <;> simp [attributeLists, refreshOf, messageFindings, hx]

theorem reported_event {raw : Raw} {e : DiagEvent} (hf : raw.bytes.length < 4294967296) :
    Reported raw e ↔ e = match raw.parse with
      | .error x => errorEvent x (some raw.header) (some raw.bytes)
      | .ok r => .record r raw (recordFindings r) := by
  unfold Reported
  cases hp : raw.parse with
  | ok r => simp only; rw [c67_findings raw r hp]
  | error x =>
    simp only
    obtain ⟨t, h1, h2⟩ := treeOf_exists raw.bytes hf
    simp only [errorEvent, h1]
    constructor
    · rintro ⟨t', h3, rfl⟩
      rw [treeOf_dissect hf h3] at h1
      cases h1; rfl
    · rintro rfl
      exact ⟨t, h2, rfl⟩

theorem diagT_frame {k : Option Bool} {r : Raw} {b : Bytes} (hf : Frame r b) (t : List Tok) :
    ∃ e, Reported r e ∧ diagT k (false, byteToks b ++ t) = (some e, (false, t)) := by
  have hb := frame_bytes hf
  have hs := frame_small hf
  rw [← hb] at hs
  refine ⟨_, (reported_event hs).mpr rfl, ?_⟩
  unfold diagT
  simp only [Bool.false_eq_true, if_false]
  rw [chunkT_complete k hf]
  simp only
  cases r.parse <;> rfl

theorem reported_unique {raw : Raw} {e e' : DiagEvent} (hf : raw.bytes.length < 4294967296) (h : Reported raw e)
    (h' : Reported raw e') : e = e' := by
  rw [reported_event hf] at h h'
  rw [h, h']

theorem diagnosed_exists (n : Nat) : ∀ b : Bytes, b.length ≤ n → ∃ es, Diagnosed b es := by
  induction n with
  | zero =>
    intro b hb
    have : b = [] := List.length_eq_zero_iff.mp (by omega)
    subst this
    exact ⟨[], .done⟩
  | succ n ih =>
    intro b hb
    cases hc : chunkT none (byteToks b) with
    | mk x t =>
      cases x with
      | ok r =>
        obtain ⟨h1, h2⟩ := chunkT_ok hc
        obtain ⟨rest, rfl, rfl⟩ := byteToks_split h2
        have := Frame_length h1
        obtain ⟨es, hes⟩ := ih rest (by simp at hb; omega)
        obtain ⟨e, he, _⟩ := diagT_frame (k := none) h1 []
        exact ⟨_, .record h1 he hes⟩
      | error e =>
        rcases chunkT_broken hc with ⟨rfl, _⟩ | ⟨_, c, h1, h2⟩
        · exact ⟨_, .done⟩
        · obtain ⟨t, _, ht⟩ := treeOf_exists c (chunkT_error_small hc c h1)
          exact ⟨_, .broken h2 ht⟩

theorem diagnosed_loop {b : Bytes} {es : List DiagEvent} (h : Diagnosed b es) : ∀ n, es.length < n →
    (forLoop (diagT none) n (false, byteToks b)).1 = es ∧ (forLoop (diagT none) n (false, byteToks b)).2.1 = true := by
  induction h with
  | done =>
    intro n hn
    cases n with
    | zero => cases hn
    | succ n => simp only [forLoop]; exact ⟨rfl, rfl⟩
  | @record r b rest e es hf hr ht ih =>
    intro n hn
    cases n with
    | zero => cases hn
    | succ n =>
      have hs := frame_small hf
      rw [← frame_bytes hf] at hs
      obtain ⟨e', h1, h2⟩ := diagT_frame (k := none) hf (byteToks rest)
      obtain rfl := reported_unique hs hr h1
      simp only [forLoop, byteToks_append, h2]
      obtain ⟨h1, h2⟩ := ih n (by simpa using hn)
      simp [h1, h2]
  | @broken c b x h t hb ht =>
    intro n hn
    cases n with
    | zero => cases hn
    | succ n =>
      cases n with
      | zero => simp at hn
      | succ n =>
        obtain ⟨t', ht'⟩ := broken_chunkT hb
        have hx : x ≠ .eofExpected := by cases hb <;> simp
        have hs := chunkT_error_small ht' b rfl
        have : diagT none (false, byteToks c) = (some (.parseError x h (some b) (some t)), (true, t')) := by
          unfold diagT
          simp only [Bool.false_eq_true, if_false]
          rw [ht']
          simp only
          rw [if_neg hx]
          simp only [errorEvent, treeOf_dissect hs ht]
        simp only [forLoop, this]
        simp [diagT]

theorem diagnosed_length {b : Bytes} {es : List DiagEvent} (h : Diagnosed b es) : 12 * es.length ≤ b.length + 11 := by
  induction h with
  | done => simp
  | record hf _ _ ih =>
    have := Frame_length hf
    simp
    omega
  | broken hb _ =>
    have := (brokenAt_no_frame hb).1
    have := List.length_pos_iff.mpr this
    simp
    omega

/-- C67: a diagnostic iteration over a file ends, and its events are exactly those of the file: one per record, in order,
with the bytes, and all findings or the error and the tree; and one last event if something is left that is no record. -/
theorem c67_file (pol : Pol) (s : Src) (b : Bytes) (hs : Delivers s b) (n : Nat) (hn : b.length / 12 + 1 < n) :
    (forLoop (DiagIter.next pol) n (diagStart s)).2.1 = true ∧
    ∀ es, Diagnosed b es ↔ (forLoop (DiagIter.next pol) n (diagStart s)).1 = es := by
  have ha := diagStart_at s
  rw [hs.1, hs.2] at ha
  obtain ⟨h1, h2, _⟩ := loop_diag pol none n (diagStart s) _ ha
  rw [h1, h2]
  obtain ⟨es, he⟩ := diagnosed_exists _ b (Nat.le_refl _)
  have hl := diagnosed_length he
  obtain ⟨g1, g2⟩ := diagnosed_loop he n (by omega)
  refine ⟨g2, fun es' => ⟨fun h => ?_, fun h => ?_⟩⟩
  · have hl' := diagnosed_length h
    exact (diagnosed_loop h n (by omega)).1
  · rw [← h, g1]; exact he

/-- C67, for a file that consists of records: one event per record. -/
theorem c67_records (pol : Pol) (s : Src) (b : Bytes) (rs : List Raw) (hb : Blocks Frame rs b) (hs : Delivers s b) (n : Nat)
    (hn : b.length / 12 + 1 < n) : Pairwise2 Reported rs (forLoop (DiagIter.next pol) n (diagStart s)).1 := by
  have : ∃ es, Diagnosed b es ∧ Pairwise2 Reported rs es := by
    clear hs hn
    induction hb with
    | nil => exact ⟨_, .done, .nil⟩
    | cons hf _ ih =>
      obtain ⟨es, h1, h2⟩ := ih
      obtain ⟨e, he, _⟩ := diagT_frame (k := none) hf []
      exact ⟨_, .record hf he h1, .cons he h2⟩
  obtain ⟨es, h1, h2⟩ := this
  rw [((c67_file pol s b hs n hn).2 es).mp h1]
  exact h2

/-- C67: whatever the reader does, also if it fails for ever, the iteration ends, after at most one event per 12 octets and
one more. -/
theorem c67_ends (pol : Pol) (s : Src) (n : Nat) :
    12 * (forLoop (DiagIter.next pol) n (diagStart s)).1.length ≤ (dataOf (toks s.evs)).length + 12 ∧
    ((dataOf (toks s.evs)).length / 12 + 1 < n → (forLoop (DiagIter.next pol) n (diagStart s)).2.1 = true) := by
  obtain ⟨h1, h2, _⟩ := loop_diag pol s.stuck n (diagStart s) _ (diagStart_at s)
  rw [h1, h2]
  have := forLoop_measure (next := diagT s.stuck) (fun p => if p.1 then 0 else (dataOf p.2).length + 12) 12
    (fun p a p' h => by
      obtain ⟨d, t⟩ := p
      unfold diagT at h
      cases d with
      | true => simp at h
      | false =>
        simp only [Bool.false_eq_true, if_false] at h ⊢
        cases hc : chunkT s.stuck t with
        | mk x t' =>
          rw [hc] at h
          cases x with
          | error e =>
            simp only at h
            split at h
            · simp at h
            · simp only [Prod.mk.injEq] at h
              rw [← h.2]
              simp
          | ok raw =>
            simp only at h
            obtain ⟨g1, g2⟩ := chunkT_ok hc
            have := Frame_length g1
            have hp : p' = (false, t') := by
              cases hp : raw.parse <;> rw [hp] at h <;> simp only [Prod.mk.injEq] at h <;> exact h.2.symm
            rw [hp, g2, dataOf_append, List.length_append, dataOf_byteToks]
            simp only [Bool.false_eq_true, if_false]
            omega) n (false, toks s.evs)
  simp only [Bool.false_eq_true, if_false] at this
  exact ⟨this.1, fun h => this.2 (by omega)⟩

/-- C67: the iterator is fused: after the first `None` it returns `None` for ever. -/
theorem c67_fused (pol : Pol) (it it' : DiagIter) (h : it.next pol = (none, it')) : it'.next pol = (none, it') := by
  obtain ⟨text, term, s⟩ := it
  unfold DiagIter.next at h
  by_cases hc : (term || text) = true
  · simp only [hc, if_true, Prod.mk.injEq, true_and] at h
    subst h
    simp [DiagIter.next, hc]
  · simp only [hc, Bool.false_eq_true, if_false] at h
    cases hx : chunkCtx pol s with
    | mk x s' =>
      rw [hx] at h
      cases x with
      | error e =>
        simp only at h
        split at h
        · simp only [Prod.mk.injEq, true_and] at h
          subst h
          simp [DiagIter.next]
        · simp at h
      | ok raw =>
        simp only at h
        cases hp : raw.parse <;> rw [hp] at h <;> simp at h

/-- C67: it returns nothing for a text dump. -/
theorem c67_text (pol : Pol) (it : DiagIter) (h : it.text = true) : it.next pol = (none, it) := by
  simp [DiagIter.next, h]

/-- C67: nothing is taken from the reader once the iteration has ended. -/
theorem c67_stops_reading (pol : Pol) (s s' : Src) (it : DiagIter) (e : ChunkErr) (hc : chunkCtx pol s = (.error e, s'))
    (h : it.src = s) : ((it.next pol).2.next pol).1 = none ∧
      ((it.next pol).2.next pol).2.src = (it.next pol).2.src := by
  obtain ⟨text, term, s0⟩ := it
  cases h
  simp only at hc
  by_cases ht : (term || text) = true
  · simp [DiagIter.next, ht]
  · have : (DiagIter.next pol ⟨text, term, s0⟩).2 = ⟨text, true, s'⟩ := by
      simp only [DiagIter.next, ht, Bool.false_eq_true, if_false, hc]
      split <;> rfl
    rw [this]
    simp [DiagIter.next]

/-- What one call reports, whatever the reader does: a record of the file; or, as the last event, an error with the bytes
that were consumed. -/
def EventOk (s s' : Src) (ended : Bool) (e : DiagEvent) : Prop :=
  (∃ raw, Frame raw raw.bytes ∧ Reported raw e ∧ toks s.evs = byteToks raw.bytes ++ toks s'.evs ∧ ended = false) ∨
  ∃ x h b t, e = .parseError x h (some b) (some t) ∧ TreeOf b t ∧ Took s b s' ∧ x ≠ .eofExpected ∧ ended = true ∧
    ∀ hd, h = some hd → ∃ c rest, HeaderBytes hd c ∧ b = c ++ rest

/-- C67: every event reports a record that was read, or the bytes that were consumed at the end; so the bytes of the events
are the bytes taken from the reader, and no event is a panic. -/
theorem c67_event (pol : Pol) (it it' : DiagIter) (e : DiagEvent) (h : it.next pol = (some e, it')) :
    EventOk it.src it'.src it'.terminated e := by
  obtain ⟨text, term, s⟩ := it
  unfold DiagIter.next at h
  by_cases hc : (term || text) = true
  · simp [hc] at h
  have ht : term = false := by cases term <;> simp_all
  simp only [hc, Bool.false_eq_true, if_false] at h
  obtain ⟨s', h1, h2, h3⟩ := chunkCtx_eq pol s
  rw [h1] at h
  cases hx : chunkT s.stuck (toks s.evs) with
  | mk x t' =>
    rw [hx] at h h2
    simp only at h2
    subst h2
    cases x with
    | error er =>
      right
      simp only at h
      split at h
      · simp at h
      · next hne =>
        simp only [Prod.mk.injEq, Option.some.injEq] at h
        obtain ⟨rfl, rfl⟩ := h
        obtain ⟨pre, g1, g2, g3, _⟩ := chunkT_took hx
        cases hb : er.bytes with
        | none => exact absurd (g3.mp hb) hne
        | some b =>
          obtain ⟨t, k1, k2⟩ := treeOf_exists b (chunkT_error_small hx b hb)
          refine ⟨er.error, er.header, b, t, by simp only [errorEvent, k1], k2, ⟨pre, g1, by rw [g2, hb]; rfl, h3⟩, hne, rfl, ?_⟩
          intro hd hh
          obtain ⟨c, rest, m1, m2, _⟩ := chunkT_error_header hx hh
          rw [hb] at m2
          cases m2
          exact ⟨c, rest, m1, rfl⟩
    | ok raw =>
      left
      obtain ⟨g1, g2⟩ := chunkT_ok hx
      have hs := frame_small g1
      refine ⟨raw, g1, ?_, ?_⟩
      · rw [reported_event hs]
        simp only at h
        cases hp : raw.parse <;> rw [hp] at h <;> simp only [Prod.mk.injEq, Option.some.injEq] at h <;> exact h.1.symm
      · simp only at h
        cases hp : raw.parse <;> rw [hp] at h <;> simp only [Prod.mk.injEq] at h <;> rw [← h.2] <;> exact ⟨g2, ht⟩

/-- C67: no event is a panic. -/
theorem c67_no_panic (pol : Pol) (it : DiagIter) : (it.next pol).1 ≠ some .panic := by
  cases h : it.next pol with
  | mk x it' =>
    cases x with
    | none => simp
    | some e =>
      simp only [ne_eq, Option.some.injEq]
      rintro rfl
      rcases c67_event pol it it' _ h with ⟨raw, _, hr, _⟩ | ⟨x, h, b, t, hr, _⟩
      · unfold Reported at hr
        split at hr
        · cases hr
        · obtain ⟨_, _, hr⟩ := hr; cases hr
      · cases hr

/-- C67: the events do not depend on the chunks in which the reader delivers the file, on interruptions, or on how the
standard library grows its buffers. -/
theorem c67_chunking (pol pol' : Pol) (s s' : Src) (h : SameDelivery s s') (n : Nat) :
    (forLoop (DiagIter.next pol) n (diagStart s)).1 = (forLoop (DiagIter.next pol') n (diagStart s')).1 := by
  obtain ⟨h1, _⟩ := loop_diag pol s.stuck n (diagStart s) _ (diagStart_at s)
  obtain ⟨g1, _⟩ := loop_diag pol' s'.stuck n (diagStart s') _ (diagStart_at s')
  rw [h1, g1, h.1, h.2]

/-- the trees of the upgraded iterator. -/
def Dissected (e : DiagEvent) (d : DissectedEvent) : Prop :=
  match e with
  | .record r raw fs => ∃ t, TreeOf raw.bytes t ∧ d = .record r raw (spanFindings fs t) t
  | .parseError x h b t => d = .parseError x h b t
  | .panic => False

/-- C67: the upgraded iterator returns the same events, each record with its tree. -/
theorem c67_dissected (pol : Pol) (n : Nat) (s : Src) :
    Pairwise2 Dissected (forLoop (DiagIter.next pol) n (diagStart s)).1 (forLoop (DiagIter.nextDissected pol) n (diagStart s)).1 ∧
    (forLoop (DiagIter.next pol) n (diagStart s)).2.1 = (forLoop (DiagIter.nextDissected pol) n (diagStart s)).2.1 := by
  have := forLoop_sim (next := DiagIter.next pol) (next' := DiagIter.nextDissected pol) (· = ·) Dissected (by
    rintro it _ rfl
    unfold DiagIter.nextDissected
    cases h : it.next pol with
    | mk x it' =>
      cases x with
      | none => simp
      | some e =>
        refine ⟨rfl, .inr ⟨e, _, rfl, rfl, ?_⟩⟩
        have hnp := c67_no_panic pol it
        rw [h] at hnp
        cases e with
        | panic => simp at hnp
        | parseError x h b t => rfl
        | record r raw fs =>
          rcases c67_event pol it it' _ h with ⟨raw', hf, hr, _⟩ | ⟨x, h, b, t, hr, _⟩
          · have : raw' = raw := by
              unfold Reported at hr
              split at hr
              · cases hr; rfl
              · obtain ⟨_, _, hr⟩ := hr; cases hr
            subst this
            obtain ⟨t, k1, k2⟩ := treeOf_exists raw'.bytes (frame_small hf)
            refine ⟨t, k2, ?_⟩
            have : dissectMrtRecord raw' = some t := k1
            simp only [dissectEvent, this]
          · cases hr) n (diagStart s) (diagStart s) rfl
  exact ⟨this.1, this.2.1⟩

/-- an example: an UPDATE announcing 10.0.0.0/8 with ORIGIN twice and no AS_PATH and NEXT_HOP. -/
def c67Update : Raw :=
  ⟨⟨1, none, .bgp4mp, 4, 53⟩, [0, 0, 0, 1, 0, 16, 0, 4, 0, 0, 0, 53],
   [0, 0, 0, 1, 0, 0, 0, 2, 0, 0, 0, 1, 1, 1, 1, 1, 2, 2, 2, 2] ++ List.replicate 16 255 ++
   [0, 33, 2, 0, 0, 0, 8, 0x40, 1, 1, 0, 0x40, 1, 1, 1, 8, 10]⟩
/-- an example: a ROUTE-REFRESH message with a strange subtype. -/
def c67Refresh : Raw :=
  ⟨⟨1, none, .bgp4mp, 4, 43⟩, [0, 0, 0, 1, 0, 16, 0, 4, 0, 0, 0, 43],
   [0, 0, 0, 1, 0, 0, 0, 2, 0, 0, 0, 1, 1, 1, 1, 1, 2, 2, 2, 2] ++ List.replicate 16 255 ++ [0, 23, 5, 0, 1, 9, 1]⟩

theorem c67_frames : Blocks Frame [c67Update, c21B, c67Refresh] (c67Update.bytes ++ (c21B.bytes ++ (c67Refresh.bytes ++ []))) := by
  refine .cons ⟨⟨by decide, by decide⟩, by decide, rfl, ?_⟩ (.cons ⟨⟨by decide, by decide⟩, by decide, rfl, ?_⟩
    (.cons ⟨⟨by decide, by decide⟩, by decide, rfl, ?_⟩ .nil))
  all_goals rw [if_neg (by rintro ⟨h, _⟩; cases h)]; rfl

/-- hypotheses and findings of `c67_findings` for the examples. -/
example : (match c67Update.parse with | .ok r => findingsOf r.message | .error _ => []) =
    [.attr (.duplicate 1), .attr (.missing 2), .attr (.missing 3)] := by decide +kernel
example : (match c67Refresh.parse with | .ok r => findingsOf r.message | .error _ => []) = [.refresh (.unknownSubtype 9)] := by
  decide +kernel

/-- hypotheses of `c67_file`, `c67_records` and `c67_ends`: three records read in odd pieces. -/
example : Delivers ⟨[.data 0 [0], .interrupted, .data 0 ((c67Update.bytes ++ (c21B.bytes ++ (c67Refresh.bytes ++ []))).drop 3)], none⟩
    (c67Update.bytes ++ (c21B.bytes ++ (c67Refresh.bytes ++ []))) := ⟨rfl, rfl⟩

/-- a header of an unassigned type is the last thing reported, although a record follows. -/
example : ∃ t, TreeOf [0, 0, 0, 9, 0, 99, 0, 0, 0, 0, 0, 2] t ∧
    Diagnosed ([0, 0, 0, 9, 0, 99, 0, 0, 0, 0, 0, 2] ++ (c21B.bytes ++ []))
      [.parseError .parse none (some [0, 0, 0, 9, 0, 99, 0, 0, 0, 0, 0, 2]) (some t)] := by
  obtain ⟨t, _, ht⟩ := treeOf_exists [0, 0, 0, 9, 0, 99, 0, 0, 0, 0, 0, 2] (by decide)
  refine ⟨t, ht, .broken (.bad _ _ rfl ⟨rfl, ?_⟩) ht⟩
  rintro ⟨ts, m, ty, st, len⟩ b hb he
  have hn : (b.take 6).drop 4 = n16 (entryNum ty) := by
    cases m <;> simp only [HeaderBytes] at hb
    · rw [hb.2]; simp [n32, n16]
    · rw [hb.2.2]; simp [n32, n16]
  have : (b.take 6) = [0, 0, 0, 9, 0, 99] := by
    have := congrArg (List.take 6) he
    simpa [List.take_take] using this
  rw [this] at hn
  revert hn
  cases ty <;> decide

/-- hypothesis of `c67_stops_reading`: the file ends inside a header. -/
example : ∃ (s' : Src) (e : ChunkErr), chunkCtx (fun n _ => n) (⟨[.data 0 [0, 0]], none⟩ : Src) = (.error e, s') := ⟨_, _, rfl⟩
/-- hypothesis of `c67_chunking`. -/
example : SameDelivery ⟨[.data 0 [0, 0]], none⟩ ⟨[.data 0 [], .interrupted, .data 0 [0]], none⟩ := by
  constructor <;> rfl

end Verif.Props
