import Verif.Lemmas.RecoveryElem
import Verif.Lemmas.RecoveryUnique
import Verif.Lemmas.RecoverySim
import Verif.Spec.Recovery
/-
C38, C39, C64: framing recovery.
-/
namespace Verif.Props
open Verif Spec

/-! ### C38 what recovery returns accounts for the input -/

/-- C38, for any reader: whatever part of the iteration is looked at, the records and gaps, from offset 0 on, follow each
other without overlap and without holes and cover exactly a prefix `d` of the bytes that the reader delivers; the filter
removes records only; after them there is at most one error, at the offset where `d` ends, which is not a panic and does
not claim to have scanned more than there is behind that offset; and the iteration ends. -/
theorem c38_accounts (f : Keep σ) (q : σ) (cfg : RecoveryConfig) (pol : Pol) (s : Src) (n : Nat) :
    let run := forLoop (recoveringNext f cfg pol) n (.new false q s)
    ∃ es d rest fin, dataOf (toks s.evs) = d ++ rest ∧ Accounts cfg rest 0 d es ∧
      run.1 = (applyKeepOk f q es).map .ok ++ fin ∧
      (fin = [] ∨ ∃ y, fin = [.error y] ∧ y.offset = d.length ∧ y.scanned ≤ rest.length ∧ y.error.error ≠ .panic) ∧
      ((toks s.evs).length + 1 < n → run.2.1 = true) := by
  obtain ⟨es, d, rest, fin, h1, h2, h3, h4, h5⟩ := recovering_accounts f cfg pol _ n (.new false q s) (Nat.le_refl _) rfl rfl
  refine ⟨es, d, rest, fin, h1, h2, h3, ?_, h5⟩
  rcases h4 with h4 | ⟨y, g1, g2, gs, g3⟩
  · exact .inl h4
  · refine .inr ⟨y, g1, by simpa [Recovering.new] using g2, gs, fun hp => ?_⟩
    obtain ⟨raw, hr⟩ := g3 hp
    exact rawParse_noPanic raw hr

/-- C38: the gaps come in order and do not overlap. -/
theorem c38_ordered (f : Keep σ) (q : σ) (cfg : RecoveryConfig) (pol : Pol) (s : Src) (n : Nat) :
    (gapsOf (forLoop (recoveringNext f cfg pol) n (.new false q s)).1).Pairwise (fun g g' => g.stop ≤ g'.start) ∧
    ∀ g ∈ gapsOf (forLoop (recoveringNext f cfg pol) n (.new false q s)).1, g.start < g.stop := by
  obtain ⟨es, d, rest, fin, _, h2, h3, h4, _⟩ := c38_accounts f q cfg pol s n
  have : gapsOf (forLoop (recoveringNext f cfg pol) n (.new false q s)).1 = gapsOk es := by
    rw [h3, gapsOf_append, gapsOf_keep]
    rcases h4 with rfl | ⟨y, rfl, _⟩ <;> simp [gapsOf]
  rw [this]
  refine ⟨(accounts_ordered h2).2, fun g hg => ?_⟩
  obtain ⟨pre, sk, post, _, h2, h3, h4, _⟩ := accounts_gaps h2 g hg
  have := List.length_pos_iff.mpr h2
  omega

/-- C38: on a stream of intact records, however it is cut and interrupted, recovery and the ordinary iteration return
exactly the same records, there is no gap and no error, and both end. -/
theorem c38_clean (f : Keep σ) (q : σ) (cfg : RecoveryConfig) (pol pol' : Pol) (s : Src) (b : Bytes) (ms : List MrtRecord)
    (hs : Delivers s b) (hb : Blocks Intact ms b) (n : Nat) (hn : ms.length < n) :
    (forLoop (recoveringNext f cfg pol) n (.new false q s)).1 = (keptRecords f q ms).map (fun m => .ok (.item m)) ∧
    (forLoop (recoveringNext f cfg pol) n (.new false q s)).2.1 = true ∧
    (forLoop (fallibleIter f pol') n (q, s)).1 = (keptRecords f q ms).map .ok ∧
    (forLoop (fallibleIter f pol') n (q, s)).2.1 = true := by
  have hl : (keptRecords f q ms).length ≤ ms.length := by
    clear hb hn
    induction ms generalizing q with
    | nil => exact Nat.le_refl _
    | cons m ms ih =>
      have := ih (f.step q m).2
      simp only [keptRecords]
      split <;> simp <;> omega
  obtain ⟨h1, h2⟩ := recovering_clean f cfg pol hb n (.new false q s) rfl rfl hs.1 hs.2
  obtain ⟨g1, g2⟩ := fallible_clean f pol' hb q s hs n
  have e : (Recovering.new false q s).filter = q := rfl
  rw [e] at h1 h2
  rw [List.take_of_length_le (by omega)] at h1 g1
  exact ⟨h1, h2.2 (by omega), g1, g2.2 (by omega)⟩

/-- C38, for a file: what recovery reports is one of the possibilities of `FileEvents`. The hypothesis `NoInterrupts` is
what is missing from the full claim (`c38_interrupted` shows that it is needed). -/
theorem c38_file_partial (f : Keep σ) (q : σ) (cfg : RecoveryConfig) (pol : Pol) (s : Src) (b : Bytes) (hs : Delivers s b)
    (hi : NoInterrupts s) (n : Nat) (hn : b.length < n) :
    ∃ es, FileEvents cfg 0 b es ∧ (forLoop (recoveringNext f cfg pol) n (.new false q s)).1 = applyKeep f q es ∧
      (forLoop (recoveringNext f cfg pol) (n + 1) (.new false q s)).2.1 = true := by
  have hd : del (Recovering.new false q s).reader = byteToks b := hs.1
  obtain ⟨es, h1, h2⟩ := recovering_file f cfg pol _ (.new false q s) (Nat.le_refl _) rfl rfl
    ⟨by rw [hd]; exact PureT.bytes b, hs.2, hi⟩
  rw [hd, dataOf_byteToks] at h1
  exact ⟨es, h1, h2 n (by rw [hd, byteToks_length]; exact hn)⟩

/-- C38: for every file there is exactly one such report. -/
theorem c38_report (cfg : RecoveryConfig) (b : Bytes) :
    ∃ es, FileEvents cfg 0 b es ∧ ∀ es', FileEvents cfg 0 b es' → es' = es := by
  obtain ⟨es, h, _⟩ := c38_file_partial keepAll () cfg (fun n _ => n) ⟨b.map fun x => .data x [], none⟩ b
    ⟨by induction b with
      | nil => rfl
      | cons x b ih => simpa [toks, byteToks] using ih, rfl⟩ (by simp [NoInterrupts]) (b.length + 1) (Nat.lt_succ_self _)
  exact ⟨es, h, fun es' h' => fileEvents_unique h' h⟩

/-- C24, for recovery: two readers that deliver the same bytes and errors, in whatever chunks, and that never say
`Interrupted`, give the same records, gaps and errors and end at the same place. What is missing: readers that say
`Interrupted`; `c38_interrupted` shows that the claim fails for them. -/
theorem c24_recovering_partial (f : Keep σ) (q : σ) (cfg : RecoveryConfig) (pol pol' : Pol) (text : Bool) (s s' : Src)
    (hs : SameDelivery s s') (hi : NoInterrupts s) (hi' : NoInterrupts s') (n : Nat) :
    (forLoop (recoveringNext f cfg pol) n (.new text q s)).1 = (forLoop (recoveringNext f cfg pol') n (.new text q s')).1 ∧
    (forLoop (recoveringNext f cfg pol) n (.new text q s)).2.1 = (forLoop (recoveringNext f cfg pol') n (.new text q s')).2.1 :=
  recovering_alike f cfg pol pol' _ n _ _ (Nat.lt_succ_self _)
    ⟨rfl, rfl, rfl, fun _ => ⟨hs.1, hs.2, hi, hi', rfl⟩⟩

/-- C38: one record with an intact frame and a damaged body costs exactly itself: all records before and behind it are
returned, and the gap covers exactly its bytes. -/
theorem c38_isolated_partial (f : Keep σ) (q : σ) (cfg : RecoveryConfig) (pol : Pol) (s : Src) (c1 bad c2 : Bytes)
    (ms1 ms2 : List MrtRecord) (e : Err) (hs : Delivers s (c1 ++ (bad ++ c2))) (hi : NoInterrupts s)
    (h1 : Blocks Intact ms1 c1) (hb : Damaged e bad) (h2 : Blocks Intact ms2 c2) (n : Nat)
    (hn : (c1 ++ (bad ++ c2)).length < n) :
    (forLoop (recoveringNext f cfg pol) n (.new false q s)).1 =
      (keptRecords f q ms1).map (fun m => .ok (.item m)) ++
      .ok (.gap ⟨c1.length, c1.length + bad.length, e, .alignedRecordChain, min (required cfg) ms2.length⟩) ::
      (keptRecords f (filterAfter f q ms1) ms2).map (fun m => .ok (.item m)) := by
  obtain ⟨es, k1, k2, _⟩ := c38_file_partial f q cfg pol s _ hs hi n hn
  rw [k2, fileEvents_isolated h1 hb h2 k1, applyKeep_items]
  simp only [applyKeep, Nat.zero_add]
  have := applyKeep_items f ms2 (filterAfter f q ms1) []
  rw [List.append_nil] at this
  rw [this]
  simp [applyKeep]

/-- C38: input that is text and not MRT gives one error and nothing else. -/
theorem c38_text (f : Keep σ) (q : σ) (cfg : RecoveryConfig) (pol : Pol) (s : Src) (n : Nat) :
    (forLoop (recoveringNext f cfg pol) (n + 2) (.new true q s)).1 = [.error ⟨0, 0, ⟨.unsupported, none⟩⟩] ∧
    (forLoop (recoveringNext f cfg pol) (n + 2) (.new true q s)).2.1 = true := ⟨rfl, rfl⟩

/-! ### C39 where reading resumes -/

/-- C39, for any reader: every gap is a stretch of the input with what its evidence says behind it: for a chain of update
records, the required number of plausible records in a row stand right behind the gap, and at most `maxScan` bytes were
skipped; for an aligned boundary, the skipped bytes are exactly one record whose body does not parse, and the counted
number of intact records follow; at the end of the stream nothing was confirmed, and at most five bytes more than the limit
were skipped. -/
theorem c39_gap (f : Keep σ) (q : σ) (cfg : RecoveryConfig) (pol : Pol) (s : Src) (n : Nat) (g : Gap)
    (hg : g ∈ gapsOf (forLoop (recoveringNext f cfg pol) n (.new false q s)).1) :
    ∃ pre skipped post, dataOf (toks s.evs) = pre ++ skipped ++ post ∧ skipped ≠ [] ∧ g.start = pre.length ∧
      g.stop = pre.length + skipped.length ∧ GapFits cfg g skipped post := by
  obtain ⟨es, d, rest, fin, h1, h2, h3, h4, _⟩ := c38_accounts f q cfg pol s n
  have : gapsOf (forLoop (recoveringNext f cfg pol) n (.new false q s)).1 = gapsOk es := by
    rw [h3, gapsOf_append, gapsOf_keep]
    rcases h4 with rfl | ⟨y, rfl, _⟩ <;> simp [gapsOf]
  rw [this] at hg
  obtain ⟨pre, sk, post, g1, g2, g3, g4, g5⟩ := accounts_gaps h2 g hg
  exact ⟨pre, sk, post, by rw [h1, g1], g2, by simpa using g3, by simpa using g4, g5⟩

/-- C39, for a file: a scan resumes at the first place that qualifies: between the start of the gap and its end there is no
chain of the required number of plausible records within the limit. A gap to the end of the stream reaches the end of the
file. A gap at an aligned boundary is exactly the damaged record. -/
theorem c39_first_partial (f : Keep σ) (q : σ) (cfg : RecoveryConfig) (pol : Pol) (s : Src) (b : Bytes) (hs : Delivers s b)
    (hi : NoInterrupts s) (n : Nat) (hn : b.length < n) (g : Gap)
    (hg : g ∈ gapsOf (forLoop (recoveringNext f cfg pol) n (.new false q s)).1) :
    (g.evidence = .alignedRecordChain → ∃ bad, Damaged g.cause bad ∧ (b.drop g.start).take (g.stop - g.start) = bad ∧
      Aligned (required cfg) (b.drop g.stop) g.confirmed) ∧
    (g.evidence ≠ .alignedRecordChain → ∀ i, g.start < i → i < g.stop → i ≤ g.start + cfg.maxScan →
      ∀ ev, ¬ ChainAt (required cfg) ev (b.drop i)) ∧
    (g.evidence = .endOfStream → g.stop = b.length) := by
  obtain ⟨es, k1, k2, _⟩ := c38_file_partial f q cfg pol s _ hs hi n hn
  rw [k2, gapsOf_applyKeep] at hg
  exact fileEvents_gaps k1 [] rfl g hg

/-! ### examples and counterexamples -/

/-- a legacy KEEPALIVE record. -/
def c38K (t : UInt8) : Bytes := [0, 0, 0, t, 0, 5, 0, 7, 0, 0, 0, 12, 0, 1, 10, 0, 0, 1, 0, 2, 10, 0, 0, 2]
/-- a header of an unassigned type. -/
def c38Junk : Bytes := [0, 0, 0, 9, 0, 99, 0, 0, 0, 0, 0, 2]
/-- a BGP4MP record of an unassigned subtype. -/
def c38Bad : Bytes := [0, 0, 0, 9, 0, 16, 0, 99, 0, 0, 0, 1, 7]
/-- a peer index table that ends within the address of its peer, which is reported as an I/O error. -/
def c38Io : Bytes := [0, 0, 0, 9, 0, 13, 0, 1, 0, 0, 0, 15, 0, 0, 0, 0, 0, 0, 0, 1, 0, 1, 1, 1, 1, 10, 0]

/-- the outcome in short: records by their time, gaps by start and end, errors by their offset. -/
def c38Short : List (Except RecoveryError (Event MrtRecord)) → List (Nat × Nat × Nat)
  | [] => []
  | .ok (.item m) :: l => (0, m.header.time.toNat, 0) :: c38Short l
  | .ok (.gap g) :: l => (1, g.start, g.stop) :: c38Short l
  | .error e :: l => (2, e.offset, 0) :: c38Short l

/-- junk, then three records: a gap of twelve bytes, and the records. -/
theorem c38_example : c38Short (forLoop (recoveringNext keepAll {} (fun n _ => n)) 99
    (.new false () ⟨[.data 0 (c38Junk.drop 1), .data 0 ((c38K 1).drop 1), .data 0 ((c38K 2).drop 1), .data 0 ((c38K 3).drop 1)], none⟩)).1 =
    [(1, 0, 12), (0, 1, 0), (0, 2, 0), (0, 3, 0)] := by decide +kernel

/-- C38 fails here: an `Interrupted` while recovery is scanning ends the iteration with an error, although the same bytes
without it are recovered (`c38_example`), and although everywhere else an interrupted read is simply repeated. -/
theorem c38_interrupted :
    let s : Src := ⟨[.data 0 (c38Junk.drop 1), .interrupted, .data 0 ((c38K 1).drop 1), .data 0 ((c38K 2).drop 1), .data 0 ((c38K 3).drop 1)], none⟩
    Delivers s (c38Junk ++ (c38K 1 ++ (c38K 2 ++ c38K 3))) ∧
    c38Short (forLoop (recoveringNext keepAll {} (fun n _ => n)) 99 (.new false () s)).1 = [(2, 0, 0)] :=
  ⟨⟨by decide, rfl⟩, by decide +kernel⟩

/-- C38 fails here: two damaged records, one of which is reported as an I/O error. When the other stands before it, the
iteration ends with an error, although the reader never failed and intact records follow; in the other order both are
skipped. -/
theorem c38_false_io :
    c38Short (forLoop (recoveringNext keepAll {} (fun n _ => n)) 99 (.new false () ⟨[.data 0 ((c38Bad ++ (c38Io ++
      (c38K 1 ++ (c38K 2 ++ c38K 3)))).drop 1)], none⟩)).1 = [(2, 0, 0)] ∧
    c38Short (forLoop (recoveringNext keepAll {} (fun n _ => n)) 99 (.new false () ⟨[.data 0 ((c38Io ++ (c38Bad ++
      (c38K 1 ++ (c38K 2 ++ c38K 3)))).drop 1)], none⟩)).1 = [(1, 0, 40), (0, 1, 0), (0, 2, 0), (0, 3, 0)] := by
  constructor <;> decide +kernel

/-- C39 fails here: with a limit of one byte, a gap of six bytes up to the end of the stream. -/
theorem c39_limit_exceeded :
    c38Short (forLoop (recoveringNext keepAll { maxScan := 1 } (fun n _ => n)) 99 (.new false () ⟨[.data 0 [1, 2, 3, 4, 5]], none⟩)).1 =
      [(1, 0, 6)] := by decide +kernel

/-- the hypotheses of `c38_clean` and `c38_isolated_partial`: such records are intact, and the other one is damaged. -/
theorem c38_intact : ∃ m, Intact m (c38K 1) := by
  cases h : Raw.parse ⟨⟨1, none, .bgp, 7, 12⟩, (c38K 1).take 12, (c38K 1).drop 12⟩ with
  | ok m =>
    refine ⟨m, ⟨⟨1, none, .bgp, 7, 12⟩, (c38K 1).take 12, (c38K 1).drop 12⟩, ⟨⟨by decide, by decide⟩, by decide, by decide, ?_⟩, h⟩
    rw [if_neg (by rintro ⟨h, _⟩; cases h)]; rfl
  | error e =>
    have : Raw.parses ⟨⟨1, none, .bgp, 7, 12⟩, (c38K 1).take 12, (c38K 1).drop 12⟩ = true := by decide +kernel
    unfold Raw.parses at this
    rw [h] at this
    cases this

theorem c38_damaged : Damaged .parse c38Bad := by
  refine ⟨⟨⟨9, none, .bgp4mp, 99, 1⟩, c38Bad.take 12, c38Bad.drop 12⟩, ⟨⟨by decide, by decide⟩, by decide, by decide, ?_⟩, by decide +kernel⟩
  rw [if_neg (by rintro ⟨h, _⟩; cases h)]; rfl

example : ∃ (s : Src) (m : MrtRecord), Delivers s (c38K 1 ++ (c38Bad ++ c38K 1)) ∧ NoInterrupts s ∧ Blocks Intact [m] (c38K 1) ∧
    Damaged .parse c38Bad := by
  obtain ⟨m, hm⟩ := c38_intact
  refine ⟨⟨[.data 0 ((c38K 1 ++ (c38Bad ++ c38K 1)).drop 1)], none⟩, m, ⟨by decide, rfl⟩, by simp [NoInterrupts], ?_, c38_damaged⟩
  have := Blocks.cons hm (Blocks.nil (R := Intact))
  rwa [List.append_nil] at this

/-! ### C64 elements -/

/-- C64: the recovering element iterator returns the elements of the records of the recovering record iterator that match
the filters, in order, with gaps and errors in their places. -/
theorem c64_elements (env : TextEnv) (fs : List (Filter env.Rx)) (cfg : RecoveryConfig) (pol : Pol) (text : Bool) (s : Src)
    (m : Nat) (hm : (toks s.evs).length + 1 < m) (n : Nat) :
    let out := expandEvents (fun e => e.matchFilters env fs) .new
      (forLoop (recoveringNext (filterKeep env []) cfg pol) m (.new text .new s)).1
    (forLoop (recoveringElemNext env fs cfg pol) n (.new text s)).1 = out.take n ∧
    ((forLoop (recoveringElemNext env fs cfg pol) n (.new text s)).2.1 = true ↔ out.length < n) := by
  have he : (forLoop (recoveringNext (filterKeep env []) cfg pol) m (.new text .new s)).2.1 = true := by
    cases text with
    | false =>
      obtain ⟨_, _, _, _, _, _, _, _, h⟩ := c38_accounts (filterKeep env []) .new cfg pol s m
      exact h hm
    | true =>
      obtain ⟨m, rfl⟩ : ∃ k, m = k + 2 := ⟨m - 2, by omega⟩
      rfl
  have := recoveringElems_loop env fs cfg pol n m (.new text s) he
  simpa [elemsToCome, RecoveringElems.new] using this

/-- C64: without filters on a clean stream these are the elements of the records. -/
example (env : TextEnv) (cfg : RecoveryConfig) (pol : Pol) (s : Src) (b : Bytes) (ms : List MrtRecord)
    (hs : Delivers s b) (hb : Blocks Intact ms b) (n m : Nat) (hm : (toks s.evs).length + 1 < m) (hn : ms.length < m) :
    (forLoop (recoveringElemNext env [] cfg pol) n (.new false s)).1 =
      (expandEvents (fun _ => true) .new ((keptRecords (filterKeep env []) .new ms).map fun r => .ok (.item r))).take n := by
  rw [(c64_elements env [] cfg pol false s m hm n).1, (c38_clean (filterKeep env []) .new cfg pol pol s b ms hs hb m hn).1]
  rfl

/-- C24, for elements with recovery. -/
theorem c24_recovering_elements_partial (env : TextEnv) (fs : List (Filter env.Rx)) (cfg : RecoveryConfig) (pol pol' : Pol)
    (text : Bool) (s s' : Src) (hs : SameDelivery s s') (hi : NoInterrupts s) (hi' : NoInterrupts s') (n : Nat) :
    (forLoop (recoveringElemNext env fs cfg pol) n (.new text s)).1 =
      (forLoop (recoveringElemNext env fs cfg pol') n (.new text s')).1 := by
  rw [(c64_elements env fs cfg pol text s ((toks s.evs).length + 2) (by omega) n).1,
    (c64_elements env fs cfg pol' text s' ((toks s.evs).length + 2) (by rw [hs.1]; omega) n).1,
    (c24_recovering_partial (filterKeep env []) .new cfg pol pol' text s s' hs hi hi' ((toks s.evs).length + 2)).1]

/-- the hypotheses of `c24_recovering_partial`: one read for everything, and one byte at a time; then an error. -/
example : ∃ s s' : Src, SameDelivery s s' ∧ NoInterrupts s ∧ NoInterrupts s' ∧ s ≠ s' ∧ dataOf (toks s.evs) = c38Junk :=
  ⟨⟨[.data 0 (c38Junk.drop 1), .fail false], none⟩, ⟨(c38Junk.map fun x => .data x []) ++ [.fail false], none⟩,
    ⟨by decide, rfl⟩, by simp [NoInterrupts], by simp [NoInterrupts], by decide, by decide⟩

end Verif.Props
