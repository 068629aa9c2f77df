import Verif.Spec.Shared
import Verif.Props.RawRuns
import Verif.Props.Route
/-
C97: one elementor for many threads.
-/
namespace Verif.Props
open Spec

/-! ### conversion without history -/

theorem table_iff (r : MrtRecord) (t : PeerIndexTable) : r.table = some t ↔ r.message = .tableDumpV2 (.peerIndexTable t) := by
  unfold MrtRecord.table
  split
  · next t' h => rw [h]; constructor <;> intro h <;> cases h <;> rfl
  · next h => exact ⟨(fun h => by cases h), fun h' => absurd h' (h t)⟩

theorem table_none (r : MrtRecord) : r.table = none ↔ ¬ IsTable r := by
  constructor
  · rintro h ⟨t, ht⟩
    rw [(table_iff r t).mpr ht] at h
    cases h
  · intro h
    cases hr : r.table with
    | none => rfl
    | some t => exact absurd ⟨t, (table_iff r t).mp hr⟩ h

theorem convert_other (el : Elementor) {r : MrtRecord} (h : ¬ IsTable r) : (el.recordToElems r).1 = el.convert r := by
  unfold Elementor.recordToElems Elementor.convert
  split
  · next t ht => exact absurd ⟨t, ht⟩ h
  · cases el.recordIter r <;> rfl

theorem elemsFrom_convert (rs : List MrtRecord) : ∀ (hist : List MrtRecord), (∀ r ∈ rs, ¬ IsTable r) →
    elemsFrom hist rs = rs.flatMap (after hist).convert := by
  induction rs with
  | nil => intro hist _; rfl
  | cons r rs ih =>
    intro hist h
    have hr := h r (List.mem_cons_self ..)
    rw [elemsFrom, ih _ (fun x hx => h x (List.mem_cons_of_mem _ hx)), after_append, recordToElems_other _ hr, List.flatMap_cons]
    congr 1
    exact convert_other (after hist) hr

/-- the elements of records of which only the first may be a table. -/
theorem elemsFrom_shared {rs rest : List MrtRecord} (h : AfterTable IsTable rs rest) (hn : ∀ r ∈ rest, ¬ IsTable r) :
    elemsFrom [] rs = rest.flatMap (match rs.head?.bind MrtRecord.table with | some t => Elementor.withPeerTable t | none => .new).convert := by
  rcases h with ⟨r, ⟨t, ht⟩, rfl⟩ | ⟨rfl, h⟩
  · rw [elemsFrom, elemsFrom_convert _ _ hn]
    have h1 : elemsAfter [] r = [] := by
      show (Elementor.new.recordToElems r).1 = []
      unfold Elementor.recordToElems
      rw [ht]
    have h2 : after ([] ++ [r]) = Elementor.withPeerTable t := by
      show (Elementor.new.recordToElems r).2 = _
      unfold Elementor.recordToElems Elementor.setPeerTable
      rw [ht]
      rfl
    rw [h1, h2, List.nil_append, List.head?_cons, Option.bind_some, (table_iff r t).mpr ht]
  · rw [elemsFrom_convert _ _ hn]
    have : rest.head?.bind MrtRecord.table = none := by
      cases rest with
      | nil => rfl
      | cons r rs => exact (table_none r).mpr (h r rfl)
    rw [this]
    rfl

/-! ### peeking -/

theorem gives_pure {next : σ → Option α × σ} {s : σ} {xs : List α} :
    Gives (fun s => (.ok (next s).1, (next s).2)) s xs → Gives (peekStep next) ⟨s, none⟩ xs := by
  intro h
  induction h with
  | done h1 =>
    refine .done ?_
    simp only [peekStep, Peekable.next] at h1 ⊢
    exact h1
  | item h1 _ ih =>
    refine .item ?_ ih
    simp only [peekStep, Peekable.next] at h1 ⊢
    exact h1

/-- after a look at the first item. -/
theorem gives_peeked {next : σ → Option α × σ} {s : σ} {xs : List α} (h : Gives (fun s => (.ok (next s).1, (next s).2)) s xs) :
    (next s).1 = xs.head? ∧ Gives (peekStep next) ⟨(next s).2, some (next s).1⟩ xs ∧
      ∀ x rest, xs = x :: rest → Gives (peekStep next) ⟨(next s).2, none⟩ rest := by
  cases h with
  | done h1 =>
    simp only [Except.ok.injEq] at h1
    exact ⟨h1, .done (by simp only [peekStep, Peekable.next, h1]), fun _ _ h => by cases h⟩
  | item h1 h2 =>
    simp only [Except.ok.injEq] at h1
    refine ⟨h1, .item (by simp only [peekStep, Peekable.next, h1]) (gives_pure h2), fun _ _ h => ?_⟩
    cases h
    exact gives_pure h2

/-! ### records -/

theorem kept_elems {P : BgpElem → Prop} {f : BgpElem → Bool} (hf : ∀ e, f e = true ↔ P e) {hist all out : List MrtRecord}
    (h : Kept P hist all out) : ∀ hist', after hist' = after hist → (elemsFrom hist all).filter f = (elemsFrom hist' out).filter f := by
  induction h with
  | nil => intro hist' _; rfl
  | @keep hist r rs out _ _ ih =>
    intro hist' hh
    rw [elemsFrom, elemsFrom, List.filter_append, List.filter_append, ih (hist' ++ [r]) (by rw [after_append, after_append, hh])]
    congr 2
    show ((after hist).recordToElems r).1 = ((after hist').recordToElems r).1
    rw [hh]
  | @drop hist r rs out hr hn _ ih =>
    intro hist' hh
    rw [elemsFrom, List.filter_append, ih hist' (by rw [after_append, recordToElems_other _ hr, hh])]
    rw [List.filter_eq_nil_iff.mpr (fun e he => by rw [hf]; exact hn e he), List.nil_append]

/-- the record iterator gives the records that filtering leaves. -/
theorem records_give (pol : Pol) (p : Parser env) (w : World) (s : Src) (hs : p.input = .mrt s) :
    ∃ out, Gives (recordStep pol) (p.records w) out ∧
      out = (forLoop (defaultIter (filterKeep env p.filters) p.coreDump pol) ((toks s.evs).length + 1) (Elementor.new, s)).1 := by
  have key : ∀ (n : Nat) (it : RecordRun env) (s : Src), it.parser.input = .mrt s → (toks s.evs).length < n →
      Gives (recordStep pol) it (forLoop (defaultIter (filterKeep env it.parser.filters) it.parser.coreDump pol) n (it.elementor, s)).1 := by
    intro n
    induction n with
    | zero => intro it s _ h; omega
    | succ n ih =>
      intro it s hs hn
      obtain ⟨it', g1, g2, g3, g4, g5⟩ := next_erase pol (s.size + 1) it s hs
      have hnx : it.next pol = ((defaultIter (filterKeep env it.parser.filters) it.parser.coreDump pol (it.elementor, s)).1, it') := by
        unfold RecordRun.next
        rw [hs]
        simp only [Input.size, g1, defaultIter]
      obtain ⟨s', k1, k2⟩ := next_progress pol ((toks s.evs).length + 1) it s hs
      rw [← next_eq_loop pol it s hs _ (Nat.lt_succ_self _)] at k1 k2
      rw [forLoop]
      rcases hd : defaultIter (filterKeep env it.parser.filters) it.parser.coreDump pol (it.elementor, s) with ⟨x, q, s1⟩
      have hd' : defaultNext (filterKeep env it.parser.filters) it.parser.coreDump pol (s.size + 1) (it.elementor, s) = (x, q, s1) := hd
      rw [hd] at hnx
      rw [hd'] at g2 g3
      rw [hnx] at k1 k2
      cases x with
      | none => exact .done (by rw [recordStep, hnx])
      | some r =>
        simp only
        refine .item (by rw [recordStep, hnx]) ?_
        rw [recordStep, hnx]
        have e1 : s' = s1 := by
          have := k1.symm.trans g2
          injection this
        subst e1
        have := ih it' s' g2 (by have := k2 r rfl; omega)
        rw [g4, g5, g3] at this
        exact this
  exact ⟨_, key _ (p.records w) s hs (Nat.lt_succ_self _), rfl⟩

/-- C97, for records, whatever the reader does and whatever the settings: what `into_elementor_and_record_iter` hands out is the
rest of the records of the record iterator, without a table in front; and if there is no other table among them, then converting each
of them with the elementor, in any order and by any thread, and putting the results together in the order of the records, gives the
elements of the element iterator once the filters are applied to them. Missing from the full property: more tables, or a table that is not in front (`c97_violation_second_table`,
`c97_violation_late_table`). -/
theorem c97_records_partial (denv : DumpEnv) (pol : Pol) (p : Parser env) (w : World) (s : Src) (hs : p.input = .mrt s) :
    ∃ out rest, Gives (recordStep pol) (p.records w) out ∧ Gives (peekStep (RecordRun.next pol)) (p.elementorAndRecords pol w).2 rest ∧
      AfterTable IsTable out rest ∧
      ((∀ r ∈ rest, ¬ IsTable r) → Gives (ElemRun.next denv pol) (p.elems w)
        ((rest.flatMap (p.elementorAndRecords pol w).1.convert).filter fun e => p.filters.all (e.matchFilter env))) := by
  obtain ⟨out, ho, hout⟩ := records_give pol p w s hs
  obtain ⟨k1, k2⟩ := c37_records env p.filters p.coreDump pol pol s _ _ (Nat.lt_succ_self _) (Nat.lt_succ_self _)
  rw [← hout] at k1 k2
  have hel : Gives (ElemRun.next denv pol) (p.elems w) ((elemsFrom [] out).filter fun e => p.filters.all (e.matchFilter env)) := by
    rw [c90_elems denv pol pol p w s hs _ (Nat.lt_succ_self _)]
    by_cases hf : p.filters = []
    · rw [k2 hf]
    · exact (kept_elems (f := fun e => p.filters.all (e.matchFilter env)) (fun e => Iff.rfl) (k1 hf) [] rfl).symm
  obtain ⟨g1, g2, g3⟩ := gives_peeked (next := RecordRun.next pol) ho
  have hpk : (Peekable.new (p.records w)).peek (RecordRun.next pol) =
      (((p.records w).next pol).1, ⟨((p.records w).next pol).2, some ((p.records w).next pol).1⟩) := rfl
  have main : ∃ rest, Gives (peekStep (RecordRun.next pol)) (p.elementorAndRecords pol w).2 rest ∧ AfterTable IsTable out rest ∧
      (p.elementorAndRecords pol w).1 = (match out.head?.bind MrtRecord.table with | some t => Elementor.withPeerTable t | none => .new) := by
    unfold Parser.elementorAndRecords
    rw [hpk]
    simp only [g1] at g2 ⊢
    cases out with
    | nil => exact ⟨[], g2, .inr ⟨rfl, fun _ h => by cases h⟩, rfl⟩
    | cons r rest =>
      simp only [List.head?_cons, Option.bind_some]
      cases ht : r.table with
      | none => exact ⟨_, g2, .inr ⟨rfl, fun x hx => by cases hx; exact (table_none r).mp ht⟩, rfl⟩
      | some t => exact ⟨rest, g3 r rest rfl, .inl ⟨r, ⟨t, (table_iff r t).mp ht⟩, rfl⟩, rfl⟩
  obtain ⟨rest, m1, m2, m3⟩ := main
  refine ⟨out, rest, ho, m1, m2, fun hn => ?_⟩
  rw [m3, ← elemsFrom_shared m2 hn]
  exact hel

/-! ### raw records -/

theorem recordsOf_ok {raw : Raw} {r : MrtRecord} (h : raw.parse = .ok r) : recordsOf raw = [r] := by rw [recordsOf, h]
theorem recordsOf_error {raw : Raw} {e : Err} (h : raw.parse = .error e) : recordsOf raw = [] := by rw [recordsOf, h]

theorem flatMap_recordsOf (el : Elementor) (rs : List Raw) :
    (rs.flatMap recordsOf).flatMap el.convert = rs.flatMap el.convertRaw := by
  induction rs with
  | nil => rfl
  | cons raw rs ih =>
    rw [List.flatMap_cons, List.flatMap_append, ih, List.flatMap_cons]
    congr 1
    unfold recordsOf Elementor.convertRaw
    cases raw.parse <;> simp

theorem nextT_nil : ∃ e t', nextT none [] = (.error e, t') ∧ e.error = .eofExpected := by
  refine ⟨_, _, rfl, rfl⟩

/-- default iteration over a file of records. -/
theorem recsD_file {rs : List Raw} {b : Bytes} (hb : Blocks Frame rs b) (cd : Bool) :
    RecsD cd none (byteToks b) (((lookedAt cd rs).flatMap recordsOf).map .ok) := by
  induction hb with
  | nil =>
    obtain ⟨e, t', h1, h2⟩ := nextT_nil
    exact .stop h1 (by rw [h2]; rfl)
  | @cons raw rs b0 rest hf _ ih =>
    have hc : chunkT none (byteToks (b0 ++ rest)) = (.ok raw, byteToks rest) := by
      rw [byteToks_append, chunkT_complete _ hf]
    rw [lookedAt]
    cases hp : raw.parse with
    | ok r =>
      have hl : ¬ LastRead cd raw := fun ⟨e, he, _⟩ => by rw [hp] at he; cases he
      rw [if_neg hl, List.flatMap_cons, recordsOf_ok hp]
      exact .ok (by rw [nextT, hc]; dsimp only; rw [hp]) ih
    | error e =>
      have hn : nextT none (byteToks (b0 ++ rest)) = (.error ⟨e, some raw.bytes⟩, byteToks rest) := by
        rw [nextT, hc]; dsimp only; rw [hp]
      by_cases hl : LastRead cd raw
      · obtain ⟨e', he, hf⟩ := id hl
        rw [hp] at he
        cases he
        rw [if_pos hl, List.flatMap_cons, recordsOf_error hp]
        exact .stop hn (by cases e <;> simp_all [goesOn, Fatal])
      · rw [if_neg hl, List.flatMap_cons, recordsOf_error hp]
        refine .skip hn ?_ ih
        cases hg : goesOn cd e with
        | true => rfl
        | false => exact absurd ⟨e, hp, by cases e <;> simp_all [goesOn, Fatal]⟩ hl

/-- the elements of a file of records. -/
theorem file_elems (denv : DumpEnv) (pol : Pol) {rs : List Raw} {b : Bytes} (hb : Blocks Frame rs b) (p : Parser env) (w : World)
    (s : Src) (hs : p.input = .mrt s) (hd : Delivers s b) :
    Gives (ElemRun.next denv pol) (p.elems w)
      ((elemsFrom [] ((lookedAt p.coreDump rs).flatMap recordsOf)).filter fun e => p.filters.all (e.matchFilter env)) := by
  rw [c90_elems denv pol pol p w s hs _ (Nat.lt_succ_self _)]
  have h := recsD_file hb p.coreDump
  rw [← hd.1, ← hd.2] at h
  have := (all_records p.coreDump pol s _ (Nat.lt_succ_self _) _ h).1
  have inj : ∀ a b : List MrtRecord, a.map (Except.ok (ε := RecErr)) = b.map .ok → a = b := by
    intro a
    induction a with
    | nil => intro b h; cases b with | nil => rfl | cons _ _ => cases h
    | cons x a ih =>
      intro b h
      cases b with
      | nil => cases h
      | cons y b => simp only [List.map_cons, List.cons.injEq, Except.ok.injEq] at h; rw [h.1, ih b h.2]
  rw [inj _ _ this]

theorem lookedAt_all {cd : Bool} : ∀ {rs : List Raw}, (∀ r ∈ rs, ¬ LastRead cd r) → lookedAt cd rs = rs
  | [], _ => rfl
  | r :: rs, h => by
    rw [lookedAt, if_neg (h r (List.mem_cons_self ..)), lookedAt_all (fun x hx => h x (List.mem_cons_of_mem _ hx))]

/-- the elements of raw records of which only the first may be a table. -/
theorem elemsFrom_sharedRaw {rs rest : List Raw} (h : AfterTable RawTable rs rest) (hn : ∀ r ∈ rest, ¬ RawTable r) (el : Elementor)
    (hel : el = match rs.head?.bind fun r => r.parse.toOption.bind MrtRecord.table with | some t => Elementor.withPeerTable t | none => .new) :
    elemsFrom [] (rs.flatMap recordsOf) = rest.flatMap el.convertRaw := by
  have hn' : ∀ r ∈ rest.flatMap recordsOf, ¬ IsTable r := by
    intro r hr ht
    obtain ⟨raw, h1, h2⟩ := List.mem_flatMap.mp hr
    unfold recordsOf at h2
    split at h2
    · next m hm => simp only [List.mem_singleton] at h2; subst h2; exact hn raw h1 ⟨_, hm, ht⟩
    · cases h2
  rw [← flatMap_recordsOf]
  rcases h with ⟨raw, ⟨m, hm, ht⟩, rfl⟩ | ⟨rfl, h⟩
  · rw [List.flatMap_cons, recordsOf_ok hm, List.singleton_append, elemsFrom_shared (.inl ⟨m, ht, rfl⟩) hn', hel]
    simp [hm, Except.toOption]
  · have e : rest.head?.bind (fun r => r.parse.toOption.bind MrtRecord.table) = none := by
      cases rest with
      | nil => rfl
      | cons r rs =>
        simp only [List.head?_cons, Option.bind_some]
        cases hp : r.parse with
        | error e => rfl
        | ok m => exact (table_none m).mpr fun ht => h r rfl ⟨m, hp, ht⟩
    rw [e] at hel
    rw [hel, elemsFrom_convert _ _ hn']
    rfl

/-- what `into_elementor_and_raw_record_iter` hands out. -/
theorem raws_shared (pol : Pol) {rs : List Raw} (p : Parser env) (w : World) (hg : Gives (rawStep pol) (p.raws w) rs) :
    ∃ rest, Gives (peekStep (RawRun.next pol)) (p.elementorAndRaws pol w).2 rest ∧ AfterTable RawTable rs rest ∧
      (p.elementorAndRaws pol w).1 = (match rs.head?.bind fun r => r.parse.toOption.bind MrtRecord.table with
        | some t => Elementor.withPeerTable t | none => .new) := by
  obtain ⟨g1, g2, g3⟩ := gives_peeked (next := RawRun.next pol) hg
  have hpk : (Peekable.new (p.raws w)).peek (RawRun.next pol) =
      (((p.raws w).next pol).1, ⟨((p.raws w).next pol).2, some ((p.raws w).next pol).1⟩) := rfl
  unfold Parser.elementorAndRaws
  rw [hpk]
  simp only [g1] at g2 ⊢
  cases rs with
  | nil => exact ⟨[], g2, .inr ⟨rfl, fun _ h => by cases h⟩, rfl⟩
  | cons r rest =>
    simp only [List.head?_cons, Option.bind_some]
    cases hp : r.parse with
    | error e => exact ⟨_, g2, .inr ⟨rfl, fun x hx => by cases hx; rintro ⟨m, hm, _⟩; rw [hp] at hm; cases hm⟩, rfl⟩
    | ok m =>
      simp only [Except.toOption, Option.bind_some]
      cases ht : m.table with
      | none =>
        exact ⟨_, g2, .inr ⟨rfl, fun x hx => by cases hx; rintro ⟨m', hm, h⟩; rw [hp] at hm; cases hm; exact (table_none m).mp ht h⟩, rfl⟩
      | some t => exact ⟨rest, g3 r rest rfl, .inl ⟨r, ⟨m, hp, t, (table_iff m t).mp ht⟩, rfl⟩, rfl⟩

/-- C97, for raw records: on a file of records, none of which ends the iteration and of which only the first may be a table, what
`into_elementor_and_raw_record_iter` hands out is the rest of the file, and parsing and converting each record with the elementor, in
any order and by any thread, gives the elements of the element iterator once the filters are applied to them. Missing from the full property: as
in `c97_records_partial`. -/
theorem c97_raw_partial (denv : DumpEnv) (pol : Pol) {rs : List Raw} {b : Bytes} (hb : Blocks Frame rs b) (p : Parser env) (w : World)
    (s : Src) (hs : p.input = .mrt s) (hd : Delivers s b) (hl : ∀ r ∈ rs, ¬ LastRead p.coreDump r) (ht : ∀ r ∈ rs.tail, ¬ RawTable r) :
    ∃ rest, Gives (peekStep (RawRun.next pol)) (p.elementorAndRaws pol w).2 rest ∧ AfterTable RawTable rs rest ∧
      Gives (ElemRun.next denv pol) (p.elems w)
        ((rest.flatMap (p.elementorAndRaws pol w).1.convertRaw).filter fun e => p.filters.all (e.matchFilter env)) := by
  obtain ⟨rest, m1, m2, m3⟩ := raws_shared pol p w (c93_raw hb env pol p w s hs hd).1
  refine ⟨rest, m1, m2, ?_⟩
  have hn : ∀ r ∈ rest, ¬ RawTable r := by
    rcases m2 with ⟨x, _, rfl⟩ | ⟨rfl, h⟩
    · exact ht
    · intro r hr
      cases rest with
      | nil => cases hr
      | cons y rest =>
        rcases List.mem_cons.mp hr with rfl | hr
        · exact h _ rfl
        · exact ht r hr
  rw [← elemsFrom_sharedRaw m2 hn _ m3, ← lookedAt_all hl]
  rw [lookedAt_all hl]
  have := file_elems denv pol hb p w s hs hd
  rwa [lookedAt_all hl] at this

/-! ### threads -/

/-- an iterator over a file with these records left; it stays at the end once it is there. -/
def RawsLeft (it : RawRun env) (rest : List Raw) : Prop := ∃ s b, it.parser.input = .mrt s ∧ Delivers s b ∧ Blocks Frame rest b

theorem rawsLeft_cons {pol : Pol} {it : RawRun env} {raw : Raw} {rest : List Raw} (h : RawsLeft it (raw :: rest)) :
    (it.next pol).1 = some raw ∧ RawsLeft (it.next pol).2 rest := by
  obtain ⟨s, b, h1, h2, h3⟩ := h
  cases h3 with
  | @cons _ _ b0 b1 hf hb =>
    obtain ⟨s1, g1, g2, g3⟩ := c21_record_read pol s raw b0 (byteToks b1) hf (by rw [h2.1, byteToks_append])
    rw [raw_next_ok pol it s s1 h1 g1]
    exact ⟨rfl, s1, b1, rfl, ⟨g2, g3.trans h2.2⟩, hb⟩

theorem rawsLeft_nil {pol : Pol} {it : RawRun env} (h : RawsLeft it []) : (it.next pol).1 = none ∧ RawsLeft (it.next pol).2 [] := by
  obtain ⟨s, b, h1, h2, h3⟩ := h
  cases h3
  obtain ⟨s1, k1, k2, k3⟩ := chunk_eq pol s
  rw [h2.1, h2.2] at k1 k2
  have hn := raw_next_stop pol it s s1 h1 k1 (by rfl)
  rw [hn]
  exact ⟨rfl, s1, [], rfl, ⟨k2, k3.trans h2.2⟩, .nil⟩

/-- the same with an item that was looked at. -/
def PeekLeft (it : Peekable (RawRun env) Raw) (rest : List Raw) : Prop :=
  (it.peeked = none ∧ RawsLeft it.inner rest) ∨
  (∃ raw rest', it.peeked = some (some raw) ∧ rest = raw :: rest' ∧ RawsLeft it.inner rest') ∨
  (it.peeked = some none ∧ rest = [] ∧ RawsLeft it.inner [])

theorem peekLeft_cons {pol : Pol} {it : Peekable (RawRun env) Raw} {raw : Raw} {rest : List Raw} (h : PeekLeft it (raw :: rest)) :
    ∃ it', it.next (RawRun.next pol) = (some raw, it') ∧ PeekLeft it' rest := by
  rcases h with ⟨h1, h2⟩ | ⟨x, r, h1, h2, h3⟩ | ⟨_, h2, _⟩
  · obtain ⟨g1, g2⟩ := rawsLeft_cons (pol := pol) h2
    exact ⟨⟨(RawRun.next pol it.inner).2, none⟩, by simp only [Peekable.next, h1, g1], .inl ⟨rfl, g2⟩⟩
  · cases h2
    exact ⟨⟨it.inner, none⟩, by simp only [Peekable.next, h1], .inl ⟨rfl, h3⟩⟩
  · cases h2

theorem peekLeft_nil {pol : Pol} {it : Peekable (RawRun env) Raw} (h : PeekLeft it []) :
    ∃ it', it.next (RawRun.next pol) = (none, it') ∧ PeekLeft it' [] := by
  rcases h with ⟨h1, h2⟩ | ⟨x, r, h1, h2, h3⟩ | ⟨h1, _, h3⟩
  · obtain ⟨g1, g2⟩ := rawsLeft_nil (pol := pol) h2
    exact ⟨⟨(RawRun.next pol it.inner).2, none⟩, by simp only [Peekable.next, h1, g1], .inl ⟨rfl, g2⟩⟩
  · cases h2
  · exact ⟨⟨it.inner, none⟩, by simp only [Peekable.next, h1], .inl ⟨rfl, h3⟩⟩

theorem takeN_spec {pol : Pol} : ∀ (n : Nat) {it : Peekable (RawRun env) Raw} {rest : List Raw}, PeekLeft it rest →
    (it.takeN (RawRun.next pol) n).1 = rest.take n ∧ PeekLeft (it.takeN (RawRun.next pol) n).2 (rest.drop n)
  | 0, _, _, h => ⟨rfl, h⟩
  | n + 1, it, [], h => by
    obtain ⟨it', g1, g2⟩ := peekLeft_nil (pol := pol) h
    rw [Peekable.takeN, g1]
    exact ⟨rfl, g2⟩
  | n + 1, it, raw :: rest, h => by
    obtain ⟨it', g1, g2⟩ := peekLeft_cons (pol := pol) h
    obtain ⟨k1, k2⟩ := takeN_spec (pol := pol) n g2
    rw [Peekable.takeN, g1]
    exact ⟨congrArg (raw :: ·) k1, k2⟩

/-- the elements that a thread has made and will make of what it has taken. -/
def _root_.Verif.Worker.due (el : Elementor) (w : Worker) : List BgpElem := w.made ++ w.hand.flatMap el.convertRaw

/-- what holds at all times, `rs` being the records that the threads share. -/
structure PoolOk (el : Elementor) (rs : List Raw) (p : Pool env) : Prop where
  split : ∃ taken rest, rs = taken ++ rest ∧ PeekLeft p.records rest ∧
    (p.workers.flatMap (Worker.due el)).Perm (taken.flatMap el.convertRaw) ∧
    (∀ w ∈ p.workers, (w.due el).Sublist (taken.flatMap el.convertRaw)) ∧ ((∃ w ∈ p.workers, w.left = true) → rest = [])
  gone : ∀ w ∈ p.workers, w.left = true → w.hand = []

theorem poolOk_start (el : Elementor) {rs : List Raw} {it : Peekable (RawRun env) Raw} (h : PeekLeft it rs) (n : Nat) :
    PoolOk el rs (Pool.start it n) := by
  refine ⟨⟨[], rs, rfl, h, ?_, ?_, ?_⟩, ?_⟩
  · have : (List.replicate n (⟨[], [], false⟩ : Worker)).flatMap (Worker.due el) = [] := by
      rw [List.flatMap_eq_nil_iff]
      intro w hw
      rw [List.eq_of_mem_replicate hw]
      rfl
    rw [Pool.start, this]
    exact .refl _
  · intro w hw
    rw [List.eq_of_mem_replicate hw]
    exact List.Sublist.refl _
  · rintro ⟨w, hw, h⟩
    rw [List.eq_of_mem_replicate hw] at h
    cases h
  · intro w hw h
    rw [List.eq_of_mem_replicate hw] at h
    cases h

theorem poolOk_step {pol : Pol} {el : Elementor} {size : Nat} (hz : 0 < size) {rs : List Raw} {p q : Pool env} (h : PoolOk el rs p)
    (hq : Pool.Step pol el size p q) : PoolOk el rs q := by
  obtain ⟨⟨taken, rest, h1, h2, h3, h4, h5⟩, h6⟩ := h
  cases hq with
  | @take it ws made ws' =>
    obtain ⟨g1, g2⟩ := takeN_spec (pol := pol) size h2
    simp only at g1 g2 h2 h3 h4 h5 h6
    rw [g1]
    have hdue : Worker.due el ⟨rest.take size, made, (rest.take size).isEmpty⟩ = made ++ (rest.take size).flatMap el.convertRaw := rfl
    have hmade : Worker.due el ⟨[], made, false⟩ = made := by simp [Worker.due]
    refine ⟨⟨taken ++ rest.take size, rest.drop size, by rw [h1, List.append_assoc, List.take_append_drop], g2, ?_, ?_, ?_⟩, ?_⟩
    · simp only [List.flatMap_append, List.flatMap_cons, hdue, hmade] at h3 ⊢
      have e : (ws.flatMap (Worker.due el) ++ (made ++ (rest.take size).flatMap el.convertRaw ++ ws'.flatMap (Worker.due el))).Perm
          (ws.flatMap (Worker.due el) ++ (made ++ ws'.flatMap (Worker.due el)) ++ (rest.take size).flatMap el.convertRaw) := by
        rw [List.append_assoc, List.append_assoc (List.flatMap _ ws), List.append_assoc made]
        exact (List.perm_append_comm.append_left made).append_left _
      exact e.trans (h3.append_right _)
    · intro w hw
      rw [List.flatMap_append]
      simp only [List.mem_append, List.mem_cons] at hw
      have other : ∀ x, x ∈ ws ∨ x ∈ ws' → (x.due el).Sublist (taken.flatMap el.convertRaw) := by
        intro x hx
        refine h4 x ?_
        simp only [List.mem_append, List.mem_cons]
        rcases hx with hx | hx
        · exact .inl hx
        · exact .inr (.inr hx)
      rcases hw with hw | rfl | hw
      · exact (other w (.inl hw)).trans (List.sublist_append_left _ _)
      · rw [hdue]
        have := h4 ⟨[], made, false⟩ (by simp)
        rw [hmade] at this
        exact this.append (List.Sublist.refl _)
      · exact (other w (.inr hw)).trans (List.sublist_append_left _ _)
    · rintro ⟨w, hw, hl⟩
      simp only [List.mem_append, List.mem_cons] at hw
      have done : rest = [] → rest.drop size = [] := by rintro rfl; exact List.drop_nil
      rcases hw with hw | rfl | hw
      · exact done (h5 ⟨w, by simp [hw], hl⟩)
      · refine done ?_
        cases rest with
        | nil => rfl
        | cons r rest =>
          cases size with
          | zero => omega
          | succ n => cases hl
      · exact done (h5 ⟨w, by simp [hw], hl⟩)
    · intro w hw hl
      simp only [List.mem_append, List.mem_cons] at hw
      rcases hw with hw | rfl | hw
      · exact h6 w (by simp [hw]) hl
      · exact List.isEmpty_iff.mp hl
      · exact h6 w (by simp [hw]) hl
  | @convert it ws raw hand made left ws' =>
    simp only at h2 h3 h4 h5 h6
    have hdue : Worker.due el ⟨hand, made ++ el.convertRaw raw, left⟩ = Worker.due el ⟨raw :: hand, made, left⟩ := by
      simp [Worker.due]
    have hmem : ∀ w, w ∈ ws ++ ⟨hand, made ++ el.convertRaw raw, left⟩ :: ws' →
        (w = ⟨hand, made ++ el.convertRaw raw, left⟩ ∨ w ∈ ws ++ ⟨raw :: hand, made, left⟩ :: ws') := by
      intro w hw
      simp only [List.mem_append, List.mem_cons] at hw ⊢
      rcases hw with hw | hw | hw
      · exact .inr (.inl hw)
      · exact .inl hw
      · exact .inr (.inr (.inr hw))
    refine ⟨⟨taken, rest, h1, h2, ?_, ?_, ?_⟩, ?_⟩
    · simp only [List.flatMap_append, List.flatMap_cons, hdue] at h3 ⊢
      exact h3
    · intro w hw
      rcases hmem w hw with rfl | hw
      · rw [hdue]; exact h4 _ (by simp)
      · exact h4 w hw
    · rintro ⟨w, hw, hl⟩
      rcases hmem w hw with rfl | hw
      · exact h5 ⟨⟨raw :: hand, made, left⟩, by simp, hl⟩
      · exact h5 ⟨w, hw, hl⟩
    · intro w hw hl
      rcases hmem w hw with rfl | hw
      · cases h6 ⟨raw :: hand, made, left⟩ (by simp) hl
      · exact h6 w hw hl

/-- the steps that are left, at most. -/
def _root_.Verif.Pool.work (rest : List Raw) (ws : List Worker) : Nat :=
  2 * rest.length + (ws.map fun w => w.hand.length + if w.left then 0 else 1).sum

theorem work_step {pol : Pol} {el : Elementor} {size : Nat} (hz : 0 < size) {p q : Pool env} (hq : Pool.Step pol el size p q)
    {rest : List Raw} (h : PeekLeft p.records rest) : ∃ rest', PeekLeft q.records rest' ∧ Pool.work rest' q.workers < Pool.work rest p.workers := by
  cases hq with
  | @take it ws made ws' =>
    obtain ⟨g1, g2⟩ := takeN_spec (pol := pol) size h
    simp only at g1 g2
    rw [g1]
    refine ⟨_, g2, ?_⟩
    simp only [Pool.work, List.map_append, List.map_cons, List.sum_append, List.sum_cons, List.length_drop, List.length_take, List.length_nil]
    cases rest with
    | nil => simp
    | cons r rest =>
      have : (List.take size (r :: rest)).isEmpty = false := by
        cases size with
        | zero => omega
        | succ n => rfl
      simp only [this, List.length_cons]
      simp only [Bool.false_eq_true, if_false]
      omega
  | @convert it ws raw hand made left ws' =>
    refine ⟨rest, h, ?_⟩
    simp only [Pool.work, List.map_append, List.map_cons, List.sum_append, List.sum_cons, List.length_cons]
    omega

theorem runs_ok {pol : Pol} {el : Elementor} {size : Nat} (hz : 0 < size) {rs : List Raw} {n : Nat} {p q : Pool env}
    (hr : Runs pol el size n p q) : PoolOk el rs p → ∀ rest, PeekLeft p.records rest → PoolOk el rs q ∧
      ∃ rest', PeekLeft q.records rest' ∧ n + Pool.work rest' q.workers ≤ Pool.work rest p.workers := by
  induction hr with
  | refl => intro h rest hl; exact ⟨h, rest, hl, by omega⟩
  | step hs _ ih =>
    intro h rest hl
    obtain ⟨rest1, k1, k2⟩ := work_step hz hs hl
    obtain ⟨g1, rest2, g2, g3⟩ := ih (poolOk_step hz h hs) rest1 k1
    exact ⟨g1, rest2, g2, by omega⟩

/-- C97, for threads: however many threads share the records of a file as in the example, however they take turns and however many
records each takes at a time, they come to an end, within a number of steps that the file limits; and in the end the elements that they
have made, all together, are those of the file, each as often as it occurs there, and those of each thread are in the order of the file. So their
number is that of the elements. As in `c97_raw_partial`, only the first record may be a table. -/
theorem c97_threads_partial (pol : Pol) {rs : List Raw} {b : Bytes} (hb : Blocks Frame rs b) (p : Parser env) (w : World)
    (s : Src) (hs : p.input = .mrt s) (hd : Delivers s b) (ht : ∀ r ∈ rs.tail, ¬ RawTable r) (threads size : Nat) (h0 : 0 < threads)
    (hz : 0 < size) (n : Nat) (q : Pool env)
    (hr : Runs pol (p.elementorAndRaws pol w).1 size n (Pool.start (p.elementorAndRaws pol w).2 threads) q) :
    n ≤ 2 * rs.length + threads ∧
    (¬ Finished q → ∃ q', Pool.Step pol (p.elementorAndRaws pol w).1 size q q') ∧
    (Finished q → (q.workers.flatMap (·.made)).Perm (elemsFrom [] (rs.flatMap recordsOf)) ∧
      (∀ w ∈ q.workers, w.made.Sublist (elemsFrom [] (rs.flatMap recordsOf))) ∧
      (q.workers.map fun w => w.made.length).sum = (elemsFrom [] (rs.flatMap recordsOf)).length) := by
  have hraw : RawsLeft (p.raws w) rs := ⟨s, b, hs, hd, hb⟩
  have hpk : (Peekable.new (p.raws w)).peek (RawRun.next pol) =
      (((p.raws w).next pol).1, ⟨((p.raws w).next pol).2, some ((p.raws w).next pol).1⟩) := rfl
  obtain ⟨rest, m2, hleft, m3⟩ : ∃ rest, AfterTable RawTable rs rest ∧ PeekLeft (p.elementorAndRaws pol w).2 rest ∧
      (p.elementorAndRaws pol w).1 = (match rs.head?.bind fun r => r.parse.toOption.bind MrtRecord.table with
        | some t => Elementor.withPeerTable t | none => .new) := by
    unfold Parser.elementorAndRaws
    rw [hpk]
    cases rs with
    | nil =>
      obtain ⟨g1, g2⟩ := rawsLeft_nil (pol := pol) hraw
      simp only [g1]
      exact ⟨[], .inr ⟨rfl, fun _ h => by cases h⟩, .inr (.inr ⟨rfl, rfl, g2⟩), rfl⟩
    | cons r rest =>
      obtain ⟨g1, g2⟩ := rawsLeft_cons (pol := pol) hraw
      simp only [g1, List.head?_cons, Option.bind_some]
      cases hp : r.parse with
      | error e =>
        exact ⟨r :: rest, .inr ⟨rfl, fun x hx => by cases hx; rintro ⟨m, hm, _⟩; rw [hp] at hm; cases hm⟩,
          .inr (.inl ⟨r, rest, rfl, rfl, g2⟩), rfl⟩
      | ok m =>
        simp only [Except.toOption, Option.bind_some]
        cases htb : m.table with
        | none =>
          exact ⟨r :: rest, .inr ⟨rfl, fun x hx => by cases hx; rintro ⟨m', hm, h⟩; rw [hp] at hm; cases hm; exact (table_none m).mp htb h⟩,
            .inr (.inl ⟨r, rest, rfl, rfl, g2⟩), rfl⟩
        | some t => exact ⟨rest, .inl ⟨r, ⟨m, hp, t, (table_iff m t).mp htb⟩, rfl⟩, .inl ⟨rfl, g2⟩, rfl⟩
  have hn : ∀ r ∈ rest, ¬ RawTable r := by
    rcases m2 with ⟨x, _, rfl⟩ | ⟨rfl, h⟩
    · exact ht
    · intro r hr
      cases rest with
      | nil => cases hr
      | cons y rest =>
        rcases List.mem_cons.mp hr with rfl | hr
        · exact h _ rfl
        · exact ht r hr
  rw [elemsFrom_sharedRaw m2 hn _ m3]
  generalize (p.elementorAndRaws pol w).1 = el at hr ⊢
  generalize (p.elementorAndRaws pol w).2 = it at hr hleft
  obtain ⟨hok, rest', hl', hbd⟩ := runs_ok (rs := rest) hz hr (poolOk_start el hleft threads) rest hleft
  have hlen : rest.length ≤ rs.length := by
    rcases m2 with ⟨x, _, rfl⟩ | ⟨rfl, _⟩
    · simp
    · exact Nat.le_refl _
  refine ⟨?_, ?_, ?_⟩
  · have : Pool.work rest (Pool.start it threads).workers = 2 * rest.length + threads := by
      simp [Pool.work, Pool.start]
    omega
  · intro hnf
    obtain ⟨it', ws⟩ := q
    have : ∃ w ∈ ws, w.left = false := by
      refine Classical.byContradiction fun hc => hnf fun w hw => ?_
      cases hwl : w.left with
      | true => rfl
      | false => exact absurd ⟨w, hw, hwl⟩ hc
    obtain ⟨⟨hand, made, left⟩, hw, hwl⟩ := this
    simp only at hwl
    subst hwl
    obtain ⟨ws1, ws2, rfl⟩ := List.append_of_mem hw
    cases hand with
    | nil => exact ⟨_, .take⟩
    | cons raw hand => exact ⟨_, .convert⟩
  · intro hf
    obtain ⟨⟨taken, rest2, h1, h2, h3, h4, h5⟩, h6⟩ := hok
    have hne : ∃ w ∈ q.workers, w.left = true := by
      have hlen : ∀ {n : Nat} {p q : Pool env}, Runs pol el size n p q → q.workers.length = p.workers.length := by
        intro n p q h
        induction h with
        | refl => rfl
        | step hs _ ih => rw [ih]; cases hs <;> simp
      have := hlen hr
      rw [Pool.start, List.length_replicate] at this
      cases hws : q.workers with
      | nil => rw [hws] at this; simp at this; omega
      | cons w ws => exact ⟨w, List.mem_cons_self .., hf w (by rw [hws]; exact List.mem_cons_self ..)⟩
    have hr0 := h5 hne
    subst hr0
    rw [List.append_nil] at h1
    subst h1
    have hd : ∀ w ∈ q.workers, w.due el = w.made := fun w hw => by simp [Worker.due, h6 w hw (hf w hw)]
    have e : q.workers.flatMap (Worker.due el) = q.workers.flatMap (·.made) := by
      rw [List.flatMap_def, List.flatMap_def, List.map_congr_left hd]
    rw [e] at h3
    refine ⟨h3, fun w hw => by rw [← hd w hw]; exact h4 w hw, ?_⟩
    rw [← h3.length_eq, List.length_flatMap]

theorem runs_snoc {pol : Pol} {el : Elementor} {size n : Nat} {p q r : Pool env} (h : Runs pol el size n p q) (hs : Pool.Step pol el size q r) :
    Runs pol el size (n + 1) p r := by
  induction h with
  | refl => exact .step hs .refl
  | step h1 _ ih => exact .step h1 (ih hs)

/-- C97: so the threads can always go on to the end. -/
theorem c97_threads_end (pol : Pol) {rs : List Raw} {b : Bytes} (hb : Blocks Frame rs b) (p : Parser env) (w : World)
    (s : Src) (hs : p.input = .mrt s) (hd : Delivers s b) (ht : ∀ r ∈ rs.tail, ¬ RawTable r) (threads size : Nat) (h0 : 0 < threads)
    (hz : 0 < size) (n : Nat) (q : Pool env)
    (hr : Runs pol (p.elementorAndRaws pol w).1 size n (Pool.start (p.elementorAndRaws pol w).2 threads) q) :
    ∃ m q', Runs pol (p.elementorAndRaws pol w).1 size (n + m) (Pool.start (p.elementorAndRaws pol w).2 threads) q' ∧ Finished q' := by
  generalize hk : 2 * rs.length + threads - n = k
  induction k using Nat.strongRecOn generalizing n q with
  | _ k ih =>
    obtain ⟨h1, h2, _⟩ := c97_threads_partial pol hb p w s hs hd ht threads size h0 hz n q hr
    by_cases hf : Finished q
    · exact ⟨0, q, hr, hf⟩
    · obtain ⟨q', hq⟩ := h2 hf
      have hr' := runs_snoc hr hq
      have h3 := (c97_threads_partial pol hb p w s hs hd ht threads size h0 hz (n + 1) q' hr').1
      obtain ⟨m, q2, g1, g2⟩ := ih (2 * rs.length + threads - (n + 1)) (by omega) (n + 1) q' hr' rfl
      exact ⟨1 + m, q2, by rw [← Nat.add_assoc]; exact g1, g2⟩

/-! ### examples, and what fails -/

/-- a peer index table with one peer of this AS, 192.0.2.1. -/
def c97Table (asn : UInt8) : Raw := ⟨⟨0, none, .tableDumpV2, 1, 19⟩, [0, 0, 0, 0, 0, 13, 0, 1, 0, 0, 0, 19],
  [1, 1, 1, 1, 0, 0, 0, 1, 0, 10, 0, 0, 1, 192, 0, 2, 1, 0, asn]⟩

/-- the route of that peer to 10.0.0.0/8. -/
def c97Rib : Raw := ⟨⟨0, none, .tableDumpV2, 2, 16⟩, [0, 0, 0, 0, 0, 13, 0, 2, 0, 0, 0, 16], [0, 0, 0, 0, 8, 10, 0, 1, 0, 0, 0, 0, 0, 0, 0, 0]⟩

theorem c97Table_frame (asn : UInt8) : Frame (c97Table asn) (c97Table asn).bytes := by
  refine ⟨⟨by show EntryType.tableDumpV2 ≠ _; decide, by show [(0 : UInt8), 0, 0, 0, 0, 13, 0, 1, 0, 0, 0, 19] = n32 (0 : UInt32).toNat ++ n16 (entryNum .tableDumpV2) ++ n16 (1 : UInt16).toNat ++ n32 (19 : UInt32).toNat; decide⟩, by show (19 : UInt32).toNat ≤ _; decide, rfl, ?_⟩
  rw [if_neg (fun h => by cases h.1)]; rfl

theorem c97Rib_frame : Frame c97Rib c97Rib.bytes := by
  refine ⟨⟨by decide, by decide⟩, by decide, rfl, ?_⟩
  rw [if_neg (fun h => by cases h.1)]; rfl

theorem c97Zebra_frame : Frame c91Zebra c91Zebra.bytes := by
  refine ⟨⟨by decide, by decide⟩, by decide, rfl, ?_⟩
  rw [if_neg (fun h => by cases h.1)]; rfl

/-- a table, two routes and a state change, to which the theorems apply; there are two elements. -/
example : Blocks Frame [c97Table 1, c97Rib, c91Zebra, c97Rib] ((c97Table 1).bytes ++ (c97Rib.bytes ++ (c91Zebra.bytes ++ (c97Rib.bytes ++ [])))) ∧
    (∀ r ∈ [c97Table 1, c97Rib, c91Zebra, c97Rib], ¬ LastRead false r) ∧
    (∀ r ∈ [c97Table 1, c97Rib, c91Zebra, c97Rib].tail, ¬ RawTable r) ∧
    (elemsFrom [] ([c97Table 1, c97Rib, c91Zebra, c97Rib].flatMap recordsOf)).map (·.peerAsn) = [1, 1] := by
  refine ⟨.cons (c97Table_frame 1) (.cons c97Rib_frame (.cons c97Zebra_frame (.cons c97Rib_frame .nil))), by decide +kernel, ?_, by decide +kernel⟩
  have h : ∀ r ∈ [c97Table 1, c97Rib, c91Zebra, c97Rib].tail, r.parse.toOption.bind MrtRecord.table = none := by decide +kernel
  rintro r hr ⟨m, hm, ht⟩
  have := h r hr
  rw [hm] at this
  exact (table_none m).mp this ht

/-- its run by two threads that take one record each at a time. -/
example (pol : Pol) (s : Src) (hd : Delivers s ((c97Table 1).bytes ++ (c97Rib.bytes ++ (c91Zebra.bytes ++ (c97Rib.bytes ++ []))))) :
    ∃ n q, Runs pol (((Parser.new exEnv (.mrt s)).elementorAndRaws pol ⟨[], none⟩).1) 1 n
      (Pool.start ((Parser.new exEnv (.mrt s)).elementorAndRaws pol ⟨[], none⟩).2 2) q ∧ Finished q ∧ n ≤ 10 ∧
      (q.workers.map fun w => w.made.length).sum = 2 := by
  have hb : Blocks Frame [c97Table 1, c97Rib, c91Zebra, c97Rib] ((c97Table 1).bytes ++ (c97Rib.bytes ++ (c91Zebra.bytes ++ (c97Rib.bytes ++ [])))) :=
    .cons (c97Table_frame 1) (.cons c97Rib_frame (.cons c97Zebra_frame (.cons c97Rib_frame .nil)))
  have ht : ∀ r ∈ [c97Table 1, c97Rib, c91Zebra, c97Rib].tail, ¬ RawTable r := by
    have h : ∀ r ∈ [c97Table 1, c97Rib, c91Zebra, c97Rib].tail, r.parse.toOption.bind MrtRecord.table = none := by decide +kernel
    rintro r hr ⟨m, hm, ht⟩
    have := h r hr
    rw [hm] at this
    exact (table_none m).mp this ht
  obtain ⟨m, q, h1, h2⟩ := c97_threads_end pol hb (Parser.new exEnv (.mrt s)) ⟨[], none⟩ s rfl hd ht 2 1 (by omega) (by omega) 0 _ .refl
  obtain ⟨g1, _, g3⟩ := c97_threads_partial pol hb (Parser.new exEnv (.mrt s)) ⟨[], none⟩ s rfl hd ht 2 1 (by omega) (by omega) _ q h1
  refine ⟨_, q, h1, h2, g1, (g3 h2).2.2.trans ?_⟩
  have : (elemsFrom [] ([c97Table 1, c97Rib, c91Zebra, c97Rib].flatMap recordsOf)).length = 2 := by decide +kernel
  exact this

/-- The peers of the elements of a file: those that the element iterator reports, and those of records converted with the shared elementor. -/
theorem c97_peers (rs : List Raw) {b : Bytes} (hb : Blocks Frame rs b) (hl : ∀ r ∈ rs, ¬ LastRead false r) (rest : List Raw)
    (hrest : ∀ r, AfterTable RawTable rs r → r = rest) (el : Elementor)
    (hel : el = match rs.head?.bind fun r => r.parse.toOption.bind MrtRecord.table with | some t => Elementor.withPeerTable t | none => .new)
    (denv : DumpEnv) (pol : Pol) (s : Src) (hd : Delivers s b) (w : World) :
    Gives (ElemRun.next denv pol) ((Parser.new env (.mrt s)).elems w) (elemsFrom [] (rs.flatMap recordsOf)) ∧
    Gives (peekStep (RawRun.next pol)) ((Parser.new env (.mrt s)).elementorAndRaws pol w).2 rest ∧
    ((Parser.new env (.mrt s)).elementorAndRaws pol w).1 = el := by
  have h1 := file_elems denv pol hb (Parser.new env (.mrt s)) w s rfl hd
  obtain ⟨rest', m1, m2, m3⟩ := raws_shared pol (Parser.new env (.mrt s)) w (c93_raw hb env pol (Parser.new env (.mrt s)) w s rfl hd).1
  rw [hrest rest' m2] at m1
  refine ⟨?_, m1, m3.trans hel.symm⟩
  have e : (Parser.new env (.mrt s)).coreDump = false := rfl
  rw [e, lookedAt_all hl] at h1
  have : ∀ l : List BgpElem, l.filter (fun e => (Parser.new env (.mrt s)).filters.all (e.matchFilter env)) = l := fun l =>
    List.filter_eq_self.2 fun e _ => rfl
  rwa [this] at h1

/-- C97 fails for a file with a second table, as when two dumps are put together: the element iterator reports the second route as
one of AS 2, the peer of the second table, but with the shared elementor both routes are of AS 1, and the second table is an error. -/
theorem c97_violation_second_table (denv : DumpEnv) (pol : Pol) (s : Src) (w : World)
    (hd : Delivers s ((c97Table 1).bytes ++ (c97Rib.bytes ++ ((c97Table 2).bytes ++ (c97Rib.bytes ++ []))))) :
    ∃ es rest, Gives (ElemRun.next denv pol) ((Parser.new env (.mrt s)).elems w) es ∧
      Gives (peekStep (RawRun.next pol)) ((Parser.new env (.mrt s)).elementorAndRaws pol w).2 rest ∧
      es.map (·.peerAsn) = [1, 2] ∧
      (rest.flatMap ((Parser.new env (.mrt s)).elementorAndRaws pol w).1.convertRaw).map (·.peerAsn) = [1, 1] := by
  have hb : Blocks Frame [c97Table 1, c97Rib, c97Table 2, c97Rib] ((c97Table 1).bytes ++ (c97Rib.bytes ++ ((c97Table 2).bytes ++ (c97Rib.bytes ++ [])))) :=
    .cons (c97Table_frame 1) (.cons c97Rib_frame (.cons (c97Table_frame 2) (.cons c97Rib_frame .nil)))
  obtain ⟨h1, h2, h3⟩ := c97_peers (env := env) _ hb (by decide +kernel) [c97Rib, c97Table 2, c97Rib] (by
    rintro r (⟨x, _, h⟩ | ⟨rfl, h⟩)
    · cases h; rfl
    · refine absurd ?_ (h _ rfl)
      have : ((c97Table 1).parse.toOption.bind MrtRecord.table).isSome = true := by decide +kernel
      cases hp : (c97Table 1).parse with
      | error e => rw [hp] at this; cases this
      | ok m =>
        rw [hp] at this
        obtain ⟨t, ht⟩ := Option.isSome_iff_exists.mp this
        exact ⟨m, hp, t, (table_iff m t).mp ht⟩) _ rfl denv pol s hd w
  refine ⟨_, _, h1, h2, by decide +kernel, ?_⟩
  rw [h3]
  decide +kernel

/-- C97 fails for a file with another record in front of the table: with the shared elementor the routes are lost, since there is no
table for them. -/
theorem c97_violation_late_table (denv : DumpEnv) (pol : Pol) (s : Src) (w : World)
    (hd : Delivers s (c91Zebra.bytes ++ ((c97Table 1).bytes ++ (c97Rib.bytes ++ [])))) :
    ∃ es rest, Gives (ElemRun.next denv pol) ((Parser.new env (.mrt s)).elems w) es ∧
      Gives (peekStep (RawRun.next pol)) ((Parser.new env (.mrt s)).elementorAndRaws pol w).2 rest ∧
      es.map (·.peerAsn) = [1] ∧
      rest.flatMap ((Parser.new env (.mrt s)).elementorAndRaws pol w).1.convertRaw = [] := by
  have hb : Blocks Frame [c91Zebra, c97Table 1, c97Rib] (c91Zebra.bytes ++ ((c97Table 1).bytes ++ (c97Rib.bytes ++ []))) :=
    .cons c97Zebra_frame (.cons (c97Table_frame 1) (.cons c97Rib_frame .nil))
  obtain ⟨h1, h2, h3⟩ := c97_peers (env := env) _ hb (by decide +kernel) [c91Zebra, c97Table 1, c97Rib] (by
    rintro r (⟨x, ⟨m, hm, ht⟩, h⟩ | ⟨rfl, h⟩)
    · cases h
      have : c91Zebra.parse.toOption.bind MrtRecord.table = none := by decide +kernel
      rw [hm] at this
      exact absurd ht ((table_none m).mp this)
    · rfl) _ rfl denv pol s hd w
  refine ⟨_, _, h1, h2, by decide +kernel, ?_⟩
  rw [h3]
  decide +kernel

/-- what the two calls report about such records. -/
example : (Elementor.new.recordIter ⟨⟨0, none, .tableDumpV2, 1, 0⟩, .tableDumpV2 (.peerIndexTable exTable)⟩ =
      .error (.unexpectedPeerIndexTable exTable)) ∧
    ((Elementor.withPeerTable exTable).recordIter ⟨⟨0, none, .tableDumpV2, 1, 0⟩, .tableDumpV2 (.peerIndexTable exTable)⟩ =
      .error (.unexpectedPeerIndexTable exTable)) ∧
    (c97Rib.parse.toOption.map fun r => match Elementor.new.recordIter r with | .error e => decide (e = .missingPeerTable) | .ok _ => false) = some true :=
  ⟨rfl, rfl, by decide +kernel⟩

end Verif.Props
