import Verif.Lemmas.NoEof
import Verif.Props.Mrt
import Verif.Props.Bgp
import Verif.Props.Attr
import Verif.Props.Nlri
import Verif.Props.Bmp
import Verif.Props.Rtr
import Verif.Props.Mpls
import Verif.Props.FlowSpec
import Verif.Props.Route
/-
C48: the parsing entry points never panic. C23: what ends an iteration over records is the end of the stream, nothing else.

In the model a panic (failed `assert!`, index out of bounds, `Bytes::split_to` beyond the end, unwrap of `None`, overflow in
a subtraction) is the error value `panic`, which no parser of the code returns otherwise.
-/
namespace Verif.Props
open Spec

/-! ### C48 -/

/-- C48: no byte string makes one of these parsers panic. BGP messages (bgp/messages.rs), path attributes, NLRI (plain,
labelled, link-state, flow specification), AS paths, communities, capabilities, bodies of MRT records, BMP and OpenBMP
messages, RTR PDUs. -/
theorem c48_parsers (d : Bytes) :
    (∀ addPath l, parseBgpMessage addPath l d ≠ .error .panic) ∧
    (∀ cfg, parseAttributes cfg d ≠ .error .panic) ∧
    (∀ cfg code, parseAttrVal cfg code d ≠ .error .panic) ∧
    (∀ afi addPath, parseNlriList afi addPath d ≠ .error .panic) ∧
    (∀ afi cfg, parseLabeledNlri afi cfg d ≠ .error .panic) ∧
    (∀ afi addPath, parseLabeledWithdrawals afi addPath d ≠ .error .panic) ∧
    parseLsNlri d ≠ .error .panic ∧ parseLsAttr d ≠ .error .panic ∧
    parseFlowSpec d ≠ .error .panic ∧
    (∀ l, parseAsPath l d ≠ .error .panic) ∧
    parseCommunities d ≠ .error .panic ∧ parseLargeCommunities d ≠ .error .panic ∧
    parseExtCommunities d ≠ .error .panic ∧ parseIpv6ExtCommunities d ≠ .error .panic ∧
    (∀ code, capValue code d ≠ .error .panic) ∧
    (∀ type subtype, parseMrtBody type subtype d ≠ .error .panic) ∧
    (parseBmpMsg d).1 ≠ .error .panic ∧ parseOpenBmpMsg d ≠ .error .panic ∧
    parsePdu d ≠ .error .panic :=
  ⟨fun ap l => parseBgpMessage_noPanic ap l d, fun cfg => c12_no_panic cfg d, fun cfg code => parseAttrVal_noPanic cfg code d,
   fun afi ap => c02_nlri_no_panic afi ap d, fun afi cfg => (c44_no_panic afi cfg false d).1,
   fun afi ap => many_noPanic (rdLabeledWithdrawal_noPanic afi ap) (fun _ _ _ h => rdLabeledWithdrawal_progress h) d, parseLsNlri_noPanic d, parseLsAttr_noPanic d, c43_no_panic d,
   fun l => c04_aspath_no_panic l d, (c46_no_panic d).1, (c46_no_panic d).2.1, (c46_no_panic d).2.2.1, (c46_no_panic d).2.2.2,
   fun code => capValue_noPanic code d, fun t st => parseMrtBody_noPanic t st d, (c42_no_panic d).1, (c42_no_panic d).2,
   c41_no_panic d⟩

theorem chunkT_no_panic {k : Option Bool} {t t' : List Tok} {e : ChunkErr} (h : chunkT k t = (.error e, t')) :
    e.error ≠ .panic := by
  rcases chunkT_error h with ⟨b, h1, h2, h3, h4⟩ | ⟨b, e', st, h1, h2, h3, h4⟩
  · rcases h4 with ⟨h4, _⟩ | ⟨h4, _⟩ <;> simp [h4]
  · rcases h4 with ⟨g1, _⟩ | ⟨g1, _⟩ | ⟨g1, _⟩
    · simp [g1]
    · rw [g1]
      cases st with
      | failed z => cases z <;> simp [stopErr]
      | _ => simp [stopErr]
    · rw [g1]
      cases st with
      | failed z => cases z <;> simp [bodyErr]
      | _ => simp [bodyErr]

/-- C48: reading raw records and records from any stream, whatever the reader does, does not panic, nor does the
light-weight route iterator. -/
theorem c48_records (pol : Pol) (s : Src) :
    (∀ e, (chunk pol s).1 = .error e → e.error ≠ .panic) ∧ (∀ e, (nextRecord pol s).1 = .error e → e.error ≠ .panic) ∧
    (∀ raw table, (routeIterOf raw table).1 ≠ .error .panic) ∧ (∀ it : RouteIter, it.next ≠ .error .panic) := by
  have hchunk : ∀ e, (chunk pol s).1 = .error e → e.error ≠ .panic := by
    intro e h
    obtain ⟨s1, g1, _, _⟩ := chunk_eq pol s
    rw [g1] at h
    cases hc : chunkT s.stuck (toks s.evs) with
    | mk x t =>
      rw [hc] at h
      cases x with
      | ok r => cases h
      | error ce => cases h; exact chunkT_no_panic hc
  refine ⟨hchunk, ?_, routeIterOf_noPanic, next_noPanic⟩
  intro e h
  unfold nextRecord at h
  cases hc : chunk pol s with
  | mk x s1 =>
    rw [hc] at h
    cases x with
    | error e1 =>
      cases h
      exact hchunk e (by rw [hc])
    | ok raw =>
      simp only at h
      cases hp : raw.parse with
      | ok r => rw [hp] at h; cases h
      | error x =>
        rw [hp] at h; cases h
        intro hx
        exact rawParse_noPanic raw (by rw [hp]; exact congrArg _ hx)

/-! ### C23: the end of an iteration -/

theorem byteToks_split {b : Bytes} {pre t : List Tok} (h : byteToks b = pre ++ t) :
    ∃ c b', b = c ++ b' ∧ pre = byteToks c ∧ t = byteToks b' := by
  obtain ⟨c, b', h1, h2, h3⟩ := List.map_eq_append_iff.mp h
  exact ⟨c, b', h1, h2.symm, h3.symm⟩

theorem nextT_end {k : Option Bool} {t t' : List Tok} {e : RecErr} (h : nextT k t = (.error e, t')) :
    (e.bytes = none ↔ e.error = .eofExpected) ∧
    (e.error = .eofExpected → t = [] ∨ t = .zero :: t' ∨ t = .fail true :: t') ∧ e.error ≠ .panic := by
  unfold nextT at h
  cases hc : chunkT k t with
  | mk x t1 =>
    rw [hc] at h
    cases x with
    | error ce =>
      cases h
      obtain ⟨pre, k1, k2, k3, k4⟩ := chunkT_took hc
      exact ⟨k3, k4, chunkT_no_panic hc⟩
    | ok raw =>
      simp only at h
      cases hp : raw.parse with
      | ok r => rw [hp] at h; cases h
      | error x =>
        rw [hp] at h; cases h
        have hx : x ≠ .eofExpected := by rintro rfl; exact rawParse_noEof raw hp
        exact ⟨by simp [hx], fun he => absurd he hx, by rintro rfl; exact rawParse_noPanic raw hp⟩

/-- C23: an error in the body of a record is never taken for the end of the stream, so an error carries no bytes exactly
when it marks the end; and then nothing was left to read (or the reader itself said so: a read of no bytes, or an error of
kind `UnexpectedEof`). -/
theorem c23_end (pol : Pol) (s s' : Src) (e : RecErr) (h : nextRecord pol s = (.error e, s')) :
    (e.bytes = none ↔ e.error = .eofExpected) ∧
    (e.error = .eofExpected → toks s.evs = [] ∨ toks s.evs = .zero :: toks s'.evs ∨ toks s.evs = .fail true :: toks s'.evs) := by
  obtain ⟨s1, g1, g2, g3⟩ := nextRecord_eq pol s
  rw [h] at g1
  cases hc : nextT s.stuck (toks s.evs) with
  | mk x t =>
    rw [hc] at g1 g2
    cases g1
    rw [g2]
    exact ⟨(nextT_end hc).1, (nextT_end hc).2.1⟩

theorem fallible_whole (n : Nat) : ∀ b : Bytes, b.length < n →
    ∃ parts, parts.flatten = b ∧ Pairwise2 (fun x c => match x with
        | .ok r => ∃ raw, Frame raw c ∧ raw.parse = .ok r
        | .error e => e.bytes = some c ∧ c ≠ [] ∧ e.error ≠ .eofExpected ∧ e.error ≠ .panic)
      (forLoop (fun p => fallibleT keepAll none p.1 p.2) n ((), byteToks b)).1 parts := by
  induction n with
  | zero => intro b h; omega
  | succ n ih =>
    intro b hb
    cases hc : nextT none (byteToks b) with
    | mk x t' =>
      obtain ⟨pre, h1, h2⟩ := nextT_took hc
      obtain ⟨c, b', rfl, rfl, rfl⟩ := byteToks_split h1
      have hf : fallibleT keepAll none () (byteToks (c ++ b')) = match x with
          | .ok r => (some (.ok r), (), byteToks b')
          | .error e => if e.error = .eofExpected then (none, (), byteToks b') else (some (.error e), (), byteToks b') := by
        cases x with
        | ok r => rw [fallibleT_of_ok keepAll () hc]; rfl
        | error e => rw [fallibleT_of_error keepAll () hc]
      simp only [List.length_append] at hb
      cases x with
      | ok r =>
        simp only at hf h2
        obtain ⟨raw, k1, k2, k3⟩ := h2
        have hl := fallibleT_progress keepAll none (by simp) _ () _ _ (Nat.le_refl _) hf rfl
        simp only [byteToks_length, List.length_append] at hl
        obtain ⟨parts, g1, g2⟩ := ih b' (by omega)
        simp only [forLoop, hf]
        have hcr : c = raw.bytes := by
          have := congrArg dataOf k2
          rwa [dataOf_byteToks, dataOf_byteToks] at this
        exact ⟨c :: parts, by rw [List.flatten_cons, g1], .cons ⟨raw, hcr ▸ k1, k3⟩ g2⟩
      | error e =>
        simp only at hf h2
        have hk := nextT_end hc
        by_cases he : e.error = .eofExpected
        · rw [if_pos he] at hf
          simp only [forLoop, hf]
          rcases hk.2.1 he with hk | hk | hk
          · have : c ++ b' = [] := by
              cases hcb : c ++ b' with
              | nil => rfl
              | cons a l => rw [hcb] at hk; cases hk
            rw [this]
            exact ⟨[], rfl, .nil⟩
          · cases hcb : c ++ b' <;> rw [hcb] at hk <;> cases hk
          · cases hcb : c ++ b' <;> rw [hcb] at hk <;> cases hk
        · rw [if_neg he] at hf
          have hl := fallibleT_progress keepAll none (by simp) _ () _ _ (Nat.le_refl _) hf rfl
          simp only [byteToks_length, List.length_append] at hl
          obtain ⟨parts, g1, g2⟩ := ih b' (by omega)
          simp only [forLoop, hf]
          have hb : e.bytes = some c := by
            cases hbb : e.bytes with
            | none => exact absurd (hk.1.mp hbb) he
            | some y => rw [hbb, dataOf_byteToks] at h2; rw [h2.1]; rfl
          refine ⟨c :: parts, by rw [List.flatten_cons, g1], .cons ⟨hb, ?_, he, hk.2.2⟩ g2⟩
          rintro rfl; simp at hl; omega

/-- C23: over a file, the unfiltered fallible iterator leaves out nothing: the bytes of the records and the bytes of the
errors, in the order in which it returns them, are the file. -/
theorem c23_file (pol : Pol) (s : Src) (b : Bytes) (hs : Delivers s b) (n : Nat) (hn : b.length < n) :
    ∃ parts, parts.flatten = b ∧ Pairwise2 (fun x c => match x with
        | .ok r => ∃ raw, Frame raw c ∧ raw.parse = .ok r
        | .error e => e.bytes = some c ∧ c ≠ [] ∧ e.error ≠ .eofExpected ∧ e.error ≠ .panic)
      (forLoop (fallibleIter keepAll pol) n ((), s)).1 parts := by
  rw [(loop_fallible keepAll pol none n () s (byteToks b) ⟨hs.1, hs.2⟩).1]
  exact fallible_whole n b hn

theorem fallibleT_none (f : Keep σ) (N : Nat) : ∀ (q : σ) (b : Bytes), b.length ≤ N →
    ∃ b', (fallibleT f none q (byteToks b)).2.2 = byteToks b' ∧ ((fallibleT f none q (byteToks b)).1 = none → b' = []) := by
  induction N with
  | zero =>
    intro q b hb
    obtain rfl : b = [] := List.eq_nil_of_length_eq_zero (by omega)
    have hc : nextT none (byteToks []) = (.error ⟨.eofExpected, none⟩, []) := rfl
    rw [fallibleT_of_error f q hc]
    exact ⟨[], rfl, fun _ => rfl⟩
  | succ N ih =>
    intro q b hb
    cases hc : nextT none (byteToks b) with
    | mk x t' =>
      obtain ⟨pre, h1, h2⟩ := nextT_took hc
      obtain ⟨c, b', rfl, rfl, rfl⟩ := byteToks_split h1
      cases x with
      | ok r =>
        rw [fallibleT_of_ok f q hc]
        split
        · exact ⟨b', rfl, by simp⟩
        · have hp : (byteToks b').length + 12 ≤ (byteToks (c ++ b')).length := by
            rcases nextT_progress hc with hp | ⟨e, he, _⟩
            · exact hp
            · cases he
          simp only [byteToks_length, List.length_append] at hp hb
          exact ih _ b' (by omega)
      | error e =>
        rw [fallibleT_of_error f q hc]
        split
        · rename_i he
          refine ⟨b', rfl, fun _ => ?_⟩
          rcases (nextT_end hc).2.1 he with hk | hk | hk
          · have := congrArg List.length hk
            simp only [byteToks_length, List.length_append, List.length_nil] at this
            exact List.eq_nil_of_length_eq_zero (by omega)
          · cases hcb : c ++ b' <;> rw [hcb] at hk <;> cases hk
          · cases hcb : c ++ b' <;> rw [hcb] at hk <;> cases hk
        · exact ⟨b', rfl, by simp⟩

/-- C22, C23: whatever the filter, when the fallible iterator over a file ends, the whole file has been read. -/
theorem c23_ends_at_end (f : Keep σ) (q : σ) (pol : Pol) (s : Src) (b : Bytes) (hs : Delivers s b) (n : Nat)
    (hn : (forLoop (fallibleIter f pol) n (q, s)).2.1 = true) :
    Delivers (forLoop (fallibleIter f pol) n (q, s)).2.2.2 [] := by
  obtain ⟨h1, h2, h4, h3⟩ := loop_fallible f pol none n q s (byteToks b) ⟨hs.1, hs.2⟩
  rw [h2] at hn
  refine ⟨?_, h3.2⟩
  rw [h3.1]
  clear h1 h2 h3 h4 hs
  induction n generalizing q b with
  | zero => cases hn
  | succ n ih =>
    obtain ⟨b', g1, g2⟩ := fallibleT_none f b.length q b (Nat.le_refl _)
    cases hf : fallibleT f none q (byteToks b) with
    | mk x y =>
      obtain ⟨q', t'⟩ := y
      rw [hf] at g1 g2
      simp only at g1 g2
      subst g1
      cases x with
      | none =>
        simp only [forLoop, hf]
        rw [g2 rfl]
      | some a =>
        simp only [forLoop, hf] at hn ⊢
        exact ih q' b' hn

/-- A file with a record of a type that is not supported, a header of an unassigned type, and a truncated record: three
errors with all the bytes. -/
example : ((forLoop (fallibleIter keepAll (fun n _ => n)) 40
      ((), ⟨[.data 0 [0, 0, 9, 0, 11, 0, 0, 0, 0, 0, 2, 7, 7, 0, 0, 0, 9, 0, 99], .data 0 [0, 0, 0, 0, 0, 0, 0, 0, 9, 0]], none⟩)).1.map
      fun x => match x with | .ok _ => none | .error e => e.bytes) =
    [some [0, 0, 0, 9, 0, 11, 0, 0, 0, 0, 0, 2, 7, 7], some [0, 0, 0, 9, 0, 99, 0, 0, 0, 0, 0, 0], some [0, 0, 0, 9, 0]] := by
  decide +kernel

/-- a body that a BGP4MP record may have and that is refused. -/
example : ∃ e, parseMrtBody .bgp4mp 4 [0, 0, 1] = .error e := ⟨_, rfl⟩

end Verif.Props
