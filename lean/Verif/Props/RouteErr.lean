import Verif.Spec.RouteErr
import Verif.Lemmas.RouteErr
import Verif.Props.Route
/-
C66. Exactly when the route iterator that reports errors reports one.
-/
namespace Verif.Props
open Spec

/-- C66. The iterator that reports errors yields the framing errors, and for each record its routes, followed by exactly one
error, which carries the record, if and only if the record is `FaultyRecord`: it cannot be parsed and is not of a kind that is not
read to the end; or its UPDATE has unreadable prefixes, or it is a RIB record without a peer table before it; or it is a RIB
record with a broken entry behind those the record parser keeps. Filters drop routes and no errors. -/
theorem c66_errors (env : TextEnv) (fs : List (Filter env.Rx)) (pol pol' : Pol) (s : Src) (hs : s.stuck ≠ some false) (m : Nat)
    (hm : (toks s.evs).length < m) :
    ∃ all, ReportedRoutes [] (forLoop (chunkLoop pol') m s).1 all ∧
      let out := all.filter fun x => match x with | .ok x => x.matchFilters env fs | .error _ => true
      ∀ n, (forLoop (fallibleRouteIter env fs pol) n (RouteState.new s)).1 = out.take n ∧
        ((forLoop (fallibleRouteIter env fs pol) n (RouteState.new s)).2.1 = true ↔ out.length < n) := by
  obtain ⟨items, hr, hl⟩ := rawsF_exists s.stuck hs _ (toks s.evs) (Nat.le_refl _)
  obtain ⟨h1, _⟩ := forLoop_chunks pol' s hr m
  rw [List.take_of_length_le (by omega)] at h1
  rw [h1]
  refine ⟨_, fallRun_reported items [] none keptTable_nil, ?_⟩
  have : (fun x : Except RecErr RouteElem => match x with | .ok x => x.matchFilters env fs | .error _ => true) =
      passRoute (fun x => x.matchFilters env fs) := by funext x; cases x <;> rfl
  intro out n
  show _ = List.take n (List.filter _ _) ∧ (_ ↔ (List.filter _ _).length < n)
  rw [this]
  exact forLoop_fallRoutes env fs pol s hr n

/-- the outcome of a run: `none` for a route or record, the octets of the record for an error. -/
def exRouteErrors (b : Bytes) : List (Option (Option Bytes)) :=
  (forLoop (fallibleRouteIter exEnv [] onePiece) 9 (RouteState.new (exSrc b))).1.map
    fun x => match x with | .ok _ => none | .error e => some e.bytes
def exRecordErrors (b : Bytes) : List (Option (Option Bytes)) :=
  (forLoop (fallibleIter (⟨fun q _ => (true, q)⟩ : Keep Unit) onePiece) 9 ((), exSrc b)).1.map
    fun x => match x with | .ok _ => none | .error e => some e.bytes

/-- a geo peer table, a state change and an OPEN, each broken off. -/
def exOverlooked : Bytes :=
  exRaw 13 7 [1, 2, 3] ++ exRaw 16 0 [0] ++
    exRaw 16 4 ([0, 0, 0, 7, 0, 0, 0, 8, 0, 0, 0, 1, 1, 1, 1, 1, 2, 2, 2, 2] ++
      ([255, 255, 255, 255, 255, 255, 255, 255, 255, 255, 255, 255, 255, 255, 255, 255] ++ [0, 99, 1]))

/-- a RIB record of two entries, the second with attributes that end within a length. -/
def exBrokenRib : Bytes :=
  exRaw 13 2 ([0, 0, 0, 1, 8, 10, 0, 2] ++ exEntryBytes 0 ++ [0, 0, 0, 0, 0, 1, 0, 3, 0x50, 2, 0])

/-- The iterators that report errors do not agree on them: three broken records have an error as records and none as
routes; a RIB record has an error as routes and none as record. -/
theorem c66_errors_differ :
    (exRecordErrors exOverlooked = [some (some (exRaw 13 7 [1, 2, 3])), some (some (exRaw 16 0 [0])),
      some (some (exOverlooked.drop 28))] ∧ exRouteErrors exOverlooked = []) ∧
    (exRecordErrors (exPeersRaw ++ exBrokenRib) = [none, none] ∧
      exRouteErrors (exPeersRaw ++ exBrokenRib) = [none, some (some exBrokenRib)]) := by decide +kernel

/-- the stream of C66's other examples and two broken ones meet the hypotheses of `c66_errors`; the record of
two octets of type 48 is reported. -/
example : (toks (exSrc exStream).evs).length < 300 ∧ (exSrc exStream).stuck ≠ some false ∧
    exRouteErrors exStream = [none, none, none, none, none, some (some (exRaw 48 0 [1, 2])), none] := by decide +kernel

example : Overlooked ⟨⟨9, none, .tableDumpV2, 7, 3⟩, [], [1, 2, 3]⟩ := .geo _ rfl rfl
example : Overlooked ⟨⟨9, none, .bgp4mp, 0, 1⟩, [], [0]⟩ := .state _ .stateChange 0 .b16 (by decide) rfl rfl
example : BrokenEntry false [0, 0, 0, 0, 0, 1, 0, 3, 0x50, 2, 0] :=
  ⟨0, 1, none, [], [0x50, 2, 0], [], [], [0x50, 2, 0], ⟨rfl, rfl⟩, by decide, by decide, by simp, rfl, 0x50, 2, 0, by
    show (0x50 : UInt8).toNat.testBit 4 = true; decide, rfl⟩
example : FaultyRecord [] ⟨⟨9, none, .ospfv2, 0, 2⟩, [], [1, 2]⟩ := .unparsed _ _ rfl (by
  intro h
  cases h with
  | geo h => cases h
  | state _ _ _ h => simp at h
  | message _ _ _ _ h => simp at h)

end Verif.Props
