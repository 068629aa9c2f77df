import Verif.Model.Settings
import Verif.Spec.MrtFrame
import Verif.Spec.TextDump
import Verif.Spec.Filter
/-
What the settings of a parser mean, and what iterating over it leaves behind.
-/
namespace Verif.Spec

/-! ### settings -/

/-- the filters that one call adds. -/
def Adds {env : TextEnv} : Setting env → List (Filter env.Rx) → Prop
  | .addFilter ty value, fs => ∃ f, Filter.new env ty value = .ok f ∧ fs = [f]
  | .addFilters gs, fs => fs = gs
  | _, fs => fs = []

/-- the call replaces all filters. -/
def Replaces {env : TextEnv} : Setting env → Prop
  | .withFilters _ => True
  | _ => False

/-- the call cannot be carried out: its text is not that of a filter. -/
def Refused {env : TextEnv} (e : Err) : Setting env → Prop
  | .addFilter ty value => Filter.new env ty value = .error e
  | _ => False

/-- Starting from the filters `start`, the calls leave these filters in effect: everything that was added after the last call
that replaces, in order, behind what that call gave. -/
inductive InEffect {env : TextEnv} (start : List (Filter env.Rx)) : List (Setting env) → List (Filter env.Rx) → Prop where
  | kept {cs parts} : (∀ c ∈ cs, ¬ Replaces c) → Pairwise2 Adds cs parts → InEffect start cs (start ++ parts.flatten)
  | replaced {before fs cs parts} : (∀ c ∈ cs, ¬ Replaces c) → Pairwise2 Adds cs parts →
      InEffect start (before ++ .withFilters fs :: cs) (fs ++ parts.flatten)

/-! ### iterating -/

/-- Calling `next` until it returns `None` leaves this state behind. -/
inductive Leaves {σ α : Type} (next : σ → Except Err (Option α) × σ) : σ → σ → Prop where
  | done {s} : (next s).1 = .ok none → Leaves next s (next s).2
  | item {s e s'} : (next s).1 = .ok (some e) → Leaves next (next s).2 s' → Leaves next s s'

/-- the record iterator in this form; it never panics. -/
def recordStep {env : TextEnv} (pol : Pol) (it : RecordRun env) : Except Err (Option MrtRecord) × RecordRun env :=
  (.ok (it.next pol).1, (it.next pol).2)

/-- The record is the last that iteration looks at. -/
def LastRead (coreDump : Bool) (r : Raw) : Prop := ∃ e, r.parse = .error e ∧ Fatal coreDump e

instance (cd : Bool) (r : Raw) : Decidable (LastRead cd r) :=
  match h : r.parse with
  | .ok _ => isFalse fun ⟨e, he, _⟩ => by rw [h] at he; cases he
  | .error e => if hf : Fatal cd e then isTrue ⟨e, h, hf⟩ else isFalse fun ⟨e', he, hf'⟩ => hf (by rw [h] at he; cases he; exact hf')

/-- the records that iteration looks at: all, or those up to the one at which it stops. -/
def lookedAt (coreDump : Bool) : List Raw → List Raw
  | [] => []
  | r :: rs => if LastRead coreDump r then [r] else r :: lookedAt coreDump rs

/-- What is logged about a record that does not parse: an error if it is damaged, a warning, if wanted, if it is only not
supported or cut short inside or has a bad labelled route. -/
def complaint (show_ : Bool) (r : Raw) : Option LogLine :=
  match r.parse with
  | .error .parse => some (.failure .parse)
  | .error .io => some (.failure .io)
  | .error .ioEof => some (.failure .ioEof)
  | .error .eof => some (.failure .eof)
  | .error .truncated => if show_ then some (.warning .truncated) else none
  | .error .unsupported => if show_ then some (.warning .unsupported) else none
  | .error .invalidLabeledNlriLength => if show_ then some (.warning .invalidLabeledNlriLength) else none
  | .error .truncatedLabeledNlri => if show_ then some (.warning .truncatedLabeledNlri) else none
  | .error .truncatedPrefix => if show_ then some (.warning .truncatedPrefix) else none
  | .error .maxLabelStackDepthExceeded => if show_ then some (.warning .maxLabelStackDepthExceeded) else none
  | .error .peerMaxLabelsExceeded => if show_ then some (.warning .peerMaxLabelsExceeded) else none
  | .error .invalidPrefix => if show_ then some (.warning .invalidPrefix) else none
  | _ => none

/-- The record fails in a way that is worth a dump: not for a bad labelled route. -/
def WorthDump (r : Raw) : Prop :=
  ∃ e, r.parse = .error e ∧ (e = .parse ∨ e = .io ∨ e = .ioEof ∨ e = .eof ∨ e = .truncated ∨ e = .unsupported)

instance (r : Raw) : Decidable (WorthDump r) :=
  match h : r.parse with
  | .ok _ => isFalse fun ⟨e, he, _⟩ => by rw [h] at he; cases he
  | .error e =>
    if hf : (e = .parse ∨ e = .io ∨ e = .ioEof ∨ e = .eof ∨ e = .truncated ∨ e = .unsupported) then isTrue ⟨e, h, hf⟩
    else isFalse fun ⟨e', he, hf'⟩ => hf (by rw [h] at he; cases he; exact hf')

/-- A BGP4MP record in the short form that early Zebra versions wrote, which parses. -/
def ShortForm (r : Raw) : Prop :=
  (∃ m, r.parse = .ok m) ∧ (r.header.type = .bgp4mp ∨ r.header.type = .bgp4mpEt) ∧
    (r.header.subtype = 0 ∧ r.body.length = 8 ∨
     (r.header.subtype = 1 ∨ r.header.subtype = 6 ∨ r.header.subtype = 8 ∨ r.header.subtype = 10) ∧
       ∃ asns len rest, r.body = asns ++ List.replicate 16 0xFF ++ len ++ 1 :: rest ∧ asns.length = 4 ∧ len.length = 2)

/-- These bytes, as a file of their own, are no record; reading them gives this error and these bytes again. -/
def FailsAgain (d : Bytes) (e : Err) : Prop :=
  ∀ (pol : Pol) (s : Src), Delivers s d → (nextRecord pol s).1 = .error ⟨e, some d⟩

/-- The reader reports an error at some time. -/
def Faulty (s : Src) : Prop := s.stuck = some false ∨ .fail false ∈ toks s.evs

/-- the iterator after so many calls. -/
def afterCalls {env : TextEnv} (pol : Pol) : Nat → RecordRun env → RecordRun env
  | 0, it => it
  | n + 1, it => afterCalls pol n (it.next pol).2

end Verif.Spec
