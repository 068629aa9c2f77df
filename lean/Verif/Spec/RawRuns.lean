import Verif.Model.RawRuns
import Verif.Spec.Settings
/-
Raw iterators in the form of `Gives` and `Leaves`, and what a file of raw records may hold.
-/
namespace Verif.Spec

/-- the raw iterators in the form of an iterator that may panic; they never do. -/
def rawStep {env : TextEnv} (pol : Pol) (it : RawRun env) : Except Err (Option Raw) × RawRun env :=
  (.ok (it.next pol).1, (it.next pol).2)

def filteredStep {env : TextEnv} (pol : Pol) (it : FilteredRun env) : Except Err (Option (Raw × MrtRecord)) × FilteredRun env :=
  (.ok (it.next pol).1, (it.next pol).2)

/-- A BGP4MP record in the short form that early Zebra versions wrote, as far as lengths and the BGP marker show; whether it
parses or not. -/
def ShortShape (r : Raw) : Prop :=
  (r.header.type = .bgp4mp ∨ r.header.type = .bgp4mpEt) ∧
    (r.header.subtype = 0 ∧ r.body.length = 8 ∨
     (r.header.subtype = 1 ∨ r.header.subtype = 6 ∨ r.header.subtype = 8 ∨ r.header.subtype = 10) ∧
       ∃ asns len rest, r.body = asns ++ List.replicate 16 0xFF ++ len ++ 1 :: rest ∧ asns.length = 4 ∧ len.length = 2)

/-- The start of a record, but not all of it; at least one octet. -/
def Torn (r : Raw) (part : Bytes) : Prop := part ≠ [] ∧ ∃ rest, rest ≠ [] ∧ r.bytes = part ++ rest

/-- Iterating over the raw records of a file with these bytes gives these records, whatever the settings of the parser and the
reader; the log and the core dump stay as they are. -/
def ReadsAs (b : Bytes) (rs : List Raw) : Prop :=
  ∀ (env : TextEnv) (pol : Pol) (p : Parser env) (w : World) (s : Src), p.input = .mrt s → Delivers s b →
    Gives (rawStep pol) (p.raws w) rs ∧ ∃ it, Leaves (rawStep pol) (p.raws w) it ∧ it.world = w

/-- The same, but an error about an early end of the file is logged; a core dump, if enabled, holds the last bytes. -/
def ReadsAsThen (b : Bytes) (rs : List Raw) (part : Bytes) : Prop :=
  ∀ (env : TextEnv) (pol : Pol) (p : Parser env) (w : World) (s : Src), p.input = .mrt s → Delivers s b →
    Gives (rawStep pol) (p.raws w) rs ∧ ∃ it, Leaves (rawStep pol) (p.raws w) it ∧
      (it.world.log = w.log ++ [.failure .eof] ∨ it.world.log = w.log ++ [.failure .ioEof]) ∧
      it.world.dump = if p.coreDump = true then some part else w.dump

end Verif.Spec
