import Verif.Model.Shared
import Verif.Spec.RawRuns
import Verif.Spec.Route
/-
Records that are converted one by one with one elementor, and threads that do so.
-/
namespace Verif.Spec

/-- a peekable iterator in the form of an iterator that may panic; it never does. -/
def peekStep {σ α : Type} (next : σ → Option α × σ) (it : Peekable σ α) : Except Err (Option α) × Peekable σ α :=
  (.ok (it.next next).1, (it.next next).2)

/-- The raw record is a peer index table. -/
def RawTable (r : Raw) : Prop := ∃ m, r.parse = .ok m ∧ IsTable m

/-- What is left of some items once a table in front is taken away. -/
def AfterTable {α : Type} (table : α → Prop) (xs rest : List α) : Prop :=
  (∃ x, table x ∧ xs = x :: rest) ∨ (rest = xs ∧ ∀ x, xs.head? = some x → ¬ table x)

/-- The pool after some steps, in whatever order the threads make them. -/
inductive Runs {env : TextEnv} (pol : Pol) (el : Elementor) (size : Nat) : Nat → Pool env → Pool env → Prop where
  | refl {p} : Runs pol el size 0 p p
  | step {n p q r} : Pool.Step pol el size p q → Runs pol el size n q r → Runs pol el size (n + 1) p r

/-- All threads have left their loops. -/
def Finished {env : TextEnv} (p : Pool env) : Prop := ∀ w ∈ p.workers, w.left = true

end Verif.Spec
