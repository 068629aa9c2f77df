import Verif.Spec.AsPath
/-
Specification of the AS path accessors.
-/
namespace Verif.Spec

/-- no sequence segment is empty. -/
def NoEmptySequence (p : AsPath) : Prop := ∀ s ∈ p, s ≠ .seq [] ∧ s ≠ .confedSeq []

/-- the AS of a hop that stands for one AS: a plain hop or a set with one member. -/
def hop : Atom → Option Asn
  | .asn a => some a
  | .set [a] => some a
  | _ => none

/-- the ASes of a list of hops, if each stands for one AS. -/
def hops : List Atom → Option (List Asn)
  | [] => some []
  | a :: r => match hop a with
    | some x => (hops r).map (x :: ·)
    | none => none

/-- `AllHops p zs`: `zs` lists, segment by segment, the ASes of the path. -/
inductive AllHops : List Seg → List (List Asn) → Prop where
  | nil : AllHops [] []
  | cons {s : Seg} {p : List Seg} {z : List Asn} {zs : List (List Asn)} :
      hops (segAtoms s) = some z → AllHops p zs → AllHops (s :: p) (z :: zs)

/-- remove immediate repetitions. -/
def squeeze : List Asn → List Asn
  | [] => []
  | [x] => [x]
  | x :: y :: r => if x = y then squeeze (y :: r) else x :: squeeze (y :: r)

/-- no two neighbours are equal. -/
def NoRepeat : List Asn → Prop
  | [] => True
  | [_] => True
  | x :: y :: r => x ≠ y ∧ NoRepeat (y :: r)

end Verif.Spec
