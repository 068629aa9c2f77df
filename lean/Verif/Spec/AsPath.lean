import Verif.Model.AsPath
/-
Specification vocabulary for AS paths, independent of how the code stores or scans segments.
-/
namespace Verif.Spec

/-- One hop of an AS path, forgetting segment boundaries of sequences. -/
inductive Atom where
  | asn (a : Asn)
  | set (xs : List Asn)
  | confed (a : Asn)
  | confedSet (xs : List Asn)
deriving DecidableEq, Repr

def segAtoms : Seg → List Atom
  | .seq xs => xs.map .asn
  | .set xs => [.set xs]
  | .confedSeq xs => xs.map .confed
  | .confedSet xs => [.confedSet xs]

/-- The hops of a path in order. -/
def atoms (p : AsPath) : List Atom := p.flatMap segAtoms

/-- RFC 4271/5065 path length of a hop: an AS_SET counts 1, confederation hops 0. -/
def Atom.routeLen : Atom → Nat
  | .asn _ | .set _ => 1
  | .confed _ | .confedSet _ => 0

def pathLen (as : List Atom) : Nat := (as.map Atom.routeLen).sum

/-- All routes a path stands for: pick one member from every AS_SET (the first set varies fastest), keep sequences,
ignore confederation segments. -/
def routes : List Seg → List (List Asn)
  | [] => [[]]
  | .seq xs :: rest => (routes rest).map (xs ++ ·)
  | .set xs :: rest => (routes rest).flatMap fun r => xs.map (· :: r)
  | _ :: rest => routes rest

/-- A route of a path, as a relation: one member from every AS_SET, every member of each AS_SEQUENCE. -/
inductive IsRoute : List Seg → List Asn → Prop
  | nil : IsRoute [] []
  | seq {xs rest r} : IsRoute rest r → IsRoute (.seq xs :: rest) (xs ++ r)
  | set {xs rest r a} : a ∈ xs → IsRoute rest r → IsRoute (.set xs :: rest) (a :: r)
  | confedSeq {xs rest r} : IsRoute rest r → IsRoute (.confedSeq xs :: rest) r
  | confedSet {xs rest r} : IsRoute rest r → IsRoute (.confedSet xs :: rest) r

/-- product of the AS_SET sizes. -/
def variations : List Seg → Nat
  | [] => 1
  | .set xs :: rest => xs.length * variations rest
  | _ :: rest => variations rest

/-- No two neighbouring segments can be merged, and no sequence is empty. -/
def Minimal : List Seg → Prop
  | [] => True
  | [s] => s ≠ .seq [] ∧ s ≠ .confedSeq []
  | s :: t :: rest =>
    s ≠ .seq [] ∧ s ≠ .confedSeq [] ∧
    (∀ x y, ¬ (s = .seq x ∧ t = .seq y)) ∧ (∀ x y, ¬ (s = .confedSeq x ∧ t = .confedSeq y)) ∧ Minimal (t :: rest)

/-- insert into a strictly increasing list, keeping it strictly increasing. -/
def insertU (a : Asn) : List Asn → List Asn
  | [] => [a]
  | b :: r => if a < b then a :: b :: r else if a = b then b :: r else b :: insertU a r

/-- the distinct members in increasing order. -/
def usort (xs : List Asn) : List Asn := xs.foldr insertU []

/-- The hops of a segment after normalising sets: distinct members in increasing order, and a one-member set counts as
a plain hop. -/
def normAtoms : Seg → List Atom
  | .seq xs => xs.map .asn
  | .confedSeq xs => xs.map .confed
  | .set xs => match usort xs with
    | [a] => [.asn a]
    | d => [.set d]
  | .confedSet xs => match usort xs with
    | [a] => [.confed a]
    | d => [.confedSet d]

/-- a plain (non-set) hop. -/
def Atom.isHop : Atom → Bool
  | .asn _ | .confed _ => true
  | _ => false

/-- drop immediate repetitions of plain hops (prepending). -/
def collapse : List Atom → List Atom
  | [] => []
  | [a] => [a]
  | a :: b :: r => if a = b ∧ a.isHop = true then collapse (b :: r) else a :: collapse (b :: r)

/-- The hops of a path with prepending removed and sets normalised. -/
def routing (p : AsPath) : List Atom := collapse (p.flatMap normAtoms)

end Verif.Spec
