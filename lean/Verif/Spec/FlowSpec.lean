import Verif.Model.FlowSpec
import Verif.Spec.Nlri
/-
Well-formed FlowSpec rules (RFC 8955).
-/
namespace Verif.Spec

/-- one of the four value widths, and wide enough for the value. -/
def WidthOk (len : UInt8) (v : UInt64) : Prop :=
  (len = 1 ∨ len = 2 ∨ len = 4 ∨ len = 8) ∧ v.toNat < 256 ^ len.toNat

instance (l : UInt8) (v : UInt64) : Decidable (WidthOk l v) := inferInstanceAs (Decidable (_ ∧ _))

/-- a list whose last element, and no other, is marked. -/
def EndMarked (f : α → Bool) : List α → Prop
  | [] => False
  | [a] => f a = true
  | a :: as => f a = false ∧ EndMarked f as

instance (f : α → Bool) : (as : List α) → Decidable (EndMarked f as)
  | [] => inferInstanceAs (Decidable False)
  | [a] => inferInstanceAs (Decidable (f a = true))
  | a :: b :: as => @instDecidableAnd _ _ _ (instDecidableEndMarked f (b :: as))
where instDecidableEndMarked (f : α → Bool) : (as : List α) → Decidable (EndMarked f as)
  | [] => inferInstanceAs (Decidable False)
  | [a] => inferInstanceAs (Decidable (f a = true))
  | _ :: b :: as => @instDecidableAnd _ _ _ (instDecidableEndMarked f (b :: as))

/-- a prefix that the component form can carry: at most 32 bits for IPv4, 33 to 128 for IPv6, no path id, and no octet
beyond the last significant one. -/
def FsPrefixOk (p : NetworkPrefix) : Prop :=
  p.pathId = none ∧ TailZero p.prefix_ ∧
  match p.prefix_.addr with
  | .v4 _ => p.prefix_.len.toNat ≤ 32
  | .v6 _ => 32 < p.prefix_.len.toNat ∧ p.prefix_.len.toNat ≤ 128

/-- a component in the form the parser produces. -/
def FsCompOk : FsComp → Prop
  | .dstPrefix p | .srcPrefix p => FsPrefixOk p
  | .numeric _ ops => EndMarked NumOp.eol ops ∧ ∀ o ∈ ops, WidthOk o.valueLen o.value
  | .bitmask _ ops => EndMarked BitOp.eol ops ∧ ∀ o ∈ ops, WidthOk o.valueLen o.bitmask
  | .dstPrefix6 _ _ | .srcPrefix6 _ _ => False

/-- strictly increasing component types. -/
def FsOrdered (cs : List FsComp) : Prop := cs.Pairwise (fun a b => a.code < b.code)

end Verif.Spec
