import Verif.Spec.Elem
/-
The order of the attributes.
-/
namespace Verif.Spec

/-- RFC 4271 4.3: an attribute appears once. AGGREGATOR and AS4_AGGREGATOR count as one kind here. -/
def UnlikeCodes (a b : UInt8) : Prop := a ≠ b ∧ ¬ (a = 7 ∧ b = 18) ∧ ¬ (a = 18 ∧ b = 7)

instance (a b : UInt8) : Decidable (UnlikeCodes a b) := by unfold UnlikeCodes; infer_instance

/-- no two attributes of one kind. -/
def AllUnlike (as : List Attribute) : Prop := as.Pairwise fun a b => UnlikeCodes (assignedCode a.value) (assignedCode b.value)

/-- both absent, or both present and related. -/
inductive BothOr (R : α → α → Prop) : Option α → Option α → Prop where
  | none : BothOr R none none
  | some {a b : α} : R a b → BothOr R (some a) (some b)

/-- The same element, but for the order of the kinds of communities and of the attributes kept as bytes: the communities of each kind are
the same in the same order. -/
structure SameButOrder (e e' : BgpElem) : Prop where
  rest : { e with communities := none, unknown := none, deprecated := none } =
    { e' with communities := none, unknown := none, deprecated := none }
  communities : BothOr (fun l l' => ∀ k, ofKind k l = ofKind k l') e.communities e'.communities
  unknown : BothOr List.Perm e.unknown e'.unknown
  deprecated : BothOr List.Perm e.deprecated e'.deprecated

end Verif.Spec
