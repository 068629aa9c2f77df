import Verif.Model.Net
/-
What it means for a prefix to be representable in an NLRI field (independent of the parser).
-/
namespace Verif.Spec

/-- the address belongs to the address family (link-state NLRI is represented by 0.0.0.0). -/
def FamilyOk (afi : Afi) (a : Ip) : Prop :=
  match afi, a with
  | .ipv4, .v4 _ => True
  | .ipv6, .v6 _ => True
  | .linkState, .v4 o => o = v4zero
  | _, _ => False

/-- the prefix length is allowed in the address family. -/
def LenOk (afi : Afi) (len : UInt8) : Prop :=
  match afi with
  | .ipv4 => len.toNat ≤ 32
  | .ipv6 => len.toNat ≤ 128
  | .linkState => len = 0

/-- Octets `i` with `8*i ≥ len`, i.e. the ones that are not sent, are zero. -/
def TailZero (p : IpNet) : Prop :=
  ∀ i, p.len.toNat ≤ 8 * i → ∀ h : i < p.addr.octets.length, p.addr.octets[i] = 0

/-- A prefix that NLRI with this address family and Add-Path setting can carry. -/
structure PrefixOk (afi : Afi) (addPath : Bool) (p : NetworkPrefix) : Prop where
  family : FamilyOk afi p.prefix_.addr
  len : LenOk afi p.prefix_.len
  tail : TailZero p.prefix_
  path : p.pathId.isSome = addPath

/-! decidability, used only to discharge concrete examples -/

instance (afi : Afi) (a : Ip) : Decidable (FamilyOk afi a) := by
  unfold FamilyOk; cases afi <;> cases a <;> infer_instance

instance (afi : Afi) (l : UInt8) : Decidable (LenOk afi l) := by
  unfold LenOk; cases afi <;> infer_instance

instance (p : IpNet) : Decidable (TailZero p) :=
  decidable_of_iff (∀ i : Fin p.addr.octets.length, p.len.toNat ≤ 8 * i.val → p.addr.octets[i.val] = 0)
    ⟨fun h i hi hl => h ⟨i, hl⟩ hi, fun h i hi => h i.val hi i.isLt⟩

instance (afi : Afi) (ap : Bool) (p : NetworkPrefix) : Decidable (PrefixOk afi ap p) :=
  decidable_of_iff (FamilyOk afi p.prefix_.addr ∧ LenOk afi p.prefix_.len ∧ TailZero p.prefix_ ∧ p.pathId.isSome = ap)
    ⟨fun ⟨a, b, c, d⟩ => ⟨a, b, c, d⟩, fun ⟨a, b, c, d⟩ => ⟨a, b, c, d⟩⟩

end Verif.Spec
