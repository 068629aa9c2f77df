import Verif.Model.Community
/-
Which community values have a wire representation of their own.
-/
namespace Verif.Spec

/-- A standard community: 16-bit AS number, and the three well-known values are written with their own constructor. -/
def CommunityOk : Community → Prop
  | .custom a v => a.toNat ≤ 65535 ∧ ¬ (a = 65535 ∧ (v = 0xFF01 ∨ v = 0xFF02 ∨ v = 0xFF03))
  | _ => True

/-- the eight assigned type octets. -/
def KnownExtType (t : UInt8) : Prop := t ∈ [0x00, 0x01, 0x02, 0x03, 0x40, 0x41, 0x42, 0x43]

/-- An extended community that is the canonical form of its eight bytes: two-octet AS numbers fit 16 bits, sub-types
with a dedicated constructor use it, DSCP is six bits, and unparsed communities do not have an assigned type. -/
def ExtCommunityOk : ExtCommunity → Prop
  | .twoOctetAs st a _ => a.toNat ≤ 65535 ∧ st ≠ 4
  | .ntTwoOctetAs st a _ => a.toNat ≤ 65535 ∧ st ∉ [4, 6, 7, 8, 9]
  | .redirect st a _ => a.toNat ≤ 65535 ∧ st = 8
  | .trafficMarking _ d => d.toNat < 64
  | .raw b => ¬ KnownExtType b[0]
  | _ => True

/-- An IPv6 extended community whose type octet is written with the assigned constructor when there is one. -/
def Ipv6ExtCommunityOk (c : Ipv6ExtCommunity) : Prop :=
  match c.type with
  | .unknown t => ¬ KnownExtType t
  | _ => True

instance (c : Community) : Decidable (CommunityOk c) := by
  cases c <;> unfold CommunityOk <;> infer_instance
instance (t : UInt8) : Decidable (KnownExtType t) := by unfold KnownExtType; infer_instance
instance (c : ExtCommunity) : Decidable (ExtCommunityOk c) := by
  cases c <;> unfold ExtCommunityOk <;> infer_instance
instance (c : Ipv6ExtCommunity) : Decidable (Ipv6ExtCommunityOk c) := by
  unfold Ipv6ExtCommunityOk; split <;> infer_instance

end Verif.Spec
