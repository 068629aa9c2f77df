import Verif.Model.Net
/-
Sequences of blocks on the wire.
-/
namespace Verif.Spec

/-- `s` is the concatenation of one block for each element of the list, in order; `R a c` says that `c` is a block for
`a`. -/
inductive Blocks (R : α → Bytes → Prop) : List α → Bytes → Prop where
  | nil : Blocks R [] []
  | cons {a : α} {as : List α} {c s : Bytes} : R a c → Blocks R as s → Blocks R (a :: as) (c ++ s)

/-- the number `n` in two octets, most significant first. -/
def n16 (n : Nat) : Bytes := [UInt8.ofNat (n / 256), UInt8.ofNat n]

/-- the number `n` in four octets, most significant first. -/
def n32 (n : Nat) : Bytes := [UInt8.ofNat (n / 16777216), UInt8.ofNat (n / 65536), UInt8.ofNat (n / 256), UInt8.ofNat n]

/-- IANA address family numbers. -/
def afiNum : Afi → Nat
  | .ipv4 => 1
  | .ipv6 => 2
  | .linkState => 16388

/-- IANA subsequent address family identifiers. -/
def safiNum : Safi → Nat
  | .unicast => 1
  | .multicast => 2
  | .unicastMulticast => 3
  | .mplsLabel => 4
  | .linkState => 71
  | .linkStateVpn => 72
  | .mplsVpn => 128
  | .multicastVpn => 129
  | .flowSpec => 133
  | .flowSpecL3Vpn => 134

/-- an AS number in two or four octets. -/
def asnBytes (l : AsnLen) (a : Asn) : Bytes :=
  match l with
  | .b16 => n16 a.toNat
  | .b32 => n32 a.toNat

/-- the AS number fits its field. -/
def AsnFits (l : AsnLen) (a : Asn) : Prop := l = .b16 → a.toNat < 65536

instance (l : AsnLen) (a : Asn) : Decidable (AsnFits l a) := by unfold AsnFits; infer_instance

/-- element by element. -/
inductive Pairwise2 (R : α → β → Prop) : List α → List β → Prop where
  | nil : Pairwise2 R [] []
  | cons {a : α} {b : β} {as : List α} {bs : List β} : R a b → Pairwise2 R as bs → Pairwise2 R (a :: as) (b :: bs)

end Verif.Spec
