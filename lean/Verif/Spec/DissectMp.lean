import Verif.Spec.DissectRecord
import Verif.Spec.Mrt
import Verif.Model.DissectMp
/-
What a reader of a dissected BGP4MP record should see of its body.
-/
namespace Verif.Spec

/-- a number in hexadecimal, four digits. -/
def fourHex (n : Nat) : List Char :=
  [n / 4096, n / 256, n / 16, n].map fun d => ("0123456789abcdef".toList)[d % 16]?.getD ' '

/-- the address as four decimal numbers, or as eight groups of four hexadecimal digits. -/
def ipShown : Ip → List Char
  | .v4 a => v4Text a
  | .v6 a => ":".toList.intercalate ((List.range 8).map fun i =>
      fourHex ((a.toList[2 * i]?.getD 0).toNat * 256 + (a.toList[2 * i + 1]?.getD 0).toNat))

/-- the two AS numbers. -/
def asnsShown (peer loc : Asn) : List (List Char) :=
  ["Peer ASN: ".toList ++ num peer.toNat, "Local ASN: ".toList ++ num loc.toNat]

/-- interface, address family and addresses. -/
def endsShown (iface : UInt16) (peer loc : Ip) : List (List Char) :=
  ["Interface index: ".toList ++ num iface.toNat,
    (if peer.isV4 then "Address family: 1 (IPv4)" else "Address family: 2 (IPv6)").toList,
    "Peer IP: ".toList ++ ipShown peer, "Local IP: ".toList ++ ipShown loc]

/-- a session state by number and name. -/
def stateShown : BgpState → List Char
  | .idle => "1 (Idle)".toList
  | .connect => "2 (Connect)".toList
  | .active => "3 (Active)".toList
  | .openSent => "4 (OpenSent)".toList
  | .openConfirm => "5 (OpenConfirm)".toList
  | .established => "6 (Established)".toList
  | .clearing => "7 (Clearing)".toList
  | .deleted => "8 (Deleted)".toList

/-- a state that the dissection has a name for. -/
def NamedState (b : BgpState) : Prop := b ≠ .clearing ∧ b ≠ .deleted

/-- the two states. -/
def statesShown (old new : BgpState) : List (List Char) :=
  ["Old state: ".toList ++ stateShown old, "New state: ".toList ++ stateShown new]

end Verif.Spec
