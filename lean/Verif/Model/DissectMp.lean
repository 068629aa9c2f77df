import Verif.Model.DissectRecord
/-
The labels of the body of a dissected BGP4MP record: `/repo/src/parser/mrt/dissect.rs`. A position in the body is the octets
from there on.
-/
namespace Verif

/-- a digit of `{:02x}` (std). -/
def lowDigit (n : Nat) : Char := if n < 10 then Char.ofNat (48 + n) else Char.ofNat (87 + n)

/-- `{:02x}{:02x}` for each two octets (mrt/dissect.rs 415-418). -/
def hexPairs : Bytes → List (List Char)
  | a :: b :: r => [lowDigit (a.toNat / 16), lowDigit (a.toNat % 16), lowDigit (b.toNat / 16), lowDigit (b.toNat % 16)] :: hexPairs r
  | _ => []

/-- `render_ip` (mrt/dissect.rs 411-422). Its callers pass four or sixteen octets. -/
def renderIp (o : Bytes) : List Char :=
  match o with
  | [a, b, c, d] => v4Text #v[a, b, c, d]
  | o => joinSep [':'] (hexPairs o)

/-- `read_asn` (mrt/dissect.rs 398-409) at the front, and what follows; `none` if the octets do not suffice, which the caller
has checked (mrt/dissect.rs 185). -/
def asnFront (as4 : Bool) (s : Bytes) : Option (Nat × Bytes) :=
  if as4 then match s with
    | a :: b :: c :: e :: r => some ((u32of a b c e).toNat, r)
    | _ => none
  else match s with
    | a :: b :: r => some ((u16of a b).toNat, r)
    | _ => none

/-- `walk_bgp4mp_addresses` (mrt/dissect.rs 308-379): the labels, and what follows the addresses. -/
def addressLabels (s : Bytes) : List (List Char) × Option Bytes :=
  match s with
  | a :: b :: f :: g :: r =>
    let afi := (u16of f g).toNat
    let head := [lit "Interface index: " ++ decText (u16of a b).toNat, lit "Address family: " ++ decText afi ++ lit " (" ++
      (if afi = 1 then lit "IPv4" else if afi = 2 then lit "IPv6" else lit "unknown") ++ lit ")"]
    if afi = 1 ∨ afi = 2 then
      let n := if afi = 1 then 4 else 16
      if r.length < 2 * n then (head ++ [lit "Truncated peer/local addresses"], none)
      else (head ++ [lit "Peer IP: " ++ renderIp (r.take n), lit "Local IP: " ++ renderIp ((r.drop n).take n)],
        some ((r.drop n).drop n))
    else (head ++ [lit "Unknown AFI " ++ decText afi ++ lit "; cannot walk further"], none)
  | _ => ([lit "Truncated before interface index / AFI"], none)

/-- `bgp_state_name` (mrt/dissect.rs 424-434). -/
def stateTitle (n : Nat) : List Char :=
  lit (match n with
    | 1 => "Idle" | 2 => "Connect" | 3 => "Active" | 4 => "OpenSent" | 5 => "OpenConfirm" | 6 => "Established"
    | _ => "Unknown")

/-- the old and the new state (mrt/dissect.rs 241-256 and 273-298). -/
def stateLabels (s : Bytes) : List (List Char) :=
  match s with
  | a :: b :: c :: d :: _ =>
    [lit "Old state: " ++ decText (u16of a b).toNat ++ lit " (" ++ stateTitle (u16of a b).toNat ++ lit ")",
      lit "New state: " ++ decText (u16of c d).toNat ++ lit " (" ++ stateTitle (u16of c d).toNat ++ lit ")"]
  | _ => [lit "Truncated old/new states"]

/-- the labels of the nodes under the body, and the octets dissected as a BGP message, with the width of AS numbers and
whether path identifiers are expected. -/
structure MpLabels where
  fields : List (List Char)
  message : Option (Bytes × AsnLen × Bool)
deriving DecidableEq, Repr

/-- `dissect_bgp4mp` (mrt/dissect.rs 158-302). -/
def mpLabels (sub : Nat) (d : Bytes) : MpLabels :=
  let as4 := decide (sub = 4 ∨ sub = 5 ∨ sub = 7 ∨ sub = 9 ∨ sub = 11)
  let l := if as4 then AsnLen.b32 else AsnLen.b16
  let addPath := decide (8 ≤ sub ∧ sub ≤ 11)
  let isState := sub = 0 ∨ sub = 5
  let cut := ⟨[lit "Subheader (truncated: " ++ decText d.length ++ lit " of at least " ++ decText (if as4 then 8 else 4) ++
    lit " bytes)"], none⟩
  match asnFront as4 d with
  | none => cut
  | some (peer, r) =>
    match asnFront as4 r with
    | none => cut
    | some (loc, rest) =>
      let head := [lit "Peer ASN: " ++ decText peer, lit "Local ASN: " ++ decText loc]
      if 16 ≤ rest.length ∧ (rest.take 16).all (· == 0xFF) then
        ⟨head ++ [lit "Missing interface/AFI/address fields (old Zebra record)"], some (rest, l, addPath)⟩
      else if isState ∧ as4 = false ∧ d.length = 8 then ⟨head ++ stateLabels rest, none⟩
      else match addressLabels rest with
        | (ls, none) => ⟨head ++ ls, none⟩
        | (ls, some r) => if isState then ⟨head ++ ls ++ stateLabels r, none⟩ else ⟨head ++ ls, some (r, l, addPath)⟩

end Verif
