import Verif.Spec.Concat
/-
How much is made of an input.
-/
namespace Verif.Spec

/-- the octets that a reader delivers, over its whole life. -/
def octetsIn : List Ev → Nat
  | [] => 0
  | .data _ bs :: r => bs.length + 1 + octetsIn r
  | .interrupted :: r => octetsIn r
  | .zero :: r => octetsIn r
  | .fail _ :: r => octetsIn r

/-- the replies of a reader that are no octets: ends of file and failures, but not interruptions. -/
def stopsIn : List Ev → Nat
  | [] => 0
  | .data _ _ :: r => stopsIn r
  | .interrupted :: r => stopsIn r
  | .zero :: r => stopsIn r + 1
  | .fail _ :: r => stopsIn r + 1

end Verif.Spec
