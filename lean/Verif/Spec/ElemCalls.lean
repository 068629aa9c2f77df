import Verif.Model.Elem
/-
Calls of an `Elementor` in any order.
-/
namespace Verif.Spec

/-- A call of an `Elementor` with a record: `set_peer_table`, or `record_to_elems`. -/
inductive ElementorCall where
  | set (r : MrtRecord)
  | convert (r : MrtRecord)

/-- the record of a call. -/
def ElementorCall.record : ElementorCall → MrtRecord
  | .set r | .convert r => r

/-- the `Elementor` after a call. -/
def ElementorCall.run (el : Elementor) : ElementorCall → Elementor
  | .set r => (el.setPeerTable r).1
  | .convert r => (el.recordToElems r).2

end Verif.Spec
