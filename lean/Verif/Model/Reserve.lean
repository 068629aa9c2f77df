import Verif.Model.Route
/-
The capacity that `parse_rib_afi_entries` (Model/MrtBody.lean, `parseRibAfi`) reserves before it reads entries.
-/
namespace Verif

/-- `reserve` (rib_afi_entries.rs 74-77): `entryCount` entries are announced, `remaining` octets follow. `saturating_mul` does not
saturate, since `entryCount` is at most 65535. -/
def ribReserve (addPath : Bool) (entryCount remaining : Nat) : Nat := min entryCount (remaining / ribEntryMinLen addPath) * 2

end Verif
