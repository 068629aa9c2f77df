import Verif.Spec.DissectLabels
import Verif.Spec.Bgp
/-
What a reader of a dissected message should see of its header, and of messages other than UPDATE.
-/
namespace Verif.Spec

/-- the name and the number of a message type. -/
def typeShown : MsgType → List Char
  | .open => "OPEN (1)".toList
  | .update => "UPDATE (2)".toList
  | .notification => "NOTIFICATION (3)".toList
  | .keepAlive => "KEEPALIVE (4)".toList
  | .routeRefresh => "ROUTE-REFRESH (5)".toList

/-- the two numbers of the error, and the length of the data if there is any. -/
def notificationShown (m : Notification) : List (List Char) :=
  ["Error code: ".toList ++ num (errorNum m.error).1, "Error subcode: ".toList ++ num (errorNum m.error).2] ++
  (if m.data = [] then [] else ["Data (".toList ++ num m.data.length ++ " bytes)".toList])

/-- family, subtype, and the length of the data if there is any. -/
def refreshShown (m : RouteRefresh) : List (List Char) :=
  ["AFI: ".toList ++ num m.afi.toNat, "Subtype: ".toList ++ num m.subtype.toNat, "SAFI: ".toList ++ num m.safi.toNat] ++
  (if m.data = [] then [] else ["ORF data (".toList ++ num m.data.length ++ " bytes)".toList])

/-- the fixed fields before the length of the optional parameters. -/
def openShown (m : Open) : List (List Char) :=
  ["Version: ".toList ++ num m.version.toNat, "My AS: ".toList ++ num m.asn.toNat,
    "Hold time: ".toList ++ num m.holdTime.toNat ++ "s".toList, "BGP identifier: ".toList ++ v4Text m.bgpId]

end Verif.Spec
