import Verif.Spec.DissectLabels
import Verif.Model.Bgp
/-
What a reader of a dissected UPDATE should see, given the octets of its three sections and what the parser read.
-/
namespace Verif.Spec

/-- the two lengths, and the sections that are not empty, with their prefixes. -/
def updateShown (env : ShowEnv) (w a n : Nat) (u : Update) : List (List Char × List (List Char)) :=
  [("Withdrawn routes length: ".toList ++ num w, [])] ++
  (if w = 0 then [] else [("Withdrawn routes (".toList ++ num w ++ " bytes)".toList, u.withdrawn.map (NetworkPrefix.text env))]) ++
  [("Total path attribute length: ".toList ++ num a, [])] ++
  (if a = 0 then [] else [("Path attributes (".toList ++ num a ++ " bytes)".toList, [])]) ++
  (if n = 0 then [] else [("Network Layer Reachability Information (".toList ++ num n ++ " bytes)".toList,
    u.announced.map (NetworkPrefix.text env))])

end Verif.Spec
