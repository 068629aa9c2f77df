import Verif.Spec.JsonAttrs
/-
What is read of the JSON of elements.
-/
namespace Verif.Spec

/-- the element that is read of one that was written: in the flat form of a path the sequences without AS numbers are lost. -/
noncomputable def elemRead (e : BgpElem) : BgpElem := { e with asPath := e.asPath.map pathRead }

/-- the same for route elements. -/
noncomputable def routeRead (e : RouteElem) : RouteElem := { e with asPath := e.asPath.map pathRead }

/-- The numbers in the communities of an element are neither infinite nor NaN. -/
def ElemFinite (e : BgpElem) : Prop := ∀ cs, e.communities = some cs → ∀ c ∈ cs, ∀ r, communityFloat c = some r → FiniteF32 r

open Classical in
/-- What a reader makes of the JSON of an element: the element, or nothing because of a number that JSON cannot express. -/
noncomputable def readAgain (e : BgpElem) : Option BgpElem := if ElemFinite e then some (elemRead e) else none

end Verif.Spec
