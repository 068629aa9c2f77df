import Verif.Spec.Diagnostic
import Verif.Spec.Attr
import Verif.Spec.Bgp
/-
Which bytes of a record each finding of a diagnostic report should point at.
-/
namespace Verif.Spec

/-- the warnings of a path attributes section. -/
def sectionWarnings (cfg : AttrCfg) (b : Bytes) : List Warning :=
  match parseAttributes cfg b with
  | .ok a => a.warnings
  | .error _ => []

/-- the warnings that are due to `x` when it follows `before`. -/
def addedWarnings (cfg : AttrCfg) (before x : Bytes) : List Warning :=
  (sectionWarnings cfg (before ++ x)).drop (sectionWarnings cfg before).length

/-- A warning about an attribute points at this attribute; only the warning of a malformed attribute list points at the
whole list. -/
def attrRange (own list : Nat × Nat) : Warning → Nat × Nat
  | .malformedList => list
  | _ => own

/-- The findings about the attributes `xs`, which follow the attributes `before` in a list that starts at `start`. -/
def attrFindings (cfg : AttrCfg) (start : Nat) (list : Nat × Nat) : List Wire → List Wire → List ((Nat × Nat) × Finding)
  | _, [] => []
  | before, x :: xs =>
    (addedWarnings cfg (wireBytes before) x.bytes).map
      (fun f => (attrRange (start + (wireBytes before).length, x.bytes.length) list f, .attr f)) ++
    attrFindings cfg start list (before ++ [x]) xs

/-- The findings about an UPDATE with the warnings `ws`, whose body starts at `off` in a record of `total` octets, with
withdrawn routes `w`, path attributes `xs`, at their end the remains `rest` of an attribute, and NLRI `n`. First come the
findings about the attributes, then those about the remains. Of the other findings, those about a prefix field point at
this field; those about missing attributes point at the attributes, and if there are none at the record. -/
def updateFindings (cfg : AttrCfg) (total off : Nat) (w : Bytes) (xs : List Wire) (rest n : Bytes) (ws : List Warning) :
    List ((Nat × Nat) × Finding) :=
  let a := wireBytes xs ++ rest
  let start := off + 2 + w.length + 2
  attrFindings cfg start (start, a.length) [] xs ++
  (addedWarnings cfg (wireBytes xs) rest).map (fun f => ((start + (wireBytes xs).length, rest.length), .attr f)) ++
  (ws.drop (sectionWarnings cfg a).length).map (fun f => (match f with
    | .malformedNlri true _ => (off + 2, w.length)
    | .malformedNlri false _ => (start + a.length, n.length)
    | _ => if a = [] then (0, total) else (start, a.length), .attr f))

end Verif.Spec
