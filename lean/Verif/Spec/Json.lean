import Verif.Model.Json
import Verif.Spec.Display
/-
What the JSON documents of paths and elements are.
-/
namespace Verif.Spec

/-! ### documents -/

/-- The object has exactly one entry with this key, with this value. -/
def HasEntry (kvs : List (String × Json)) (k : String) (v : Json) : Prop :=
  ∃ a b, kvs = a ++ (k, v) :: b ∧ (∀ kv ∈ a, kv.1 ≠ k) ∧ ∀ kv ∈ b, kv.1 ≠ k

/-- The object has no entry with this key. -/
def LacksEntry (kvs : List (String × Json)) (k : String) : Prop := ∀ kv ∈ kvs, kv.1 ≠ k

/-- a number in JSON. -/
def number (n : Nat) : Json := .int n

/-- null for what is absent. -/
def orNull (f : α → Json) (o : Option α) : Json := (o.map f).getD .null

/-! ### paths -/

/-- a segment of an AS path that no other form than the verbose one can express. -/
def IsConfed : Seg → Prop
  | .confedSeq _ | .confedSet _ => True
  | .seq _ | .set _ => False

/-- Two sequences follow each other in the path. -/
def AdjacentSeqs (p : AsPath) : Prop := ∃ a xs ys b, p = a ++ Seg.seq xs :: Seg.seq ys :: b

/-- The path can be written as a list of AS numbers and sets. -/
def Flat (p : AsPath) : Prop := (∀ s ∈ p, ¬ IsConfed s) ∧ ¬ AdjacentSeqs p

/-- The path has a sequence without AS numbers. -/
def HasEmptySeq (p : AsPath) : Prop := Seg.seq [] ∈ p

/-- What stands in the flat list: AS numbers, and sets. -/
inductive PathEntry where
  | hop (a : Asn)
  | set (xs : List Asn)

/-- the entries of a path. -/
def pathEntries (p : AsPath) : List PathEntry :=
  p.flatMap fun
    | .seq xs | .confedSeq xs => xs.map .hop
    | .set xs | .confedSet xs => [.set xs]

/-- an entry in JSON: a number, or an array of numbers. -/
def pathEntryJson : PathEntry → Json
  | .hop a => number a.toNat
  | .set xs => .arr (xs.map fun a => number a.toNat)

/-- the name of the kind of a segment in RFC 3065. -/
def kindName : Seg → String
  | .set _ => "AS_SET"
  | .seq _ => "AS_SEQUENCE"
  | .confedSeq _ => "AS_CONFED_SEQUENCE"
  | .confedSet _ => "AS_CONFED_SET"

/-- A segment in JSON: an object with its kind and its AS numbers, and maybe other entries. -/
def VerboseSeg (s : Seg) (j : Json) : Prop :=
  ∃ kvs, j = .obj kvs ∧ HasEntry kvs "ty" (.str (kindName s)) ∧ HasEntry kvs "values" (.arr (s.asns.map fun a => number a.toNat))

/-! ### elements -/

/-- What is assumed of std and `serde_json`: what is written of an address, a prefix or a time is read as the same. -/
structure JsonOk (env : JsonEnv) : Prop where
  ip : ∀ a, env.ip (a.text env.out) = some a
  v4 : ∀ a, env.v4 (v4Text a) = some a
  v6 : ∀ a, env.v6 (env.out.v6 a) = some a
  net : ∀ n : IpNet, n.len.toNat ≤ n.addr.maxLen → env.net (n.text env.out) = some n
  time : ∀ t, env.timeOf (env.time t) = some t

/-- the `f32` in a community, as its bits. -/
def communityFloat : MetaCommunity → Option UInt32
  | .extended (.trafficRate _ r) => some r
  | .extended (.linkBandwidth _ b _) => some b
  | _ => none

/-- The number is neither infinite nor NaN: not all exponent bits are set. -/
def FiniteF32 (bits : UInt32) : Prop := bits &&& 0x7F800000 ≠ 0x7F800000

/-- Each `f32` in the communities is read as it was written. -/
def FloatsKept (env : JsonEnv) (e : BgpElem) : Prop :=
  ∀ cs, e.communities = some cs → ∀ c ∈ cs, ∀ r, communityFloat c = some r → env.f32Of (env.f32 r) = some r

/-- What is assumed of `serde_json` for numbers JSON cannot express: null is written, and null is not read as a number. -/
structure NullForNaN (env : JsonEnv) : Prop where
  write : ∀ r, ¬ FiniteF32 r → env.f32 r = .null
  read : env.f32Of .null = none

/-- The path is read as it was written. -/
def PathKept (p : Option AsPath) : Prop := ∀ q, p = some q → Flat q → ¬ HasEmptySeq q

end Verif.Spec
