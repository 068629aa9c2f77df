import Verif.Model.Net
/-
AS paths: `/repo/src/models/bgp/attributes/aspath.rs` and
`/repo/src/parser/bgp/attributes/attr_02_17_as_path.rs`.
-/
namespace Verif

/-- `AsPathSegment` (src/models/bgp/attributes/aspath.rs 16-26). `SmallVec` is a list. Lean's `=` on this type is
structural; Rust's `==` is `Seg.eq` below. -/
inductive Seg where
  | seq (xs : List Asn)
  | set (xs : List Asn)
  | confedSeq (xs : List Asn)
  | confedSet (xs : List Asn)
deriving DecidableEq, Repr

/-- `AsPath` (aspath.rs 391-394): its segments. -/
abbrev AsPath := List Seg

namespace Seg

/-- `AsRef<[Asn]>` / `IntoIterator` (aspath.rs 171-216). -/
def asns : Seg → List Asn
  | seq xs | set xs | confedSeq xs | confedSet xs => xs

/-- `route_len` (aspath.rs 41-47). -/
def routeLen : Seg → Nat
  | seq xs => xs.length
  | set _ => 1
  | confedSeq _ | confedSet _ => 0

/-- `is_empty` (aspath.rs 56-58). -/
def isEmpty (s : Seg) : Bool := s.asns.isEmpty

/-- `is_confed` (aspath.rs 74-79). -/
def isConfed : Seg → Bool
  | confedSeq _ | confedSet _ => true
  | _ => false

/-- the guard `x @ (AsSequence(_) | ConfedSequence(_)) … if x.is_empty()` (aspath.rs 92, 114) and the pattern of the
third arm (96, 118). -/
def isEmptySeq : Seg → Bool
  | seq xs | confedSeq xs => xs.isEmpty
  | _ => false

/-- `merge_in_place` (aspath.rs 84-99): the new `self` and `other` and the returned flag. -/
def merge (a b : Seg) : Seg × Seg × Bool :=
  match a, b with
  | seq x, seq y => (seq (x ++ y), seq y, true)
  | confedSeq x, confedSeq y => (confedSeq (x ++ y), confedSeq y, true)
  | a, b =>
    if a.isEmptySeq then (b, a, true)
    else if b.isEmptySeq then (a, b, true)
    else (a, b, false)

/-- `Vec::dedup`: removes adjacent repetitions. -/
def dedupAdj : List Asn → List Asn
  | [] => []
  | [x] => [x]
  | x :: y :: r => if x = y then dedupAdj (y :: r) else x :: dedupAdj (y :: r)

/-- insertion into a sorted list. -/
def insAsn (a : Asn) : List Asn → List Asn
  | [] => [a]
  | b :: r => if a ≤ b then a :: b :: r else b :: insAsn a r

/-- `sort_unstable` on ASNs; with keys equal only for equal values the result of any sort is determined, so insertion
sort stands for it. -/
def sortAsns (xs : List Asn) : List Asn := xs.foldr insAsn []

/-- `AsPathSegment::dedup` (aspath.rs 128-146). -/
def dedup : Seg → Seg
  | seq xs => seq (dedupAdj xs)
  | confedSeq xs => confedSeq (dedupAdj xs)
  | set xs =>
    let d := dedupAdj (sortAsns xs)
    if d.length = 1 then seq d else set d
  | confedSet xs =>
    let d := dedupAdj (sortAsns xs)
    if d.length = 1 then confedSeq d else confedSet d

/-- `dedup_merge_in_place` (aspath.rs 105-122). -/
def dedupMerge (a b : Seg) : Seg × Seg × Bool :=
  match a, b.dedup with
  | seq x, seq y => (seq (dedupAdj (x ++ y)), seq y, true)
  | confedSeq x, confedSeq y => (confedSeq (dedupAdj (x ++ y)), confedSeq y, true)
  | a, b =>
    if a.isEmptySeq then (b, a, true)
    else if b.isEmptySeq then (a, b, true)
    else (a, b, false)

/-- `PartialEq for AsPathSegment` (aspath.rs 264-303). Up to 32 members both sides are copied to buffers and sorted
(288-298), beyond that `sorted()` iterators are zipped (300-303). -/
def eq (a b : Seg) : Bool :=
  let setEq (x y : List Asn) : Bool :=
    if x.length ≠ y.length then false
    else if x = y then true
    else if x.length ≤ 32 then decide (sortAsns x = sortAsns y)
    else ((sortAsns x).zip (sortAsns y)).all fun (a, b) => decide (a = b)
  match a, b with
  | seq x, seq y => decide (x = y)
  | confedSeq x, confedSeq y => decide (x = y)
  | set x, set y => setEq x y
  | confedSet x, confedSet y => setEq x y
  | _, _ => false

/-- `discriminant(self)`. -/
def disc : Seg → UInt32
  | seq _ => 0
  | set _ => 1
  | confedSeq _ => 2
  | confedSet _ => 3

/-- What `Hash for AsPathSegment` (aspath.rs 219-247) writes to the hasher: the discriminant, then the slice (with its
length) for sequences, or the sorted members (without length) for sets. Each write is one token. -/
def hashFeed (s : Seg) : List UInt64 :=
  s.disc.toUInt64 :: match s with
    | seq xs | confedSeq xs => UInt64.ofNat xs.length :: xs.map (·.toUInt64)
    | set xs | confedSet xs => (sortAsns xs).map (·.toUInt64)

/-- `AsPathSegment::to_u32_vec_opt` (aspath.rs 148-168). -/
def toU32VecOpt (dedup : Bool) : Seg → Option (List UInt32)
  | seq xs => some (if dedup then dedupAdj xs else xs)
  | set [x] => some [x]
  | _ => none

end Seg

namespace AsPath

/-- `AsPath::route_len` (aspath.rs 453-455). -/
def routeLen (p : AsPath) : Nat := (p.map Seg.routeLen).sum

/-- `contains_asn` (aspath.rs 480-482). -/
def containsAsn (p : AsPath) (x : Asn) : Bool := p.any fun s => s.asns.contains x

/-- derived `PartialEq for AsPath`: segment-wise `==`. -/
def eq : AsPath → AsPath → Bool
  | [], [] => true
  | a :: as, b :: bs => a.eq b && eq as bs
  | _, _ => false

/-- derived `Hash for AsPath`: the number of segments, then each segment. -/
def hashFeed (p : AsPath) : List UInt64 := UInt64.ofNat p.length :: p.flatMap Seg.hashFeed

/-- `num_route_variations` (aspath.rs 467-477). Overflow of the `u64` product panics in a debug build (and wraps in a
release build); the model reports it as `panic`. -/
def numRouteVariations (p : AsPath) : Except Err UInt64 :=
  p.foldlM (init := (1 : UInt64)) fun acc s =>
    match s with
    | .set xs => if acc.toNat * xs.length < 2 ^ 64 then .ok (UInt64.ofNat (acc.toNat * xs.length)) else .error .panic
    | _ => .ok acc

/-- State of `AsPathNumberedRouteIter` (aspath.rs 310-314). -/
structure NumIter where
  path : List Seg
  index : Nat
  routeNum : Nat

/-- `AsPathNumberedRouteIter::next` (aspath.rs 319-345); the `loop` is recursion on the remaining segments. -/
def numNext : List Seg → Nat → Nat → Option (Asn × NumIter)
  | [], _, _ => none
  | .seq xs :: rest, index, n =>
    match xs[index]? with
    | none => numNext rest 0 n
    | some a => some (a, ⟨.seq xs :: rest, index + 1, n⟩)
  | .set xs :: rest, index, n =>
    match h : xs with
    | [] => some (0, ⟨rest, index, n⟩)
    | x :: ys => some ((x :: ys)[n % (x :: ys).length]'(Nat.mod_lt _ (by simp)), ⟨rest, index, n / (x :: ys).length⟩)
  | _ :: rest, index, n => numNext rest index n

/-- `D::from_iter(route_asn_iter)`: drain the iterator. Fuel bounds the number of items; proved sufficient. -/
def numCollect : Nat → NumIter → List Asn
  | 0, _ => []
  | fuel + 1, it =>
    match numNext it.path it.index it.routeNum with
    | none => []
    | some (a, it') => a :: numCollect fuel it'

/-- number of ASNs a numbered route can have: enough fuel. -/
def numFuel (p : AsPath) : Nat := (p.map fun s => s.asns.length + 1).sum + 1

/-- `AsPathRouteIter::next` for a given `route_num` (aspath.rs 361-383): the route yielded. -/
def routeAt (p : AsPath) (n : Nat) : List Asn :=
  match n, p with
  | 0, [.seq xs] => xs
  | n, p => numCollect (numFuel p) ⟨p, 0, n⟩

/-- `iter_routes` collected (aspath.rs 615-626, 361-383): `route_num` runs from 0 while below `total_routes`. -/
def iterRoutes (p : AsPath) : Except Err (List (List Asn)) := do
  let total ← numRouteVariations p
  return (List.range total.toNat).map (routeAt p)

/-- The loop of `coalesce`/`dedup_coalesce` on the vector (aspath.rs 519-526, 570-577) with its indices; `m` is
`merge_in_place` or `dedup_merge_in_place`. The index expressions cannot be out of range (proved); `getD` is used only
to make the function total. -/
def coalesceLoop (m : Seg → Seg → Seg × Seg × Bool) : Nat → List Seg → Nat → Nat → List Seg × Nat
  | 0, v, e, _ => (v, e)
  | fuel + 1, v, e, s =>
    if s < v.length then
      let a := v.getD e (.seq [])
      let b := v.getD s (.seq [])
      match m a b with
      | (a', b', true) => coalesceLoop m fuel ((v.set e a').set s b') e (s + 1)
      | (a', b', false) =>
        let v := (v.set e a').set s b'
        let e := e + 1
        -- self.segments.swap(end_index, scan_index)
        let x := v.getD e (.seq [])
        let y := v.getD s (.seq [])
        coalesceLoop m fuel ((v.set e y).set s x) e (s + 1)
    else (v, e)

/-- `coalesce` (aspath.rs 515-529). -/
def coalesce (p : AsPath) : AsPath :=
  let (v, e) := coalesceLoop Seg.merge p.length p 0 1
  v.take (e + 1)

/-- `dedup_coalesce` (aspath.rs 563-580). -/
def dedupCoalesce (p : AsPath) : AsPath :=
  let p := match p with
    | [] => []
    | s :: r => s.dedup :: r
  let (v, e) := coalesceLoop Seg.dedupMerge p.length p 0 1
  v.take (e + 1)

/-- `has_equivalent_routing` (aspath.rs 586-594). -/
def hasEquivalentRouting (p q : AsPath) : Bool := eq p.dedupCoalesce q.dedupCoalesce

/-- `required_len` of an ASN (src/models/network/asn.rs 92-98). -/
def _root_.Verif.asnRequiredLen (a : Asn) : AsnLen := if a.toNat ≤ 65535 then .b16 else .b32

/-- `required_asn_length` (aspath.rs 597-605). -/
def requiredAsnLength (p : AsPath) : AsnLen :=
  ((p.flatMap Seg.asns).map asnRequiredLen).foldl (init := .b16) fun a b =>
    match a, b with
    | .b16, .b16 => .b16
    | _, _ => .b32

/-- The `for` loop of `merge_aspath_as4path` (aspath.rs 667-692): the leading segments taken from AS_PATH. The
`unreachable!` is `none`. -/
def takeLeading : List Seg → Nat → Option (List Seg)
  | [], _ => some []
  | seg :: rest, leading =>
    if leading = 0 then some []
    else if seg.routeLen = 0 then (takeLeading rest leading).map (seg :: ·)
    else if seg.routeLen ≤ leading then (takeLeading rest (leading - seg.routeLen)).map (seg :: ·)
    else match seg with
      | .seq v => (takeLeading rest 0).map (.seq (v.take leading) :: ·)
      | _ => none

/-- `merge_aspath_as4path` (aspath.rs 653-700); `none` is the `unreachable!` panic. -/
def mergeAs4 (aspath as4path : AsPath) : Option AsPath :=
  if aspath.routeLen < as4path.routeLen then some aspath
  else
    (takeLeading aspath (aspath.routeLen - as4path.routeLen)).map fun lead => coalesce (lead ++ as4path)

/-- `iter_origins` (aspath.rs 704-712). -/
def iterOrigins (p : AsPath) : List Asn :=
  match p.getLast? with
  | some (.seq v) => v.getLast?.toList
  | some (.set v) => v
  | _ => []

/-- `get_origin_opt` (aspath.rs 717-723). -/
def getOriginOpt (p : AsPath) : Option Asn :=
  match p.getLast? with
  | some (.seq v) => v.getLast?
  | some (.set [x]) => some x
  | _ => none

/-- `get_collector_opt` (aspath.rs 727-733). -/
def getCollectorOpt (p : AsPath) : Option Asn :=
  match p.head? with
  | some (.seq v) => v.head?
  | some (.set [x]) => some x
  | _ => none

/-- the `for seg in self.segments.iter().rev()` loop of `to_u32_vec_opt` (aspath.rs 739-745): `path` accumulates the
ASNs in reverse. -/
def toU32Loop (dedup : Bool) : List Seg → List UInt32 → Option (List UInt32)
  | [], acc => some acc
  | seg :: rest, acc =>
    match seg.toU32VecOpt dedup with
    | none => none
    | some p => toU32Loop dedup rest (acc ++ p.reverse)

/-- `AsPath::to_u32_vec_opt` (aspath.rs 735-758). -/
def toU32VecOpt (p : AsPath) (dedup : Bool) : Option (List UInt32) :=
  match toU32Loop dedup p.reverse [] with
  | none => none
  | some path => if path.isEmpty then none else some path.reverse

end AsPath

/-! ### wire format -/

/-- `parse_as_path_segment` (attr_02_17_as_path.rs 26-56). -/
def parseSeg (l : AsnLen) : Rd Seg := do
  let ty ← rdU8
  let count ← rdU8
  let rem ← Rd.remaining
  if rem < count.toNat * l.bytes then Rd.fail .truncated else do
  let path ← rdAsns l count.toNat
  if ty = 1 then pure (.set path)
  else if ty = 2 then pure (.seq path)
  else if ty = 3 then pure (.confedSeq path)
  else if ty = 4 then pure (.confedSet path)
  else Rd.fail .parse

/-- `parse_as_path` (attr_02_17_as_path.rs 14-24). -/
def parseAsPath (l : AsnLen) (input : Bytes) : Except Err AsPath := many (parseSeg l) input

/-- `write_asns` (attr_02_17_as_path.rs 78-100). -/
def writeAsns (l : AsnLen) : List Asn → Except EncErr Bytes
  | [] => .ok []
  | a :: as => do
    let b ← (match l with
      | .b32 => .ok (be32 a)
      | .b16 => do
        let _ ← checkMax a.toNat 65535
        .ok (be16 a.toUInt16) : Except EncErr Bytes)
    let bs ← writeAsns l as
    return b ++ bs

def Seg.code : Seg → UInt8
  | .set _ => 1
  | .seq _ => 2
  | .confedSeq _ => 3
  | .confedSet _ => 4

/-- `encode_as_path` (attr_02_17_as_path.rs 58-76). -/
def encodeAsPath (l : AsnLen) : AsPath → Except EncErr Bytes
  | [] => .ok []
  | s :: r => do
    let _ ← checkMax s.asns.length 255
    let body ← writeAsns l s.asns
    let rest ← encodeAsPath l r
    return s.code :: UInt8.ofNat s.asns.length :: body ++ rest

end Verif
