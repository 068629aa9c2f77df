import Verif.Model.Elem
/-
Filters and the element iterators: `/repo/src/parser/filter.rs`, `/repo/src/parser/iters/{mod,default,fallible}.rs`.
-/
namespace Verif

/-- The parts of other crates the filters use, as arbitrary functions: regular expressions (`regex`), the texts of AS
paths and communities they are applied to (`Display`), and the parsers of prefixes (`ipnet`), addresses (`std`) and times
(`parse_time_str`, filter.rs 229-237, over `chrono`, in seconds). -/
structure TextEnv where
  Rx : Type
  compile : List Char → Option Rx
  isMatch : Rx → List Char → Bool
  pathText : AsPath → List Char
  commText : MetaCommunity → List Char
  ipNet : List Char → Option IpNet
  ipAddr : List Char → Option Ip
  ipv4 : List Char → Option V4
  seconds : List Char → Option Int

/-- `PrefixMatchType` (filter.rs 221-227). -/
inductive MatchType where
  | exact
  | super
  | sub
  | superSub
deriving DecidableEq, Repr

/-- `PresentField` (filter.rs 203-213). -/
inductive Field where
  | otc
  | nextHop
  | origin
  | localPref
  | med
  | aggrAsn
  | aggrIp
  | peerBgpId
deriving DecidableEq, Repr

/-- `Filter` (filter.rs 167-197); times in microseconds, as in `BgpElem`. `v4` is `IpVersion::Ipv4`. -/
inductive Filter (Rx : Type) where
  | originAsn (v : Asn)
  | originAsns (v : List Asn)
  | prefix_ (p : IpNet) (t : MatchType)
  | prefixes (p : List IpNet) (t : MatchType)
  | peerIp (a : Ip)
  | peerIps (a : List Ip)
  | peerAsn (v : Asn)
  | peerAsns (v : List Asn)
  | type (t : ElemType)
  | ipVersion (v4 : Bool)
  | tsStart (t : Int)
  | tsEnd (t : Int)
  | asPath (r : Rx)
  | community (r : Rx)
  | otc (a : Asn)
  | nextHop (a : Ip)
  | origin (o : Origin)
  | localPref (v : UInt32)
  | med (v : UInt32)
  | atomic (b : Bool)
  | aggrAsn (a : Asn)
  | aggrIp (a : V4)
  | peerBgpId (a : V4)
  | present (f : Field)
  | negated (f : Filter Rx)

/-! ### from text -/

/-- the digits of `u32::from_str` (std), most significant first; `none` on another character or overflow. -/
def digits (acc : Nat) : List Char → Option Nat
  | [] => some acc
  | c :: cs =>
    if '0' ≤ c ∧ c ≤ '9' then
      let v := acc * 10 + (c.toNat - '0'.toNat)
      if v < 4294967296 then digits v cs else none
    else none

/-- `u32::from_str` (std): an optional `+` and at least one digit. -/
def parseU32 : List Char → Option UInt32
  | [] => none
  | '+' :: cs => if cs.isEmpty then none else (digits 0 cs).map UInt32.ofNat
  | cs => (digits 0 cs).map UInt32.ofNat

/-- `str::split(',')` (std): always at least one piece. -/
def splitComma : List Char → List (List Char)
  | [] => [[]]
  | c :: cs =>
    if c = ',' then [] :: splitComma cs
    else
      match splitComma cs with
      | [] => [[c]]
      | p :: ps => (c :: p) :: ps

/-- `str::replace(' ', "")` (std). -/
def noSpaces (s : List Char) : List Char := s.filter (· ≠ ' ')

/-- `strip_prefix('!')` with its flag (filter.rs 249-253, 290-294, 335-339). -/
def stripBang : List Char → Bool × List Char
  | '!' :: cs => (true, cs)
  | cs => (false, cs)

/-- the loop of `parse_asn_list`, `parse_prefix_list` and `parse_ip_list` (filter.rs 243-270, 284-315, 329-360), which
differ in the parser of one value: values so far and `all_negated`. -/
def listLoop (one : List Char → Option α) : List (List Char) → List α → Option Bool → Except Err (List α × Option Bool)
  | [], vs, neg => .ok (vs, neg)
  | p :: ps, vs, neg =>
    if p.isEmpty then listLoop one ps vs neg
    else
      let (isNeg, actual) := stripBang p
      match neg with
      | none =>
        match one actual with
        | some v => listLoop one ps (vs ++ [v]) (some isNeg)
        | none => .error .filter
      | some prev =>
        if prev ≠ isNeg then .error .filter
        else
          match one actual with
          | some v => listLoop one ps (vs ++ [v]) neg
          | none => .error .filter

/-- `parse_asn_list`, `parse_prefix_list`, `parse_ip_list` (filter.rs 239-368). -/
def parseList (one : List Char → Option α) (s : List Char) : Except Err (List α × Bool) :=
  match listLoop one (splitComma (noSpaces s)) [] none with
  | .error e => .error e
  | .ok (vs, neg) => if vs.isEmpty then .error .filter else .ok (vs, match neg with | some b => b | none => false)

/-- `if negated { Ok(Filter::Negated(Box::new(filter))) } else { Ok(filter) }`. -/
def negIf (neg : Bool) (f : Filter Rx) : Filter Rx := if neg then .negated f else f

/-- a single value: parsed or `FilterError`. -/
def single (f : α → Filter Rx) : Option α → Except Err (Filter Rx)
  | some v => .ok (f v)
  | none => .error .filter

/-- a list value (e.g. filter.rs 445-453). -/
def multi (f : List α → Filter Rx) : Except Err (List α × Bool) → Except Err (Filter Rx)
  | .ok (vs, neg) => .ok (negIf neg (f vs))
  | .error e => .error e

/-- the value of `type` (filter.rs 544-550). -/
def parseElemType (s : List Char) : Option ElemType :=
  if s = "w".toList ∨ s = "withdraw".toList ∨ s = "withdrawal".toList then some .withdraw
  else if s = "a".toList ∨ s = "announce".toList ∨ s = "announcement".toList then some .announce
  else none

/-- the value of `ip_version` (filter.rs 575-581): whether it is IPv4. -/
def parseIpVersion (s : List Char) : Option Bool :=
  if s = "4".toList ∨ s = "v4".toList ∨ s = "ipv4".toList then some true
  else if s = "6".toList ∨ s = "v6".toList ∨ s = "ipv6".toList then some false
  else none

/-- the value of `origin` (filter.rs 594-601). `to_lowercase` is ASCII here: no other character has one of the letters of
these three words as its lower case. -/
def originWord (s : List Char) : Option Origin :=
  let s := s.map Char.toLower
  if s = "igp".toList then some .igp
  else if s = "egp".toList then some .egp
  else if s = "incomplete".toList then some .incomplete
  else none

/-- the value of `atomic` (filter.rs 612-618). -/
def parseAtomic (s : List Char) : Option Bool :=
  if s = "true".toList ∨ s = "t".toList ∨ s = "1".toList then some true
  else if s = "false".toList ∨ s = "f".toList ∨ s = "0".toList then some false
  else none

/-- a time in microseconds (filter.rs 551-562). -/
def TextEnv.micros (env : TextEnv) (s : List Char) : Option Int := (env.seconds s).map (· * 1000000)

/-- `Filter::new_base` (filter.rs 437-639). -/
def Filter.newBase (env : TextEnv) (ty : String) (s : List Char) : Except Err (Filter env.Rx) :=
  if ty = "origin_asn" then single .originAsn (parseU32 s)
  else if ty = "origin_asns" then multi .originAsns (parseList parseU32 s)
  else if ty = "prefix" then single (.prefix_ · .exact) (env.ipNet s)
  else if ty = "prefix_super" then single (.prefix_ · .super) (env.ipNet s)
  else if ty = "prefix_sub" then single (.prefix_ · .sub) (env.ipNet s)
  else if ty = "prefix_super_sub" then single (.prefix_ · .superSub) (env.ipNet s)
  else if ty = "prefixes" then multi (.prefixes · .exact) (parseList env.ipNet s)
  else if ty = "prefixes_super" then multi (.prefixes · .super) (parseList env.ipNet s)
  else if ty = "prefixes_sub" then multi (.prefixes · .sub) (parseList env.ipNet s)
  else if ty = "prefixes_super_sub" then multi (.prefixes · .superSub) (parseList env.ipNet s)
  else if ty = "peer_ip" then single .peerIp (env.ipAddr s)
  else if ty = "peer_ips" then multi .peerIps (parseList env.ipAddr s)
  else if ty = "peer_asn" then single .peerAsn (parseU32 s)
  else if ty = "peer_asns" then multi .peerAsns (parseList parseU32 s)
  else if ty = "type" then single .type (parseElemType s)
  else if ty = "ts_start" ∨ ty = "start_ts" then single .tsStart (env.micros s)
  else if ty = "ts_end" ∨ ty = "end_ts" then single .tsEnd (env.micros s)
  else if ty = "as_path" then single .asPath (env.compile s)
  else if ty = "community" then single .community (env.compile s)
  else if ty = "ip_version" ∨ ty = "ip" then single .ipVersion (parseIpVersion s)
  else if ty = "otc" then single .otc (parseU32 s)
  else if ty = "next_hop" then single .nextHop (env.ipAddr s)
  else if ty = "origin" then single .origin (originWord s)
  else if ty = "local_pref" then single .localPref (parseU32 s)
  else if ty = "med" then single .med (parseU32 s)
  else if ty = "atomic" then single .atomic (parseAtomic s)
  else if ty = "aggr_asn" then single .aggrAsn (parseU32 s)
  else if ty = "aggr_ip" then single .aggrIp (env.ipv4 s)
  else if ty = "peer_bgp_id" then single .peerBgpId (env.ipv4 s)
  else .error .filter

/-- `present_field_for` (filter.rs 644-656). -/
def presentField (ty : String) : Option Field :=
  if ty = "otc" then some .otc
  else if ty = "next_hop" then some .nextHop
  else if ty = "origin" then some .origin
  else if ty = "local_pref" then some .localPref
  else if ty = "med" then some .med
  else if ty = "aggr_asn" then some .aggrAsn
  else if ty = "aggr_ip" then some .aggrIp
  else if ty = "peer_bgp_id" then some .peerBgpId
  else none

/-- `multi_value_filters` (filter.rs 374-382). -/
def multiValue : List String :=
  ["origin_asns", "prefixes", "prefixes_super", "prefixes_sub", "prefixes_super_sub", "peer_ips", "peer_asns"]

/-- the names of the time filters (filter.rs 404-408). -/
def timeFilters : List String := ["ts_start", "start_ts", "ts_end", "end_ts"]

/-- `Filter::new` from line 403 on (filter.rs 403-434). -/
def Filter.newSingle (env : TextEnv) (ty : String) (neg : Bool) (s : List Char) : Except Err (Filter env.Rx) :=
  if neg && timeFilters.contains ty then .error .filter
  else
    match (if s = ['*'] then presentField ty else none) with
    | some f => .ok (negIf neg (.present f))
    | none =>
      match Filter.newBase env ty s with
      | .error e => .error e
      | .ok f => .ok (negIf neg f)

/-- `Filter::new` (filter.rs 371-435). -/
def Filter.new (env : TextEnv) (ty : String) (s : List Char) : Except Err (Filter env.Rx) :=
  if multiValue.contains ty then Filter.newBase env ty s
  else
    match s with
    | '!' :: '!' :: _ => .error .filter
    | '!' :: r => Filter.newSingle env ty true r
    | s => Filter.newSingle env ty false s

/-! ### matching -/

/-- an address as a number, as in `u32::from(Ipv4Addr)` and `u128::from(Ipv6Addr)`; the order of addresses of one family
is the order of these. -/
def Ip.num (a : Ip) : Nat := a.octets.foldl (fun n b => n * 256 + b.toNat) 0

/-- `IpNet::broadcast` (ipnet): the address with all host bits set. -/
def IpNet.broadcast (n : IpNet) : Nat := n.addr.num ||| (2 ^ (n.addr.maxLen - n.len.toNat) - 1)

/-- `same_family` (filter.rs 740-745). -/
def sameFamily (a b : IpNet) : Bool := a.addr.isV4 == b.addr.isV4

/-- `prefix_match` (filter.rs 747-790): `m` is the prefix of the filter, `i` that of the element. -/
def prefixMatch (m i : IpNet) (t : MatchType) : Bool :=
  let exact := i == m
  match t with
  | .exact => exact
  | .super =>
    if exact then exact
    else if !sameFamily m i then false
    else m.addr.num ≥ i.addr.num && m.broadcast ≤ i.broadcast
  | .sub =>
    if exact then exact
    else if !sameFamily m i then false
    else m.addr.num ≤ i.addr.num && m.broadcast ≥ i.broadcast
  | .superSub =>
    if exact then exact
    else if !sameFamily m i then false
    else (m.addr.num ≥ i.addr.num && m.broadcast ≤ i.broadcast) || (m.addr.num ≤ i.addr.num && m.broadcast ≥ i.broadcast)

/-- `is_elem_only_filter` (filter.rs 661-676). -/
def isElemOnly : Filter Rx → Bool
  | .community _ | .otc _ | .nextHop _ | .origin _ | .localPref _ | .med _ | .atomic _ | .aggrAsn _ | .aggrIp _
  | .peerBgpId _ | .present _ => true
  | _ => false

/-- `RouteFilterView` (filter.rs 692-738): the answers of its methods. `full` is `supports_community_filter`. -/
structure View (Rx : Type) where
  time : Nat
  type : ElemType
  peerIp : Ip
  peerAsn : Asn
  prefix_ : NetworkPrefix
  asPath : Option AsPath
  matchesOrigin : Asn → Bool
  nextHop : Option Ip := none
  origin : Option Origin := none
  localPref : Option UInt32 := none
  med : Option UInt32 := none
  atomic : Bool := false
  aggrAsn : Option Asn := none
  aggrIp : Option V4 := none
  peerBgpId : Option V4 := none
  otc : Option Asn := none
  matchesCommunity : Rx → Bool := fun _ => false
  full : Bool := false

/-- `BgpRouteElem` (src/models/bgp/elem.rs 163-185); the shared `Arc` of the path is the path. -/
structure RouteElem where
  time : Nat
  type : ElemType
  peerIp : Ip
  peerAsn : Asn
  prefix_ : NetworkPrefix
  asPath : Option AsPath
deriving DecidableEq, Repr

/-- `RouteFilterView for BgpElem` (filter.rs 851-921). -/
def BgpElem.view (env : TextEnv) (e : BgpElem) : View env.Rx where
  time := e.time
  type := e.type
  peerIp := e.peerIp
  peerAsn := e.peerAsn
  prefix_ := e.prefix_
  asPath := e.asPath
  matchesOrigin a := match e.originAsns with | some os => os.contains a | none => false
  nextHop := e.nextHop
  origin := e.origin
  localPref := e.localPref
  med := e.med
  atomic := e.atomic
  aggrAsn := e.aggrAsn
  aggrIp := e.aggrIp
  peerBgpId := e.peerBgpId
  otc := e.otc
  matchesCommunity r := match e.communities with | some cs => cs.any fun c => env.isMatch r (env.commText c) | none => false
  full := true

/-- `RouteFilterView for BgpRouteElem` (filter.rs 923-954): the defaults of the trait elsewhere. -/
def RouteElem.view (env : TextEnv) (e : RouteElem) : View env.Rx where
  time := e.time
  type := e.type
  peerIp := e.peerIp
  peerAsn := e.peerAsn
  prefix_ := e.prefix_
  asPath := e.asPath
  matchesOrigin a := match e.asPath with | some p => p.iterOrigins.any (· == a) | none => false

/-- whether a field is there (filter.rs 838-847). -/
def View.has (v : View Rx) : Field → Bool
  | .otc => v.otc.isSome
  | .nextHop => v.nextHop.isSome
  | .origin => v.origin.isSome
  | .localPref => v.localPref.isSome
  | .med => v.med.isSome
  | .aggrAsn => v.aggrAsn.isSome
  | .aggrIp => v.aggrIp.isSome
  | .peerBgpId => v.peerBgpId.isSome

/-- `inner` (filter.rs 797-800). -/
def Filter.inner : Filter Rx → Filter Rx
  | .negated f => f
  | f => f

/-- `match_route_view_filter` (filter.rs 792-849). -/
def matchView (env : TextEnv) (v : View env.Rx) (f : Filter env.Rx) : Bool :=
  if !v.full && isElemOnly f.inner then false
  else
    match f with
    | .negated g => !matchView env v g
    | .originAsn a => v.matchesOrigin a
    | .originAsns as => as.any v.matchesOrigin
    | .prefix_ p t => prefixMatch p v.prefix_.prefix_ t
    | .prefixes ps t => ps.any fun p => prefixMatch p v.prefix_.prefix_ t
    | .peerIp a => v.peerIp == a
    | .peerIps as => as.contains v.peerIp
    | .peerAsn a => v.peerAsn == a
    | .peerAsns as => as.any fun a => v.peerAsn == a
    | .type t => v.type == t
    | .tsStart t => decide (t ≤ (v.time : Int))
    | .tsEnd t => decide ((v.time : Int) ≤ t)
    | .asPath r => match v.asPath with | some p => env.isMatch r (env.pathText p) | none => false
    | .community r => v.full && v.matchesCommunity r
    | .ipVersion v4 => if v4 then v.prefix_.prefix_.addr.isV4 else !v.prefix_.prefix_.addr.isV4
    | .otc a => v.otc == some a
    | .nextHop a => v.nextHop == some a
    | .origin o => v.origin == some o
    | .localPref x => v.localPref == some x
    | .med x => v.med == some x
    | .atomic b => v.atomic == b
    | .aggrAsn a => v.aggrAsn == some a
    | .aggrIp a => v.aggrIp == some a
    | .peerBgpId a => v.peerBgpId == some a
    | .present fd => v.has fd

/-- `match_filter` of `BgpElem` (filter.rs 956-960). -/
def BgpElem.matchFilter (env : TextEnv) (e : BgpElem) (f : Filter env.Rx) : Bool := matchView env (e.view env) f

/-- `match_filter` of `BgpRouteElem` (filter.rs 962-966). -/
def RouteElem.matchFilter (env : TextEnv) (e : RouteElem) (f : Filter env.Rx) : Bool := matchView env (e.view env) f

/-- `match_filters` (filter.rs 687-689). -/
def BgpElem.matchFilters (env : TextEnv) (e : BgpElem) (fs : List (Filter env.Rx)) : Bool := fs.all (e.matchFilter env)

/-- `match_filters` (filter.rs 687-689). -/
def RouteElem.matchFilters (env : TextEnv) (e : RouteElem) (fs : List (Filter env.Rx)) : Bool := fs.all (e.matchFilter env)

/-! ### filtered iteration -/

/-- `record_matches_filters` (iters/mod.rs 50-77), and the same code in `FallibleRecordIterator::next` (fallible.rs 43-63),
with the `Elementor` it updates. -/
def filterKeep (env : TextEnv) (fs : List (Filter env.Rx)) : Keep Elementor where
  step el r :=
    if fs.isEmpty then (true, el)
    else
      match r.message with
      | .tableDumpV2 (.peerIndexTable _) => (true, (el.recordToElems r).2)
      | _ =>
        let (es, el) := el.recordToElems r
        if es.isEmpty then (false, el) else (es.any fun e => e.matchFilters env fs, el)

/-- `ElemIterator` and `FallibleElemIterator` (default.rs 64-69, fallible.rs 82-86): the cache in the order of the `Vec`,
the elementor, and the record iterator with its own elementor. -/
structure ElemIter where
  cache : List BgpElem
  elementor : Elementor
  records : Elementor × Src

/-- `ElemIterator::new`, `FallibleElemIterator::new` (default.rs 71-80, fallible.rs 88-96). -/
def ElemIter.new (s : Src) : ElemIter := ⟨[], .new, (.new, s)⟩

/-- popping cached elements until one matches (default.rs 122-127, fallible.rs 114-122), at most `n` of them. -/
def popMatch (p : BgpElem → Bool) : Nat → List BgpElem → Option BgpElem × List BgpElem
  | 0, c => (none, c)
  | n + 1, c =>
    match c.getLast? with
    | none => (none, c)
    | some e => if p e then (some e, c.dropLast) else popMatch p n c.dropLast

/-- the loop that takes records (default.rs 101-118 and around again) once the cache is empty. Fuel: every record consumes
input. -/
def refill (env : TextEnv) (fs : List (Filter env.Rx)) (coreDump : Bool) (pol : Pol) : Nat → ElemIter → Option BgpElem × ElemIter
  | 0, it => (none, it)
  | fuel + 1, it =>
    match defaultIter (filterKeep env fs) coreDump pol it.records with
    | (none, rs) => (none, { it with records := rs })
    | (some r, rs) =>
      let (es, el) := it.elementor.recordToElems r
      if es.isEmpty then refill env fs coreDump pol fuel ⟨it.cache, el, rs⟩
      else
        match popMatch (fun e => e.matchFilters env fs) es.length es.reverse with
        | (some e, c) => (some e, ⟨c, el, rs⟩)
        | (none, c) => refill env fs coreDump pol fuel ⟨c, el, rs⟩

/-- `ElemIterator::next` (default.rs 85-130) on MRT input. -/
def elemNext (env : TextEnv) (fs : List (Filter env.Rx)) (coreDump : Bool) (pol : Pol) (it : ElemIter) : Option BgpElem × ElemIter :=
  match popMatch (fun e => e.matchFilters env fs) it.cache.length it.cache with
  | (some e, c) => (some e, { it with cache := c })
  | (none, c) => refill env fs coreDump pol (it.records.2.size + 1) { it with cache := c }

/-- the loop of `FallibleElemIterator::next` (fallible.rs 125-139) once the cache is empty. -/
def refillFallible (env : TextEnv) (fs : List (Filter env.Rx)) (pol : Pol) : Nat → ElemIter → Option (Except RecErr BgpElem) × ElemIter
  | 0, it => (none, it)
  | fuel + 1, it =>
    match fallibleIter (filterKeep env fs) pol it.records with
    | (none, rs) => (none, { it with records := rs })
    | (some (.error e), rs) => (some (.error e), { it with records := rs })
    | (some (.ok r), rs) =>
      let (es, el) := it.elementor.recordToElems r
      if es.isEmpty then refillFallible env fs pol fuel ⟨it.cache, el, rs⟩
      else
        match popMatch (fun e => e.matchFilters env fs) es.length es.reverse with
        | (some e, c) => (some (.ok e), ⟨c, el, rs⟩)
        | (none, c) => refillFallible env fs pol fuel ⟨c, el, rs⟩

/-- `FallibleElemIterator::next` (fallible.rs 102-142) on MRT input. -/
def fallibleElemNext (env : TextEnv) (fs : List (Filter env.Rx)) (pol : Pol) (it : ElemIter) : Option (Except RecErr BgpElem) × ElemIter :=
  match popMatch (fun e => e.matchFilters env fs) it.cache.length it.cache with
  | (some e, c) => (some (.ok e), { it with cache := c })
  | (none, c) => refillFallible env fs pol (it.records.2.size + 1) { it with cache := c }

end Verif
