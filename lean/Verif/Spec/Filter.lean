import Verif.Model.Filter
import Verif.Spec.Elem
/-
What the filters should mean.
-/
namespace Verif.Spec

/-! ### prefixes as sets of addresses -/

/-- the bits of an octet, most significant first. -/
def octetBits (b : UInt8) : List Bool := (List.range 8).map fun i => b.toNat.testBit (7 - i)

/-- the bits of an address. -/
def addrBits (a : Ip) : List Bool := a.octets.flatMap octetBits

/-- The addresses of a prefix: those of its family that agree with it in the first `len` bits. -/
def Covers (n : IpNet) (a : Ip) : Prop :=
  a.isV4 = n.addr.isV4 ∧ (addrBits a).take n.len.toNat = (addrBits n.addr).take n.len.toNat

/-- every address of `p` is one of `q`: `q` is `p` or less specific. -/
def Within (p q : IpNet) : Prop := ∀ a, Covers p a → Covers q a

/-- A prefix as one writes it: the bits beyond the length are zero. -/
def Canonical (n : IpNet) : Prop :=
  n.len.toNat ≤ n.addr.maxLen ∧ ∀ b ∈ (addrBits n.addr).drop n.len.toNat, b = false

/-- The four ways to compare the prefix `i` of an element with the prefix `m` of a filter. -/
def PrefixPasses (m i : IpNet) : MatchType → Prop
  | .exact => i = m
  | .super => Within m i
  | .sub => Within i m
  | .superSub => Within m i ∨ Within i m

/-! ### filters -/

/-- whether an optional field of an element is there. -/
def HasField (e : BgpElem) : Field → Prop
  | .otc => e.otc ≠ none
  | .nextHop => e.nextHop ≠ none
  | .origin => e.origin ≠ none
  | .localPref => e.localPref ≠ none
  | .med => e.med ≠ none
  | .aggrAsn => e.aggrAsn ≠ none
  | .aggrIp => e.aggrIp ≠ none
  | .peerBgpId => e.peerBgpId ≠ none

/-- The meaning of a filter. -/
def Passes (env : TextEnv) (e : BgpElem) : Filter env.Rx → Prop
  | .originAsn a => ∃ os, e.originAsns = some os ∧ a ∈ os
  | .originAsns as => ∃ os, e.originAsns = some os ∧ ∃ a ∈ as, a ∈ os
  | .prefix_ m t => PrefixPasses m e.prefix_.prefix_ t
  | .prefixes ms t => ∃ m ∈ ms, PrefixPasses m e.prefix_.prefix_ t
  | .peerIp a => e.peerIp = a
  | .peerIps as => e.peerIp ∈ as
  | .peerAsn a => e.peerAsn = a
  | .peerAsns as => e.peerAsn ∈ as
  | .type t => e.type = t
  | .ipVersion v4 => e.prefix_.prefix_.addr.isV4 = v4
  | .tsStart t => t ≤ e.time
  | .tsEnd t => e.time ≤ t
  | .asPath r => ∃ p, e.asPath = some p ∧ env.isMatch r (env.pathText p) = true
  | .community r => ∃ cs, e.communities = some cs ∧ ∃ c ∈ cs, env.isMatch r (env.commText c) = true
  | .otc a => e.otc = some a
  | .nextHop a => e.nextHop = some a
  | .origin o => e.origin = some o
  | .localPref v => e.localPref = some v
  | .med v => e.med = some v
  | .atomic b => e.atomic = b
  | .aggrAsn a => e.aggrAsn = some a
  | .aggrIp a => e.aggrIp = some a
  | .peerBgpId a => e.peerBgpId = some a
  | .present f => HasField e f
  | .negated f => ¬ Passes env e f

/-- the prefixes a filter mentions. -/
def netsOf : Filter Rx → List IpNet
  | .prefix_ m _ => [m]
  | .prefixes ms _ => ms
  | .negated f => netsOf f
  | _ => []

/-- the filters that look at something a route element does not have. -/
def NeedsElement : Filter Rx → Prop
  | .community _ | .otc _ | .nextHop _ | .origin _ | .localPref _ | .med _ | .atomic _ | .aggrAsn _ | .aggrIp _
  | .peerBgpId _ | .present _ => True
  | .negated f => NeedsElement f
  | _ => False

/-- the route of an element. -/
def routeOf (e : BgpElem) : RouteElem := ⟨e.time, e.type, e.peerIp, e.peerAsn, e.prefix_, e.asPath⟩

/-- how many times a filter is negated. -/
def depth : Filter Rx → Nat
  | .negated f => depth f + 1
  | _ => 0

/-! ### filters in text -/

/-- the character of a digit. -/
def digitChar (d : Fin 10) : Char := Char.ofNat (48 + d.val)

/-- A number in decimal, after an optional plus sign, that fits 32 bits. -/
def Decimal (v : List Char) (n : UInt32) : Prop :=
  ∃ ds : List (Fin 10), ds ≠ [] ∧ (v = ds.map digitChar ∨ v = '+' :: ds.map digitChar) ∧
    n.toNat = ds.foldl (fun a d => a * 10 + d.val) 0

/-- the words for a value. -/
def typeWords : ElemType → List String
  | .announce => ["a", "announce", "announcement"]
  | .withdraw => ["w", "withdraw", "withdrawal"]
def versionWords : Bool → List String
  | true => ["4", "v4", "ipv4"]
  | false => ["6", "v6", "ipv6"]
def atomicWords : Bool → List String
  | true => ["true", "t", "1"]
  | false => ["false", "f", "0"]
def originName : Origin → String
  | .igp => "igp"
  | .egp => "egp"
  | .incomplete => "incomplete"

/-- the four forms of a prefix filter name. -/
def matchSuffix : MatchType → String
  | .exact => ""
  | .super => "_super"
  | .sub => "_sub"
  | .superSub => "_super_sub"

/-- the name of an optional field. -/
def fieldName : Field → String
  | .otc => "otc"
  | .nextHop => "next_hop"
  | .origin => "origin"
  | .localPref => "local_pref"
  | .med => "med"
  | .aggrAsn => "aggr_asn"
  | .aggrIp => "aggr_ip"
  | .peerBgpId => "peer_bgp_id"

/-- The filter that a name and a value without exclamation mark stand for. -/
inductive Value (env : TextEnv) : String → List Char → Filter env.Rx → Prop where
  | present (fd) : Value env (fieldName fd) ['*'] (.present fd)
  | originAsn (v n) : Decimal v n → Value env "origin_asn" v (.originAsn n)
  | prefix_ (v p t) : env.ipNet v = some p → Value env ("prefix" ++ matchSuffix t) v (.prefix_ p t)
  | peerIp (v a) : env.ipAddr v = some a → Value env "peer_ip" v (.peerIp a)
  | peerAsn (v n) : Decimal v n → Value env "peer_asn" v (.peerAsn n)
  | type (v : String) (t) : v ∈ typeWords t → Value env "type" v.toList (.type t)
  | tsStart (ty v t) : ty ∈ ["ts_start", "start_ts"] → env.seconds v = some t → Value env ty v (.tsStart (t * 1000000))
  | tsEnd (ty v t) : ty ∈ ["ts_end", "end_ts"] → env.seconds v = some t → Value env ty v (.tsEnd (t * 1000000))
  | asPath (v r) : env.compile v = some r → Value env "as_path" v (.asPath r)
  | community (v r) : env.compile v = some r → Value env "community" v (.community r)
  | ipVersion (ty) (v : String) (b) : ty ∈ ["ip_version", "ip"] → v ∈ versionWords b → Value env ty v.toList (.ipVersion b)
  | otc (v n) : Decimal v n → Value env "otc" v (.otc n)
  | nextHop (v a) : v ≠ ['*'] → env.ipAddr v = some a → Value env "next_hop" v (.nextHop a)
  | origin (v) (o) : v.map Char.toLower = (originName o).toList → Value env "origin" v (.origin o)
  | localPref (v n) : Decimal v n → Value env "local_pref" v (.localPref n)
  | med (v n) : Decimal v n → Value env "med" v (.med n)
  | atomic (v : String) (b) : v ∈ atomicWords b → Value env "atomic" v.toList (.atomic b)
  | aggrAsn (v n) : Decimal v n → Value env "aggr_asn" v (.aggrAsn n)
  | aggrIp (v a) : v ≠ ['*'] → env.ipv4 v = some a → Value env "aggr_ip" v (.aggrIp a)
  | peerBgpId (v a) : v ≠ ['*'] → env.ipv4 v = some a → Value env "peer_bgp_id" v (.peerBgpId a)

/-- The values of a list in text: separated by commas, spaces and empty items ignored, at least one. -/
inductive Items : List Char → List (List Char) → Prop where
  | mk (s ps) : s.filter (· ≠ ' ') = List.intercalate [','] ps → ps ≠ [] → (∀ p ∈ ps, ',' ∉ p) →
      Items s (ps.filter (· ≠ []))

/-- A list of values: all plain, or all with an exclamation mark. -/
def ValueList (one : List Char → α → Prop) (s : List Char) (neg : Bool) (vs : List α) : Prop :=
  vs ≠ [] ∧ ∃ bodies : List (List Char), Pairwise2 one bodies vs ∧
    (neg = true → Items s (bodies.map ('!' :: ·))) ∧
    (neg = false → Items s bodies ∧ ∀ b ∈ bodies, b.head? ≠ some '!')

/-- negate, or not. -/
def negateIf : Bool → Filter Rx → Filter Rx
  | true, f => .negated f
  | false, f => f

/-- The filter that a name and a value stand for. -/
inductive Denotes (env : TextEnv) : String → List Char → Filter env.Rx → Prop where
  | plain {ty v f} : Value env ty v f → v.head? ≠ some '!' → Denotes env ty v f
  | not {ty v f} : Value env ty v f → v.head? ≠ some '!' → ty ∉ ["ts_start", "start_ts", "ts_end", "end_ts"] →
      Denotes env ty ('!' :: v) (.negated f)
  | originAsns {s neg vs} : ValueList Decimal s neg vs → Denotes env "origin_asns" s (negateIf neg (.originAsns vs))
  | peerAsns {s neg vs} : ValueList Decimal s neg vs → Denotes env "peer_asns" s (negateIf neg (.peerAsns vs))
  | peerIps {s neg vs} : ValueList (fun v a => env.ipAddr v = some a) s neg vs →
      Denotes env "peer_ips" s (negateIf neg (.peerIps vs))
  | prefixes {s neg vs t} : ValueList (fun v a => env.ipNet v = some a) s neg vs →
      Denotes env ("prefixes" ++ matchSuffix t) s (negateIf neg (.prefixes vs t))

/-! ### filtered records -/

/-- the elements of a record that comes after the records `hist`. -/
def elemsAfter (hist : List MrtRecord) (r : MrtRecord) : List BgpElem :=
  ((hist.foldl (fun (el : Elementor) r => (el.recordToElems r).2) Elementor.new).recordToElems r).1

/-- the elements of the records `rs` that come after the records `hist`, in order. -/
def elemsFrom (hist : List MrtRecord) : List MrtRecord → List BgpElem
  | [] => []
  | r :: rs => elemsAfter hist r ++ elemsFrom (hist ++ [r]) rs

/-- a peer index table. -/
def IsTable (r : MrtRecord) : Prop := ∃ t, r.message = .tableDumpV2 (.peerIndexTable t)

/-- the records that filtering leaves: peer index tables, and those with an element that satisfies `P`. -/
inductive Kept (P : BgpElem → Prop) : List MrtRecord → List MrtRecord → List MrtRecord → Prop where
  | nil {hist} : Kept P hist [] []
  | keep {hist r rs out} : (IsTable r ∨ ∃ e ∈ elemsAfter hist r, P e) → Kept P (hist ++ [r]) rs out →
      Kept P hist (r :: rs) (r :: out)
  | drop {hist r rs out} : ¬ IsTable r → (∀ e ∈ elemsAfter hist r, ¬ P e) → Kept P (hist ++ [r]) rs out →
      Kept P hist (r :: rs) out

/-- the records of a run that also reports errors. -/
def okItems : List (Except RecErr α) → List α
  | [] => []
  | .ok r :: l => r :: okItems l
  | .error _ :: l => okItems l

/-- as `elemsFrom`, with the errors left where they are. -/
def elemsFromItems (hist : List MrtRecord) : List (Except RecErr MrtRecord) → List (Except RecErr BgpElem)
  | [] => []
  | .error e :: l => .error e :: elemsFromItems hist l
  | .ok r :: l => (elemsAfter hist r).map .ok ++ elemsFromItems (hist ++ [r]) l

/-- as `Kept`, with the errors left where they are. -/
inductive KeptItems (P : BgpElem → Prop) :
    List MrtRecord → List (Except RecErr MrtRecord) → List (Except RecErr MrtRecord) → Prop where
  | nil {hist} : KeptItems P hist [] []
  | error {hist e l out} : KeptItems P hist l out → KeptItems P hist (.error e :: l) (.error e :: out)
  | keep {hist r l out} : (IsTable r ∨ ∃ e ∈ elemsAfter hist r, P e) → KeptItems P (hist ++ [r]) l out →
      KeptItems P hist (.ok r :: l) (.ok r :: out)
  | drop {hist r l out} : ¬ IsTable r → (∀ e ∈ elemsAfter hist r, ¬ P e) → KeptItems P (hist ++ [r]) l out →
      KeptItems P hist (.ok r :: l) out

end Verif.Spec
