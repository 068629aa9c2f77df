import Verif.Model.Elem
import Verif.Spec.AttrLayout
/-
What the elements of a record should be.
-/
namespace Verif.Spec

/-- `o` is what the last attribute satisfying `P` says, or `none` if there is none. -/
def LastOf (P : α → AttrVal → Prop) (as : List Attribute) : Option α → Prop
  | some x => ∃ pre a post, as = pre ++ a :: post ∧ P x a.value ∧ ∀ b ∈ post, ∀ y, ¬ P y b.value
  | none => ∀ b ∈ as, ∀ y, ¬ P y b.value

/-- the value of the last attribute of a kind. -/
def Last (mk : α → AttrVal) : List Attribute → Option α → Prop := LastOf fun x v => v = mk x

/-- the last AGGREGATOR or AS4_AGGREGATOR. -/
def LastAggregator : List Attribute → Option (Asn × V4) → Prop :=
  LastOf fun x v => v = .aggregator x.1 x.2 ∨ v = .as4Aggregator x.1 x.2

/-- an optional list that is never an empty one. -/
def ListOrNone (l : List α) (o : Option (List α)) : Prop := (l = [] ∧ o = none) ∨ (l ≠ [] ∧ o = some l)

/-- the attributes kept as raw bytes, in two groups. -/
def rawIn : AttrVal → List AttrRaw
  | .unknown c b => [⟨c, b⟩]
  | .raw c b => [⟨c, b⟩]
  | _ => []
def deprecatedIn : AttrVal → List AttrRaw
  | .deprecated c b => [⟨c, b⟩]
  | _ => []

/-- RFC 6793: the path to use, given AS_PATH and AS4_PATH (what merging does is the subject of C06). -/
inductive EffectivePath : Option AsPath → Option AsPath → Option AsPath → Prop where
  | neither : EffectivePath none none none
  | plain (p) : EffectivePath (some p) none (some p)
  | four (q) : EffectivePath none (some q) (some q)
  | both (p q m) : p.mergeAs4 q = some m → EffectivePath (some p) (some q) (some m)

/-- the next hop: NEXT_HOP, else that of MP_REACH_NLRI. -/
def NextHopOf : Option Ip → Option Nlri → Option Ip
  | some h, _ => some h
  | none, some n => n.nextHop.map NextHop.addr
  | none, none => none

/-- the element carries what the attributes say, the AS path aside. -/
structure Carries (as : List Attribute) (e : BgpElem) : Prop where
  origin : Last .origin as e.origin
  origins : e.originAsns = e.asPath.map AsPath.iterOrigins
  nextHop : ∃ h mp, Last .nextHop as h ∧ Last .mpReach as mp ∧ e.nextHop = NextHopOf h mp
  localPref : ∃ v, Last .localPref as v ∧ e.localPref = some (v.getD 0)
  med : ∃ v, Last .med as v ∧ e.med = some (v.getD 0)
  communities : ListOrNone (as.flatMap fun b => communitiesIn b.value) e.communities
  atomic : e.atomic = true ↔ ∃ b ∈ as, b.value = .atomic
  aggregator : ∃ o, LastAggregator as o ∧ e.aggrAsn = o.map Prod.fst ∧ e.aggrIp = o.map Prod.snd
  otc : Last .otc as e.otc
  unknown : ListOrNone (as.flatMap fun b => rawIn b.value) e.unknown
  deprecated : ListOrNone (as.flatMap fun b => deprecatedIn b.value) e.deprecated

/-- and the effective AS path. -/
def CarriesPath (as : List Attribute) (e : BgpElem) : Prop :=
  ∃ p q, Last .asPath as p ∧ Last .as4Path as q ∧ EffectivePath p q e.asPath

/-- the prefixes of an optional NLRI. -/
def prefixesOf : Option Nlri → List NetworkPrefix
  | some n => n.prefixes
  | none => []

/-- an announcement of the prefix `p`, heard from a peer at a time, with those attributes. -/
structure Announces (t : Nat) (ip : Ip) (asn : Asn) (id : Option V4) (as : List Attribute) (p : NetworkPrefix)
    (e : BgpElem) : Prop where
  type : e.type = .announce
  time : e.time = t
  peerIp : e.peerIp = ip
  peerAsn : e.peerAsn = asn
  peerId : e.peerBgpId = id
  prefix_ : e.prefix_ = p
  path : CarriesPath as e
  attrs : Carries as e

/-- a withdrawal: a prefix and nothing else. -/
def withdrawal (t : Nat) (ip : Ip) (asn : Asn) (p : NetworkPrefix) : BgpElem :=
  { time := t, type := .withdraw, peerIp := ip, peerAsn := asn, peerBgpId := none, prefix_ := p, nextHop := none,
    asPath := none, originAsns := none, origin := none, localPref := none, med := none, communities := none,
    atomic := false, aggrAsn := none, aggrIp := none, otc := none, unknown := none, deprecated := none }

/-- the elements of an UPDATE. -/
def UpdateElems (u : Update) (t : Nat) (ip : Ip) (asn : Asn) (reach unreach : List NetworkPrefix)
    (es : List BgpElem) : Prop :=
  ∃ ann, Pairwise2 (Announces t ip asn none u.attributes.inner) (u.announced ++ reach) ann ∧
    es = ann ++ (u.withdrawn ++ unreach).map (withdrawal t ip asn)

/-- the most recent peer index table of a history of records. -/
inductive LastTable : List MrtRecord → Option PeerIndexTable → Prop where
  | none (hs) : (∀ r ∈ hs, ∀ t, r.message ≠ .tableDumpV2 (.peerIndexTable t)) → LastTable hs none
  | some (pre h t post) : (∀ r ∈ post, ∀ t, r.message ≠ .tableDumpV2 (.peerIndexTable t)) →
      LastTable (pre ++ ⟨h, .tableDumpV2 (.peerIndexTable t)⟩ :: post) (some t)

/-- the element of one RIB entry. -/
def EntryElem (t : PeerIndexTable) (p : NetworkPrefix) (r : RibEntry) (e : BgpElem) : Prop :=
  ∃ peer, t.peer r.peerIndex = some peer ∧
    Announces (r.time.toNat * 1000000) peer.ip peer.asn (some peer.bgpId) r.attributes.inner p e

/-- the seconds and microseconds of a record header, in microseconds. -/
def headerMicros (h : Header) : Nat := h.time.toNat * 1000000 + (h.micro.map UInt32.toNat).getD 0

/-- the four kinds of community. -/
inductive CommunityKind where
  | plain
  | extended
  | large
  | ipv6Extended
deriving DecidableEq
def kindOf : MetaCommunity → CommunityKind
  | .plain _ => .plain
  | .extended _ => .extended
  | .large _ => .large
  | .ipv6Extended _ => .ipv6Extended

/-- the communities of one kind, in their order. -/
def ofKind (k : CommunityKind) (cs : List MetaCommunity) : List MetaCommunity := cs.filter fun c => kindOf c = k

/-- all communities, grouped by kind. -/
def grouped (cs : List MetaCommunity) : List MetaCommunity :=
  ofKind .plain cs ++ ofKind .extended cs ++ ofKind .large cs ++ ofKind .ipv6Extended cs

/-- `none` for an empty list. -/
def noneIfEmpty : List α → Option (List α)
  | [] => none
  | l => some l

end Verif.Spec
