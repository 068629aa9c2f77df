import Verif.Model.Render
import Verif.Spec.Display
/-
How a record reads as text: lines, and lines indented under titles.
-/
namespace Verif.Spec

/-- What is assumed of the texts that are not modelled: they are single lines. -/
structure DebugOk (d : DebugEnv) : Prop where
  entryType : ∀ x, '\n' ∉ d.entryType x
  mpType : ∀ x, '\n' ∉ d.mpType x
  v2Type : ∀ x, '\n' ∉ d.v2Type x
  state : ∀ x, '\n' ∉ d.state x
  afi : ∀ x, '\n' ∉ d.afi x
  safi : ∀ x, '\n' ∉ d.safi x
  error : ∀ x, '\n' ∉ d.error x
  capType : ∀ x, '\n' ∉ d.capType x
  attr : ∀ x, '\n' ∉ d.attr x
  warning : ∀ x, '\n' ∉ d.warning x

/-- The text consists of these lines (a text has at most one such list, `linesOf_unique`). -/
def LinesOf (t : List Char) (ls : List (List Char)) : Prop := t = ls.flatMap (· ++ ['\n']) ∧ ∀ l ∈ ls, '\n' ∉ l

/-- A line that begins with at least `n` blanks. -/
def deep (n : Nat) (l : List Char) : Bool := l.take n == List.replicate n ' '

/-- For each line that equals `title`, the lines that follow it as long as they begin with `n` blanks. -/
def blocks (title : String) (n : Nat) : List (List Char) → List (List (List Char))
  | [] => []
  | l :: ls => if l = title.toList then ls.takeWhile (deep n) :: blocks title n ls else blocks title n ls

/-- The lines under the title are these, and there is no title if there are none. -/
def Under (title : String) (n : Nat) (ls items : List (List Char)) : Prop :=
  blocks title n ls = if items = [] then [] else [items.map (List.replicate n ' ' ++ ·)]

/-- the record carries this BGP message, between these two ends. -/
inductive CarriesMessage : MrtRecord → Ip → Asn → Ip → Asn → BgpMessage → Prop where
  | bgp4mp {h ty p l i pi li m} : CarriesMessage ⟨h, .bgp4mp (.message ⟨ty, p, l, i, pi, li, m⟩)⟩ pi p li l m
  | legacy {h p l pi li m} : CarriesMessage ⟨h, .legacyBgp (.message ⟨p, pi, l, li, m⟩)⟩ pi p li l m

/-- the prefixes an attribute withdraws. -/
def unreached : AttrVal → List NetworkPrefix
  | .mpUnreach n => n.prefixes
  | _ => []

/-- the prefixes an attribute announces. -/
def reached : AttrVal → List NetworkPrefix
  | .mpReach n => n.prefixes
  | _ => []

/-- the prefixes with labels an attribute announces. -/
def reachedLabeled : AttrVal → List LabeledPrefix
  | .mpReach n => n.labeled.getD []
  | _ => []

/-- the values of the attributes. -/
def valuesOf (a : Attributes) : List AttrVal := a.inner.map (·.value)

/-- all prefixes an update withdraws: its own field, then its attributes. -/
def withdrawnOf (u : Update) : List NetworkPrefix := u.withdrawn ++ (valuesOf u.attributes).flatMap unreached
def announcedOf (u : Update) : List NetworkPrefix := u.announced ++ (valuesOf u.attributes).flatMap reached
def labeledOf (u : Update) : List LabeledPrefix := (valuesOf u.attributes).flatMap reachedLabeled

/-- number of link-state entries and of flow specifications in an attribute. -/
def linkStates : AttrVal → Nat
  | .mpUnreach n | .mpReach n => (n.linkState.getD []).length
  | _ => 0
def flowspecs : AttrVal → Nat
  | .mpUnreach n | .mpReach n => (n.flowspec.getD []).length
  | _ => 0

/-- Labels: numbers with commas and blanks between them. -/
inductive ShowsLabels : List Label → List Char → Prop where
  | nil : ShowsLabels [] []
  | last {x : Label} {t : List Char} : Numeral t x.toNat → ShowsLabels [x] t
  | more {x y : Label} {xs : List Label} {t r : List Char} : Numeral t x.toNat → ShowsLabels (y :: xs) r →
      ShowsLabels (x :: y :: xs) (t ++ ',' :: ' ' :: r)

/-- A prefix with labels, and the path identifier if there is one. -/
inductive ShowsLabeled (sh : ShowEnv) (p : LabeledPrefix) : List Char → Prop where
  | plain {n t} : ShowsNet sh p.prefix_ n → ShowsLabels p.labels t → p.pathId = none →
      ShowsLabeled sh p (n ++ " labels=[".toList ++ t ++ [']'])
  | withId {n t i k} : ShowsNet sh p.prefix_ n → ShowsLabels p.labels t → p.pathId = some i → Numeral k i.toNat →
      ShowsLabeled sh p (n ++ " labels=[".toList ++ t ++ "] path-id ".toList ++ k)

/-- `name: value`. -/
def field (name : String) (v : List Char) : List Char := name.toList ++ ": ".toList ++ v

/-- The line of an attribute: its name and its value. Of some attributes only the length is shown, or the family. -/
inductive AttrText (sh : ShowEnv) (d : DebugEnv) : AttrVal → List Char → Prop where
  | igp : AttrText sh d (.origin .igp) (field "ORIGIN" "IGP".toList)
  | egp : AttrText sh d (.origin .egp) (field "ORIGIN" "EGP".toList)
  | incomplete : AttrText sh d (.origin .incomplete) (field "ORIGIN" "INCOMPLETE".toList)
  | asPath {p t} : ShowsPath p t → AttrText sh d (.asPath p) (field "AS_PATH" t)
  | as4Path {p t} : ShowsPath p t → AttrText sh d (.as4Path p) (field "AS4_PATH" t)
  | nextHop {a t} : ShowsIp sh a t → AttrText sh d (.nextHop a) (field "NEXT_HOP" t)
  | med {v t} : Numeral t v.toNat → AttrText sh d (.med v) (field "MULTI_EXIT_DISC" t)
  | localPref {v t} : Numeral t v.toNat → AttrText sh d (.localPref v) (field "LOCAL_PREF" t)
  | otc {a t} : ShowsAsn a t → AttrText sh d (.otc a) (field "ONLY_TO_CUSTOMER" t)
  | atomic : AttrText sh d .atomic "ATOMIC_AGGREGATE".toList
  | aggregator {a id t i} : ShowsAsn a t → ShowsV4 id i → AttrText sh d (.aggregator a id) (field "AGGREGATOR" ("AS".toList ++ t ++ " by ".toList ++ i))
  | as4Aggregator {a id t i} : ShowsAsn a t → ShowsV4 id i →
      AttrText sh d (.as4Aggregator a id) (field "AS4_AGGREGATOR" ("AS".toList ++ t ++ " by ".toList ++ i))
  | communities {cs t} : Listed (ShowsCommunity sh) ' ' (cs.map .plain) t → AttrText sh d (.communities cs) (field "COMMUNITIES" t)
  | large {cs t} : Listed (ShowsCommunity sh) ' ' (cs.map .large) t → AttrText sh d (.largeCommunities cs) (field "LARGE_COMMUNITIES" t)
  | ext {cs t} : Listed (ShowsCommunity sh) ' ' (cs.map .extended) t → AttrText sh d (.extCommunities cs) (field "EXTENDED_COMMUNITIES" t)
  | ext6 {cs t} : Listed (ShowsCommunity sh) ' ' (cs.map .ipv6Extended) t →
      AttrText sh d (.ipv6ExtCommunities cs) (field "IPV6_EXTENDED_COMMUNITIES" t)
  | originator {id t} : ShowsV4 id t → AttrText sh d (.originatorId id) (field "ORIGINATOR_ID" t)
  | clusters {cs t} : Listed (fun (c : UInt32) t => Numeral t c.toNat) ' ' cs t → AttrText sh d (.clusters cs) (field "CLUSTER_LIST" t)
  | reach {n h t} : n.nextHop = some h → ShowsIp sh h.addr t →
      AttrText sh d (.mpReach n) (field "MP_REACH_NLRI" (d.afi n.afi ++ '/' :: d.safi n.safi ++ " next-hop ".toList ++ t))
  | reachNoHop {n} : n.nextHop = none → AttrText sh d (.mpReach n) (field "MP_REACH_NLRI" (d.afi n.afi ++ '/' :: d.safi n.safi))
  | unreach {n} : AttrText sh d (.mpUnreach n) (field "MP_UNREACH_NLRI" (d.afi n.afi ++ '/' :: d.safi n.safi))
  | aigp {x} : AttrText sh d (.aigp x) (field "AIGP" (d.attr (.aigp x)))
  | bfd {x} : AttrText sh d (.bfd x) (field "BFD_DISCRIMINATOR" (d.attr (.bfd x)))
  | te {x} : AttrText sh d (.trafficEng x) (field "TRAFFIC_ENGINEERING" (d.attr (.trafficEng x)))
  | tunnel {x} : AttrText sh d (.tunnel x) (field "TUNNEL_ENCAPSULATION" (d.attr (.tunnel x)))
  | ls {x} : AttrText sh d (.linkState x) (field "BGP_LS" (d.attr (.linkState x)))
  | sid {x} : AttrText sh d (.prefixSid x) (field "BGP_PREFIX_SID" (d.attr (.prefixSid x)))
  | bier {x} : AttrText sh d (.bier x) (field "BIER" (d.attr (.bier x)))
  | sfp {x} : AttrText sh d (.sfp x) (field "SFP" (d.attr (.sfp x)))
  | attrSet {a b t} : ShowsAsn a t → AttrText sh d (.attrSet a b) (field "ATTR_SET" ("attributes of AS".toList ++ t))
  | development {b n} : Numeral n b.length → AttrText sh d (.development b) (field "DEVELOPMENT" (n ++ " bytes".toList))
  | raw {c b n m} : Numeral n c.toNat → Numeral m b.length →
      AttrText sh d (.raw c b) ("RAW ATTRIBUTE (type ".toList ++ n ++ "): ".toList ++ m ++ " bytes".toList)
  | deprecated {c b n m} : Numeral n c.toNat → Numeral m b.length →
      AttrText sh d (.deprecated c b) ("DEPRECATED (type ".toList ++ n ++ "): ".toList ++ m ++ " bytes".toList)
  | unknown {c b n m} : Numeral n c.toNat → Numeral m b.length →
      AttrText sh d (.unknown c b) ("UNKNOWN (type ".toList ++ n ++ "): ".toList ++ m ++ " bytes".toList)

/-- A RIB entry under its title: the number of the peer, the time, then attributes and warnings. -/
def EntryText (sh : ShowEnv) (d : DebugEnv) (e : RibEntry) (body : List (List Char)) : Prop :=
  ∃ n t rest as, body = ("    PEER_INDEX: ".toList ++ n) :: ("    ORIGINATED: ".toList ++ t) :: rest ∧
    Numeral n e.peerIndex.toNat ∧ Numeral t e.time.toNat ∧
    Pairwise2 (AttrText sh d) (valuesOf e.attributes) as ∧ Under "    ATTRIBUTES:" 6 rest as ∧
    Under "    WARNINGS:" 6 rest (e.attributes.warnings.map d.warning)

/-- An entry of the old table dump. -/
def DumpText (sh : ShowEnv) (d : DebugEnv) (m : TableDump) (body : List (List Char)) : Prop :=
  ∃ p i a t rest as, body = ("  PREFIX: ".toList ++ p) :: ("  PEER: ".toList ++ i ++ " AS".toList ++ a) :: ("  ORIGINATED: ".toList ++ t) :: rest ∧
    ShowsNet sh m.prefix_.prefix_ p ∧ ShowsIp sh m.peerIp i ∧ ShowsAsn m.peerAsn a ∧ Numeral t m.time.toNat ∧
    Pairwise2 (AttrText sh d) (valuesOf m.attributes) as ∧ Under "  ATTRIBUTES:" 4 rest as ∧
    Under "  WARNINGS:" 4 rest (m.attributes.warnings.map d.warning)

/-- The line of a peer. -/
def PeerText (sh : ShowEnv) (p : UInt16 × Peer) (t : List Char) : Prop :=
  ∃ n i a, Numeral n p.1.toNat ∧ ShowsIp sh p.2.ip i ∧ ShowsAsn p.2.asn a ∧
    t = "  PEER[".toList ++ n ++ "]: ".toList ++ i ++ " AS".toList ++ a

/-- The first line: the time, with six digits of microseconds if there are any. -/
inductive TimeText : Header → List Char → Prop where
  | whole {h n} : h.micro = none → Numeral n h.time.toNat → TimeText h ("TIME: ".toList ++ n)
  | micro {h u n k m} : h.micro = some u → Numeral n h.time.toNat → Numeral m u.toNat → k + m.length = max 6 m.length →
      TimeText h ("TIME: ".toList ++ n ++ '.' :: List.replicate k '0' ++ m)

/-- The values stand under the title, one on a line, in this order. -/
def Section (title : String) (n : Nat) (ls : List (List Char)) (shows : α → List Char → Prop) (xs : List α) : Prop :=
  ∃ ts, Pairwise2 shows xs ts ∧ Under title n ls ts

/-- The lines that begin with this text. -/
def starting (s : String) (ls : List (List Char)) : List (List Char) := ls.filter (s.toList.isPrefixOf ·)

/-- One end of the session. -/
def EndText (sh : ShowEnv) (name : String) (ip : Ip) (asn : Asn) (t : List Char) : Prop :=
  ∃ i a, ShowsIp sh ip i ∧ ShowsAsn asn a ∧ t = name.toList ++ i ++ " AS".toList ++ a

/-- The only line that begins with `pre` shows the number, or there is none if the number is zero. -/
def CountLine (pre post : String) (n : Nat) (ls : List (List Char)) : Prop :=
  if n = 0 then starting pre ls = [] else ∃ t, Numeral t n ∧ starting pre ls = [pre.toList ++ t ++ post.toList]

/-- How an update reads: the prefixes, the attributes and the warnings in order. -/
structure UpdateText (sh : ShowEnv) (d : DebugEnv) (u : Update) (ls : List (List Char)) : Prop where
  withdrawn : Section "  WITHDRAWN:" 4 ls (fun (p : NetworkPrefix) t => ShowsNet sh p.prefix_ t) (withdrawnOf u)
  announced : Section "  ANNOUNCED:" 4 ls (fun (p : NetworkPrefix) t => ShowsNet sh p.prefix_ t) (announcedOf u)
  labeled : Section "  ANNOUNCED (labeled):" 4 ls (ShowsLabeled sh) (labeledOf u)
  linkState : CountLine "  LINK_STATE_NLRI: " " entries (BGP-LS)" ((valuesOf u.attributes).map linkStates).sum ls
  flowspec : CountLine "  FLOWSPEC_NLRI: " " rules (RFC 8955)" ((valuesOf u.attributes).map flowspecs).sum ls
  attributes : Section "  ATTRIBUTES:" 4 ls (AttrText sh d) (valuesOf u.attributes)
  warnings : Under "  WARNINGS:" 4 ls (u.attributes.warnings.map d.warning)

/-- The line of a capability. -/
inductive CapText (d : DebugEnv) : Capability → List Char → Prop where
  | mp {ty a s} : CapText d ⟨ty, .multiprotocol a s⟩ (d.capType ty ++ ": ".toList ++ d.afi a ++ '/' :: d.safi s)
  | as4 {ty a n} : Numeral n a.toNat → CapText d ⟨ty, .fourOctetAs a⟩ (d.capType ty ++ ": AS".toList ++ n)
  | addPath {ty fs n} : Numeral n fs.length → CapText d ⟨ty, .addPath fs⟩ (d.capType ty ++ ": ".toList ++ n ++ " address families".toList)
  | other {ty v} : (∀ a s, v ≠ .multiprotocol a s) → (∀ a, v ≠ .fourOctetAs a) → (∀ fs, v ≠ .addPath fs) → CapText d ⟨ty, v⟩ (d.capType ty)

/-- the capabilities in the optional parameters of an OPEN. -/
def capabilitiesOf (o : Open) : List Capability := o.params.flatMap fun p => match p.value with | .caps cs => cs | .raw _ => []

/-- How an OPEN reads. The title of the capabilities stands there if there are parameters. -/
def OpenText (d : DebugEnv) (o : Open) (ls : List (List Char)) : Prop :=
  ∃ v a h i rest cs, ls = ("  VERSION: ".toList ++ v) :: ("  MY_AS: ".toList ++ a) :: ("  HOLD_TIME: ".toList ++ h ++ ['s']) :: ("  BGP_ID: ".toList ++ i) :: rest ∧
    Numeral v o.version.toNat ∧ ShowsAsn o.asn a ∧ Numeral h o.holdTime.toNat ∧ ShowsV4 o.bgpId i ∧
    Pairwise2 (CapText d) (capabilitiesOf o) cs ∧
    rest = if o.params = [] then [] else "  CAPABILITIES:".toList :: cs.map ("    ".toList ++ ·)

/-- the lines of a message, the first of which names it. -/
inductive MessageText (sh : ShowEnv) (d : DebugEnv) : BgpMessage → List (List Char) → Prop where
  | update {u ls} : UpdateText sh d u ls → MessageText sh d (.update u) ("UPDATE:".toList :: ls)
  | opened {o ls} : OpenText d o ls → MessageText sh d (.open o) ("OPEN:".toList :: ls)
  | notification {n k} : Numeral k n.data.length →
      MessageText sh d (.notification n) ["NOTIFICATION:".toList, "  ERROR: ".toList ++ d.error n.error ++ " (".toList ++ k ++ " bytes of data)".toList]
  | keepAlive : MessageText sh d .keepAlive ["KEEPALIVE:".toList]
  | refresh {r a s t} : Numeral a r.afi.toNat → Numeral s r.safi.toNat → Numeral t r.subtype.toNat →
      MessageText sh d (.routeRefresh r) ["ROUTE_REFRESH:".toList, "  AFI: ".toList ++ a ++ " SAFI: ".toList ++ s ++ " SUBTYPE: ".toList ++ t]

/-- The second line: type and subtype; the subtype of BGP4MP by its name, of others by its number. -/
inductive TypeText (d : DebugEnv) (r : MrtRecord) : List Char → Prop where
  | message {m} : r.message = .bgp4mp (.message m) → TypeText d r ("TYPE: ".toList ++ d.entryType r.header.type ++ '/' :: d.mpType m.msgType)
  | state {m} : r.message = .bgp4mp (.stateChange m) → TypeText d r ("TYPE: ".toList ++ d.entryType r.header.type ++ '/' :: d.mpType m.msgType)
  | other {n} : (∀ m, r.message ≠ .bgp4mp m) → Numeral n r.header.subtype.toNat →
      TypeText d r ("TYPE: ".toList ++ d.entryType r.header.type ++ '/' :: n)

/-- What a record reads as after the two lines that tell its time and its type. -/
inductive BodyText (sh : ShowEnv) (d : DebugEnv) : MrtMessage → List (List Char) → Prop where
  | bgp4mp {m f t ls} : EndText sh "FROM: " m.peerIp m.peerAsn f → EndText sh "TO: " m.localIp m.localAsn t → MessageText sh d m.message ls →
      BodyText sh d (.bgp4mp (.message m)) (f :: t :: ls)
  | bgp4mpState {m f t} : EndText sh "FROM: " m.peerIp m.peerAsn f → EndText sh "TO: " m.localIp m.localAsn t →
      BodyText sh d (.bgp4mp (.stateChange m))
        [f, t, "STATE_CHANGE:".toList, "  OLD_STATE: ".toList ++ d.state m.old, "  NEW_STATE: ".toList ++ d.state m.new]
  | legacy {m f t ls} : EndText sh "FROM: " m.peerIp m.peerAsn f → EndText sh "TO: " m.localIp m.localAsn t → MessageText sh d m.message ls →
      BodyText sh d (.legacyBgp (.message m)) (f :: t :: ls)
  | legacyState {m f} : EndText sh "FROM: " m.peerIp m.peerAsn f →
      BodyText sh d (.legacyBgp (.stateChange m))
        [f, "STATE_CHANGE:".toList, "  OLD_STATE: ".toList ++ d.state m.old, "  NEW_STATE: ".toList ++ d.state m.new]
  | dump {m ls} : DumpText sh d m ls → BodyText sh d (.tableDump m) ("RIB_ENTRY:".toList :: ls)
  | batch {ms n ls} : Numeral n ms.length → Pairwise2 (DumpText sh d) ms (blocks "RIB_ENTRY:" 2 ls) →
      BodyText sh d (.tableDumpBatch ms) (("TABLE_DUMP: ".toList ++ n ++ " entries".toList) :: ls)
  | peers {t n ps ls} : Numeral n t.idPeer.length → ps.Perm t.idPeer → ps.Pairwise (fun a b => a.1 ≤ b.1) → Pairwise2 (PeerText sh) ps ls →
      BodyText sh d (.tableDumpV2 (.peerIndexTable t)) (("PEER_INDEX_TABLE: ".toList ++ n ++ " peers".toList) :: ls)
  | rib {r p n ls} : ShowsNet sh r.prefix_.prefix_ p → Numeral n r.entries.length → Pairwise2 (EntryText sh d) r.entries (blocks "  RIB_ENTRY:" 4 ls) →
      BodyText sh d (.tableDumpV2 (.ribAfi r))
        (("RIB_AFI: ".toList ++ d.v2Type r.ribType ++ " PREFIX: ".toList ++ p ++ " (".toList ++ n ++ " entries)".toList) :: ls)
  | generic {r p n ls} : ShowsNet sh r.nlri.prefix_ p → Numeral n r.entries.length → Pairwise2 (EntryText sh d) r.entries (blocks "  RIB_ENTRY:" 4 ls) →
      BodyText sh d (.tableDumpV2 (.ribGeneric r))
        (("RIB_GENERIC: ".toList ++ d.afi r.afi ++ '/' :: d.safi r.safi ++ " PREFIX: ".toList ++ p ++ " (".toList ++ n ++ " entries)".toList) :: ls)
  | geo {t n} : Numeral n t.peers.length → BodyText sh d (.tableDumpV2 (.geo t)) ["GEO_PEER_TABLE: ".toList ++ n ++ " peers".toList]

end Verif.Spec
