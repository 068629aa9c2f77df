import Verif.Model.Display
import Verif.Model.Mrt
/-
The layered text of records: `/repo/src/render/text.rs`.
-/
namespace Verif

/-- The texts that are not modelled: `Debug` of some types (derived), and `Display` of warnings (error.rs). -/
structure DebugEnv where
  entryType : EntryType → List Char
  mpType : MpType → List Char
  v2Type : V2Type → List Char
  state : BgpState → List Char
  afi : Afi → List Char
  safi : Safi → List Char
  error : BgpError → List Char
  capType : UInt8 → List Char
  attr : AttrVal → List Char
  warning : Warning → List Char

/-- `INDENT` (text.rs 15), repeated. -/
def indent (n : Nat) (s : List Char) : List Char := List.replicate (2 * n) ' ' ++ s

/-- `{:06}` (std). -/
def pad6 (n : Nat) : List Char := List.replicate (6 - (decText n).length) '0' ++ decText n

/-- a line `FROM: .. AS..` or `TO: .. AS..` (text.rs 63-66, 90-93, 101-104). -/
def endLine (sh : ShowEnv) (name : String) (ip : Ip) (asn : Asn) : List Char := lit name ++ ip.text sh ++ lit " AS" ++ asnText asn

/-- `Display for NextHopAddress` (nexthop.rs 89-99). -/
def NextHop.text (sh : ShowEnv) : NextHop → List Char
  | .v4 a => v4Text a
  | .v6 a | .v6ll a _ | .vpn6 _ a | .vpn6ll _ a _ _ => sh.v6 a

/-- `render_attribute` (text.rs 262-330). -/
def attrLine (sh : ShowEnv) (d : DebugEnv) : AttrVal → List Char
  | .origin o => lit "ORIGIN: " ++ originName o
  | .asPath p => lit "AS_PATH: " ++ asPathText p
  | .as4Path p => lit "AS4_PATH: " ++ asPathText p
  | .nextHop a => lit "NEXT_HOP: " ++ a.text sh
  | .med v => lit "MULTI_EXIT_DISC: " ++ decText v.toNat
  | .localPref v => lit "LOCAL_PREF: " ++ decText v.toNat
  | .otc a => lit "ONLY_TO_CUSTOMER: " ++ asnText a
  | .atomic => lit "ATOMIC_AGGREGATE"
  | .aggregator a id => lit "AGGREGATOR: AS" ++ asnText a ++ lit " by " ++ v4Text id
  | .as4Aggregator a id => lit "AS4_AGGREGATOR: AS" ++ asnText a ++ lit " by " ++ v4Text id
  | .communities cs => lit "COMMUNITIES: " ++ joinSep [' '] (cs.map plainText)
  | .largeCommunities cs => lit "LARGE_COMMUNITIES: " ++ joinSep [' '] (cs.map largeText)
  | .extCommunities cs => lit "EXTENDED_COMMUNITIES: " ++ joinSep [' '] (cs.map (extText sh))
  | .ipv6ExtCommunities cs => lit "IPV6_EXTENDED_COMMUNITIES: " ++ joinSep [' '] (cs.map (ipv6ExtText sh))
  | .originatorId id => lit "ORIGINATOR_ID: " ++ v4Text id
  | .clusters cs => lit "CLUSTER_LIST: " ++ joinSep [' '] (cs.map fun c => decText c.toNat)
  | .mpReach n =>
    lit "MP_REACH_NLRI: " ++ d.afi n.afi ++ ['/'] ++ d.safi n.safi ++
      (match n.nextHop with | some h => lit " next-hop " ++ h.text sh | none => [])
  | .mpUnreach n => lit "MP_UNREACH_NLRI: " ++ d.afi n.afi ++ ['/'] ++ d.safi n.safi
  | .aigp t => lit "AIGP: " ++ d.attr (.aigp t)
  | .bfd t => lit "BFD_DISCRIMINATOR: " ++ d.attr (.bfd t)
  | .trafficEng t => lit "TRAFFIC_ENGINEERING: " ++ d.attr (.trafficEng t)
  | .tunnel t => lit "TUNNEL_ENCAPSULATION: " ++ d.attr (.tunnel t)
  | .linkState t => lit "BGP_LS: " ++ d.attr (.linkState t)
  | .prefixSid t => lit "BGP_PREFIX_SID: " ++ d.attr (.prefixSid t)
  | .bier t => lit "BIER: " ++ d.attr (.bier t)
  | .sfp t => lit "SFP: " ++ d.attr (.sfp t)
  | .attrSet a _ => lit "ATTR_SET: attributes of AS" ++ asnText a
  | .development b => lit "DEVELOPMENT: " ++ decText b.length ++ lit " bytes"
  | .raw c b => lit "RAW ATTRIBUTE (type " ++ decText c.toNat ++ lit "): " ++ decText b.length ++ lit " bytes"
  | .deprecated c b => lit "DEPRECATED (type " ++ decText c.toNat ++ lit "): " ++ decText b.length ++ lit " bytes"
  | .unknown c b => lit "UNKNOWN (type " ++ decText c.toNat ++ lit "): " ++ decText b.length ++ lit " bytes"

/-- the lists gathered by `render_update` (text.rs 175-195). -/
structure Gathered where
  withdrawn : List NetworkPrefix
  announced : List NetworkPrefix
  labeled : List LabeledPrefix
  linkState : Nat
  flowspec : Nat

/-- one round of the loop (text.rs 180-195). -/
def Gathered.step (g : Gathered) : AttrVal → Gathered
  | .mpUnreach n => { g with
      withdrawn := g.withdrawn ++ n.prefixes
      linkState := g.linkState + (n.linkState.getD []).length
      flowspec := g.flowspec + (n.flowspec.getD []).length }
  | .mpReach n => { g with
      announced := g.announced ++ n.prefixes
      labeled := g.labeled ++ n.labeled.getD []
      linkState := g.linkState + (n.linkState.getD []).length
      flowspec := g.flowspec + (n.flowspec.getD []).length }
  | _ => g

/-- the loop (text.rs 175-195). -/
def Update.gathered (u : Update) : Gathered :=
  (u.attributes.inner.map (·.value)).foldl Gathered.step ⟨u.withdrawn, u.announced, [], 0, 0⟩

/-- one line of the labelled section (text.rs 213-227). -/
def labeledLine (sh : ShowEnv) (p : LabeledPrefix) : List Char :=
  p.prefix_.text sh ++ lit " labels=[" ++ joinSep (lit ", ") (p.labels.map fun l => decText l.toNat) ++ [']'] ++
    (match p.pathId with | some i => lit " path-id " ++ decText i.toNat | none => [])

/-- a section that is left out when it has no lines (text.rs 197-228, 240-256). -/
def sectionLines (title : List Char) (depth : Nat) (items : List (List Char)) : List (List Char) :=
  if items.isEmpty then [] else indent depth title :: items.map (indent (depth + 1))

/-- `render_update` (text.rs 170-257). Every `push_str` ends with a line feed, so the text is given by its lines. -/
def updateLines (sh : ShowEnv) (d : DebugEnv) (u : Update) : List (List Char) :=
  let g := u.gathered
  sectionLines (lit "WITHDRAWN:") 1 (g.withdrawn.map (NetworkPrefix.text sh)) ++
  sectionLines (lit "ANNOUNCED:") 1 (g.announced.map (NetworkPrefix.text sh)) ++
  sectionLines (lit "ANNOUNCED (labeled):") 1 (g.labeled.map (labeledLine sh)) ++
  (if g.linkState > 0 then [indent 1 (lit "LINK_STATE_NLRI: " ++ decText g.linkState ++ lit " entries (BGP-LS)")] else []) ++
  (if g.flowspec > 0 then [indent 1 (lit "FLOWSPEC_NLRI: " ++ decText g.flowspec ++ lit " rules (RFC 8955)")] else []) ++
  sectionLines (lit "ATTRIBUTES:") 1 (u.attributes.inner.map fun a => attrLine sh d a.value) ++
  sectionLines (lit "WARNINGS:") 1 (u.attributes.warnings.map d.warning)

/-- `capability_summary` (text.rs 155-168). -/
def capLine (d : DebugEnv) (c : Capability) : List Char :=
  match c.value with
  | .multiprotocol a s => d.capType c.ty ++ lit ": " ++ d.afi a ++ ['/'] ++ d.safi s
  | .fourOctetAs a => d.capType c.ty ++ lit ": AS" ++ decText a.toNat
  | .addPath fs => d.capType c.ty ++ lit ": " ++ decText fs.length ++ lit " address families"
  | _ => d.capType c.ty

/-- the loop over the parameters (text.rs 122-128). -/
def OptParam.caps (p : OptParam) : List Capability :=
  match p.value with
  | .caps cs => cs
  | .raw _ => []

/-- `render_bgp_message` (text.rs 110-153). -/
def messageLines (sh : ShowEnv) (d : DebugEnv) : BgpMessage → List (List Char)
  | .open o =>
    [lit "OPEN:", indent 1 (lit "VERSION: " ++ decText o.version.toNat), indent 1 (lit "MY_AS: " ++ asnText o.asn),
      indent 1 (lit "HOLD_TIME: " ++ decText o.holdTime.toNat ++ ['s']), indent 1 (lit "BGP_ID: " ++ v4Text o.bgpId)] ++
    (if o.params.isEmpty then []
     else indent 1 (lit "CAPABILITIES:") :: (o.params.flatMap OptParam.caps).map fun c => indent 2 (capLine d c))
  | .update u => lit "UPDATE:" :: updateLines sh d u
  | .notification n =>
    [lit "NOTIFICATION:", indent 1 (lit "ERROR: " ++ d.error n.error ++ lit " (" ++ decText n.data.length ++ lit " bytes of data)")]
  | .keepAlive => [lit "KEEPALIVE:"]
  | .routeRefresh r =>
    [lit "ROUTE_REFRESH:", indent 1 (lit "AFI: " ++ decText r.afi.toNat ++ lit " SAFI: " ++ decText r.safi.toNat ++
      lit " SUBTYPE: " ++ decText r.subtype.toNat)]

/-- the lines of a state change (text.rs 70-75, 94-98). -/
def stateLines (d : DebugEnv) (old new : BgpState) : List (List Char) :=
  [lit "STATE_CHANGE:", indent 1 (lit "OLD_STATE: " ++ d.state old), indent 1 (lit "NEW_STATE: " ++ d.state new)]

/-- `render_bgp4mp` (text.rs 87-108). -/
def bgp4mpLines (sh : ShowEnv) (d : DebugEnv) : Bgp4Mp → List (List Char)
  | .stateChange m =>
    [endLine sh "FROM: " m.peerIp m.peerAsn, endLine sh "TO: " m.localIp m.localAsn] ++ stateLines d m.old m.new
  | .message m =>
    [endLine sh "FROM: " m.peerIp m.peerAsn, endLine sh "TO: " m.localIp m.localAsn] ++ messageLines sh d m.message

/-- `render_legacy_bgp` (text.rs 58-78). -/
def legacyLines (sh : ShowEnv) (d : DebugEnv) : LegacyBgp → List (List Char)
  | .message m =>
    [endLine sh "FROM: " m.peerIp m.peerAsn, endLine sh "TO: " m.localIp m.localAsn] ++ messageLines sh d m.message
  | .stateChange m => endLine sh "FROM: " m.peerIp m.peerAsn :: stateLines d m.old m.new

/-- `render_attributes_block` (text.rs 394-415). -/
def attributesLines (sh : ShowEnv) (d : DebugEnv) (a : Attributes) (depth : Nat) : List (List Char) :=
  (if a.inner.isEmpty then [] else [indent depth (lit "ATTRIBUTES:")]) ++
  a.inner.map (fun x => indent (depth + 1) (attrLine sh d x.value)) ++
  (if a.warnings.isEmpty then [] else indent depth (lit "WARNINGS:") :: a.warnings.map fun w => indent (depth + 1) (d.warning w))

/-- `render_table_dump` (text.rs 332-338). -/
def tableDumpLines (sh : ShowEnv) (d : DebugEnv) (m : TableDump) : List (List Char) :=
  [lit "RIB_ENTRY:", indent 1 (lit "PREFIX: " ++ m.prefix_.text sh), indent 1 (endLine sh "PEER: " m.peerIp m.peerAsn),
    indent 1 (lit "ORIGINATED: " ++ decText m.time.toNat)] ++ attributesLines sh d m.attributes 1

/-- one RIB entry (text.rs 364-370, 380-386). -/
def ribEntryLines (sh : ShowEnv) (d : DebugEnv) (e : RibEntry) : List (List Char) :=
  [indent 1 (lit "RIB_ENTRY:"), indent 2 (lit "PEER_INDEX: " ++ decText e.peerIndex.toNat),
    indent 2 (lit "ORIGINATED: " ++ decText e.time.toNat)] ++ attributesLines sh d e.attributes 2

/-- one peer (text.rs 350-355). -/
def peerLine (sh : ShowEnv) (p : UInt16 × Peer) : List Char :=
  indent 1 (lit "PEER[" ++ decText p.1.toNat ++ lit "]: " ++ p.2.ip.text sh ++ lit " AS" ++ asnText p.2.asn)

/-- `peers.sort_by_key(|(id, _)| **id)` (text.rs 348-349). -/
def sortPeers (l : List (UInt16 × Peer)) : List (UInt16 × Peer) := l.mergeSort fun a b => decide (a.1 ≤ b.1)

/-- `render_table_dump_v2` (text.rs 340-392). -/
def tableDumpV2Lines (sh : ShowEnv) (d : DebugEnv) : TableDumpV2 → List (List Char)
  | .peerIndexTable t =>
    (lit "PEER_INDEX_TABLE: " ++ decText t.idPeer.length ++ lit " peers") :: (sortPeers t.idPeer).map (peerLine sh)
  | .ribAfi r =>
    (lit "RIB_AFI: " ++ d.v2Type r.ribType ++ lit " PREFIX: " ++ r.prefix_.text sh ++ lit " (" ++ decText r.entries.length ++
      lit " entries)") :: r.entries.flatMap (ribEntryLines sh d)
  | .ribGeneric r =>
    (lit "RIB_GENERIC: " ++ d.afi r.afi ++ ['/'] ++ d.safi r.safi ++ lit " PREFIX: " ++ r.nlri.text sh ++ lit " (" ++
      decText r.entries.length ++ lit " entries)") :: r.entries.flatMap (ribEntryLines sh d)
  | .geo t => [lit "GEO_PEER_TABLE: " ++ decText t.peers.length ++ lit " peers"]

/-- `entry_subtype_name` (text.rs 80-85). -/
def subtypeName (d : DebugEnv) (r : MrtRecord) : List Char :=
  match r.message with
  | .bgp4mp (.message m) => d.mpType m.msgType
  | .bgp4mp (.stateChange m) => d.mpType m.msgType
  | _ => decText r.header.subtype.toNat

/-- the lines of `format_record` (text.rs 30-56). -/
def recordLines (sh : ShowEnv) (d : DebugEnv) (r : MrtRecord) : List (List Char) :=
  [lit "TIME: " ++ decText r.header.time.toNat ++ (match r.header.micro with | some u => ['.'] ++ pad6 u.toNat | none => []),
    lit "TYPE: " ++ d.entryType r.header.type ++ ['/'] ++ subtypeName d r] ++
  match r.message with
  | .bgp4mp m => bgp4mpLines sh d m
  | .legacyBgp m => legacyLines sh d m
  | .tableDump m => tableDumpLines sh d m
  | .tableDumpBatch ms => (lit "TABLE_DUMP: " ++ decText ms.length ++ lit " entries") :: ms.flatMap (tableDumpLines sh d)
  | .tableDumpV2 m => tableDumpV2Lines sh d m

/-- `format_record` (text.rs 30-56). -/
def recordText (sh : ShowEnv) (d : DebugEnv) (r : MrtRecord) : List Char := (recordLines sh d r).flatMap (· ++ ['\n'])

/-- `format_record_with_hex` (text.rs 20-24). -/
def recordTextHex (sh : ShowEnv) (d : DebugEnv) (r : MrtRecord) (hex : List Char) : List Char :=
  recordText sh d r ++ (indent 1 (lit "HEX: " ++ hex) ++ ['\n'])

end Verif
