import Verif.Spec.Filter
import Verif.Spec.Mrt
/-
What the routes of a stream of records should be.
-/
namespace Verif.Spec

/-- the AS path of a list of attributes: AS_PATH and AS4_PATH merged. -/
def PathOf (as : List Attribute) (path : Option AsPath) : Prop :=
  ∃ p q, Last .asPath as p ∧ Last .as4Path as q ∧ EffectivePath p q path

/-- an UPDATE one of whose two prefix fields cannot be read; a parsed UPDATE says so in a warning. -/
def BadNlri (u : Update) : Prop := ∃ w b, Warning.malformedNlri w b ∈ u.attributes.warnings

/-- the routes of an UPDATE: the announced prefixes, each with the path, then the withdrawn ones without. -/
def UpdateRoutes (u : Update) (t : Nat) (ip : Ip) (asn : Asn) (xs : List RouteElem) : Prop :=
  ∃ reach unreach path, Last .mpReach u.attributes.inner reach ∧ Last .mpUnreach u.attributes.inner unreach ∧
    PathOf u.attributes.inner path ∧
    xs = (u.announced ++ prefixesOf reach).map (fun p => ⟨t, .announce, ip, asn, p, path⟩) ++
      (u.withdrawn ++ prefixesOf unreach).map (fun p => ⟨t, .withdraw, ip, asn, p, none⟩)

/-- the routes of a BGP message: none, unless it is an UPDATE with readable prefixes. -/
inductive BgpRoutes (t : Nat) (ip : Ip) (asn : Asn) : BgpMessage → List RouteElem → Prop where
  | update (u xs) : ¬ BadNlri u → UpdateRoutes u t ip asn xs → BgpRoutes t ip asn (.update u) xs
  | bad (u) : BadNlri u → BgpRoutes t ip asn (.update u) []
  | other (m) : (∀ u, m ≠ .update u) → BgpRoutes t ip asn m []

/-- the route of a TABLE_DUMP entry. -/
def DumpRoute (m : TableDump) (x : RouteElem) : Prop :=
  ∃ path, PathOf m.attributes.inner path ∧ x = ⟨m.time.toNat * 1000000, .announce, m.peerIp, m.peerAsn, m.prefix_, path⟩

/-- the routes of the entries of a RIB record: entries of unknown peers are left out. -/
inductive RibRoutes (t : PeerIndexTable) (p : NetworkPrefix) : List RibEntry → List RouteElem → Prop where
  | nil : RibRoutes t p [] []
  | known (e es peer path xs) : t.peer e.peerIndex = some peer → PathOf e.attributes.inner path → RibRoutes t p es xs →
      RibRoutes t p (e :: es) (⟨e.time.toNat * 1000000, .announce, peer.ip, peer.asn, p, path⟩ :: xs)
  | unknown (e es xs) : t.peer e.peerIndex = none → RibRoutes t p es xs → RibRoutes t p (e :: es) xs

/-- the routes of a message that is not TABLE_DUMP; `hist` are the records before it, `t` is the time of its record. -/
inductive MessageRoutes (hist : List MrtRecord) (t : Nat) : MrtMessage → List RouteElem → Prop where
  | peers (tab) : MessageRoutes hist t (.tableDumpV2 (.peerIndexTable tab)) []
  | geo (g) : MessageRoutes hist t (.tableDumpV2 (.geo g)) []
  | rib (r tab xs) : LastTable hist (some tab) → RibRoutes tab r.prefix_ r.entries xs →
      MessageRoutes hist t (.tableDumpV2 (.ribAfi r)) xs
  | orphan (r) : LastTable hist none → MessageRoutes hist t (.tableDumpV2 (.ribAfi r)) []
  | state (m) : MessageRoutes hist t (.bgp4mp (.stateChange m)) []
  | bgp (m xs) : BgpRoutes t m.peerIp m.peerAsn m.message xs → MessageRoutes hist t (.bgp4mp (.message m)) xs
  | oldState (m) : MessageRoutes hist t (.legacyBgp (.stateChange m)) []
  | oldBgp (m xs) : BgpRoutes t m.peerIp m.peerAsn m.message xs → MessageRoutes hist t (.legacyBgp (.message m)) xs

/-- the routes of a raw record. Those of TABLE_DUMP are the routes of the entries up to the first one that cannot be read. -/
inductive RecordRoutes (hist : List MrtRecord) : Raw → List RouteElem → Prop where
  | parsed (raw r xs) : raw.header.type ≠ .tableDump → raw.parse = .ok r →
      MessageRoutes hist (headerMicros r.header) r.message xs → RecordRoutes hist raw xs
  | unparsed (raw e) : raw.header.type ≠ .tableDump → raw.parse = .error e → RecordRoutes hist raw []
  | dump (raw) (v4 : Bool) (view seq : UInt16) (good rest : Bytes) (ms xs) : raw.header.type = .tableDump →
      raw.header.subtype = (if v4 then 1 else 2) → raw.body = n16 view.toNat ++ n16 seq.toNat ++ (good ++ rest) →
      Blocks (DumpEntryBytes v4 view seq) ms good →
      (∀ m b r, rest = b ++ r → ¬ DumpEntryBytes v4 view seq m b) →
      Pairwise2 DumpRoute ms xs → RecordRoutes hist raw xs
  | noDump (raw) : raw.header.type = .tableDump →
      raw.header.subtype ∉ [(1 : UInt16), 2] ∨ raw.body.length < 4 → RecordRoutes hist raw []

/-- the record of a raw record, if it can be parsed. -/
def recordsOf (raw : Raw) : List MrtRecord :=
  match raw.parse with
  | .ok r => [r]
  | .error _ => []

/-- the routes of a sequence of raw records. -/
inductive StreamRoutes : List MrtRecord → List Raw → List RouteElem → Prop where
  | nil (hist) : StreamRoutes hist [] []
  | cons (hist raw raws xs ys) : RecordRoutes hist raw xs → StreamRoutes (hist ++ recordsOf raw) raws ys →
      StreamRoutes hist (raw :: raws) (xs ++ ys)

/-! ### routes and elements -/

/-- No AS4_PATH in a TABLE_DUMP entry. -/
def NoAs4Path (m : TableDump) : Prop := ∀ b ∈ m.attributes.inner, ∀ p, b.value ≠ .as4Path p

/-- A message that has the same routes as elements: in a TABLE_DUMP entry there is no AS4_PATH, all RIB entries have known
peers or there is no table, all prefixes of an UPDATE can be read. -/
inductive Alike (hist : List MrtRecord) : MrtMessage → Prop where
  | dump (m) : NoAs4Path m → Alike hist (.tableDump m)
  | batch (ms) : (∀ m ∈ ms, NoAs4Path m) → Alike hist (.tableDumpBatch ms)
  | peers (tab) : Alike hist (.tableDumpV2 (.peerIndexTable tab))
  | geo (g) : Alike hist (.tableDumpV2 (.geo g))
  | rib (r tab) : LastTable hist (some tab) → (∀ e ∈ r.entries, tab.peer e.peerIndex ≠ none) → Alike hist (.tableDumpV2 (.ribAfi r))
  | orphan (r) : LastTable hist none → Alike hist (.tableDumpV2 (.ribAfi r))
  | state (m) : Alike hist (.bgp4mp (.stateChange m))
  | bgp (m) : (∀ u, m.message = .update u → ¬ BadNlri u) → Alike hist (.bgp4mp (.message m))
  | oldState (m) : Alike hist (.legacyBgp (.stateChange m))
  | oldBgp (m) : (∀ u, m.message = .update u → ¬ BadNlri u) → Alike hist (.legacyBgp (.message m))

/-- A sequence of raw records of that kind. Records that cannot be parsed may be among them if they are not of type
TABLE_DUMP and the error is not one that ends the iteration over records. -/
inductive AlikeStream : List MrtRecord → List Raw → Prop where
  | nil (hist) : AlikeStream hist []
  | record (hist) (raw : Raw) (r raws) : raw.parse = .ok r → Alike hist r.message → AlikeStream (hist ++ [r]) raws →
      AlikeStream hist (raw :: raws)
  | skipped (hist) (raw : Raw) (e raws) : raw.parse = .error e → raw.header.type ≠ .tableDump → goesOn false e = true →
      AlikeStream hist raws → AlikeStream hist (raw :: raws)

/-! ### the iterator that reports errors -/

/-- reading raw records until the end, the errors too (`chunk_mrt_record` in a loop). -/
def chunkLoop (pol : Pol) (s : Src) : Option (Except RecErr Raw) × Src :=
  match chunk pol s with
  | (.ok r, s) => (some (.ok r), s)
  | (.error e, s) => if e.error = .eofExpected then (none, s) else (some (.error e), s)

/-- A message all of whose routes can be read. -/
inductive Readable (hist : List MrtRecord) (body : Bytes) : MrtMessage → Prop where
  | dump (m) : Readable hist body (.tableDump m)
  | batch (ms) : Readable hist body (.tableDumpBatch ms)
  | peers (tab) : Readable hist body (.tableDumpV2 (.peerIndexTable tab))
  | geo (g) : Readable hist body (.tableDumpV2 (.geo g))
  | rib (r afi pb rest tab) : LastTable hist (some tab) → PrefixBytes afi r.prefix_.prefix_ pb →
      body = n32 r.seq.toNat ++ pb ++ n16 r.entries.length ++ rest → r.entries.length < 65536 → r.ribType.family.map Prod.fst = some afi →
      Readable hist body (.tableDumpV2 (.ribAfi r))
  | state (m) : Readable hist body (.bgp4mp (.stateChange m))
  | bgp (m) : (∀ u, m.message = .update u → ¬ BadNlri u) → Readable hist body (.bgp4mp (.message m))
  | oldState (m) : Readable hist body (.legacyBgp (.stateChange m))
  | oldBgp (m) : (∀ u, m.message = .update u → ¬ BadNlri u) → Readable hist body (.legacyBgp (.message m))

/-- A message whose routes cannot be read: a RIB record without a table before it, an UPDATE with an unreadable prefix field. -/
inductive Broken (hist : List MrtRecord) : MrtMessage → Prop where
  | rib (r) : LastTable hist none → Broken hist (.tableDumpV2 (.ribAfi r))
  | bgp (m u) : m.message = .update u → BadNlri u → Broken hist (.bgp4mp (.message m))
  | oldBgp (m u) : m.message = .update u → BadNlri u → Broken hist (.legacyBgp (.message m))

/-- The routes and errors: an error in the framing is passed on; the routes of a record may be followed by one error that
carries the record. They are not if it can be read in full, and they are if they cannot be read or if the type of the record
is not one with routes. -/
inductive FallibleRoutes : List MrtRecord → List (Except RecErr Raw) → List (Except RecErr RouteElem) → Prop where
  | nil (hist) : FallibleRoutes hist [] []
  | error (hist e items ys) : FallibleRoutes hist items ys → FallibleRoutes hist (.error e :: items) (.error e :: ys)
  | record (hist) (raw : Raw) (items xs ys) (err : Option Err) : RecordRoutes hist raw xs →
      (∀ r, raw.parse = .ok r → Readable hist raw.body r.message → err = none) →
      (∀ r, raw.parse = .ok r → Broken hist r.message → err ≠ none) →
      (raw.header.type ∉ [.tableDump, .tableDumpV2, .bgp4mp, .bgp4mpEt, .bgp] → err = some .unsupported) →
      FallibleRoutes (hist ++ recordsOf raw) items ys →
      FallibleRoutes hist (.ok raw :: items) (xs.map .ok ++ err.toList.map (fun e => .error ⟨e, some raw.bytes⟩) ++ ys)

end Verif.Spec
