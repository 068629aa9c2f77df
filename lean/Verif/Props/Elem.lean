import Verif.Lemmas.Elem
/-
C32, C33, C49: elements.
-/
namespace Verif.Props
open Spec

/-! ### C32: UPDATE to elements -/

/-- C32, for every UPDATE: one announcement per prefix of the NLRI field and then of the last MP_REACH_NLRI, and one
withdrawal per prefix of the withdrawn routes field and then of the last MP_UNREACH_NLRI, in that order. Missing from the
full property: the routes of earlier MP_REACH/MP_UNREACH attributes, and labelled and FlowSpec routes
(`c32_labeled_routes_lost`, `c32_earlier_mp_reach_lost`). -/
theorem c32_update_elems_partial (u : Update) (t : Nat) (ip : Ip) (asn : Asn) :
    ∃ reach unreach, Last .mpReach u.attributes.inner reach ∧ Last .mpUnreach u.attributes.inner unreach ∧
      UpdateElems u t ip asn (prefixesOf reach) (prefixesOf unreach) (updateToElems u t ip asn) := by
  refine ⟨_, _, rel_announced _, rel_withdrawn _, ?_⟩
  rw [updateToElems, UpdateIter.collect_eq]
  refine ⟨_, pairwise2_map _ (updateIter u t ip asn).announce ?_ _, ?_⟩
  · intro p
    exact ⟨rfl, rfl, rfl, rfl, rfl, rfl, ⟨_, _, rel_asPath _, rel_as4Path _, mergePaths_spec _ _⟩,
      carries_of _ _ rfl rfl rfl rfl rfl rfl rfl rfl rfl rfl rfl rfl⟩
  · have h1 : ∀ o : Option Nlri, (match o with | some n => n.prefixes | none => []) = prefixesOf o := by
      intro o; cases o <;> rfl
    show (u.announced ++ (match (relRaw u.attributes.inner).announced with | some n => n.prefixes | none => [])).map _ ++
      (u.withdrawn ++ (match (relRaw u.attributes.inner).withdrawn with | some n => n.prefixes | none => [])).map _ = _
    rw [h1, h1]
    rfl

/-- C32. Messages that are not updates have no elements, and an UPDATE has the same elements by both routes. -/
theorem c32_message_elems (m : BgpMessage) (t : Nat) (ip : Ip) (asn : Asn) :
    (∀ u, m = .update u → bgpToElems m t ip asn = updateToElems u t ip asn) ∧
    ((∀ u, m ≠ .update u) → bgpToElems m t ip asn = []) := by
  refine ⟨fun u h => by subst h; rfl, fun h => ?_⟩
  cases m with
  | update u => exact absurd rfl (h u)
  | _ => rfl

/-- C32. The elements of a record holding a BGP message: those of the message, with the peer of the record and the time
of its header to the microsecond. -/
theorem c32_record_elems (el : Elementor) (h : Header) :
    (∀ m : MpMessage, (el.recordToElems ⟨h, .bgp4mp (.message m)⟩).1 = bgpToElems m.message (headerMicros h) m.peerIp m.peerAsn) ∧
    (∀ m : LegacyMessage, (el.recordToElems ⟨h, .legacyBgp (.message m)⟩).1 = bgpToElems m.message (headerMicros h) m.peerIp m.peerAsn) ∧
    (∀ m, (el.recordToElems ⟨h, .bgp4mp (.stateChange m)⟩).1 = []) ∧
    (∀ m, (el.recordToElems ⟨h, .legacyBgp (.stateChange m)⟩).1 = []) ∧
    (∀ m, (el.recordToElems ⟨h, .tableDumpV2 (.geo m)⟩).1 = []) := by
  have hm : h.micros = headerMicros h := by
    unfold Header.micros headerMicros
    cases h.micro <;> simp
  have key : ∀ m t ip asn, (bgpRecordIter m t ip asn).collect = bgpToElems m t ip asn := by
    intro m t ip asn
    rw [RecordIter.collect_eq]
    cases m with
    | update u => exact (UpdateIter.collect_eq _).symm
    | _ => rfl
  refine ⟨fun m => ?_, fun m => ?_, fun _ => rfl, fun _ => rfl, fun _ => rfl⟩
  · rw [← hm]; exact key _ _ _ _
  · rw [← hm]; exact key _ _ _ _

/-- C32. The iterator over an UPDATE, in any state: the size it reports is the number of elements it still gives; asking
for more gives no more; once it has given `None` it gives `None` again. -/
theorem c32_update_iter (it : UpdateIter) :
    it.sizeHint = (it.collect.length, it.collect.length) ∧
    (∀ n, it.sizeHint.2 < n → it.take n = it.collect) ∧
    (it.next.1 = none → it.next.2.next.1 = none) := by
  refine ⟨by rw [it.collect_eq, it.left_length], fun n h => ?_, fun h => ?_⟩
  · rw [it.take_eq, it.collect_eq, List.take_of_length_le]
    rw [it.left_length] at h; exact Nat.le_of_lt h
  · rcases it.left_next with ⟨_, _, h2⟩ | ⟨e, l, _, h1, _⟩
    · rcases it.next.2.left_next with ⟨_, h1, _⟩ | ⟨e, l, h3, _⟩
      · exact h1
      · rw [h2] at h3; cases h3
    · rw [h] at h1; cases h1

/-- C32. The iterator over a record: it never gives more elements than it reports, gives `None` for ever after the first,
and reports the exact number unless it is at RIB entries with an unknown peer. -/
theorem c32_record_iter_partial (it : RecordIter) :
    it.sizeHint.1 = it.sizeHint.2 ∧ it.collect.length ≤ it.sizeHint.2 ∧
    (∀ n, it.sizeHint.2 < n → it.take n = it.collect) ∧
    (it.next.1 = none → it.next.2.next.1 = none) ∧
    ((∀ t p es, it = .rib t p es → ∀ e ∈ es, (t.peer e.peerIndex).isSome = true) →
      it.collect.length = it.sizeHint.2) := by
  refine ⟨?_, by rw [it.collect_eq]; exact it.left_le, fun n h => ?_, fun h => ?_, fun h => ?_⟩
  · cases it with
    | tableDump e => cases e <;> rfl
    | _ => rfl
  · rw [it.take_eq, it.collect_eq, List.take_of_length_le]
    exact Nat.le_of_lt (Nat.lt_of_le_of_lt it.left_le h)
  · rcases it.left_next with ⟨_, _, h2⟩ | ⟨e, l, _, h1, _⟩
    · rcases it.next.2.left_next with ⟨_, h1, _⟩ | ⟨e, l, h3, _⟩
      · exact h1
      · rw [h2] at h3; cases h3
    · rw [h] at h1; cases h1
  · rw [it.collect_eq]
    cases it with
    | empty => rfl
    | tableDump e => cases e <;> rfl
    | batch ms => simp [RecordIter.left, RecordIter.sizeHint]
    | bgp4mp it => simp [RecordIter.left, RecordIter.sizeHint, it.left_length]
    | rib t p es =>
      replace h := h t p es rfl
      show (ribLeft t p es).length = es.length
      revert h
      induction es with
      | nil => intro _; rfl
      | cons e es ih =>
        intro h
        have h1 := h e (List.mem_cons_self ..)
        rw [ribLeft]
        cases h2 : t.peer e.peerIndex with
        | none => rw [h2] at h1; cases h1
        | some peer => simp [ih fun e he => h e (List.mem_cons_of_mem _ he)]

/-- C32. The element of a TABLE_DUMP entry: the attributes of the entry, but the AS path is AS_PATH alone
(`c32_table_dump_as4_path_ignored`). A batch gives one per entry. -/
theorem c32_table_dump_elems_partial (el : Elementor) (h : Header) :
    (∀ m, ∃ e, (el.recordToElems ⟨h, .tableDump m⟩).1 = [e] ∧ e = tableDumpToElem m) ∧
    (∀ ms, (el.recordToElems ⟨h, .tableDumpBatch ms⟩).1 = ms.map tableDumpToElem) ∧
    (∀ m, let e := tableDumpToElem m
      e.type = .announce ∧ e.time = m.time.toNat * 1000000 ∧ e.peerIp = m.peerIp ∧ e.peerAsn = m.peerAsn ∧
      e.peerBgpId = none ∧ e.prefix_ = m.prefix_ ∧ Carries m.attributes.inner e ∧
      Last .asPath m.attributes.inner e.asPath) := by
  refine ⟨fun m => ⟨_, ?_, rfl⟩, fun ms => ?_, fun m => ?_⟩
  · exact (RecordIter.tableDump (some (tableDumpToElem m))).collect_eq
  · exact (RecordIter.batch ms).collect_eq
  · exact ⟨rfl, rfl, rfl, rfl, rfl, rfl, carries_of _ _ rfl rfl rfl rfl rfl rfl rfl rfl rfl rfl rfl rfl, rel_asPath _⟩

/-- A prefix for the examples, 10.`b`.0.0/16. -/
def exPrefix (b : UInt8) : NetworkPrefix := ⟨⟨.v4 #v[10, b, 0, 0], 16⟩, none⟩

/-- an UPDATE with routes in all four places. -/
def exUpdate : Update :=
  ⟨[exPrefix 1], Attributes.ofValues [.origin .igp, .asPath [.seq [23456, 2]], .as4Path [.seq [70000, 2]],
      .communities [.custom 1 2], .mpUnreach (Nlri.newUnreachable (exPrefix 2)),
      .mpReach (Nlri.newReachable (exPrefix 3) (some (.v4 #v[1, 1, 1, 1]))), .unknown 200 [1, 2]],
    [exPrefix 4]⟩

/-- its elements: two announcements with the merged path and the MP next hop, then two withdrawals. -/
example : (updateToElems exUpdate 5 (.v4 #v[9, 9, 9, 9]) 7).map (fun e => (e.type, e.prefix_, e.asPath)) =
    [(.announce, exPrefix 4, some [.seq [70000, 2]]), (.announce, exPrefix 3, some [.seq [70000, 2]]),
     (.withdraw, exPrefix 1, none), (.withdraw, exPrefix 2, none)] ∧
    (updateToElems exUpdate 5 (.v4 #v[9, 9, 9, 9]) 7).map (fun e => (e.nextHop, e.communities, e.originAsns)) =
    [(some (.v4 #v[1, 1, 1, 1]), some [.plain (.custom 1 2)], some [2]),
     (some (.v4 #v[1, 1, 1, 1]), some [.plain (.custom 1 2)], some [2]), (none, none, none), (none, none, none)] := by
  decide +kernel

/-- Findings for C32: labelled routes of an MP_REACH attribute give no element at all. -/
theorem c32_labeled_routes_lost : ∃ u : Update,
    (∃ n, Last .mpReach u.attributes.inner (some n) ∧ ∃ l ls, n.labeled = some (l :: ls)) ∧
    ∀ t ip asn, updateToElems u t ip asn = [] := by
  refine ⟨⟨[], Attributes.ofValues [.mpReach ⟨.ipv4, .mplsLabel, some (.v4 #v[1, 1, 1, 1]), [],
    some [⟨⟨.v4 #v[10, 0, 0, 0], 8⟩, [16], none⟩], none, none⟩], []⟩, ⟨_, ⟨[], _, [], rfl, rfl, ?_⟩, _, _, rfl⟩, ?_⟩
  · intro b hb; cases hb
  · intro t ip asn; rfl

/-- only the last of several MP_REACH attributes counts. -/
theorem c32_earlier_mp_reach_lost : ∃ (u : Update) (n : Nlri) (a : Attribute), a ∈ u.attributes.inner ∧ a.value = .mpReach n ∧
    exPrefix 1 ∈ n.prefixes ∧ ∀ t ip asn, ∀ e ∈ updateToElems u t ip asn, e.prefix_ ≠ exPrefix 1 := by
  refine ⟨⟨[], Attributes.ofValues [.mpReach (Nlri.newReachable (exPrefix 1) none), .mpReach (Nlri.newReachable (exPrefix 2) none)], []⟩,
    Nlri.newReachable (exPrefix 1) none, _, List.mem_cons_self .., rfl, List.mem_cons_self .., ?_⟩
  intro t ip asn e he
  have h : updateToElems ⟨[], Attributes.ofValues [.mpReach (Nlri.newReachable (exPrefix 1) none), .mpReach (Nlri.newReachable (exPrefix 2) none)], []⟩ t ip asn
      = [UpdateIter.announce (updateIter ⟨[], Attributes.ofValues [.mpReach (Nlri.newReachable (exPrefix 1) none), .mpReach (Nlri.newReachable (exPrefix 2) none)], []⟩ t ip asn) (exPrefix 2)] := rfl
  rw [h] at he
  rcases List.mem_singleton.1 he with rfl
  show exPrefix 2 ≠ exPrefix 1
  decide

/-- an UPDATE without LOCAL_PREF and MULTI_EXIT_DISC gives announcements with both set to 0. -/
theorem c32_defaults_invented (u : Update) (h1 : ∀ b ∈ u.attributes.inner, ∀ v, b.value ≠ .localPref v)
    (h2 : ∀ b ∈ u.attributes.inner, ∀ v, b.value ≠ .med v) (t : Nat) (ip : Ip) (asn : Asn) (e : BgpElem)
    (he : e ∈ updateToElems u t ip asn) (ha : e.type = .announce) : e.localPref = some 0 ∧ e.med = some 0 := by
  have hl : (relRaw u.attributes.inner).localPref = some 0 := by
    obtain ⟨v, hv, hr⟩ := rel_localPref u.attributes.inner
    cases v with
    | none => exact hr
    | some v =>
      obtain ⟨pre, a, post, ha, hx, _⟩ := hv
      exact absurd hx (h1 a (by rw [ha]; simp) v)
  have hm : (relRaw u.attributes.inner).med = some 0 := by
    obtain ⟨v, hv, hr⟩ := rel_med u.attributes.inner
    cases v with
    | none => exact hr
    | some v =>
      obtain ⟨pre, a, post, ha, hx, _⟩ := hv
      exact absurd hx (h2 a (by rw [ha]; simp) v)
  rw [updateToElems, UpdateIter.collect_eq] at he
  rcases List.mem_append.1 he with he | he
  · obtain ⟨p, _, rfl⟩ := List.mem_map.1 he
    exact ⟨hl, hm⟩
  · obtain ⟨p, _, rfl⟩ := List.mem_map.1 he
    cases ha

example : ∃ e ∈ updateToElems exUpdate 5 (.v4 #v[9, 9, 9, 9]) 7, e.type = .announce ∧ e.localPref = some 0 :=
  ⟨_, List.mem_cons_self .., rfl, rfl⟩

/-- TABLE_DUMP entries have two-octet AS numbers, and the AS4_PATH that holds the real ones is ignored. -/
theorem c32_table_dump_as4_path_ignored : ∃ m : TableDump,
    m.attributes.effectiveAsPath = some [.seq [70000, 2]] ∧ (tableDumpToElem m).asPath = some [.seq [23456, 2]] := by
  refine ⟨⟨0, 0, exPrefix 1, 1, 0, .v4 #v[1, 1, 1, 1], 1,
    Attributes.ofValues [.asPath [.seq [23456, 2]], .as4Path [.seq [70000, 2]]]⟩, ?_⟩
  decide +kernel

/-- a record iterator that reports two elements and gives none. -/
theorem c32_record_size_hint_wrong : ∃ it : RecordIter, it.sizeHint = (2, 2) ∧ it.collect = [] := by
  refine ⟨.rib .empty (exPrefix 1) [⟨0, 0, none, .empty⟩, ⟨0, 0, none, .empty⟩], ?_⟩
  decide +kernel

/-! ### C33: RIB records to elements -/

/-- the state after a history of records. -/
def Elementor.after (el : Elementor) (hs : List MrtRecord) : Elementor := hs.foldl (fun el r => (el.recordToElems r).2) el

theorem after_table (hs : List MrtRecord) :
    ∀ el : Elementor, (LastTable hs none ∧ Elementor.after el hs = el) ∨
      ∃ t, LastTable hs (some t) ∧ Elementor.after el hs = ⟨some t⟩ := by
  induction hs with
  | nil => exact fun el => .inl ⟨.none _ (by intro r hr; cases hr), rfl⟩
  | cons r hs ih =>
    intro el
    rcases ih (el.recordToElems r).2 with ⟨h1, h2⟩ | ⟨t, h1, h2⟩
    · by_cases hp : ∃ t, r.message = .tableDumpV2 (.peerIndexTable t)
      · obtain ⟨t, hp⟩ := hp
        obtain ⟨h, m⟩ := r
        subst hp
        refine .inr ⟨t, ?_, ?_⟩
        · cases h1 with
          | none _ h1 => exact .some [] h t hs h1
        · exact h2
      · refine .inl ⟨?_, ?_⟩
        · cases h1 with
          | none _ h1 =>
            refine .none _ ?_
            intro r' hr' t ht
            rcases List.mem_cons.1 hr' with rfl | hr'
            · exact hp ⟨t, ht⟩
            · exact h1 r' hr' t ht
        · show Elementor.after (el.recordToElems r).2 hs = el
          rw [h2]
          unfold Elementor.recordToElems
          split
          · rename_i t ht
            exact absurd ⟨t, ht⟩ hp
          · split <;> rfl
    · refine .inr ⟨t, ?_, h2⟩
      cases h1 with
      | some pre h t post h1 => exact .some (r :: pre) h t post h1

theorem ribLeft_spec (t : PeerIndexTable) (p : NetworkPrefix) : ∀ es : List RibEntry,
    ∃ known rest, es = known ++ rest ∧ Pairwise2 (EntryElem t p) known (ribLeft t p es) ∧
      (rest = [] ∨ ∃ e r, rest = e :: r ∧ t.peer e.peerIndex = none)
  | [] => ⟨[], [], rfl, .nil, .inl rfl⟩
  | e :: es => by
    cases h : t.peer e.peerIndex with
    | none => exact ⟨[], e :: es, rfl, by rw [ribLeft, h]; exact .nil, .inr ⟨e, es, rfl, h⟩⟩
    | some peer =>
      obtain ⟨known, rest, h1, h2, h3⟩ := ribLeft_spec t p es
      refine ⟨e :: known, rest, by rw [h1]; rfl, ?_, h3⟩
      rw [ribLeft, h]
      exact .cons ⟨peer, h, ribEntry_announces p peer e⟩ h2

/-- C33. After any history of records, the elements of a RIB record: one per entry, in order, up to the first entry whose
index the most recent peer index table does not have; each with the address, AS number and identifier of the peer that
table gives for the index of its entry, the prefix of the record and the attributes and time of the entry. Without a
table there are none. -/
theorem c33_rib_elems (hs : List MrtRecord) (h : Header) (r : RibAfi) :
    ∃ o, LastTable hs o ∧
      match o with
      | none => ((Elementor.after .new hs).recordToElems ⟨h, .tableDumpV2 (.ribAfi r)⟩).1 = []
      | some t => ∃ known rest, r.entries = known ++ rest ∧
          Pairwise2 (EntryElem t r.prefix_) known ((Elementor.after .new hs).recordToElems ⟨h, .tableDumpV2 (.ribAfi r)⟩).1 ∧
          (rest = [] ∨ ∃ e l, rest = e :: l ∧ t.peer e.peerIndex = none) := by
  rcases after_table hs .new with ⟨h1, h2⟩ | ⟨t, h1, h2⟩
  · exact ⟨none, h1, by rw [h2]; rfl⟩
  · refine ⟨some t, h1, ?_⟩
    rw [h2]
    have : (Elementor.recordToElems ⟨some t⟩ ⟨h, .tableDumpV2 (.ribAfi r)⟩).1 = ribLeft t r.prefix_ r.entries :=
      RecordIter.collect_eq _
    show ∃ known rest, _ ∧ Pairwise2 _ known (Elementor.recordToElems ⟨some t⟩ ⟨h, .tableDumpV2 (.ribAfi r)⟩).1 ∧ _
    rw [this]
    exact ribLeft_spec t r.prefix_ r.entries

/-- C33. In particular: one element per entry when all indices are known. -/
theorem c33_one_per_entry (hs : List MrtRecord) (h : Header) (r : RibAfi) (t : PeerIndexTable)
    (ht : (Elementor.after .new hs).table = some t) (hk : ∀ e ∈ r.entries, (t.peer e.peerIndex).isSome = true) :
    LastTable hs (some t) ∧
    Pairwise2 (EntryElem t r.prefix_) r.entries ((Elementor.after .new hs).recordToElems ⟨h, .tableDumpV2 (.ribAfi r)⟩).1 := by
  rcases after_table hs .new with ⟨h1, h2⟩ | ⟨t', h1, h2⟩
  · rw [h2] at ht; cases ht
  · rw [h2] at ht ⊢
    cases ht
    refine ⟨h1, ?_⟩
    obtain ⟨known, rest, h3, h4, h5⟩ := ribLeft_spec t r.prefix_ r.entries
    have : (Elementor.recordToElems ⟨some t⟩ ⟨h, .tableDumpV2 (.ribAfi r)⟩).1 = ribLeft t r.prefix_ r.entries :=
      RecordIter.collect_eq _
    rw [this]
    rcases h5 with rfl | ⟨e, l, rfl, h5⟩
    · rw [List.append_nil] at h3
      rw [h3] at h4 ⊢
      exact h4
    · have := hk e (by rw [h3]; simp)
      rw [h5] at this; cases this

/-- a peer table with two peers. -/
def exTable : PeerIndexTable :=
  fillPeers 0 .empty [⟨2, #v[1, 0, 0, 1], .v4 #v[192, 0, 2, 1], 65001⟩, ⟨2, #v[1, 0, 0, 2], .v4 #v[192, 0, 2, 2], 65002⟩]

/-- the header of an example. -/
def exHeader : Header := ⟨1700000000, none, .tableDumpV2, 2, 0⟩

/-- a history with two tables, and a RIB record whose two entries are found in the second. -/
example : LastTable [⟨exHeader, .tableDumpV2 (.peerIndexTable .empty)⟩, ⟨exHeader, .tableDumpV2 (.peerIndexTable exTable)⟩] (some exTable) ∧
    (((Elementor.after .new [⟨exHeader, .tableDumpV2 (.peerIndexTable .empty)⟩, ⟨exHeader, .tableDumpV2 (.peerIndexTable exTable)⟩]).recordToElems
      ⟨exHeader, .tableDumpV2 (.ribAfi ⟨.v4Uni, 0, exPrefix 1, [⟨1, 5, none, .empty⟩, ⟨0, 6, none, .empty⟩]⟩)⟩).1.map
        fun e => (e.peerAsn, e.prefix_, e.time)) = [(65002, exPrefix 1, 5000000), (65001, exPrefix 1, 6000000)] :=
  ⟨.some [_] _ _ [] (by intro r hr; cases hr), by decide +kernel⟩

/-- Findings for C33: an unknown index loses the entries behind it, whose peers are known. -/
theorem c33_entries_lost : ∃ (t : PeerIndexTable) (r : RibAfi) (e : RibEntry), e ∈ r.entries ∧ (t.peer e.peerIndex).isSome = true ∧
    ∀ h, (Elementor.recordToElems ⟨some t⟩ ⟨h, .tableDumpV2 (.ribAfi r)⟩).1 = [] := by
  refine ⟨exTable, ⟨.v4Uni, 0, exPrefix 1, [⟨7, 5, none, .empty⟩, ⟨0, 6, none, .empty⟩]⟩, ⟨0, 6, none, .empty⟩, ?_, ?_, ?_⟩
  · decide
  · decide +kernel
  · intro h; rfl

/-- the path identifiers of the entries of an ADD-PATH RIB record appear in no element: it takes the prefix of the record. -/
theorem c33_path_id_lost (el : Elementor) (h : Header) (r : RibAfi) (hp : r.prefix_.pathId = none) (e : BgpElem)
    (he : e ∈ (el.recordToElems ⟨h, .tableDumpV2 (.ribAfi r)⟩).1) : e.prefix_.pathId = none := by
  obtain ⟨o⟩ := el
  cases o with
  | none => cases he
  | some t =>
    have : (Elementor.recordToElems ⟨some t⟩ ⟨h, .tableDumpV2 (.ribAfi r)⟩).1 = ribLeft t r.prefix_ r.entries :=
      RecordIter.collect_eq _
    rw [this] at he
    clear this
    generalize r.entries = es at he
    induction es with
    | nil => cases he
    | cons x es ih =>
      rw [ribLeft] at he
      cases h2 : t.peer x.peerIndex with
      | none => rw [h2] at he; cases he
      | some peer =>
        rw [h2] at he
        rcases List.mem_cons.1 he with rfl | he
        · exact hp
        · exact ih he

example : ∃ e, e ∈ (Elementor.recordToElems ⟨some exTable⟩ ⟨exHeader, .tableDumpV2 (.ribAfi
    ⟨.v4UniAp, 0, exPrefix 1, [⟨1, 5, some 42, .empty⟩]⟩)⟩).1 := ⟨_, List.mem_cons_self ..⟩

end Verif.Props
