import Verif.Lemmas.MrtMsgs
/-
C26-C30, C58, C59: MRT message bodies.
-/
namespace Verif.Props
open Spec

/-! ### C26: PEER_INDEX_TABLE -/

/-- C26. Reading a PEER_INDEX_TABLE (TABLE_DUMP_V2 subtype 1): what is accepted starts with the octets of a table, and the
result is that table: peer `i` is the `i`-th entry, an address resolves to its last entry. A name that is not UTF-8 is
replaced by the empty one. -/
theorem c26_read (s : Bytes) (x : TableDumpV2) (h : parseTableDumpV2 1 s = .ok x) :
    ∃ t col name peers b r, x = .peerIndexTable t ∧ s = b ++ r ∧ PeerTableBytes col name peers b ∧
      TableOf t col (if utf8Ok name then name else []) peers := by
  have h' : mapOk TableDumpV2.peerIndexTable (parsePeerIndexTable.runOn s) = .ok x := h
  cases h1 : parsePeerIndexTable s with
  | error e => simp [Rd.runOn, h1, mapOk] at h'
  | ok v =>
    obtain ⟨t, r⟩ := v
    simp only [Rd.runOn, h1, mapOk] at h'
    cases h'
    obtain ⟨b, rfl, col, name, peers, hb, rfl⟩ := (exact_parsePeerIndexTable _ _ _).mp h1
    exact ⟨_, col, name, peers, b, r, rfl, rfl, hb, fillPeers_tableOf _ _ _ hb.2.1⟩

/-- C26. Every table on the wire is accepted. -/
theorem c26_accept (col : V4) (name : Bytes) (peers : List Peer) (b r : Bytes) (h : PeerTableBytes col name peers b) :
    ∃ t, parseTableDumpV2 1 (b ++ r) = .ok (.peerIndexTable t) ∧
      TableOf t col (if utf8Ok name then name else []) peers := by
  refine ⟨_, ?_, fillPeers_tableOf col (if utf8Ok name then name else []) peers h.2.1⟩
  show mapOk TableDumpV2.peerIndexTable (parsePeerIndexTable.runOn (b ++ r)) = _
  rw [Rd.runOn, (exact_parsePeerIndexTable _ _ _).mpr ⟨b, rfl, col, name, peers, h, rfl⟩]
  rfl

/-- C26. The layout written for a table: the entries in the order of their ids. -/
theorem c26_layout (t : PeerIndexTable) (b : Bytes) (ht : PeerTableOk t) (h : encodePeerIndexTable t = .ok b) :
    ∃ peers, PeerTableBytes t.collector t.viewName peers b ∧ ∀ id, t.peer id = peers[id.toNat]? :=
  encodePeerIndexTable_layout ht h

/-- C26. Round trip: same collector, same name, same peer for every id. -/
theorem c26_roundtrip (t : PeerIndexTable) (b r : Bytes) (ht : PeerTableOk t) (h : encodePeerIndexTable t = .ok b) :
    ∃ t', parseTableDumpV2 1 (b ++ r) = .ok (.peerIndexTable t') ∧ t'.collector = t.collector ∧
      t'.viewName = t.viewName ∧ ∀ id, t'.peer id = t.peer id := by
  obtain ⟨peers, h1, h2⟩ := encodePeerIndexTable_layout ht h
  obtain ⟨t', h3, h4⟩ := c26_accept _ _ _ _ r h1
  refine ⟨t', h3, h4.collector, ?_, fun id => (h4.peer id).trans (h2 id).symm⟩
  rw [h4.name, ht.name]; rfl

theorem fillPeers_nodup (ps : List Peer) : ∀ (i : Nat) (t : PeerIndexTable), (t.idPeer.map Prod.fst).Nodup →
    ((fillPeers i t ps).idPeer.map Prod.fst).Nodup := by
  induction ps with
  | nil => intro i t h; exact h
  | cons p ps ih => intro i t h; exact ih _ _ (amInsert_nodup _ _ _ h)

theorem fillPeers_length (ps : List Peer) : ∀ (i : Nat) (t : PeerIndexTable), i + ps.length ≤ 65536 →
    (∀ id, (t.peer id).isSome ↔ id.toNat < i) → t.idPeer.length = i →
    (fillPeers i t ps).idPeer.length = i + ps.length := by
  induction ps with
  | nil => intro i t _ _ h; simpa [fillPeers] using h
  | cons p ps ih =>
    intro i t hi hd hl
    simp only [List.length_cons] at hi ⊢
    have ho : (UInt16.ofNat i).toNat = i := toNat_u16len (by omega)
    have hn : amGet (UInt16.ofNat i) t.idPeer = none := by
      have := mt (hd (UInt16.ofNat i)).mp (by omega)
      simpa [PeerIndexTable.peer] using this
    rw [fillPeers, ih _ _ (by omega)]
    · omega
    · intro id
      simp only [PeerIndexTable.peer, amGet_amInsert]
      by_cases h : id = UInt16.ofNat i
      · subst h; simp [ho]
      · rw [if_neg h]
        have := hd id
        simp only [PeerIndexTable.peer] at this
        rw [this]
        have : id.toNat ≠ i := fun e => h (UInt16.toNat_inj.mp (by rw [ho, e]))
        omega
    · simp only; rw [amInsert_length _ _ _ hn, hl]

/-- C26. Every table the parser returns meets the condition of the round trip. -/
theorem c26_parsed_tables (s : Bytes) (t : PeerIndexTable) (h : parseTableDumpV2 1 s = .ok (.peerIndexTable t)) :
    PeerTableOk t := by
  have h' : mapOk TableDumpV2.peerIndexTable (parsePeerIndexTable.runOn s) = .ok (.peerIndexTable t) := h
  cases h1 : parsePeerIndexTable s with
  | error e => simp [Rd.runOn, h1, mapOk] at h'
  | ok v =>
    obtain ⟨t', r⟩ := v
    simp only [Rd.runOn, h1, mapOk] at h'
    cases h'
    obtain ⟨b, rfl, col, name, peers, ⟨_, hp, pb, hb, _⟩, rfl⟩ := (exact_parsePeerIndexTable _ _ _).mp h1
    have ht := fillPeers_tableOf col (if utf8Ok name then name else []) peers hp
    refine ⟨?_, ?_, ?_, fillPeers_nodup _ _ _ (by simp)⟩
    · rw [ht.name]
      by_cases hu : utf8Ok name = true
      · rw [if_pos hu]; exact hu
      · rw [if_neg hu]; rfl
    · intro id
      rw [ht.peer, fillPeers_length peers 0 _ (by omega) (by simp [PeerIndexTable.peer, amGet]) rfl]
      simp
    · intro id p hip
      rw [ht.peer] at hip
      have hm := List.mem_of_getElem? hip
      have : ∀ (ps : List Peer) (c : Bytes), Blocks PeerBytes ps c → ∀ p ∈ ps, PeerOk p := by
        intro ps c hb
        induction hb with
        | nil => simp
        | cons h _ ih =>
          intro p hp
          rcases List.mem_cons.mp hp with rfl | hp
          · exact ⟨h.1, h.2.1⟩
          · exact ih p hp
      exact this peers pb hb p hm

/-- C26. So does every table built by adding peers to an empty one. -/
theorem c26_built_tables (h : List (Peer × UInt16)) (t : PeerIndexTable) (hh : AddHistory h t)
    (hp : ∀ p id, (p, id) ∈ h → PeerOk p) : PeerTableOk t := by
  have hi := AddHistory.inv hh
  refine ⟨by rw [hi.viewName]; rfl, hi.dense, ?_, hi.nodup⟩
  intro id p hq
  exact hp p id (hi.first id p hq)

/-- C26. `Peer::new` makes peers whose type octet describes them, for AS numbers that are marked as four-octet or fit two
octets. -/
theorem c26_peer_new (id : V4) (ip : Ip) (asn : Asn) (four : Bool) (h : four = true ∨ asn.toNat < 65536) :
    PeerOk (Peer.new id ip asn four) ∧ (Peer.new id ip asn four).bgpId = id ∧ (Peer.new id ip asn four).ip = ip ∧
      (Peer.new id ip asn four).asn = asn := by
  refine ⟨?_, rfl, rfl, rfl⟩
  cases ip <;> cases four <;> refine ⟨by simp [Peer.new, Ip.isV4]; try decide, ?_⟩ <;> intro h2
  all_goals first
    | exact h.resolve_left (by decide)
    | (simp [Peer.new, Ip.isV4] at h2; exact absurd h2 (by decide))

def c26Table : PeerIndexTable :=
  ⟨#v[192, 0, 2, 9], [114, 114, 99], [(1, ⟨3, #v[10, 0, 0, 2], .v6 #v[32, 1, 13, 184, 0, 0, 0, 0, 0, 0, 0, 0, 0, 0, 0, 1], 4200000000⟩),
    (0, ⟨0, #v[10, 0, 0, 1], .v4 #v[198, 51, 100, 1], 64512⟩)],
    [(.v4 #v[198, 51, 100, 1], 0), (.v6 #v[32, 1, 13, 184, 0, 0, 0, 0, 0, 0, 0, 0, 0, 0, 0, 1], 1)]⟩

theorem c26Table_ok : PeerTableOk c26Table := by
  refine ⟨by decide, ?_, ?_, by decide⟩
  · intro id
    have e : c26Table.idPeer.length = 2 := rfl
    rw [e]
    simp only [PeerIndexTable.peer, c26Table, amGet]
    by_cases h1 : (1 : UInt16) = id
    · subst h1; decide
    · by_cases h0 : (0 : UInt16) = id
      · subst h0; decide
      · rw [if_neg h1, if_neg h0]
        have n1 : id.toNat ≠ 1 := fun e => h1 (UInt16.toNat_inj.mp (by rw [e]; rfl))
        have n0 : id.toNat ≠ 0 := fun e => h0 (UInt16.toNat_inj.mp (by rw [e]; rfl))
        simp; omega
  · intro id p h
    simp only [PeerIndexTable.peer, c26Table, amGet] at h
    split at h
    · cases h; decide
    · split at h
      · cases h; decide
      · cases h

example : PeerTableOk c26Table ∧ (encodePeerIndexTable c26Table).toOption.map List.length = some 47 :=
  ⟨c26Table_ok, by decide +kernel⟩

/-- C26 needs the ids to be dense: the maps are public, and a table that only has id 5 comes back with id 0. -/
theorem c26_gaps_renumbered :
    ∃ t b t' p, t.idPeer = [(5, p)] ∧ encodePeerIndexTable t = .ok b ∧ parseTableDumpV2 1 b = .ok (.peerIndexTable t') ∧
      t'.peer 5 = none ∧ t'.peer 0 = some p :=
  ⟨⟨v4zero, [], [(5, ⟨0, v4zero, .v4 v4zero, 1⟩)], [(.v4 v4zero, 5)]⟩, _, _, ⟨0, v4zero, .v4 v4zero, 1⟩, rfl, rfl, rfl,
    by decide +kernel, by decide +kernel⟩

/-! ### C27: adding peers -/

/-- C27. Within a history of calls, two calls get the same id exactly if their peers have the same address. -/
theorem c27_id_iff_address (h : List (Peer × UInt16)) (t : PeerIndexTable) (hh : AddHistory h t) (p q : Peer) (i j : UInt16)
    (hp : (p, i) ∈ h) (hq : (q, j) ∈ h) : i = j ↔ p.ip = q.ip := by
  have hi := AddHistory.inv hh
  have h1 := hi.hist p i hp
  have h2 := hi.hist q j hq
  constructor
  · intro e
    subst e
    obtain ⟨p', hp', e1⟩ := hi.fwd _ _ h1
    obtain ⟨q', hq', e2⟩ := hi.fwd _ _ h2
    rw [hp'] at hq'
    cases hq'
    rw [← e1, e2]
  · intro e
    rw [e, h2] at h1
    injection h1 with h1
    exact h1.symm

/-- C27, partial: an id handed out resolves to a peer that was added, got that id, and has the same address. Missing: it
need not be the same peer, see `c27_other_peer`. -/
theorem c27_resolves_partial (h : List (Peer × UInt16)) (t : PeerIndexTable) (hh : AddHistory h t) (p : Peer) (i : UInt16)
    (hp : (p, i) ∈ h) : ∃ q, t.peer i = some q ∧ (q, i) ∈ h ∧ q.ip = p.ip ∧ t.idOf p.ip = some i := by
  have hi := AddHistory.inv hh
  have h1 := hi.hist p i hp
  obtain ⟨q, h2, h3⟩ := hi.fwd _ _ h1
  exact ⟨q, h2, hi.first i q h2, h3, h1⟩

/-- C27. The first peer added with an address is the one its id resolves to, now and ever after. -/
theorem c27_first_kept (h h' : List (Peer × UInt16)) (t : PeerIndexTable) (p : Peer) (i : UInt16)
    (hh : AddHistory (h' ++ (p, i) :: h) t) (hnew : ∀ q j, (q, j) ∈ h → q.ip ≠ p.ip) : t.peer i = some p := by
  induction h' generalizing t with
  | nil =>
    obtain ⟨t0, h0, ha⟩ : ∃ t0, AddHistory h t0 ∧ t0.addPeer p = .ok (i, t) := by
      generalize e : ([] : List (Peer × UInt16)) ++ (p, i) :: h = l at hh
      cases hh with
      | empty => cases e
      | add h0 ha => cases e; exact ⟨_, h0, ha⟩
    have hi := AddHistory.inv h0
    refine ((addPeer_inv hi ha).2.2.1 ?_).1
    cases hid : t0.idOf p.ip with
    | none => rfl
    | some j =>
      obtain ⟨q, hq, e⟩ := hi.fwd _ _ hid
      exact absurd e (hnew q j (hi.first j q hq))
  | cons x h' ih =>
    obtain ⟨t0, h0, ha⟩ : ∃ t0, AddHistory (h' ++ (p, i) :: h) t0 ∧ t0.addPeer x.1 = .ok (x.2, t) := by
      generalize e : (x :: h') ++ (p, i) :: h = l at hh
      cases hh with
      | empty => cases e
      | add h0 ha => cases e; exact ⟨_, h0, ha⟩
    exact (addPeer_inv (AddHistory.inv h0) ha).2.1 i p (ih t0 h0)

/-- C27. Adding a peer never changes what an id resolves to, and adding a known address returns its id and leaves the table
as it is. -/
theorem c27_stable (h : List (Peer × UInt16)) (t t' : PeerIndexTable) (p : Peer) (id : UInt16) (hh : AddHistory h t)
    (ha : t.addPeer p = .ok (id, t')) :
    (∀ i q, t.peer i = some q → t'.peer i = some q) ∧
    (∀ q i, (q, i) ∈ h → q.ip = p.ip → id = i ∧ t' = t) ∧
    ((∀ q i, (q, i) ∈ h → q.ip ≠ p.ip) → t'.peer id = some p ∧ t.peer id = none) := by
  have hi := AddHistory.inv hh
  have hr := addPeer_inv hi ha
  refine ⟨hr.2.1, ?_, ?_⟩
  · intro q i hq he
    have := hi.hist q i hq
    rw [he] at this
    exact ⟨(hr.2.2.2 i this).2, (hr.2.2.2 i this).1⟩
  · intro hn
    have hnone : t.idOf p.ip = none := by
      cases hid : t.idOf p.ip with
      | none => rfl
      | some j =>
        obtain ⟨q, hq, e⟩ := hi.fwd _ _ hid
        exact absurd e (hn q j (hi.first j q hq))
    obtain ⟨h1, h2, _⟩ := hr.2.2.1 hnone
    refine ⟨h1, ?_⟩
    have := mt (hi.dense id).mp (by omega)
    simpa using this

/-- C27. Ids are handed out densely from 0: the ids in use are those below the number of different addresses. -/
theorem c27_dense (h : List (Peer × UInt16)) (t : PeerIndexTable) (hh : AddHistory h t) (i : UInt16) :
    (∃ q, (q, i) ∈ h) ↔ i.toNat < t.ipId.length := by
  have hi := AddHistory.inv hh
  rw [hi.len, ← hi.dense]
  constructor
  · rintro ⟨q, hq⟩
    obtain ⟨p, hp, _⟩ := hi.fwd _ _ (hi.hist q i hq)
    rw [hp]; rfl
  · intro hs
    obtain ⟨q, hq⟩ := Option.isSome_iff_exists.mp hs
    exact ⟨q, hi.first i q hq⟩

/-- C27. Adding fails exactly when the address is new and 65535 addresses are in the table already. -/
theorem c27_limit (h : List (Peer × UInt16)) (t : PeerIndexTable) (hh : AddHistory h t) (p : Peer) :
    (∃ e, t.addPeer p = .error e) ↔ (∀ q i, (q, i) ∈ h → q.ip ≠ p.ip) ∧ ∃ q, (q, 65534) ∈ h := by
  have hi := AddHistory.inv hh
  constructor
  · rintro ⟨e, he⟩
    obtain ⟨h1, h2⟩ := addPeer_error he
    refine ⟨?_, ?_⟩
    · intro q i hq e
      have := hi.hist q i hq
      rw [e, h1] at this
      cases this
    · exact (c27_dense h t hh 65534).mpr (show 65534 < _ by omega)
  · rintro ⟨h1, h2⟩
    have h3 : 65534 < t.ipId.length := (c27_dense h t hh 65534).mp h2
    unfold PeerIndexTable.addPeer
    cases hid : amGet p.ip t.ipId with
    | some j =>
      obtain ⟨q, hq, e⟩ := hi.fwd _ _ hid
      exact absurd e (h1 q j (hi.first j q hq))
    | none => exact ⟨.tooLarge (t.ipId.length + 1) 65535, by simp only [checkMax]; rw [if_pos (by omega)]⟩

def c27A : Peer := .new #v[1, 1, 1, 1] (.v4 #v[10, 0, 0, 1]) 65001 false
def c27B : Peer := .new #v[2, 2, 2, 2] (.v4 #v[10, 0, 0, 2]) 4200000000 true
def c27C : Peer := .new #v[3, 3, 3, 3] (.v4 #v[10, 0, 0, 1]) 65003 false

/-- a history of three calls with two addresses. -/
theorem c27_history : ∃ t, AddHistory [(c27C, 0), (c27B, 1), (c27A, 0)] t ∧ t.peer 0 = some c27A ∧ t.peer 1 = some c27B :=
  ⟨_, .add (.add (.add .empty rfl) rfl) rfl, by decide +kernel, by decide +kernel⟩

example : ∃ h t, AddHistory h t ∧ (c27A, 0) ∈ h ∧ (c27B, 1) ∈ h ∧ (c27C, 0) ∈ h ∧ ∀ p id, (p, id) ∈ h → PeerOk p := by
  obtain ⟨t, ht, _⟩ := c27_history
  refine ⟨_, t, ht, by simp, by simp, by simp, ?_⟩
  intro p id hp
  simp only [List.mem_cons, Prod.mk.injEq, List.not_mem_nil, or_false] at hp
  rcases hp with ⟨rfl, _⟩ | ⟨rfl, _⟩ | ⟨rfl, _⟩ <;> decide +kernel

/-- C27 fails here: a second peer with the same address (another router or AS) gets the id of the first one, which does not
resolve to it. -/
theorem c27_other_peer :
    ∃ h t p i, AddHistory h t ∧ (p, i) ∈ h ∧ t.peer i ≠ some p := by
  obtain ⟨t, ht, h0, _⟩ := c27_history
  refine ⟨_, t, c27C, 0, ht, by simp, ?_⟩
  rw [h0]; decide +kernel

/-- C27 fails here: after parsing a table in which two peers have one address, adding a peer with a new address overwrites
an id that is in use. -/
theorem c27_parsed_table_overwritten :
    ∃ s t p q id t', parseTableDumpV2 1 s = .ok (.peerIndexTable t) ∧ t.peer id = some p ∧ t.addPeer q = .ok (id, t') ∧
      t'.peer id = some q ∧ p ≠ q ∧ t.idOf q.ip = none :=
  ⟨[0, 0, 0, 0, 0, 0, 0, 2] ++ [0, 1, 1, 1, 1, 10, 0, 0, 1, 0, 7] ++ [0, 2, 2, 2, 2, 10, 0, 0, 1, 0, 8], _,
    ⟨0, #v[2, 2, 2, 2], .v4 #v[10, 0, 0, 1], 8⟩, c27B, 1, _, rfl, by decide +kernel, rfl, by decide +kernel, by decide +kernel,
    by decide +kernel⟩

/-! ### C58: GEO_PEER_TABLE -/

/-- C58. Reading a GEO_PEER_TABLE (TABLE_DUMP_V2 subtype 7): accepted exactly if the input starts with the octets of the
table; the name is taken octet by octet as Latin-1. -/
theorem c58_read_iff (s : Bytes) (t : GeoPeerTable) :
    parseTableDumpV2 7 s = .ok (.geo t) ↔
      ∃ name b r, s = b ++ r ∧ GeoTableBytes t name b ∧ t.viewName = latin1 name := by
  have e : parseTableDumpV2 7 s = mapOk .geo (parseGeoPeerTable.runOn s) := rfl
  rw [e]
  constructor
  · intro h
    cases h1 : parseGeoPeerTable s with
    | error e => simp [Rd.runOn, h1, mapOk] at h
    | ok v =>
      obtain ⟨t', r⟩ := v
      simp only [Rd.runOn, h1, mapOk] at h
      cases h
      obtain ⟨b, rfl, name, h2, h3⟩ := (exact_parseGeoPeerTable _ _ _).mp h1
      exact ⟨name, b, r, rfl, h2, h3⟩
  · rintro ⟨name, b, r, rfl, h2, h3⟩
    rw [Rd.runOn, (exact_parseGeoPeerTable _ _ _).mpr ⟨b, rfl, name, h2, h3⟩]
    rfl

/-- C58. The layout written. -/
theorem c58_layout (t : GeoPeerTable) (b : Bytes) (ht : ∀ g ∈ t.peers, PeerOk g.peer) (h : encodeGeoPeerTable t = .ok b) :
    GeoTableBytes t t.viewName b := encodeGeoPeerTable_layout ht h

/-- C58, partial: round trip of a GEO_PEER_TABLE whose name is ASCII; see `c58_name_mangled` for the others. -/
theorem c58_roundtrip_partial (t : GeoPeerTable) (b r : Bytes) (ht : ∀ g ∈ t.peers, PeerOk g.peer) (hn : Ascii t.viewName)
    (h : encodeGeoPeerTable t = .ok b) : parseTableDumpV2 7 (b ++ r) = .ok (.geo t) :=
  (c58_read_iff _ _).mpr ⟨_, b, r, rfl, encodeGeoPeerTable_layout ht h, (latin1_ascii hn).symm⟩

example : ∃ t : GeoPeerTable, t.peers.length = 2 ∧ (∀ g ∈ t.peers, PeerOk g.peer) ∧ Ascii t.viewName ∧
    (encodeGeoPeerTable t).isOk = true := by
  refine ⟨⟨#v[192, 0, 2, 9], [114, 114, 99], 0x42280000, 0x41200000, [⟨c27A, 1, 2⟩, ⟨c27B, 3, 4⟩]⟩, rfl, ?_, ?_, by decide +kernel⟩
  · intro g hg
    simp only [List.mem_cons, List.not_mem_nil, or_false] at hg
    rcases hg with rfl | rfl <;> decide +kernel
  · intro x hx
    simp only [List.mem_cons, List.not_mem_nil, or_false] at hx
    rcases hx with rfl | rfl | rfl <;> decide

/-- C58 fails here: the UTF-8 name "é" is written as two octets and read back as the two characters "Ã©". -/
theorem c58_name_mangled :
    ∃ t b t', encodeGeoPeerTable t = .ok b ∧ parseTableDumpV2 7 b = .ok (.geo t') ∧ utf8Ok t.viewName = true ∧
      t.viewName = [0xC3, 0xA9] ∧ t'.viewName = [0xC3, 0x83, 0xC2, 0xA9] :=
  ⟨⟨v4zero, [0xC3, 0xA9], 0, 0, []⟩, _, _, rfl, rfl, by decide, rfl, by decide +kernel⟩

/-! ### C28: RIB records -/

/-- C28. Under each of the eight RIB subtypes a record is returned exactly if the input is that record on the wire. -/
theorem c28_read_iff (t : V2Type) (n : Nat) (afi : Afi) (safi : Safi) (ap : Bool)
    (ht : ribFamily t = some (n, afi, safi, ap)) (s : Bytes) (x : TableDumpV2) :
    parseTableDumpV2 (UInt16.ofNat n) s = .ok x ↔ ∃ r, x = .ribAfi r ∧ RibBytes t r s := by
  have e : parseTableDumpV2 (UInt16.ofNat n) s = mapOk .ribAfi (parseRibAfi t s) := by
    cases t <;> cases ht <;> rfl
  rw [e]
  constructor
  · intro h
    cases h1 : parseRibAfi t s with
    | error e => rw [h1] at h; cases h
    | ok r => rw [h1] at h; cases h; exact ⟨r, rfl, (parseRibAfi_iff _ _ _).mp h1⟩
  · rintro ⟨r, rfl, h⟩
    rw [(parseRibAfi_iff _ _ _).mpr h]; rfl

/-- C28, partial: round trip of a RIB record, up to the warnings of the attribute sets, which are not sent. The attribute
values are those for which C11 is proved. -/
theorem c28_roundtrip_partial (r : RibAfi) (b : Bytes) (hr : RibOk r) (h : encodeRibAfi r = .ok b) :
    ∃ r', parseTableDumpV2 r.ribType.toU16 b = .ok (.ribAfi r') ∧ SameRib r r' := by
  obtain ⟨r', h1, h2⟩ := encodeRibAfi_bytes hr h
  obtain ⟨n, afi, safi, ap, hf, _⟩ := hr
  have e : r.ribType.toU16 = UInt16.ofNat n := by
    cases ht : r.ribType <;> rw [ht] at hf <;> cases hf <;> rfl
  exact ⟨r', by rw [e]; exact (c28_read_iff _ _ _ _ _ hf _ _).mpr ⟨r', rfl, h1⟩, h2⟩

def c28Rib : RibAfi :=
  ⟨.v4UniAp, 77, ⟨⟨.v4 #v[203, 0, 113, 0], 24⟩, none⟩,
    [⟨0, 1700000000, some 5, .ofList [⟨0x40, .origin .igp⟩, ⟨0x40, .asPath [.seq [4200000000, 64512]]⟩, ⟨0x40, .nextHop (.v4 #v[192, 0, 2, 1])⟩]⟩,
     ⟨1, 1700000001, some 0, .ofList [⟨0x40, .origin .egp⟩, ⟨0x80, .med 7⟩]⟩]⟩

theorem c28Rib_ok : RibOk c28Rib := by
  refine ⟨8, .ipv4, .unicast, true, rfl, by decide +kernel, ?_⟩
  intro e he
  simp only [c28Rib, List.mem_cons, List.not_mem_nil, or_false] at he
  rcases he with rfl | rfl
  · refine ⟨rfl, ?_⟩
    intro a ha
    simp only [Attributes.ofList, List.mem_cons, List.not_mem_nil, or_false] at ha
    rcases ha with rfl | rfl | rfl <;> first | trivial | rfl
  · refine ⟨rfl, ?_⟩
    intro a ha
    simp only [Attributes.ofList, List.mem_cons, List.not_mem_nil, or_false] at ha
    rcases ha with rfl | rfl <;> trivial

example : RibOk c28Rib ∧ (encodeRibAfi c28Rib).isOk = true := ⟨c28Rib_ok, by decide +kernel⟩

/-- C28. The abbreviated MP_REACH_NLRI of a RIB entry (RFC 6396, 4.3.4: only the length and the next hop): it gets the
family and the prefix of the record. -/
theorem c28_abbreviated_next_hop (ap : Bool) (afi : Afi) (safi : Safi) (hs : safi = .unicast ∨ safi = .multicast)
    (p : NetworkPrefix) (flag : UInt8) (a : V6) (b : Bytes)
    (hb : b = headBytes flag 14 17 ++ 16 :: a.toList) :
    ∃ as, parseAttributes (ribCfg ap afi safi p) b = .ok as ∧
      as.inner = [⟨flag, .mpReach ⟨afi, safi, some (.v6 a), [p], none, none, none⟩⟩] := by
  have hw : Wire.ok ⟨flag, 14, 16 :: a.toList⟩ := by
    show (16 :: a.toList).length < _
    simp only [List.length_cons, Vector.length_toList]
    split <;> omega
  have hlen : (16 :: a.toList).length = 17 := by simp
  have := parse_wires (ribCfg ap afi safi p) [⟨flag, 14, 16 :: a.toList⟩] (by simpa using hw) (r := []) (.inl (by decide))
  rw [List.append_nil, wireBytes, List.flatMap_cons, List.flatMap_nil, List.append_nil] at this
  have hbb : Wire.bytes ⟨flag, 14, 16 :: a.toList⟩ = b := by rw [hb, Wire.bytes, hlen]
  rw [hbb] at this
  refine ⟨_, this, ?_⟩
  have hd : decodeAttr (ribCfg ap afi safi p) 14 (16 :: a.toList) =
      .ok (.mpReach ⟨afi, safi, some (.v6 a), [p], none, none, none⟩, false) := by
    have hh : rdNlriHead (some afi) (some safi) false true (16 :: a.toList) = .ok ((afi, safi, some (.v6 a)), []) := by
      have h0 : rdU8 (16 :: a.toList) = .ok (16, a.toList) := rfl
      have h1 : rdN (16 : UInt8).toNat a.toList = .ok (a.toList, []) := by
        have := rdN_append' (a := a.toList) (n := 16) (by simp) []
        simpa using this
      have h2 : parseMpNextHop a.toList = .ok (some (.v6 a)) := by
        unfold parseMpNextHop
        rw [if_neg (by simp), if_neg (by simp), if_pos (by simp)]
        have : rdV6 (a.toList ++ []) = .ok (a, []) := (exact_rdV6 _ _ _).mpr ⟨_, rfl, rfl⟩
        rw [List.append_nil] at this
        rw [Rd.runOn, Rd.bind_ok this]; rfl
      unfold rdNlriHead
      rw [Rd.bind_ok (show rdAfiOr (some afi) false (16 :: a.toList) = .ok (afi, 16 :: a.toList) from rfl),
        Rd.bind_ok (show rdSafiOr (some safi) false (16 :: a.toList) = .ok (safi, 16 :: a.toList) from rfl), if_pos rfl,
        Rd.bind_ok h0, Rd.bind_ok h1, Rd.bind_ok (by rw [h2]; rfl)]
      rfl
    have hp : parseNlri (some afi) (some safi) (some [p]) true ap (16 :: a.toList) =
        .ok ⟨afi, safi, some (.v6 a), [p], none, none, none⟩ := by
      unfold parseNlri
      dsimp only
      rw [show ((16 :: a.toList).head? == some 0) = false from rfl, hh]
      dsimp only
      unfold parseNlriBody
      rw [if_neg (by rcases hs with rfl | rfl <;> simp), if_neg (by rcases hs with rfl | rfl <;> simp)]
    unfold decodeAttr
    rw [if_neg (by decide), if_neg (by decide), if_neg (by decide)]
    have : parseAttrVal (ribCfg ap afi safi p) 14 (16 :: a.toList) =
        .ok (.mpReach ⟨afi, safi, some (.v6 a), [p], none, none, none⟩) := by
      show mapOk _ (parseNlri (some afi) (some safi) (some [p]) true ap (16 :: a.toList)) = _
      rw [hp]; rfl
    rw [this]; rfl
  show [attrOf _ _] = _
  unfold attrOf valueOf
  dsimp only
  rw [hd]

/-- C28 fails here: an Add-Path record with an entry without path identifier is written without the field, so what follows
is read in its place: here the path identifier is the attribute length and the first attribute bytes, and the attributes
are gone. -/
theorem c28_missing_path_id :
    ∃ r b r', encodeRibAfi r = .ok b ∧ parseTableDumpV2 r.ribType.toU16 b = .ok (.ribAfi r') ∧
      (r.entries.map (·.pathId)) = [none] ∧ r.entries.map (·.attributes.inner.length) = [1] ∧ r'.entries = [] := by
  refine ⟨⟨.v4UniAp, 1, ⟨⟨.v4 #v[10, 0, 0, 0], 8⟩, none⟩, [⟨0, 1, none, .ofList [⟨0x40, .origin .igp⟩]⟩]⟩, _, _, rfl, rfl, rfl,
    rfl, by decide +kernel⟩

/-- C28 fails here: without Add-Path a path identifier is dropped without an error. -/
theorem c28_path_id_dropped :
    ∃ r b r', encodeRibAfi r = .ok b ∧ parseTableDumpV2 r.ribType.toU16 b = .ok (.ribAfi r') ∧
      (r.entries.map (·.pathId)) = [some 7] ∧ (r'.entries.map (·.pathId)) = [none] :=
  ⟨⟨.v4Uni, 1, ⟨⟨.v4 #v[10, 0, 0, 0], 8⟩, none⟩, [⟨0, 1, some 7, .ofList [⟨0x40, .origin .igp⟩]⟩]⟩, _, _, rfl, rfl, rfl,
    by decide +kernel⟩

/-! ### C29: TABLE_DUMP -/

/-- C29. Reading a TABLE_DUMP record under subtype 1 (IPv4) or 2 (IPv6): accepted exactly if it is a view number, a
sequence number and one or more entries up to the end. -/
theorem c29_read_iff (v4 : Bool) (s : Bytes) (ms : List TableDump) :
    parseTableDumps (if v4 then 1 else 2) s = .ok ms ↔ ∃ (view seq : UInt16) (body : Bytes), ms ≠ [] ∧
      s = n16 view.toNat ++ n16 seq.toNat ++ body ∧ Blocks (DumpEntryBytes v4 view seq) ms body :=
  parseTableDumps_iff v4 s ms

/-- C29. Other subtypes are refused. -/
theorem c29_other_subtypes (subtype : UInt16) (s : Bytes) (h1 : subtype ≠ 1) (h2 : subtype ≠ 2) (ms : List TableDump) :
    parseTableDumps subtype s ≠ .ok ms := by
  unfold parseTableDumps
  rw [if_neg (by simp [h1, h2])]
  simp

/-- C29, partial: round trip of one TABLE_DUMP message, up to the warnings of its attribute set. -/
theorem c29_roundtrip_partial (v4 : Bool) (m : TableDump) (b : Bytes) (hm : DumpOk v4 m) (h : encodeTableDump m = .ok b) :
    ∃ m', parseTableDump (if v4 then 1 else 2) b = .ok m' ∧ SameDump m m' := by
  unfold encodeTableDump at h
  cases h1 : encTableDumpEntry m with
  | error e => rw [h1] at h; cases h
  | ok c =>
    rw [h1] at h
    cases h
    obtain ⟨m', hb, hs⟩ := encTableDumpEntry_bytes hm h1
    refine ⟨m', ?_, hs⟩
    unfold parseTableDump
    rw [(parseTableDumps_iff v4 _ [m']).mpr ⟨m.view, m.seq, c, by simp, by simp [be16_n16], ?_⟩]
    have := Blocks.cons hb .nil
    rwa [List.append_nil] at this

/-- C29, partial: round trip of a batch. -/
theorem c29_batch_roundtrip_partial (v4 : Bool) (ms : List TableDump) (b : Bytes) (hm : ∀ m ∈ ms, DumpOk v4 m)
    (h : encodeTableDumpBatch ms (if v4 then 1 else 2) = .ok b) :
    ∃ ms', parseTableDumps (if v4 then 1 else 2) b = .ok ms' ∧ Pairwise2 SameDump ms ms' := by
  cases ms with
  | nil => cases h
  | cons m ms =>
    unfold encodeTableDumpBatch at h
    dsimp only at h
    rw [if_pos (by cases v4 <;> decide)] at h
    have e : (decide ((if v4 = true then 1 else 2 : UInt16) = 1)) = v4 := by cases v4 <;> decide
    rw [e] at h
    cases h1 : encAll (encBatchEntry m.view m.seq v4) (m :: ms) with
    | error e => rw [h1] at h; cases h
    | ok c =>
      rw [h1] at h
      cases h
      obtain ⟨ms', hb, hs⟩ := encBatch_bytes (m :: ms) c hm h1
      refine ⟨ms', (parseTableDumps_iff v4 _ ms').mpr ⟨m.view, m.seq, c, ?_, by simp [be16_n16], hb⟩, hs⟩
      intro e0
      rw [e0] at hs
      cases hs

/-- C29. A batch is only written if all messages share the view, the sequence number and the address family of the
subtype. -/
theorem c29_batch_uniform (ms : List TableDump) (subtype : UInt16) (b : Bytes) (h : encodeTableDumpBatch ms subtype = .ok b) :
    ms ≠ [] ∧ (subtype = 1 ∨ subtype = 2) ∧ ∀ m ∈ ms, ∀ m' ∈ ms, m.view = m'.view ∧ m.seq = m'.seq ∧
      m.prefix_.prefix_.addr.isV4 = decide (subtype = 1) ∧ m.peerIp.isV4 = decide (subtype = 1) := by
  cases ms with
  | nil => cases h
  | cons m ms =>
    unfold encodeTableDumpBatch at h
    dsimp only at h
    split at h
    · rename_i hsub
      refine ⟨by simp, hsub, ?_⟩
      have key : ∀ (l : List TableDump) (c : Bytes), encAll (encBatchEntry m.view m.seq (decide (subtype = 1))) l = .ok c → ∀ x ∈ l,
          x.view = m.view ∧ x.seq = m.seq ∧ x.prefix_.prefix_.addr.isV4 = decide (subtype = 1) ∧
            x.peerIp.isV4 = decide (subtype = 1) := by
        intro l
        induction l with
        | nil => simp
        | cons y l ih =>
          intro c hc x hx
          obtain ⟨c1, c2, h1, h2, _⟩ := encAll_cons_ok.mp hc
          rcases List.mem_cons.mp hx with rfl | hx
          · unfold encBatchEntry at h1
            split at h1
            · cases h1
            · split at h1
              · cases h1
              · rename_i n1 n2
                simp only [not_or, Decidable.not_not] at n1 n2
                exact ⟨n1.1, n1.2, n2.1, n2.2⟩
          · exact ih c2 h2 x hx
      cases h1 : encAll (encBatchEntry m.view m.seq (decide (subtype = 1))) (m :: ms) with
      | error e => rw [h1] at h; cases h
      | ok c =>
        intro x hx y hy
        obtain ⟨a1, a2, a3, a4⟩ := key _ _ h1 x hx
        obtain ⟨b1, b2, _, _⟩ := key _ _ h1 y hy
        exact ⟨a1.trans b1.symm, a2.trans b2.symm, a3, a4⟩
    · cases h

def c29Dump : TableDump :=
  ⟨0, 3, ⟨⟨.v4 #v[203, 0, 113, 7], 24⟩, none⟩, 1, 1000000000, .v4 #v[198, 51, 100, 1], 64500,
    .ofList [⟨0x40, .origin .egp⟩, ⟨0x40, .asPath [.seq [64500, 3356]]⟩]⟩

theorem c29Dump_ok : DumpOk true c29Dump := by
  refine ⟨rfl, by decide, rfl, rfl, by decide, by decide, ?_⟩
  intro a ha
  simp only [c29Dump, Attributes.ofList, List.mem_cons, List.not_mem_nil, or_false] at ha
  rcases ha with rfl | rfl <;> trivial

example : DumpOk true c29Dump ∧ (encodeTableDump c29Dump).isOk = true ∧
    (encodeTableDumpBatch [c29Dump, { c29Dump with status := 2 }] 1).isOk = true ∧ DumpOk true { c29Dump with status := 2 } :=
  ⟨c29Dump_ok, by decide +kernel, by decide +kernel, { c29Dump_ok with }⟩

/-- C29 fails here: the originated time has 64 bits in the API and 32 in the record; the AS number 32 and 16. Both are cut
without an error. -/
theorem c29_truncated :
    ∃ m b m', encodeTableDump m = .ok b ∧ parseTableDump 1 b = .ok m' ∧ m.time = 4294967297 ∧ m'.time = 1 ∧
      m.peerAsn = 65537 ∧ m'.peerAsn = 1 :=
  ⟨⟨0, 0, ⟨⟨.v4 #v[10, 0, 0, 0], 8⟩, none⟩, 1, 4294967297, .v4 #v[10, 0, 0, 1], 65537, .empty⟩, _, _, rfl, rfl, rfl, by decide +kernel,
    rfl, by decide +kernel⟩

/-! ### C30: BGP4MP -/

/-- C30. Under each message subtype, a BGP4MP record is accepted exactly if it is that message on the wire. -/
theorem c30_message_iff (t : MpType) (n : Nat) (l : AsnLen) (ap : Bool) (ht : mpMessageType t = some (n, l, ap)) (s : Bytes)
    (x : Bgp4Mp) : parseBgp4Mp (UInt16.ofNat n) s = .ok x ↔ ∃ m, x = .message m ∧ m.msgType = t ∧ MpMessageBytes l ap m s := by
  rw [mpMessageType_spec t n l ap ht]
  constructor
  · intro h
    cases h1 : parseMpMessage ap l t s with
    | error e => rw [h1] at h; cases h
    | ok m => rw [h1] at h; cases h; exact ⟨m, rfl, (parseMpMessage_iff _ _ _ _ _).mp h1⟩
  · rintro ⟨m, rfl, h⟩
    rw [(parseMpMessage_iff _ _ _ _ _).mpr h]; rfl

/-- C30. The same for the state change subtypes. -/
theorem c30_state_iff (t : MpType) (n : Nat) (l : AsnLen) (ht : mpStateType t = some (n, l)) (s : Bytes) (x : Bgp4Mp) :
    parseBgp4Mp (UInt16.ofNat n) s = .ok x ↔ ∃ m, x = .stateChange m ∧ m.msgType = t ∧ MpStateBytes l m s := by
  rw [mpStateType_spec t n l ht]
  constructor
  · intro h
    cases h1 : parseMpStateChange l t s with
    | error e => rw [h1] at h; cases h
    | ok m => rw [h1] at h; cases h; exact ⟨m, rfl, (parseMpStateChange_iff _ _ _ _).mp h1⟩
  · rintro ⟨m, rfl, h⟩
    rw [(parseMpStateChange_iff _ _ _ _).mpr h]; rfl

/-- C30. The other subtype numbers are refused. -/
theorem c30_other_subtypes (x : UInt16) (s : Bytes) (h : x.toNat ∉ [0, 1, 4, 5, 6, 7, 8, 9, 10, 11]) :
    parseBgp4Mp x s = .error .parse := by
  have : ∀ n : UInt16, n.toNat ∈ [0, 1, 4, 5, 6, 7, 8, 9, 10, 11] → x ≠ n := fun n hn e => h (e ▸ hn)
  unfold parseBgp4Mp MpType.ofU16?
  rw [if_neg (this 0 (by decide)), if_neg (this 1 (by decide)), if_neg (this 4 (by decide)), if_neg (this 5 (by decide)),
    if_neg (this 6 (by decide)), if_neg (this 7 (by decide)), if_neg (this 8 (by decide)), if_neg (this 9 (by decide)),
    if_neg (this 10 (by decide)), if_neg (this 11 (by decide))]

/-- C30, partial: round trip of a BGP4MP message under the record body encoder, for every message subtype. The embedded
message is one for which C16 is proved. -/
theorem c30_message_roundtrip_partial (m : MpMessage) (n : Nat) (l : AsnLen) (ap : Bool)
    (ht : mpMessageType m.msgType = some (n, l, ap)) (hm : MpMessageOk l ap m) (b : Bytes)
    (h : encodeMrtMessage (.bgp4mp (.message m)) (UInt16.ofNat n) = .ok b) :
    ∃ m', parseBgp4Mp (UInt16.ofNat n) b = .ok (.message m') ∧ SameMp m m' := by
  have he : encodeMrtMessage (.bgp4mp (.message m)) (UInt16.ofNat n) = encodeMpMessage l m := by
    cases h : m.msgType <;> rw [h] at ht <;> cases ht <;> rfl
  rw [he] at h
  unfold encodeMpMessage at h
  cases h1 : encodeBgpMessage l m.message with
  | error e => rw [h1] at h; cases h
  | ok c =>
    rw [h1] at h
    cases h
    obtain ⟨x, hx, hs⟩ := c16_message_roundtrip_partial ap l m.message c [] hm.message h1
    rw [List.append_nil] at hx
    refine ⟨{ m with message := x }, (c30_message_iff _ n l ap ht _ _).mpr ⟨_, rfl, rfl, ?_⟩, ⟨rfl, rfl, rfl, rfl, rfl, rfl, hs⟩⟩
    rw [mpHead_bytes hm.peerAsn hm.localAsn]
    refine ⟨hm.peerAsn, hm.localAsn, c, [], hx, ?_⟩
    rw [if_neg]
    · exact ⟨rfl, hm.family⟩
    · rintro ⟨rfl, hz⟩
      exact mpHead_not_zebra _ _ _ _ _ _ hz

/-- C30. Round trip of a BGP4MP state change. -/
theorem c30_state_roundtrip (m : MpStateChange) (n : Nat) (l : AsnLen) (ht : mpStateType m.msgType = some (n, l))
    (hm : MpStateOk l m) (b : Bytes) (h : encodeMrtMessage (.bgp4mp (.stateChange m)) (UInt16.ofNat n) = .ok b) :
    parseBgp4Mp (UInt16.ofNat n) b = .ok (.stateChange m) := by
  have he : encodeMrtMessage (.bgp4mp (.stateChange m)) (UInt16.ofNat n) = .ok (encodeMpStateChange l m) := by
    cases h : m.msgType <;> rw [h] at ht <;> cases ht <;> rfl
  rw [he] at h
  cases h
  refine (c30_state_iff _ n l ht _ _).mpr ⟨m, rfl, rfl, hm.peerAsn, hm.localAsn, ?_⟩
  unfold encodeMpStateChange
  rw [mpHead_bytes hm.peerAsn hm.localAsn, stateNum_toU16, stateNum_toU16, if_neg]
  · exact ⟨hm.family, [], by simp⟩
  · rintro ⟨_, h8⟩
    have := octets_length m.peerIp
    simp [mpHeadBytes, n16] at h8
    split at this <;> omega

/-- C30: a message counts as local exactly if it was recorded under one of the four `_LOCAL` subtypes. -/
theorem c30_is_local (m : MpMessage) (n : Nat) (l : AsnLen) (ap : Bool) (ht : mpMessageType m.msgType = some (n, l, ap)) :
    m.isLocal = true ↔ n = 6 ∨ n = 7 ∨ n = 10 ∨ n = 11 := by
  unfold MpMessage.isLocal
  cases h : m.msgType <;> rw [h] at ht <;> simp only [mpMessageType, Option.some.injEq, Prod.mk.injEq, reduceCtorEq] at ht <;>
    obtain ⟨rfl, -, -⟩ := ht <;> decide

/-- the message of C16 under BGP4MP_MESSAGE_AS4 between IPv6 addresses. -/
def c30Message : MpMessage :=
  ⟨.messageAs4, 4200000000, 64512, 3, .v6 v6zero, .v6 #v[32, 1, 13, 184, 0, 0, 0, 0, 0, 0, 0, 0, 0, 0, 0, 1], .update c16Update⟩

example : mpMessageType c30Message.msgType = some (4, .b32, false) ∧ MpMessageOk .b32 false c30Message ∧
    (encodeMrtMessage (.bgp4mp (.message c30Message)) 4).isOk = true :=
  ⟨rfl, ⟨by decide, by decide, rfl, c16Update_ok⟩, by decide +kernel⟩

example : MpStateOk .b16 ⟨.stateChange, 64512, 3356, 0, .v4 #v[10, 0, 0, 1], .v4 #v[10, 0, 0, 2], .openConfirm, .established⟩ :=
  ⟨by decide, by decide, rfl⟩

/-- C30 fails here: one family field describes both addresses; a message between an IPv4 and an IPv6 address is written and
cannot be read back. -/
theorem c30_mixed_families :
    ∃ m b, encodeMrtMessage (.bgp4mp (.stateChange m)) 5 = .ok b ∧ ∀ x, parseBgp4Mp 5 b ≠ .ok (.stateChange x) ∨ x ≠ m := by
  refine ⟨⟨.stateChangeAs4, 1, 2, 0, .v4 v4zero, .v6 v6zero, .idle, .connect⟩, _, rfl, ?_⟩
  intro x
  by_cases h : parseBgp4Mp 5 (encodeMpStateChange .b32 ⟨.stateChangeAs4, 1, 2, 0, .v4 v4zero, .v6 v6zero, .idle, .connect⟩) =
    .ok (.stateChange x)
  · revert h
    have : (parseBgp4Mp 5 (encodeMpStateChange .b32 ⟨.stateChangeAs4, 1, 2, 0, .v4 v4zero, .v6 v6zero, .idle, .connect⟩)).isOk =
      false := by decide +kernel
    intro h
    rw [h] at this
    cases this
  · exact .inl h

/-- C30 fails here: under a subtype with 2-octet AS numbers a larger number is cut without an error. -/
theorem c30_asn_truncated :
    ∃ m b x, encodeMrtMessage (.bgp4mp (.stateChange m)) 0 = .ok b ∧ parseBgp4Mp 0 b = .ok (.stateChange x) ∧
      m.peerAsn = 65537 ∧ x.peerAsn = 1 :=
  ⟨⟨.stateChange, 65537, 2, 0, .v4 v4zero, .v4 v4zero, .idle, .connect⟩, _, _, rfl, rfl, rfl, by decide +kernel⟩

/-- the two Zebra forms are accepted: an 8-octet state change, and an OPEN right after the AS numbers. -/
example : (∃ m, parseBgp4Mp 0 [0, 1, 0, 2, 0, 5, 0, 6] = .ok (.stateChange m) ∧ m.new = .established) ∧
    ∃ m, parseBgp4Mp 1 ([0, 1, 0, 2] ++ List.replicate 16 255 ++ [0, 29, 1] ++ [4, 0, 1, 0, 90, 10, 0, 0, 1, 0]) = .ok (.message m) ∧
      m.peerAsn = 1 := ⟨⟨_, rfl, rfl⟩, ⟨_, rfl, rfl⟩⟩

/-! ### C59: the deprecated type 5 -/

/-- C59. Reading a type 5 message: accepted exactly if it is the peer and local AS and IPv4 address followed by a payload
that parses. -/
theorem c59_message_iff (subtype : UInt16) (hs : subtype ∈ [1, 5, 6, 7]) (s : Bytes) (x : LegacyBgp) :
    parseLegacyBgp subtype s = .ok x ↔ ∃ m payload, x = .message m ∧ LegacyMessageBytes m payload s ∧
      ((subtype = 1 ∧ ∃ u, m.message = .update u ∧ parseUpdate false .b16 payload = .ok u) ∨
       (subtype = 5 ∧ ∃ o, m.message = .open o ∧ parseOpen payload = .ok o) ∨
       (subtype = 6 ∧ ∃ n, m.message = .notification n ∧ parseNotification payload = .ok n) ∨
       (subtype = 7 ∧ m.message = .keepAlive ∧ payload = [])) := by
  rw [parseLegacyBgp_message subtype hs]
  have mk : ∀ {α : Type} (f : α → BgpMessage) (e : Except Err α) (y : BgpMessage),
      mapOk f e = .ok y ↔ ∃ u, y = f u ∧ e = .ok u := by
    intro α f e y
    cases e with
    | error e => simp [mapOk]
    | ok u => simp [mapOk, eq_comm]
  have key : ∀ (m : LegacyMessage) (p : Bytes), parseLegacyPayload subtype p = .ok m.message ↔
      ((subtype = 1 ∧ ∃ u, m.message = .update u ∧ parseUpdate false .b16 p = .ok u) ∨
       (subtype = 5 ∧ ∃ o, m.message = .open o ∧ parseOpen p = .ok o) ∨
       (subtype = 6 ∧ ∃ n, m.message = .notification n ∧ parseNotification p = .ok n) ∨
       (subtype = 7 ∧ m.message = .keepAlive ∧ p = [])) := by
    intro m p
    simp only [List.mem_cons, List.not_mem_nil, or_false] at hs
    rcases hs with rfl | rfl | rfl | rfl
    · rw [show parseLegacyPayload 1 p = mapOk .update (parseUpdate false .b16 p) from rfl, mk]; simp
    · rw [show parseLegacyPayload 5 p = mapOk .open (parseOpen p) from rfl, mk]; simp
    · rw [show parseLegacyPayload 6 p = mapOk .notification (parseNotification p) from rfl, mk]; simp
    · rw [show parseLegacyPayload 7 p = if p.isEmpty then .ok .keepAlive else .error .parse from rfl]
      cases p <;> simp [eq_comm]
  constructor
  · rintro ⟨m, p, h1, h2, h3⟩; exact ⟨m, p, h1, h2, (key m p).mp h3⟩
  · rintro ⟨m, p, h1, h2, h3⟩; exact ⟨m, p, h1, h2, (key m p).mpr h3⟩

/-- C59. Reading a type 5 state change (subtype 3): the whole record is the state change. -/
theorem c59_state_iff (s : Bytes) (x : LegacyBgp) :
    parseLegacyBgp 3 s = .ok x ↔ ∃ m, x = .stateChange m ∧ LegacyStateBytes m s := parseLegacyBgp_state s x

theorem asn16_ok {a : Asn} {b : Bytes} (h : asn16 a = .ok b) : a.toNat < 65536 ∧ b = n16 a.toNat := by
  unfold asn16 at h
  split at h
  · rename_i hle
    cases h
    refine ⟨by omega, ?_⟩
    rw [be16_n16]; congr 1; simp; omega
  · cases h

theorem legacyIp_ok {a : Ip} {b : Bytes} (h : legacyIp a = .ok b) : ∃ o : V4, a = .v4 o ∧ b = o.toList := by
  cases a with
  | v4 o => cases h; exact ⟨o, rfl, rfl⟩
  | v6 o => cases h

theorem encParts_cons_ok {x : Except EncErr Bytes} {xs : List (Except EncErr Bytes)} {b : Bytes}
    (h : encParts (x :: xs) = .ok b) : ∃ c d, x = .ok c ∧ encParts xs = .ok d ∧ b = c ++ d := by
  unfold encParts at h
  cases x with
  | error e => cases h
  | ok c =>
    dsimp only at h
    cases h1 : encParts xs with
    | error e => rw [h1] at h; cases h
    | ok d => rw [h1] at h; cases h; exact ⟨c, d, rfl, rfl, rfl⟩

/-- C59, partial: round trip of a type 5 message; the payload is one for which C16-C18 are proved. Nothing is truncated:
an AS number above 65535, an IPv6 address or a subtype for another kind of message is refused. -/
theorem c59_message_roundtrip_partial (m : LegacyMessage) (subtype : UInt16) (b : Bytes) (hm : LegacyPayloadOk m.message)
    (h : encodeLegacyBgp (.message m) subtype = .ok b) :
    legacyNum m.message = some subtype.toNat ∧ ∃ m', parseLegacyBgp subtype b = .ok (.message m') ∧ m'.peerAsn = m.peerAsn ∧
      m'.peerIp = m.peerIp ∧ m'.localAsn = m.localAsn ∧ m'.localIp = m.localIp ∧ SameMessage m.message m'.message := by
  unfold encodeLegacyBgp at h
  dsimp only at h
  split at h
  · rename_i hsub
    obtain ⟨b1, d1, h1, g1, rfl⟩ := encParts_cons_ok h
    obtain ⟨b2, d2, h2, g2, rfl⟩ := encParts_cons_ok g1
    obtain ⟨b3, d3, h3, g3, rfl⟩ := encParts_cons_ok g2
    obtain ⟨b4, d4, h4, g4, rfl⟩ := encParts_cons_ok g3
    obtain ⟨b5, d5, h5, g5, rfl⟩ := encParts_cons_ok g4
    cases g5
    obtain ⟨a1, rfl⟩ := asn16_ok h1
    obtain ⟨o1, e1, rfl⟩ := legacyIp_ok h2
    obtain ⟨a2, rfl⟩ := asn16_ok h3
    obtain ⟨o2, e2, rfl⟩ := legacyIp_ok h4
    have hl : ∀ x, LegacyMessageBytes { m with message := x } b5
        (n16 m.peerAsn.toNat ++ (o1.toList ++ (n16 m.localAsn.toNat ++ (o2.toList ++ (b5 ++ []))))) := by
      intro x
      exact ⟨o1, o2, e1, e2, a1, a2, by simp⟩
    have hmem : subtype ∈ [1, 5, 6, 7] := by simpa using hsub
    have fin : ∀ x, SameMessage m.message x → legacyNum m.message = some subtype.toNat →
        ((subtype = 1 ∧ ∃ u, x = .update u ∧ parseUpdate false .b16 b5 = .ok u) ∨
        (subtype = 5 ∧ ∃ o, x = .open o ∧ parseOpen b5 = .ok o) ∨
        (subtype = 6 ∧ ∃ n, x = .notification n ∧ parseNotification b5 = .ok n) ∨
        (subtype = 7 ∧ x = .keepAlive ∧ b5 = [])) → _ := fun x hx hn hp =>
      (⟨hn, { m with message := x }, (c59_message_iff subtype hmem _ _).mpr ⟨_, b5, rfl, hl x, hp⟩, rfl, rfl, rfl, rfl, hx⟩ :
        legacyNum m.message = some subtype.toNat ∧ ∃ m', parseLegacyBgp subtype _ = .ok (.message m') ∧ m'.peerAsn = m.peerAsn ∧
          m'.peerIp = m.peerIp ∧ m'.localAsn = m.localAsn ∧ m'.localIp = m.localIp ∧ SameMessage m.message m'.message)
    cases hmm : m.message with
    | update u =>
      rw [hmm] at h5 hm fin
      simp only [encLegacyPayload] at h5
      split at h5
      · rename_i hs
        subst hs
        obtain ⟨u', p1, p2, p3, p4⟩ := c16_update_roundtrip_partial false .b16 u b5 hm h5
        exact fin (.update u') ⟨p2, p3, p4⟩ rfl (.inl ⟨rfl, u', rfl, p1⟩)
      · cases h5
    | «open» o =>
      rw [hmm] at h5 hm fin
      simp only [encLegacyPayload] at h5
      split at h5
      · rename_i hs
        subst hs
        have := c17_open_roundtrip o b5 hm h5
        exact fin (.open _) ⟨b5, h5, rfl⟩ rfl (.inr (.inl ⟨rfl, _, rfl, this⟩))
      · cases h5
    | notification n =>
      rw [hmm] at h5 hm fin
      simp only [encLegacyPayload] at h5
      split at h5
      · rename_i hs
        subst hs
        cases h5
        exact fin (.notification n) rfl rfl (.inr (.inr (.inl ⟨rfl, n, rfl, c18_notification_roundtrip n hm⟩)))
      · cases h5
    | keepAlive =>
      rw [hmm] at h5 hm fin
      simp only [encLegacyPayload] at h5
      split at h5
      · rename_i hs
        subst hs
        cases h5
        exact fin .keepAlive trivial rfl (.inr (.inr (.inr ⟨rfl, rfl, rfl⟩)))
      · cases h5
    | routeRefresh r => rw [hmm] at hm; exact hm.elim
  · cases h

/-- C59. Round trip of a type 5 state change; every state change that is written at all comes back. -/
theorem c59_state_roundtrip (m : LegacyStateChange) (subtype : UInt16) (b : Bytes)
    (h : encodeLegacyBgp (.stateChange m) subtype = .ok b) : parseLegacyBgp subtype b = .ok (.stateChange m) := by
  unfold encodeLegacyBgp at h
  dsimp only at h
  split at h
  · rename_i hs
    subst hs
    obtain ⟨b1, d1, h1, g1, rfl⟩ := encParts_cons_ok h
    obtain ⟨b2, d2, h2, g2, rfl⟩ := encParts_cons_ok g1
    obtain ⟨b3, d3, h3, g3, rfl⟩ := encParts_cons_ok g2
    obtain ⟨b4, d4, h4, g4, rfl⟩ := encParts_cons_ok g3
    cases g4; cases h3; cases h4
    obtain ⟨a1, rfl⟩ := asn16_ok h1
    obtain ⟨o1, e1, rfl⟩ := legacyIp_ok h2
    refine (c59_state_iff _ _).mpr ⟨m, rfl, o1, e1, a1, ?_⟩
    rw [stateNum_toU16, stateNum_toU16]; simp
  · cases h

example : LegacyPayloadOk (.open c17Open) ∧
    (encodeLegacyBgp (.message ⟨64512, .v4 v4zero, 3356, .v4 v4zero, .open c17Open⟩) 5).isOk = true ∧
    (encodeLegacyBgp (.stateChange ⟨64512, .v4 v4zero, .active, .openSent⟩) 3).isOk = true ∧
    (encodeLegacyBgp (.message ⟨65536, .v4 v4zero, 3356, .v4 v4zero, .keepAlive⟩) 7).isOk = false :=
  ⟨c17Open_ok, by decide +kernel, by decide +kernel, by decide +kernel⟩

end Verif.Props
