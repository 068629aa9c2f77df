import Verif.Spec.Encoder
import Verif.Lemmas.MrtPeers
/-
What a RIB encoder holds after being fed with elements, and what it exports.
-/
namespace Verif
open Spec

theorem addPeer_peer {H : List (Peer × UInt16)} {t t' : PeerIndexTable} {p : Peer} {id : UInt16} (hh : AddHistory H t)
    (ha : t.addPeer p = .ok (id, t')) :
    AddHistory ((p, id) :: H) t' ∧ (∀ j, j ≠ id → t'.peer j = t.peer j) ∧ t'.idOf p.ip = some id ∧
    (∀ ip, ip ≠ p.ip → t'.idOf ip = t.idOf ip) ∧
    ((t.idOf p.ip = none ∧ t.peer id = none ∧ t'.peer id = some p) ∨
      (t' = t ∧ ∃ q, t.peer id = some q ∧ q.ip = p.ip)) := by
  have hi := AddHistory.inv hh
  have hr := addPeer_inv hi ha
  have hi' := hr.1
  refine ⟨.add hh ha, ?_, ?_, ?_, ?_⟩
  · intro j hj
    unfold PeerIndexTable.addPeer at ha
    split at ha
    · cases ha; rfl
    · dsimp only at ha
      split at ha
      · cases ha
      · cases ha
        simp only [PeerIndexTable.peer, amGet_amInsert, if_neg hj]
  · exact hi'.hist p id List.mem_cons_self
  · intro ip hip
    unfold PeerIndexTable.addPeer at ha
    split at ha
    · cases ha; rfl
    · dsimp only at ha
      split at ha
      · cases ha
      · cases ha
        simp only [PeerIndexTable.idOf, amGet_amInsert, if_neg hip]
  · cases hq : t.idOf p.ip with
    | some i =>
      obtain ⟨rfl, rfl⟩ := hr.2.2.2 i hq
      obtain ⟨q, h1, h2⟩ := hi.fwd _ _ hq
      exact .inr ⟨rfl, q, h1, h2⟩
    | none =>
      obtain ⟨h1, h2, _⟩ := hr.2.2.1 hq
      refine .inl ⟨rfl, ?_, h1⟩
      have := mt (hi.dense id).mp (by omega)
      simpa using this

structure RibInv (h : List (ElemIn × Bool)) (x : RibEncoder) : Prop where
  hist : ∃ H, AddHistory H x.table
  peers : ∀ id p, x.table.peer id = some p → ∃ i, firstFrom h p.ip = some i ∧ p = i.peer
  known : ∀ i ∈ accepted h, ∃ id, x.table.idOf i.elem.peerIp = some id
  keys : (x.entries.map Prod.fst).Nodup
  inner : ∀ p m, amGet p x.entries = some m → (m.map Prod.fst).Nodup
  prefixes : ∀ p, (amGet p x.entries).isSome ↔ ∃ i ∈ accepted h, i.elem.prefix_.prefix_ = p
  entry : ∀ p id, (amGet p x.entries).bind (amGet id) =
    ((x.table.peer id).bind fun q => lastFrom h p q.ip).map fun i => i.entry id
  stamp : x.stamp = dumpStamp h

theorem accepted_cons_true (i : ElemIn) (h : List (ElemIn × Bool)) : accepted ((i, true) :: h) = i :: accepted h := by
  simp [accepted]
theorem accepted_cons_false (i : ElemIn) (h : List (ElemIn × Bool)) : accepted ((i, false) :: h) = accepted h := by
  simp [accepted]

theorem ElemIn.peer_ip (i : ElemIn) : i.peer.ip = i.elem.peerIp := rfl

theorem ribInv_new : RibInv [] .new := by
  refine ⟨⟨[], .empty⟩, ?_, ?_, by simp [RibEncoder.new], ?_, ?_, ?_, rfl⟩
  · intro id p h; simp [RibEncoder.new, PeerIndexTable.empty, PeerIndexTable.peer, amGet] at h
  · intro i hi; simp [accepted] at hi
  · intro p m h; cases h
  · intro p; simp [RibEncoder.new, amGet, accepted]
  · intro p id; simp [RibEncoder.new, PeerIndexTable.empty, PeerIndexTable.peer, amGet]

theorem dumpStamp_cons (i : ElemIn) (b : Bool) (h : List (ElemIn × Bool)) :
    dumpStamp ((i, b) :: h) = if dumpStamp h = 0 then i.stamp else dumpStamp h := by
  unfold dumpStamp
  rw [List.reverse_cons, List.find?_append]
  cases hf : h.reverse.find? fun i => i.1.stamp ≠ 0 with
  | some j =>
    have := List.find?_some hf
    simp only [ne_eq, decide_not, Bool.not_eq_eq_eq_not, Bool.not_true, decide_eq_false_iff_not] at this
    simp [this]
  | none =>
    by_cases hs : i.stamp = 0
    · simp [List.find?, hs]
    · simp [List.find?, hs]

theorem ribInv_step {h : List (ElemIn × Bool)} {x y : RibEncoder} {i : ElemIn} {r : Except EncErr Unit} (hi : RibInv h x)
    (hp : x.processElem i = (r, y)) : RibInv ((i, r.isOk) :: h) y := by
  unfold RibEncoder.processElem at hp
  generalize hx1 : (if x.stamp = 0 then { x with stamp := i.stamp } else x) = x1 at hp
  have ht : x1.table = x.table := by subst hx1; split <;> rfl
  have hen : x1.entries = x.entries := by subst hx1; split <;> rfl
  have hst : x1.stamp = dumpStamp ((i, r.isOk) :: h) := by
    rw [dumpStamp_cons, ← hi.stamp]; subst hx1; split <;> rfl
  dsimp only at hp
  rw [ht, hen] at hp
  cases ha : x.table.addPeer i.peer with
  | error e =>
    rw [ha] at hp
    cases hp
    have he : (Except.error e : Except EncErr Unit).isOk = false := rfl
    rw [he] at hst ⊢
    refine ⟨by rw [ht]; exact hi.hist, ?_, ?_, by rw [hen]; exact hi.keys, by rw [hen]; exact hi.inner, ?_, ?_, hst⟩
    · simp only [firstFrom, accepted_cons_false, ht]; exact hi.peers
    · simp only [accepted_cons_false, ht]; exact hi.known
    · simp only [accepted_cons_false, hen]; exact hi.prefixes
    · simp only [lastFrom, accepted_cons_false, hen, ht]; exact hi.entry
  | ok z =>
    obtain ⟨id, t⟩ := z
    rw [ha] at hp
    cases hp
    have he : (Except.ok () : Except EncErr Unit).isOk = true := rfl
    rw [he] at hst ⊢
    obtain ⟨H, hH⟩ := hi.hist
    obtain ⟨a1, a2, a3, a4, a5⟩ := addPeer_peer hH ha
    have hfirst : ∀ ip j, firstFrom h ip = some j → firstFrom ((i, true) :: h) ip = some j := by
      intro ip j hj
      unfold firstFrom at hj ⊢
      rw [accepted_cons_true, List.reverse_cons, List.find?_append, hj]; rfl
    have hpid : ∃ q, t.peer id = some q ∧ q.ip = i.elem.peerIp := by
      rcases a5 with ⟨_, _, h3⟩ | ⟨rfl, q, h2, h3⟩
      · exact ⟨_, h3, rfl⟩
      · exact ⟨q, h2, h3⟩
    obtain ⟨q0, hq0, hq1⟩ := hpid
    have hlast : ∀ p ip, lastFrom ((i, true) :: h) p ip =
        if i.elem.prefix_.prefix_ = p ∧ i.elem.peerIp = ip then some i else lastFrom h p ip := by
      intro p ip
      unfold lastFrom
      rw [accepted_cons_true, List.find?_cons]
      by_cases hc : i.elem.prefix_.prefix_ = p ∧ i.elem.peerIp = ip
      · simp [hc]
      · simp [hc]
    refine ⟨⟨_, a1⟩, ?_, ?_, amInsert_nodup _ _ _ hi.keys, ?_, ?_, ?_, hst⟩
    · intro j p hj
      by_cases hji : j = id
      · subst hji
        rcases a5 with ⟨h1, h2, h3⟩ | ⟨rfl, q, h2, h3⟩
        · have hj : t.peer j = some p := hj
          rw [h3] at hj; cases hj
          refine ⟨i, ?_, rfl⟩
          unfold firstFrom
          rw [accepted_cons_true, List.reverse_cons, List.find?_append]
          have hn : (accepted h).reverse.find? (fun k => k.elem.peerIp = i.peer.ip) = none := by
            rw [List.find?_eq_none]
            intro k hk
            obtain ⟨id', hid'⟩ := hi.known k (List.mem_reverse.mp hk)
            simp only [decide_eq_true_eq]
            intro e
            rw [e, h1] at hid'; cases hid'
          rw [hn]
          simp [List.find?, ElemIn.peer_ip]
        · obtain ⟨k, hk1, hk2⟩ := hi.peers j p hj
          exact ⟨k, hfirst _ _ hk1, hk2⟩
      · have hj : t.peer j = some p := hj
        rw [a2 j hji] at hj
        obtain ⟨k, hk1, hk2⟩ := hi.peers j p hj
        exact ⟨k, hfirst _ _ hk1, hk2⟩
    · intro k hk
      rw [accepted_cons_true] at hk
      show ∃ id, t.idOf _ = some id
      by_cases hki : k.elem.peerIp = i.elem.peerIp
      · exact ⟨id, by rw [hki]; exact a3⟩
      · rcases List.mem_cons.mp hk with rfl | hk
        · exact absurd rfl hki
        · obtain ⟨id', hid'⟩ := hi.known k hk
          exact ⟨id', by rw [a4 _ hki]; exact hid'⟩
    · intro p m hm
      simp only [amGet_amInsert] at hm
      split at hm
      · cases hm
        apply amInsert_nodup
        cases hg : amGet i.elem.prefix_.prefix_ x.entries with
        | none => simp
        | some m => exact hi.inner _ m hg
      · exact hi.inner p m hm
    · intro p
      simp only [amGet_amInsert, accepted_cons_true]
      by_cases hpi : p = i.elem.prefix_.prefix_
      · subst hpi; simp
      · rw [if_neg hpi, hi.prefixes]
        simp only [List.mem_cons, exists_eq_or_imp]
        constructor
        · exact .inr
        · rintro (e | e)
          · exact absurd e.symm hpi
          · exact e
    · intro p j
      show (amGet p (amInsert _ _ _)).bind _ = _
      rw [amGet_amInsert]
      have hold : ∀ p, (amGet p x.entries).bind (amGet j) = ((x.table.peer j).bind fun q => lastFrom h p q.ip).map fun i => i.entry j :=
        fun p => hi.entry p j
      by_cases hji : j = id
      · subst hji
        show _ = ((t.peer j).bind _).map _
        rw [hq0]
        simp only [Option.bind_some, hlast, hq1]
        by_cases hpi : p = i.elem.prefix_.prefix_
        · subst hpi
          rw [if_pos rfl, if_pos ⟨rfl, trivial⟩]
          simp [amGet_amInsert]
        · rw [if_neg hpi, if_neg (fun e => hpi e.1.symm), hold]
          rcases a5 with ⟨h1, h2, h3⟩ | ⟨rfl, q, h2, h3⟩
          · rw [h2]
            have : lastFrom h p i.elem.peerIp = none := by
              unfold lastFrom
              rw [List.find?_eq_none]
              intro k hk
              obtain ⟨id', hid'⟩ := hi.known k hk
              simp only [decide_eq_true_eq]
              rintro ⟨_, e⟩
              rw [e] at hid'
              have h1 : x.table.idOf i.elem.peerIp = none := h1
              rw [h1] at hid'; cases hid'
            rw [this]; rfl
          · rw [hq0]; simp [hq1]
      · show _ = ((t.peer j).bind _).map _
        rw [a2 j hji]
        have hne : ∀ q, x.table.peer j = some q → q.ip ≠ i.elem.peerIp := by
          intro q hq e
          have h1 : t.peer j = some q := by rw [a2 j hji]; exact hq
          have h2 := (AddHistory.inv a1).bwd j q h1
          have h3 := (AddHistory.inv a1).bwd id q0 hq0
          rw [e] at h2; rw [hq1] at h3
          rw [h2] at h3; cases h3
          exact hji rfl
        have hr : ((x.table.peer j).bind fun q => lastFrom ((i, true) :: h) p q.ip) = (x.table.peer j).bind fun q => lastFrom h p q.ip := by
          cases hq : x.table.peer j with
          | none => rfl
          | some q =>
            simp only [Option.bind_some, hlast]
            rw [if_neg (fun e => hne q hq e.2.symm)]
        rw [hr, ← hold]
        by_cases hpi : p = i.elem.prefix_.prefix_
        · subst hpi
          rw [if_pos rfl]
          simp only [Option.bind_some, amGet_amInsert, if_neg hji]
          cases amGet i.elem.prefix_.prefix_ x.entries <;> rfl
        · rw [if_neg hpi]

theorem exportBytes_error {o : HashOrder} {x y : RibEncoder} {e : EncErr} (h : x.exportBytes o = (.error e, y)) : y = x := by
  unfold RibEncoder.exportBytes at h
  dsimp only at h
  split at h
  · cases h; rfl
  · split at h
    · cases h; rfl
    · cases h

theorem ribFed_inv {h : List (ElemIn × Bool)} {x : RibEncoder} (hf : RibFed h x) : RibInv h x := by
  induction hf with
  | new => exact ribInv_new
  | reset => exact ribInv_new
  | elem _ hp ih => exact ribInv_step ih hp
  | exported _ he _ =>
    unfold RibEncoder.exportBytes at he
    dsimp only at he
    split at he
    · cases he
    · split at he
      · cases he
      · cases he; exact ribInv_new
  | failed _ he ih => rw [exportBytes_error he]; exact ih


/-! ### exports -/

/-- a frame is the encoding of the record, if it is shorter than 4 GiB. -/
theorem frameMessage_record {time : UInt32} {micro : Option UInt32} {ty : EntryType} {sub : UInt16} {m : MrtMessage} {b : Bytes}
    (h : frameMessage time micro ty sub m = .ok b) (hl : b.length < 4294967296) :
    encodeRecord ⟨⟨time, micro, ty, sub, 0⟩, m⟩ = .ok b := by
  unfold frameMessage at h
  unfold encodeRecord
  dsimp only
  split at h
  · cases h
  rename_i c hc
  rw [hc]
  dsimp only
  split at h
  · cases h
  rename_i d hd
  cases h
  rw [List.length_append] at hl
  unfold checkMax
  rw [if_neg (by omega)]
  dsimp only
  rw [hd]

/-- the RIB messages of an export. -/
def ribsOf (o : HashOrder) : Nat → List (IpNet × List (UInt16 × RibEntry)) → List RibAfi
  | _, [] => []
  | k, (p, m) :: r => ribOf o k p m :: ribsOf o (k + 1) r

/-- a record framed by an exporter. -/
def Framed (r : MrtRecord) (c : Bytes) : Prop :=
  r.header.length = 0 ∧ frameMessage r.header.time r.header.micro r.header.type r.header.subtype r.message = .ok c

theorem Framed.record {r : MrtRecord} {c : Bytes} (h : Framed r c) (hl : c.length < 4294967296) : encodeRecord r = .ok c := by
  obtain ⟨⟨t, m, ty, st, l⟩, msg⟩ := r
  obtain ⟨h1, h2⟩ := h
  cases h1
  exact frameMessage_record h2 hl

theorem exportRibs_blocks {o : HashOrder} {time : UInt32} : ∀ {l : List (IpNet × List (UInt16 × RibEntry))} {k : Nat} {b : Bytes},
    exportRibs o time k l = .ok b →
    Blocks Framed ((ribsOf o k l).map fun r => dumpRecord time r.ribType.toU16 (.ribAfi r)) b
  | [], k, b, h => by cases h; exact .nil
  | (p, m) :: l, k, b, h => by
    unfold exportRibs at h
    dsimp only at h
    split at h
    · cases h
    rename_i c hc
    split at h
    · cases h
    rename_i d hd
    cases h
    exact .cons ⟨rfl, hc⟩ (exportRibs_blocks hd)

theorem exportBytes_blocks {o : HashOrder} {x y : RibEncoder} {b : Bytes} (h : x.exportBytes o = (.ok b, y)) :
    y = .new ∧ Blocks Framed (dumpRecords (convertTimestamp x.stamp).1 x.table (ribsOf o 0 (o.order 0 x.entries))) b := by
  unfold RibEncoder.exportBytes at h
  dsimp only at h
  split at h
  · cases h
  rename_i c hc
  split at h
  · cases h
  rename_i d hd
  cases h
  exact ⟨rfl, .cons ⟨rfl, hc⟩ (exportRibs_blocks hd)⟩

theorem ribsOf_get (o : HashOrder) : ∀ (l : List (IpNet × List (UInt16 × RibEntry))) (k j : Nat),
    (ribsOf o k l)[j]? = (l[j]?).map fun x => ribOf o (k + j) x.1 x.2
  | [], k, j => by simp [ribsOf]
  | (p, m) :: l, k, 0 => rfl
  | (p, m) :: l, k, j + 1 => by
    simp only [ribsOf, List.getElem?_cons_succ]
    rw [ribsOf_get o l (k + 1) j]
    congr 2
    funext x
    congr 1
    omega

theorem ribsOf_prefixes (o : HashOrder) : ∀ (l : List (IpNet × List (UInt16 × RibEntry))) (k : Nat),
    (ribsOf o k l).map (·.prefix_.prefix_) = l.map Prod.fst
  | [], k => rfl
  | (p, m) :: l, k => by simp [ribsOf, ribOf, ribsOf_prefixes o l (k + 1)]

theorem amGet_of_mem [DecidableEq κ] {k : κ} {v : ν} : ∀ {m : List (κ × ν)}, (m.map Prod.fst).Nodup → (k, v) ∈ m → amGet k m = some v
  | [], _, h => by cases h
  | (a, b) :: m, hn, h => by
    simp only [List.map_cons, List.nodup_cons] at hn
    rcases List.mem_cons.mp h with h | h
    · cases h; simp [amGet]
    · have : a ≠ k := by
        intro e; subst e
        exact hn.1 (List.mem_map.mpr ⟨_, h, rfl⟩)
      rw [amGet, if_neg this]
      exact amGet_of_mem hn.2 h

theorem mem_of_amGet [DecidableEq κ] {k : κ} {v : ν} : ∀ {m : List (κ × ν)}, amGet k m = some v → (k, v) ∈ m
  | [], h => by cases h
  | (a, b) :: m, h => by
    unfold amGet at h
    split at h
    · rename_i e; subst e; cases h; exact List.mem_cons_self
    · exact List.mem_cons_of_mem _ (mem_of_amGet h)

theorem ribTypeFor_eq (p : IpNet) (ap : Bool) : ribTypeFor p ap =
    if p.addr.isV4 then (if ap then .v4UniAp else .v4Uni) else (if ap then .v6UniAp else .v6Uni) := by
  unfold ribTypeFor
  cases p.addr.isV4 <;> cases ap <;> rfl

theorem ribOf_dump {h : List (ElemIn × Bool)} {x : RibEncoder} (hi : RibInv h x) (o : HashOrder) (k : Nat) {p : IpNet}
    {m : List (UInt16 × RibEntry)} (hm : amGet p x.entries = some m) : DumpRib h x.table (ribOf o k p m) := by
  have hperm := o.perm (k + 1) m
  have hn := hi.inner p m hm
  have hen : ∀ id, amGet id m = ((x.table.peer id).bind fun q => lastFrom h p q.ip).map fun i => i.entry id := by
    intro id
    have := hi.entry p id
    rw [hm] at this
    exact this
  have hmem : ∀ e, e ∈ (ribOf o k p m).entries ↔ ∃ id, amGet id m = some e := by
    intro e
    simp only [ribOf, List.mem_map, hperm.mem_iff]
    constructor
    · rintro ⟨⟨id, e'⟩, h1, rfl⟩
      exact ⟨id, amGet_of_mem hn h1⟩
    · rintro ⟨id, h1⟩
      exact ⟨(id, e), mem_of_amGet h1, rfl⟩
  have hidx : ∀ id e, (id, e) ∈ m → e.peerIndex = id := by
    intro id e he
    have := amGet_of_mem hn he
    rw [hen] at this
    simp only [Option.map_eq_some_iff] at this
    obtain ⟨i, _, rfl⟩ := this
    rfl
  refine ⟨rfl, ?_, ?_, ?_, ?_⟩
  · show ribTypeFor p _ = _
    rw [ribTypeFor_eq]
    have hb : ((m.map Prod.snd).any fun e => e.pathId.isSome) = decide (∃ e ∈ (ribOf o k p m).entries, e.pathId ≠ none) := by
      rw [Bool.eq_iff_iff, decide_eq_true_iff]
      simp only [List.any_eq_true, ribOf, List.mem_map, hperm.mem_iff, Option.isSome_iff_ne_none]
    rw [hb]
    simp only [decide_eq_true_eq]
    rfl
  · have : (ribOf o k p m).entries.map (·.peerIndex) = (o.order (k + 1) m).map Prod.fst := by
      simp only [ribOf, List.map_map]
      apply List.map_congr_left
      rintro ⟨id, e⟩ he
      exact hidx id e (hperm.mem_iff.mp he)
    rw [this]
    exact (hperm.map Prod.fst).nodup_iff.mpr hn
  · intro e he
    obtain ⟨id, h1⟩ := (hmem e).mp he
    rw [hen] at h1
    simp only [Option.map_eq_some_iff, Option.bind_eq_some_iff] at h1
    obtain ⟨i, ⟨q, h1, h2⟩, rfl⟩ := h1
    exact ⟨q, i, h1, h2, rfl, rfl, rfl⟩
  · intro i hi' hpi
    have hpi : i.elem.prefix_.prefix_ = p := hpi
    obtain ⟨id, hid⟩ := hi.known i hi'
    obtain ⟨H, hH⟩ := hi.hist
    obtain ⟨q, hq, hqi⟩ := (AddHistory.inv hH).fwd _ _ hid
    have hl : ∃ j, lastFrom h p q.ip = some j := by
      rw [← Option.isSome_iff_exists]
      unfold lastFrom
      rw [List.find?_isSome]
      exact ⟨i, hi', by simp [hpi, hqi]⟩
    obtain ⟨j, hj⟩ := hl
    refine ⟨j.entry id, (hmem _).mpr ⟨id, ?_⟩, q, hq, hqi⟩
    rw [hen, hq]
    simp [hj]

theorem dump_of_inv {h : List (ElemIn × Bool)} {x : RibEncoder} (hi : RibInv h x) (o : HashOrder) :
    DumpOf h x.table (ribsOf o 0 (o.order 0 x.entries)) := by
  have hperm := o.perm 0 x.entries
  obtain ⟨H, hH⟩ := hi.hist
  have hp := AddHistory.inv hH
  have hpre := ribsOf_prefixes o (o.order 0 x.entries) 0
  refine ⟨⟨hp.collector, hp.viewName, ?_, ?_, ?_, ?_⟩, ?_, ?_, ?_, ?_⟩
  · intro id p h1
    obtain ⟨i, h2, rfl⟩ := hi.peers id p h1
    refine ⟨i, h2, rfl, ?_, ?_, ?_⟩
    · intro a ha
      have ha : i.elem.peerIp = .v4 a := ha
      simp only [ElemIn.peer, ha]; rfl
    · intro a ha
      have ha : i.elem.peerIp = .v6 a := ha
      simp only [ElemIn.peer, ha]; rfl
    · simp only [ElemIn.peer, Peer.new]
      have hc : ∀ a b : Bool, (if a then (if b then (2 : UInt8) else 0) else (if b then 2 else 0) ||| 1) =
          (if b then 2 else 0) + if a then 0 else 1 := by decide
      exact hc _ _
  · intro i h1
    obtain ⟨id, h2⟩ := hi.known i h1
    obtain ⟨q, h3, h4⟩ := hp.fwd _ _ h2
    exact ⟨id, q, h3, h4⟩
  · intro id id' p p' h1 h2 h3
    have e1 := hp.bwd _ _ h1
    have e2 := hp.bwd _ _ h2
    rw [h3, e2] at e1
    cases e1; rfl
  · intro id id' h1 h2
    rw [hp.dense] at h1 ⊢
    omega
  · rw [hpre]
    exact (hperm.map Prod.fst).nodup_iff.mpr hi.keys
  · intro p
    rw [← hi.prefixes, amGet_isSome]
    have : (∃ r ∈ ribsOf o 0 (o.order 0 x.entries), r.prefix_.prefix_ = p) ↔
        p ∈ (ribsOf o 0 (o.order 0 x.entries)).map (·.prefix_.prefix_) := by simp
    rw [this, hpre]
    exact (hperm.map Prod.fst).mem_iff
  · intro r hr
    obtain ⟨k, hk⟩ := List.mem_iff_getElem?.mp hr
    rw [ribsOf_get] at hk
    simp only [Option.map_eq_some_iff] at hk
    obtain ⟨⟨p, m⟩, h1, rfl⟩ := hk
    exact ribOf_dump hi o _ (amGet_of_mem hi.keys (hperm.mem_iff.mp (List.mem_of_getElem? h1)))
  · intro k r hk
    rw [ribsOf_get] at hk
    simp only [Option.map_eq_some_iff] at hk
    obtain ⟨⟨p, m⟩, h1, rfl⟩ := hk
    simp [ribOf]

end Verif
