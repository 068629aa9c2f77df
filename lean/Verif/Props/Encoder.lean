import Verif.Lemmas.EncoderBack
import Mathlib.Data.List.Perm.Subperm
/-
C47, C65: exporting MRT files.
-/
namespace Verif.Props
open Verif Spec

/-! ### C47 RIB dumps -/

theorem framed_bytes {r : MrtRecord} {c : Bytes} (hm : r.header.micro.isSome ↔ r.header.type = .bgp4mpEt) (h : Framed r c) :
    RecordBytes r c := by
  obtain ⟨h1, h2⟩ := h
  unfold frameMessage at h2
  split at h2
  · cases h2
  rename_i body hb
  split at h2
  · cases h2
  rename_i hd hh
  cases h2
  obtain ⟨⟨t, m, ty, st, l⟩, msg⟩ := r
  refine ⟨hd, body, hb, ?_, rfl⟩
  have ho : HeaderOk ⟨t, m, ty, st, UInt32.ofNat body.length⟩ := by
    refine ⟨hm, fun ht => ?_⟩
    obtain ⟨m', hm'⟩ := Option.isSome_iff_exists.mp (hm.mpr ht)
    dsimp only at hm'
    subst hm'
    unfold encodeHeader at hh
    dsimp only at hh ⊢
    split at hh
    · cases hh
    · omega
  obtain ⟨b, g1, g2, _⟩ := c20_layout _ ho
  have hh : encodeHeader ⟨t, m, ty, st, UInt32.ofNat body.length⟩ = .ok hd := hh
  rw [hh] at g1; cases g1
  exact g2

theorem blocks_mono {R S : α → Bytes → Prop} {as : List α} {b : Bytes} (h : Blocks R as b) (hi : ∀ a ∈ as, ∀ c, R a c → S a c) :
    Blocks S as b := by
  induction h with
  | nil => exact .nil
  | cons h _ ih => exact .cons (hi _ List.mem_cons_self _ h) (ih fun a ha => hi a (List.mem_cons_of_mem _ ha))

/-- C47: what an export returns is a dump of the elements accepted since the encoder was last empty, and the encoder is empty
afterwards. -/
theorem c47_export (h : List (ElemIn × Bool)) (x y : RibEncoder) (o : HashOrder) (b : Bytes) (hf : RibFed h x)
    (he : x.exportBytes o = (.ok b, y)) :
    y = .new ∧ ∃ t ribs, DumpOf h t ribs ∧ Blocks RecordBytes (dumpRecords (convertTimestamp (dumpStamp h)).1 t ribs) b := by
  obtain ⟨h1, h2⟩ := exportBytes_blocks he
  have hi := ribFed_inv hf
  refine ⟨h1, _, _, dump_of_inv hi o, ?_⟩
  rw [← hi.stamp]
  refine blocks_mono h2 fun r hr c hc => framed_bytes ?_ hc
  simp only [dumpRecords, List.mem_cons, List.mem_map] at hr
  rcases hr with rfl | ⟨r, _, rfl⟩ <;> simp [dumpRecord]

/-- C47: an element is refused exactly if it comes from a new peer and there are 65535 peers already; then the entries stay
as they are. -/
theorem c47_refused (h : List (ElemIn × Bool)) (x y : RibEncoder) (i : ElemIn) (r : Except EncErr Unit) (hf : RibFed h x)
    (hp : x.processElem i = (r, y)) :
    (r.isOk = false ↔ (∀ j ∈ accepted h, j.elem.peerIp ≠ i.elem.peerIp) ∧
      ∃ l : List Ip, l.Nodup ∧ l.length = 65535 ∧ ∀ ip, ip ∈ l ↔ ∃ j ∈ accepted h, j.elem.peerIp = ip) ∧
    (r.isOk = false → y.table = x.table ∧ y.entries = x.entries) := by
  have hi := ribFed_inv hf
  obtain ⟨H, hH⟩ := hi.hist
  have hv := AddHistory.inv hH
  unfold RibEncoder.processElem at hp
  generalize hx1 : (if x.stamp = 0 then { x with stamp := i.stamp } else x) = x1 at hp
  have ht : x1.table = x.table := by subst hx1; split <;> rfl
  have hen : x1.entries = x.entries := by subst hx1; split <;> rfl
  dsimp only at hp
  rw [ht, hen] at hp
  -- the addresses in the table
  have hnone : x.table.idOf i.elem.peerIp = none ↔ ∀ j ∈ accepted h, j.elem.peerIp ≠ i.elem.peerIp := by
    constructor
    · intro hn j hj e
      obtain ⟨id, hid⟩ := hi.known j hj
      rw [e, hn] at hid; cases hid
    · intro hall
      cases hq : x.table.idOf i.elem.peerIp with
      | none => rfl
      | some id =>
        obtain ⟨p, h1, h2⟩ := hv.fwd _ _ hq
        obtain ⟨j, h3, _⟩ := hi.peers id p h1
        have h4 := List.find?_some h3
        simp only [decide_eq_true_eq] at h4
        exact absurd (h4.trans h2) (hall j (List.mem_reverse.mp (List.mem_of_find?_eq_some h3)))
  let l0 := x.table.idPeer.map fun p => p.2.ip
  have hmem : ∀ ip, ip ∈ l0 ↔ ∃ j ∈ accepted h, j.elem.peerIp = ip := by
    intro ip
    simp only [l0, List.mem_map]
    constructor
    · rintro ⟨⟨id, p⟩, h1, rfl⟩
      obtain ⟨j, h3, _⟩ := hi.peers id p (amGet_of_mem hv.nodup h1)
      have h4 := List.find?_some h3
      simp only [decide_eq_true_eq] at h4
      exact ⟨j, List.mem_reverse.mp (List.mem_of_find?_eq_some h3), h4⟩
    · rintro ⟨j, hj, rfl⟩
      obtain ⟨id, hid⟩ := hi.known j hj
      obtain ⟨p, h1, h2⟩ := hv.fwd _ _ hid
      exact ⟨(id, p), mem_of_amGet h1, h2⟩
  have hnd : l0.Nodup := by
    have hn := hv.nodup
    simp only [l0, List.Nodup, List.pairwise_map] at hn ⊢
    refine List.Pairwise.imp_of_mem ?_ hn
    intro a b ha hb hab e
    have h1 := hv.bwd a.1 a.2 (amGet_of_mem hv.nodup ha)
    have h2 := hv.bwd b.1 b.2 (amGet_of_mem hv.nodup hb)
    rw [e, h2] at h1
    exact hab (Option.some.inj h1).symm
  have hlen : l0.length = x.table.ipId.length := by simp only [l0, List.length_map]; exact hv.len.symm
  cases ha : x.table.addPeer i.peer with
  | error e =>
    rw [ha] at hp
    cases hp
    refine ⟨⟨fun _ => ?_, fun _ => rfl⟩, fun _ => ⟨ht, hen⟩⟩
    unfold PeerIndexTable.addPeer at ha
    split at ha
    · cases ha
    rename_i hg
    refine ⟨hnone.mp hg, l0, hnd, ?_, hmem⟩
    dsimp only at ha
    split at ha
    · rename_i hc
      unfold checkMax at hc
      split at hc
      · have := hv.max; omega
      · cases hc
    · cases ha
  | ok z =>
    obtain ⟨id, t⟩ := z
    rw [ha] at hp
    cases hp
    refine ⟨⟨fun hc => (Bool.noConfusion (show true = false from hc)), ?_⟩, fun hc => (Bool.noConfusion (show true = false from hc))⟩
    rintro ⟨h1, l, h2, h3, h4⟩
    exfalso
    have hpm : l0.Perm l := (List.perm_ext_iff_of_nodup hnd h2).mpr fun ip => by rw [hmem, h4]
    have hll := hpm.length_eq
    unfold PeerIndexTable.addPeer at ha
    have hg : amGet i.peer.ip x.table.ipId = none := hnone.mpr h1
    rw [hg] at ha
    dsimp only at ha
    unfold checkMax at ha
    rw [if_pos (by omega)] at ha
    cases ha

/-- C47: a failed export changes nothing, so it can be tried again with the same elements. -/
theorem c47_failed_export (x y : RibEncoder) (o : HashOrder) (e : EncErr) (h : x.exportBytes o = (.error e, y)) : y = x :=
  exportBytes_error h

theorem encAll_isOk {f : α → Except EncErr Bytes} : ∀ {l : List α}, (encAll f l).isOk = true ↔ ∀ a ∈ l, (f a).isOk = true
  | [] => by simp [encAll, Except.isOk, Except.toBool]
  | a :: l => by
    have ih := encAll_isOk (f := f) (l := l)
    simp only [List.mem_cons, forall_eq_or_imp, ← ih, encAll]
    cases f a with
    | error e => simp [Except.isOk, Except.toBool]
    | ok b => cases encAll f l <;> simp [Except.isOk, Except.toBool]

theorem encRibEntry_isOk (ap : Bool) (e : RibEntry) : (encRibEntry ap e).isOk = true ↔
    ∃ b, encodeAttributes .b32 e.attributes.inner = .ok b ∧ b.length ≤ 65535 := by
  unfold encRibEntry
  cases encodeAttributes .b32 e.attributes.inner with
  | error x => simp [Except.isOk, Except.toBool]
  | ok ab =>
    dsimp only
    unfold u16Len checkMax
    by_cases h : ab.length > 65535
    · simp [h, Except.isOk, Except.toBool]
    · simp only [h, if_false, Except.ok.injEq, exists_eq_left']
      simp [Except.isOk, Except.toBool]; omega

theorem encRibEntry_length {ap : Bool} {e : RibEntry} {b : Bytes} (h : encRibEntry ap e = .ok b) : b.length ≤ 65547 := by
  unfold encRibEntry at h
  split at h
  · cases h
  rename_i ab _
  unfold u16Len checkMax at h
  by_cases hl : ab.length > 65535
  · simp only [hl, if_true] at h; cases h
  · simp only [hl, if_false] at h
    cases h
    have : ∀ o, (if ap = true then encPathId o else []).length ≤ 4 := by
      intro o; cases ap <;> cases o <;> simp [encPathId, length_be32]
    have := this e.pathId
    simp only [List.length_append, length_be16, length_be32]
    omega

theorem encAll_length {f : α → Except EncErr Bytes} {k : Nat} (hf : ∀ a b, f a = .ok b → b.length ≤ k) : ∀ {l : List α} {b : Bytes},
    encAll f l = .ok b → b.length ≤ k * l.length
  | [], b, h => by cases h; simp
  | a :: l, b, h => by
    unfold encAll at h
    split at h
    · cases h
    rename_i c hc
    split at h
    · cases h
    rename_i d hd
    cases h
    have := hf a c hc
    have := encAll_length hf hd
    simp only [List.length_append, List.length_cons, Nat.mul_add]
    omega

theorem encodeRibAfi_isOk (r : RibAfi) : (encodeRibAfi r).isOk = true ↔ r.entries.length ≤ 65535 ∧
    ∀ e ∈ r.entries, ∃ b, encodeAttributes .b32 e.attributes.inner = .ok b ∧ b.length ≤ 65535 := by
  unfold encodeRibAfi checkMax
  by_cases hl : r.entries.length > 65535
  · simp only [hl, if_true]
    constructor
    · intro h; cases h
    · intro h; omega
  · simp only [hl, if_false]
    have h := encAll_isOk (f := encRibEntry r.ribType.addPath) (l := r.entries)
    simp only [encRibEntry_isOk] at h
    rw [← h]
    cases encAll (encRibEntry r.ribType.addPath) r.entries <;> simp [Except.isOk, Except.toBool] <;> omega

theorem exportRibs_isOk (o : HashOrder) (time : UInt32) : ∀ (l : List (IpNet × List (UInt16 × RibEntry))) (k : Nat),
    (exportRibs o time k l).isOk = true ↔ ∀ r ∈ ribsOf o k l, (encodeRibAfi r).isOk = true
  | [], k => by simp [exportRibs, ribsOf, Except.isOk, Except.toBool]
  | (p, m) :: l, k => by
    have ih := exportRibs_isOk o time l (k + 1)
    simp only [ribsOf, List.mem_cons, forall_eq_or_imp, ← ih]
    rw [exportRibs]
    unfold frameMessage
    have : encodeMrtMessage (.tableDumpV2 (.ribAfi (ribOf o k p m))) (ribOf o k p m).ribType.toU16 = encodeRibAfi (ribOf o k p m) := rfl
    rw [this]
    cases encodeRibAfi (ribOf o k p m) with
    | error e => simp [Except.isOk, Except.toBool]
    | ok b =>
      simp only [encodeHeader]
      cases exportRibs o time (k + 1) l <;> simp [Except.isOk, Except.toBool]

theorem rib_entries_length {t : PeerIndexTable} {H : List (Peer × UInt16)} (ht : AddHistory H t) {h : List (ElemIn × Bool)} {r : RibAfi}
    (hr : DumpRib h t r) : r.entries.length ≤ t.idPeer.length := by
  obtain ⟨_, _, h3, h4, _⟩ := hr
  have hv := AddHistory.inv ht
  have : (r.entries.map (·.peerIndex)).length ≤ (t.idPeer.map Prod.fst).length := by
    apply List.Subperm.length_le
    refine List.subperm_of_subset h3 ?_
    intro id hid
    obtain ⟨e, he, rfl⟩ := List.mem_map.mp hid
    obtain ⟨p, _, hp, _⟩ := h4 e he
    exact List.mem_map.mpr ⟨_, mem_of_amGet hp, rfl⟩
  simpa using this

/-- C47: an export fails exactly if the attributes of some element that is to be exported cannot be written, because one of
them or all together are too long; the order in which prefixes and peers are visited does not matter. -/
theorem c47_fails_iff (h : List (ElemIn × Bool)) (x : RibEncoder) (o : HashOrder) (hf : RibFed h x) :
    (∃ e y, x.exportBytes o = (.error e, y)) ↔ ∃ p ip i, lastFrom h p ip = some i ∧
      ¬ ∃ b, encodeAttributes .b32 i.elem.toAttributes.inner = .ok b ∧ b.length ≤ 65535 := by
  have hi := ribFed_inv hf
  obtain ⟨H, hH⟩ := hi.hist
  have hv := AddHistory.inv hH
  have hd := dump_of_inv hi o
  have hok : (∃ e y, x.exportBytes o = (.error e, y)) ↔
      ¬ (exportRibs o (convertTimestamp x.stamp).1 0 (o.order 0 x.entries)).isOk = true := by
    unfold RibEncoder.exportBytes frameMessage
    dsimp only
    have : encodeMrtMessage (.tableDumpV2 (.peerIndexTable x.table)) V2Type.peerIndexTable.toU16 = encodePeerIndexTable x.table := rfl
    rw [this]
    unfold encodePeerIndexTable
    rw [hv.viewName]
    have hu : u16Len [] = .ok [0, 0] := rfl
    rw [hu]
    dsimp only
    unfold checkMax
    rw [if_neg (by have := hv.max; have := hv.len; omega)]
    simp only [encodeHeader]
    cases exportRibs o (convertTimestamp x.stamp).1 0 (o.order 0 x.entries) <;> simp [Except.isOk, Except.toBool]
  rw [hok, exportRibs_isOk]
  constructor
  · intro hn
    simp only [Classical.not_forall] at hn
    obtain ⟨r, hr, hn⟩ := hn
    rw [encodeRibAfi_isOk] at hn
    have hl : r.entries.length ≤ 65535 := by
      have := rib_entries_length hH (hd.rib r hr)
      have := hv.max; have := hv.len; omega
    simp only [hl, true_and, Classical.not_forall] at hn
    obtain ⟨e, he, hn⟩ := hn
    obtain ⟨p, i, _, h2, _, _, h5⟩ := (hd.rib r hr).2.2.2.1 e he
    exact ⟨_, _, i, h2, by rw [← h5]; exact hn⟩
  · rintro ⟨p, ip, i, h1, h2⟩ hall
    apply h2
    have hm := List.mem_of_find?_eq_some h1
    have hpi := List.find?_some h1
    simp only [decide_eq_true_eq] at hpi
    obtain ⟨r, hr, hrp⟩ := (hd.all p).mpr ⟨i, hm, hpi.1⟩
    have hdr := hd.rib r hr
    obtain ⟨e, he, q, hq, hqi⟩ := hdr.2.2.2.2 i hm (hpi.1.trans hrp.symm)
    obtain ⟨q', i', g1, g2, _, _, g5⟩ := hdr.2.2.2.1 e he
    rw [hq] at g1; cases g1
    rw [hrp, hqi, hpi.2, h1] at g2
    cases g2
    have := ((encodeRibAfi_isOk r).mp (hall r hr)).2 e he
    rw [g5] at this
    exact this

/-- the elements of the records that are read back from a dump. -/
theorem dump_elems {h : List (ElemIn × Bool)} {x : RibEncoder} (hi : RibInv h x) (o : HashOrder) (time : UInt32) (rs' : List MrtRecord)
    (hok : ∀ i ∈ accepted h, i.elem.type = .announce)
    (hs : Pairwise2 (fun r r' => SameRecord r'.header.length.toNat r r')
      (dumpRecords time x.table (ribsOf o 0 (o.order 0 x.entries))) rs') : DumpElems h (elemsFrom [] rs') := by
  have hd := dump_of_inv hi o
  obtain ⟨H, hH⟩ := hi.hist
  have hv := AddHistory.inv hH
  generalize ribsOf o 0 (o.order 0 x.entries) = ribs at hd hs
  cases hs with
  | @cons _ r0 _ rs' h1 h2 =>
    obtain ⟨_, _, _, _, _, h3⟩ := h1
    obtain ⟨hdr, msg⟩ := r0
    have h3 : SameMrt (.tableDumpV2 (.peerIndexTable x.table)) msg := h3
    cases h3 with
    | @peers _ t' _ _ ht =>
      obtain ⟨outs, g1, g2⟩ := elemsFrom_ribs x.table t' ht time ribs [⟨hdr, .tableDumpV2 (.peerIndexTable t')⟩] rs' rfl
        (by
          intro r hr e he
          obtain ⟨p, _, hp, _⟩ := (hd.rib r hr).2.2.2.1 e he
          rw [hp]; rfl) h2
      have he : elemsFrom [] (⟨hdr, .tableDumpV2 (.peerIndexTable t')⟩ :: rs') = outs.flatten := by
        show [] ++ elemsFrom _ rs' = _
        exact g2
      rw [he]
      have key : ∀ r ∈ ribs, ∀ en ∈ r.entries, ∀ e, FromEntry x.table r.prefix_ en e →
          ∃ q i, x.table.peer en.peerIndex = some q ∧ e.peerIp = q.ip ∧ e.prefix_ = r.prefix_ ∧ e.peerAsn = q.asn ∧
            lastFrom h r.prefix_.prefix_ q.ip = some i ∧ e.time = (f64ToU32 i.stamp).toNat * 1000000 ∧ SameRoute i.elem e := by
        rintro r hr en hen e ⟨q, e', k1, k2, rfl⟩
        obtain ⟨q', i, d1, d2, d3, d4, d5⟩ := (hd.rib r hr).2.2.2.1 en hen
        rw [k1] at d1; cases d1
        refine ⟨q, i, k1, rfl, rfl, rfl, d2, ?_, ?_⟩
        · show e'.time.toNat * 1000000 = _
          rw [k2.2.1, d4]
        · exact ribEntry_sameRoute _ (hok i (List.mem_of_find?_eq_some d2)) _ _ _ (by rw [k2.2.2.2, d5])
      refine ⟨?_, ?_, ?_⟩
      · intro e he
        obtain ⟨out, ho, he⟩ := List.mem_flatten.mp he
        obtain ⟨r, hr, hro⟩ := pairwise2_mem_right g1 ho
        obtain ⟨en, hen, hre⟩ := pairwise2_mem_right hro he
        obtain ⟨q, i, k1, k2, k3, k4, k5, k6, k7⟩ := key r hr en hen e hre
        obtain ⟨j, j1, j2, _⟩ := hd.peers.2.2.1 _ q k1
        refine ⟨i, j, by rw [k3, k2]; exact k5, by rw [k2]; exact j1, by rw [k4, j2], by rw [k3]; exact (hd.rib r hr).1, k6, k7⟩
      · intro i hi'
        obtain ⟨r, hr, hrp⟩ := (hd.all _).mpr ⟨i, hi', rfl⟩
        obtain ⟨en, hen, q, hq, hqi⟩ := (hd.rib r hr).2.2.2.2 i hi' hrp.symm
        obtain ⟨out, ho, hro⟩ := pairwise2_mem_left g1 hr
        obtain ⟨e, he, hre⟩ := pairwise2_mem_left hro hen
        obtain ⟨q', _, k1, k2, k3, _⟩ := key r hr en hen e hre
        rw [hq] at k1; cases k1
        exact ⟨e, List.mem_flatten.mpr ⟨out, ho, he⟩, by rw [k3, hrp], by rw [k2, hqi]⟩
      · rw [List.pairwise_flatten]
        constructor
        · intro out ho
          obtain ⟨r, hr, hro⟩ := pairwise2_mem_right g1 ho
          have hnd := (hd.rib r hr).2.2.1
          refine pairwise2_pairwise hro (List.pairwise_map.mp hnd) ?_
          rintro a a' e e' ha ha' hra hra' hne ⟨_, hip⟩
          obtain ⟨q, _, k1, k2, _⟩ := key r hr a ha e hra
          obtain ⟨q', _, l1, l2, _⟩ := key r hr a' ha' e' hra'
          have m1 := hv.bwd _ _ k1
          have m2 := hv.bwd _ _ l1
          rw [← k2, hip, l2, m2] at m1
          exact hne (Option.some.inj m1).symm
        · have hnd := hd.once
          refine pairwise2_pairwise g1 (List.pairwise_map.mp hnd) ?_
          intro r r' out out' hr hr' hro hro' hne e he e' he' hc
          obtain ⟨en, hen, hre⟩ := pairwise2_mem_right hro he
          obtain ⟨en', hen', hre'⟩ := pairwise2_mem_right hro' he'
          obtain ⟨_, _, _, _, k3, _⟩ := key r hr en hen e hre
          obtain ⟨_, _, _, _, l3, _⟩ := key r' hr' en' hen' e' hre'
          rw [k3, l3] at hc
          exact hne hc.1

/-- C47: reading an exported dump with the element iterator gives exactly one element for every prefix and every peer that
announced it, with the attributes of the last announcement. What is missing for the full property: the elements must be
announcements with a next hop of the prefix's family and, for one prefix, all or none with a path identifier (the peers
are told apart by address alone, and of the routes of a peer that differ in the path identifier only the last one is kept:
`c47_path_ids_collapse`, `c47_peers_merged`). -/
theorem c47_read_back_partial (h : List (ElemIn × Bool)) (x y : RibEncoder) (o : HashOrder) (b : Bytes) (hf : RibFed h x)
    (he : x.exportBytes o = (.ok b, y))
    (hok : ∀ i ∈ accepted h, RibElemOk i.elem.prefix_.pathId.isSome i.elem)
    (hfour : ∀ i ∈ accepted h, i.four = false → i.elem.peerAsn.toNat < 65536)
    (hmix : ∀ i ∈ accepted h, ∀ j ∈ accepted h, i.elem.prefix_.prefix_ = j.elem.prefix_.prefix_ →
      i.elem.prefix_.pathId.isSome = j.elem.prefix_.pathId.isSome)
    (hsmall : ∀ t r c, DumpPeers h t → DumpRib h t r → encodeRibAfi r = .ok c → c.length ≤ 16777216)
    (env : TextEnv) (coreDump : Bool) (pol : Pol) (s : Src) (hs : Delivers s b) :
    ∃ out, DumpElems h out ∧ ∀ n, (forLoop (elemNext env [] coreDump pol) n (ElemIter.new s)).1 = out.take n ∧
      ((forLoop (elemNext env [] coreDump pol) n (ElemIter.new s)).2.1 = true ↔ out.length < n) := by
  obtain ⟨_, h2⟩ := exportBytes_blocks he
  have hi := ribFed_inv hf
  have hd := dump_of_inv hi o
  have henc : Encoded (dumpRecords (convertTimestamp x.stamp).1 x.table (ribsOf o 0 (o.order 0 x.entries))) b := by
    refine encoded_of_framed h2 ?_ ?_
    · intro r hr
      simp only [dumpRecords, List.mem_cons, List.mem_map] at hr
      rcases hr with rfl | ⟨r, hr, rfl⟩
      · exact ⟨by simp [dumpRecord], .peers (table_ok hi hfour)⟩
      · exact rib_record_ok _ (hd.rib r hr) ((hd.all _).mp ⟨r, hr, rfl⟩) hok hmix
    · intro r hr body hb
      simp only [dumpRecords, List.mem_cons, List.mem_map] at hr
      rcases hr with rfl | ⟨r, hr, rfl⟩
      · exact table_small hi hb
      · exact hsmall _ r body hd.peers (hd.rib r hr) hb
  obtain ⟨rs', h3, _, h5⟩ := c31_file_partial _ b henc pol coreDump s hs ((toks s.evs).length + b.length + 1) (by omega)
  refine ⟨elemsFrom [] rs', dump_elems hi o _ rs' (fun i hi => (hok i hi).announce) h3, fun n => ?_⟩
  have := c37_elems env [] coreDump pol pol s ((toks s.evs).length + b.length + 1) (by omega) n
  dsimp only at this
  rw [h5] at this
  have hid : ∀ l : List BgpElem, l.filter (fun e => e.matchFilters env []) = l := fun l => List.filter_eq_self.2 fun e _ => rfl
  rw [hid] at this
  exact this

/-- C47: the sizes are no obstacle with up to 255 peers. -/
theorem c47_small (h : List (ElemIn × Bool)) (l : List Ip) (hl : l.length ≤ 255) (hin : ∀ i ∈ accepted h, i.elem.peerIp ∈ l)
    (t : PeerIndexTable) (r : RibAfi) (c : Bytes) (ht : DumpPeers h t) (hr : DumpRib h t r) (hc : encodeRibAfi r = .ok c) :
    c.length ≤ 16777216 := by
  have hlen : r.entries.length ≤ 255 := by
    obtain ⟨_, _, h3, h4, _⟩ := hr
    have hsub : (r.entries.map fun e => (t.peer e.peerIndex).map (·.ip)).length ≤ (l.map some).length := by
      refine List.Subperm.length_le (List.subperm_of_subset ?_ ?_)
      · rw [List.Nodup, List.pairwise_map]
        refine List.Pairwise.imp_of_mem ?_ (List.pairwise_map.mp h3)
        intro a a' ha ha' hne e
        obtain ⟨p, _, hp, _⟩ := h4 a ha
        obtain ⟨p', _, hp', _⟩ := h4 a' ha'
        rw [hp, hp'] at e
        exact hne (ht.2.2.2.2.1 _ _ _ _ hp hp' (Option.some.inj e))
      · intro ip hip
        obtain ⟨e, he, rfl⟩ := List.mem_map.mp hip
        obtain ⟨p, i, hp, hi, _⟩ := h4 e he
        have hpi := List.find?_some hi
        simp only [decide_eq_true_eq] at hpi
        rw [hp]
        exact List.mem_map.mpr ⟨p.ip, by rw [← hpi.2]; exact hin i (List.mem_of_find?_eq_some hi), rfl⟩
    simp only [List.length_map] at hsub
    omega
  unfold encodeRibAfi at hc
  split at hc
  · cases hc
  split at hc
  · cases hc
  rename_i es hes
  cases hc
  have h1 := encAll_length (k := 65547) (fun _ _ h => encRibEntry_length h) hes
  have h2 : r.prefix_.encode.length ≤ 260 := by
    have g1 : (encPathId r.prefix_.pathId).length ≤ 4 := by cases r.prefix_.pathId <;> simp [encPathId, length_be32]
    have g2 : r.prefix_.prefix_.addr.octets.length ≤ 16 := by cases r.prefix_.prefix_.addr <;> simp [Ip.octets]
    simp only [NetworkPrefix.encode, List.length_append, List.length_cons, List.length_take]
    omega
  simp only [List.length_append, length_be16, length_be32]
  have h3 : 65547 * r.entries.length ≤ 65547 * 255 := Nat.mul_le_mul_left _ hlen
  omega

/-! a dump with two peers, two prefixes and a route that is replaced -/

def idOrder : HashOrder := ⟨fun _ l => l, fun _ l => List.Perm.refl l⟩
def revOrder : HashOrder := ⟨fun _ l => l.reverse, fun _ l => l.reverse_perm⟩

def encA : ElemIn := ⟨{ exElem with peerIp := .v4 #v[10, 0, 0, 1], peerAsn := 65001 }, 1700000000, false⟩
def encB : ElemIn := ⟨{ exElem with peerIp := .v4 #v[10, 0, 0, 2], peerAsn := 4200000000, med := some 5 }, 1700000001, true⟩
def encC : ElemIn := ⟨{ exElem with peerIp := .v4 #v[10, 0, 0, 1], peerAsn := 65001, origin := some .egp }, 1700000002, false⟩
def encD : ElemIn := ⟨{ exElem with peerIp := .v4 #v[10, 0, 0, 1], peerAsn := 65001, prefix_ := exPrefix 2 }, 1700000003, false⟩
def encH : List (ElemIn × Bool) := [(encD, true), (encC, true), (encB, true), (encA, true)]

/-- feeding elements to a new encoder. -/
def feed (l : List ElemIn) : List (ElemIn × Bool) × RibEncoder :=
  l.foldl (fun a i => ((i, (a.2.processElem i).1.isOk) :: a.1, (a.2.processElem i).2)) ([], .new)

theorem feed_fed (l : List ElemIn) : RibFed (feed l).1 (feed l).2 := by
  have : ∀ (l : List ElemIn) a, RibFed a.1 a.2 → RibFed
      (l.foldl (fun a i => ((i, (a.2.processElem i).1.isOk) :: a.1, (a.2.processElem i).2)) a).1
      (l.foldl (fun a i => ((i, (a.2.processElem i).1.isOk) :: a.1, (a.2.processElem i).2)) a).2 := by
    intro l
    induction l with
    | nil => intro a h; exact h
    | cons i l ih => intro a h; exact ih _ (.elem h rfl)
  exact this l _ .new

def encX : RibEncoder := (feed [encA, encB, encC, encD]).2

theorem encX_fed : RibFed encH encX := by
  have h : (feed [encA, encB, encC, encD]).1 = encH := by decide +kernel
  rw [← h]
  exact feed_fed _

theorem exElem_ok (f : BgpElem → BgpElem) (h1 : (f exElem).prefix_ = exPrefix 1 ∨ (f exElem).prefix_ = exPrefix 2)
    (h2 : (f exElem).communities = exElem.communities) (h3 : (f exElem).unknown = exElem.unknown)
    (h4 : (f exElem).deprecated = exElem.deprecated) : ElemOk false (f exElem) := by
  refine ⟨?_, ?_, ?_, ?_, ?_⟩
  · rcases h1 with h | h <;> (rw [h]; exact ⟨by decide, by decide, by decide, by decide⟩)
  · rcases h1 with h | h <;> (rw [h]; decide)
  · rw [h2]
    intro c hc
    simp only [exElem, Option.getD_some, List.mem_cons, List.not_mem_nil, or_false] at hc
    rcases hc with rfl | rfl
    · trivial
    · exact (show CommunityOk (.custom 1 2) from ⟨by decide, by decide⟩)
  · rw [h3]
    intro a ha
    simp only [exElem, Option.getD_some, List.mem_singleton] at ha
    subst ha
    decide
  · rw [h4]; intro a ha; cases ha


theorem export_of_length {x : RibEncoder} {o : HashOrder} {n : Nat} (h : (x.exportBytes o).1.toOption.map List.length = some n) :
    ∃ b y, x.exportBytes o = (.ok b, y) ∧ b.length = n := by
  generalize x.exportBytes o = z at h ⊢
  obtain ⟨z1, z2⟩ := z
  cases z1 with
  | error e => cases h
  | ok b => exact ⟨b, z2, rfl, Option.some.inj h⟩

theorem encX_ok : ∀ i ∈ accepted encH, RibElemOk i.elem.prefix_.pathId.isSome i.elem := by
  intro i hi
  have hl : accepted encH = [encD, encC, encB, encA] := by decide +kernel
  rw [hl] at hi
  simp only [List.mem_cons, List.not_mem_nil, or_false] at hi
  rcases hi with rfl | rfl | rfl | rfl
  · exact ⟨exElem_ok (fun e => { e with peerIp := .v4 #v[10, 0, 0, 1], peerAsn := 65001, prefix_ := exPrefix 2 }) (.inr rfl) rfl rfl rfl, rfl,
      _, rfl, rfl⟩
  · exact ⟨exElem_ok (fun e => { e with peerIp := .v4 #v[10, 0, 0, 1], peerAsn := 65001, origin := some .egp }) (.inl rfl) rfl rfl rfl, rfl,
      _, rfl, rfl⟩
  · exact ⟨exElem_ok (fun e => { e with peerIp := .v4 #v[10, 0, 0, 2], peerAsn := 4200000000, med := some 5 }) (.inl rfl) rfl rfl rfl, rfl,
      _, rfl, rfl⟩
  · exact ⟨exElem_ok (fun e => { e with peerIp := .v4 #v[10, 0, 0, 1], peerAsn := 65001 }) (.inl rfl) rfl rfl rfl, rfl,
      _, rfl, rfl⟩

/-- the dump has 354 octets, and reading it back gives three elements: of the four announcements, one is replaced. -/
example : ∃ b y, encX.exportBytes revOrder = (.ok b, y) ∧ b.length = 354 ∧ y = .new ∧
    ∀ (env : TextEnv) (pol : Pol) (s : Src), Delivers s b → ∃ out, DumpElems encH out ∧
      (forLoop (elemNext env [] false pol) (out.length + 1) (ElemIter.new s)).1 = out := by
  obtain ⟨b, y, h1, h2⟩ := export_of_length (n := 354) (show (encX.exportBytes revOrder).1.toOption.map List.length = _ by decide +kernel)
  refine ⟨b, y, h1, h2, (c47_export _ _ _ _ _ encX_fed h1).1, fun env pol s hs => ?_⟩
  obtain ⟨out, g1, g2⟩ := c47_read_back_partial encH encX y revOrder b encX_fed h1 encX_ok (by decide +kernel) (by decide +kernel)
    (c47_small encH [.v4 #v[10, 0, 0, 1], .v4 #v[10, 0, 0, 2]] (by decide) (by decide +kernel)) env false pol s hs
  exact ⟨out, g1, by rw [(g2 _).1]; exact List.take_of_length_le (by omega)⟩

example : (∃ i, lastFrom encH (exPrefix 1).prefix_ (.v4 #v[10, 0, 0, 1]) = some i ∧ i.elem.origin = some .egp) ∧
    dumpStamp encH = 1700000000 := ⟨⟨encC, by decide +kernel, rfl⟩, by decide +kernel⟩

/-- C47 fails here: of two routes of a peer for the same prefix that differ in the path identifier, the dump has only the
later one. -/
theorem c47_path_ids_collapse : ∃ h x i j, RibFed h x ∧ i ∈ accepted h ∧ j ∈ accepted h ∧
    i.elem.prefix_.prefix_ = j.elem.prefix_.prefix_ ∧ i.elem.peerIp = j.elem.peerIp ∧
    i.elem.prefix_.pathId = some 1 ∧ j.elem.prefix_.pathId = some 2 ∧
    ∀ t ribs, DumpOf h t ribs → ∀ r ∈ ribs, ∀ e ∈ r.entries, e.pathId ≠ some 1 := by
  let i : ElemIn := ⟨{ exElem with prefix_ := ⟨(exPrefix 1).prefix_, some 1⟩ }, 1, false⟩
  let j : ElemIn := ⟨{ exElem with prefix_ := ⟨(exPrefix 1).prefix_, some 2⟩ }, 2, false⟩
  have hf : (feed [i, j]).1 = [(j, true), (i, true)] := by decide +kernel
  have hr := feed_fed [i, j]
  rw [hf] at hr
  refine ⟨_, _, i, j, hr, by simp [accepted], by simp [accepted], rfl, rfl, rfl, rfl, ?_⟩
  intro t ribs hd r hr e he hc
  obtain ⟨p, k, _, h2, h3, _⟩ := (hd.rib r hr).2.2.2.1 e he
  rw [hc] at h3
  have hacc : accepted [(j, true), (i, true)] = [j, i] := rfl
  have hk := List.find?_some h2
  simp only [decide_eq_true_eq] at hk
  have hm := List.mem_of_find?_eq_some h2
  rw [hacc] at hm
  simp only [List.mem_cons, List.not_mem_nil, or_false] at hm
  rcases hm with rfl | rfl
  · cases h3
  · unfold lastFrom at h2
    rw [hacc, ← hk.1, ← hk.2] at h2
    have : [j, i].find? (fun a => a.elem.prefix_.prefix_ = i.elem.prefix_.prefix_ ∧ a.elem.peerIp = i.elem.peerIp) = some j := by
      decide +kernel
    rw [this] at h2
    exact absurd (congrArg (fun o => o.map fun (x : ElemIn) => x.elem.prefix_.pathId) h2) (by decide)

/-- C47 fails here: two peers with the same address and different AS numbers are one peer in the dump, with the AS number
seen first, and their routes replace each other. -/
theorem c47_peers_merged : ∃ h x i j, RibFed h x ∧ i ∈ accepted h ∧ j ∈ accepted h ∧ i.elem.peerAsn = 65001 ∧ j.elem.peerAsn = 65002 ∧
    ∀ t ribs, DumpOf h t ribs → ∀ id p, t.peer id = some p → p.asn = 65001 := by
  let i : ElemIn := ⟨{ exElem with peerAsn := 65001 }, 1, false⟩
  let j : ElemIn := ⟨{ exElem with peerAsn := 65002 }, 2, false⟩
  have hf : (feed [i, j]).1 = [(j, true), (i, true)] := by decide +kernel
  have hr := feed_fed [i, j]
  rw [hf] at hr
  refine ⟨_, _, i, j, hr, by simp [accepted], by simp [accepted], rfl, rfl, ?_⟩
  intro t ribs hd id p hp
  obtain ⟨k, h1, h2, _⟩ := hd.peers.2.2.1 id p hp
  have hk := List.find?_some h1
  simp only [decide_eq_true_eq] at hk
  have hacc : (accepted [(j, true), (i, true)]).reverse = [i, j] := rfl
  have hm := List.mem_of_find?_eq_some h1
  rw [hacc] at hm
  have hip : p.ip = exElem.peerIp := by
    simp only [List.mem_cons, List.not_mem_nil, or_false] at hm
    rcases hm with rfl | rfl <;> exact hk.symm
  unfold firstFrom at h1
  rw [hacc, hip] at h1
  have : [i, j].find? (fun a => a.elem.peerIp = exElem.peerIp) = some i := by decide +kernel
  rw [this] at h1
  cases h1
  exact h2

/-- C47 fails here: a withdrawal is stored like an announcement, and is read back as one. -/
theorem c47_withdrawal_stored : ∃ h x i, RibFed h x ∧ accepted h = [i] ∧ i.elem.type = .withdraw ∧
    ∀ t ribs, DumpOf h t ribs → ∃ r ∈ ribs, ∃ e ∈ r.entries, ∀ p peer, (ribEntryToElem p peer e).type = .announce := by
  let i : ElemIn := ⟨{ exElem with type := .withdraw }, 1, false⟩
  have hf : (feed [i]).1 = [(i, true)] := by decide +kernel
  have hr := feed_fed [i]
  rw [hf] at hr
  refine ⟨_, _, i, hr, rfl, rfl, ?_⟩
  intro t ribs hd
  have hm : i ∈ accepted [(i, true)] := by simp [accepted]
  obtain ⟨r, h1, h2⟩ := (hd.all i.elem.prefix_.prefix_).mpr ⟨i, hm, rfl⟩
  obtain ⟨e, h3, _⟩ := (hd.rib r h1).2.2.2.2 i hm h2.symm
  exact ⟨r, h1, e, h3, fun _ _ => rfl⟩

theorem feed_full (n : Nat) (hn : n ≤ 65535) : ∃ h x, RibFed h x ∧ x.stamp = 0 ∧
    (accepted h).map (·.elem.peerIp) = (List.range n).reverse.map fun k => Ip.v4 #v[0, 0, UInt8.ofNat (k / 256), UInt8.ofNat (k % 256)] := by
  induction n with
  | zero => exact ⟨[], .new, .new, rfl, rfl⟩
  | succ n ih =>
    obtain ⟨h, x, h1, h2, h3⟩ := ih (by omega)
    let i : ElemIn := ⟨{ exElem with peerIp := .v4 #v[0, 0, UInt8.ofNat (n / 256), UInt8.ofNat (n % 256)] }, 0, false⟩
    have hp : x.processElem i = ((x.processElem i).1, (x.processElem i).2) := rfl
    have hr := c47_refused h x _ i _ h1 hp
    have hok : (x.processElem i).1.isOk = true := by
      by_contra hc
      rw [Bool.not_eq_true] at hc
      obtain ⟨_, l, l1, l2, l3⟩ := hr.1.mp hc
      have hsub : l.length ≤ ((accepted h).map (·.elem.peerIp)).length := by
        refine List.Subperm.length_le (List.subperm_of_subset l1 ?_)
        intro ip hip
        obtain ⟨j, j1, j2⟩ := (l3 ip).mp hip
        exact List.mem_map.mpr ⟨j, j1, j2⟩
      rw [h3] at hsub
      simp only [List.length_map, List.length_reverse, List.length_range] at hsub
      omega
    refine ⟨(i, true) :: h, (x.processElem i).2, hok ▸ .elem h1 hp, ?_, ?_⟩
    · have := (ribFed_inv (RibFed.elem h1 hp)).stamp
      rw [this, dumpStamp_cons, ← (ribFed_inv h1).stamp, if_pos h2]
    · rw [accepted_cons_true, List.map_cons, h3, List.range_succ, List.reverse_append]
      rfl

/-- The documentation of `process_elem` says that the encoder is left unchanged by a refused element. It is not: if no element
had a timestamp so far, that of the refused one becomes the timestamp of the dump. -/
theorem c47_refused_sets_time : ∃ h x i e y, RibFed h x ∧ x.processElem i = (.error e, y) ∧ x.stamp = 0 ∧ y.stamp = 1700000000 := by
  obtain ⟨n, hn⟩ : ∃ n, n = 65535 := ⟨_, rfl⟩
  obtain ⟨h, x, h1, h2, h3⟩ := feed_full n (by omega)
  let i : ElemIn := ⟨{ exElem with peerIp := .v4 #v[1, 1, 1, 1] }, 1700000000, false⟩
  have hr := c47_refused h x (x.processElem i).2 i (x.processElem i).1 h1 rfl
  have hmem : ∀ ip, (∃ j ∈ accepted h, j.elem.peerIp = ip) ↔ ip ∈ (accepted h).map (·.elem.peerIp) := by
    intro ip; simp only [List.mem_map]
  have hbad : (x.processElem i).1.isOk = false := by
    rw [hr.1]
    refine ⟨?_, (accepted h).map (·.elem.peerIp), ?_, by rw [h3]; simp [hn], fun ip => (hmem ip).symm⟩
    · intro j hj e
      have := (hmem _).mp ⟨j, hj, e⟩
      rw [h3, List.mem_map] at this
      obtain ⟨k, _, hk⟩ := this
      have hk := Ip.v4.inj hk
      exact absurd (congrArg (fun v : V4 => v[0]) hk) (by simp)
    · rw [h3]
      rw [List.Nodup, List.pairwise_map]
      refine List.Pairwise.imp_of_mem ?_ ((List.reverse_perm _).nodup_iff.mpr List.nodup_range)
      intro a b ha hb hne hab
      apply hne
      rw [List.mem_reverse, List.mem_range] at ha hb
      have hab := Ip.v4.inj hab
      have e1 := congrArg (fun v : V4 => v[2].toNat) hab
      have e2 := congrArg (fun v : V4 => v[3].toNat) hab
      simp at e1 e2
      omega
  cases hp : x.processElem i with
  | mk r y =>
    rw [hp] at hbad
    cases r with
    | ok u => cases hbad
    | error e =>
      refine ⟨h, x, i, e, y, h1, hp, h2, ?_⟩
      have := (ribFed_inv (RibFed.elem h1 hp)).stamp
      rw [this, dumpStamp_cons, ← (ribFed_inv h1).stamp, if_pos h2]

theorem defaultFlags_short (v : AttrVal) : isExtended v.defaultFlags = false := by
  unfold AttrVal.defaultFlags
  cases v.category with
  | none => rfl
  | some c => cases c <;> rfl

/-- the attributes of an element are written with lengths of one octet. -/
theorem elem_encodable (e : BgpElem) : (encodeAttributes .b32 e.toAttributes.inner).isOk = true ↔
    ∀ a ∈ e.toAttributes.inner, ∃ b, encodeAttrVal .b32 a.value = .ok b ∧ b.length ≤ 255 := by
  unfold encodeAttributes
  rw [encAll_isOk]
  have key : ∀ a ∈ e.toAttributes.inner, (encodeAttr .b32 a).isOk = true ↔ ∃ b, encodeAttrVal .b32 a.value = .ok b ∧ b.length ≤ 255 := by
    intro a ha
    rw [toAttributes_inner, List.mem_map] at ha
    obtain ⟨v, _, rfl⟩ := ha
    unfold encodeAttr
    have : isExtended (Attributes.ofValue v).flag = false := defaultFlags_short v
    rw [this]
    cases encodeAttrVal .b32 (Attributes.ofValue v).value with
    | error x => simp [Except.isOk, Except.toBool]
    | ok ab =>
      simp only [Bool.false_eq_true, if_false]
      unfold u8Len checkMax
      by_cases h : ab.length > 255
      · simp [h, Except.isOk, Except.toBool]
      · simp only [h, if_false, Except.ok.injEq, exists_eq_left']
        simp [Except.isOk, Except.toBool]; omega
  exact ⟨fun h a ha => (key a ha).mp (h a ha), fun h a ha => (key a ha).mpr (h a ha)⟩

/-- C47: a single element to be exported with an attribute of more than 255 octets makes every export fail, because the
attributes of an element are never given the extended length flag. -/
theorem c47_long_attribute (h : List (ElemIn × Bool)) (x : RibEncoder) (o : HashOrder) (hf : RibFed h x) (p : IpNet) (ip : Ip)
    (i : ElemIn) (hi : lastFrom h p ip = some i) (a : Attribute) (ha : a ∈ i.elem.toAttributes.inner) (b : Bytes)
    (hb : encodeAttrVal .b32 a.value = .ok b) (hl : 255 < b.length) : ∃ e, x.exportBytes o = (.error e, x) := by
  obtain ⟨e, y, he⟩ := (c47_fails_iff h x o hf).mpr ⟨p, ip, i, hi, by
    rintro ⟨c, h1, _⟩
    have h3 := (elem_encodable i.elem).mp (by rw [h1]; rfl) a ha
    rw [hb] at h3
    obtain ⟨d, h4, h5⟩ := h3
    cases h4
    omega⟩
  exact ⟨e, by rw [he, c47_failed_export _ _ _ _ he]⟩

/-- an ordinary announcement with 64 communities, which any router can send. -/
def encLong : ElemIn :=
  ⟨{ exElem with communities := some ((List.range 64).map fun k => .plain (.custom 65000 (UInt16.ofNat k))) }, 1, false⟩

/-- its communities take 256 octets, and so the whole dump cannot be exported, whatever else is in it. -/
example (h : List (ElemIn × Bool)) (x : RibEncoder) (o : HashOrder) (hf : RibFed h x)
    (hi : lastFrom h encLong.elem.prefix_.prefix_ encLong.elem.peerIp = some encLong) : ∃ e, x.exportBytes o = (.error e, x) := by
  have hm : (encLong.elem.toAttributes.inner.map fun a => (encodeAttrVal .b32 a.value).toOption.map List.length).any
      (· == some 256) = true := by decide +kernel
  simp only [List.any_map, List.any_eq_true, Function.comp_apply, beq_iff_eq] at hm
  obtain ⟨a, ha, hb⟩ := hm
  cases hc : encodeAttrVal .b32 a.value with
  | error e => rw [hc] at hb; cases hb
  | ok b =>
    rw [hc] at hb
    have hl : b.length = 256 := Option.some.inj hb
    exact c47_long_attribute h x o hf _ _ _ hi a ha b hc (by omega)

example : ∃ h, RibFed h (feed [encA, encLong]).2 ∧ lastFrom h encLong.elem.prefix_.prefix_ encLong.elem.peerIp = some encLong :=
  ⟨_, feed_fed _, by decide +kernel⟩

/-! ### C65 updates files -/

theorem exportUpdates_blocks : ∀ {l : List ElemIn} {b : Bytes}, exportUpdates l = .ok b → Blocks Framed (l.map updateRecord) b
  | [], b, h => by cases h; exact .nil
  | i :: l, b, h => by
    unfold exportUpdates at h
    dsimp only at h
    split at h
    · cases h
    rename_i c hc
    split at h
    · cases h
    rename_i d hd
    cases h
    refine .cons ⟨rfl, ?_⟩ (exportUpdates_blocks hd)
    have : (updateRecord i).message = .bgp4mp (.message i.mpMessage) := by
      unfold updateRecord ElemIn.mpMessage
      cases i.elem.peerIp <;> rfl
    rw [this]
    exact hc

theorem updatesFed_eq {l : List ElemIn} {x : UpdatesEncoder} (h : UpdatesFed l x) : x = l := by
  induction h with
  | new => rfl
  | reset => rfl
  | elem _ ih => rw [ih]; rfl
  | exported _ he ih =>
    unfold UpdatesEncoder.exportBytes at he
    split at he
    · cases he
    · cases he; rfl
  | failed _ he ih =>
    unfold UpdatesEncoder.exportBytes at he
    split at he
    · cases he; exact ih
    · cases he

theorem updateRecord_micro (i : ElemIn) : (updateRecord i).header.micro.isSome ↔ (updateRecord i).header.type = .bgp4mpEt := by
  simp [updateRecord]

/-- C65: what an export returns is one BGP4MP_ET record for every element given since the encoder was last empty, in that
order, and the encoder is empty afterwards. -/
theorem c65_export (l : List ElemIn) (x y : UpdatesEncoder) (b : Bytes) (hf : UpdatesFed l x) (he : x.exportBytes = (.ok b, y)) :
    y = [] ∧ Blocks RecordBytes (l.map updateRecord) b := by
  have hx := updatesFed_eq hf
  subst hx
  unfold UpdatesEncoder.exportBytes at he
  split at he
  · cases he
  rename_i c hc
  cases he
  refine ⟨rfl, blocks_mono (exportUpdates_blocks hc) fun r hr c hc => framed_bytes ?_ hc⟩
  obtain ⟨i, _, rfl⟩ := List.mem_map.mp hr
  exact updateRecord_micro i

theorem message_length {l : AsnLen} {m : BgpMessage} {b : Bytes} (h : encodeBgpMessage l m = .ok b) : b.length ≤ 65535 := by
  unfold encodeBgpMessage at h
  split at h
  · cases h
  rename_i c hc
  unfold checkMax at h
  split at h
  · cases h
  · rename_i n hn
    split at hn
    · cases hn
    · cases hn
      cases h
      simp only [List.length_append, List.length_replicate, length_be16, List.length_cons]
      omega

theorem mpMessage_length {l : AsnLen} {m : MpMessage} {b : Bytes} (h : encodeMpMessage l m = .ok b) : b.length ≤ 65600 := by
  unfold encodeMpMessage at h
  split at h
  · cases h
  rename_i c hc
  cases h
  have := message_length hc
  have h1 : ∀ a, (encAsn l a).length ≤ 4 := by intro a; cases l <;> simp [encAsn, length_be16, length_be32]
  have h2 : ∀ a : Ip, a.octets.length ≤ 16 := by intro a; cases a <;> simp [Ip.octets]
  have := h1 m.peerAsn
  have := h1 m.localAsn
  have := h2 m.peerIp
  have := h2 m.localIp
  simp only [List.length_append, mpHead, length_be16]
  omega

/-- C65: an export fails exactly if the UPDATE of some element cannot be written, because it or one of its attributes is too
long; then the elements are kept. -/
theorem c65_fails_iff (l : List ElemIn) (x : UpdatesEncoder) (hf : UpdatesFed l x) :
    ((∃ e y, x.exportBytes = (.error e, y)) ↔
      ∃ i ∈ l, ¬ ∃ b, encodeBgpMessage .b32 (.update ⟨[], i.elem.toAttributes, []⟩) = .ok b) ∧
    ∀ e y, x.exportBytes = (.error e, y) → y = x := by
  have hx := updatesFed_eq hf
  subst hx
  have key : ∀ l : List ElemIn, (exportUpdates l).isOk = true ↔
      ∀ i ∈ l, ∃ b, encodeBgpMessage .b32 (.update ⟨[], i.elem.toAttributes, []⟩) = .ok b := by
    intro l
    induction l with
    | nil => simp [exportUpdates, Except.isOk, Except.toBool]
    | cons i l ih =>
      simp only [List.mem_cons, forall_eq_or_imp, ← ih, exportUpdates]
      have hm : encodeMrtMessage (.bgp4mp (.message i.mpMessage)) 4 = encodeMpMessage .b32 i.mpMessage := rfl
      cases hb : encodeBgpMessage .b32 (.update ⟨[], i.elem.toAttributes, []⟩) with
      | error e =>
        have : encodeMpMessage .b32 i.mpMessage = .error e := by
          unfold encodeMpMessage
          have : encodeBgpMessage .b32 i.mpMessage.message = .error e := hb
          rw [this]
        simp only [frameMessage, hm, this]
        simp [Except.isOk, Except.toBool]
      | ok c =>
        have hc : ∃ d, encodeMpMessage .b32 i.mpMessage = .ok d := by
          unfold encodeMpMessage
          have : encodeBgpMessage .b32 i.mpMessage.message = .ok c := hb
          rw [this]
          exact ⟨_, rfl⟩
        obtain ⟨d, hd⟩ := hc
        have hl := mpMessage_length hd
        have hlen : (UInt32.ofNat d.length).toNat = d.length := by simp; omega
        simp only [frameMessage, hm, hd, encodeHeader, hlen]
        rw [if_neg (by omega)]
        cases exportUpdates l <;> simp [Except.isOk, Except.toBool]
  constructor
  · have := key x
    unfold UpdatesEncoder.exportBytes
    cases hx : exportUpdates x with
    | error e =>
      rw [hx] at this
      have h2 : ¬ ∀ i ∈ x, ∃ b, encodeBgpMessage .b32 (.update ⟨[], i.elem.toAttributes, []⟩) = .ok b := by
        rw [← this]; simp [Except.isOk, Except.toBool]
      simp only [Classical.not_forall] at h2
      obtain ⟨i, hi, hn⟩ := h2
      exact ⟨fun _ => ⟨i, hi, hn⟩, fun _ => ⟨e, x, rfl⟩⟩
    | ok b =>
      rw [hx] at this
      have h2 := this.mp rfl
      constructor
      · rintro ⟨e, y, h⟩; cases h
      · rintro ⟨i, hi, hn⟩; exact absurd (h2 i hi) hn
  · intro e y he
    unfold UpdatesEncoder.exportBytes at he
    split at he
    · cases he; rfl
    · cases he

theorem updateToElems_inner {u u' : Update} (t : Nat) (ip : Ip) (asn : Asn) (h1 : u'.withdrawn = u.withdrawn)
    (h2 : u'.attributes.inner = u.attributes.inner) (h3 : u'.announced = u.announced) :
    updateToElems u' t ip asn = updateToElems u t ip asn := by
  have hr : relevantAttributes u'.attributes = relevantAttributes u.attributes := by rw [relevant_eq, relevant_eq, h2]
  unfold updateToElems updateIter
  rw [hr, h1, h3]

theorem update_readBack (i : ElemIn) (r' : MrtRecord) (hist : List MrtRecord)
    (h : SameRecord r'.header.length.toNat (updateRecord i) r') : ∃ e, elemsAfter hist r' = [e] ∧ ReadBack i e := by
  obtain ⟨h1, h2, _, _, _, h6⟩ := h
  obtain ⟨hd, msg⟩ := r'
  unfold updateRecord at h6
  cases h6 with
  | @message _ m' hm =>
    obtain ⟨_, m2, _, _, m5, _, m7⟩ := hm
    dsimp only at m2 m5 m7
    have h1 : hd.time = (convertTimestamp i.stamp).1 := h1
    have h2 : hd.micro = some (convertTimestamp i.stamp).2 := h2
    cases hb : m'.message with
    | update u' =>
      rw [hb] at m7
      obtain ⟨k1, k2, k3⟩ := m7
      have hel : elemsAfter hist ⟨hd, .bgp4mp (.message m')⟩ = updateToElems ⟨[], i.elem.toAttributes, []⟩
          ((convertTimestamp i.stamp).1.toNat * 1000000 + (convertTimestamp i.stamp).2.toNat) i.elem.peerIp i.elem.peerAsn := by
        rw [← updateToElems_inner (u := ⟨[], i.elem.toAttributes, []⟩) (u' := u') _ _ _ k1 k2 k3]
        have : ∀ el : Elementor, (el.recordToElems ⟨hd, .bgp4mp (.message m')⟩).1 =
            updateToElems u' hd.micros m'.peerIp m'.peerAsn := by
          intro el
          have h1 : el.recordIter ⟨hd, .bgp4mp (.message m')⟩ = .ok (.bgp4mp (updateIter u' hd.micros m'.peerIp m'.peerAsn)) := by
            simp only [Elementor.recordIter, bgpRecordIter, hb, bgpToElemsIter]
          simp only [Elementor.recordToElems, h1]
          rw [RecordIter.collect_eq, updateToElems, UpdateIter.collect_eq]
          rfl
        unfold elemsAfter
        rw [this, m2, m5]
        unfold Header.micros
        rw [h2, h1]
      rw [hel]
      have hrt := c49_round_trip_partial i.elem
        ((convertTimestamp i.stamp).1.toNat * 1000000 + (convertTimestamp i.stamp).2.toNat) i.elem.peerIp i.elem.peerAsn
      cases ht : i.elem.type with
      | announce =>
        refine ⟨_, hrt.1 ht, rfl, rfl, rfl, rfl, fun _ => ?_, fun h => by rw [ht] at h; cases h⟩
        have hd : ∀ {β : Type} (l : List β), (noneIfEmpty l).getD [] = l := by
          intro β l; cases l <;> rfl
        refine ⟨ht, rfl, rfl, rfl, rfl, rfl, ?_, rfl, rfl, rfl, ?_, ?_, rfl⟩
        · intro k
          show ofKind k ((noneIfEmpty _).getD []) = _
          rw [hd]
          have hf : ∀ xs ys, ofKind k (xs ++ ys) = ofKind k xs ++ ofKind k ys := fun xs ys => List.filter_append ..
          rw [grouped, hf, hf, hf, ofKind_ofKind, ofKind_ofKind, ofKind_ofKind, ofKind_ofKind]
          cases k <;> simp
        · exact hd _
        · exact hd _
      | withdraw =>
        exact ⟨_, hrt.2 ht, rfl, rfl, rfl, rfl, fun h => (by rw [ht] at h; cases h), fun _ => rfl⟩
    | _ => rw [hb] at m7; exact m7.elim

/-- C65: reading an exported file with the element iterator gives the elements back, in their order. What is missing for the
full property: the elements must have no path identifier (it is written, but the subtype does not say so) and an
announcement must have an IPv4 next hop, because the NEXT_HOP attribute is written for IPv6 as well. -/
theorem c65_read_back_partial (l : List ElemIn) (x y : UpdatesEncoder) (b : Bytes) (hf : UpdatesFed l x)
    (he : x.exportBytes = (.ok b, y)) (hok : ∀ i ∈ l, UpdateElemOk i.elem)
    (env : TextEnv) (coreDump : Bool) (pol : Pol) (s : Src) (hs : Delivers s b) :
    ∃ out, Pairwise2 ReadBack l out ∧ ∀ n, (forLoop (elemNext env [] coreDump pol) n (ElemIter.new s)).1 = out.take n ∧
      ((forLoop (elemNext env [] coreDump pol) n (ElemIter.new s)).2.1 = true ↔ out.length < n) := by
  have hx := updatesFed_eq hf
  subst hx
  unfold UpdatesEncoder.exportBytes at he
  split at he
  · cases he
  rename_i c hc
  cases he
  have henc : Encoded (x.map updateRecord) b := by
    refine encoded_of_framed (exportUpdates_blocks hc) ?_ ?_
    · intro r hr
      obtain ⟨i, hi, rfl⟩ := List.mem_map.mp hr
      refine ⟨updateRecord_micro i, ?_⟩
      refine .message (.inr rfl) rfl ⟨?_, ?_, ?_, ?_⟩
      · intro h; cases h
      · intro h; cases h
      · dsimp only
        split <;> simp_all [Ip.isV4]
      · refine ⟨by simp, ?_, by simp⟩
        have hu := hok i hi
        exact elem_attrs_ok _ _ hu.any (fun ht => by obtain ⟨a, ha⟩ := hu.nextHop ht; exact ⟨_, ha, rfl⟩)
    · intro r hr body hb
      obtain ⟨i, hi, rfl⟩ := List.mem_map.mp hr
      have := mpMessage_length (l := .b32) hb
      omega
  obtain ⟨rs', h3, _, h5⟩ := c31_file_partial _ b henc pol coreDump s hs ((toks s.evs).length + b.length + 1) (by omega)
  have hel : ∀ (l : List ElemIn) (rs' hist : List MrtRecord), Pairwise2 (fun r r' => SameRecord r'.header.length.toNat r r') (l.map updateRecord) rs' →
      Pairwise2 ReadBack l (elemsFrom hist rs') := by
    intro l
    induction l with
    | nil => intro rs' hist h; cases h; exact .nil
    | cons i l ih =>
      intro rs' hist h
      cases h with
      | @cons _ r' _ rs' h1 h2 =>
        obtain ⟨e, e1, e2⟩ := update_readBack i r' hist h1
        show Pairwise2 ReadBack _ (elemsAfter hist r' ++ elemsFrom (hist ++ [r']) rs')
        rw [e1]
        exact .cons e2 (ih rs' _ h2)
  refine ⟨elemsFrom [] rs', hel x rs' [] h3, fun n => ?_⟩
  have := c37_elems env [] coreDump pol pol s ((toks s.evs).length + b.length + 1) (by omega) n
  dsimp only at this
  rw [h5] at this
  have hid : ∀ l : List BgpElem, l.filter (fun e => e.matchFilters env []) = l := fun l => List.filter_eq_self.2 fun e _ => rfl
  rw [hid] at this
  exact this

/-- an announcement and a withdrawal. -/
def encW : ElemIn := ⟨{ exElem with type := .withdraw, prefix_ := exPrefix 2 }, 1700000004, false⟩

theorem encW_ok : ∀ i ∈ [encB, encW], UpdateElemOk i.elem := by
  intro i hi
  simp only [List.mem_cons, List.not_mem_nil, or_false] at hi
  rcases hi with rfl | rfl
  · exact ⟨exElem_ok (fun e => { e with peerIp := .v4 #v[10, 0, 0, 2], peerAsn := 4200000000, med := some 5 }) (.inl rfl) rfl rfl rfl,
      fun _ => ⟨_, rfl⟩⟩
  · exact ⟨exElem_ok (fun e => { e with type := .withdraw, prefix_ := exPrefix 2 }) (.inr rfl) rfl rfl rfl, fun h => by cases h⟩

/-- they are written into 213 octets, from which they are read back. -/
example : ∃ b y, UpdatesFed [encB, encW] [encB, encW] ∧ UpdatesEncoder.exportBytes [encB, encW] = (.ok b, y) ∧ b.length = 213 ∧
    ∀ (env : TextEnv) (pol : Pol) (s : Src), Delivers s b → ∃ e1 e2,
      (forLoop (elemNext env [] false pol) 3 (ElemIter.new s)).1 = [e1, e2] ∧ e1.type = .announce ∧ e2.type = .withdraw ∧
      e1.time = 1700000001000000 := by
  have hfed : UpdatesFed [encB, encW] [encB, encW] := .elem (.elem .new)
  have h : (UpdatesEncoder.exportBytes [encB, encW]).1.toOption.map List.length = some 213 := by decide +kernel
  generalize hz : UpdatesEncoder.exportBytes [encB, encW] = z at h
  obtain ⟨z1, z2⟩ := z
  cases z1 with
  | error e => cases h
  | ok b =>
    refine ⟨b, z2, hfed, rfl, Option.some.inj h, fun env pol s hs => ?_⟩
    obtain ⟨out, g1, g2⟩ := c65_read_back_partial [encB, encW] _ z2 b hfed hz encW_ok env false pol s hs
    cases g1 with
    | @cons _ e1 _ _ a1 g1 =>
      cases g1 with
      | @cons _ e2 _ _ a2 g1 =>
        cases g1
        refine ⟨e1, e2, (g2 3).1, (a1.2.2.2.2.1 rfl).type, by rw [a2.2.2.2.2.2 rfl]; rfl, ?_⟩
        rw [a1.1]
        decide +kernel

/-- C65: a single element with an attribute of more than 255 octets makes every export fail. -/
theorem c65_long_attribute (l : List ElemIn) (x : UpdatesEncoder) (hf : UpdatesFed l x) (i : ElemIn) (hi : i ∈ l) (a : Attribute)
    (ha : a ∈ i.elem.toAttributes.inner) (b : Bytes) (hb : encodeAttrVal .b32 a.value = .ok b) (hl : 255 < b.length) :
    ∃ e, x.exportBytes = (.error e, x) := by
  have hne : ∃ e, encodeAttributes .b32 i.elem.toAttributes.inner = .error e := by
    cases hc : encodeAttributes .b32 i.elem.toAttributes.inner with
    | error e => exact ⟨e, rfl⟩
    | ok c =>
      have h3 := (elem_encodable i.elem).mp (by rw [hc]; rfl) a ha
      rw [hb] at h3
      obtain ⟨d, h4, h5⟩ := h3
      cases h4
      omega
  obtain ⟨e0, hne⟩ := hne
  obtain ⟨e, y, he⟩ := (c65_fails_iff l x hf).1.mpr ⟨i, hi, by
    rintro ⟨c, h1⟩
    unfold encodeBgpMessage at h1
    simp only [encodeBody, encodeUpdate] at h1
    rw [hne] at h1
    cases h1⟩
  exact ⟨e, by rw [he, (c65_fails_iff l x hf).2 e y he]⟩

example : ∃ e, UpdatesEncoder.exportBytes [encB, encLong] = (.error e, [encB, encLong]) := by
  have hm : (encLong.elem.toAttributes.inner.map fun a => (encodeAttrVal .b32 a.value).toOption.map List.length).any
      (· == some 256) = true := by decide +kernel
  simp only [List.any_map, List.any_eq_true, Function.comp_apply, beq_iff_eq] at hm
  obtain ⟨a, ha, hb⟩ := hm
  cases hc : encodeAttrVal .b32 a.value with
  | error e => rw [hc] at hb; cases hb
  | ok b =>
    rw [hc] at hb
    have hl : b.length = 256 := Option.some.inj hb
    exact c65_long_attribute [encB, encLong] [encB, encLong] (.elem (.elem .new)) encLong (by simp) a ha b hc (by omega)

/-- C65 fails here: the next hop 2001:db8::1 of an IPv6 announcement is read back as 32.1.13.184, its first four octets. -/
theorem c65_ipv6_next_hop : ∃ (i : ElemIn) (b : Bytes) (m : MrtMessage) (e : BgpElem),
    i.elem.nextHop = some (.v6 #v[0x20, 1, 0xd, 0xb8, 0, 0, 0, 0, 0, 0, 0, 0, 0, 0, 0, 1]) ∧
    encodeMrtMessage (updateRecord i).message (updateRecord i).header.subtype = .ok b ∧ parseMrtBody .bgp4mpEt 4 b = .ok m ∧
    elemsAfter [] ⟨(updateRecord i).header, m⟩ = [e] ∧ e.prefix_ = i.elem.prefix_ ∧ e.nextHop = some (.v4 #v[32, 1, 13, 184]) := by
  let i : ElemIn := ⟨{ exElem with
    prefix_ := ⟨⟨.v6 #v[0x20, 1, 0xd, 0xb8, 0, 0, 0, 0, 0, 0, 0, 0, 0, 0, 0, 0], 32⟩, none⟩,
    nextHop := some (.v6 #v[0x20, 1, 0xd, 0xb8, 0, 0, 0, 0, 0, 0, 0, 0, 0, 0, 0, 1]) }, 5, false⟩
  have h : (match encodeMrtMessage (updateRecord i).message (updateRecord i).header.subtype with
      | .error _ => none
      | .ok b => match parseMrtBody .bgp4mpEt 4 b with
        | .error _ => none
        | .ok m => match elemsAfter [] ⟨(updateRecord i).header, m⟩ with
          | [e] => some (e.prefix_, e.nextHop)
          | _ => none) = some (i.elem.prefix_, some (.v4 #v[32, 1, 13, 184])) := by decide +kernel
  split at h
  · cases h
  rename_i b hb
  split at h
  · cases h
  rename_i m hm
  split at h
  · rename_i e he
    simp only [Option.some.injEq, Prod.mk.injEq] at h
    exact ⟨i, b, m, e, rfl, hb, hm, he, h.1, h.2⟩
  · cases h

end Verif.Props
