import Verif.Lemmas.MrtBody
/-
Lemmas about peer tables built by `add_peer`, GEO tables, RIB records.
-/
namespace Verif
open Spec

structure PeersInv (h : List (Peer × UInt16)) (t : PeerIndexTable) : Prop where
  collector : t.collector = v4zero
  viewName : t.viewName = []
  len : t.ipId.length = t.idPeer.length
  max : t.ipId.length ≤ 65535
  nodup : (t.idPeer.map Prod.fst).Nodup
  dense : ∀ id, (t.peer id).isSome ↔ id.toNat < t.idPeer.length
  fwd : ∀ ip id, t.idOf ip = some id → ∃ p, t.peer id = some p ∧ p.ip = ip
  bwd : ∀ id p, t.peer id = some p → t.idOf p.ip = some id
  hist : ∀ p id, (p, id) ∈ h → t.idOf p.ip = some id
  first : ∀ id q, t.peer id = some q → (q, id) ∈ h

theorem amInsert_length [DecidableEq κ] (k : κ) (v : ν) (m : List (κ × ν)) (h : amGet k m = none) :
    (amInsert k v m).length = m.length + 1 := by
  have := congrArg List.length (amInsert_keys k v m)
  rw [if_neg (by rw [← amGet_isSome, h]; simp)] at this
  simpa using this

theorem addPeer_inv {h : List (Peer × UInt16)} {t t' : PeerIndexTable} {p : Peer} {id : UInt16} (hi : PeersInv h t)
    (ha : t.addPeer p = .ok (id, t')) :
    PeersInv ((p, id) :: h) t' ∧ (∀ i q, t.peer i = some q → t'.peer i = some q) ∧
      (t.idOf p.ip = none → t'.peer id = some p ∧ id.toNat = t.idPeer.length ∧ t'.idPeer.length = t.idPeer.length + 1) ∧
      (∀ i, t.idOf p.ip = some i → t' = t ∧ id = i) := by
  unfold PeerIndexTable.addPeer at ha
  cases hg : amGet p.ip t.ipId with
  | some i =>
    rw [hg] at ha
    cases ha
    refine ⟨{ hi with hist := ?_, first := ?_ }, fun _ _ h => h, ?_, ?_⟩
    · intro q j hq
      rcases List.mem_cons.mp hq with hq | hq
      · cases hq; exact hg
      · exact hi.hist q j hq
    · intro j q hq; exact List.mem_cons_of_mem _ (hi.first j q hq)
    · intro hn; rw [PeerIndexTable.idOf, hg] at hn; cases hn
    · intro j hj; rw [PeerIndexTable.idOf, hg] at hj; cases hj; exact ⟨rfl, rfl⟩
  | none =>
    rw [hg] at ha
    simp only [checkMax] at ha
    split at ha
    · cases ha
    rename_i u hu
    split at hu
    · cases hu
    rename_i hmax
    cases ha
    have hn : (UInt16.ofNat t.ipId.length).toNat = t.ipId.length := toNat_u16len (by omega)
    have hfresh : amGet (UInt16.ofNat t.ipId.length) t.idPeer = none := by
      have := mt (hi.dense (UInt16.ofNat t.ipId.length)).mp (by rw [hn, hi.len]; omega)
      simpa [PeerIndexTable.peer] using this
    have hlen1 := amInsert_length (UInt16.ofNat t.ipId.length) p t.idPeer hfresh
    have hlen2 := amInsert_length p.ip (UInt16.ofNat t.ipId.length) t.ipId hg
    refine ⟨⟨hi.collector, hi.viewName, ?_, ?_, amInsert_nodup _ _ _ hi.nodup, ?_, ?_, ?_, ?_, ?_⟩, ?_, ?_, ?_⟩
    · simp only; rw [hlen1, hlen2, hi.len]
    · simp only; rw [hlen2]; omega
    · intro j
      simp only [PeerIndexTable.peer, hlen1, amGet_amInsert]
      by_cases hj : j = UInt16.ofNat t.ipId.length
      · subst hj
        rw [if_pos rfl, hn, hi.len]
        simp
      · rw [if_neg hj]
        have := hi.dense j
        simp only [PeerIndexTable.peer] at this
        rw [this]
        constructor
        · omega
        · intro h
          have : j.toNat ≠ t.ipId.length := by
            intro e; apply hj; apply UInt16.toNat_inj.mp; rw [hn, e]
          rw [hi.len] at this
          omega
    · intro ip j hj
      simp only [PeerIndexTable.idOf, amGet_amInsert] at hj
      simp only [PeerIndexTable.peer, amGet_amInsert]
      by_cases hip : ip = p.ip
      · rw [if_pos hip] at hj
        cases hj
        exact ⟨p, by simp, hip.symm⟩
      · rw [if_neg hip] at hj
        obtain ⟨q, hq, hqi⟩ := hi.fwd ip j hj
        refine ⟨q, ?_, hqi⟩
        have : j ≠ UInt16.ofNat t.ipId.length := by
          intro e; subst e
          rw [PeerIndexTable.peer, hfresh] at hq; cases hq
        rw [if_neg this]; exact hq
    · intro j q hq
      simp only [PeerIndexTable.peer, amGet_amInsert] at hq
      simp only [PeerIndexTable.idOf, amGet_amInsert]
      by_cases hj : j = UInt16.ofNat t.ipId.length
      · rw [if_pos hj] at hq
        cases hq
        rw [if_pos rfl, hj]
      · rw [if_neg hj] at hq
        have := hi.bwd j q hq
        rw [if_neg]
        · exact this
        · intro e; rw [e, PeerIndexTable.idOf, hg] at this; cases this
    · intro q j hq
      simp only [PeerIndexTable.idOf, amGet_amInsert]
      rcases List.mem_cons.mp hq with hq | hq
      · cases hq; rw [if_pos rfl]
      · have := hi.hist q j hq
        rw [if_neg]
        · exact this
        · intro e; rw [e, PeerIndexTable.idOf, hg] at this; cases this
    · intro j q hq
      simp only [PeerIndexTable.peer, amGet_amInsert] at hq
      by_cases hj : j = UInt16.ofNat t.ipId.length
      · rw [if_pos hj] at hq
        cases hq; rw [hj]; exact List.mem_cons_self
      · rw [if_neg hj] at hq
        exact List.mem_cons_of_mem _ (hi.first j q hq)
    · intro j q hq
      simp only [PeerIndexTable.peer, amGet_amInsert]
      have : j ≠ UInt16.ofNat t.ipId.length := by
        intro e; subst e
        rw [PeerIndexTable.peer, hfresh] at hq; cases hq
      rw [if_neg this]; exact hq
    · intro _
      refine ⟨?_, by rw [hn, hi.len], hlen1⟩
      simp [PeerIndexTable.peer, amGet_amInsert]
    · intro j hj; rw [PeerIndexTable.idOf, hg] at hj; cases hj

theorem AddHistory.inv {h : List (Peer × UInt16)} {t : PeerIndexTable} (hh : AddHistory h t) : PeersInv h t := by
  induction hh with
  | empty =>
    refine ⟨rfl, rfl, rfl, by decide, by decide, ?_, ?_, ?_, ?_, ?_⟩
    · intro id; simp [PeerIndexTable.peer, PeerIndexTable.empty, amGet]
    · intro ip id h; cases h
    · intro id p h; cases h
    · intro p id h; cases h
    · intro id p h; cases h
  | add _ ha ih => exact (addPeer_inv ih ha).1

theorem addPeer_error {t : PeerIndexTable} {p : Peer} {e : EncErr} (h : t.addPeer p = .error e) :
    t.idOf p.ip = none ∧ 65535 ≤ t.ipId.length := by
  unfold PeerIndexTable.addPeer at h
  cases hg : amGet p.ip t.ipId with
  | some i => rw [hg] at h; cases h
  | none =>
    refine ⟨hg, ?_⟩
    rw [hg] at h
    simp only [checkMax] at h
    split at h
    · rename_i hu
      split at hu
      · omega
      · cases hu
    · cases h

/-! ### GEO_PEER_TABLE -/

theorem exact_rdV4 : Exact rdV4 (fun a c => c = a.toList) := Exact.rdVec 4
theorem exact_rdV6 : Exact rdV6 (fun a c => c = a.toList) := Exact.rdVec 16

theorem exact_rdIp (v6 : Bool) :
    Exact (if v6 then do let a ← rdV6; pure (Ip.v6 a) else do let a ← rdV4; pure (Ip.v4 a) : Rd Ip)
      (fun a c => a.isV4 = !v6 ∧ c = a.octets) := by
  cases v6 with
  | true =>
    refine Exact.congr (p := do let a ← rdV6; pure (Ip.v6 a)) (.bind exact_rdV6 fun a => .pure _) ?_
    intro a c
    constructor
    · rintro ⟨o, _, _, rfl, rfl, rfl, rfl⟩; exact ⟨rfl, by simp [Ip.octets]⟩
    · rintro ⟨h, rfl⟩
      cases a with
      | v4 o => cases h
      | v6 o => exact ⟨o, _, [], (List.append_nil _).symm, rfl, rfl, rfl⟩
  | false =>
    refine Exact.congr (p := do let a ← rdV4; pure (Ip.v4 a)) (.bind exact_rdV4 fun a => .pure _) ?_
    intro a c
    constructor
    · rintro ⟨o, _, _, rfl, rfl, rfl, rfl⟩; exact ⟨rfl, by simp [Ip.octets]⟩
    · rintro ⟨h, rfl⟩
      cases a with
      | v6 o => cases h
      | v4 o => exact ⟨o, _, [], (List.append_nil _).symm, rfl, rfl, rfl⟩

theorem exact_rdGeoPeer : Exact rdGeoPeer GeoPeerBytes := by
  refine Exact.congr (p := rdGeoPeer) (.bind .rdU8 fun t => .bind exact_rdV4 fun id => .bind (exact_rdIp _) fun ip =>
    .bind (.rdAsn _) fun asn => .bind .rdU32 fun lat => .bind .rdU32 fun long => .pure _) ?_
  intro g c
  constructor
  · rintro ⟨t, _, _, rfl, rfl, id, _, _, rfl, rfl, ip, _, _, rfl, ⟨ha, rfl⟩, asn, _, _, rfl, ⟨hf, rfl⟩, lat, _, _, rfl, rfl,
      long, _, _, rfl, rfl, rfl, rfl⟩
    refine ⟨_, ⟨?_, ?_, rfl⟩, ?_⟩
    · dsimp only; rw [← peerIsV6_bit, ha]; simp
    · intro h
      dsimp only at h
      rw [← peerIsAs4_bit] at h
      apply hf
      simp_all
    · dsimp only
      rw [← peerIsAs4_bit, be32_n32, be32_n32]
      cases h : peerIsAs4 t <;> simp [asnBytes]
  · rintro ⟨pb, ⟨h1, h2, rfl⟩, rfl⟩
    simp only [List.append_assoc]
    refine ⟨g.peer.peerType, _, _, rfl, rfl, g.peer.bgpId, _, _, rfl, rfl, g.peer.ip, _, _, rfl, ⟨?_, rfl⟩,
      g.peer.asn, _, _, rfl, ⟨?_, ?_⟩, g.lat, _, _, rfl, (be32_n32 _).symm, g.long, _, [], (List.append_nil _).symm,
      (be32_n32 _).symm, rfl, rfl⟩
    · rw [peerIsV6_bit, h1]; simp
    · intro h
      apply h2
      rw [← peerIsAs4_bit]
      cases h' : peerIsAs4 g.peer.peerType <;> simp_all
    · rw [← peerIsAs4_bit]
      cases h : peerIsAs4 g.peer.peerType <;> simp [asnBytes]

theorem exact_parseGeoPeerTable :
    Exact parseGeoPeerTable (fun t c => ∃ name, GeoTableBytes t name c ∧ t.viewName = latin1 name) := by
  refine Exact.congr (p := parseGeoPeerTable) (.bind exact_rdV4 fun c => .bind .rdU16 fun n => .bind (.rdN _) fun nm =>
    .bind .rdU32 fun lat => .bind .rdU32 fun long => .bind .rdU16 fun k => .bind (exact_rdGeoPeer.rdTimes _) fun ps =>
    .pure _) ?_
  intro t c
  constructor
  · rintro ⟨col, _, _, rfl, rfl, n, _, _, rfl, rfl, _, name, _, rfl, ⟨rfl, hn⟩, lat, _, _, rfl, rfl, long, _, _, rfl, rfl,
      k, _, _, rfl, rfl, ps, pb, _, rfl, ⟨hk, hb⟩, rfl, rfl⟩
    refine ⟨name, ⟨by rw [hn]; exact n.toNat_lt, by simp only; rw [hk]; exact k.toNat_lt, pb, hb, ?_⟩, rfl⟩
    simp only
    rw [hn, hk, be16_n16, be16_n16, be32_n32, be32_n32]; simp
  · rintro ⟨name, ⟨hn, hk, pb, hb, rfl⟩, hv⟩
    simp only [List.append_assoc]
    refine ⟨t.collector, _, _, rfl, rfl, UInt16.ofNat name.length, _, _, rfl, (n16_ofNat hn).symm, name, _, _, rfl,
      ⟨rfl, (toNat_u16len (by omega)).symm⟩, t.lat, _, _, rfl, (be32_n32 _).symm, t.long, _, _, rfl, (be32_n32 _).symm,
      UInt16.ofNat t.peers.length, _, _, rfl, (n16_ofNat hk).symm, t.peers, pb, [],
      by simp, ⟨(toNat_u16len (by omega)).symm, hb⟩, ?_, rfl⟩
    rw [← hv]

theorem latin1_ascii {s : Bytes} (h : Ascii s) : latin1 s = s := by
  induction s with
  | nil => rfl
  | cons b s ih =>
    have := h b (by simp)
    unfold latin1 at ih ⊢
    rw [List.flatMap_cons, ih fun c hc => h c (by simp [hc]), if_pos (by omega)]
    rfl

theorem encodeGeoPeerTable_layout {t : GeoPeerTable} {b : Bytes} (ht : ∀ g ∈ t.peers, PeerOk g.peer)
    (h : encodeGeoPeerTable t = .ok b) : GeoTableBytes t t.viewName b := by
  unfold encodeGeoPeerTable at h
  cases h1 : u16Len t.viewName with
  | error e => rw [h1] at h; cases h
  | ok name =>
    rw [h1] at h
    dsimp only at h
    obtain ⟨hname, rfl⟩ := u16Len_ok.mp h1
    simp only [checkMax] at h
    split at h
    · cases h
    rename_i n hn
    split at hn
    · cases hn
    rename_i hle
    cases hn
    injection h with h
    refine ⟨by omega, by omega, t.peers.flatMap encGeoPeer, ?_, ?_⟩
    · apply Blocks_flatMap
      intro g hg
      exact ⟨encPeer g.peer, encPeer_bytes (ht g hg), by simp [encGeoPeer, be32_n32]⟩
    · rw [← h, n16_ofNat (by omega), n16_ofNat (by omega), be32_n32, be32_n32]; simp

/-! ### RIB records -/

theorem exact_pathId (ap : Bool) :
    Exact (if ap then do let i ← rdU32; pure (some i) else pure none : Rd (Option UInt32)) (PathIdBytes ap) := by
  cases ap with
  | true =>
    refine Exact.congr (p := do let i ← rdU32; pure (some i)) (.bind .rdU32 fun i => .pure _) ?_
    intro a c
    constructor
    · rintro ⟨i, _, _, rfl, rfl, rfl, rfl⟩; exact ⟨rfl, by simp [be32_n32]⟩
    · intro h
      cases a with
      | none => cases h.1
      | some i => exact ⟨i, _, [], (List.append_nil _).symm, by rw [h.2, be32_n32], rfl, rfl⟩
  | false =>
    refine Exact.congr (p := pure none) (.pure _) ?_
    intro a c
    cases a with
    | none => simp [PathIdBytes]
    | some i => simp [PathIdBytes]

theorem exact_rdRibEntry (ap : Bool) (afi : Afi) (safi : Safi) (p : NetworkPrefix) :
    Exact (rdRibEntry ap afi safi p) (RibEntryBytes ap afi safi p) := by
  refine Exact.guard (Exact.congr (.bind .rdU16 fun peer => .bind .rdU32 fun time => .bind (exact_pathId ap) fun pid =>
    .bind .rdU16 fun len => .needSplit _ fun d => .bind (.lift _) fun as => .pure _) ?_) ?_
  · intro e c
    constructor
    · rintro ⟨peer, _, _, rfl, rfl, time, _, _, rfl, rfl, pid, pb, _, rfl, hpid, len, _, _, rfl, rfl, ab, _, rfl, hl,
        as, _, _, rfl, ⟨has, rfl⟩, rfl, rfl⟩
      refine ⟨pb, ab, as, hpid, by rw [hl]; exact len.toNat_lt, ?_, has, rfl⟩
      simp only
      rw [hl, be16_n16, be16_n16, be32_n32]; simp
    · rintro ⟨pb, ab, as, hpid, hl, rfl, has, he⟩
      simp only [List.append_assoc]
      refine ⟨e.peerIndex, _, _, rfl, (be16_n16 _).symm, e.time, _, _, rfl, (be32_n32 _).symm, e.pathId, pb, _, rfl, hpid,
        UInt16.ofNat ab.length, _, _, rfl, (n16_ofNat hl).symm, ab, [], by simp, (toNat_u16len (by omega)).symm,
        as, [], [], rfl, ⟨has, rfl⟩, ?_, rfl⟩
      rw [← he]
  · rintro e c ⟨pb, ab, as, _, _, rfl, _⟩
    simp [n16, n32]; omega

theorem noPanic_rdRibEntry (ap : Bool) (afi : Afi) (safi : Safi) (p : NetworkPrefix) :
    NoPanic (rdRibEntry ap afi safi p) := by
  refine .bind .remaining fun rem => .ite (fun _ => .fail (by decide)) fun _ => .bind .rdU16 fun _ => .bind .rdU32 fun _ =>
    .bind (.ite (fun _ => .bind .rdU32 fun _ => .pure _) fun _ => .pure _) fun _ => .bind .rdU16 fun _ =>
    .needSplit _ fun d => .bind (.lift (parseAttributes_noPanic _ d)) fun _ => .pure _

theorem ribLoop_error {p : Rd RibEntry} {s : Bytes} {e : Err} (h : p s = .error e) (he : e ≠ .panic) (n : Nat) :
    ribLoop p (n + 1) s = .ok [] := by
  simp only [ribLoop, h]

theorem ribLoop_iff {p : Rd RibEntry} {R : RibEntry → Bytes → Prop} (h : Exact p R) (hp : NoPanic p) :
    ∀ (n : Nat) (s : Bytes) (es : List RibEntry), ribLoop p n s = .ok es ↔ ∃ body tail, s = body ++ tail ∧ Blocks R es body ∧
      (es.length = n ∨ (es.length < n ∧ ∀ e c t, tail = c ++ t → ¬ R e c)) := by
  intro n
  induction n with
  | zero =>
    intro s es
    simp only [ribLoop]
    constructor
    · intro h; cases h; exact ⟨[], s, rfl, .nil, .inl rfl⟩
    · rintro ⟨body, tail, rfl, hb, h | ⟨h, _⟩⟩
      · have : es = [] := List.length_eq_zero_iff.mp h
        subst this; rfl
      · omega
  | succ n ih =>
    intro s es
    cases hps : p s with
    | error e =>
      have hno : ∀ e c t, s = c ++ t → ¬ R e c := by
        intro e' c t hs hr
        have := (h s e' t).mpr ⟨c, hs, hr⟩
        rw [hps] at this; cases this
      have hne : e ≠ .panic := by
        intro he; subst he; exact hp s hps
      rw [ribLoop_error hps hne]
      constructor
      · intro h; cases h
        exact ⟨[], s, rfl, .nil, .inr ⟨by simp, hno⟩⟩
      · rintro ⟨body, tail, rfl, hb, _⟩
        cases hb with
        | nil => rfl
        | cons hr hb => exact absurd hr (hno _ _ _ (by rw [List.append_assoc]))
    | ok v =>
      obtain ⟨e, r⟩ := v
      simp only [ribLoop, hps]
      obtain ⟨c, rfl, hr⟩ := (h _ _ _).mp hps
      constructor
      · intro h'
        cases hl : ribLoop p n r with
        | error x => rw [hl] at h'; cases h'
        | ok es' =>
          rw [hl] at h'
          cases h'
          obtain ⟨body, tail, rfl, hb, hc⟩ := (ih r es').mp hl
          refine ⟨c ++ body, tail, by simp, .cons hr hb, ?_⟩
          rcases hc with hc | ⟨hc, hno⟩
          · exact .inl (by simp [hc])
          · exact .inr ⟨by simp; omega, hno⟩
      · rintro ⟨body, tail, hs, hb, hc⟩
        cases hb with
        | nil =>
          rcases hc with hc | ⟨_, hno⟩
          · simp at hc
          · exact absurd hr (hno e c r (by rw [hs]; rfl))
        | cons hr' hb =>
          rename_i e' es' c' body'
          have h2 := (h (c ++ r) e' (body' ++ tail)).mpr ⟨c', by rw [hs]; simp, hr'⟩
          rw [hps] at h2
          cases h2
          rw [(ih _ es').mpr ⟨body', tail, rfl, hb, ?_⟩]
          simpa using hc

theorem ribLoop_noPanic {p : Rd RibEntry} (hp : NoPanic p) : ∀ (n : Nat) (s : Bytes), ribLoop p n s ≠ .error .panic := by
  intro n
  induction n with
  | zero => intro s h; cases h
  | succ n ih =>
    intro s h
    cases hps : p s with
    | error e =>
      by_cases he : e = .panic
      · subst he; exact hp s hps
      · rw [ribLoop_error hps he] at h; cases h
    | ok v =>
      simp only [ribLoop, hps] at h
      cases hl : ribLoop p n v.2 with
      | error x => rw [hl] at h; cases h; exact ih _ hl
      | ok es => rw [hl] at h; cases h

end Verif
