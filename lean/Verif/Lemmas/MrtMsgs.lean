import Verif.Lemmas.MrtPeers
import Verif.Props.Bgp
/-
Lemmas about RIB, TABLE_DUMP, BGP4MP and type 5 messages.
-/
namespace Verif
open Spec Props

/-! ### RIB records -/

theorem ribFamily_family (t : V2Type) (n : Nat) (afi : Afi) (safi : Safi) (ap : Bool)
    (h : ribFamily t = some (n, afi, safi, ap)) :
    t.family = some (afi, safi) ∧ t.addPath = ap ∧ V2Type.ofU16? (UInt16.ofNat n) = some t := by
  cases t <;> cases h <;> decide

theorem family_ribFamily (t : V2Type) (afi : Afi) (safi : Safi) (h : t.family = some (afi, safi)) :
    ∃ n, ribFamily t = some (n, afi, safi, t.addPath) := by
  cases t <;> cases h <;> exact ⟨_, rfl⟩

theorem parseRibAfi_iff (t : V2Type) (s : Bytes) (r : RibAfi) : parseRibAfi t s = .ok r ↔ RibBytes t r s := by
  unfold parseRibAfi
  cases hf : t.family with
  | none =>
    constructor
    · intro h; cases h
    · rintro ⟨n, afi, safi, ap, pb, body, tail, k, h, _⟩
      have := (ribFamily_family _ _ _ _ _ h).1
      rw [hf] at this; cases this
  | some v =>
    obtain ⟨afi, safi⟩ := v
    dsimp only
    obtain ⟨n, hn⟩ := family_ribFamily t afi safi hf
    unfold Rd.runOn
    constructor
    · intro h
      split at h
      case h_2 => cases h
      rename_i a rest hrd
      cases h
      rw [Rd.bind_eq_ok] at hrd; obtain ⟨seq, t1, h1, hrd⟩ := hrd
      rw [Rd.bind_eq_ok] at hrd; obtain ⟨p, t2, h2, hrd⟩ := hrd
      rw [Rd.bind_eq_ok] at hrd; obtain ⟨k, t3, h3, hrd⟩ := hrd
      rw [Rd.bind_ok (Rd.peek_apply _)] at hrd
      rw [Rd.bind_eq_ok] at hrd; obtain ⟨es, t4, h4, hrd⟩ := hrd
      cases hrd
      obtain ⟨pb, rfl, hp, hpb⟩ := (Exact.prefix_ afi _ _ _).mp h2
      cases hl : ribLoop (rdRibEntry t.addPath afi safi p) k.toNat t3 with
      | error e => rw [hl] at h4; cases h4
      | ok es' =>
        rw [hl] at h4; cases h4
        obtain ⟨body, tail, rfl, hb, hc⟩ :=
          (ribLoop_iff (exact_rdRibEntry _ _ _ _) (noPanic_rdRibEntry _ _ _ _) _ _ _).mp hl
        refine ⟨n, afi, safi, t.addPath, pb, body, tail, k.toNat, hn, rfl, hp, hpb, k.toNat_lt, ?_, hb, hc⟩
        rw [rdU32_ok h1, rdU16_ok h3, be16_n16, be32_n32]; simp
    · rintro ⟨n', afi', safi', ap, pb, body, tail, k, hn', rfl, hp, hpb, hk, rfl, hb, hc⟩
      rw [hn] at hn'
      cases hn'
      have hpre := (Exact.prefix_ afi (pb ++ (n16 k ++ (body ++ tail))) r.prefix_ (n16 k ++ (body ++ tail))).mpr
        ⟨pb, rfl, hp, hpb⟩
      have hseq : rdU32 (n32 r.seq.toNat ++ (pb ++ (n16 k ++ (body ++ tail)))) =
          .ok (r.seq, pb ++ (n16 k ++ (body ++ tail))) := by
        rw [← be32_n32]; exact rdU32_be32 _ _
      have hloop := (ribLoop_iff (exact_rdRibEntry r.ribType.addPath afi safi r.prefix_)
        (noPanic_rdRibEntry _ _ _ _) k (body ++ tail) r.entries).mpr ⟨body, tail, rfl, hb, hc⟩
      simp only [List.append_assoc]
      rw [Rd.bind_ok hseq, Rd.bind_ok hpre, Rd.bind_ok (rdU16_n16 hk _), Rd.bind_ok (Rd.peek_apply _),
        toNat_u16len (by omega), hloop]
      rfl

theorem parseRibAfi_noPanic (t : V2Type) (s : Bytes) : parseRibAfi t s ≠ .error .panic := by
  unfold parseRibAfi
  cases t.family with
  | none => simp
  | some v =>
    obtain ⟨afi, safi⟩ := v
    exact NoPanic.runOn (.bind .rdU32 fun _ => .bind (tryParsePrefix_noPanic _ _) fun _ => .bind .rdU16 fun _ =>
      .bind .peek fun _ => .bind (.lift (ribLoop_noPanic (noPanic_rdRibEntry _ _ _ _) _ _)) fun _ => .pure _) s

theorem encRibEntry_bytes {ap : Bool} {afi : Afi} {safi : Safi} {p : NetworkPrefix} {e : RibEntry} {b : Bytes}
    (he : RibEntryOk ap afi safi p e) (h : encRibEntry ap e = .ok b) :
    ∃ e', RibEntryBytes ap afi safi p e' b ∧ SameEntry e e' := by
  unfold encRibEntry at h
  cases h1 : encodeAttributes .b32 e.attributes.inner with
  | error x => rw [h1] at h; cases h
  | ok ab =>
    rw [h1] at h
    dsimp only at h
    cases h2 : u16Len ab with
    | error x => rw [h2] at h; cases h
    | ok a =>
      rw [h2] at h
      injection h with h
      obtain ⟨hl, rfl⟩ := u16Len_ok.mp h2
      obtain ⟨as, h3, h4⟩ := c11_attributes_roundtrip_partial (ribCfg ap afi safi p) _ ab he.attributes h1
      have hpath := he.path
      refine ⟨{ e with attributes := as.checkMandatory true (afi == .ipv4) },
        ⟨if ap then encPathId e.pathId else [], ab, as, ?_, by omega, ?_, h3, rfl⟩, rfl, rfl, rfl, h4⟩
      · simp only
        cases hp : e.pathId with
        | none => rw [hp] at hpath; cases hpath; exact ⟨rfl, rfl⟩
        | some i => rw [hp] at hpath; cases hpath; exact ⟨rfl, by simp [encPathId, be32_n32]⟩
      · rw [← h, be16_n16, be32_n32, n16_ofNat (by omega)]; simp

theorem encRibEntries_bytes {ap : Bool} {afi : Afi} {safi : Safi} {p : NetworkPrefix} :
    ∀ (es : List RibEntry) (b : Bytes), (∀ e ∈ es, RibEntryOk ap afi safi p e) → encAll (encRibEntry ap) es = .ok b →
    ∃ es', Blocks (RibEntryBytes ap afi safi p) es' b ∧ Pairwise2 SameEntry es es' := by
  intro es
  induction es with
  | nil => intro b _ h; cases h; exact ⟨[], .nil, .nil⟩
  | cons e es ih =>
    intro b hes h
    obtain ⟨x, y, h1, h2, rfl⟩ := encAll_cons_ok.mp h
    obtain ⟨es', h3, h4⟩ := ih y (fun e he => hes e (by simp [he])) h2
    obtain ⟨e', h5, h6⟩ := encRibEntry_bytes (hes e (by simp)) h1
    exact ⟨e' :: es', .cons h5 h3, .cons h6 h4⟩

theorem Pairwise2_length {R : α → β → Prop} {as : List α} {bs : List β} (h : Pairwise2 R as bs) :
    as.length = bs.length := by
  induction h with
  | nil => rfl
  | cons _ _ ih => simp [ih]

theorem encodeRibAfi_bytes {r : RibAfi} {b : Bytes} (hr : RibOk r) (h : encodeRibAfi r = .ok b) :
    ∃ r', RibBytes r.ribType r' b ∧ SameRib r r' := by
  obtain ⟨n, afi, safi, ap, hf, hp, hes⟩ := hr
  unfold encodeRibAfi at h
  cases h1 : checkMax r.entries.length 65535 with
  | error e => rw [h1] at h; cases h
  | ok k =>
    have hk : k = r.entries.length ∧ r.entries.length ≤ 65535 := by
      unfold checkMax at h1
      split at h1
      · cases h1
      · cases h1; exact ⟨rfl, by omega⟩
    obtain ⟨rfl, hk⟩ := hk
    rw [h1] at h
    dsimp only at h
    cases h2 : encAll (encRibEntry r.ribType.addPath) r.entries with
    | error e => rw [h2] at h; cases h
    | ok eb =>
      rw [h2] at h
      injection h with h
      rw [(ribFamily_family _ _ _ _ _ hf).2.1] at h2
      obtain ⟨es', h3, h4⟩ := encRibEntries_bytes _ _ hes h2
      have hnone : r.prefix_.pathId = none := by simpa using hp.path
      refine ⟨{ r with entries := es' }, ⟨n, afi, safi, ap, r.prefix_.encode, eb, [], r.entries.length, hf, rfl, hnone,
        ⟨hp.family, hp.len, hp.tail, ?_⟩, by omega, ?_, h3, .inl (Pairwise2_length h4).symm⟩, rfl, rfl, rfl, h4⟩
      · simp [NetworkPrefix.encode, hnone, encPathId, byteLen]
      · rw [← h, be32_n32, n16_ofNat (by omega)]; simp

/-! ### TABLE_DUMP -/

theorem exact_rdFullPrefix (v4 : Bool) :
    Exact (rdFullPrefix v4) (fun p c => p.addr.isV4 = v4 ∧ p.len.toNat ≤ (if v4 then 32 else 128) ∧
      c = p.addr.octets ++ [p.len]) := by
  intro s p r
  unfold rdFullPrefix
  have hip : Exact (if v4 = true then do let a ← rdV4; pure (Ip.v4 a) else do let a ← rdV6; pure (Ip.v6 a) : Rd Ip)
      (fun a c => a.isV4 = v4 ∧ c = a.octets) := by
    have := exact_rdIp (!v4)
    cases v4 <;> simpa using this
  constructor
  · intro h
    rw [Rd.bind_eq_ok] at h; obtain ⟨ip, t1, h1, h⟩ := h
    rw [Rd.bind_eq_ok] at h; obtain ⟨len, t2, h2, h⟩ := h
    obtain ⟨c, rfl, hv, rfl⟩ := (hip _ _ _).mp h1
    rw [rdU8_ok h2]
    unfold IpNet.new? at h
    by_cases hl : len.toNat ≤ ip.maxLen
    · rw [if_pos hl] at h
      cases h
      refine ⟨_, ?_, hv, ?_, rfl⟩
      · simp
      · simp only; rw [← hv]
        cases ip <;> simpa [Ip.maxLen, Ip.isV4] using hl
    · rw [if_neg hl] at h; cases h
  · rintro ⟨c, rfl, hv, hl, rfl⟩
    rw [List.append_assoc, Rd.bind_ok ((hip _ p.addr _).mpr ⟨_, rfl, hv, rfl⟩),
      Rd.bind_ok (show rdU8 ([p.len] ++ r) = .ok (p.len, r) from rfl)]
    unfold IpNet.new?
    rw [if_pos]
    · rfl
    · rw [← hv] at hl
      cases h : p.addr with
      | v4 o => rw [h] at hl; simpa [Ip.maxLen, Ip.isV4] using hl
      | v6 o => rw [h] at hl; simpa [Ip.maxLen, Ip.isV4] using hl

theorem u64_roundtrip {x : UInt64} (h : x.toNat < 4294967296) : x.toUInt32.toUInt64 = x := by
  apply UInt64.toNat_inj.mp
  simp; omega

theorem exact_rdTableDumpEntry (v4 : Bool) (view seq : UInt16) :
    Exact (rdTableDumpEntry v4 view seq) (DumpEntryBytes v4 view seq) := by
  refine Exact.congr (p := rdTableDumpEntry v4 view seq) (.bind (exact_rdFullPrefix v4) fun p => .bind .rdU8 fun st =>
    .bind .rdU32 fun time => .bind (.rdAddr _ (by cases v4 <;> decide)) fun ip => .bind .rdU16 fun asn =>
    .bind .rdU16 fun len => .needSplit _ fun d => .bind (.lift _) fun as => .pure _) ?_
  intro m c
  constructor
  · rintro ⟨p, _, _, rfl, ⟨hv, hl, rfl⟩, st, _, _, rfl, rfl, time, _, _, rfl, rfl, ip, _, _, rfl, ⟨hip, rfl⟩, asn, _, _, rfl,
      rfl, len, _, _, rfl, rfl, ab, _, rfl, hab, as, _, _, rfl, ⟨has, rfl⟩, rfl, rfl⟩
    refine ⟨rfl, rfl, rfl, hv, ?_, hl, ?_, ?_, ab, as, by rw [hab]; exact len.toNat_lt, ?_, has, rfl⟩
    · simp only
      rw [ip_afi] at hip
      cases hiv : ip.isV4 <;> cases v4 <;> rw [hiv] at hip <;> simp_all
    · have := time.toNat_lt
      simpa using this
    · have := asn.toNat_lt
      simpa using this
    · rw [hab, be16_n16, be16_n16, be32_n32]; simp
  · rintro ⟨rfl, rfl, hpid, hv, hpv, hl, ht, ha, ab, as, hab, rfl, has, hat⟩
    simp only [List.append_assoc]
    refine ⟨m.prefix_.prefix_, m.prefix_.prefix_.addr.octets ++ [m.prefix_.prefix_.len], _, ?_, ⟨hv, hl, rfl⟩, m.status,
      [m.status], _, rfl, rfl, m.time.toUInt32, n32 m.time.toNat, _, rfl, ?_, m.peerIp, _, _, rfl, ⟨?_, rfl⟩,
      m.peerAsn.toUInt16, n16 m.peerAsn.toNat, _, rfl,
      ?_, UInt16.ofNat ab.length, _, _, rfl, (n16_ofNat hab).symm, ab, [], (List.append_nil _).symm,
      (toNat_u16len (by omega)).symm, as, [], [], rfl, ⟨has, rfl⟩, ?_, rfl⟩
    · simp
    · rw [be32_n32]; congr 1; simp; omega
    · rw [ip_afi, hpv]
    · rw [be16_n16]; congr 1; simp; omega
    · obtain ⟨view, seq, ⟨p, pid⟩, st, time, ip, asn, at_⟩ := m
      simp only at hpid hat ht ha ⊢
      subst hpid
      rw [u64_roundtrip ht, toUInt32_toUInt16 (by omega), hat]

theorem DumpEntryBytes_ne {v4 : Bool} {view seq : UInt16} {m : TableDump} {c : Bytes} (h : DumpEntryBytes v4 view seq m c) :
    c ≠ [] := by
  obtain ⟨_, _, _, _, _, _, _, _, ab, as, _, rfl, _⟩ := h
  simp

theorem noPanic_rdTableDumpEntry (v4 : Bool) (view seq : UInt16) : NoPanic (rdTableDumpEntry v4 view seq) := by
  refine .bind (.bind (.ite (fun _ => .bind (.rdVec _) fun _ => .pure _) fun _ => .bind (.rdVec _) fun _ => .pure _) fun _ =>
    .bind .rdU8 fun _ => ?_) fun _ => .bind .rdU8 fun _ =>
    .bind .rdU32 fun _ => .bind (.rdAddr _) fun _ => .bind .rdU16 fun _ => .bind .rdU16 fun _ => .needSplit _ fun d =>
    .bind (.lift (parseAttributes_noPanic _ d)) fun _ => .pure _
  split
  · exact .pure _
  · exact .fail (by decide)

theorem parseTableDumps_iff (v4 : Bool) (s : Bytes) (ms : List TableDump) :
    parseTableDumps (if v4 then 1 else 2) s = .ok ms ↔ ∃ (view seq : UInt16) (body : Bytes), ms ≠ [] ∧
      s = n16 view.toNat ++ n16 seq.toNat ++ body ∧ Blocks (DumpEntryBytes v4 view seq) ms body := by
  unfold parseTableDumps
  have hsub : (if v4 = true then 1 else 2 : UInt16) = 1 ∨ (if v4 = true then 1 else 2 : UInt16) = 2 := by
    cases v4 <;> decide
  rw [if_pos hsub]
  have hv : decide ((if v4 = true then 1 else 2 : UInt16) = 1) = v4 := by cases v4 <;> decide
  rw [hv]
  unfold Rd.runOn
  constructor
  · intro h
    split at h
    case h_2 => cases h
    rename_i a rest hrd
    cases h
    rw [Rd.bind_eq_ok] at hrd; obtain ⟨view, t1, h1, hrd⟩ := hrd
    rw [Rd.bind_eq_ok] at hrd; obtain ⟨seq, t2, h2, hrd⟩ := hrd
    rw [Rd.bind_ok (Rd.peek_apply _)] at hrd
    rw [Rd.bind_eq_ok] at hrd; obtain ⟨es, t4, h4, hrd⟩ := hrd
    cases hl : many (rdTableDumpEntry v4 view seq) t2 with
    | error e => rw [hl] at h4; cases h4
    | ok es' =>
      rw [hl] at h4; cases h4
      by_cases he : es.isEmpty
      · rw [if_pos he] at hrd; cases hrd
      rw [if_neg he] at hrd
      cases hrd
      refine ⟨view, seq, rest, by intro h; subst h; exact he rfl, ?_, ?_⟩
      · rw [rdU16_ok h1, rdU16_ok h2, be16_n16, be16_n16]; simp
      · exact ((exact_rdTableDumpEntry v4 view seq).many (fun _ _ h => DumpEntryBytes_ne h) _ _).mp hl
  · rintro ⟨view, seq, body, hne, rfl, hb⟩
    have hl := ((exact_rdTableDumpEntry v4 view seq).many (fun _ _ h => DumpEntryBytes_ne h) _ _).mpr hb
    simp only [List.append_assoc]
    rw [← be16_n16, ← be16_n16, Rd.bind_ok (rdU16_be16 _ _), Rd.bind_ok (rdU16_be16 _ _), Rd.bind_ok (Rd.peek_apply _), hl,
      Rd.bind_ok (show Rd.lift (.ok ms) body = .ok (ms, body) from rfl)]
    rw [if_neg (by simpa using hne)]
    rfl

theorem Exact.consumes_pos {p : Rd α} {R : α → Bytes → Prop} (h : Exact p R) (hne : ∀ a c, R a c → c ≠ []) (s : Bytes) (a : α)
    (r : Bytes) (hp : p s = .ok (a, r)) : r.length < s.length := by
  obtain ⟨c, rfl, hr⟩ := (h _ _ _).mp hp
  have := List.length_pos_iff.mpr (hne _ _ hr)
  simp; omega

theorem parseTableDumps_noPanic (subtype : UInt16) (s : Bytes) : parseTableDumps subtype s ≠ .error .panic := by
  unfold parseTableDumps
  split
  · exact NoPanic.runOn (.bind .rdU16 fun view => .bind .rdU16 fun seq => .bind .peek fun rest => .bind
      (.lift (many_noPanic (noPanic_rdTableDumpEntry _ _ _)
        (fun s a r h => (exact_rdTableDumpEntry _ view seq).consumes_pos (fun _ _ h => DumpEntryBytes_ne h) s a r h) rest))
      fun ms => .ite (fun _ => .fail (by decide)) fun _ => .pure _) s
  · simp

theorem encTableDumpEntry_bytes {v4 : Bool} {m : TableDump} {b : Bytes} (hm : DumpOk v4 m)
    (h : encTableDumpEntry m = .ok b) : ∃ m', DumpEntryBytes v4 m.view m.seq m' b ∧ SameDump m m' := by
  unfold encTableDumpEntry at h
  cases h1 : encodeAttributes .b16 m.attributes.inner with
  | error x => rw [h1] at h; cases h
  | ok ab =>
    rw [h1] at h
    dsimp only at h
    cases h2 : u16Len ab with
    | error x => rw [h2] at h; cases h
    | ok a =>
      rw [h2] at h
      injection h with h
      obtain ⟨hl, rfl⟩ := u16Len_ok.mp h2
      obtain ⟨as, h3, h4⟩ := c11_attributes_roundtrip_partial dumpCfg _ ab hm.attributes h1
      have h5 := hm.time
      have h6 := hm.asn
      refine ⟨{ m with attributes := as.checkMandatory true v4 },
        ⟨rfl, rfl, hm.noPath, hm.prefixFamily, hm.peerFamily, hm.prefixLen, h5, h6, ab, as, by omega, ?_, h3, rfl⟩,
        rfl, rfl, rfl, rfl, rfl, rfl, rfl, h4⟩
      have e1 : m.time.toUInt32.toNat = m.time.toNat := by simp; omega
      have e2 : m.peerAsn.toUInt16.toNat = m.peerAsn.toNat := by simp; omega
      rw [← h, be16_n16, be32_n32, n16_ofNat (by omega), e1, e2]; simp

theorem encBatch_bytes {v4 : Bool} {view seq : UInt16} :
    ∀ (ms : List TableDump) (b : Bytes), (∀ m ∈ ms, DumpOk v4 m) → encAll (encBatchEntry view seq v4) ms = .ok b →
    ∃ ms', Blocks (DumpEntryBytes v4 view seq) ms' b ∧ Pairwise2 SameDump ms ms' := by
  intro ms
  induction ms with
  | nil => intro b _ h; cases h; exact ⟨[], .nil, .nil⟩
  | cons m ms ih =>
    intro b hms h
    obtain ⟨x, y, h1, h2, rfl⟩ := encAll_cons_ok.mp h
    obtain ⟨ms', h3, h4⟩ := ih y (fun e he => hms e (by simp [he])) h2
    unfold encBatchEntry at h1
    split at h1
    · cases h1
    rename_i hvs
    split at h1
    · cases h1
    have hv : m.view = view ∧ m.seq = seq := by
      constructor
      · exact Classical.byContradiction fun h => hvs (.inl h)
      · exact Classical.byContradiction fun h => hvs (.inr h)
    obtain ⟨m', h5, h6⟩ := encTableDumpEntry_bytes (hms m (by simp)) h1
    rw [hv.1, hv.2] at h5
    exact ⟨m' :: ms', .cons h5 h3, .cons h6 h4⟩

/-! ### BGP4MP -/

theorem stateNum_toU16 (x : BgpState) : be16 x.toU16 = n16 (stateNum x) := by cases x <;> rfl

theorem exact_rdState : Exact rdState (fun a c => c = n16 (stateNum a)) := by
  intro s a r
  constructor
  · intro h
    unfold rdState at h
    rw [Rd.bind_eq_ok] at h; obtain ⟨x, t, h1, h⟩ := h
    refine ⟨n16 (stateNum a), ?_, rfl⟩
    rw [rdU16_ok h1]
    have : ∀ y, BgpState.ofU16? x = some y → be16 x = n16 (stateNum y) := by
      intro y hy
      unfold BgpState.ofU16? at hy
      repeat' split at hy
      all_goals first | (subst_vars; cases hy; rfl) | cases hy
    cases hx : BgpState.ofU16? x with
    | none => rw [hx] at h; cases h
    | some y =>
      rw [hx] at h
      cases h
      rw [this _ hx]
  · rintro ⟨c, rfl, rfl⟩
    unfold rdState
    rw [← stateNum_toU16, Rd.bind_ok (rdU16_be16 _ _)]
    cases a <;> rfl

theorem mpMessageType_spec (t : MpType) (n : Nat) (l : AsnLen) (ap : Bool) (h : mpMessageType t = some (n, l, ap)) (s : Bytes) :
    parseBgp4Mp (UInt16.ofNat n) s = mapOk .message (parseMpMessage ap l t s) := by
  cases t <;> cases h <;> rfl

theorem mpStateType_spec (t : MpType) (n : Nat) (l : AsnLen) (h : mpStateType t = some (n, l)) (s : Bytes) :
    parseBgp4Mp (UInt16.ofNat n) s = mapOk .stateChange (parseMpStateChange l t s) := by
  cases t <;> cases h <;> rfl

theorem isShortZebraOpen_iff (s : Bytes) (l : AsnLen) : isShortZebraOpen s l = true ↔ l = .b16 ∧ ZebraOpen s := by
  unfold isShortZebraOpen
  simp only [Bool.and_eq_true, beq_iff_eq, decide_eq_true_eq]
  constructor
  · rintro ⟨⟨⟨hl, hlen⟩, hm⟩, ht⟩
    refine ⟨hl, s.take 4, (s.drop 20).take 2, s.drop 23, by simp; omega, by simp; omega, ?_⟩
    have e1 : s = s.take 4 ++ s.drop 4 := (List.take_append_drop 4 s).symm
    have e2 : s.drop 4 = List.replicate 16 0xFF ++ s.drop 20 := by
      conv => lhs; rw [← List.take_append_drop 16 (s.drop 4), hm, List.drop_drop]
    have e3 : s.drop 20 = (s.drop 20).take 2 ++ s.drop 22 := by
      conv => lhs; rw [← List.take_append_drop 2 (s.drop 20), List.drop_drop]
    have e4 : s.drop 22 = [1] ++ s.drop 23 := by
      rw [List.drop_eq_getElem_cons (by omega)]
      rw [List.getElem?_eq_getElem (by omega)] at ht
      simp only [Option.some.injEq] at ht
      rw [ht]; rfl
    conv => lhs; rw [e1, e2, e3, e4]
    simp
  · rintro ⟨hl, as, len, rest, h1, h2, rfl⟩
    refine ⟨⟨⟨hl, by simp [h1, h2]; omega⟩, ?_⟩, ?_⟩
    · simp only [List.append_assoc]
      rw [List.drop_left' h1]
      exact List.take_left' (by simp)
    · simp only [List.append_assoc]
      rw [List.getElem?_append_right (by omega), List.getElem?_append_right (by simp; omega),
        List.getElem?_append_right (by simp; omega)]
      simp [h1, h2]

theorem asnBytes_length (l : AsnLen) (a : Asn) : (asnBytes l a).length = l.bytes := by cases l <;> rfl

theorem octets_length (a : Ip) : a.octets.length = if a.isV4 then 4 else 16 := by
  cases a <;> simp [Ip.octets, Ip.isV4]

theorem addressFamily_afi (a : Ip) : be16 (addressFamily a) = n16 (afiNum a.afi) := by cases a <;> rfl

theorem afi_n16 (a : Afi) : be16 a.toU16 = n16 (afiNum a) := by cases a <;> rfl

theorem validMpAfi_ip (d : Ip) (s : Bytes) : Rd.lift (validMpAfi d.afi) s = .ok ((), s) := by cases d <;> rfl

/-- the shared header. -/
theorem exact_mpHead (l : AsnLen) {f : Asn → Asn → UInt16 → Afi → Ip → Ip → Rd β}
    {Q : Asn → Asn → UInt16 → Ip → Ip → β → Bytes → Prop}
    (hf : ∀ a b c d e, e.isV4 = d.isV4 → Exact (f a b c d.afi d e) (Q a b c d e)) :
    Exact (do
      let peer ← rdAsn l
      let loc ← rdAsn l
      let i ← rdU16
      let afi ← rdAfi
      Rd.lift (validMpAfi afi)
      let peerIp ← rdAddr afi
      let localIp ← rdAddr afi
      f peer loc i afi peerIp localIp)
      (fun x s => ∃ a b c d e r, AsnFits l a ∧ AsnFits l b ∧ e.isV4 = d.isV4 ∧ s = mpHeadBytes l a b c d e ++ r ∧
        Q a b c d e x r) := by
  intro s x r
  constructor
  · intro h
    rw [Rd.bind_eq_ok] at h; obtain ⟨a, t1, h1, h⟩ := h
    rw [Rd.bind_eq_ok] at h; obtain ⟨b, t2, h2, h⟩ := h
    rw [Rd.bind_eq_ok] at h; obtain ⟨c, t3, h3, h⟩ := h
    rw [Rd.bind_eq_ok] at h; obtain ⟨afi, t4, h4, h⟩ := h
    rw [Rd.bind_eq_ok] at h; obtain ⟨u, t5, h5, h⟩ := h
    rw [Rd.bind_eq_ok] at h; obtain ⟨d, t6, h6, h⟩ := h
    rw [Rd.bind_eq_ok] at h; obtain ⟨e, t7, h7, h⟩ := h
    have hafi : afi ≠ .linkState := by
      intro e; subst e; cases h5
    have ht : t5 = t4 := by cases afi <;> cases h5 <;> rfl
    subst ht
    obtain ⟨_, rfl, ha, rfl⟩ := (Exact.rdAsn l _ _ _).mp h1
    obtain ⟨_, rfl, hb, rfl⟩ := (Exact.rdAsn l _ _ _).mp h2
    obtain ⟨_, rfl, rfl⟩ := (Exact.rdU16 _ _ _).mp h3
    obtain ⟨_, rfl, rfl⟩ := (Exact.rdAfi _ _ _).mp h4
    obtain ⟨_, rfl, hd, rfl⟩ := (Exact.rdAddr afi hafi _ _ _).mp h6
    obtain ⟨_, rfl, he, rfl⟩ := (Exact.rdAddr afi hafi _ _ _).mp h7
    have hv : e.isV4 = d.isV4 := by
      rw [← he, ip_afi, ip_afi] at hd
      cases h : e.isV4 <;> cases h' : d.isV4 <;> simp_all
    subst hd
    obtain ⟨c2, rfl, hq⟩ := (hf a b c d e hv _ _ _).mp h
    refine ⟨mpHeadBytes l a b c d e ++ c2, ?_, a, b, c, d, e, c2, ha, hb, hv, rfl, hq⟩
    simp only [mpHeadBytes, afi_n16, List.append_assoc]
    rw [be16_n16]
  · rintro ⟨_, rfl, a, b, c, d, e, c2, ha, hb, hv, rfl, hq⟩
    simp only [mpHeadBytes, List.append_assoc]
    have hde : e.afi = d.afi := by rw [ip_afi, ip_afi, hv]
    have hnl : d.afi ≠ .linkState := by cases d <;> simp [Ip.afi]
    rw [Rd.bind_ok ((Exact.rdAsn l _ _ _).mpr ⟨_, rfl, ha, rfl⟩), Rd.bind_ok ((Exact.rdAsn l _ _ _).mpr ⟨_, rfl, hb, rfl⟩),
      Rd.bind_ok ((Exact.rdU16 _ _ _).mpr ⟨_, rfl, (be16_n16 c).symm⟩),
      Rd.bind_ok ((Exact.rdAfi _ _ _).mpr ⟨_, rfl, (afi_n16 d.afi).symm⟩),
      Rd.bind_ok (validMpAfi_ip d _),
      Rd.bind_ok (rdAddr_octets d _), ← hde, Rd.bind_ok (rdAddr_octets e _), hde]
    exact (hf a b c d e hv _ _ _).mpr ⟨c2, rfl, hq⟩

theorem parseMpMessage_iff (ap : Bool) (l : AsnLen) (t : MpType) (s : Bytes) (m : MpMessage) :
    parseMpMessage ap l t s = .ok m ↔ m.msgType = t ∧ MpMessageBytes l ap m s := by
  unfold parseMpMessage MpMessageBytes
  by_cases hz : isShortZebraOpen s l = true
  · have hz' := (isShortZebraOpen_iff s l).mp hz
    simp only [if_pos hz, if_pos hz']
    unfold Rd.runOn
    constructor
    · intro h
      split at h
      case h_2 => cases h
      rename_i a rest hrd
      cases h
      rw [Rd.bind_eq_ok] at hrd; obtain ⟨a, t1, h1, hrd⟩ := hrd
      rw [Rd.bind_eq_ok] at hrd; obtain ⟨b, t2, h2, hrd⟩ := hrd
      rw [Rd.bind_eq_ok] at hrd; obtain ⟨x, t3, h3, hrd⟩ := hrd
      cases hrd
      obtain ⟨_, hs, ha, rfl⟩ := (Exact.rdAsn l _ _ _).mp h1
      obtain ⟨_, rfl, hb, rfl⟩ := (Exact.rdAsn l _ _ _).mp h2
      exact ⟨rfl, ha, hb, t2, rest, h3, by rw [hs]; simp, rfl, rfl, rfl⟩
    · rintro ⟨rfl, ha, hb, msg, r, hm, hs, hi, hp, hl⟩
      rw [List.append_assoc] at hs
      have h1 := (Exact.rdAsn l s _ _).mpr ⟨_, hs, ha, rfl⟩
      have h2 := (Exact.rdAsn l _ m.localAsn msg).mpr ⟨_, rfl, hb, rfl⟩
      rw [Rd.bind_ok h1, Rd.bind_ok h2, Rd.bind_ok hm]
      obtain ⟨mt, pa, la, i, pi, li, mm⟩ := m
      simp only at hi hp hl
      subst hi hp hl
      rfl
  · have hz' := fun h => hz ((isShortZebraOpen_iff s l).mpr h)
    simp only [if_neg hz, if_neg hz']
    have key : ∀ m : MpMessage, (do
        let peer ← rdAsn l
        let loc ← rdAsn l
        let i ← rdU16
        let afi ← rdAfi
        Rd.lift (validMpAfi afi)
        let peerIp ← rdAddr afi
        let localIp ← rdAddr afi
        let rem ← Rd.remaining
        if mpPayloadLen afi l s.length ≠ rem then Rd.fail .truncated else do
        let m ← parseBgpMessage ap l
        pure ⟨t, peer, loc, i, peerIp, localIp, m⟩ : Rd MpMessage).runOn s = .ok m ↔
        ∃ a b c d e msg r, AsnFits l a ∧ AsnFits l b ∧ e.isV4 = d.isV4 ∧ s = mpHeadBytes l a b c d e ++ msg ∧
          ∃ x, parseBgpMessage ap l msg = .ok (x, r) ∧ m = ⟨t, a, b, c, d, e, x⟩ := by
      intro m
      unfold Rd.runOn
      constructor
      · intro h
        split at h
        case h_2 => cases h
        rename_i y rest hrd
        cases h
        rw [Rd.bind_eq_ok] at hrd; obtain ⟨a, t1, h1, h⟩ := hrd
        rw [Rd.bind_eq_ok] at h; obtain ⟨b, t2, h2, h⟩ := h
        rw [Rd.bind_eq_ok] at h; obtain ⟨c, t3, h3, h⟩ := h
        rw [Rd.bind_eq_ok] at h; obtain ⟨afi, t4, h4, h⟩ := h
        rw [Rd.bind_eq_ok] at h; obtain ⟨u, t5, h5, h⟩ := h
        rw [Rd.bind_eq_ok] at h; obtain ⟨d, t6, h6, h⟩ := h
        rw [Rd.bind_eq_ok] at h; obtain ⟨e, t7, h7, h⟩ := h
        rw [Rd.bind_ok (Rd.remaining_apply _)] at h
        have hhead := (exact_mpHead l (f := fun a b c _ d e => Pure.pure (a, b, c, d, e))
          (Q := fun a b c d e v r => v = (a, b, c, d, e) ∧ r = []) (fun a b c d e _ => Exact.pure _)
          s (a, b, c, d, e) t7).mp (by
            rw [Rd.bind_ok h1, Rd.bind_ok h2, Rd.bind_ok h3, Rd.bind_ok h4, Rd.bind_ok h5, Rd.bind_ok h6, Rd.bind_ok h7]; rfl)
        obtain ⟨_, hs, a', b', c', d', e', _, ha, hb, hv, rfl, hq, rfl⟩ := hhead
        cases hq
        split at h
        · cases h
        rw [Rd.bind_eq_ok] at h; obtain ⟨x, t8, h8, h⟩ := h
        cases h
        exact ⟨a, b, c, d, e, t7, rest, ha, hb, hv, by simpa using hs, x, h8, rfl⟩
      · rintro ⟨a, b, c, d, e, msg, r, ha, hb, hv, rfl, x, hx, rfl⟩
        have hpay : mpPayloadLen d.afi l (mpHeadBytes l a b c d e ++ msg).length = msg.length := by
          unfold mpPayloadLen mpHeadBytes
          simp only [List.length_append, asnBytes_length, octets_length, hv]
          cases d <;> simp [Ip.afi, Ip.isV4, n16] <;> omega
        simp only [mpHeadBytes, List.append_assoc] at hpay ⊢
        have hde : e.afi = d.afi := by rw [ip_afi, ip_afi, hv]
        rw [Rd.bind_ok ((Exact.rdAsn l _ _ _).mpr ⟨_, rfl, ha, rfl⟩), Rd.bind_ok ((Exact.rdAsn l _ _ _).mpr ⟨_, rfl, hb, rfl⟩),
          Rd.bind_ok ((Exact.rdU16 _ _ _).mpr ⟨_, rfl, (be16_n16 c).symm⟩),
          Rd.bind_ok ((Exact.rdAfi _ _ _).mpr ⟨_, rfl, (afi_n16 d.afi).symm⟩),
          Rd.bind_ok (validMpAfi_ip d _),
          Rd.bind_ok (rdAddr_octets d _)]
        have he : rdAddr d.afi (e.octets ++ msg) = .ok (e, msg) := by rw [← hde]; exact rdAddr_octets e msg
        rw [Rd.bind_ok he, Rd.bind_ok (Rd.remaining_apply _), hpay, if_neg (by simp), Rd.bind_ok hx]
        rfl
    rw [key]
    constructor
    · rintro ⟨a, b, c, d, e, msg, r, ha, hb, hv, hs, x, hx, rfl⟩
      exact ⟨rfl, ha, hb, msg, r, hx, hs, hv⟩
    · rintro ⟨rfl, ha, hb, msg, r, hx, hs, hv⟩
      exact ⟨_, _, _, _, _, msg, r, ha, hb, hv, hs, _, hx, rfl⟩

theorem parseMpStateChange_iff (l : AsnLen) (t : MpType) (s : Bytes) (m : MpStateChange) :
    parseMpStateChange l t s = .ok m ↔ m.msgType = t ∧ MpStateBytes l m s := by
  unfold parseMpStateChange MpStateBytes
  by_cases hz : l = .b16 ∧ s.length = 8
  · simp only [if_pos hz]
    obtain ⟨rfl, h8⟩ := hz
    rw [Exact.runOn (.bind (.rdAsn _) fun a => .bind (.rdAsn _) fun b => .bind exact_rdState fun o =>
      .bind exact_rdState fun n => .pure _)]
    constructor
    · rintro ⟨_, r, hs, a, _, _, rfl, ⟨ha, rfl⟩, b, _, _, rfl, ⟨hb, rfl⟩, o, _, _, rfl, rfl, n, _, _, rfl, rfl, rfl, rfl⟩
      refine ⟨rfl, ha, hb, ?_, rfl, rfl, rfl⟩
      have : r = [] := by
        rw [hs] at h8
        simp [asnBytes, n16] at h8
        exact h8
      rw [hs, this]; simp
    · rintro ⟨rfl, ha, hb, hs, hi, hp, hl⟩
      refine ⟨s, [], by simp, m.peerAsn, _, _, ?_, ⟨ha, rfl⟩, m.localAsn, _, _, rfl, ⟨hb, rfl⟩, m.old, _, _, rfl, rfl, m.new,
        _, [], rfl, rfl, ?_, rfl⟩
      · rw [hs]; simp
      · obtain ⟨mt, pa, la, i, pi, li, o, n⟩ := m
        simp only at hi hp hl
        subst hi hp hl
        rfl
  · simp only [if_neg hz]
    rw [Exact.runOn (exact_mpHead l (f := fun peer loc i _ peerIp localIp => do
        let old ← rdState
        let new ← rdState
        pure (⟨t, peer, loc, i, peerIp, localIp, old, new⟩ : MpStateChange)) fun a b c d e _ => .bind exact_rdState fun o =>
        .bind exact_rdState fun n => .pure _)]
    constructor
    · rintro ⟨_, r, rfl, a, b, c, d, e, _, ha, hb, hv, rfl, o, _, _, rfl, rfl, n, _, _, rfl, rfl, rfl, rfl⟩
      exact ⟨rfl, ha, hb, hv, r, by simp⟩
    · rintro ⟨rfl, ha, hb, hv, r, hs⟩
      exact ⟨_, r, hs, m.peerAsn, m.localAsn, m.iface, m.peerIp, m.localIp, _, ha, hb, hv, List.append_assoc _ _ _, m.old,
        _, _, rfl, rfl, m.new, _, [], by simp, rfl, rfl, rfl⟩

theorem validMpAfi_noPanic (afi : Afi) : validMpAfi afi ≠ .error .panic := by cases afi <;> simp [validMpAfi]

theorem NoPanic.rdState : NoPanic rdState := by
  refine .bind .rdU16 fun x => ?_
  split
  · exact .pure _
  · exact .fail (by decide)

theorem parseMpMessage_noPanic (ap : Bool) (l : AsnLen) (t : MpType) (s : Bytes) :
    parseMpMessage ap l t s ≠ .error .panic :=
  NoPanic.runOn (.bind (.rdAsn _) fun _ => .bind (.rdAsn _) fun _ => .ite
    (fun _ => .bind (parseBgpMessage_noPanic _ _) fun _ => .pure _)
    fun _ => .bind .rdU16 fun _ => .bind .rdAfi fun _ => .bind (.lift (validMpAfi_noPanic _)) fun _ =>
      .bind (.rdAddr _) fun _ => .bind (.rdAddr _) fun _ => .bind .remaining fun _ => .ite (fun _ => .fail (by decide))
      fun _ => .bind (parseBgpMessage_noPanic _ _) fun _ => .pure _) s

theorem parseMpStateChange_noPanic (l : AsnLen) (t : MpType) (s : Bytes) : parseMpStateChange l t s ≠ .error .panic :=
  NoPanic.runOn (.bind (.rdAsn _) fun _ => .bind (.rdAsn _) fun _ => .ite
    (fun _ => .bind .rdState fun _ => .bind .rdState fun _ => .pure _)
    fun _ => .bind .rdU16 fun _ => .bind .rdAfi fun _ => .bind (.lift (validMpAfi_noPanic _)) fun _ =>
      .bind (.rdAddr _) fun _ => .bind (.rdAddr _) fun _ => .bind .rdState fun _ => .bind .rdState fun _ => .pure _) s

theorem parseBgp4Mp_noPanic (subtype : UInt16) (s : Bytes) : parseBgp4Mp subtype s ≠ .error .panic := by
  unfold parseBgp4Mp
  cases MpType.ofU16? subtype with
  | none => simp
  | some t =>
    cases t
    all_goals first
      | exact mapOk_noPanic (parseMpMessage_noPanic _ _ _ _)
      | exact mapOk_noPanic (parseMpStateChange_noPanic _ _ _)

theorem encAsn_bytes {l : AsnLen} {a : Asn} (h : AsnFits l a) : encAsn l a = asnBytes l a := by
  cases l with
  | b16 =>
    have := h rfl
    have e : a.toUInt16.toNat = a.toNat := by simp; omega
    simp only [encAsn, asnBytes, be16_n16, e]
  | b32 => simp only [encAsn, asnBytes, be32_n32]

theorem mpHead_bytes {l : AsnLen} {a b : Asn} (ha : AsnFits l a) (hb : AsnFits l b) (i : UInt16) (d e : Ip) :
    mpHead l a b i d e = mpHeadBytes l a b i d e := by
  unfold mpHead mpHeadBytes
  rw [encAsn_bytes ha, encAsn_bytes hb, be16_n16, addressFamily_afi]
  simp

theorem mpHead_not_zebra (a b : Asn) (i : UInt16) (d e : Ip) (r : Bytes) :
    ¬ ZebraOpen (mpHeadBytes .b16 a b i d e ++ r) := by
  rintro ⟨as, len, rest, h1, h2, h⟩
  have h6 := congrArg (·[6]?) h
  simp only [mpHeadBytes, asnBytes, n16, List.append_assoc] at h6
  have : (as ++ (List.replicate 16 (0xFF : UInt8) ++ (len ++ ([1] ++ rest))))[6]? = some 0xFF := by
    rw [List.getElem?_append_right (by omega), h1]
    rfl
  rw [this] at h6
  cases d <;> simp [Ip.afi, afiNum] at h6 <;> exact absurd h6 (by decide)

/-! ### the deprecated type 5 -/

theorem parseLegacyPayload_noPanic (subtype : UInt16) (d : Bytes) : parseLegacyPayload subtype d ≠ .error .panic := by
  unfold parseLegacyPayload
  split
  · exact mapOk_noPanic (parseUpdate_noPanic _ _ d)
  split
  · exact mapOk_noPanic (parseOpen_noPanic d)
  split
  · exact mapOk_noPanic (parseNotification_noPanic d)
  split <;> simp

theorem parseLegacyBgp_noPanic (subtype : UInt16) (s : Bytes) : parseLegacyBgp subtype s ≠ .error .panic := by
  unfold parseLegacyBgp
  split
  · exact NoPanic.runOn (.bind .rdU16 fun _ => .bind (.rdVec _) fun _ => .bind .rdU16 fun _ => .bind (.rdVec _) fun _ =>
      .bind .peek fun _ => .bind (.lift (parseLegacyPayload_noPanic _ _)) fun _ => .pure _) s
  split
  · exact NoPanic.runOn (.bind .rdU16 fun _ => .bind (.rdVec _) fun _ => .bind .rdState fun _ => .bind .rdState fun _ =>
      .bind .remaining fun _ => .ite (fun _ => .fail (by decide)) fun _ => .pure _) s
  · simp

theorem exact_low : Exact rdU16 (fun x c => c = n16 x.toUInt32.toNat) := by
  refine Exact.congr Exact.rdU16 ?_
  intro x c
  rw [be16_n16]
  have : x.toUInt32.toNat = x.toNat := by simp
  rw [this]

theorem parseLegacyBgp_message (subtype : UInt16) (hs : subtype ∈ [1, 5, 6, 7]) (s : Bytes) (x : LegacyBgp) :
    parseLegacyBgp subtype s = .ok x ↔ ∃ m payload, x = .message m ∧ LegacyMessageBytes m payload s ∧
      parseLegacyPayload subtype payload = .ok m.message := by
  have hs' : subtype = 1 ∨ subtype = 5 ∨ subtype = 6 ∨ subtype = 7 := by simpa using hs
  unfold parseLegacyBgp
  rw [if_pos hs']
  unfold Rd.runOn
  constructor
  · intro h
    split at h
    case h_2 => cases h
    rename_i y rest hrd
    cases h
    rw [Rd.bind_eq_ok] at hrd; obtain ⟨a, t1, h1, h⟩ := hrd
    rw [Rd.bind_eq_ok] at h; obtain ⟨b, t2, h2, h⟩ := h
    rw [Rd.bind_eq_ok] at h; obtain ⟨c, t3, h3, h⟩ := h
    rw [Rd.bind_eq_ok] at h; obtain ⟨d, t4, h4, h⟩ := h
    rw [Rd.bind_ok (Rd.peek_apply _)] at h
    rw [Rd.bind_eq_ok] at h; obtain ⟨m, t5, h5, h⟩ := h
    cases h
    cases hp : parseLegacyPayload subtype t4 with
    | error e => rw [hp] at h5; cases h5
    | ok m' =>
      rw [hp] at h5
      cases h5
      obtain ⟨_, rfl, rfl⟩ := (exact_low _ _ _).mp h1
      obtain ⟨_, rfl, rfl⟩ := (exact_rdV4 _ _ _).mp h2
      obtain ⟨_, rfl, rfl⟩ := (exact_low _ _ _).mp h3
      obtain ⟨_, rfl, rfl⟩ := (exact_rdV4 _ _ _).mp h4
      have ha := a.toNat_lt
      have hc := c.toNat_lt
      exact ⟨_, _, rfl, ⟨b, d, rfl, rfl, by simpa using ha, by simpa using hc, by simp⟩, hp⟩
  · rintro ⟨m, payload, rfl, ⟨p, l, hp, hl, ha, hc, rfl⟩, hm⟩
    have e1 : m.peerAsn = m.peerAsn.toUInt16.toUInt32 := (asn_low ha).symm
    have e2 : m.localAsn = m.localAsn.toUInt16.toUInt32 := (asn_low hc).symm
    simp only [List.append_assoc]
    rw [Rd.bind_ok ((exact_low _ m.peerAsn.toUInt16 _).mpr ⟨_, rfl, by dsimp only; rw [← e1]⟩), Rd.bind_ok (rdV4_append p _),
      Rd.bind_ok ((exact_low _ m.localAsn.toUInt16 _).mpr ⟨_, rfl, by dsimp only; rw [← e2]⟩), Rd.bind_ok (rdV4_append l _),
      Rd.bind_ok (Rd.peek_apply _), hm, Rd.bind_ok (show Rd.lift (.ok m.message) payload = .ok (m.message, payload) from rfl)]
    rw [← e1, ← e2, ← hp, ← hl]
    rfl

theorem parseLegacyBgp_state (s : Bytes) (x : LegacyBgp) :
    parseLegacyBgp 3 s = .ok x ↔ ∃ m, x = .stateChange m ∧ LegacyStateBytes m s := by
  unfold parseLegacyBgp
  rw [if_neg (by decide), if_pos rfl]
  unfold Rd.runOn
  constructor
  · intro h
    split at h
    case h_2 => cases h
    rename_i y rest hrd
    cases h
    rw [Rd.bind_eq_ok] at hrd; obtain ⟨a, t1, h1, h⟩ := hrd
    rw [Rd.bind_eq_ok] at h; obtain ⟨b, t2, h2, h⟩ := h
    rw [Rd.bind_eq_ok] at h; obtain ⟨c, t3, h3, h⟩ := h
    rw [Rd.bind_eq_ok] at h; obtain ⟨d, t4, h4, h⟩ := h
    rw [Rd.bind_ok (Rd.remaining_apply _)] at h
    split at h
    · cases h
    rename_i hr
    cases h
    have hr : rest = [] := List.length_eq_zero_iff.mp (by omega)
    subst hr
    obtain ⟨_, rfl, rfl⟩ := (exact_low _ _ _).mp h1
    obtain ⟨_, rfl, rfl⟩ := (exact_rdV4 _ _ _).mp h2
    obtain ⟨_, rfl, rfl⟩ := (exact_rdState _ _ _).mp h3
    obtain ⟨_, rfl, rfl⟩ := (exact_rdState _ _ _).mp h4
    have ha := a.toNat_lt
    exact ⟨_, rfl, b, rfl, by simpa using ha, by simp⟩
  · rintro ⟨m, rfl, p, hp, ha, rfl⟩
    have e1 : m.peerAsn = m.peerAsn.toUInt16.toUInt32 := (asn_low ha).symm
    simp only [List.append_assoc]
    rw [Rd.bind_ok ((exact_low _ m.peerAsn.toUInt16 _).mpr ⟨_, rfl, by dsimp only; rw [← e1]⟩), Rd.bind_ok (rdV4_append p _),
      Rd.bind_ok ((exact_rdState _ m.old _).mpr ⟨_, rfl, rfl⟩),
      Rd.bind_ok ((exact_rdState _ m.new []).mpr ⟨_, (List.append_nil _).symm, rfl⟩), Rd.bind_ok (Rd.remaining_apply _),
      if_neg (by decide), ← e1, ← hp]
    rfl

end Verif
