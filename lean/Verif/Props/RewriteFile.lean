import Verif.Spec.RewriteFile
import Verif.Props.Rewrite
import Verif.Props.MrtRecord
/-
C106. A file that was read can be written and read again.
-/
namespace Verif.Props
open Spec

theorem n16_split {x y : UInt16} {a b : Bytes} (h : n16 x.toNat ++ a = n16 y.toNat ++ b) : x = y ∧ a = b := by
  have g1 := rdU16_n16 x.toNat_lt a
  have g2 := rdU16_n16 y.toNat_lt b
  rw [h, g2] at g1
  injection g1 with g1
  have h1 := congrArg Prod.fst g1
  have h2 := congrArg Prod.snd g1
  simp at h1 h2
  exact ⟨h1.symm, h2.symm⟩

/-! ### TABLE_DUMP -/

theorem dumpEntry_again {v4 : Bool} {view seq : UInt16} {m : TableDump} {c : Bytes} (he : DumpEntryBytes v4 view seq m c) :
    (DumpRewritable m → ∃ b m', encTableDumpEntry m = .ok b ∧ DumpEntryBytes v4 view seq m' b ∧ SameDump m m') ∧
    ∀ b m' c' u v, encTableDumpEntry m = .ok b → DumpEntryBytes v4 view seq m' c' → SameDump m m' → c' ++ u = b ++ v →
      DumpRewritable m ∧ u = v := by
  obtain ⟨p1, p2, p3, p4, p5, p6, p7, p8, ab, as, hab, _, has, hat⟩ := he
  have hin : m.attributes.inner = as.inner := by rw [hat]; rfl
  have hi := c105_attributes (.session false .b16) has
  have e1 : m.time.toUInt32.toNat = m.time.toNat := by simp; omega
  have e2 : m.peerAsn.toUInt16.toNat = m.peerAsn.toNat := by simp; omega
  constructor
  · rintro ⟨hr, hl⟩
    rw [hin] at hr
    obtain ⟨bs, a', k1, k2, k3⟩ := hi.mpr hr
    change encodeAttributes .b16 as.inner = _ at k1
    rw [← hin] at k1
    have hbl := hl bs k1
    refine ⟨m.prefix_.prefix_.addr.octets ++ [m.prefix_.prefix_.len, m.status] ++ n32 m.time.toNat ++ m.peerIp.octets ++
      n16 m.peerAsn.toNat ++ n16 bs.length ++ bs, { m with attributes := a'.checkMandatory true v4 }, ?_,
      ⟨p1, p2, p3, p4, p5, p6, p7, p8, bs, a', hbl, rfl, k2, rfl⟩, rfl, rfl, rfl, rfl, rfl, rfl, rfl, ?_⟩
    · unfold encTableDumpEntry
      rw [k1]
      dsimp only
      rw [u16Len_ok.mpr ⟨by omega, rfl⟩]
      dsimp only
      rw [be16_n16, be32_n32, n16_ofNat (by omega), e1, e2]; simp
    · rw [hin]; exact k3
  · rintro b m' c' u v hb ⟨q1, q2, q3, q4, q5, q6, q7, q8, ab', as', hab', rfl, has', hat'⟩ ⟨s1, s2, s3, s4, s5, s6, s7, s8⟩ hcat
    unfold encTableDumpEntry at hb
    cases h1 : encodeAttributes .b16 m.attributes.inner with
    | error x => rw [h1] at hb; cases hb
    | ok bs =>
      rw [h1] at hb
      dsimp only at hb
      cases h2 : u16Len bs with
      | error x => rw [h2] at hb; cases hb
      | ok a =>
        rw [h2] at hb
        injection hb with hb
        obtain ⟨hl, rfl⟩ := u16Len_ok.mp h2
        rw [← hb, be16_n16, be32_n32, n16_ofNat (by omega), e1, e2, s3, s4, s5, s6, s7] at hcat
        simp only [List.append_assoc, List.cons_append, List.nil_append, List.append_cancel_left_eq, List.cons.injEq, true_and] at hcat
        have hlen : ab'.length = bs.length := by
          have g1 := rdU16_n16 hab' (ab' ++ u)
          have g2 := rdU16_n16 (show bs.length < 65536 by omega) (bs ++ v)
          rw [hcat, g2] at g1
          injection g1 with g1
          have := congrArg (fun x => x.1.toNat) g1
          simp only [toNat_u16len (show ab'.length ≤ 65535 by omega), toNat_u16len (show bs.length ≤ 65535 by omega)] at this
          exact this.symm
        rw [hlen, List.append_cancel_left_eq] at hcat
        obtain ⟨rfl, rfl⟩ := List.append_inj hcat hlen
        refine ⟨⟨?_, fun b hb => by rw [h1] at hb; cases hb; omega⟩, rfl⟩
        rw [hin]
        refine hi.mp ⟨ab', as', ?_, has', ?_⟩
        · rw [← hin]; exact h1
        · rw [← hin, ← s8, hat']; rfl

theorem encBatchEntry_eq {v4 : Bool} {view seq : UInt16} {m : TableDump} {c : Bytes} (h : DumpEntryBytes v4 view seq m c) :
    encBatchEntry view seq v4 m = encTableDumpEntry m := by
  obtain ⟨p1, p2, _, p4, p5, _⟩ := h
  unfold encBatchEntry
  rw [if_neg (by simp [p1, p2]), if_neg (by simp [p4, p5])]

theorem dumpEntries_again {v4 : Bool} {view seq : UInt16} :
    ∀ {es : List TableDump} {c : Bytes}, Blocks (DumpEntryBytes v4 view seq) es c →
    ((∀ e ∈ es, DumpRewritable e) → ∃ b es', encAll (encBatchEntry view seq v4) es = .ok b ∧
      Blocks (DumpEntryBytes v4 view seq) es' b ∧ Pairwise2 SameDump es es') ∧
    ∀ b es' c' u v, encAll (encBatchEntry view seq v4) es = .ok b → Blocks (DumpEntryBytes v4 view seq) es' c' →
      Pairwise2 SameDump es es' → c' ++ u = b ++ v → ∀ e ∈ es, DumpRewritable e := by
  intro es c h
  induction h with
  | nil => exact ⟨fun _ => ⟨[], [], rfl, .nil, .nil⟩, fun _ _ _ _ _ _ _ _ _ e he => by cases he⟩
  | cons h1 _ ih =>
    obtain ⟨g1, g2⟩ := dumpEntry_again h1
    have hq := encBatchEntry_eq h1
    constructor
    · intro hr
      obtain ⟨b1, e', k1, k2, k3⟩ := g1 (hr _ (by simp))
      obtain ⟨b2, es', m1, m2, m3⟩ := ih.1 (fun e he => hr e (by simp [he]))
      exact ⟨_, _, encAll_cons_ok.mpr ⟨_, _, hq.trans k1, m1, rfl⟩, .cons k2 m2, .cons k3 m3⟩
    · intro b es' c' u v hb hbl hp hcat
      obtain ⟨x, y, k1, k2, rfl⟩ := encAll_cons_ok.mp hb
      cases hp with
      | cons q1 q2 =>
        cases hbl with
        | cons n1 n2 =>
          rw [List.append_assoc, List.append_assoc] at hcat
          obtain ⟨w1, w2⟩ := g2 _ _ _ _ _ (hq ▸ k1) n1 q1 hcat
          intro e he
          rcases List.mem_cons.mp he with rfl | he
          · exact w1
          · exact ih.2 _ _ _ _ _ k2 n2 q2 w2 e he

theorem dumps_again {v4 : Bool} {s : Bytes} {ms : List TableDump} (h : parseTableDumps (if v4 then 1 else 2) s = .ok ms) :
    ((∀ m ∈ ms, DumpRewritable m) → ∃ b ms', encodeTableDumpBatch ms (if v4 then 1 else 2) = .ok b ∧
      parseTableDumps (if v4 then 1 else 2) b = .ok ms' ∧ Pairwise2 SameDump ms ms' ∧ ¬ LegacyShort (if v4 then 1 else 2) b) ∧
    ∀ b ms', encodeTableDumpBatch ms (if v4 then 1 else 2) = .ok b → parseTableDumps (if v4 then 1 else 2) b = .ok ms' →
      Pairwise2 SameDump ms ms' → ∀ m ∈ ms, DumpRewritable m := by
  obtain ⟨view, seq, body, hne, rfl, hbl⟩ := (c29_read_iff _ _ _).mp h
  obtain ⟨g1, g2⟩ := dumpEntries_again hbl
  have e : (decide ((if v4 = true then 1 else 2 : UInt16) = 1)) = v4 := by cases v4 <;> decide
  have henc : encodeTableDumpBatch ms (if v4 then 1 else 2) =
      match encAll (encBatchEntry view seq v4) ms with
      | .error e => .error e
      | .ok b => .ok (be16 view ++ (be16 seq ++ b)) := by
    cases hbl with
    | nil => exact absurd rfl hne
    | cons h1 h2 =>
      obtain ⟨rfl, rfl, _⟩ := h1
      unfold encodeTableDumpBatch
      dsimp only
      rw [if_pos (by cases v4 <;> decide), e]
      generalize encAll _ _ = z
      cases z <;> rfl
  rw [henc]
  constructor
  · intro hr
    obtain ⟨b, ms', k1, k2, k3⟩ := g1 hr
    rw [k1]
    have hs : be16 view ++ (be16 seq ++ b) = n16 view.toNat ++ n16 seq.toNat ++ b := by simp [be16_n16]
    refine ⟨_, ms', rfl, (c29_read_iff _ _ _).mpr ⟨view, seq, b, ?_, hs, k2⟩, k3, ?_⟩
    · rintro rfl
      cases k3
      exact hne rfl
    · rw [← List.append_assoc]
      exact whole_not_short rfl k2
  · intro b ms' hb hp hs
    cases h1 : encAll (encBatchEntry view seq v4) ms with
    | error e => rw [h1] at hb; cases hb
    | ok eb =>
      rw [h1] at hb
      cases hb
      obtain ⟨view', seq', body', hne', hb', hbl'⟩ := (c29_read_iff _ _ _).mp hp
      rw [be16_n16, be16_n16, List.append_assoc] at hb'
      obtain ⟨k1, hb1⟩ := n16_split hb'
      obtain ⟨k2, hb2⟩ := n16_split hb1
      subst k1 k2
      exact g2 eb ms' body' [] [] h1 hbl' hs (by rw [hb2])

theorem encodeTableDump_single {v4 : Bool} {view seq : UInt16} {m : TableDump} {c : Bytes} (h : DumpEntryBytes v4 view seq m c) :
    encodeTableDump m = encodeTableDumpBatch [m] (if v4 then 1 else 2) := by
  have e : (decide ((if v4 = true then 1 else 2 : UInt16) = 1)) = v4 := by cases v4 <;> decide
  have hq := encBatchEntry_eq h
  obtain ⟨rfl, rfl, _⟩ := h
  unfold encodeTableDumpBatch encodeTableDump
  dsimp only
  rw [if_pos (by cases v4 <;> decide), e]
  unfold encAll
  rw [hq]
  cases encTableDumpEntry m with
  | error e => rfl
  | ok b => simp [encAll]

/-! ### peer tables -/

theorem peers_again {s : Bytes} {t : PeerIndexTable} (h : parseTableDumpV2 1 s = .ok (.peerIndexTable t)) :
    ∃ b t', encodePeerIndexTable t = .ok b ∧ parseTableDumpV2 1 b = .ok (.peerIndexTable t') ∧ t'.collector = t.collector ∧
      t'.viewName = t.viewName ∧ ∀ id, t'.peer id = t.peer id := by
  have hok := c26_parsed_tables s t h
  have hlen : t.viewName.length ≤ 65535 ∧ t.idPeer.length ≤ 65535 := by
    have h' : mapOk TableDumpV2.peerIndexTable (parsePeerIndexTable.runOn s) = .ok (.peerIndexTable t) := h
    cases h1 : parsePeerIndexTable s with
    | error e => simp [Rd.runOn, h1, mapOk] at h'
    | ok v =>
      obtain ⟨t', r⟩ := v
      simp only [Rd.runOn, h1, mapOk] at h'
      cases h'
      obtain ⟨b, rfl, col, name, peers, ⟨hn, hp, pb, hb, _⟩, rfl⟩ := (exact_parsePeerIndexTable _ _ _).mp h1
      have ht := fillPeers_tableOf col (if utf8Ok name then name else []) peers hp
      refine ⟨?_, ?_⟩
      · rw [ht.name]; split
        · omega
        · simp
      · rw [fillPeers_length peers 0 _ (by omega) (by simp [PeerIndexTable.peer, amGet]) rfl]; omega
  have he : ∃ b, encodePeerIndexTable t = .ok b := by
    unfold encodePeerIndexTable
    rw [u16Len_ok.mpr ⟨hlen.1, rfl⟩, checkMax_ok.mpr ⟨hlen.2, rfl⟩]
    exact ⟨_, rfl⟩
  obtain ⟨b, hb⟩ := he
  obtain ⟨t', h1, h2⟩ := c26_roundtrip t b [] hok hb
  rw [List.append_nil] at h1
  exact ⟨b, t', hb, h1, h2⟩

theorem latin1_len (s : Bytes) : s.length ≤ (latin1 s).length ∧ ((latin1 s).length = s.length → Ascii s) := by
  induction s with
  | nil => exact ⟨Nat.le_refl _, fun _ b hb => by cases hb⟩
  | cons x s ih =>
    have e : latin1 (x :: s) = (if x.toNat < 0x80 then [x] else [UInt8.ofNat (0xC0 + x.toNat / 64), UInt8.ofNat (0x80 + x.toNat % 64)]) ++
        latin1 s := rfl
    rw [e, List.length_append, List.length_cons]
    obtain ⟨i1, i2⟩ := ih
    by_cases hx : x.toNat < 128
    · rw [if_pos hx, List.length_singleton]
      refine ⟨by omega, fun he b hb => ?_⟩
      rcases List.mem_cons.mp hb with rfl | hb
      · exact hx
      · exact i2 (by omega) b hb
    · rw [if_neg hx]
      simp only [List.length_cons, List.length_nil]
      exact ⟨by omega, fun he => by omega⟩

theorem geoPeers_ok {ps : List GeoPeer} {b : Bytes} (h : Blocks GeoPeerBytes ps b) : ∀ g ∈ ps, PeerOk g.peer := by
  induction h with
  | nil => intro g hg; cases hg
  | cons h _ ih =>
    intro g hg
    rcases List.mem_cons.mp hg with rfl | hg
    · obtain ⟨pb, ⟨h1, h2, _⟩, _⟩ := h
      exact ⟨h1, h2⟩
    · exact ih g hg

theorem geo_again {s : Bytes} {t : GeoPeerTable} (h : parseTableDumpV2 7 s = .ok (.geo t)) :
    (∃ b, encodeGeoPeerTable t = .ok b ∧ parseTableDumpV2 7 b = .ok (.geo t)) ↔ Ascii t.viewName := by
  obtain ⟨name, b0, r0, _, ⟨hn, hp, pb, hpb, _⟩, hv⟩ := (c58_read_iff _ _).mp h
  have hok := geoPeers_ok hpb
  constructor
  · rintro ⟨b, h1, h2⟩
    obtain ⟨g1, g2, gb, hgb, e1⟩ := encodeGeoPeerTable_layout hok h1
    obtain ⟨name', b', r', e2, ⟨k1, k2, kb, hkb, e3⟩, hv'⟩ := (c58_read_iff _ _).mp h2
    rw [e1, e3] at e2
    simp only [List.append_assoc, List.append_cancel_left_eq] at e2
    have hlen : name'.length = t.viewName.length := by
      have q1 := rdU16_n16 k1 (name' ++ (n32 t.lat.toNat ++ (n32 t.long.toNat ++ (n16 t.peers.length ++ (kb ++ r')))))
      have q2 := rdU16_n16 g1 (t.viewName ++ (n32 t.lat.toNat ++ (n32 t.long.toNat ++ (n16 t.peers.length ++ gb))))
      rw [← e2, q2] at q1
      injection q1 with q1
      have := congrArg (fun x => x.1.toNat) q1
      simp only [toNat_u16len (show name'.length ≤ 65535 by omega), toNat_u16len (show t.viewName.length ≤ 65535 by omega)] at this
      exact this.symm
    rw [hlen, List.append_cancel_left_eq] at e2
    have hnm := (List.append_inj e2 hlen.symm).1
    rw [hnm]
    exact (latin1_len name').2 (by rw [← hv', hlen])
  · intro ha
    have hle := (latin1_len name).1
    have hl2 : t.viewName.length ≤ 65535 := by
      have hna : Ascii name := by
        intro x hx
        apply Nat.lt_of_not_ge
        intro hge
        have hm : UInt8.ofNat (0xC0 + x.toNat / 64) ∈ t.viewName := by
          rw [hv]; unfold latin1
          exact List.mem_flatMap.mpr ⟨x, hx, by rw [if_neg (by omega)]; simp⟩
        have := ha _ hm
        have hx' := x.toNat_lt
        simp at this
        omega
      rw [hv, latin1_ascii hna]; omega
    have he : ∃ b, encodeGeoPeerTable t = .ok b := by
      unfold encodeGeoPeerTable
      rw [u16Len_ok.mpr ⟨hl2, rfl⟩, checkMax_ok.mpr ⟨by omega, rfl⟩]
      exact ⟨_, rfl⟩
    obtain ⟨b, hb⟩ := he
    have := c58_roundtrip_partial t b [] hok ha hb
    rw [List.append_nil] at this
    exact ⟨b, hb, this⟩

/-! ### BGP4MP -/

theorem encodeBgpMessage_rest {ap : Bool} {l : AsnLen} {m m' : BgpMessage} {b r : Bytes} (h : encodeBgpMessage l m = .ok b)
    (hp : parseBgpMessage ap l b = .ok (m', r)) : r = [] := by
  obtain ⟨body, k1⟩ := encodeBgpMessage_body h
  obtain ⟨f1, f2⟩ := encodeBgpMessage_frame k1
  obtain ⟨b', f3, f4⟩ := f2 (f1 b h)
  rw [h] at f3; cases f3
  rw [f4 ap] at hp
  split at hp
  · cases hp
  · cases hq : parseBody ap l m.msgType body with
    | error e => rw [hq] at hp; cases hp
    | ok x => rw [hq] at hp; cases hp; rfl

theorem mpFamily {l : AsnLen} {ap : Bool} {m : MpMessage} {s : Bytes} (h : MpMessageBytes l ap m s) : m.localIp.isV4 = m.peerIp.isV4 := by
  obtain ⟨_, _, msg, r, _, h⟩ := h
  split at h
  · rw [h.2.2.1, h.2.2.2]
  · exact h.2

theorem mp_again {t : MpType} {n : Nat} {l : AsnLen} {ap : Bool} (ht : mpMessageType t = some (n, l, ap)) {s : Bytes} {m : MpMessage}
    (h : parseBgp4Mp (UInt16.ofNat n) s = .ok (.message m)) :
    (∃ b m', encodeMrtMessage (.bgp4mp (.message m)) (UInt16.ofNat n) = .ok b ∧ parseBgp4Mp (UInt16.ofNat n) b = .ok (.message m') ∧
      SameMp m m') ↔ MessageRewritable ap l m.message := by
  have read := fun s x => c30_message_iff t n l ap ht s x
  obtain ⟨m0, e0, hty, hbytes⟩ := (read _ _).mp h
  cases e0
  have hfam := mpFamily hbytes
  obtain ⟨hpa, hla, msg, r, hparse, _⟩ := hbytes
  have he : encodeMrtMessage (.bgp4mp (.message m)) (UInt16.ofNat n) = encodeMpMessage l m := by
    cases t <;> cases ht <;> rfl
  have hi := c105_message hparse
  rw [he]
  unfold encodeMpMessage
  constructor
  · rintro ⟨b, m', h1, h2, h3⟩
    cases hc : encodeBgpMessage l m.message with
    | error e => rw [hc] at h1; cases h1
    | ok c =>
      rw [hc] at h1
      cases h1
      rw [mpHead_bytes hpa hla] at h2
      obtain ⟨m1, e1, hty', _, _, msg', r', hp', hcase⟩ := (read _ _).mp h2
      cases e1
      obtain ⟨q1, q2, q3, q4, q5, q6, q7⟩ := h3
      rw [if_neg] at hcase
      · obtain ⟨e, _⟩ := hcase
        rw [q2, q3, q4, q5, q6, List.append_cancel_left_eq] at e
        subst e
        have := encodeBgpMessage_rest hc hp'
        subst this
        exact hi.mp ⟨c, m'.message, hc, hp', q7⟩
      · rintro ⟨rfl, hz⟩
        exact mpHead_not_zebra _ _ _ _ _ _ hz
  · intro hr
    obtain ⟨c, x, k1, k2, k3⟩ := hi.mpr hr
    rw [k1]
    refine ⟨_, { m with message := x }, rfl, (read _ _).mpr ⟨_, rfl, hty, ?_⟩, rfl, rfl, rfl, rfl, rfl, rfl, k3⟩
    rw [mpHead_bytes hpa hla]
    refine ⟨hpa, hla, c, [], k2, ?_⟩
    rw [if_neg]
    · exact ⟨rfl, hfam⟩
    · rintro ⟨rfl, hz⟩
      exact mpHead_not_zebra _ _ _ _ _ _ hz

theorem mpState_again {t : MpType} {n : Nat} {l : AsnLen} (ht : mpStateType t = some (n, l)) {s : Bytes} {m : MpStateChange}
    (h : parseBgp4Mp (UInt16.ofNat n) s = .ok (.stateChange m)) :
    ∃ b, encodeMrtMessage (.bgp4mp (.stateChange m)) (UInt16.ofNat n) = .ok b ∧
      parseBgp4Mp (UInt16.ofNat n) b = .ok (.stateChange m) := by
  obtain ⟨m0, e0, hty, h1, h2, h3⟩ := (c30_state_iff t n l ht _ _).mp h
  cases e0
  have he : ∃ b, encodeMrtMessage (.bgp4mp (.stateChange m)) (UInt16.ofNat n) = .ok b := by
    cases t <;> cases ht <;> exact ⟨_, rfl⟩
  obtain ⟨b, hb⟩ := he
  refine ⟨b, hb, c30_state_roundtrip m n l (by rw [hty]; exact ht) ⟨h1, h2, ?_⟩ b hb⟩
  split at h3
  · rw [h3.2.2.1, h3.2.2.2]
  · exact h3.1

/-! ### the deprecated type 5 -/

theorem asn16_of {a : Asn} (h : a.toNat < 65536) : asn16 a = .ok (n16 a.toNat) := by
  cases h1 : asn16 a with
  | error e => unfold asn16 at h1; rw [if_pos (by omega)] at h1; cases h1
  | ok b => rw [(asn16_ok h1).2]

theorem encLegacy_iff {m : LegacyMessage} {payload s : Bytes} (h : LegacyMessageBytes m payload s) {sub : UInt16}
    (hs : sub ∈ [1, 5, 6, 7]) (b : Bytes) :
    encodeLegacyBgp (.message m) sub = .ok b ↔ ∃ p, encLegacyPayload sub m.message = .ok p ∧ LegacyMessageBytes m p b := by
  obtain ⟨pi, li, h1, h2, h3, h4, _⟩ := h
  unfold encodeLegacyBgp
  dsimp only
  rw [if_pos (by simpa using hs), asn16_of h3, asn16_of h4, h1, h2]
  unfold legacyIp
  cases hp : encLegacyPayload sub m.message with
  | error e => simp [encParts]
  | ok p =>
    simp only [encParts, Except.ok.injEq]
    constructor
    · rintro rfl
      exact ⟨p, rfl, pi, li, h1, h2, h3, h4, by simp⟩
    · rintro ⟨_, rfl, a, c, e1, e2, _, _, rfl⟩
      rw [h1] at e1; rw [h2] at e2
      cases e1; cases e2
      simp

theorem legacyBytes_inj {m m' : LegacyMessage} {p p' b : Bytes} (h : LegacyMessageBytes m p b) (h' : LegacyMessageBytes m' p' b)
    (e1 : m'.peerAsn = m.peerAsn) (e2 : m'.peerIp = m.peerIp) (e3 : m'.localAsn = m.localAsn) (e4 : m'.localIp = m.localIp) :
    p' = p := by
  obtain ⟨a, c, q1, q2, _, _, rfl⟩ := h
  obtain ⟨a', c', w1, w2, _, _, e⟩ := h'
  rw [e2, q1] at w1; rw [e4, q2] at w2
  cases w1; cases w2
  rw [e1, e3, List.append_cancel_left_eq] at e
  exact e.symm

theorem legacySub {sub : UInt16} {s : Bytes} {x : LegacyBgp} (h : parseLegacyBgp sub s = .ok x) :
    (∀ m, x = .message m → sub ∈ [1, 5, 6, 7]) ∧ ∀ m, x = .stateChange m → sub = 3 := by
  by_cases h1 : sub ∈ [1, 5, 6, 7]
  · obtain ⟨m, p, rfl, _⟩ := (c59_message_iff sub h1 _ _).mp h
    exact ⟨fun _ _ => h1, fun _ e => (by cases e)⟩
  · by_cases h3 : sub = 3
    · subst h3
      obtain ⟨m, rfl, _⟩ := (c59_state_iff _ _).mp h
      exact ⟨fun _ e => (by cases e), fun _ _ => rfl⟩
    · unfold parseLegacyBgp at h
      rw [if_neg (by simpa using h1), if_neg h3] at h
      cases h

theorem legacy_again {sub : UInt16} {s : Bytes} {m : LegacyMessage} (h : parseLegacyBgp sub s = .ok (.message m)) :
    (∃ b m', encodeLegacyBgp (.message m) sub = .ok b ∧ parseLegacyBgp sub b = .ok (.message m') ∧ m'.peerAsn = m.peerAsn ∧
      m'.peerIp = m.peerIp ∧ m'.localAsn = m.localAsn ∧ m'.localIp = m.localIp ∧ SameMessage m.message m'.message) ↔
      LegacyRewritable m.message := by
  have hs : sub ∈ [1, 5, 6, 7] := (legacySub h).1 m rfl
  have read := fun s x => c59_message_iff sub hs s x
  obtain ⟨m0, payload, e0, hb, hpay⟩ := (read _ _).mp h
  cases e0
  have henc := fun b => encLegacy_iff hb hs b
  have hmk : ∀ {p b : Bytes} (x : BgpMessage), LegacyMessageBytes m p b → LegacyMessageBytes { m with message := x } p b :=
    fun x h => h
  have hex : ∀ p, ∃ b, LegacyMessageBytes m p b := by
    intro p
    obtain ⟨a, c, q1, q2, q3, q4, _⟩ := hb
    exact ⟨_, a, c, q1, q2, q3, q4, rfl⟩
  rcases hpay with ⟨rfl, u, hm, hu⟩ | ⟨rfl, o, hm, ho⟩ | ⟨rfl, nn, hm, hn⟩ | ⟨rfl, hm, rfl⟩
  · have hi := c105_update hu
    rw [hm]
    show _ ↔ (∀ x ∈ u.attributes.inner, Rewritable (updateCfg false .b16) x.value) ∧
      ∀ b, encodeAttributes .b16 u.attributes.inner = .ok b → b.length < 65536
    rw [← hi]
    constructor
    · rintro ⟨b, m', h1, h2, e1, e2, e3, e4, e5⟩
      obtain ⟨p, k1, k2⟩ := (henc b).mp h1
      obtain ⟨m1, p', ee, k3, k4⟩ := (read _ _).mp h2
      cases ee
      obtain rfl := legacyBytes_inj k2 k3 e1 e2 e3 e4
      rw [hm] at k1
      rcases k4 with ⟨_, u', hm', hu'⟩ | ⟨hx, _⟩ | ⟨hx, _⟩ | ⟨hx, _⟩
      · rw [hm'] at e5
        exact ⟨p', u', k1, hu', e5⟩
      all_goals exact absurd hx (by decide)
    · rintro ⟨p, u', k1, k2, k3⟩
      obtain ⟨b, k4⟩ := hex p
      exact ⟨b, { m with message := .update u' }, (henc b).mpr ⟨p, by rw [hm]; exact k1, k4⟩,
        (read _ _).mpr ⟨_, p, rfl, hmk _ k4, .inl ⟨rfl, u', rfl, k2⟩⟩, rfl, rfl, rfl, rfl, k3⟩
  · obtain ⟨g1, _⟩ := parseOpen_back ho
    rw [hm]
    show _ ↔ ∃ b, encodeOpen o = .ok b
    constructor
    · rintro ⟨b, m', h1, _⟩
      obtain ⟨p, k1, _⟩ := (henc b).mp h1
      rw [hm] at k1
      exact ⟨p, k1⟩
    · rintro ⟨p, k1⟩
      obtain ⟨b, k4⟩ := hex p
      exact ⟨b, { m with message := .open { o with extended := o.extended || decide (265 < p.length) } },
        (henc b).mpr ⟨p, by rw [hm]; exact k1, k4⟩,
        (read _ _).mpr ⟨_, p, rfl, hmk _ k4, .inr (.inl ⟨rfl, _, rfl, c17_open_roundtrip o p g1 k1⟩)⟩, rfl, rfl, rfl, rfl, p, k1, rfl⟩
  · rw [hm]
    refine ⟨fun _ => trivial, fun _ => ?_⟩
    have hform : ErrorOk nn.error := by
      match payload, hn with
      | c :: sb :: dd, hn =>
        rw [parseNotification_cons] at hn
        cases hn
        exact ((c18_error_numbers c sb _).mp rfl).1
    obtain ⟨b, k4⟩ := hex (encodeNotification nn)
    exact ⟨b, m, (henc b).mpr ⟨_, by rw [hm]; rfl, k4⟩,
      (read _ _).mpr ⟨_, _, rfl, k4, .inr (.inr (.inl ⟨rfl, nn, hm, c18_notification_roundtrip nn hform⟩))⟩, rfl, rfl, rfl, rfl, by
        rw [hm]; rfl⟩
  · rw [hm]
    refine ⟨fun _ => trivial, fun _ => ?_⟩
    obtain ⟨b, k4⟩ := hex []
    exact ⟨b, m, (henc b).mpr ⟨_, by rw [hm]; rfl, k4⟩,
      (read _ _).mpr ⟨_, _, rfl, k4, .inr (.inr (.inr ⟨rfl, hm, rfl⟩))⟩, rfl, rfl, rfl, rfl, by rw [hm]; trivial⟩

theorem legacyState_again {sub : UInt16} {s : Bytes} {m : LegacyStateChange} (h : parseLegacyBgp sub s = .ok (.stateChange m)) :
    ∃ b, encodeLegacyBgp (.stateChange m) sub = .ok b ∧ parseLegacyBgp sub b = .ok (.stateChange m) := by
  have hs : sub = 3 := (legacySub h).2 m rfl
  subst hs
  obtain ⟨m0, e0, p, h1, h2, _⟩ := (c59_state_iff _ _).mp h
  cases e0
  have he : ∃ b, encodeLegacyBgp (.stateChange m) 3 = .ok b := by
    unfold encodeLegacyBgp
    dsimp only
    rw [if_pos rfl, asn16_of h2, h1]
    exact ⟨_, rfl⟩
  obtain ⟨b, hb⟩ := he
  exact ⟨b, hb, c59_state_roundtrip m 3 b hb⟩

/-! ### bodies -/

theorem mpSub {sub : UInt16} {s : Bytes} {x : Bgp4Mp} (h : parseBgp4Mp sub s = .ok x) :
    (∀ m, x = .message m → ∃ n l ap, mpMessageType m.msgType = some (n, l, ap) ∧ sub = UInt16.ofNat n) ∧
    ∀ m, x = .stateChange m → ∃ n l, mpStateType m.msgType = some (n, l) ∧ sub = UInt16.ofNat n := by
  have hsub : sub.toNat ∈ [0, 1, 4, 5, 6, 7, 8, 9, 10, 11] := by
    apply Classical.byContradiction
    intro hn
    rw [c30_other_subtypes sub s hn] at h
    cases h
  have hs : sub = UInt16.ofNat sub.toNat := by simp
  have msg : ∀ t n l ap, mpMessageType t = some (n, l, ap) → sub.toNat = n →
      (∀ m, x = .message m → ∃ n l ap, mpMessageType m.msgType = some (n, l, ap) ∧ sub = UInt16.ofNat n) ∧
      ∀ m, x = .stateChange m → ∃ n l, mpStateType m.msgType = some (n, l) ∧ sub = UInt16.ofNat n := fun t n l ap ht hn => by
    have e : sub = UInt16.ofNat n := by rw [← hn]; exact hs
    rw [e] at h
    obtain ⟨m, rfl, hty, _⟩ := (c30_message_iff t n l ap ht _ _).mp h
    exact ⟨fun m' hm' => (by cases hm'; exact ⟨n, l, ap, by rw [hty]; exact ht, e⟩), fun _ e => (by cases e)⟩
  have st : ∀ t n l, mpStateType t = some (n, l) → sub.toNat = n →
      (∀ m, x = .message m → ∃ n l ap, mpMessageType m.msgType = some (n, l, ap) ∧ sub = UInt16.ofNat n) ∧
      ∀ m, x = .stateChange m → ∃ n l, mpStateType m.msgType = some (n, l) ∧ sub = UInt16.ofNat n := fun t n l ht hn => by
    have e : sub = UInt16.ofNat n := by rw [← hn]; exact hs
    rw [e] at h
    obtain ⟨m, rfl, hty, _⟩ := (c30_state_iff t n l ht _ _).mp h
    exact ⟨fun _ e => (by cases e), fun m' hm' => (by cases hm'; exact ⟨n, l, by rw [hty]; exact ht, e⟩)⟩
  simp only [List.mem_cons, List.not_mem_nil, or_false] at hsub
  rcases hsub with h0 | h0 | h0 | h0 | h0 | h0 | h0 | h0 | h0 | h0
  · exact st .stateChange _ _ rfl h0
  · exact msg .message _ _ _ rfl h0
  · exact msg .messageAs4 _ _ _ rfl h0
  · exact st .stateChangeAs4 _ _ rfl h0
  · exact msg .messageLocal _ _ _ rfl h0
  · exact msg .messageAs4Local _ _ _ rfl h0
  · exact msg .messageAp _ _ _ rfl h0
  · exact msg .messageAs4Ap _ _ _ rfl h0
  · exact msg .messageLocalAp _ _ _ rfl h0
  · exact msg .messageLocalAs4Ap _ _ _ rfl h0

theorem mpBody_again {ty : EntryType} (hty : parseMrtBody ty = parseMrtBody .bgp4mp) {sub : UInt16} {s : Bytes} {m : MrtMessage}
    (h : parseMrtBody ty sub s = .ok m) :
    (∃ b m', encodeMrtMessage m sub = .ok b ∧ parseMrtBody ty sub b = .ok m' ∧ SameMrt m m') ↔ BodyRewritable m := by
  rw [hty] at h ⊢
  obtain ⟨x, hx, rfl⟩ := mapOk_inv (f := MrtMessage.bgp4mp) h
  have back : ∀ {b m'}, parseMrtBody .bgp4mp sub b = .ok m' ↔ ∃ x', parseBgp4Mp sub b = .ok x' ∧ m' = .bgp4mp x' := by
    intro b m'
    constructor
    · intro h; exact mapOk_inv (f := MrtMessage.bgp4mp) h
    · rintro ⟨x', h1, rfl⟩
      show mapOk MrtMessage.bgp4mp (parseBgp4Mp sub b) = _
      rw [h1]; rfl
  simp only [back]
  cases x with
  | message m =>
    obtain ⟨n, l, ap, ht, rfl⟩ := (mpSub hx).1 m rfl
    have hb : BodyRewritable (.bgp4mp (.message m)) ↔ MessageRewritable ap l m.message := by
      constructor
      · intro h; exact h n l ap ht
      · intro h n' l' ap' ht'
        rw [ht] at ht'; cases ht'
        exact h
    rw [hb, ← mp_again ht hx]
    constructor
    · rintro ⟨b, m', h1, ⟨x', h2, rfl⟩, h3⟩
      cases h3 with
      | message h3 => exact ⟨b, _, h1, h2, h3⟩
    · rintro ⟨b, m', h1, h2, h3⟩
      exact ⟨b, _, h1, ⟨_, h2, rfl⟩, .message h3⟩
  | stateChange m =>
    obtain ⟨n, l, ht, rfl⟩ := (mpSub hx).2 m rfl
    obtain ⟨b, h1, h2⟩ := mpState_again ht hx
    exact ⟨fun _ => trivial, fun _ => ⟨b, _, h1, ⟨_, h2, rfl⟩, .state⟩⟩

theorem iteSome {p : Prop} [Decidable p] {a t : α} {r : Option α} (h : (if p then some a else r) = some t) :
    (p ∧ a = t) ∨ r = some t := by
  by_cases hp : p
  · rw [if_pos hp] at h; cases h; exact .inl ⟨hp, rfl⟩
  · rw [if_neg hp] at h; exact .inr h

theorem v2Sub {sub : UInt16} {s : Bytes} {x : TableDumpV2} (h : parseTableDumpV2 sub s = .ok x) :
    (∀ t, x = .peerIndexTable t → sub = 1) ∧ (∀ t, x = .geo t → sub = 7) ∧
    ∀ r, x = .ribAfi r → ∃ n afi safi ap, ribFamily r.ribType = some (n, afi, safi, ap) ∧ sub = UInt16.ofNat n := by
  have key : ∀ t, V2Type.ofU16? sub = some t → sub = t.toU16 := by
    intro t ht
    unfold V2Type.ofU16? at ht
    iterate 12
      rcases iteSome ht with ⟨h, rfl⟩ | ht
      · exact h
    cases ht
  have rib : ∀ t n afi safi ap, ribFamily t = some (n, afi, safi, ap) → V2Type.ofU16? sub = some t →
      (∀ t, x = .peerIndexTable t → sub = 1) ∧ (∀ t, x = .geo t → sub = 7) ∧
        ∀ r, x = .ribAfi r → ∃ n afi safi ap, ribFamily r.ribType = some (n, afi, safi, ap) ∧ sub = UInt16.ofNat n := by
    intro t n afi safi ap ht hq
    have e : sub = UInt16.ofNat n := by
      rw [key t hq]
      cases t <;> cases ht <;> rfl
    rw [e] at h
    obtain ⟨r, rfl, _, _, _, _, _, _, _, _, _, hr, _⟩ := (c28_read_iff t n afi safi ap ht _ _).mp h
    exact ⟨fun _ e => (by cases e), fun _ e => (by cases e), fun r' e' => (by cases e'; exact ⟨n, afi, safi, ap, by rw [hr]; exact ht, e⟩)⟩
  cases hq : V2Type.ofU16? sub with
  | none => unfold parseTableDumpV2 at h; rw [hq] at h; cases h
  | some t =>
    have e := key t hq
    cases t
    case peerIndexTable =>
      unfold parseTableDumpV2 at h
      rw [hq] at h
      obtain ⟨_, _, rfl⟩ := mapOk_inv (f := TableDumpV2.peerIndexTable) h
      exact ⟨fun _ _ => e, fun _ e => (by cases e), fun _ e => (by cases e)⟩
    case geo =>
      unfold parseTableDumpV2 at h
      rw [hq] at h
      obtain ⟨_, _, rfl⟩ := mapOk_inv (f := TableDumpV2.geo) h
      exact ⟨fun _ e => (by cases e), fun _ _ => e, fun _ e => (by cases e)⟩
    case generic => unfold parseTableDumpV2 at h; rw [hq] at h; cases h
    case genericAp => unfold parseTableDumpV2 at h; rw [hq] at h; cases h
    all_goals exact rib _ _ _ _ _ rfl hq

theorem dumpSub {sub : UInt16} {s : Bytes} {ms : List TableDump} (h : parseTableDumps sub s = .ok ms) :
    ∃ v4 : Bool, sub = if v4 then 1 else 2 := by
  by_cases h1 : sub = 1
  · exact ⟨true, h1⟩
  · by_cases h2 : sub = 2
    · exact ⟨false, h2⟩
    · exact absurd h (c29_other_subtypes _ _ h1 h2 _)

/-- C106. The body of a record that was read is written and read again, under the same type and subtype and as the same
message, exactly when it is `BodyRewritable`. -/
theorem c106_body {ty : EntryType} {sub : UInt16} {s : Bytes} {m : MrtMessage} (h : parseMrtBody ty sub s = .ok m) :
    (∃ b m', encodeMrtMessage m sub = .ok b ∧ parseMrtBody ty sub b = .ok m' ∧ SameMrt m m') ↔ BodyRewritable m := by
  cases ty
  case tableDump =>
    have dump : ∀ {s ms}, parseTableDumps sub s = .ok ms → parseMrtBody .tableDump sub s = .ok (match ms with
        | [m] => .tableDump m | ms => .tableDumpBatch ms) := by
      intro s ms h
      simp only [parseMrtBody]
      rw [h]
      match ms with
      | [] => rfl
      | [_] => rfl
      | _ :: _ :: _ => rfl
    have dumpInv : ∀ {s m}, parseMrtBody .tableDump sub s = .ok m → ∃ ms, parseTableDumps sub s = .ok ms ∧
        m = (match ms with | [m] => .tableDump m | ms => .tableDumpBatch ms) := by
      intro s m h
      cases hp : parseTableDumps sub s with
      | error e => simp only [parseMrtBody] at h; rw [hp] at h; cases h
      | ok ms => rw [dump hp] at h; cases h; exact ⟨ms, rfl, rfl⟩
    obtain ⟨ms, hms, rfl⟩ := dumpInv h
    obtain ⟨v4, rfl⟩ := dumpSub hms
    obtain ⟨g1, g2⟩ := dumps_again hms
    obtain ⟨view, seq, body, hne, _, hbl⟩ := (c29_read_iff _ _ _).mp hms
    match ms, hne with
    | [x], _ =>
      have hx : encodeTableDump x = encodeTableDumpBatch [x] (if v4 then 1 else 2) := by
        cases hbl with
        | cons h1 h2 => exact encodeTableDump_single h1
      show (∃ b m', encodeTableDump x = .ok b ∧ _) ↔ DumpRewritable x
      rw [hx]
      constructor
      · rintro ⟨b, m', h1, h2, h3⟩
        obtain ⟨ms', k1, rfl⟩ := dumpInv h2
        cases ms' with
        | nil => cases h3
        | cons y ys =>
          cases ys with
          | nil =>
            cases h3 with
            | dump h3 => exact g2 b [y] h1 k1 (.cons h3 .nil) x (by simp)
          | cons z zs => cases h3
      · intro hr
        obtain ⟨b, ms', k1, k2, k3, _⟩ := g1 (fun m hm => by rcases List.mem_singleton.mp hm with rfl; exact hr)
        cases k3 with
        | cons k3 k4 =>
          cases k4
          exact ⟨b, _, k1, dump k2, .dump k3⟩
    | x :: y :: ms, _ =>
      show (∃ b m', encodeTableDumpBatch (x :: y :: ms) (if v4 then 1 else 2) = .ok b ∧ _) ↔ ∀ m ∈ x :: y :: ms, DumpRewritable m
      constructor
      · rintro ⟨b, m', h1, h2, h3⟩
        obtain ⟨ms', k1, rfl⟩ := dumpInv h2
        match ms', h3 with
        | [], .batch h3 => cases h3
        | _ :: _ :: _, .batch h3 => exact g2 b _ h1 k1 h3
      · intro hr
        obtain ⟨b, ms', k1, k2, k3, _⟩ := g1 hr
        refine ⟨b, _, k1, dump k2, ?_⟩
        match ms', k3 with
        | _ :: _ :: _, k3 => exact .batch k3
  case tableDumpV2 =>
    obtain ⟨x, hx, rfl⟩ := mapOk_inv (f := MrtMessage.tableDumpV2) h
    have back : ∀ {b m'}, parseMrtBody .tableDumpV2 sub b = .ok m' ↔ ∃ x', parseTableDumpV2 sub b = .ok x' ∧ m' = .tableDumpV2 x' := by
      intro b m'
      constructor
      · intro h; exact mapOk_inv (f := MrtMessage.tableDumpV2) h
      · rintro ⟨x', h1, rfl⟩
        show mapOk MrtMessage.tableDumpV2 (parseTableDumpV2 sub b) = _
        rw [h1]; rfl
    simp only [back]
    cases x with
    | peerIndexTable t =>
      obtain rfl : sub = 1 := (v2Sub hx).1 t rfl
      obtain ⟨b, t', h1, h2, h3, h4, h5⟩ := peers_again hx
      exact ⟨fun _ => trivial, fun _ => ⟨b, _, h1, ⟨_, h2, rfl⟩, .peers h3 h4 h5⟩⟩
    | geo t =>
      obtain rfl : sub = 7 := (v2Sub hx).2.1 t rfl
      show _ ↔ Ascii t.viewName
      rw [← geo_again hx]
      constructor
      · rintro ⟨b, m', h1, ⟨x', h2, rfl⟩, h3⟩
        cases h3
        exact ⟨b, h1, h2⟩
      · rintro ⟨b, h1, h2⟩
        exact ⟨b, _, h1, ⟨_, h2, rfl⟩, .geo⟩
    | ribGeneric g => exact ⟨fun ⟨_, _, h1, _⟩ => (by cases h1), fun h => h.elim⟩
    | ribAfi r =>
      obtain ⟨n, afi, safi, ap, ht, rfl⟩ : ∃ n afi safi ap, ribFamily r.ribType = some (n, afi, safi, ap) ∧ sub = UInt16.ofNat n :=
        (v2Sub hx).2.2 r rfl
      have hi := c105_rib ht hx
      have hb : BodyRewritable (.tableDumpV2 (.ribAfi r)) ↔ ∀ e ∈ r.entries, EntryRewritable (ribCfg ap afi safi r.prefix_) e := by
        constructor
        · intro h; exact h n afi safi ap ht
        · intro h n' afi' safi' ap' ht'
          rw [ht] at ht'; cases ht'
          exact h
      rw [hb, ← hi]
      constructor
      · rintro ⟨b, m', h1, ⟨x', h2, rfl⟩, h3⟩
        cases h3 with
        | rib h3 => exact ⟨b, _, h1, h2, h3⟩
      · rintro ⟨b, r', h1, h2, h3⟩
        exact ⟨b, _, h1, ⟨_, h2, rfl⟩, .rib h3⟩
  case bgp =>
    obtain ⟨x, hx, rfl⟩ := mapOk_inv (f := MrtMessage.legacyBgp) h
    have back : ∀ {b m'}, parseMrtBody .bgp sub b = .ok m' ↔ ∃ x', parseLegacyBgp sub b = .ok x' ∧ m' = .legacyBgp x' := by
      intro b m'
      constructor
      · intro h; exact mapOk_inv (f := MrtMessage.legacyBgp) h
      · rintro ⟨x', h1, rfl⟩
        show mapOk MrtMessage.legacyBgp (parseLegacyBgp sub b) = _
        rw [h1]; rfl
    simp only [back]
    cases x with
    | message m =>
      show _ ↔ LegacyRewritable m.message
      rw [← legacy_again hx]
      constructor
      · rintro ⟨b, m', h1, ⟨x', h2, rfl⟩, h3⟩
        cases h3 with
        | legacyMessage e1 e2 e3 e4 e5 => exact ⟨b, _, h1, h2, e1, e2, e3, e4, e5⟩
      · rintro ⟨b, m', h1, h2, e1, e2, e3, e4, e5⟩
        exact ⟨b, _, h1, ⟨_, h2, rfl⟩, .legacyMessage e1 e2 e3 e4 e5⟩
    | stateChange m =>
      obtain ⟨b, h1, h2⟩ := legacyState_again hx
      exact ⟨fun _ => trivial, fun _ => ⟨b, _, h1, ⟨_, h2, rfl⟩, .legacyState⟩⟩
  case bgp4mp => exact mpBody_again rfl h
  case bgp4mpEt => exact mpBody_again rfl h
  all_goals cases h

/-! ### records and files -/

theorem dump_not_short {sub : UInt16} {b : Bytes} {m : MrtMessage} (h : parseMrtBody .tableDump sub b = .ok m) : ¬ LegacyShort sub b := by
  cases hp : parseTableDumps sub b with
  | error e => simp only [parseMrtBody] at h; rw [hp] at h; cases h
  | ok ms =>
    obtain ⟨v4, rfl⟩ := dumpSub hp
    obtain ⟨view, seq, body, _, rfl, hbl⟩ := (c29_read_iff _ _ _).mp hp
    exact whole_not_short rfl hbl

theorem raw_parse {raw : Raw} {r : MrtRecord} : raw.parse = .ok r ↔
    r.header = raw.header ∧ parseMrtBody raw.header.type raw.header.subtype raw.body = .ok r.message := by
  unfold Raw.parse
  cases h : parseMrtBody raw.header.type raw.header.subtype raw.body with
  | error e => simp [mapOk]
  | ok m =>
    obtain ⟨hd, msg⟩ := r
    simp only [mapOk, Except.ok.injEq, MrtRecord.mk.injEq]
    constructor
    · rintro ⟨rfl, rfl⟩; exact ⟨rfl, rfl⟩
    · rintro ⟨rfl, rfl⟩; exact ⟨rfl, rfl⟩

theorem nextT_wasRead {k : Option Bool} {t t' : List Tok} {r : MrtRecord} (h : nextT k t = (.ok r, t')) :
    ∃ raw, Frame raw raw.bytes ∧ raw.parse = .ok r ∧ t = byteToks raw.bytes ++ t' := by
  unfold nextT at h
  cases hc : chunkT k t with
  | mk y t1 =>
    rw [hc] at h
    cases y with
    | error e => cases h
    | ok raw =>
      dsimp only at h
      cases hp : raw.parse with
      | error e => rw [hp] at h; cases h
      | ok r' =>
        rw [hp] at h; cases h
        obtain ⟨h1, h2⟩ := chunkT_ok hc
        exact ⟨raw, h1, hp, h2⟩

/-- C106. What a reader returns as a record `WasRead`. -/
theorem c106_read {pol : Pol} {s s' : Src} {r : MrtRecord} (h : nextRecord pol s = (.ok r, s')) : WasRead r := by
  obtain ⟨s1, g1, _, _⟩ := nextRecord_eq pol s
  rw [g1] at h
  have h' : (nextT s.stuck (toks s.evs)).1 = .ok r := congrArg Prod.fst h
  obtain ⟨raw, h1, h2, _⟩ := nextT_wasRead (k := s.stuck) (t := toks s.evs) (t' := (nextT s.stuck (toks s.evs)).2) (r := r)
    (Prod.ext h' rfl)
  exact ⟨raw, _, h1, h2⟩

theorem fallibleT_wasRead (f : Keep σ) (k : Option Bool) : ∀ (n : Nat) (q : σ) (t : List Tok), t.length ≤ n → ∀ r,
    (fallibleT f k q t).1 = some (.ok r) → WasRead r := by
  intro n
  induction n with
  | zero =>
    intro q t hn r h
    cases hc : nextT k t with
    | mk x t' =>
      cases x with
      | ok y =>
        rcases nextT_progress hc with hp | ⟨e, he, _⟩
        · omega
        · cases he
      | error e =>
        rw [fallibleT_of_error f q hc] at h
        split at h <;> cases h
  | succ n ih =>
    intro q t hn r h
    cases hc : nextT k t with
    | mk x t' =>
      cases x with
      | ok y =>
        rw [fallibleT_of_ok f q hc] at h
        split at h
        · cases h
          obtain ⟨raw, h1, h2, _⟩ := nextT_wasRead hc
          exact ⟨raw, _, h1, h2⟩
        · refine ih _ t' ?_ r h
          rcases nextT_progress hc with hp | ⟨e, he, _⟩
          · omega
          · cases he
      | error e =>
        rw [fallibleT_of_error f q hc] at h
        split at h <;> cases h

theorem loop_wasRead (f : Keep σ) (k : Option Bool) (n : Nat) : ∀ (q : σ) (t : List Tok), ∀ r,
    Except.ok r ∈ (forLoop (fun p => fallibleT f k p.1 p.2) n (q, t)).1 → WasRead r := by
  induction n with
  | zero => intro q t r h; cases h
  | succ n ih =>
    intro q t r h
    simp only [forLoop] at h
    cases hc : fallibleT f k q t with
    | mk x p =>
      rw [hc] at h
      cases x with
      | none => cases h
      | some x =>
        simp only at h
        rcases List.mem_cons.mp h with rfl | h
        · exact fallibleT_wasRead f k _ q t (Nat.le_refl _) r (by rw [hc])
        · exact ih p.1 p.2 r h

theorem okBefore_mem (cd : Bool) (l : List (Except RecErr MrtRecord)) : ∀ r ∈ okBefore cd l, Except.ok r ∈ l := by
  induction l with
  | nil => intro r h; cases h
  | cons x l ih =>
    intro r h
    cases x with
    | ok y =>
      rcases List.mem_cons.mp h with rfl | h
      · exact List.mem_cons_self
      · exact List.mem_cons_of_mem _ (ih r h)
    | error e =>
      unfold okBefore at h
      split at h
      · cases h
      · exact List.mem_cons_of_mem _ (ih r h)

/-- C106. Every record of the fallible iterator and of the default iterator, with any filters, `WasRead`. -/
theorem c106_iterators (f : Keep σ) (q : σ) (coreDump : Bool) (pol : Pol) (s : Src) (n : Nat) (r : MrtRecord) :
    (Except.ok r ∈ (forLoop (fallibleIter f pol) n (q, s)).1 → WasRead r) ∧
    ((toks s.evs).length < n → r ∈ (forLoop (defaultIter f coreDump pol) n (q, s)).1 → WasRead r) := by
  have hf : Except.ok r ∈ (forLoop (fallibleIter f pol) n (q, s)).1 → WasRead r := by
    rw [(loop_fallible f pol s.stuck n q s _ (At.self s)).1]
    exact loop_wasRead f s.stuck n q _ r
  refine ⟨hf, fun hn h => hf ?_⟩
  rw [c25_default f q coreDump pol s n n hn hn] at h
  exact okBefore_mem _ _ r h

theorem headerBytes_fun {h : Header} {a b : Bytes} (h1 : HeaderBytes h a) (h2 : HeaderBytes h b) : a = b := by
  unfold HeaderBytes at h1 h2
  cases hm : h.micro with
  | none => rw [hm] at h1 h2; rw [h1.2, h2.2]
  | some m => rw [hm] at h1 h2; rw [h1.2.2, h2.2.2]

theorem headerBytes_micro {h : Header} {a : Bytes} (h1 : HeaderBytes h a) : h.micro.isSome ↔ h.type = .bgp4mpEt := by
  unfold HeaderBytes at h1
  cases hm : h.micro with
  | none => rw [hm] at h1; simp [h1.1]
  | some m => rw [hm] at h1; simp [h1.1]

/-- what `encodeRecord` writes, given the body. -/
theorem encodeRecord_of {r : MrtRecord} (hm : r.header.micro.isSome ↔ r.header.type = .bgp4mpEt) {body : Bytes}
    (hb : encodeMrtMessage r.message r.header.subtype = .ok body) (hl : body.length ≤ 4294967291) :
    ∃ h', encodeRecord r = .ok (h' ++ body) ∧ HeaderBytes { r.header with length := UInt32.ofNat body.length } h' ∧
      h'.length = headerLen r.header := by
  have hlen : (UInt32.ofNat body.length).toNat = body.length := by simp; omega
  obtain ⟨hb', g1, g2, g3⟩ := c20_layout { r.header with length := UInt32.ofNat body.length }
    ⟨hm, fun _ => by simp only; rw [hlen]; omega⟩
  refine ⟨hb', ?_, g2, g3⟩
  unfold encodeRecord
  rw [hb]
  dsimp only
  rw [checkMax_ok.mpr ⟨by omega, rfl⟩]
  dsimp only
  rw [g1]

/-- C106. A record that was read is written and read again, wherever it stands in the input, as the same record with the
reader left right behind it, exactly when it is `RecordRewritable`. -/
theorem c106_record {r : MrtRecord} (h : WasRead r) :
    (∃ b, encodeRecord r = .ok b ∧ ∀ (pol : Pol) (s : Src) (t : List Tok), toks s.evs = byteToks b ++ t →
      ∃ r' s', nextRecord pol s = (.ok r', s') ∧ SameRecord (b.length - headerLen r.header) r r' ∧
        toks s'.evs = t ∧ s'.stuck = s.stuck) ↔ RecordRewritable r := by
  obtain ⟨raw, b0, hf, hp⟩ := h
  obtain ⟨hh, hbody⟩ := raw_parse.mp hp
  rw [← hh] at hbody
  have hmic : r.header.micro.isSome ↔ r.header.type = .bgp4mpEt := by rw [hh]; exact headerBytes_micro hf.1
  have hi := c106_body hbody
  constructor
  · rintro ⟨b, h1, h2⟩
    obtain ⟨r', s', k1, k2, k3, _⟩ := h2 (fun n _ => n) ⟨push b [], none⟩ [] (by rw [toks_push]; simp [toks])
    obtain ⟨s1, g1, g2, _⟩ := nextRecord_eq (fun n _ => n) ⟨push b [], none⟩
    rw [k1] at g1
    have ht : toks (push b []) = byteToks b := by rw [toks_push]; simp [toks]
    simp only [ht] at g1 g2
    simp only [Prod.mk.injEq] at g1
    obtain ⟨e1, rfl⟩ := g1
    rw [k3] at g2
    obtain ⟨raw', f1, f2, f3⟩ := nextT_wasRead (k := none) (t := byteToks b) (t' := []) (r := r') (Prod.ext e1.symm g2.symm)
    have hbytes : b = raw'.headerBytes ++ raw'.body := by
      have := congrArg dataOf f3
      rw [List.append_nil, dataOf_byteToks, dataOf_byteToks] at this
      exact this
    obtain ⟨hh', hbody'⟩ := raw_parse.mp f2
    obtain ⟨q1, q2, q3, q4, q5, q6⟩ := k2
    have hsmall : b.length - headerLen r.header ≤ 16777216 := by rw [← q5, hh']; exact f1.2.1
    have hhl : headerLen r.header ≤ 16 := by unfold headerLen; split <;> omega
    cases hm : encodeMrtMessage r.message r.header.subtype with
    | error e => unfold encodeRecord at h1; rw [hm] at h1; cases h1
    | ok body =>
      have hle : body.length ≤ b.length := by
        unfold encodeRecord at h1
        rw [hm] at h1
        dsimp only at h1
        cases hc : checkMax body.length 4294967295 with
        | error e => rw [hc] at h1; cases h1
        | ok n =>
          rw [hc] at h1
          dsimp only at h1
          cases hd : encodeHeader { r.header with length := UInt32.ofNat n } with
          | error e => rw [hd] at h1; cases h1
          | ok x => rw [hd] at h1; cases h1; simp
      obtain ⟨hb, g1, g5, g3⟩ := encodeRecord_of hmic hm (by omega)
      rw [g1] at h1
      cases h1
      have hlen : (UInt32.ofNat body.length).toNat = body.length := by simp; omega
      have hsz : (hb ++ body).length - headerLen r.header = body.length := by rw [List.length_append, g3]; omega
      rw [hsz] at q5 hsmall
      have heq : raw'.header = { r.header with length := UInt32.ofNat body.length } := by
        rw [← hh']
        have : r'.header.length = UInt32.ofNat body.length := UInt32.toNat_inj.mp (by rw [q5, hlen])
        obtain ⟨⟨_, _, _, _, _⟩, _⟩ := r'
        simp only at q1 q2 q3 q4 this
        subst q1 q2 q3 q4 this
        rfl
      have hhb : raw'.headerBytes = hb := headerBytes_fun (heq ▸ f1.1) g5
      rw [hhb, List.append_cancel_left_eq] at hbytes
      rw [heq, ← hbytes] at hbody'
      exact ⟨hi.mp ⟨body, r'.message, hm, hbody', q6⟩, fun b hb => by rw [hm] at hb; cases hb; exact hsmall⟩
  · rintro ⟨hr, hl⟩
    obtain ⟨body, m', k1, k2, k3⟩ := hi.mpr hr
    have hbl := hl body k1
    obtain ⟨hb, g1, g2, g3⟩ := encodeRecord_of hmic k1 (by omega)
    refine ⟨hb ++ body, g1, fun pol s t hs => ?_⟩
    have hlen : (UInt32.ofNat body.length).toNat = body.length := by simp; omega
    have hsz : (hb ++ body).length - headerLen r.header = body.length := by rw [List.length_append, g3]; omega
    have hf : Frame ⟨{ r.header with length := UInt32.ofNat body.length }, hb, body⟩ (hb ++ body) := by
      refine ⟨g2, by simp only [hlen]; exact hbl, rfl, ?_⟩
      have ht : body.take (UInt32.ofNat body.length).toNat = body := List.take_of_length_le (by omega)
      rw [if_neg (by
        rintro ⟨x, y⟩
        simp only at x y
        rw [x] at k2
        exact dump_not_short k2 (ht ▸ y))]
      exact hlen.symm
    obtain ⟨s1, q1, q2, q3⟩ := c21_record_read pol s _ _ t hf hs
    refine ⟨⟨{ r.header with length := UInt32.ofNat body.length }, m'⟩, s1, ?_, ?_, q2, q3⟩
    · unfold nextRecord
      rw [q1]
      simp only [Raw.parse]
      rw [k2]
      rfl
    · rw [hsz]; exact ⟨rfl, rfl, rfl, rfl, hlen, k3⟩

/-- C106. A file of records that were read and can be written is read back, by the fallible iterator without errors and by
the default iterator, as the same records in the same order. -/
theorem c106_file (rs : List MrtRecord) (hr : ∀ r ∈ rs, WasRead r ∧ RecordRewritable r) :
    ∃ b, Blocks (fun r c => encodeRecord r = .ok c) rs b ∧
      ∀ (pol : Pol) (coreDump : Bool) (s : Src), Delivers s b → ∀ n, b.length < n →
      ∃ rs', Pairwise2 (fun r r' => SameRecord r'.header.length.toNat r r') rs rs' ∧
        (forLoop (fallibleIter keepAll pol) n ((), s)).1 = rs'.map .ok ∧
        (forLoop (defaultIter keepAll coreDump pol) n ((), s)).1 = rs' := by
  have key : ∀ rs : List MrtRecord, (∀ r ∈ rs, WasRead r ∧ RecordRewritable r) → ∃ b, Blocks (fun r c => encodeRecord r = .ok c) rs b ∧
      ∀ n, b.length < n → ∃ rs', Pairwise2 (fun r r' => SameRecord r'.header.length.toNat r r') rs rs' ∧
        (forLoop (fun p => fallibleT keepAll none p.1 p.2) n ((), byteToks b)).1 = rs'.map .ok := by
    intro rs
    induction rs with
    | nil =>
      intro _
      refine ⟨[], .nil, fun n hn => ?_⟩
      obtain ⟨n, rfl⟩ : ∃ n', n = n' + 1 := ⟨n - 1, by omega⟩
      refine ⟨[], .nil, ?_⟩
      simp only [forLoop]
      have hc : nextT none (byteToks []) = (.error ⟨.eofExpected, none⟩, []) := rfl
      rw [fallibleT_of_error keepAll () hc]
      rfl
    | cons r rs ih =>
      intro h
      obtain ⟨b, hb, ihb⟩ := ih (fun x hx => h x (by simp [hx]))
      obtain ⟨h1, h2⟩ := h r (by simp)
      obtain ⟨c, hc, hread⟩ := (c106_record h1).mpr h2
      refine ⟨c ++ b, .cons hc hb, fun n hn => ?_⟩
      obtain ⟨n, rfl⟩ : ∃ n', n = n' + 1 := ⟨n - 1, by omega⟩
      obtain ⟨r', s', k1, k2, k3, k4⟩ := hread (fun n _ => n) ⟨push (c ++ b) [], none⟩ (byteToks b) (by
        rw [toks_push, byteToks_append]; simp [toks])
      obtain ⟨s1, m1, m2, _⟩ := nextRecord_eq (fun n _ => n) ⟨push (c ++ b) [], none⟩
      have hx : nextT none (byteToks (c ++ b)) = (.ok r', byteToks b) := by
        have ht : toks (push (c ++ b) []) = byteToks (c ++ b) := by rw [toks_push]; simp [toks]
        simp only [ht] at m1 m2
        rw [k1] at m1
        simp only [Prod.mk.injEq] at m1
        obtain ⟨e1, rfl⟩ := m1
        rw [k3] at m2
        exact Prod.ext e1.symm m2.symm
      have hpos : 0 < c.length := by
        rcases nextT_progress hx with hp | ⟨e, he, _⟩
        · rw [byteToks_length, byteToks_length, List.length_append] at hp; omega
        · cases he
      obtain ⟨rs', g1, g2⟩ := ihb n (by simp at hn; omega)
      refine ⟨r' :: rs', .cons (sameRecord_weaken k2) g1, ?_⟩
      simp only [forLoop]
      have hk : fallibleT keepAll none () (byteToks (c ++ b)) = (some (.ok r'), (), byteToks b) := by
        rw [fallibleT_of_ok keepAll () hx]; rfl
      rw [hk]
      simp only [List.map_cons]
      rw [← g2]
  obtain ⟨b, hb, hk⟩ := key rs hr
  refine ⟨b, hb, fun pol coreDump s hs n hn => ?_⟩
  obtain ⟨rs', h1, h2⟩ := hk n hn
  have h3 := (loop_fallible keepAll pol none n () s (byteToks b) ⟨hs.1, hs.2⟩).1
  refine ⟨rs', h1, by rw [h3, h2], ?_⟩
  have hlen : (toks s.evs).length < n := by rw [hs.1, byteToks_length]; exact hn
  rw [c25_default keepAll () coreDump pol s n n hlen hlen, h3, h2]
  clear h1 h2
  induction rs' with
  | nil => rfl
  | cons r rs ih => simp only [List.map_cons, okBefore, ih]

/-- a RIB record for 10.0.0.0/8 with one entry: ORIGIN, AS_PATH and NEXT_HOP. -/
def c106Rib : Raw :=
  ⟨⟨1700000000, none, .tableDumpV2, 2, 36⟩, [0x65, 0x53, 0xf1, 0, 0, 13, 0, 2, 0, 0, 0, 36],
    [0, 0, 0, 7, 8, 10, 0, 1, 0, 3, 0x65, 0x53, 0xf1, 0, 0, 20, 0x40, 1, 1, 0, 0x40, 2, 6, 2, 1, 0, 0, 0xFC, 0] ++
      [0x40, 3, 4, 10, 0, 0, 1]⟩

/-- a GEO_PEER_TABLE without peers and with a name of one octet. -/
def c106Geo (name : UInt8) : Raw :=
  ⟨⟨9, none, .tableDumpV2, 7, 17⟩, [0, 0, 0, 9, 0, 13, 0, 7, 0, 0, 0, 17], [10, 0, 0, 9, 0, 1, name, 0, 0, 0, 0, 0, 0, 0, 0, 0, 0]⟩

theorem c106Rib_frame : Frame c106Rib c106Rib.bytes := by
  refine ⟨⟨by decide, by decide⟩, by decide, rfl, ?_⟩
  rw [if_neg (by rintro ⟨h, _⟩; cases h)]; rfl

theorem c106Geo_frame (name : UInt8) : Frame (c106Geo name) (c106Geo name).bytes := by
  refine ⟨⟨by simp [c106Geo], by simp [c106Geo]; decide⟩, by simp [c106Geo], rfl, ?_⟩
  rw [if_neg (by rintro ⟨h, _⟩; cases h)]; rfl

/-- A RIB record that was read and can be written. -/
theorem c106Rib_rewritable : ∃ r, WasRead r ∧ RecordRewritable r ∧ ∃ x, r.message = .tableDumpV2 (.ribAfi x) ∧ x.entries.length = 1 := by
  have hp : ∃ r, c106Rib.parse = .ok r ∧ ∃ x b, r.message = .tableDumpV2 (.ribAfi x) ∧ x.entries.length = 1 ∧
      encodeMrtMessage r.message r.header.subtype = .ok b ∧ b.length ≤ 16777216 ∧
      parseMrtBody r.header.type r.header.subtype b = .ok r.message := by
    refine ⟨_, rfl, _, _, rfl, rfl, rfl, by decide +kernel, by decide +kernel⟩
  obtain ⟨r, h1, x, b, h2, h3, h4, h5, h6⟩ := hp
  obtain ⟨hh, hbody⟩ := raw_parse.mp h1
  rw [← hh] at hbody
  refine ⟨r, ⟨_, _, c106Rib_frame, h1⟩, ⟨(c106_body hbody).mp ⟨b, r.message, h4, h6, ?_⟩, fun b' hb' => ?_⟩, x, h2, h3⟩
  · rw [h2]
    refine .rib ⟨rfl, rfl, rfl, ?_⟩
    have := pairwise2_map SameEntry id (fun _ => ⟨rfl, rfl, rfl, rfl⟩) x.entries
    rwa [List.map_id] at this
  · rw [h4] at hb'; cases hb'; exact h5

/-- C106. A geo table is read whatever its name, but written unchanged only if the name is ASCII: the octet 0xE9 comes back
as four octets. -/
theorem c106_geo_name (name : UInt8) : ∃ r, WasRead r ∧ (RecordRewritable r ↔ name.toNat < 128) := by
  have hread : parseTableDumpV2 7 (c106Geo name).body = .ok (.geo ⟨#v[10, 0, 0, 9], latin1 [name], 0, 0, []⟩) :=
    (c58_read_iff _ _).mpr ⟨[name], (c106Geo name).body, [], by simp, ⟨by simp, by simp, [], .nil, by simp [c106Geo]; rfl⟩, rfl⟩
  refine ⟨⟨(c106Geo name).header, .tableDumpV2 (.geo ⟨#v[10, 0, 0, 9], latin1 [name], 0, 0, []⟩)⟩,
    ⟨_, _, c106Geo_frame name, raw_parse.mpr ⟨rfl, ?_⟩⟩, ?_, ?_⟩
  · show mapOk MrtMessage.tableDumpV2 (parseTableDumpV2 7 (c106Geo name).body) = _
    rw [hread]; rfl
  · rintro ⟨h, _⟩
    apply Nat.lt_of_not_ge
    intro hge
    have h : Ascii (latin1 [name]) := h
    have := h (UInt8.ofNat (0xC0 + name.toNat / 64)) (by
      unfold latin1
      exact List.mem_flatMap.mpr ⟨name, by simp, by rw [if_neg (by omega)]; simp⟩)
    have hx' := name.toNat_lt
    simp at this
    omega
  · intro hn
    have hl : latin1 [name] = [name] := latin1_ascii (fun b hb => by rcases List.mem_singleton.mp hb with rfl; exact hn)
    refine ⟨?_, fun b hb => ?_⟩
    · show Ascii (latin1 [name])
      rw [hl]
      intro b hb
      rcases List.mem_singleton.mp hb with rfl
      exact hn
    · have hb : encodeGeoPeerTable ⟨#v[10, 0, 0, 9], latin1 [name], 0, 0, []⟩ = .ok b := hb
      obtain ⟨_, _, pb, hpb, rfl⟩ := encodeGeoPeerTable_layout (fun g hg => by cases hg) hb
      cases hpb
      simp only [hl]
      simp [n16, n32]

end Verif.Props
