import Verif.Props.Mrt
import Verif.Props.MrtBody
import Verif.Spec.MrtRecord
/-
C31: whole MRT records.
-/
namespace Verif.Props
open Spec

theorem n_toNat {n : Nat} (h : n < 65536) (x : UInt16) (e : x.toNat = n) : x = UInt16.ofNat n := by
  apply UInt16.toNat_inj.mp
  rw [toNat_u16len (by omega)]; exact e

/-! ### encoded TABLE_DUMP bodies are not taken for short ones -/

theorem dumpEntry_shape {v4 : Bool} {view seq : UInt16} {m : TableDump} {c : Bytes} (h : DumpEntryBytes v4 view seq m c) :
    EntryShape (if v4 then 18 else 42) c := by
  obtain ⟨_, _, _, h1, h2, _, _, _, ab, as, hl, rfl, _⟩ := h
  refine ⟨m.prefix_.prefix_.addr.octets ++ [m.prefix_.prefix_.len, m.status] ++ n32 m.time.toNat ++ m.peerIp.octets ++
      n16 m.peerAsn.toNat, ab, ?_, hl, by simp⟩
  have a := octets_length m.prefix_.prefix_.addr
  have b := octets_length m.peerIp
  simp only [h1, h2] at a b
  cases v4 <;> simp [n16, n32, a, b]

theorem dumpEntries_shape {v4 : Bool} {view seq : UInt16} {ms : List TableDump} {c : Bytes}
    (h : Blocks (DumpEntryBytes v4 view seq) ms c) :
    ∃ es : List Bytes, c = es.flatten ∧ ∀ e ∈ es, EntryShape (if v4 then 18 else 42) e := by
  induction h with
  | nil => exact ⟨[], rfl, by simp⟩
  | @cons a as c s h _ ih =>
    obtain ⟨es, h1, h2⟩ := ih
    refine ⟨c :: es, by rw [List.flatten_cons, h1], ?_⟩
    intro e he
    rcases List.mem_cons.mp he with rfl | he
    · exact dumpEntry_shape h
    · exact h2 e he

theorem legacyLoop_whole (fixed : Nat) (hf : 2 ≤ fixed) (fuel : Nat) : ∀ es : List Bytes, (∀ e ∈ es, EntryShape fixed e) →
    legacyLoop fixed fuel es.flatten = false := by
  induction fuel with
  | zero => intro es _; rfl
  | succ fuel ih =>
    intro es h
    cases es with
    | nil => rfl
    | cons e es =>
      obtain ⟨head, ab, h4, h5, h6⟩ := h e (by simp)
      have hel : e.length = fixed + ab.length := by rw [h6]; simp [n16]; omega
      have ha : attrLenAt (e :: es).flatten (fixed - 2) = some ab.length :=
        (attrLenAt_iff _ _ _).mpr ⟨head, ab ++ es.flatten, by omega, h5, by rw [List.flatten_cons, h6]; simp⟩
      have hl : (e :: es).flatten.length = e.length + es.flatten.length := by rw [List.flatten_cons, List.length_append]
      have hne : ¬ (e :: es).flatten.isEmpty := by intro h; rw [List.isEmpty_iff] at h; rw [h] at hl; simp at hl; omega
      simp only [legacyLoop, if_neg hne, ha]
      rw [if_neg (by omega), if_neg (by omega)]
      have hd' : (e :: es).flatten.drop (fixed + ab.length) = es.flatten := by
        rw [List.flatten_cons, ← hel, List.drop_left]
      rw [hd']
      exact ih es (fun x hx => h x (by simp [hx]))

theorem whole_not_short {v4 : Bool} {view seq : UInt16} {ms : List TableDump} {c v : Bytes} (hv : v.length = 4)
    (h : Blocks (DumpEntryBytes v4 view seq) ms c) : ¬ LegacyShort (if v4 then 1 else 2) (v ++ c) := by
  rw [← needsLegacy_iff]
  obtain ⟨es, rfl, h2⟩ := dumpEntries_shape h
  unfold needsLegacyCorrection
  rw [if_pos (by cases v4 <;> decide), if_neg (by simp; omega), List.drop_left' hv]
  have e : (if (if v4 = true then (1 : UInt16) else 2) = 1 then 18 else 42) = (if v4 = true then 18 else 42) := by cases v4 <;> decide
  rw [e, legacyLoop_whole _ (by cases v4 <;> decide) _ _ h2]
  simp

/-! ### bodies -/

/-- C31: an encoded message is parsed back under its type and subtype, and is not taken for a short TABLE_DUMP record. -/
theorem body_roundtrip (ty : EntryType) (n : Nat) (m : MrtMessage) (b : Bytes) (hm : MrtMsgOk ty n m)
    (h : encodeMrtMessage m (UInt16.ofNat n) = .ok b) :
    (∃ m', parseMrtBody ty (UInt16.ofNat n) b = .ok m' ∧ SameMrt m m') ∧
      ¬ (ty = .tableDump ∧ LegacyShort (UInt16.ofNat n) b) := by
  cases hm with
  | @dump v4 m hm =>
    have hn : UInt16.ofNat (if v4 = true then 1 else 2) = (if v4 = true then 1 else 2 : UInt16) := by cases v4 <;> rfl
    rw [hn] at h ⊢
    have h : encodeTableDump m = .ok b := h
    unfold encodeTableDump at h
    cases h1 : encTableDumpEntry m with
    | error e => rw [h1] at h; cases h
    | ok c =>
      rw [h1] at h
      cases h
      obtain ⟨m', hb, hs⟩ := encTableDumpEntry_bytes hm h1
      have hbl := Blocks.cons hb .nil
      rw [List.append_nil] at hbl
      have hp := (parseTableDumps_iff v4 (be16 m.view ++ (be16 m.seq ++ c)) [m']).mpr
        ⟨m.view, m.seq, c, by simp, by simp [be16_n16], hbl⟩
      refine ⟨⟨.tableDump m', by simp only [parseMrtBody]; rw [hp], .dump hs⟩, fun hh => ?_⟩
      rw [← List.append_assoc] at hh
      exact whole_not_short rfl hbl hh.2
  | @batch v4 ms hlen hm =>
    have hn : UInt16.ofNat (if v4 = true then 1 else 2) = (if v4 = true then 1 else 2 : UInt16) := by cases v4 <;> rfl
    rw [hn] at h ⊢
    have h : encodeTableDumpBatch ms (if v4 = true then 1 else 2) = .ok b := h
    obtain ⟨ms', hp, hs⟩ := c29_batch_roundtrip_partial v4 ms b hm h
    have hl := Pairwise2_length hs
    obtain ⟨view, seq, c, _, hb, hbl⟩ := (parseTableDumps_iff v4 b ms').mp hp
    refine ⟨⟨.tableDumpBatch ms', ?_, .batch hs⟩, fun hh => ?_⟩
    · simp only [parseMrtBody]
      rw [hp]
      have hl' : 2 ≤ ms'.length := by omega
      match ms', hl' with
      | _ :: _ :: _, _ => rfl
    · rw [hb] at hh
      exact whole_not_short rfl hbl hh.2
  | @peers t ht =>
    have h : encodePeerIndexTable t = .ok b := h
    obtain ⟨t', h1, h2, h3, h4⟩ := c26_roundtrip t b [] ht h
    rw [List.append_nil] at h1
    exact ⟨⟨_, by simp only [parseMrtBody]; rw [show UInt16.ofNat 1 = 1 from rfl, h1]; rfl, .peers h2 h3 h4⟩, by rintro ⟨h, _⟩; cases h⟩
  | @rib r n afi safi ap hf hr =>
    have h : encodeRibAfi r = .ok b := h
    obtain ⟨r', h1, h2⟩ := c28_roundtrip_partial r b hr h
    have e : r.ribType.toU16 = UInt16.ofNat n := by
      cases ht : r.ribType <;> rw [ht] at hf <;> cases hf <;> rfl
    rw [e] at h1
    exact ⟨⟨_, by simp only [parseMrtBody]; rw [h1]; rfl, .rib h2⟩, by rintro ⟨h, _⟩; cases h⟩
  | @geo t h1 h2 =>
    have h : encodeGeoPeerTable t = .ok b := h
    have h3 := c58_roundtrip_partial t b [] h1 h2 h
    rw [List.append_nil] at h3
    exact ⟨⟨_, by simp only [parseMrtBody]; rw [show UInt16.ofNat 7 = 7 from rfl, h3]; rfl, .geo⟩, by rintro ⟨h, _⟩; cases h⟩
  | @message ty m n l ap hty ht hm =>
    obtain ⟨m', h1, h2⟩ := c30_message_roundtrip_partial m n l ap ht hm b h
    refine ⟨⟨.bgp4mp (.message m'), ?_, .message h2⟩, by rintro ⟨h, _⟩; rcases hty with rfl | rfl <;> cases h⟩
    rcases hty with rfl | rfl <;> (simp only [parseMrtBody]; rw [h1]; rfl)
  | @state ty m n l hty ht hm =>
    have h1 := c30_state_roundtrip m n l ht hm b h
    refine ⟨⟨.bgp4mp (.stateChange m), ?_, .state⟩, by rintro ⟨h, _⟩; rcases hty with rfl | rfl <;> cases h⟩
    rcases hty with rfl | rfl <;> (simp only [parseMrtBody]; rw [h1]; rfl)
  | @legacyMessage m n hn hm =>
    have h : encodeLegacyBgp (.message m) (UInt16.ofNat n) = .ok b := h
    obtain ⟨_, m', h1, h2, h3, h4, h5, h6⟩ := c59_message_roundtrip_partial m _ b hm h
    exact ⟨⟨.legacyBgp (.message m'), by simp only [parseMrtBody]; rw [h1]; rfl, .legacyMessage h2 h3 h4 h5 h6⟩, by rintro ⟨h, _⟩; cases h⟩
  | @legacyState m n hn =>
    have h : encodeLegacyBgp (.stateChange m) (UInt16.ofNat n) = .ok b := h
    have h1 := c59_state_roundtrip m _ b h
    exact ⟨⟨.legacyBgp (.stateChange m), by simp only [parseMrtBody]; rw [h1]; rfl, .legacyState⟩, by rintro ⟨h, _⟩; cases h⟩

/-! ### C31 records -/

theorem encodeRecord_parts {r : MrtRecord} {b : Bytes} (hr : RecordOk r) (h : encodeRecord r = .ok b) :
    ∃ h' body, encodeMrtMessage r.message r.header.subtype = .ok body ∧ HeaderBytes { r.header with length := UInt32.ofNat body.length } h' ∧
      b = h' ++ body ∧ body.length < 4294967296 ∧ h'.length = headerLen r.header := by
  unfold encodeRecord at h
  cases h1 : encodeMrtMessage r.message r.header.subtype with
  | error e => rw [h1] at h; cases h
  | ok body =>
    simp only [h1] at h
    unfold checkMax at h
    by_cases hl : body.length > 4294967295
    · rw [if_pos hl] at h; cases h
    · rw [if_neg hl] at h
      simp only at h
      cases h2 : encodeHeader { r.header with length := UInt32.ofNat body.length } with
      | error e => rw [h2] at h; cases h
      | ok hb =>
        rw [h2] at h
        cases h
        have hlen : (UInt32.ofNat body.length).toNat = body.length := by
          simp; omega
        have ho : HeaderOk { r.header with length := UInt32.ofNat body.length } := by
          refine ⟨hr.micro, fun ht => ?_⟩
          simp only
          rw [hlen]
          unfold encodeHeader at h2
          simp only at h2
          cases hm : r.header.micro with
          | none =>
            have := hr.micro.mpr ht
            rw [hm] at this; cases this
          | some m =>
            rw [hm] at h2
            simp only [hlen] at h2
            by_cases hx : body.length + 4 > 4294967295
            · rw [if_pos hx] at h2; cases h2
            · omega
        obtain ⟨b', g1, g2, g3⟩ := c20_layout _ ho
        rw [h2] at g1
        cases g1
        exact ⟨hb, body, rfl, g2, rfl, by omega, g3⟩

/-- C31: an encoded record up to 16 MiB is read back, from whatever reader, as the same record with the length filled in,
and the reader is left right behind it. -/
theorem c31_roundtrip_partial (r : MrtRecord) (b : Bytes) (hr : RecordOk r) (h : encodeRecord r = .ok b)
    (hl : b.length - headerLen r.header ≤ 16777216) (pol : Pol) (s : Src) (t : List Tok) (hs : toks s.evs = byteToks b ++ t) :
    ∃ r' s', nextRecord pol s = (.ok r', s') ∧ SameRecord (b.length - headerLen r.header) r r' ∧
      toks s'.evs = t ∧ s'.stuck = s.stuck := by
  obtain ⟨hb, body, h1, h2, rfl, h4, h5⟩ := encodeRecord_parts hr h
  have e1 : r.header.subtype = UInt16.ofNat r.header.subtype.toNat := by simp
  have hbl : (hb ++ body).length - headerLen r.header = body.length := by rw [List.length_append, h5]; omega
  rw [hbl] at hl ⊢
  rw [e1] at h1
  obtain ⟨⟨m', k1, k2⟩, k3⟩ := body_roundtrip _ _ _ _ hr.message h1
  rw [← e1] at k1 k3
  have hlen : (UInt32.ofNat body.length).toNat = body.length := by simp; omega
  have hf : Frame ⟨{ r.header with length := UInt32.ofNat body.length }, hb, body⟩ (hb ++ body) := by
    refine ⟨h2, by simp only [hlen]; exact hl, rfl, ?_⟩
    have ht : body.take (UInt32.ofNat body.length).toNat = body := List.take_of_length_le (by omega)
    rw [if_neg (by rintro ⟨x, y⟩; exact k3 ⟨x, ht ▸ y⟩)]
    exact hlen.symm
  obtain ⟨s1, g1, g2, g3⟩ := c21_record_read pol s _ _ t hf hs
  refine ⟨⟨{ r.header with length := UInt32.ofNat body.length }, m'⟩, s1, ?_, ⟨rfl, rfl, rfl, rfl, hlen, k2⟩, g2, g3⟩
  unfold nextRecord
  rw [g1]
  simp only [Raw.parse]
  rw [k1]
  rfl

/-- Records one after the other with their encodings. -/
def Encoded (rs : List MrtRecord) (b : Bytes) : Prop :=
  Blocks (fun r c => RecordOk r ∧ encodeRecord r = .ok c ∧ c.length - headerLen r.header ≤ 16777216) rs b

theorem sameRecord_weaken {n : Nat} {r r' : MrtRecord} (h : SameRecord n r r') : SameRecord r'.header.length.toNat r r' :=
  ⟨h.1, h.2.1, h.2.2.1, h.2.2.2.1, rfl, h.2.2.2.2.2⟩

/-- C31: a file of encoded records is read back as the same records in the same order by the fallible iterator (without
errors) and by the default iterator. -/
theorem c31_file_partial (rs : List MrtRecord) (b : Bytes) (h : Encoded rs b) (pol : Pol) (coreDump : Bool) (s : Src)
    (hs : Delivers s b) (n : Nat) (hn : b.length < n) :
    ∃ rs', Pairwise2 (fun r r' => SameRecord r'.header.length.toNat r r') rs rs' ∧
      (forLoop (fallibleIter keepAll pol) n ((), s)).1 = rs'.map .ok ∧
      (forLoop (defaultIter keepAll coreDump pol) n ((), s)).1 = rs' := by
  have key : ∀ (rs : List MrtRecord) (b : Bytes), Encoded rs b → ∀ n, b.length < n →
      ∃ rs', Pairwise2 (fun r r' => SameRecord r'.header.length.toNat r r') rs rs' ∧
        (forLoop (fun p => fallibleT keepAll none p.1 p.2) n ((), byteToks b)).1 = rs'.map .ok := by
    intro rs b h
    induction h with
    | nil =>
      intro n hn
      obtain ⟨n, rfl⟩ : ∃ n', n = n' + 1 := ⟨n - 1, by omega⟩
      refine ⟨[], .nil, ?_⟩
      simp only [forLoop]
      have hc : nextT none (byteToks []) = (.error ⟨.eofExpected, none⟩, []) := rfl
      rw [fallibleT_of_error keepAll () hc]
      rfl
    | @cons r rs c b h _ ih =>
      intro n hn
      obtain ⟨n, rfl⟩ : ∃ n', n = n' + 1 := ⟨n - 1, by omega⟩
      obtain ⟨hr, he, hl⟩ := h
      have hc : 0 < c.length := by
        obtain ⟨h', body, _, _, rfl, _, h5⟩ := encodeRecord_parts hr he
        rw [List.length_append, h5]; unfold headerLen; split <;> omega
      obtain ⟨rs', g1, g2⟩ := ih n (by simp at hn; omega)
      obtain ⟨r', s', k1, k2, k3, k4⟩ := c31_roundtrip_partial r c hr he hl pol ⟨push (c ++ b) [], none⟩ (byteToks b) (by
        rw [toks_push, byteToks_append]; simp [toks])
      obtain ⟨s1, m1, m2, _⟩ := nextRecord_eq pol ⟨push (c ++ b) [], none⟩
      have hx : nextT none (byteToks (c ++ b)) = (.ok r', byteToks b) := by
        have ht : toks (push (c ++ b) []) = byteToks (c ++ b) := by rw [toks_push]; simp [toks]
        simp only [ht] at m1 m2
        rw [k1] at m1
        simp only [Prod.mk.injEq] at m1
        obtain ⟨e1, rfl⟩ := m1
        rw [k3] at m2
        exact Prod.ext e1.symm m2.symm
      refine ⟨r' :: rs', .cons (sameRecord_weaken k2) g1, ?_⟩
      simp only [forLoop]
      have hk : fallibleT keepAll none () (byteToks (c ++ b)) = (some (.ok r'), (), byteToks b) := by
        rw [fallibleT_of_ok keepAll () hx]; rfl
      rw [hk]
      simp only [List.map_cons]
      rw [← g2]
  obtain ⟨rs', h1, h2⟩ := key rs b h n hn
  have h3 := (loop_fallible keepAll pol none n () s (byteToks b) ⟨hs.1, hs.2⟩).1
  refine ⟨rs', h1, by rw [h3, h2], ?_⟩
  have hlen : (toks s.evs).length < n := by rw [hs.1, byteToks_length]; exact hn
  rw [c25_default keepAll () coreDump pol s n n hlen hlen, h3, h2]
  clear h1 h2
  induction rs' with
  | nil => rfl
  | cons r rs ih => simp only [List.map_cons, okBefore, ih]

/-- a RIB record and a BGP4MP_ET state change. -/
def c31A : MrtRecord := ⟨⟨1700000000, none, .tableDumpV2, 8, 0⟩, .tableDumpV2 (.ribAfi c28Rib)⟩
def c31B : MrtRecord :=
  ⟨⟨1700000000, some 3, .bgp4mpEt, 5, 0⟩,
    .bgp4mp (.stateChange ⟨.stateChangeAs4, 4200000000, 65000, 1, .v4 #v[10, 0, 0, 1], .v4 #v[10, 0, 0, 2], .established, .idle⟩)⟩

theorem c31A_ok : RecordOk c31A := ⟨by decide, .rib rfl c28Rib_ok⟩
theorem c31B_ok : RecordOk c31B := ⟨by decide, .state (.inr rfl) rfl ⟨by decide, by decide, rfl⟩⟩

example : ∃ b, Encoded [c31A, c31B] b ∧ b.length = 121 := by
  have hA : ∃ c, encodeRecord c31A = .ok c ∧ c.length = 81 := ⟨_, rfl, by decide +kernel⟩
  have hB : ∃ c, encodeRecord c31B = .ok c ∧ c.length = 40 := ⟨_, rfl, by decide +kernel⟩
  obtain ⟨cA, hA1, hA2⟩ := hA
  obtain ⟨cB, hB1, hB2⟩ := hB
  exact ⟨_, .cons ⟨c31A_ok, hA1, by omega⟩ (.cons ⟨c31B_ok, hB1, by omega⟩ .nil), by simp [hA2, hB2]⟩

/-- C31 fails above 16 MiB: such a record is written, but reading it back is refused. -/
theorem c31_large_refused (r : MrtRecord) (b : Bytes) (hr : RecordOk r) (h : encodeRecord r = .ok b)
    (hl : 16777216 < b.length - headerLen r.header) (pol : Pol) (s : Src) (hs : Delivers s b) :
    ∃ e s', nextRecord pol s = (.error e, s') ∧ e.error = .unsupported := by
  obtain ⟨hb, body, h1, h2, rfl, h4, h5⟩ := encodeRecord_parts hr h
  have hbl : (hb ++ body).length - headerLen r.header = body.length := by rw [List.length_append, h5]; omega
  rw [hbl] at hl
  have hlen : (UInt32.ofNat body.length).toNat = body.length := by simp; omega
  obtain ⟨s1, g1, g2, g3⟩ := nextRecord_eq pol s
  refine ⟨⟨.unsupported, some hb⟩, s1, ?_, rfl⟩
  rw [g1, hs.1, byteToks_append]
  unfold nextT
  rw [chunkT_long _ _ h2 (by simp only [hlen]; exact hl)]
  rfl

theorem encAll_replicate {f : α → Except EncErr Bytes} {x : α} {c : Bytes} (h : f x = .ok c) (n : Nat) :
    ∃ b, encAll f (List.replicate n x) = .ok b ∧ b.length = n * c.length := by
  induction n with
  | zero => exact ⟨[], rfl, by simp⟩
  | succ n ih =>
    obtain ⟨b, h1, h2⟩ := ih
    refine ⟨c ++ b, ?_, by rw [List.length_append, h2, Nat.succ_mul]; omega⟩
    rw [List.replicate_succ]
    unfold encAll
    rw [h]
    dsimp only
    rw [h1]

theorem c31_many_routes (n : Nat) (h1 : 600000 ≤ n) (h2 : n ≤ 1000000) :
    ∃ r b, RecordOk r ∧ encodeRecord r = .ok b ∧ 16777216 < b.length - headerLen r.header := by
  obtain ⟨c, hc1, hc2⟩ : ∃ c, encBatchEntry c29Dump.view c29Dump.seq true c29Dump = .ok c ∧ c.length = 31 :=
    ⟨_, rfl, by decide +kernel⟩
  obtain ⟨b, hb1, hb2⟩ := encAll_replicate hc1 (n + 1)
  rw [hc2] at hb2
  refine ⟨⟨⟨0, none, .tableDump, 1, 0⟩, .tableDumpBatch (List.replicate (n + 1) c29Dump)⟩, ?_⟩
  have hm : encodeMrtMessage (.tableDumpBatch (List.replicate (n + 1) c29Dump)) 1 =
      .ok (be16 c29Dump.view ++ (be16 c29Dump.seq ++ b)) := by
    show encodeTableDumpBatch (List.replicate (n + 1) c29Dump) 1 = _
    rw [List.replicate_succ] at hb1 ⊢
    unfold encodeTableDumpBatch
    dsimp only
    rw [if_pos (by decide)]
    have e : decide ((1 : UInt16) = 1) = true := by decide
    rw [e, hb1]
  refine ⟨be32 0 ++ (be16 12 ++ (be16 1 ++ be32 (UInt32.ofNat (b.length + 4)))) ++ (be16 c29Dump.view ++ (be16 c29Dump.seq ++ b)), ?_, ?_, ?_⟩
  · refine ⟨by simp, MrtMsgOk.batch (v4 := true) (by rw [List.length_replicate]; omega) ?_⟩
    intro m hmem
    rw [List.eq_of_mem_replicate hmem]
    exact c29Dump_ok
  · unfold encodeRecord
    rw [hm]
    have hl : (be16 c29Dump.view ++ (be16 c29Dump.seq ++ b)).length = b.length + 4 := by simp [be16]
    dsimp only
    unfold checkMax
    rw [if_neg (by rw [hl]; omega), hl]
    rfl
  · have : headerLen ⟨0, none, .tableDump, 1, 0⟩ = 12 := rfl
    simp only [this, List.length_append]
    simp [be16, be32]
    omega

/-- 600000 routes in one TABLE_DUMP record are too many to be read back. -/
example : ∃ r b, RecordOk r ∧ encodeRecord r = .ok b ∧ 16777216 < b.length - headerLen r.header :=
  c31_many_routes 600000 (by omega) (by omega)

end Verif.Props
