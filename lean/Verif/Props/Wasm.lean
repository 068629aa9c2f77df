import Verif.Lemmas.Wasm
import Verif.Props.Dissect
import Verif.Props.CliRun
import Verif.Props.Bmp
import Verif.Lemmas.EncoderBack
import Verif.Props.Json
import Verif.Props.Elem
/-
C87 streaming MRT records to JavaScript, C88 BMP messages, C89 BGP messages and dissection.
-/
namespace Verif.Props
open Spec

/-! ### C87 one call -/

/-- C87: a call on a buffer with a record at the front returns the elements of that record and the number of its octets, and
leaves the state as after that record, whatever follows in the buffer. -/
theorem c87_call (pol : Pol) (el : Elementor) (r : MrtRecord) (b rest : Bytes) (h : RecordIn r b) :
    ∃ n, wasmParseMrt pol el (b ++ rest) = (some ⟨(el.recordToElems r).1, n⟩, (el.recordToElems r).2) ∧ n.toNat = b.length := by
  obtain ⟨raw, hf, hp⟩ := h
  obtain ⟨s, h1, h2, h3⟩ := chunk_cursor pol rest hf
  have hne : (b ++ rest).isEmpty = false := by
    have := Frame_length hf
    cases b with
    | nil => simp at this
    | cons _ _ => rfl
  refine ⟨position (b ++ rest) s, ?_, ?_⟩
  · unfold wasmParseMrt nextRecord
    rw [if_neg (by rw [hne]; exact Bool.false_ne_true), h1]
    simp only [hp]
  · have := frame_small hf
    unfold position
    rw [h3, List.length_append, Nat.add_sub_cancel, UInt32.toNat_ofNat', Nat.mod_eq_of_lt this]

/-- C87: a call returns nothing exactly when there is no record that parses at the front; then the state is as before. -/
theorem c87_nothing (pol : Pol) (el : Elementor) (d : Bytes) :
    ((wasmParseMrt pol el d).1 = none ↔ NothingToParse d) ∧ (NothingToParse d → wasmParseMrt pol el d = (none, el)) := by
  have key : NothingToParse d → wasmParseMrt pol el d = (none, el) := by
    intro hn
    unfold wasmParseMrt
    split
    · rfl
    · unfold nextRecord
      cases hc : chunk pol (cursor d) with
      | mk x s =>
        cases x with
        | error e => rfl
        | ok raw =>
          obtain ⟨rest, hd, hf, _⟩ := chunk_cursor_ok pol hc
          cases hp : raw.parse with
          | error e => simp only [hp]
          | ok r => exact absurd ⟨raw, hf, hp⟩ (hn r raw.bytes rest hd)
  refine ⟨⟨?_, fun h => by rw [key h]⟩, key⟩
  intro h r b rest hd hr
  obtain ⟨n, hn, _⟩ := c87_call pol el r b rest hr
  rw [hd, hn] at h
  cases h

/-- C87: part of a record is nothing to parse. -/
theorem c87_part (raw : Raw) (p q : Bytes) (h : Frame raw (p ++ q)) (hq : q ≠ []) : NothingToParse p := by
  rintro r b rest rfl ⟨raw', hf, _⟩
  obtain ⟨_, _, h3⟩ := frame_unique hf h (t1 := rest ++ q) (t2 := []) (by simp)
  simp at h3
  exact hq h3.2

/-! ### C87 streaming -/

theorem nothing_prefix {p q : Bytes} (h : NothingToParse (p ++ q)) : NothingToParse p := by
  rintro r b rest rfl hr
  exact h r b (rest ++ q) (by simp) hr

theorem nothing_nil : NothingToParse [] := by
  rintro r b rest h ⟨raw, hf, _⟩
  have := Frame_length hf
  have : b = [] := by
    cases b with
    | nil => rfl
    | cons _ _ => simp at h
  subst this; simp at *

/-- a prefix of records and a rest with nothing to parse is again such -/
theorem blocks_prefix {tail : Bytes} (ht : NothingToParse tail) : ∀ {rs : List MrtRecord} {b : Bytes}, Blocks RecordIn rs b →
    ∀ {p q : Bytes}, b ++ tail = p ++ q → ∃ rs1 rs2 b1 b2 t1, rs = rs1 ++ rs2 ∧ Blocks RecordIn rs1 b1 ∧ Blocks RecordIn rs2 b2 ∧
      p = b1 ++ t1 ∧ t1 ++ q = b2 ++ tail ∧ NothingToParse t1 := by
  intro rs b hb
  induction hb with
  | nil =>
    intro p q h
    rw [List.nil_append] at h
    exact ⟨[], [], [], [], p, rfl, .nil, .nil, rfl, h.symm, nothing_prefix (h ▸ ht)⟩
  | @cons r rs c s hr hbs ih =>
    intro p q h
    rw [List.append_assoc] at h
    rcases List.append_eq_append_iff.mp h with ⟨u, rfl, hu⟩ | ⟨u, hc, hq⟩
    · obtain ⟨rs1, rs2, b1, b2, t1, e, g1, g2, g3, g4, g5⟩ := ih hu
      exact ⟨r :: rs1, rs2, c ++ b1, b2, t1, by rw [e]; rfl, .cons hr g1, g2, by rw [g3, List.append_assoc], g4, g5⟩
    · by_cases hu : u = []
      · subst hu
        rw [List.append_nil] at hc
        rw [List.nil_append] at hq
        subst hc
        exact ⟨[r], rs, c, s, [], rfl, by simpa using Blocks.cons hr .nil, hbs, by simp, by rw [List.nil_append, hq], nothing_nil⟩
      · obtain ⟨raw, hf, hp⟩ := hr
        refine ⟨[], r :: rs, [], c ++ s, p, rfl, .nil, .cons ⟨raw, hf, hp⟩ hbs, rfl, ?_, ?_⟩
        · rw [hq, hc]; simp
        · exact c87_part raw p u (hc ▸ hf) hu

theorem drain_blocks (pol : Pol) {tail : Bytes} (ht : NothingToParse tail) : ∀ {rs : List MrtRecord} {b : Bytes}, Blocks RecordIn rs b →
    ∀ (hist : List MrtRecord) (n : Nat), b.length < n →
      Streaming.drain pol n ⟨after hist, b ++ tail⟩ = (elemsFrom hist rs, ⟨after (hist ++ rs), tail⟩) := by
  intro rs b hb
  induction hb with
  | nil =>
    intro hist n hn
    cases n with
    | zero => cases hn
    | succ n =>
      unfold Streaming.drain
      rw [List.nil_append, (c87_nothing pol _ tail).2 ht, List.append_nil]
      rfl
  | @cons r rs c s hr hbs ih =>
    intro hist n hn
    cases n with
    | zero => cases hn
    | succ n =>
      obtain ⟨k, hk, hkn⟩ := c87_call pol (after hist) r c (s ++ tail) hr
      have hc : 12 ≤ c.length := by
        obtain ⟨raw, hf, _⟩ := hr
        exact Frame_length hf
      unfold Streaming.drain
      simp only [List.append_assoc, hk, hkn, List.drop_left]
      rw [← after_append, ih (hist ++ [r]) n (by rw [List.length_append] at hn; omega)]
      simp only [elemsFrom, List.append_assoc, List.cons_append, List.nil_append]
      rfl

theorem elemsFrom_append (a b : List MrtRecord) : ∀ hist, elemsFrom hist (a ++ b) = elemsFrom hist a ++ elemsFrom (hist ++ a) b := by
  induction a with
  | nil => intro hist; simp [elemsFrom]
  | cons r a ih => intro hist; simp only [List.cons_append, elemsFrom, ih, List.append_assoc, List.nil_append]

theorem run_blocks (pol : Pol) {tail : Bytes} (ht : NothingToParse tail) : ∀ (cs : List Bytes) (hist : List MrtRecord) (buf : Bytes)
    (rs : List MrtRecord) (b : Bytes), NothingToParse buf → Blocks RecordIn rs b → buf ++ cs.flatten = b ++ tail →
    (Streaming.run pol ⟨after hist, buf⟩ cs).1.flatten = elemsFrom hist rs ∧
      (Streaming.run pol ⟨after hist, buf⟩ cs).2 = ⟨after (hist ++ rs), tail⟩
  | [], hist, buf, rs, b, hbuf, hb, h => by
    rw [List.flatten_nil, List.append_nil] at h
    cases hb with
    | nil => simp [Streaming.run, elemsFrom, h]
    | cons hr _ => exact absurd hr (hbuf _ _ _ (by rw [h, List.append_assoc]))
  | c :: cs, hist, buf, rs, b, hbuf, hb, h => by
    rw [List.flatten_cons, ← List.append_assoc] at h
    obtain ⟨rs1, rs2, b1, b2, t1, e, g1, g2, g3, g4, g5⟩ := blocks_prefix ht hb h.symm
    have hd := drain_blocks pol g5 g1 hist (buf.length + c.length + 1) (by
      have := congrArg List.length g3
      rw [List.length_append, List.length_append] at this; omega)
    have ih := run_blocks pol ht cs (hist ++ rs1) t1 rs2 b2 g5 g2 g4
    unfold Streaming.run
    simp only [Streaming.feed, g3, hd, List.flatten_cons, ih.1, ih.2]
    rw [e, elemsFrom_append, List.append_assoc]
    exact ⟨rfl, rfl⟩

/-- C87: after a reset, a caller that appends to its buffer what arrives, calls until nothing is returned, and slices off the
octets each call reports, gets exactly the elements of the records up to the first place with nothing to parse, each record
with the peer index table of the records before it, however the input is cut into pieces and whatever was parsed before the
reset. What is left in the buffer is the input from that place on. -/
theorem c87_stream (pol : Pol) (el : Elementor) (cs : List Bytes) (rs : List MrtRecord) (b tail : Bytes)
    (hb : Blocks RecordIn rs b) (ht : NothingToParse tail) (hc : cs.flatten = b ++ tail) :
    (Streaming.run pol ⟨wasmReset el, []⟩ cs).1.flatten = elemsFrom [] rs ∧
      (Streaming.run pol ⟨wasmReset el, []⟩ cs).2.buf = tail := by
  have := run_blocks pol ht cs [] [] rs b nothing_nil hb hc
  have e : wasmReset el = after [] := rfl
  rw [e]
  exact ⟨this.1, by rw [this.2]⟩

/-- C87: every input has a first place with nothing to parse: records stand before it, one after the other. -/
theorem c87_split (d : Bytes) : ∃ rs b tail, d = b ++ tail ∧ Blocks RecordIn rs b ∧ NothingToParse tail := by
  induction hn : d.length using Nat.strongRecOn generalizing d with
  | ind n ih =>
    by_cases h : NothingToParse d
    · exact ⟨[], [], d, rfl, .nil, h⟩
    · simp only [NothingToParse, Classical.not_forall, Classical.not_not] at h
      obtain ⟨r, c, rest, rfl, hr⟩ := h
      have hc : 12 ≤ c.length := by
        obtain ⟨raw, hf, _⟩ := hr
        exact Frame_length hf
      rw [List.length_append] at hn
      obtain ⟨rs, b, tail, rfl, hb, ht⟩ := ih rest.length (by omega) rest rfl
      exact ⟨r :: rs, c ++ b, tail, by rw [List.append_assoc], .cons hr hb, ht⟩

/-- C87: how the input is cut into pieces does not matter. -/
theorem c87_pieces (pol pol' : Pol) (el el' : Elementor) (cs cs' : List Bytes) (h : cs.flatten = cs'.flatten) :
    (Streaming.run pol ⟨wasmReset el, []⟩ cs).1.flatten = (Streaming.run pol' ⟨wasmReset el', []⟩ cs').1.flatten ∧
      (Streaming.run pol ⟨wasmReset el, []⟩ cs).2 = (Streaming.run pol' ⟨wasmReset el', []⟩ cs').2 := by
  obtain ⟨rs, b, tail, e, hb, ht⟩ := c87_split cs.flatten
  have g := run_blocks pol ht cs [] [] rs b nothing_nil hb e
  have g' := run_blocks pol' ht cs' [] [] rs b nothing_nil hb (h ▸ e)
  have e1 : wasmReset el = after [] := rfl
  have e2 : wasmReset el' = after [] := rfl
  rw [e1, e2, g.1, g'.1, g.2, g'.2]
  exact ⟨rfl, rfl⟩

/-- C87: the document of a result. -/
theorem c87_json (env : JsonEnv) (w : WasmRecord) : ∃ kvs, w.json env = .obj kvs ∧
    HasEntry kvs "elems" (.arr (w.elems.map (elemJson env))) ∧ HasEntry kvs "bytesRead" (number w.bytesRead.toNat) :=
  ⟨_, rfl, ⟨[], [("bytesRead", natJson w.bytesRead.toNat)], rfl, by simp, by simp⟩,
    ⟨[("elems", .arr (w.elems.map (elemJson env)))], [], rfl, by simp, by simp⟩⟩

theorem frame_of (b : Bytes) (h : ((chunk (fun n _ => n) (cursor b)).1.toOption.map fun raw => raw.bytes) = some b) :
    ∃ raw, (chunk (fun n _ => n) (cursor b)).1 = .ok raw ∧ Frame raw b := by
  cases hc : chunk (fun n _ => n) (cursor b) with
  | mk x s =>
    rw [hc] at h
    cases x with
    | error e => cases h
    | ok raw =>
      obtain ⟨_, _, hf, _⟩ := chunk_cursor_ok _ hc
      exact ⟨raw, rfl, (Option.some.inj h) ▸ hf⟩

/-- a TABLE_DUMP record with one route. -/
def c87Good : Bytes :=
  [0, 0, 0, 9, 0, 12, 0, 1, 0, 0, 0, 22] ++
  [0, 0, 0, 0, 10, 0, 0, 0, 8, 1, 0, 0, 0, 0, 10, 0, 0, 1, 0, 1, 0, 0]

/-- a BGP4MP record with a subtype that is not assigned. -/
def c87Bad : Bytes := [0, 0, 0, 9, 0, 16, 0, 99, 0, 0, 0, 4, 1, 2, 3, 4]

/-- The full claim is false of input with a record that does not parse: no call throws, as documented ("Throws a JavaScript
Error on malformed data"); instead the call returns what it returns at the end of the input, now and whatever arrives later,
and the records behind the bad one are lost. The iterator over the same file goes on behind the bad record. -/
theorem c87_violation_bad_record :
    (∀ (pol : Pol) (el : Elementor) (cs : List Bytes) (later : Bytes), cs.flatten = c87Bad ++ c87Good ++ later →
      (Streaming.run pol ⟨wasmReset el, []⟩ cs).1.flatten = [] ∧
      (Streaming.run pol ⟨wasmReset el, []⟩ cs).2.buf = c87Bad ++ c87Good ++ later) ∧
    ((forLoop (defaultIter keepAll false (fun n _ => n)) 99 ((), cursor (c87Bad ++ c87Good))).1.map
      fun r => (Elementor.new.recordToElems r).1.length) = [1] := by
  refine ⟨?_, by decide +kernel⟩
  intro pol el cs later h
  refine c87_stream pol el cs [] [] (c87Bad ++ c87Good ++ later) .nil ?_ h
  obtain ⟨raw, hr, hf⟩ := frame_of c87Bad (by decide +kernel)
  have hp : raw.parse.toOption = none := by
    have : ((chunk (fun n _ => n) (cursor c87Bad)).1.toOption.map fun raw => raw.parse.toOption.isNone) = some true := by
      decide +kernel
    rw [hr] at this
    simpa [Except.toOption] using this
  rintro r b rest he ⟨raw', hf', hp'⟩
  rw [List.append_assoc] at he
  obtain ⟨e, _, _⟩ := frame_unique hf hf' he
  subst e
  rw [hp'] at hp
  cases hp

/-- a case that meets the hypotheses: two records and part of a third, in pieces. -/
example : ∃ r b, RecordIn r b ∧ b = c87Good ∧
    (∀ pol el, (Streaming.run pol ⟨wasmReset el, []⟩ [b.take 5, b.drop 5 ++ b ++ b.take 3, []]).1.flatten = elemsFrom [] [r, r]) ∧
    (elemsFrom [] [r, r]).length = 2 := by
  obtain ⟨raw, hr, hf⟩ := frame_of c87Good (by decide +kernel)
  have hq : ((chunk (fun n _ => n) (cursor c87Good)).1.toOption.bind fun raw =>
      raw.parse.toOption.map fun r => (elemsFrom [] [r, r]).length) = some 2 := by decide +kernel
  rw [hr] at hq
  cases hp : raw.parse with
  | error e => simp [Except.toOption, hp] at hq
  | ok r =>
    simp only [Except.toOption, Option.bind_some, hp, Option.map_some, Option.some.injEq] at hq
    have hi : RecordIn r c87Good := ⟨raw, hf, hp⟩
    refine ⟨r, c87Good, hi, rfl, ?_, hq⟩
    intro pol el
    refine (c87_stream pol el _ [r, r] (c87Good ++ (c87Good ++ [])) (c87Good.take 3) (.cons hi (.cons hi .nil)) ?_ ?_).1
    · exact c87_part raw _ (c87Good.drop 3) (by rw [List.take_append_drop]; exact hf) (by decide)
    · decide +kernel

/-! ### C89 dissection -/

/-- C89: dissecting the record at the front of a buffer reports the number of its octets, also if the record does not parse,
and gives a tree over all of these octets: the tree of the record alone, whatever follows. -/
theorem c89_dissect_mrt (pol : Pol) (raw : Raw) (b rest : Bytes) (h : Frame raw b) :
    ∃ t n, wasmDissectMrt pol (b ++ rest) = some (some (t, n)) ∧ n.toNat = b.length ∧
      dissectMrtBytes b = some t ∧ t.offset = 0 ∧ t.length = b.length := by
  obtain ⟨s, h1, _, h3⟩ := chunk_cursor pol rest h
  have hs := frame_small h
  obtain ⟨ps, _, hb, ht⟩ := c53_record raw (by rw [← h.2.2.1]; exact hs)
  rw [← h.2.2.1] at hb ht
  have hd : dissectMrtBytes b = dissectMrtRecord raw := by rw [h.2.2.1]; rfl
  have hne : (b ++ rest).isEmpty = false := by
    have := Frame_length h
    cases b with
    | nil => simp at this
    | cons _ _ => rfl
  refine ⟨_, position (b ++ rest) s, ?_, ?_, hd.trans ht, rfl, rfl⟩
  · unfold wasmDissectMrt
    rw [if_neg (by rw [hne]; exact Bool.false_ne_true), h1]
    simp only [ht, Option.map_some]
  · unfold position
    rw [h3, List.length_append, Nat.add_sub_cancel, UInt32.toNat_ofNat', Nat.mod_eq_of_lt hs]

/-- C89: dissecting never panics, and returns nothing exactly when no complete record stands at the front. -/
theorem c89_dissect_nothing (pol : Pol) (d : Bytes) :
    wasmDissectMrt pol d ≠ none ∧ (wasmDissectMrt pol d = some none ↔ ∀ raw b rest, d = b ++ rest → ¬ Frame raw b) := by
  by_cases h : ∃ raw b rest, d = b ++ rest ∧ Frame raw b
  · obtain ⟨raw, b, rest, rfl, hf⟩ := h
    obtain ⟨t, n, ht, _⟩ := c89_dissect_mrt pol raw b rest hf
    rw [ht]
    exact ⟨(by simp), (by simp), fun h => absurd hf (h raw b rest rfl)⟩
  · have : wasmDissectMrt pol d = some none := by
      unfold wasmDissectMrt
      split
      · rfl
      · cases hc : chunk pol (cursor d) with
        | mk x s =>
          cases x with
          | error e => rfl
          | ok raw =>
            obtain ⟨rest, hd, hf, _⟩ := chunk_cursor_ok pol hc
            exact absurd ⟨raw, raw.bytes, rest, hd, hf⟩ h
    rw [this]
    exact ⟨(by simp), fun _ raw b rest hd hf => h ⟨raw, b, rest, hd, hf⟩, fun _ => rfl⟩

/-- C89: what can be parsed can be dissected, with the same number of octets. -/
theorem c89_agree (pol pol' : Pol) (el : Elementor) (d : Bytes) (w : WasmRecord) (h : (wasmParseMrt pol el d).1 = some w) :
    ∃ t, wasmDissectMrt pol' d = some (some (t, w.bytesRead)) := by
  have hn : ¬ NothingToParse d := fun hn => by rw [(c87_nothing pol el d).1.mpr hn] at h; cases h
  simp only [NothingToParse, Classical.not_forall, Classical.not_not] at hn
  obtain ⟨r, b, rest, rfl, hr⟩ := hn
  obtain ⟨n, hn, hl⟩ := c87_call pol el r b rest hr
  obtain ⟨raw, hf, _⟩ := hr
  obtain ⟨t, k, hk, hkl, _⟩ := c89_dissect_mrt pol' raw b rest hf
  rw [hn] at h
  cases h
  exact ⟨t, by rw [hk, UInt32.toNat_inj.mp (hkl.trans hl.symm)]⟩

/-- C89: dissecting a BGP message never fails (up to 4 GiB), and the choice of the width of AS numbers is respected. -/
theorem c89_dissect_bgp (d : Bytes) (hl : d.length < 4294967296) (four : Bool) :
    ∃ t, wasmDissectBgp d four = some t ∧ ∃ p, BgpPart (if four then 4 else 2) false p ∧ p.bytes = d ∧ p.nodes 0 = [t] := by
  unfold wasmDissectBgp
  obtain ⟨p, hp, rfl⟩ := c53_bgp_described (if four then .b32 else .b16) false d
  obtain ⟨t, ht, hn⟩ := c53_bgp_tree _ false p hp hl
  refine ⟨t, ht, p, ?_, rfl, hn⟩
  cases four <;> exact hp

/-! ### C89 BGP messages -/

theorem bgp_elems_peer (m : BgpMessage) (t : Nat) (ip : Ip) (asn : Asn) :
    ∀ e ∈ bgpToElems m t ip asn, e.time = t ∧ e.peerIp = ip ∧ e.peerAsn = asn := by
  intro e he
  cases m with
  | update u =>
    rw [(c32_message_elems _ t ip asn).1 u rfl] at he
    obtain ⟨_, _, _, _, ann, h1, h2⟩ := c32_update_elems_partial u t ip asn
    rw [h2] at he
    rcases List.mem_append.mp he with he | he
    · obtain ⟨_, _, ha⟩ := pairwise2_mem_right h1 he
      exact ⟨ha.time, ha.peerIp, ha.peerAsn⟩
    · obtain ⟨p, _, rfl⟩ := List.mem_map.mp he
      exact ⟨rfl, rfl, rfl⟩
  | _ => rw [(c32_message_elems _ t ip asn).2 (by intro u h; cases h)] at he; cases he

/-- C89: parsing a BGP message fails exactly when the message does not parse with AS numbers of four octets and without path
identifiers; the elements are those of the message at time zero from an unspecified peer; the full result has the same
elements, and, for an UPDATE, all of its attributes and the warnings of validation; for another message there is none of them. -/
theorem c89_update (d : Bytes) :
    (∀ e, parseBgpMessage false .b32 d = .error e → wasmParseUpdate d = .error e ∧ wasmParseFull d = .error e) ∧
    ∀ m r, parseBgpMessage false .b32 d = .ok (m, r) → ∃ f, wasmParseFull d = .ok f ∧ wasmParseUpdate d = .ok f.elems ∧
      f.elems = bgpToElems m 0 (.v4 #v[0, 0, 0, 0]) 0 ∧ (∀ x ∈ f.elems, x.time = 0 ∧ x.peerIp = .v4 #v[0, 0, 0, 0] ∧ x.peerAsn = 0) ∧
      (∀ u, m = .update u → f.attributes = u.attributes ∧ f.warnings = u.attributes.warnings) ∧
      ((∀ u, m ≠ .update u) → f.elems = [] ∧ f.attributes.inner = [] ∧ f.warnings = []) := by
  constructor
  · intro e h
    simp only [wasmParseUpdate, wasmParseFull, h, and_self]
  · intro m r h
    simp only [wasmParseUpdate, wasmParseFull, h]
    refine ⟨_, rfl, rfl, rfl, ?_, ?_, ?_⟩
    · exact bgp_elems_peer m 0 _ _
    · rintro u rfl; exact ⟨rfl, rfl⟩
    · intro hm
      cases m with
      | update u => exact absurd rfl (hm u)
      | _ => exact ⟨rfl, rfl, rfl⟩

/-! ### C88 BMP messages -/

theorem peerBody_about {t : BmpMsgType} {h : PerPeerHeader} {s r : Bytes} {b : BmpBody} (hb : rdPeerBody t h s = .ok (b, r)) :
    ¬ AboutSession b := by
  cases t <;> simp only [rdPeerBody, Rd.bind_eq_ok] at hb
  · obtain ⟨_, _, _, hb⟩ := hb; cases hb; exact id
  · obtain ⟨_, _, _, hb⟩ := hb; cases hb; exact id
  · obtain ⟨_, _, _, hb⟩ := hb; cases hb; exact id
  · obtain ⟨_, _, _, hb⟩ := hb; cases hb; exact id
  · obtain ⟨_, _, _, hb⟩ := hb; cases hb; exact id
  · obtain ⟨_, _, _, hb⟩ := hb; cases hb; exact id
  · obtain ⟨_, _, _, _, _, _, hb⟩ := hb; cases hb; exact id

theorem content_peer {t : BmpMsgType} {s r : Bytes} {p : Option PerPeerHeader} {b : BmpBody}
    (h : rdContent t s = .ok ((p, b), r)) : p = none ↔ AboutSession b := by
  have key : ∀ t', (rdPerPeerHeader >>= fun h => rdPeerBody t' h >>= fun b => pure (some h, b)) s = .ok ((p, b), r) →
      (p = none ↔ AboutSession b) := by
    intro t' h
    simp only [Rd.bind_eq_ok] at h
    obtain ⟨hd, _, _, b', _, hb, he⟩ := h
    cases he
    simp [peerBody_about hb]
  cases t with
  | initiation =>
    simp only [rdContent, Rd.bind_eq_ok] at h
    obtain ⟨_, _, _, _, _, _, he⟩ := h
    cases he; simp [AboutSession]
  | termination =>
    simp only [rdContent, Rd.bind_eq_ok] at h
    obtain ⟨_, _, _, _, _, _, he⟩ := h
    cases he; simp [AboutSession]
  | routeMonitoring => exact key _ h
  | statisticsReport => exact key _ h
  | peerDown => exact key _ h
  | peerUp => exact key _ h
  | routeMirroring => exact key _ h

/-- C88: a message that was read has a per-peer header exactly if it is about a peer. -/
theorem c88_peer (d : Bytes) (m : BmpMessage) (h : (parseBmpMsg d).1 = .ok m) : m.peer = none ↔ AboutSession m.body := by
  unfold parseBmpMsg at h
  cases h1 : parseBmpHeader d with
  | mk v r =>
    rw [h1] at h
    cases v with
    | error e => cases h
    | ok hd =>
      simp only at h
      split at h
      · cases h
      · cases h2 : rdN (hd.msgLen.toNat - 6) r with
        | error e => rw [h2] at h; cases h
        | ok x =>
          obtain ⟨content, r'⟩ := x
          rw [h2] at h
          simp only at h
          cases h3 : (rdContent hd.msgType).runOn content with
          | error e => rw [h3] at h; cases h
          | ok x =>
            obtain ⟨p, b⟩ := x
            rw [h3] at h
            cases h
            unfold Rd.runOn at h3
            cases h4 : rdContent hd.msgType content with
            | error e => rw [h4] at h3; cases h3
            | ok x =>
              obtain ⟨x, left⟩ := x
              rw [h4] at h3
              cases h3
              exact content_peer h4

theorem policyFlags_bits (f : PerPeerFlags) :
    (policyFlags f).1 = peerBit 6 f ∧ (policyFlags f).2 = peerBit 4 f := by
  cases f with
  | peer f => exact ⟨(c63_flags f).2.1, (c63_flags f).2.2.2.1⟩
  | localRib f => exact ⟨rfl, rfl⟩

theorem peer_described (env : WasmEnv) (h : PerPeerHeader) : DescribesPeer env h (peerHeaderJson env h) := by
  refine ⟨_, rfl, entry_eq_some.mp rfl, entry_eq_some.mp rfl, entry_eq_some.mp rfl, ?_, ?_, ?_, entry_eq_some.mp rfl⟩
  · cases h.peerType <;> exact entry_eq_some.mp rfl
  · rw [← (policyFlags_bits h.flags).1]; exact entry_eq_some.mp rfl
  · rw [← (policyFlags_bits h.flags).2]; exact entry_eq_some.mp rfl

theorem router_described (env : WasmEnv) (h : OpenBmpHeader) : DescribesRouter env h (openHeaderJson env h) := by
  refine ⟨_, rfl, entry_eq_some.mp rfl, ?_, entry_eq_some.mp rfl, entry_eq_some.mp rfl⟩
  obtain ⟨a, b, c, d, e, f, g, i, group⟩ := h
  cases group <;> exact entry_eq_some.mp rfl

theorem initTypeName_eq (t : UInt16) : initTypeName t = initName t.toNat := by
  unfold initTypeName initName
  by_cases h0 : t = 0; · subst h0; rfl
  by_cases h1 : t = 1; · subst h1; rfl
  by_cases h2 : t = 2; · subst h2; rfl
  by_cases h3 : t = 3; · subst h3; rfl
  by_cases h4 : t = 4; · subst h4; rfl
  rw [if_neg h0, if_neg h1, if_neg h2, if_neg h3, if_neg h4, List.getElem?_eq_none]
  · rfl
  · have hne : ∀ k : UInt16, t ≠ k → t.toNat ≠ k.toNat := fun k h e => h (UInt16.toNat_inj.mp e)
    have a0 := hne 0 h0; have a1 := hne 1 h1; have a2 := hne 2 h2; have a3 := hne 3 h3; have a4 := hne 4 h4
    simp at a0 a1 a2 a3 a4 ⊢
    omega

/-- the document of a message with or without a peer as it must be -/
theorem bmpJson_document (env : WasmEnv) (m : BmpMessage) (hdr : Option OpenBmpHeader) (time : Rat)
    (hp : m.peer = none ↔ AboutSession m.body) : BmpDocument env m hdr time (bmpJson env m hdr time) := by
  obtain ⟨hd, p, body⟩ := m
  have hr : ∀ kvs : List (String × Json), HasEntry kvs "openBmpHeader" (optJson (openHeaderJson env) hdr) →
      (match hdr with
      | none => HasEntry kvs "openBmpHeader" .null
      | some h => ∃ j, HasEntry kvs "openBmpHeader" j ∧ DescribesRouter env h j) := by
    intro kvs h
    cases hdr with
    | none => exact h
    | some x => exact ⟨_, h, router_described env x⟩
  have e : ∀ {kvs : List (String × Json)} {k : String} {v : Json}, Json.entry kvs k = some (some v) → HasEntry kvs k v :=
    fun h => entry_eq_some.mp h
  cases p with
  | none =>
    cases body with
    | initiation ts =>
      refine ⟨_, rfl, e rfl, e rfl, hr _ (e rfl), entry_eq_none.mp rfl, _, e rfl, ?_⟩
      refine pairwise2_map _ _ (fun t => ⟨_, rfl, ?_, e rfl⟩) ts
      rw [← initTypeName_eq]; exact e rfl
    | termination ts =>
      refine ⟨_, rfl, e rfl, e rfl, hr _ (e rfl), entry_eq_none.mp rfl, _, e rfl, ?_⟩
      refine pairwise2_map _ _ (fun t => ⟨_, rfl, ?_, e rfl⟩) ts
      cases t <;> exact e rfl
    | _ => simp [AboutSession] at hp
  | some h =>
    cases body with
    | initiation ts => simp [AboutSession] at hp
    | termination ts => simp [AboutSession] at hp
    | routeMonitoring g =>
      exact ⟨_, rfl, e rfl, e rfl, hr _ (e rfl), ⟨_, e rfl, peer_described env h⟩, h, _, rfl, rfl, bgp_elems_peer g _ _ _, e rfl⟩
    | peerUp u => exact ⟨_, rfl, e rfl, e rfl, hr _ (e rfl), ⟨_, e rfl, peer_described env h⟩, e rfl, e rfl, e rfl⟩
    | peerDown u =>
      refine ⟨_, rfl, e rfl, e rfl, hr _ (e rfl), ⟨_, e rfl, peer_described env h⟩, ?_⟩
      have : downReasonName u.reason = downName u.reason := by cases u.reason <;> rfl
      show HasEntry _ "reason" (.str (downName u.reason))
      rw [← this]; exact e rfl
    | statsReport u => exact ⟨_, rfl, e rfl, e rfl, hr _ (e rfl), ⟨_, e rfl, peer_described env h⟩, trivial⟩
    | routeMirroring u => exact ⟨_, rfl, e rfl, e rfl, hr _ (e rfl), ⟨_, e rfl, peer_described env h⟩, trivial⟩

/-- C88: parsing a BMP message fails as the parser fails, never with a panic, and gives otherwise the document of the message,
with the time that was given. -/
theorem c88_bmp (env : WasmEnv) (d : Bytes) (time : Rat) :
    wasmParseBmp env d time ≠ .error .panic ∧
    (∀ e, (parseBmpMsg d).1 = .error e → wasmParseBmp env d time = .error e) ∧
    ∀ m, (parseBmpMsg d).1 = .ok m → ∃ j, wasmParseBmp env d time = .ok j ∧ BmpDocument env m none time j := by
  refine ⟨?_, ?_, ?_⟩
  · intro h
    unfold wasmParseBmp at h
    cases hm : (parseBmpMsg d).1 with
    | error e => rw [hm] at h; cases h; exact (c42_no_panic d).1 hm
    | ok m => rw [hm] at h; cases h
  · intro e h; simp only [wasmParseBmp, h]
  · intro m h
    refine ⟨_, by simp only [wasmParseBmp, h], bmpJson_document env m none time (c88_peer d m h)⟩

/-- C88: the same behind an OpenBMP header, with the time and the router of that header. -/
theorem c88_openbmp (env : WasmEnv) (h : OpenBmpHeader) (c d : Bytes) (hc : OpenBmpBytes h c) :
    (∀ e, (parseBmpMsg d).1 = .error e → wasmParseOpenBmp env (c ++ d) = .error e) ∧
    ∀ m, (parseBmpMsg d).1 = .ok m → ∃ j, wasmParseOpenBmp env (c ++ d) = .ok (some j) ∧
      BmpDocument env m (some h) h.timestamp j := by
  have hh := (c63_openbmp_header (c ++ d) h d).mpr ⟨c, rfl, hc⟩
  refine ⟨?_, ?_⟩
  · intro e he; simp only [wasmParseOpenBmp, hh, he]
  · intro m hm
    refine ⟨_, by simp only [wasmParseOpenBmp, hh, hm], bmpJson_document env m (some h) h.timestamp (c88_peer d m hm)⟩

/-! #### messages that are not about routers -/

/-- the parser never fails with `UnsupportedOpenBmpMessage` -/
def Supports (p : Rd α) : Prop := ∀ s, p s ≠ .error .bmpUnsupported

namespace Supports
theorem bind {p : Rd α} {f : α → Rd β} (hp : Supports p) (hf : ∀ a, Supports (f a)) : Supports (p >>= f) := by
  intro s h
  rcases Rd.bind_eq_error.mp h with h | ⟨a, t, _, h⟩
  · exact hp s h
  · exact hf a t h
theorem pure (a : α) : Supports (Pure.pure a : Rd α) := by intro s h; cases h
theorem rdU8 : Supports rdU8 := by intro s h; cases s <;> cases h
theorem rdU16 : Supports rdU16 := by intro s h; simp only [Verif.rdU16] at h; split at h <;> cases h
theorem rdU32 : Supports rdU32 := by intro s h; simp only [Verif.rdU32] at h; split at h <;> cases h
theorem rdN (n : Nat) : Supports (rdN n) := by intro s h; simp only [Verif.rdN] at h; split at h <;> cases h
theorem rdVec (n : Nat) : Supports (rdVec n) := by intro s h; simp only [Verif.rdVec] at h; split at h <;> cases h
theorem skipN (n : Nat) : Supports (skipN n) :=
  bind (by intro s h; simp only [needN] at h; split at h <;> cases h)
    (fun _ => by intro s h; simp only [advance] at h; split at h <;> cases h)
theorem tail (a b : UInt8) (c : UInt16) (d : UInt32) (e f : UInt8) : Supports (rdOpenBmpTail a b c d e f) := by
  unfold rdOpenBmpTail
  refine bind rdU32 fun _ => bind rdU32 fun _ => bind (skipN _) fun _ => bind rdU16 fun _ => bind (rdN _) fun _ => bind (skipN _) fun _ =>
    bind ?_ fun _ => bind ?_ fun _ => bind rdU32 fun _ => ?_
  · unfold rdRouterIp
    split
    · exact bind (rdVec _) fun _ => pure _
    · exact bind (rdVec _) fun _ => bind (skipN _) fun _ => pure _
  · unfold rdGroup
    refine bind rdU16 fun _ => ?_
    split
    · exact pure _
    · exact bind (rdN _) fun _ => pure _
  · split
    · intro s h; cases h
    · exact pure _
end Supports

theorem openHeader_unsupported (d : Bytes) : rdOpenBmpHeader d = .error .bmpUnsupported ↔ OtherOpenBmp d := by
  constructor
  · intro k0
    unfold rdOpenBmpHeader at k0
    rcases Rd.bind_eq_error.mp k0 with h | ⟨magic, s1, h1, k1⟩
    · exact absurd h (Supports.rdN _ _)
    obtain ⟨_, rfl, rfl, hm4⟩ := (Exact.rdN 4 _ _ _).mp h1
    split at k1
    · cases k1
    rename_i hm
    have hm := openBmp_magic hm4 (Decidable.not_not.mp hm)
    rcases Rd.bind_eq_error.mp k1 with h | ⟨major, s2, h2, k2⟩
    · exact absurd h (Supports.rdU8 _)
    obtain ⟨_, rfl, rfl⟩ := (Exact.rdU8 _ _ _).mp h2
    rcases Rd.bind_eq_error.mp k2 with h | ⟨minor, s3, h3, k3⟩
    · exact absurd h (Supports.rdU8 _)
    obtain ⟨_, rfl, rfl⟩ := (Exact.rdU8 _ _ _).mp h3
    split at k3
    · cases k3
    rename_i hv
    have hv := Decidable.not_not.mp hv
    rcases Rd.bind_eq_error.mp k3 with h | ⟨hl, s4, h4, k4⟩
    · exact absurd h (Supports.rdU16 _)
    obtain ⟨_, rfl, rfl⟩ := (Exact.rdU16 _ _ _).mp h4
    rcases Rd.bind_eq_error.mp k4 with h | ⟨ml, s5, h5, k5⟩
    · exact absurd h (Supports.rdU32 _)
    obtain ⟨_, rfl, rfl⟩ := (Exact.rdU32 _ _ _).mp h5
    rcases Rd.bind_eq_error.mp k5 with h | ⟨flags, s6, h6, k6⟩
    · exact absurd h (Supports.rdU8 _)
    obtain ⟨_, rfl, rfl⟩ := (Exact.rdU8 _ _ _).mp h6
    refine ⟨hl, ml, flags, s6, ?_, ?_⟩
    · rw [hm]
      cases hv
      simp [be16_n16, be32_n32]
    split at k6
    · rename_i hf
      left
      rw [flag_bit7] at hf
      exact hf
    · right
      rcases Rd.bind_eq_error.mp k6 with h | ⟨ty, s7, h7, k7⟩
      · exact absurd h (Supports.rdU8 _)
      obtain ⟨_, rfl, rfl⟩ := (Exact.rdU8 _ _ _).mp h7
      split at k7
      · rename_i hty
        exact ⟨ty, s7, rfl, hty⟩
      · exact absurd k7 (Supports.tail _ _ _ _ _ _ _)
  · rintro ⟨hl, ml, flags, rest, rfl, h⟩
    rw [← be16_n16, ← be32_n32]
    have e0 : rdN 4 ([0x4F, 0x42, 0x4D, 0x50, 1, 7] ++ be16 hl ++ be32 ml ++ [flags] ++ rest) =
        .ok ([0x4F, 0x42, 0x4D, 0x50], [1] ++ ([7] ++ (be16 hl ++ (be32 ml ++ ([flags] ++ rest))))) := by
      refine (Exact.rdN 4 _ _ _).mpr ⟨[0x4F, 0x42, 0x4D, 0x50], by simp, rfl, rfl⟩
    unfold rdOpenBmpHeader
    rw [Rd.bind_ok e0, if_neg (by decide), Rd.bind_ok ((Exact.rdU8 _ _ _).mpr ⟨[1], rfl, rfl⟩),
      Rd.bind_ok ((Exact.rdU8 _ _ _).mpr ⟨[7], rfl, rfl⟩), if_neg (by simp), Rd.bind_ok ((Exact.rdU16 _ _ _).mpr ⟨_, rfl, rfl⟩),
      Rd.bind_ok ((Exact.rdU32 _ _ _).mpr ⟨_, rfl, rfl⟩), Rd.bind_ok ((Exact.rdU8 _ _ _).mpr ⟨_, rfl, rfl⟩)]
    rcases h with h | ⟨ty, rest', rfl, hty⟩
    · rw [if_pos ((flag_bit7 flags).mpr h)]; rfl
    · split
      · rfl
      · rw [Rd.bind_ok ((Exact.rdU8 (ty :: rest') ty rest').mpr ⟨[ty], rfl, rfl⟩), if_pos hty]; rfl

theorem bmpErr_unsupported (e : Err) : bmpErr e = .unsupportedOpenBmpMessage ↔ e = .bmpUnsupported := by
  cases e <;> simp [bmpErr]

/-- C88: an OpenBMP message gives nothing, and no error, exactly if it is not about a router; other headers that are not as
they should be are errors; there is no panic. -/
theorem c88_openbmp_other (env : WasmEnv) (d : Bytes) :
    (wasmParseOpenBmp env d = .ok none ↔ OtherOpenBmp d) ∧ wasmParseOpenBmp env d ≠ .error .panic ∧
    ((∀ h c r, d = c ++ r → ¬ OpenBmpBytes h c) → ¬ OtherOpenBmp d → ∃ e, wasmParseOpenBmp env d = .error e) := by
  have hno := (c42_no_panic d).2
  unfold parseOpenBmpMsg at hno
  unfold wasmParseOpenBmp
  rw [← openHeader_unsupported]
  cases hr : rdOpenBmpHeader d with
  | error e =>
    rw [hr] at hno
    simp only at hno ⊢
    by_cases he : e = .bmpUnsupported
    · subst he
      simp [bmpErr]
    · rw [if_neg (fun h => he ((bmpErr_unsupported e).mp h))]
      refine ⟨⟨fun h => (by cases h), fun h => absurd (Except.error.inj h) he⟩, fun h => hno (congrArg Except.error (Except.error.inj h)), fun _ _ => ⟨_, rfl⟩⟩
  | ok x =>
    obtain ⟨h, r⟩ := x
    rw [hr] at hno
    simp only at hno ⊢
    obtain ⟨c, hd, hc⟩ := (c63_openbmp_header d h r).mp hr
    cases hm : (parseBmpMsg r).1 with
    | error e =>
      rw [hm] at hno
      exact ⟨⟨fun h => (by cases h), fun h => (by cases h)⟩, fun h => hno (congrArg Except.error (Except.error.inj h)),
        fun h1 => absurd hc (h1 h c r hd)⟩
    | ok m => exact ⟨⟨fun h => (by simp at h), fun h => (by cases h)⟩, by simp, fun h1 => absurd hc (h1 h c r hd)⟩

/-- a route monitoring message of a peer with two-octet AS numbers after its policy. -/
def c88Route : Bytes :=
  bmpFrame 0 ([0, 0x60] ++ n64 5 ++ (List.replicate 12 0 ++ [10, 0, 0, 9]) ++ ([0, 0] ++ n16 65001) ++ [1, 2, 3, 4] ++ n32 1 ++ n32 0 ++
    (List.replicate 16 0xFF ++ [0, 43, 2, 0, 0, 0, 18, 0x40, 1, 1, 0, 0x40, 2, 4, 2, 1, 0xFD, 0xE9, 0x40, 3, 4, 10, 0, 0, 1, 8, 10]))

/-- a case of C88 with elements, and one that is not about a router. -/
example (env : WasmEnv) :
    (∃ m j, (parseBmpMsg c88Route).1 = .ok m ∧ wasmParseBmp env c88Route 7 = .ok j ∧ BmpDocument env m none 7 j ∧
      ∃ g h, m.body = .routeMonitoring g ∧ m.peer = some h ∧ h.asn = 65001 ∧ (bgpToElems g 0 h.ip h.asn).length = 1) ∧
    (∃ m j, (parseBmpMsg c88Route).1 = .ok m ∧ ∃ h c, OpenBmpBytes h c ∧ wasmParseOpenBmp env (c ++ c88Route) = .ok (some j) ∧
      BmpDocument env m (some h) h.timestamp j) ∧
    OtherOpenBmp ([0x4F, 0x42, 0x4D, 0x50, 1, 7] ++ n16 70 ++ n32 9 ++ [0x80, 13]) := by
  have hk : (match (parseBmpMsg c88Route).1 with
      | .ok ⟨_, some h, .routeMonitoring g⟩ => some (h.asn, (bgpToElems g 0 h.ip h.asn).length)
      | _ => none) = some (65001, 1) := by decide +kernel
  cases hm : (parseBmpMsg c88Route).1 with
  | error e => rw [hm] at hk; cases hk
  | ok m =>
    rw [hm] at hk
    obtain ⟨j, hj, hd⟩ := (c88_bmp env c88Route 7).2.2 m hm
    have hh : ∃ h c r, rdOpenBmpHeader (c63Head 1 1) = .ok (h, r) ∧ c = c63Head 1 1 ∧ r = [] := by
      have : (match rdOpenBmpHeader (c63Head 1 1) with | .ok (_, r) => r == [] | .error _ => false) = true := by decide +kernel
      cases hx : rdOpenBmpHeader (c63Head 1 1) with
      | error e => rw [hx] at this; cases this
      | ok x => rw [hx] at this; exact ⟨x.1, _, x.2, rfl, rfl, by simpa using this⟩
    obtain ⟨h, c, r, hx, rfl, rfl⟩ := hh
    obtain ⟨c, hc, ho⟩ := (c63_openbmp_header _ _ _).mp hx
    obtain ⟨j2, hj2, hd2⟩ := (c88_openbmp env h c c88Route ho).2 m hm
    refine ⟨⟨m, j, rfl, hj, hd, ?_⟩, ⟨m, j2, rfl, h, c, ho, hj2, hd2⟩, ⟨70, 9, 0x80, [13], by decide, .inr ⟨13, [], rfl, by decide⟩⟩⟩
    obtain ⟨hdr, p, b⟩ := m
    cases p with
    | none => cases hk
    | some h =>
      cases b with
      | routeMonitoring g =>
        simp only [Option.some.injEq, Prod.mk.injEq] at hk
        exact ⟨g, h, rfl, rfl, hk.1, hk.2⟩
      | _ => cases hk

/-- a case of C89: an UPDATE with an attribute that the elements do not show, and a record that does not parse but can be
dissected. -/
example :
    ((wasmParseFull (List.replicate 16 0xFF ++ [0, 30, 2, 0, 0, 0, 7, 0x80, 9, 4, 1, 2, 3, 4])).toOption.map fun f =>
      (f.elems.length, f.attributes.inner.length, f.warnings.length)) = some (0, 1, 0) ∧
    ((wasmDissectMrt (fun n _ => n) (c87Bad ++ [9])).map fun o => o.map fun x => (x.1.length, x.2)) = some (some (16, 16)) := by
  decide +kernel

end Verif.Props
