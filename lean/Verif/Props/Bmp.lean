import Verif.Lemmas.Bmp
import Verif.Props.Time
import Verif.Props.MrtRecord
/-
C42: framing of BMP messages. C52: BMP route monitoring to MRT. C63: contents of BMP messages and OpenBMP headers.
-/
namespace Verif.Props
open Verif Spec

/-! ### C42 -/

theorem bmpType_ofU8_num (t : BmpMsgType) : BmpMsgType.ofU8? (UInt8.ofNat (bmpTypeNum t)) = some t := by cases t <;> rfl

theorem bmpType_ofU8_some {b : UInt8} {t : BmpMsgType} (h : BmpMsgType.ofU8? b = some t) : b = UInt8.ofNat (bmpTypeNum t) := by
  unfold BmpMsgType.ofU8? at h
  split at h
  · rename_i hb; cases h; exact hb
  split at h
  · rename_i hb; cases h; exact hb
  split at h
  · rename_i hb; cases h; exact hb
  split at h
  · rename_i hb; cases h; exact hb
  split at h
  · rename_i hb; cases h; exact hb
  split at h
  · rename_i hb; cases h; exact hb
  split at h
  · rename_i hb; cases h; exact hb
  · cases h

theorem bmpType_ofU8_isSome (b : UInt8) : (BmpMsgType.ofU8? b).isSome = decide (b.toNat ≤ 6) := by
  have : ∀ n : Fin 256, (BmpMsgType.ofU8? (UInt8.ofNat n.val)).isSome = decide ((UInt8.ofNat n.val).toNat ≤ 6) := by decide +kernel
  simpa using this ⟨b.toNat, b.toNat_lt⟩

theorem toNat_u32len {n : Nat} (h : n < 4294967296) : (UInt32.ofNat n).toNat = n := by simp; omega

theorem parseBmpHeader_frame (t : UInt8) (n : Nat) (hn : n < 4294967296) (s : Bytes) :
    parseBmpHeader ([3] ++ n32 n ++ [t] ++ s) =
      match BmpMsgType.ofU8? t with
      | none => (.error .invalidOpenBmpHeader, s)
      | some ty => (.ok ⟨3, UInt32.ofNat n, ty⟩, s) := by
  have e : n32 n = be32 (UInt32.ofNat n) := by rw [be32_n32, toNat_u32len hn]
  rw [e]
  simp only [List.cons_append, List.nil_append, List.append_assoc, parseBmpHeader, rdU32_be32]
  rfl

theorem parseBmpMsg_frame (t : BmpMsgType) (content rest : Bytes) (hl : 6 + content.length < 4294967296) :
    parseBmpMsg (bmpFrame (UInt8.ofNat (bmpTypeNum t)) content ++ rest) =
      ((match (rdContent t).runOn content with
        | .error e => .error (bmpErr e)
        | .ok (p, b) => .ok ⟨⟨3, UInt32.ofNat (6 + content.length), t⟩, p, b⟩), rest) := by
  unfold parseBmpMsg bmpFrame
  rw [List.append_assoc, parseBmpHeader_frame _ _ hl, bmpType_ofU8_num]
  dsimp only
  rw [toNat_u32len hl, if_neg (by omega), rdN_append' (by omega)]
  dsimp only
  cases (rdContent t).runOn content with
  | error e => rfl
  | ok v => rfl

theorem bmpErr_panic {e : Err} (h : e ≠ .panic) : bmpErr e ≠ .panic := by cases e <;> simp_all [bmpErr]

theorem parseBmpHeader_error {d : Bytes} {e : BmpErr} {r : Bytes} (h : parseBmpHeader d = (.error e, r)) : e ≠ .panic := by
  cases d with
  | nil => cases h; decide
  | cons v d =>
    rw [parseBmpHeader] at h
    split at h
    · cases h; decide
    cases h1 : rdU32 d with
    | error e' =>
      rw [h1] at h
      cases h
      exact bmpErr_panic (fun e => by rw [e] at h1; exact NoPanic.rdU32 _ h1)
    | ok v1 =>
      obtain ⟨len, d2⟩ := v1
      rw [h1] at h
      dsimp only at h
      cases h2 : rdU8 d2 with
      | error e' =>
        rw [h2] at h
        cases h
        exact bmpErr_panic (fun e => by rw [e] at h2; exact NoPanic.rdU8 _ h2)
      | ok v2 =>
        obtain ⟨t, d3⟩ := v2
        rw [h2] at h
        dsimp only at h
        cases h3 : BmpMsgType.ofU8? t with
        | none => rw [h3] at h; cases h; decide
        | some ty => rw [h3] at h; cases h

theorem parseBmpHeader_ok {d : Bytes} {h : BmpCommonHeader} {r : Bytes} (e : parseBmpHeader d = (.ok h, r)) :
    d = [3] ++ n32 h.msgLen.toNat ++ [UInt8.ofNat (bmpTypeNum h.msgType)] ++ r ∧ h.version = 3 := by
  cases d with
  | nil => cases e
  | cons v d =>
    rw [parseBmpHeader] at e
    split at e
    · cases e
    rename_i hv
    have hv := Decidable.not_not.mp hv
    subst hv
    cases h1 : rdU32 d with
    | error e' => rw [h1] at e; cases e
    | ok v1 =>
      obtain ⟨len, d2⟩ := v1
      rw [h1] at e
      dsimp only at e
      cases h2 : rdU8 d2 with
      | error e' => rw [h2] at e; cases e
      | ok v2 =>
        obtain ⟨t, d3⟩ := v2
        rw [h2] at e
        dsimp only at e
        cases h3 : BmpMsgType.ofU8? t with
        | none => rw [h3] at e; cases e
        | some ty =>
          rw [h3] at e; cases e
          rw [rdU32_ok h1, rdU8_ok h2, bmpType_ofU8_some h3, be32_n32]
          exact ⟨by simp, rfl⟩

/-- C42: the parsers of BMP and OpenBMP messages never panic. -/
theorem c42_no_panic (d : Bytes) : (parseBmpMsg d).1 ≠ .error .panic ∧ parseOpenBmpMsg d ≠ .error .panic := by
  have key : ∀ d, (parseBmpMsg d).1 ≠ .error .panic := by
    intro d h
    unfold parseBmpMsg at h
    cases h1 : parseBmpHeader d with
    | mk v r =>
      rw [h1] at h
      cases v with
      | error e => injection h with h; exact parseBmpHeader_error h1 h
      | ok hd =>
        dsimp only at h
        split at h
        · cases h
        cases h2 : rdN (hd.msgLen.toNat - 6) r with
        | error e =>
          rw [h2] at h
          injection h with h
          exact bmpErr_panic (fun e' => by rw [e'] at h2; exact NoPanic.rdN _ _ h2) h
        | ok v =>
          obtain ⟨content, r'⟩ := v
          rw [h2] at h
          dsimp only at h
          cases h3 : (rdContent hd.msgType).runOn content with
          | error e =>
            rw [h3] at h
            injection h with h
            exact bmpErr_panic (fun e' => by rw [e'] at h3; exact NoPanic.runOn (rdContent_noPanic _) _ h3) h
          | ok v => rw [h3] at h; cases h
  refine ⟨key d, ?_⟩
  unfold parseOpenBmpMsg
  cases h1 : rdOpenBmpHeader d with
  | ok v => exact key _
  | error e =>
    intro h
    injection h with h
    refine bmpErr_panic (fun e' => ?_) h
    subst e'
    exact openBmp_noPanic _ h1

/-- C42 (for the seven known types; `c42_unknown_type` shows what is missing): a message of any type whose length field
is right is consumed exactly, whether its content is accepted or not, and the result does not depend on what follows. -/
theorem c42_frame_partial (t : UInt8) (ht : t.toNat ≤ 6) (content : Bytes) (hl : 6 + content.length < 4294967296) :
    ∃ r, ∀ rest, parseBmpMsg (bmpFrame t content ++ rest) = (r, rest) := by
  have := bmpType_ofU8_isSome t
  rw [decide_eq_true ht] at this
  obtain ⟨ty, hty⟩ := Option.isSome_iff_exists.mp this
  rw [bmpType_ofU8_some hty]
  exact ⟨_, fun rest => parseBmpMsg_frame ty content rest hl⟩

example : (4 : UInt8).toNat ≤ 6 ∧ 6 + (n16 1 ++ n16 3 ++ [0x61, 0x62, 0x63]).length < 4294967296 ∧
    parseBmpMsg (bmpFrame 4 (n16 1 ++ n16 3 ++ [0x61, 0x62, 0x63]) ++ [9, 9]) =
      (.ok ⟨⟨3, 13, .initiation⟩, none, .initiation [⟨1, 3, [0x61, 0x62, 0x63]⟩]⟩, [9, 9]) := by decide +kernel

/-- C42: an accepted message is a complete one: version 3, and its length field is the number of octets consumed. -/
theorem c42_accepts (d : Bytes) (m : BmpMessage) (rest : Bytes) (h : parseBmpMsg d = (.ok m, rest)) :
    ∃ content, d = bmpFrame (UInt8.ofNat (bmpTypeNum m.header.msgType)) content ++ rest ∧
      m.header.version = 3 ∧ m.header.msgLen.toNat = 6 + content.length := by
  unfold parseBmpMsg at h
  cases h1 : parseBmpHeader d with
  | mk v r =>
    rw [h1] at h
    cases v with
    | error e => cases h
    | ok hd =>
      dsimp only at h
      split at h
      · cases h
      rename_i h6
      cases h2 : rdN (hd.msgLen.toNat - 6) r with
      | error e => rw [h2] at h; cases h
      | ok v =>
        obtain ⟨content, r'⟩ := v
        rw [h2] at h
        dsimp only at h
        cases h3 : (rdContent hd.msgType).runOn content with
        | error e => rw [h3] at h; cases h
        | ok v =>
          obtain ⟨p, b⟩ := v
          rw [h3] at h
          cases h
          obtain ⟨rfl, hc⟩ := rdN_ok h2
          obtain ⟨rfl, hv⟩ := parseBmpHeader_ok h1
          have : hd.msgLen.toNat = 6 + content.length := by omega
          exact ⟨content, by unfold bmpFrame; rw [this]; simp, hv, this⟩

theorem bmpFrame_inj {t t' : UInt8} {c c' r r' : Bytes} (hl : 6 + c.length < 4294967296) (hl' : 6 + c'.length < 4294967296)
    (h : bmpFrame t c ++ r = bmpFrame t' c' ++ r') : t = t' ∧ c = c' ∧ r = r' := by
  unfold bmpFrame at h
  simp only [List.append_assoc, List.cons_append, List.nil_append, List.cons.injEq, true_and] at h
  obtain ⟨h1, h2⟩ := List.append_inj h (by simp [n32])
  have e := rdU32_be32 (UInt32.ofNat (6 + c.length)) []
  have e' := rdU32_be32 (UInt32.ofNat (6 + c'.length)) []
  rw [be32_n32, toNat_u32len hl, h1] at e
  rw [be32_n32, toNat_u32len hl', e] at e'
  injection e' with e'
  injection e' with e' _
  have := congrArg UInt32.toNat e'
  rw [toNat_u32len hl, toNat_u32len hl'] at this
  simp only [List.cons.injEq] at h2
  obtain ⟨rfl, h2⟩ := h2
  obtain ⟨h3, h4⟩ := List.append_inj h2 (by omega)
  exact ⟨rfl, h3, h4⟩

/-- C42: of a message that has not arrived completely no part is taken for a message; every strict prefix is an error. -/
theorem c42_incomplete (t : UInt8) (content : Bytes) (hl : 6 + content.length < 4294967296) (p q : Bytes)
    (h : bmpFrame t content = p ++ q) (hq : q ≠ []) : ∃ e, (parseBmpMsg p).1 = .error e := by
  cases hp : parseBmpMsg p with
  | mk v rest =>
    cases v with
    | error e => exact ⟨e, rfl⟩
    | ok m =>
      obtain ⟨c, rfl, _, hc⟩ := c42_accepts _ _ _ hp
      have hc' : 6 + c.length < 4294967296 := by rw [← hc]; exact m.header.msgLen.toNat_lt
      rw [List.append_assoc] at h
      have := bmpFrame_inj (r := []) hl hc' (by rw [List.append_nil]; exact h)
      exact absurd (List.append_eq_nil_iff.mp this.2.2.symm).2 hq

example : (parseBmpMsg (bmpFrame 4 (n16 1 ++ n16 3 ++ [0x61, 0x62]))).1 = .ok ⟨⟨3, 12, .initiation⟩, none, .initiation []⟩ ∧
    (parseBmpMsg ((bmpFrame 4 (n16 1 ++ n16 3 ++ [0x61, 0x62, 0x63])).take 12)).1 = .error .corruptedBgpMessage := by decide +kernel

/-- C42: another version, or a length field below 6, is refused. -/
theorem c42_refuses (d : Bytes) :
    (∀ v, v ≠ 3 → (parseBmpMsg (v :: d)).1 = .error .corruptedBmpMessage) ∧
    (∀ t : BmpMsgType, ∀ n, n < 6 →
      (parseBmpMsg ([3] ++ n32 n ++ [UInt8.ofNat (bmpTypeNum t)] ++ d)).1 = .error .corruptedBmpMessage) := by
  constructor
  · intro v hv
    simp [parseBmpMsg, parseBmpHeader, hv]
  · intro t n hn
    unfold parseBmpMsg
    rw [parseBmpHeader_frame _ _ (by omega), bmpType_ofU8_num]
    dsimp only
    rw [toNat_u32len (by omega), if_pos hn]

/-- C42 fails for types 7 and above, which RFC 7854 asks receivers to ignore: the error leaves the content of the message
in the buffer, so the next call reads from the middle of it. -/
theorem c42_unknown_type (t : UInt8) (ht : 6 < t.toNat) (content rest : Bytes) (hl : 6 + content.length < 4294967296) :
    parseBmpMsg (bmpFrame t content ++ rest) = (.error .invalidOpenBmpHeader, content ++ rest) := by
  have := bmpType_ofU8_isSome t
  rw [decide_eq_false (by omega)] at this
  have hn : BmpMsgType.ofU8? t = none := Option.not_isSome_iff_eq_none.mp (by rw [this]; simp)
  unfold parseBmpMsg bmpFrame
  rw [List.append_assoc, parseBmpHeader_frame _ _ hl, hn]

/-- a message of an unknown type whose content looks like an initiation message: the second call returns that. -/
example : parseBmpMsg (bmpFrame 7 (bmpFrame 4 [0, 1, 0, 1, 0x61])) =
      (.error .invalidOpenBmpHeader, bmpFrame 4 [0, 1, 0, 1, 0x61]) ∧
    (parseBmpMsg (bmpFrame 4 [0, 1, 0, 1, 0x61])).1 = .ok ⟨⟨3, 11, .initiation⟩, none, .initiation [⟨1, 1, [0x61]⟩]⟩ := by
  decide +kernel

/-! ### C63 -/

/-- C63: a message is accepted, with what follows left in the buffer, exactly if it has the layout of RFC 7854 (and RFC
8671, RFC 9069) as given by `ContentBytes`. (Missing: reason and information TLVs whose length is not two octets, see
`c63_code_length_ignored`; and `ContentBytes` itself allows some octets at the end that are not looked at.) -/
theorem c63_message_partial (d : Bytes) (m : BmpMessage) (rest : Bytes) (hc : CodesHaveLength2 m.body) :
    parseBmpMsg d = (.ok m, rest) ↔
      ∃ content, 6 + content.length < 4294967296 ∧ m.header = ⟨3, UInt32.ofNat (6 + content.length), m.header.msgType⟩ ∧
        d = bmpFrame (UInt8.ofNat (bmpTypeNum m.header.msgType)) content ++ rest ∧
        ContentBytes m.header.msgType m.peer m.body content := by
  constructor
  · intro h
    obtain ⟨content, rfl, hv, hl⟩ := c42_accepts _ _ _ h
    have hlt : 6 + content.length < 4294967296 := by rw [← hl]; exact m.header.msgLen.toNat_lt
    rw [parseBmpMsg_frame _ _ _ hlt] at h
    cases hr : (rdContent m.header.msgType).runOn content with
    | error e => rw [hr] at h; cases h
    | ok v =>
      obtain ⟨p, b⟩ := v
      rw [hr] at h
      injection h with h _
      injection h with h
      have e1 : p = m.peer := by rw [← h]
      have e2 : b = m.body := by rw [← h]
      subst e1 e2
      refine ⟨content, hlt, ?_, rfl, (rdContent_iff _ _ _ _ hc).mp hr⟩
      exact (congrArg BmpMessage.header h).symm
  · rintro ⟨content, hlt, hh, rfl, hb⟩
    rw [parseBmpMsg_frame _ _ _ hlt, (rdContent_iff _ _ _ _ hc).mpr hb]
    dsimp only
    rw [← hh]

/-- a termination message with a text and a reason, and a peer down message of an IPv6 peer with two-octet AS numbers. -/
example :
    (parseBmpMsg (bmpFrame 5 (n16 0 ++ n16 2 ++ [0x61, 0x62] ++ (n16 1 ++ n16 2 ++ n16 3)))).1 =
      .ok ⟨⟨3, 18, .termination⟩, none, .termination [.string 2 [0x61, 0x62], .reason 2 .redundant]⟩ ∧
    CodesHaveLength2 (.termination [.string 2 [0x61, 0x62], .reason 2 .redundant]) ∧
    parseBmpMsg (bmpFrame 2 ([1, 0xA0] ++ n64 5 ++ List.replicate 16 1 ++ ([9, 9] ++ n16 65001) ++ [1, 2, 3, 4] ++ n32 1 ++ n32 0 ++
        [2, 0, 7]) ++ [3]) =
      (.ok ⟨⟨3, 51, .peerDown⟩, some ⟨.rd, .peer 0xA0, 5, .v6 (.replicate 16 1), 65001, #v[1, 2, 3, 4], 1⟩,
        .peerDown ⟨.localFsmEvent, some [0, 7]⟩⟩, [3]) := by
  refine ⟨by decide +kernel, ?_, by decide +kernel⟩
  intro len r h
  simp at h
  exact h.1

/-- C63: whether a message is accepted, and as what, for the types that carry no code TLVs: without reserve. -/
theorem c63_message (d : Bytes) (m : BmpMessage) (rest : Bytes) (ht : m.header.msgType ≠ .termination)
    (hm : m.header.msgType ≠ .routeMirroring) :
    parseBmpMsg d = (.ok m, rest) ↔
      ∃ content, 6 + content.length < 4294967296 ∧ m.header = ⟨3, UInt32.ofNat (6 + content.length), m.header.msgType⟩ ∧
        d = bmpFrame (UInt8.ofNat (bmpTypeNum m.header.msgType)) content ++ rest ∧
        ContentBytes m.header.msgType m.peer m.body content := by
  by_cases hc : CodesHaveLength2 m.body
  · exact c63_message_partial d m rest hc
  constructor
  · intro h
    exfalso
    obtain ⟨content, rfl, hv, hl⟩ := c42_accepts _ _ _ h
    have hlt : 6 + content.length < 4294967296 := by rw [← hl]; exact m.header.msgLen.toNat_lt
    rw [parseBmpMsg_frame _ _ _ hlt] at h
    cases hr : (rdContent m.header.msgType).runOn content with
    | error e => rw [hr] at h; cases h
    | ok v =>
      obtain ⟨p, b⟩ := v
      rw [hr] at h
      injection h with h _
      injection h with h
      have e2 : b = m.body := by rw [← h]
      subst e2
      apply hc
      obtain ⟨r, hr⟩ := runOn_iff.mp hr
      exact content_codes _ ht hm hr
  · rintro ⟨content, hlt, hh, rfl, hb⟩
    exfalso
    apply hc
    generalize m.header.msgType = t at *
    generalize m.peer = p at *
    generalize m.body = b at *
    cases hb with
    | routeMirroring => exact absurd rfl hm
    | termination => exact absurd rfl ht
    | _ => trivial

/-- C63: an initiation message is never refused. -/
theorem c63_initiation_total (content rest : Bytes) (hl : 6 + content.length < 4294967296) :
    ∃ m, parseBmpMsg (bmpFrame 4 content ++ rest) = (.ok m, rest) := by
  have := parseBmpMsg_frame .initiation content rest hl
  obtain ⟨ts, hts⟩ := parseInitiation_total content
  have hr : (rdContent .initiation).runOn content = .ok (none, .initiation ts) := by
    refine runOn_iff.mpr ⟨content, ?_⟩
    simp only [rdContent]
    rw [Rd.bind_ok (show Rd.peek content = .ok (content, content) from rfl), lift_bind_ok hts]
    rfl
  rw [hr] at this
  exact ⟨_, this⟩

/-- C63: text of ASCII characters in a TLV is returned as it is. -/
theorem c63_ascii (v : Bytes) (h : Ascii v) : latin1 v = v := latin1_ascii h

/-- C63 fails here: other text, which RFC 7854 says is UTF-8, is returned as a different string. -/
theorem c63_utf8_garbled :
    IsUtf8 [0xC3, 0xA9] ∧ parseBmpMsg (bmpFrame 4 (n16 2 ++ n16 2 ++ [0xC3, 0xA9])) =
      (.ok ⟨⟨3, 12, .initiation⟩, none, .initiation [⟨2, 2, [0xC3, 0x83, 0xC2, 0xA9]⟩]⟩, []) := by
  refine ⟨?_, by decide +kernel⟩
  exact ⟨[0xE9], by simp [IsScalar], by decide⟩

/-- C63 fails here: a TLV without text at the end is dropped. -/
theorem c63_empty_tlv_dropped :
    Blocks TlvBytes [⟨2, 1, [0x61]⟩, ⟨0, 0, []⟩] ([0, 2, 0, 1, 0x61] ++ ([0, 0, 0, 0] ++ [])) ∧
    parseBmpMsg (bmpFrame 4 ([0, 2, 0, 1, 0x61] ++ ([0, 0, 0, 0] ++ []))) =
      (.ok ⟨⟨3, 15, .initiation⟩, none, .initiation [⟨2, 1, [0x61]⟩]⟩, []) := by
  refine ⟨.cons ⟨[0x61], rfl, rfl, rfl⟩ (.cons ⟨[], rfl, rfl, rfl⟩ .nil), by decide +kernel⟩

/-- C63 fails here: a TLV that claims more octets than there are is dropped without an error. -/
theorem c63_truncated_tlv_dropped :
    parseBmpMsg (bmpFrame 4 ([0, 2, 0, 1, 0x61] ++ [0, 1, 0, 9, 0x62])) =
      (.ok ⟨⟨3, 16, .initiation⟩, none, .initiation [⟨2, 1, [0x61]⟩]⟩, []) := by decide +kernel

/-- C63 fails here: a reason of four octets is read as two, and the next TLV from the two that are left. -/
theorem c63_code_length_ignored :
    parseBmpMsg (bmpFrame 5 (n16 1 ++ n16 4 ++ [0, 0, 0, 0] ++ (n16 0 ++ n16 2 ++ [0x61, 0x62]))) =
      (.ok ⟨⟨3, 20, .termination⟩, none, .termination [.reason 4 .adminClosed, .string 0 []]⟩, []) := by decide +kernel

/-- C63: the flags of a peer: V (IPv6), L (post-policy), A (two-octet AS numbers), O (Adj-RIB-Out), and F for the local
RIB, are the bits RFC 7854, RFC 8671 and RFC 9069 give them. -/
theorem c63_flags (f : UInt8) :
    flagIpv6 f = f.toNat.testBit 7 ∧ flagPostPolicy f = f.toNat.testBit 6 ∧
    flagAsnLen f = (if f.toNat.testBit 5 then .b16 else .b32) ∧ flagAdjRibOut f = f.toNat.testBit 4 ∧
    flagFiltered f = f.toNat.testBit 7 := by
  have h : ∀ n : Fin 256, flagPostPolicy (UInt8.ofNat n.val) = (UInt8.ofNat n.val).toNat.testBit 6 ∧
      flagAdjRibOut (UInt8.ofNat n.val) = (UInt8.ofNat n.val).toNat.testBit 4 := by decide +kernel
  have := h ⟨f.toNat, f.toNat_lt⟩
  simp at this
  exact ⟨flagIpv6_bit f, this.1, flagAsnLen_bit f, this.2, flagIpv6_bit f⟩

/-- C63: the address of a peer has the family its flags tell, and headers compare equal after stripping the timestamp
exactly if they agree in everything else. -/
theorem c63_peer (s : Bytes) (h : PerPeerHeader) (r : Bytes) (e : rdPerPeerHeader s = .ok (h, r)) :
    (∃ c, s = c ++ r ∧ c.length = 42 ∧ PeerHeaderBytes h c) ∧
    (∀ f, h.flags = .peer f → h.afi = if f.toNat.testBit 7 then .ipv6 else .ipv4) ∧
    (∀ h' : PerPeerHeader, h.stripTimestamp = h'.stripTimestamp ↔ h.peerType = h'.peerType ∧ h.flags = h'.flags ∧
      h.distinguisher = h'.distinguisher ∧ h.ip = h'.ip ∧ h.asn = h'.asn ∧ h.bgpId = h'.bgpId) := by
  obtain ⟨c, hc, hb⟩ := (exact_rdPerPeerHeader _ _ _).mp e
  refine ⟨⟨c, hc, peerHeader_length hb, hb⟩, ?_, ?_⟩
  · intro f hf
    cases hb with
    | peer ht hv ha hn =>
      cases hf
      rw [← hv]
      unfold PerPeerHeader.afi
      cases ha <;> rfl
    | localRib => cases hf
  · intro h'
    obtain ⟨a, b, c, d, e, f, g⟩ := h
    obtain ⟨a', b', c', d', e', f', g'⟩ := h'
    simp only [PerPeerHeader.stripTimestamp, PerPeerHeader.mk.injEq, and_true]

/-- C63: an OpenBMP header is accepted exactly if it has this layout. -/
theorem c63_openbmp_header (s : Bytes) (h : OpenBmpHeader) (r : Bytes) :
    rdOpenBmpHeader s = .ok (h, r) ↔ ∃ c, s = c ++ r ∧ OpenBmpBytes h c := exact_rdOpenBmpHeader s h r

/-- C63: the BMP message behind an OpenBMP header is what parsing it alone gives. -/
theorem c63_openbmp (h : OpenBmpHeader) (c d : Bytes) (hc : OpenBmpBytes h c) : parseOpenBmpMsg (c ++ d) = (parseBmpMsg d).1 := by
  unfold parseOpenBmpMsg
  rw [(exact_rdOpenBmpHeader _ _ _).mpr ⟨c, rfl, hc⟩]

/-- a header of a collector, and the lengths in it are not looked at. -/
def c63Head (hl : UInt16) (ml : UInt32) : Bytes :=
  [0x4F, 0x42, 0x4D, 0x50, 1, 7] ++ n16 hl.toNat ++ n32 ml.toNat ++ [0x80, 12] ++ n32 1700000000 ++ n32 5 ++
    List.replicate 16 7 ++ n16 2 ++ [0x72, 0x32] ++ List.replicate 16 8 ++ ([10, 0, 0, 1] ++ List.replicate 12 0) ++ n16 1 ++ [0x67] ++ n32 1

/-- C63: the two length fields of an OpenBMP header are not checked. -/
theorem c63_openbmp_lengths_unchecked (hl : UInt16) (ml : UInt32) (d : Bytes) :
    OpenBmpBytes ⟨1, 7, hl, ml, 12, stampOf 1700000000 5, [0x72, 0x32], .v4 #v[10, 0, 0, 1], some [0x67]⟩ (c63Head hl ml) ∧
    parseOpenBmpMsg (c63Head hl ml ++ d) = (parseBmpMsg d).1 := by
  have : OpenBmpBytes ⟨1, 7, hl, ml, 12, stampOf 1700000000 5, [0x72, 0x32], .v4 #v[10, 0, 0, 1], some [0x67]⟩ (c63Head hl ml) :=
    OpenBmpBytes.mk (hl := hl) (ml := ml) (flags := 0x80) (sec := 1700000000) (usec := 5) (ch := List.replicate 16 7)
      (admin := [0x72, 0x32]) (rh := List.replicate 16 8) (group := [0x67]) (ip := .v4 #v[10, 0, 0, 1]) (by decide) (by decide) (by decide)
      (by decide) (by decide) ⟨by decide, List.replicate 12 0, by decide, rfl⟩
  exact ⟨this, c63_openbmp _ _ _ this⟩

/-! ### C52 -/

/-- C52: when the conversion succeeds. -/
theorem c52_when (m : BmpMessage) :
    (∃ e, bmpToMrt m = .error e) ↔ (∀ b, m.body ≠ .routeMonitoring b) ∨ m.peer = none ∨
      ∃ b h e, m.body = .routeMonitoring b ∧ m.peer = some h ∧
        encodeMrtMessage (.bgp4mp (.message ⟨.messageAs4, h.asn, 0, 0, h.ip, zeroLike h.ip, b⟩)) 4 = .error e := by
  unfold bmpToMrt
  cases hb : m.body with
  | routeMonitoring b =>
    cases hp : m.peer with
    | none => simp
    | some h =>
      dsimp only
      cases he : encodeMrtMessage (.bgp4mp (.message ⟨.messageAs4, h.asn, 0, 0, h.ip, zeroLike h.ip, b⟩)) 4 with
      | error e => 
        constructor
        · intro _; exact Or.inr (Or.inr ⟨b, h, e, rfl, rfl, he⟩)
        · intro _; exact ⟨_, rfl⟩
      | ok v =>
        constructor
        · rintro ⟨e, h⟩; cases h
        · rintro (h' | h' | ⟨b', h'', e, h1, h2, h3⟩)
          · exact absurd rfl (h' b)
          · cases h'
          · cases h1; cases h2; rw [he] at h3; cases h3
  | _ => simp

/-- C52: the record is a BGP4MP_ET message between four-octet speakers that carries the address and AS number of the
peer and the BGP message; its time is the time of the header in whole microseconds, or one microsecond less (see
`c52_microsecond_lost`); the rest of the record is zero. -/
theorem c52_keeps_partial (m : BmpMessage) (r : MrtRecord) (h : bmpToMrt m = .ok r) :
    ∃ p b msg micro, m.peer = some p ∧ m.body = .routeMonitoring b ∧
      r.message = .bgp4mp (.message msg) ∧ msg.msgType = .messageAs4 ∧ msg.peerIp = p.ip ∧ msg.peerAsn = p.asn ∧
      msg.message = b ∧ msg.localAsn = 0 ∧ msg.iface = 0 ∧ msg.localIp.isV4 = p.ip.isV4 ∧ (∀ o ∈ msg.localIp.octets, o = 0) ∧
      r.header.type = .bgp4mpEt ∧ r.header.subtype = 4 ∧ r.header.micro = some micro ∧
      ∀ sec usec : UInt32, p.timestamp = stampOf sec usec → usec.toNat < 1000000 →
        r.header.time = sec ∧ (micro = usec ∨ micro.toNat + 1 = usec.toNat) := by
  unfold bmpToMrt at h
  cases hb : m.body with
  | routeMonitoring b =>
    rw [hb] at h
    cases hp : m.peer with
    | none => rw [hp] at h; cases h
    | some p =>
      rw [hp] at h
      dsimp only at h
      cases he : encodeMrtMessage (.bgp4mp (.message ⟨.messageAs4, p.asn, 0, 0, p.ip, zeroLike p.ip, b⟩)) 4 with
      | error e => rw [he] at h; cases h
      | ok v =>
        rw [he] at h
        cases h
        refine ⟨p, b, _, _, rfl, rfl, rfl, rfl, rfl, rfl, rfl, rfl, rfl, ?_, ?_, rfl, rfl, rfl, ?_⟩
        · cases p.ip <;> rfl
        · cases p.ip with
          | v4 a => exact (by decide : ∀ o ∈ (zeroLike (.v4 #v[0, 0, 0, 0])).octets, o = 0)
          | v6 a => exact (by decide : ∀ o ∈ (zeroLike (.v6 #v[0, 0, 0, 0, 0, 0, 0, 0, 0, 0, 0, 0, 0, 0, 0, 0])).octets, o = 0)
        · intro sec usec ht hu
          have hs := sec.toNat_lt
          have hm : micros sec usec = sec.toNat * 1000000 + usec.toNat := rfl
          obtain ⟨c1, c2⟩ := c62_convert_partial sec usec (by omega)
          have e1 : micros sec usec / 1000000 = sec.toNat := by omega
          have e2 : micros sec usec % 1000000 = usec.toNat := by omega
          rw [e1] at c1
          rw [e2] at c2
          dsimp only
          rw [ht]
          refine ⟨UInt32.toNat_inj.mp c1, ?_⟩
          rcases c2 with c2 | c2
          · exact Or.inl (UInt32.toNat_inj.mp c2)
          · exact Or.inr c2
  | _ => rw [hb] at h; cases h

/-- a route monitoring message with an end-of-RIB marker, sent at a given time. -/
def c52Msg (sec usec : UInt32) : Bytes :=
  bmpFrame 0 ([0, 0] ++ n64 0 ++ (List.replicate 12 0 ++ [10, 0, 0, 1]) ++ n32 65001 ++ [10, 0, 0, 2] ++ n32 sec.toNat ++
    n32 usec.toNat ++ (List.replicate 16 0xFF ++ n16 23 ++ [2] ++ n16 0 ++ n16 0))

/-- C52 fails here: a message sent two microseconds past midnight becomes a record of one microsecond past. -/
theorem c52_microsecond_lost :
    ∃ m r, parseBmpMsg (c52Msg 1609459200 2) = (.ok m, []) ∧ bmpToMrt m = .ok r ∧
      r.header.time = 1609459200 ∧ r.header.micro = some 1 := by
  refine ⟨⟨⟨3, 71, .routeMonitoring⟩, some ⟨.global, .peer 0, 0, .v4 #v[10, 0, 0, 1], 65001, #v[10, 0, 0, 2], stampOf 1609459200 2⟩,
    .routeMonitoring (.update ⟨[], Attributes.empty, []⟩)⟩, ⟨⟨1609459200, some 1, .bgp4mpEt, 4, 43⟩, .bgp4mp (.message ⟨.messageAs4, 65001, 0, 0,
      .v4 #v[10, 0, 0, 1], .v4 #v[0, 0, 0, 0], .update ⟨[], Attributes.empty, []⟩⟩)⟩, ?_, ?_, rfl, rfl⟩
  · decide +kernel
  · decide +kernel

/-- C52: writing the record and reading it back gives the same record, the same header including its length, for a BGP
message that can be sent between four-octet speakers and a size that readers accept. -/
theorem c52_roundtrip (m : BmpMessage) (p : PerPeerHeader) (g : BgpMessage) (r : MrtRecord) (b : Bytes)
    (hp : m.peer = some p) (hg : m.body = .routeMonitoring g) (ho : MessageOk false .b32 g)
    (h : bmpToMrt m = .ok r) (he : encodeRecord r = .ok b) (hl : b.length ≤ 16777216) (pol : Pol) (s : Src) (t : List Tok)
    (hs : toks s.evs = byteToks b ++ t) :
    ∃ r' s', nextRecord pol s = (.ok r', s') ∧ r'.header = r.header ∧ SameMrt r.message r'.message ∧ toks s'.evs = t := by
  unfold bmpToMrt at h
  rw [hg, hp] at h
  dsimp only at h
  cases hm : encodeMrtMessage (.bgp4mp (.message ⟨.messageAs4, p.asn, 0, 0, p.ip, zeroLike p.ip, g⟩)) 4 with
  | error e => rw [hm] at h; cases h
  | ok v =>
    rw [hm] at h
    cases h
    have hr : RecordOk ⟨⟨(convertTimestamp p.timestamp).1, some (convertTimestamp p.timestamp).2, .bgp4mpEt, 4, UInt32.ofNat v.length⟩,
        .bgp4mp (.message ⟨.messageAs4, p.asn, 0, 0, p.ip, zeroLike p.ip, g⟩)⟩ := by
      refine ⟨by simp, .message (l := .b32) (ap := false) (Or.inr rfl) rfl ⟨?_, ?_, ?_, ho⟩⟩
      · intro h; cases h
      · intro h; cases h
      · cases p.ip <;> rfl
    obtain ⟨hb, body, k1, k2, rfl, k4, k5⟩ := encodeRecord_parts hr he
    obtain ⟨r', s', g1, g2, g3, _⟩ := c31_roundtrip_partial _ _ hr he (by simp at hl ⊢; omega) pol s t hs
    refine ⟨r', s', g1, ?_, g2.2.2.2.2.2, g3⟩
    obtain ⟨e1, e2, e3, e4, e5, _⟩ := g2
    have k1' : body = v := by
      have := k1.symm.trans hm
      injection this
    subst k1'
    cases hh : r'.header with
    | mk a b c d e =>
      rw [hh] at e1 e2 e3 e4 e5
      dsimp only at e1 e2 e3 e4 e5
      subst e1 e2 e3 e4
      have : e = UInt32.ofNat body.length := by
        apply UInt32.toNat_inj.mp
        have k5 : hb.length = 16 := k5
        have e5 : e.toNat = (hb ++ body).length - 16 := e5
        rw [e5, List.length_append, k5, toNat_u32len (by omega)]
        omega
      rw [this]

/-- the end-of-RIB marker from before, as BMP message and as MRT record. -/
def c52Parsed : BmpMessage :=
  ⟨⟨3, 71, .routeMonitoring⟩, some ⟨.global, .peer 0, 0, .v4 #v[10, 0, 0, 1], 65001, #v[10, 0, 0, 2], stampOf 1609459200 3⟩,
    .routeMonitoring (.update ⟨[], Attributes.empty, []⟩)⟩

example : parseBmpMsg (c52Msg 1609459200 3 ++ [1]) = (.ok c52Parsed, [1]) ∧ CodesHaveLength2 c52Parsed.body ∧
    MessageOk false .b32 (.update ⟨[], Attributes.empty, []⟩) ∧
    ∃ r b, bmpToMrt c52Parsed = .ok r ∧ r.header.time = 1609459200 ∧ r.header.micro = some 3 ∧
      encodeRecord r = .ok b ∧ b.length = 59 := by
  refine ⟨by decide +kernel, trivial, ?_, ⟨⟨1609459200, some 3, .bgp4mpEt, 4, 43⟩, .bgp4mp (.message ⟨.messageAs4, 65001, 0, 0,
      .v4 #v[10, 0, 0, 1], .v4 #v[0, 0, 0, 0], .update ⟨[], Attributes.empty, []⟩⟩)⟩, _, by decide +kernel, rfl, rfl, rfl, by decide +kernel⟩
  exact ⟨by simp, by simp [Attributes.empty], by simp⟩

/-- C19 (partial, as `c19_end_of_rib_partial`): a route monitoring message is reported as End-of-RIB exactly when it holds
an UPDATE that is one. -/
theorem c19_route_monitoring_partial (m : BgpMessage)
    (h : ∀ u f n, m = .update u → ⟨f, .mpUnreach n⟩ ∈ u.attributes.inner → n.labeled = none ∧ n.linkState = none ∧ n.flowspec = none) :
    bmpEndOfRib m = true ↔ ∃ u, m = .update u ∧ EndOfRib u := by
  cases m with
  | update u =>
    simp only [bmpEndOfRib, BgpMessage.update.injEq, exists_eq_left']
    exact c19_end_of_rib_partial u (fun f n hm => h u f n rfl hm)
  | _ => simp [bmpEndOfRib]

example : (∀ u f n, (BgpMessage.update ⟨[], Attributes.empty, []⟩) = .update u → ⟨f, .mpUnreach n⟩ ∈ u.attributes.inner →
      n.labeled = none ∧ n.linkState = none ∧ n.flowspec = none) ∧
    bmpEndOfRib (.update ⟨[], Attributes.empty, []⟩) = true ∧ bmpEndOfRib .keepAlive = false := by
  refine ⟨?_, by decide +kernel, rfl⟩
  intro u f n hu hm
  cases hu
  cases hm

end Verif.Props
