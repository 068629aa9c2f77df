import Verif.Spec.Envelopes
import Verif.Props.Wasm
import Verif.Props.RisLive
import Verif.Props.RewriteFile
/-
C107 a BGP message gives the same elements whichever way it arrives.
-/
namespace Verif.Props
open Spec

/-! ### elements and their peer -/

/-- the iterator for another peer and time. -/
def reHeard (time : Nat) (ip : Ip) (asn : Asn) (it : UpdateIter) : UpdateIter :=
  { it with time := time, peerIp := ip, peerAsn := asn }

theorem reHeard_next (t : Nat) (ip : Ip) (asn : Asn) (it : UpdateIter) :
    (reHeard t ip asn it).next =
      (it.next.1.map fun e => { e with time := t, peerIp := ip, peerAsn := asn }, reHeard t ip asn it.next.2) := by
  cases it with
  | mk =>
    rename_i ann wd inw
    cases inw <;> cases ann <;> cases wd <;> rfl

theorem reHeard_take (t : Nat) (ip : Ip) (asn : Asn) : ∀ (n : Nat) (it : UpdateIter),
    (reHeard t ip asn it).take n = heard t ip asn (it.take n)
  | 0, _ => rfl
  | n + 1, it => by
    simp only [UpdateIter.take, reHeard_next]
    cases h : it.next with
    | mk o it' =>
      cases o with
      | none => rfl
      | some e => simp only [Option.map_some, reHeard_take t ip asn n it']; rfl

/-- the elements of a message depend on peer and time as they should. -/
theorem heard_elems (m : BgpMessage) (t t' : Nat) (ip ip' : Ip) (asn asn' : Asn) :
    heard t ip asn (bgpToElems m t' ip' asn') = bgpToElems m t ip asn := by
  cases m with
  | update u =>
    show heard t ip asn ((updateIter u t' ip' asn').collect) = (updateIter u t ip asn).collect
    exact (reHeard_take t ip asn _ (updateIter u t' ip' asn')).symm
  | _ => rfl

/-- C107: alone: the function for JavaScript. -/
theorem c107_alone (d : Bytes) (es : List BgpElem) : wasmParseUpdate d = .ok es ↔ Alone false .b32 d es := by
  unfold wasmParseUpdate Alone
  cases h : parseBgpMessage false .b32 d with
  | error e => simp
  | ok x =>
    obtain ⟨m, r⟩ := x
    simp only [Except.ok.injEq, Prod.mk.injEq]
    constructor
    · rintro rfl; exact ⟨m, r, ⟨rfl, rfl⟩, rfl⟩
    · rintro ⟨_, _, ⟨rfl, rfl⟩, rfl⟩; rfl

/-! ### MRT -/

theorem mpHeadBytes_inj {l : AsnLen} {a b a' b' : Asn} {i i' : UInt16} {p q p' q' : Ip} {d d' : Bytes}
    (hp : q.isV4 = p.isV4) (hp' : q'.isV4 = p'.isV4) (ha : AsnFits l a) (ha' : AsnFits l a')
    (h : mpHeadBytes l a b i p q ++ d = mpHeadBytes l a' b' i' p' q' ++ d') : a = a' ∧ p = p' ∧ d = d' := by
  unfold mpHeadBytes at h
  simp only [List.append_assoc] at h
  obtain ⟨h1, h⟩ := List.append_inj h (by rw [asnBytes_length, asnBytes_length])
  obtain ⟨_, h⟩ := List.append_inj h (by rw [asnBytes_length, asnBytes_length])
  obtain ⟨_, h⟩ := n16_inj h
  obtain ⟨h2, h⟩ := List.append_inj h rfl
  have hv : p.isV4 = p'.isV4 := by
    cases p <;> cases p' <;> first | rfl | (exfalso; revert h2; simp [Ip.afi, afiNum, n16])
  have hlen : p.octets.length = p'.octets.length := by rw [octets_length, octets_length, hv]
  have hlen' : q.octets.length = q'.octets.length := by rw [octets_length, octets_length, hp, hp', hv]
  obtain ⟨h3, h⟩ := List.append_inj h hlen
  obtain ⟨_, h⟩ := List.append_inj h hlen'
  refine ⟨?_, ?_, h⟩
  · cases l with
    | b16 =>
      have k := ha rfl
      have k' := ha' rfl
      simp only [asnBytes, n16] at h1
      apply UInt32.toNat_inj.mp
      have e1 : (UInt16.ofNat a.toNat) = UInt16.ofNat a'.toNat := by
        have := n16_inj (a := UInt16.ofNat a.toNat) (b := UInt16.ofNat a'.toNat) (s := []) (t := [])
          (by rw [toNat_u16len (by omega), toNat_u16len (by omega)]; simpa [n16] using h1)
        exact this.1
      have := congrArg UInt16.toNat e1
      rwa [toNat_u16len (by omega), toNat_u16len (by omega)] at this
    | b32 =>
      simp only [asnBytes] at h1
      rw [← be32_n32, ← be32_n32] at h1
      have : rdU32 (be32 a) = rdU32 (be32 a') := by rw [h1]
      have e1 := rdU32_be32 a []
      have e2 := rdU32_be32 a' []
      rw [List.append_nil] at e1 e2
      rw [e1, e2] at this
      injection this with this
      injection this
  · cases p <;> cases p' <;> first | (cases hv; done) | skip
    · simp only [Ip.octets] at h3; rw [Vector.toList_inj.mp h3]
    · simp only [Ip.octets] at h3; rw [Vector.toList_inj.mp h3]

/-- C107: in a BGP4MP record (plain or with microseconds; any of the eight message subtypes): the record is read if and only if the
message alone is read, and its elements are those of the message alone, with the peer and the time of the record. -/
theorem c107_mrt {ap : Bool} {l : AsnLen} {ip : Ip} {asn : Asn} {raw : Raw} {d : Bytes} (h : CarriedByMrt ap l ip asn raw d)
    (el : Elementor) :
    ((∃ r, raw.parse = .ok r) ↔ ∃ es, Alone ap l d es) ∧
    ∀ r es, raw.parse = .ok r → Alone ap l d es → el.recordToElems r = (heard (headerMicros raw.header) ip asn es, el) := by
  obtain ⟨hty, t, n, loc, i, lip, h1, h2, h3, h4, h5, h6⟩ := h
  have hb : ∀ x, parseBgp4Mp raw.header.subtype raw.body = .ok x ↔ ∃ m, x = .message m ∧ m.msgType = t ∧ MpMessageBytes l ap m raw.body := by
    intro x; rw [h2]; exact c30_message_iff t n l ap h1 raw.body x
  have hz : ¬ (l = .b16 ∧ ZebraOpen raw.body) := by
    rintro ⟨rfl, hz⟩; rw [h6] at hz; exact mpHead_not_zebra _ _ _ _ _ _ hz
  have hm : ∀ m : MpMessage, MpMessageBytes l ap m raw.body → m.peerAsn = asn ∧ m.peerIp = ip ∧
      ∃ r, parseBgpMessage ap l d = .ok (m.message, r) := by
    rintro m ⟨k1, k2, msg, r, k3, k4⟩
    rw [if_neg hz] at k4
    obtain ⟨k4, k5⟩ := k4
    rw [h6] at k4
    obtain ⟨rfl, rfl, rfl⟩ := mpHeadBytes_inj h5 k5 h3 k1 k4
    exact ⟨rfl, rfl, r, k3⟩
  have hp : ∀ r, raw.parse = .ok r ↔ ∃ x, r = ⟨raw.header, .bgp4mp x⟩ ∧ parseBgp4Mp raw.header.subtype raw.body = .ok x := by
    intro r
    rw [raw_parse]
    have e : parseMrtBody raw.header.type raw.header.subtype raw.body =
        mapOk MrtMessage.bgp4mp (parseBgp4Mp raw.header.subtype raw.body) := by
      rcases hty with e | e <;> rw [e] <;> rfl
    rw [e]
    cases parseBgp4Mp raw.header.subtype raw.body with
    | error e => simp [mapOk]
    | ok x =>
      obtain ⟨hd, msg⟩ := r
      simp only [mapOk, Except.ok.injEq, MrtRecord.mk.injEq]
      constructor
      · rintro ⟨rfl, rfl⟩; exact ⟨x, ⟨rfl, rfl⟩, rfl⟩
      · rintro ⟨_, ⟨rfl, rfl⟩, rfl⟩; exact ⟨rfl, rfl⟩
  constructor
  · constructor
    · rintro ⟨r, hr⟩
      obtain ⟨x, rfl, hx⟩ := (hp r).mp hr
      obtain ⟨m, rfl, _, k⟩ := (hb x).mp hx
      obtain ⟨_, _, r, k⟩ := hm m k
      exact ⟨_, m.message, r, k, rfl⟩
    · rintro ⟨es, m, r, k, _⟩
      refine ⟨⟨raw.header, .bgp4mp (.message ⟨t, asn, loc, i, ip, lip, m⟩)⟩, (hp _).mpr ⟨_, rfl, (hb _).mpr ⟨_, rfl, rfl, h3, h4, d, r, k, ?_⟩⟩⟩
      rw [if_neg hz]
      exact ⟨h6, h5⟩
  · rintro r es hr ⟨m', r', k', rfl⟩
    obtain ⟨x, rfl, hx⟩ := (hp r).mp hr
    obtain ⟨m, rfl, _, k⟩ := (hb x).mp hx
    obtain ⟨e1, e2, r, k⟩ := hm m k
    rw [k'] at k
    cases k
    rw [heard_elems, ← e1, ← e2]
    exact Prod.ext ((c32_record_elems el raw.header).1 m) rfl

/-- C107: in a record of the deprecated type 5: the same, with AS numbers of two octets; here the message comes without its
header. -/
theorem c107_legacy {ip : Ip} {asn : Asn} {raw : Raw} {payload : Bytes} (h : CarriedByLegacy ip asn raw payload)
    (marker : Bytes) (hm : marker.length = 16) (hl : 19 + payload.length < 65536) (el : Elementor) :
    ((∃ r, raw.parse = .ok r) ↔ ∃ es, Alone false .b16 (messageBytes marker (19 + payload.length) 2 payload) es) ∧
    ∀ r es, raw.parse = .ok r → Alone false .b16 (messageBytes marker (19 + payload.length) 2 payload) es →
      el.recordToElems r = (heard (headerMicros raw.header) ip asn es, el) := by
  obtain ⟨h1, h2, p, q, loc, rfl, h3, h4⟩ := h
  have hu : ∀ m r, parseBgpMessage false .b16 (messageBytes marker (19 + payload.length) 2 payload) = .ok (m, r) ↔
      r = [] ∧ ∃ u, m = .update u ∧ parseUpdate false .b16 payload = .ok u := by
    intro m r
    have e := parseBgpMessage_bytes false .b16 marker payload [] 2 hm hl
    rw [List.append_nil] at e
    rw [e, show MsgType.ofU8? 2 = some .update from rfl]
    dsimp only
    rw [if_neg (by simp)]
    show (match mapOk BgpMessage.update (parseUpdate false .b16 payload) with
      | .ok m => Except.ok (m, ([] : Bytes)) | .error e => .error e) = _ ↔ _
    cases parseUpdate false .b16 payload with
    | error e => simp [mapOk]
    | ok u => simp [mapOk, eq_comm, and_comm]
  have hb : ∀ r, raw.parse = .ok r ↔ ∃ x, r = ⟨raw.header, .legacyBgp x⟩ ∧ parseLegacyBgp 1 raw.body = .ok x := by
    intro r
    rw [raw_parse]
    have e : parseMrtBody raw.header.type raw.header.subtype raw.body = mapOk MrtMessage.legacyBgp (parseLegacyBgp 1 raw.body) := by
      rw [h1, h2]; rfl
    rw [e]
    cases parseLegacyBgp 1 raw.body with
    | error e => simp [mapOk]
    | ok x =>
      obtain ⟨hd, msg⟩ := r
      simp only [mapOk, Except.ok.injEq, MrtRecord.mk.injEq]
      constructor
      · rintro ⟨rfl, rfl⟩; exact ⟨x, ⟨rfl, rfl⟩, rfl⟩
      · rintro ⟨_, ⟨rfl, rfl⟩, rfl⟩; exact ⟨rfl, rfl⟩
  have hx : ∀ x, parseLegacyBgp 1 raw.body = .ok x ↔
      ∃ u, x = .message ⟨asn, .v4 p, loc.toUInt32, .v4 q, .update u⟩ ∧ parseUpdate false .b16 payload = .ok u := by
    intro x
    rw [c59_message_iff 1 (by decide)]
    constructor
    · rintro ⟨m, pl, rfl, ⟨p', q', k1, k2, k3, k4, k5⟩, k6⟩
      rw [h4] at k5
      obtain ⟨ma, mi, la, li, mm⟩ := m
      dsimp only at k1 k2 k3 k4 k5 k6
      subst k1 k2
      have ea : ∀ a : Asn, a.toNat < 65536 → (UInt16.ofNat a.toNat).toNat = a.toNat := fun a h => toNat_u16len (by omega)
      rw [← ea asn h3, ← ea ma k3, ← ea la k4] at k5
      simp only [List.append_assoc] at k5
      obtain ⟨j1, k5⟩ := n16_inj k5
      obtain ⟨j2, k5⟩ := List.append_inj k5 (by simp)
      obtain ⟨j3, k5⟩ := n16_inj k5
      obtain ⟨j4, rfl⟩ := List.append_inj k5 (by simp)
      have e1 : ma = asn := by
        apply UInt32.toNat_inj.mp; rw [← ea asn h3, ← ea ma k3, j1]
      have e3 : la = loc.toUInt32 := by
        apply UInt32.toNat_inj.mp; rw [← ea la k4, j3]; simp
      rw [Vector.toList_inj.mp j2, Vector.toList_inj.mp j4]
      rcases k6 with ⟨_, u, k6, k7⟩ | ⟨k, _⟩ | ⟨k, _⟩ | ⟨k, _⟩
      · subst e1 e3 k6; exact ⟨u, rfl, k7⟩
      all_goals cases k
    · rintro ⟨u, rfl, k⟩
      exact ⟨_, payload, rfl, ⟨p, q, rfl, rfl, h3, by simpa using loc.toNat_lt, by rw [h4]; simp⟩, .inl ⟨rfl, u, rfl, k⟩⟩
  constructor
  · constructor
    · rintro ⟨r, hr⟩
      obtain ⟨x, rfl, k⟩ := (hb r).mp hr
      obtain ⟨u, rfl, k2⟩ := (hx x).mp k
      exact ⟨_, .update u, [], (hu _ _).mpr ⟨rfl, u, rfl, k2⟩, rfl⟩
    · rintro ⟨es, m, r, k, _⟩
      obtain ⟨_, u, rfl, k2⟩ := (hu _ _).mp k
      exact ⟨_, (hb _).mpr ⟨_, rfl, (hx _).mpr ⟨u, rfl, k2⟩⟩⟩
  · rintro r es hr ⟨m, r', k, rfl⟩
    obtain ⟨x, rfl, k'⟩ := (hb r).mp hr
    obtain ⟨u, rfl, k2⟩ := (hx x).mp k'
    obtain ⟨_, u', rfl, k3⟩ := (hu _ _).mp k
    rw [k3] at k2
    cases k2
    rw [heard_elems]
    exact Prod.ext ((c32_record_elems el raw.header).2.1 _) rfl

/-! ### BMP -/

/-- C107: in a route monitoring message of BMP, with the AS number width its flags tell: the message is read if and only if the BGP
message alone is read, and its elements are those of the message alone, with the peer of the per-peer header and the time given. Missing: sessions
with path identifiers, see below. -/
theorem c107_bmp_partial {h : PerPeerHeader} {hb d : Bytes} (hh : PeerHeaderBytes h hb) (hl : 48 + d.length < 4294967296) (rest : Bytes) :
    ((∃ m, (parseBmpMsg (bmpFrame 0 (hb ++ d) ++ rest)).1 = .ok m) ↔ ∃ es, Alone false (bmpAsnLen h) d es) ∧
    ∀ m es, (parseBmpMsg (bmpFrame 0 (hb ++ d) ++ rest)).1 = .ok m → Alone false (bmpAsnLen h) d es →
      m.peer = some h ∧ ∃ g, m.body = .routeMonitoring g ∧ ∀ t, bgpToElems g t h.ip h.asn = heard t h.ip h.asn es := by
  have hlen := peerHeader_length hh
  have e := parseBmpMsg_frame .routeMonitoring (hb ++ d) rest (by rw [List.length_append]; omega)
  rw [show UInt8.ofNat (bmpTypeNum .routeMonitoring) = 0 from rfl] at e
  have hc : ∀ p b, (rdContent .routeMonitoring).runOn (hb ++ d) = .ok (p, b) ↔ p = some h ∧ ∃ g r, b = .routeMonitoring g ∧
      parseBgpMessage false (bmpAsnLen h) d = .ok (g, r) := by
    intro p b
    rw [runOn_iff]
    have e2 : rdContent .routeMonitoring (hb ++ d) = ((do
        let m ← parseBgpMessage false h.asnLen
        pure (some h, .routeMonitoring m) : Rd (Option PerPeerHeader × BmpBody)) d) := by
      simp only [rdContent]
      rw [Rd.bind_ok ((exact_rdPerPeerHeader _ _ _).mpr ⟨hb, rfl, hh⟩)]
      simp only [rdPeerBody]
      cases k : parseBgpMessage false h.asnLen d with
      | error x =>
        rw [Rd.bind_error (Rd.bind_error k), Rd.bind_error k]
      | ok x =>
        obtain ⟨m, r⟩ := x
        rw [Rd.bind_ok (Rd.bind_ok k), Rd.bind_ok k]
    rw [e2, bmpAsnLen_eq]
    constructor
    · rintro ⟨r, hr⟩
      rw [Rd.bind_eq_ok] at hr
      obtain ⟨m, t, k, hr⟩ := hr
      cases hr
      exact ⟨rfl, m, _, rfl, k⟩
    · rintro ⟨rfl, g, r, rfl, k⟩
      exact ⟨r, by rw [Rd.bind_ok k]; rfl⟩
  rw [e]
  dsimp only
  cases k : (rdContent .routeMonitoring).runOn (hb ++ d) with
  | error x =>
    refine ⟨⟨(by rintro ⟨m, hm⟩; cases hm), ?_⟩, (by intro m es hm; cases hm)⟩
    rintro ⟨es, m, r, hm, _⟩
    have := (hc (some h) (.routeMonitoring m)).mpr ⟨rfl, m, r, rfl, hm⟩
    rw [k] at this
    cases this
  | ok x =>
    obtain ⟨p, b⟩ := x
    obtain ⟨rfl, g, r, rfl, hg⟩ := (hc p b).mp k
    refine ⟨⟨fun _ => ⟨_, g, r, hg, rfl⟩, fun _ => ⟨_, rfl⟩⟩, ?_⟩
    rintro m es hm ⟨g', r', hg', rfl⟩
    cases hm
    rw [hg] at hg'
    cases hg'
    exact ⟨rfl, g, rfl, fun t => by rw [heard_elems]⟩

/-- C107: behind an OpenBMP header it is the same BMP message. -/
theorem c107_openbmp {o : OpenBmpHeader} {c : Bytes} (hc : OpenBmpBytes o c) (d : Bytes) : parseOpenBmpMsg (c ++ d) = (parseBmpMsg d).1 :=
  c63_openbmp o c d hc

/-- C107: and if it is converted to an MRT record, the record has these elements, at its time. -/
theorem c107_bmp_mrt_partial {h : PerPeerHeader} {hb d : Bytes} (hh : PeerHeaderBytes h hb) (hl : 48 + d.length < 4294967296) (rest : Bytes)
    (m : BmpMessage) (r : MrtRecord) (es : List BgpElem) (el : Elementor)
    (hm : (parseBmpMsg (bmpFrame 0 (hb ++ d) ++ rest)).1 = .ok m) (hr : bmpToMrt m = .ok r) (ha : Alone false (bmpAsnLen h) d es) :
    el.recordToElems r = (heard (headerMicros r.header) h.ip h.asn es, el) := by
  obtain ⟨hp, g, hg, he⟩ := (c107_bmp_partial hh hl rest).2 m es hm ha
  obtain ⟨p, b, msg, _, k1, k2, k3, _, k5, k6, k7, _⟩ := c52_keeps_partial m r hr
  rw [hp] at k1
  rw [hg] at k2
  cases k1
  cases k2
  obtain ⟨hd, rm⟩ := r
  dsimp only at k3
  subst k3
  refine Prod.ext ?_ rfl
  rw [(c32_record_elems el hd).1 msg, k5, k6, k7]
  exact he _

/-! ### RIS Live -/

/-- C107: in the field `raw` of a message of RIS Live: it is accepted if and only if the BGP message alone is read (with AS numbers of
four octets), and the elements are those of the message alone, with the peer and the time of the envelope. Missing:
sessions with path identifiers, and those with AS numbers of two octets (`c82_violation_old_session`). -/
theorem c107_live_partial (env : LiveEnv) (text : String) (m : LiveMessage) (d : Bytes) (k : Nat) (h : RawDoc env text m d)
    (ht : StampOf m.timestamp k) (es' : List BgpElem) :
    parseRisLiveRaw env text = .ok es' ↔ ∃ es, Alone false .b32 d es ∧ es' = heard k m.peer m.peerAsn es := by
  have hr : ∀ msg, ReadRaw d msg ↔ ∃ r, parseBgpMessage false .b32 d = .ok (msg, r) := by
    intro msg
    constructor
    · rintro (h | ⟨h, r, h'⟩)
      · exact h
      · obtain ⟨x, hx⟩ := (c82_violation_fallback d).mp ⟨_, h'⟩
        exact absurd hx (h x)
    · exact .inl
  constructor
  · intro h'
    obtain ⟨m', d', msg, k1, k2, _⟩ := c82_only env text es' h'
    have : m' = m ∧ d' = d := by
      have e1 := decodeRaw_iff.mpr h
      have e2 := decodeRaw_iff.mpr k1
      rw [e1] at e2
      cases e2
      exact ⟨rfl, rfl⟩
    obtain ⟨rfl, rfl⟩ := this
    have e := c82_elements env text _ _ msg k h k2 ht
    rw [h'] at e
    cases e
    obtain ⟨r, k2⟩ := (hr msg).mp k2
    exact ⟨_, ⟨msg, r, k2, rfl⟩, by rw [heard_elems]⟩
  · rintro ⟨es, ⟨msg, r, k1, rfl⟩, rfl⟩
    rw [heard_elems]
    exact c82_elements env text m d msg k h ((hr msg).mpr ⟨r, k1⟩) ht

/-! ### where it fails -/

/-- an UPDATE of a session with path identifiers: 12.0.0.0/8 with the identifier 0x080A080B. -/
def c107AddPath : Bytes :=
  List.replicate 16 0xFF ++ n16 29 ++ [2] ++ n16 0 ++ n16 0 ++ [8, 10, 8, 11, 8, 12]

/-- C107 fails for sessions with path identifiers: an MRT record says that there are some, and the route is read; alone, in a BMP
message and in a message of RIS Live the same octets are read as three other routes, without an error. -/
theorem c107_violation_add_path :
    (∃ es, Alone true .b32 c107AddPath es ∧ es.map (·.prefix_) = [⟨⟨.v4 #v[12, 0, 0, 0], 8⟩, some 0x080A080B⟩]) ∧
    (∃ es, Alone false .b32 c107AddPath es ∧ es.map (·.prefix_) =
      [⟨⟨.v4 #v[10, 0, 0, 0], 8⟩, none⟩, ⟨⟨.v4 #v[11, 0, 0, 0], 8⟩, none⟩, ⟨⟨.v4 #v[12, 0, 0, 0], 8⟩, none⟩]) :=
  ⟨⟨_, ⟨_, _, rfl, rfl⟩, by decide +kernel⟩, ⟨_, ⟨_, _, rfl, rfl⟩, by decide +kernel⟩⟩

/-! ### one message, three ways -/

/-- an UPDATE: AS path 65001 to 198.51.100.0/24. -/
def c107Update : Bytes :=
  List.replicate 16 255 ++ [0, 47, 2, 0, 0, 0, 20, 0x40, 1, 1, 0, 0x40, 2, 6, 2, 1, 0, 0, 253, 233, 0x40, 3, 4, 192, 0, 2, 1, 24, 198, 51, 100]

/-- a BGP4MP_ET record with it, MESSAGE_AS4, from 10.0.0.9, AS 65001. -/
def c107Raw : Raw :=
  ⟨⟨1700000000, some 5, .bgp4mpEt, 4, 67⟩, n32 1700000000 ++ n16 17 ++ n16 4 ++ n32 71 ++ n32 5,
    mpHeadBytes .b32 65001 65000 0 (.v4 #v[10, 0, 0, 9]) (.v4 #v[10, 0, 0, 1]) ++ c107Update⟩

theorem c107Raw_carries : CarriedByMrt false .b32 (.v4 #v[10, 0, 0, 9]) 65001 c107Raw c107Update :=
  ⟨.inr rfl, .messageAs4, 4, 65000, 0, .v4 #v[10, 0, 0, 1], rfl, rfl, nofun, nofun, rfl, rfl⟩

/-- the same octets alone have one element; so have the record, a BMP message of the same peer, and a message of RIS Live. -/
example : (∃ es, Alone false .b32 c107Update es ∧ es.length = 1 ∧ wasmParseUpdate c107Update = .ok es ∧
      ∃ r, c107Raw.parse = .ok r ∧ Elementor.new.recordToElems r = (heard 1700000000000005 (.v4 #v[10, 0, 0, 9]) 65001 es, .new)) ∧
    (∃ h hb, PeerHeaderBytes h hb ∧ bmpAsnLen h = .b32 ∧ (∃ m, (parseBmpMsg (bmpFrame 0 (hb ++ c107Update) ++ [1])).1 = .ok m)) ∧
    (∃ m, RawDoc (liveEnv (liveEnvelopeDoc liveRawDoc)) "" m c107Update ∧ StampOf m.timestamp 1500000) ∧
    CarriedByLegacy (.v4 #v[10, 0, 0, 9]) 65001 ⟨⟨1, none, .bgp, 1, 40⟩, [], n16 65001 ++ [10, 0, 0, 9] ++ n16 1 ++ [10, 0, 0, 1] ++
      oldUpdate.drop 19⟩ (oldUpdate.drop 19) ∧
    ∃ es, Alone false .b16 (messageBytes (List.replicate 16 255) (19 + (oldUpdate.drop 19).length) 2 (oldUpdate.drop 19)) es ∧ es.length = 1 := by
  have ha : ∃ es, Alone false .b32 c107Update es ∧ es.length = 1 := ⟨_, ⟨_, _, rfl, rfl⟩, by decide +kernel⟩
  obtain ⟨es, ha, hl⟩ := ha
  refine ⟨⟨es, ha, hl, (c107_alone _ _).mpr ha, ?_⟩, ?_, ?_, ?_, ?_⟩
  · obtain ⟨h1, h2⟩ := c107_mrt c107Raw_carries Elementor.new
    obtain ⟨r, hr⟩ := h1.mpr ⟨es, ha⟩
    exact ⟨r, hr, h2 r es hr ha⟩
  · have hp : PeerHeaderBytes ⟨.global, .peer 0, 0, .v4 #v[10, 0, 0, 9], 65001, #v[10, 0, 0, 2], stampOf 1 2⟩
        ([0, 0] ++ n64 0 ++ (List.replicate 12 0 ++ [10, 0, 0, 9]) ++ n32 65001 ++ [10, 0, 0, 2] ++ n32 1 ++ n32 2) :=
      PeerHeaderBytes.peer (t := .global) (f := 0) (d := 0) (ip := .v4 #v[10, 0, 0, 9]) (asn := 65001) (id := #v[10, 0, 0, 2])
        (sec := 1) (usec := 2) (by simp) rfl (.v4 (List.replicate 12 0) #v[10, 0, 0, 9] rfl) (.as4 65001)
    exact ⟨_, _, hp, rfl, (c107_bmp_partial hp (by decide) [1]).1.mpr ⟨es, ha⟩⟩
  · have h : ∃ m, liveMessageOf (liveEnv (liveEnvelopeDoc liveRawDoc)) (.obj liveRawDoc) = some m ∧ m.timestamp = 3 / 2 ∧
        ∃ raw, m.raw = some raw ∧ hexDecode raw.toList = some c107Update :=
      ⟨_, rfl, rfl, _, rfl, by decide +kernel⟩
    obtain ⟨m, h1, ht, raw, h2, h3⟩ := h
    obtain ⟨kvs, e, hd⟩ := liveMessage_iff.mp h1
    cases e
    refine ⟨m, ⟨_, _, raw, rfl, liveEnvelopeDoc_ok _, hd, h2, hexDecode_iff.mp h3⟩, ?_⟩
    rw [ht]
    exact ⟨by decide, by decide +kernel⟩
  · exact ⟨rfl, rfl, #v[10, 0, 0, 9], #v[10, 0, 0, 1], 1, rfl, by decide, rfl⟩
  · exact ⟨_, ⟨_, _, rfl, rfl⟩, by decide +kernel⟩

end Verif.Props
