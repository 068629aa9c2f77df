import Verif.Lemmas.Rtr
/-
C40, C41, C61: RPKI-to-Router PDUs.
-/
namespace Verif.Props
open Verif Spec

/-! ### C40: round-trip -/

/-- C40: a well-formed PDU is encoded in its layout, and parsing the bytes followed by anything gives the PDU and the number
of bytes it occupies. -/
theorem c40_roundtrip (p : Pdu) (hp : PduOk p) :
    ∃ b, encodePdu p = .ok b ∧ PduBytes p b ∧ ∀ rest, parsePdu (b ++ rest) = .ok (p, b.length) := by
  obtain ⟨b, h1, h2⟩ := encodePdu_layout p hp
  exact ⟨b, h1, h2, parsePdu_complete h2⟩

/-- a Router Key, an Error Report with a PDU in it, an End of Data of each version. -/
def c40Key : Pdu := .routerKey .v1 1 (Vector.replicate 20 0xab) 65001 [0x30, 0x59, 0x30]
def c40Report : Pdu := .errorReport .v1 .unsupportedType [1, 99, 0, 0, 0, 0, 0, 8] [0x62, 0x61, 0x64]

example : PduOk c40Key ∧ PduOk c40Report ∧ PduOk (.endOfData .v0 7 100 none none none) ∧
    PduOk (.endOfData .v1 7 100 (some 3600) (some 600) (some 7200)) ∧
    PduOk (.ipv4Prefix .v0 1 24 32 #v[192, 0, 2, 0] 64496) ∧ PduOk (.ipv6Prefix .v1 0 32 48 (Vector.replicate 16 0x20) 64496) := by
  refine ⟨?_, ?_, ?_, ?_, ?_, ?_⟩ <;> simp [PduOk, c40Key, c40Report] <;> decide

example : parsePdu ([1, 9, 0, 0, 0, 0, 0, 37, 1, 0] ++ List.replicate 20 0xab ++ [0, 0, 253, 233, 0x30, 0x59, 0x30] ++ [1, 2]) =
    .ok (c40Key, 37) := by decide +kernel

/-- C40: well-formedness is needed for the round-trip: whatever comes back from parsing is well-formed. -/
theorem c40_needed (p : Pdu) (d : Bytes) (n : Nat) (h : parsePdu d = .ok (p, n)) : PduOk p := by
  obtain ⟨v, ty, x, len, h1, h2, h3, h4, h5⟩ := parsePdu_head h
  obtain ⟨b, rest, e, -, hb⟩ := parsePduBody_sound h2 h3 h1 h4
  cases hb with
  | serialNotify => trivial
  | serialQuery => trivial
  | resetQuery => trivial
  | cacheResponse => trivial
  | cacheReset => trivial
  | ipv4Prefix _ _ _ _ _ _ _ _ a b => exact ⟨a, b⟩
  | ipv6Prefix _ _ _ _ _ _ _ _ a b => exact ⟨a, b⟩
  | endOfDataV0 => exact ⟨rfl, rfl, rfl⟩
  | endOfDataV1 => exact ⟨rfl, rfl, rfl⟩
  | routerKey _ _ _ _ _ _ _ a => exact ⟨rfl, a⟩
  | errorReport _ _ _ _ _ a b => exact ⟨a, by omega⟩

/-- C40, failures of encoding a PDU the types allow: intervals of a version 0 End of Data are dropped, missing intervals of a
version 1 one become the defaults, a version 0 Router Key and prefix lengths out of range are encoded but cannot be parsed. -/
theorem c40_silent_changes :
    (encodePdu (.endOfData .v0 7 100 (some 1) (some 2) (some 3))).toOption.map parsePdu =
      some (.ok (.endOfData .v0 7 100 none none none, 12)) ∧
    (encodePdu (.endOfData .v1 7 100 none none none)).toOption.map parsePdu =
      some (.ok (.endOfData .v1 7 100 (some 3600) (some 600) (some 7200), 24)) ∧
    (encodePdu (.routerKey .v0 1 (Vector.replicate 20 0) 1 [])).toOption.map parsePdu = some (.error .routerKeyInV0) ∧
    (encodePdu (.ipv4Prefix .v1 1 25 24 #v[192, 0, 2, 0] 1)).toOption.map parsePdu =
      some (.error (.badPrefixLength 25 24 32)) := by decide +kernel

/-- C40, failures: an Error Report of 2^32 octets or more is encoded with a wrong length; parsing the bytes never gives it
back. A Router Key whose key information is within 34 octets of a multiple of 2^32 panics in a build with overflow checks. -/
theorem c40_length_wraps (v : RtrVersion) (c : RtrCode) (p t : Bytes) (h : 4294967296 ≤ 16 + p.length + t.length) :
    ∃ b, encodePdu (.errorReport v c p t) = .ok b ∧ ∀ n, parsePdu b ≠ .ok (.errorReport v c p t, n) := by
  refine ⟨_, rfl, fun n hn => ?_⟩
  have := c40_needed _ _ _ hn
  simp only [PduOk] at this
  omega

theorem c40_length_panics (v : RtrVersion) (f : UInt8) (k : Vector UInt8 20) (a : Asn) (spki : Bytes)
    (h : 4294967262 ≤ spki.length ∧ spki.length < 4294967296) :
    encodePdu (.routerKey v f k a spki) = .error .panic := by
  simp only [encodePdu]
  rw [Nat.mod_eq_of_lt (by omega), if_pos (by omega)]

/-! ### C41: parsing is safe and incremental -/

/-- C41: no byte string makes the parser panic. -/
theorem c41_no_panic (d : Bytes) : parsePdu d ≠ .error .panic := by
  intro h
  by_cases h8 : d.length < 8
  · unfold parsePdu at h
    rw [if_pos h8] at h; cases h
  obtain ⟨vb, tb, x, len, h1, h2, h3⟩ := parsePdu_out (d := d) (by omega)
  by_cases hl : d.length < len.toNat
  · rw [h2 hl] at h; cases h
  · obtain ⟨r, hr, hf⟩ := h3 (by omega)
    have := hr []
    rw [List.append_nil, h] at this
    cases hf _ this.symm

theorem announces_unique {d : Bytes} {n m : Nat} (h : RtrAnnounces d n) (g : RtrAnnounces d m) : n = m := by
  obtain ⟨h1, a, t, h2, h3⟩ := h
  obtain ⟨g1, b, u, g2, g3⟩ := g
  rw [h3] at g3
  have e := List.append_inj g3 (by omega)
  have e2 := (List.append_inj e.2 rfl).1
  have k : n32 n = be32 (UInt32.ofNat n) := by rw [be32_n32]; congr 1; simp; omega
  have k' : n32 m = be32 (UInt32.ofNat m) := by rw [be32_n32]; congr 1; simp; omega
  rw [k, k'] at e2
  have e3 := congrArg (fun b => rdU32 (b ++ [])) e2
  simp only [rdU32_be32] at e3
  injection e3 with e3
  injection e3 with e3
  have e4 := congrArg UInt32.toNat e3
  simp at e4
  omega

/-- C41: exactly the strings too short for the header or for the announced length are reported as incomplete, with the
number of octets that are there and the number that is needed. -/
theorem c41_incomplete (d : Bytes) (a n : Nat) :
    parsePdu d = .error (.incomplete a n) ↔
      a = d.length ∧ d.length < n ∧ ((d.length < 8 ∧ n = 8) ∨ (8 ≤ d.length ∧ RtrAnnounces d n)) := by
  by_cases h8 : d.length < 8
  · have e : parsePdu d = .error (.incomplete d.length 8) := by unfold parsePdu; rw [if_pos h8]
    rw [e]
    constructor
    · intro h; cases h; exact ⟨rfl, h8, .inl ⟨h8, rfl⟩⟩
    · rintro ⟨rfl, -, h | h⟩
      · rw [h.2]
      · omega
  · obtain ⟨vb, tb, x, len, h1, h2, h3⟩ := parsePdu_out (d := d) (by omega)
    have ha : RtrAnnounces d len.toNat := ⟨len.toNat_lt, vb :: tb :: n16 x.toNat, d.drop 8, rfl, by simpa using h1⟩
    by_cases hl : d.length < len.toNat
    · rw [h2 hl]
      constructor
      · intro h; cases h; exact ⟨rfl, hl, .inr ⟨by omega, ha⟩⟩
      · rintro ⟨rfl, -, h | h⟩
        · omega
        · rw [announces_unique ha h.2]
    · obtain ⟨r, hr, hf⟩ := h3 (by omega)
      have hr' := hr []
      rw [List.append_nil] at hr'
      constructor
      · intro h
        rw [h] at hr'
        cases hf _ hr'.symm
      · rintro ⟨rfl, g, h | h⟩
        · omega
        · rw [announces_unique h.2 ha] at g; omega

example : parsePdu [1, 9, 0, 0, 0, 0, 0, 37, 1, 0] = .error (.incomplete 10 37) := by decide +kernel

/-- C41: any other outcome is final: it stays the same whatever follows. -/
theorem c41_stable (d z : Bytes) (h : ∀ a n, parsePdu d ≠ .error (.incomplete a n)) : parsePdu (d ++ z) = parsePdu d := by
  by_cases h8 : d.length < 8
  · exact absurd (by unfold parsePdu; rw [if_pos h8]) (h d.length 8)
  · obtain ⟨vb, tb, x, len, h1, h2, h3⟩ := parsePdu_out (d := d) (by omega)
    by_cases hl : d.length < len.toNat
    · exact absurd (h2 hl) (h _ _)
    · obtain ⟨r, hr, -⟩ := h3 (by omega)
      have hr' := hr []
      rw [List.append_nil] at hr'
      rw [hr z, hr']

/-- C41: the accepted strings are exactly those that begin with a PDU, which occupies the octets announced. -/
theorem c41_accepts (d : Bytes) (p : Pdu) (n : Nat) :
    parsePdu d = .ok (p, n) ↔ ∃ b rest, d = b ++ rest ∧ b.length = n ∧ PduBytes p b := by
  constructor
  · intro h
    obtain ⟨v, ty, x, len, h1, h2, h3, h4, h5⟩ := parsePdu_head h
    have := parsePduBody_sound h2 h3 h1 h4
    simp only [] at h5
    rw [h5]; exact this
  · rintro ⟨b, rest, rfl, rfl, hb⟩
    exact parsePdu_complete hb rest

theorem pduBytes_announces {p : Pdu} {b : Bytes} (h : PduBytes p b) : RtrAnnounces b b.length := by
  have key : ∀ (v : RtrVersion) (ty : UInt8) (f t : Bytes) (n : Nat), f.length = 2 → n < 4294967296 → 8 + t.length = n →
      RtrAnnounces (rtrStart v ty f n ++ t) (rtrStart v ty f n ++ t).length := by
    intro v ty f t n hf hn ht
    have e : (rtrStart v ty f n ++ t).length = n := by rw [List.length_append, length_rtrStart hf]; exact ht
    rw [e]
    refine ⟨hn, rtrVersionNum v :: ty :: f, t, by simp [hf], ?_⟩
    simp [rtrStart]
  cases h with
  | serialNotify v s n => exact key _ _ _ _ _ rfl (by omega) rfl
  | serialQuery v s n => exact key _ _ _ _ _ rfl (by omega) rfl
  | resetQuery v z hz => have := key v 2 z [] 8 hz (by omega) rfl; simpa using this
  | cacheResponse v s => have := key v 3 (n16 s.toNat) [] 8 rfl (by omega) rfl; simpa using this
  | cacheReset v z hz => have := key v 8 z [] 8 hz (by omega) rfl; simpa using this
  | ipv4Prefix v f l m q a z y h1 h2 hz => exact key _ _ _ _ _ hz (by omega) (by simp [n32])
  | ipv6Prefix v f l m q a z y h1 h2 hz => exact key _ _ _ _ _ hz (by omega) (by simp [n32])
  | endOfDataV0 s n => exact key _ _ _ _ _ rfl (by omega) rfl
  | endOfDataV1 s n r t e => exact key _ _ _ _ _ rfl (by omega) rfl
  | routerKey f k a spki z y hz hs => exact key _ _ _ _ _ hz (by omega) (by simp [n32]; omega)
  | errorReport v c q t slack h1 h2 => exact key _ _ _ _ _ rfl (by omega) (by simp [n32]; omega)

/-- C41: every proper part of a PDU cut off at its end is incomplete, whatever the cut: more octets are asked for, never
more than the PDU has. -/
theorem c41_split (p : Pdu) (d e : Bytes) (h : PduBytes p (d ++ e)) (he : e ≠ []) :
    ∃ n, parsePdu d = .error (.incomplete d.length n) ∧ d.length < n ∧ n ≤ (d ++ e).length := by
  have ha := pduBytes_announces h
  have hpos : 0 < e.length := by cases e <;> simp at he ⊢
  by_cases h8 : d.length < 8
  · refine ⟨8, (c41_incomplete _ _ _).2 ⟨rfl, h8, .inl ⟨h8, rfl⟩⟩, h8, ?_⟩
    obtain ⟨-, a, t, h1, h2⟩ := ha
    rw [h2]; simp [n32, h1]; omega
  · refine ⟨(d ++ e).length, (c41_incomplete _ _ _).2 ⟨rfl, by simp; omega, .inr ⟨by omega, ?_⟩⟩, by simp; omega, Nat.le_refl _⟩
    obtain ⟨h0, a, t, h1, h2⟩ := ha
    refine ⟨h0, a, d.drop 8, h1, ?_⟩
    have h3 : (d ++ e).take 8 = d.take 8 := by rw [List.take_append_of_le_length (by omega)]
    rw [h2, ← List.append_assoc, List.take_left' (by simp [n32, h1])] at h3
    rw [← List.append_assoc, h3, List.take_append_drop]

/-- C41: how a complete but wrong PDU is reported. -/
theorem c41_faults (d : Bytes) (e : RtrErr) (h : parsePdu d = .error e) :
    (∃ a n, e = .incomplete a n) ∨ ∃ n, Complete d n ∧ RtrFault d n e := by
  by_cases h8 : d.length < 8
  · left
    refine ⟨d.length, 8, ?_⟩
    unfold parsePdu at h
    rw [if_pos h8] at h; cases h; rfl
  · obtain ⟨vb, tb, x, len, h1, h2, h3⟩ := parsePdu_out (d := d) (by omega)
    by_cases hl : d.length < len.toNat
    · left
      rw [h2 hl] at h; cases h; exact ⟨_, _, rfl⟩
    · right
      obtain ⟨r, hr, hf⟩ := h3 (by omega)
      have hr' := hr []
      rw [List.append_nil, h] at hr'
      exact ⟨len.toNat, ⟨by omega, ⟨len.toNat_lt, vb :: tb :: n16 x.toNat, d.drop 8, rfl, by simpa using h1⟩, by omega⟩,
        hf e hr'.symm⟩

example : parsePdu [1, 10, 0, 9, 0, 0, 0, 16, 0, 0, 0, 0, 0, 0, 0, 0] = .error (.badCode 9) ∧
    parsePdu [1, 10, 0, 2, 0, 0, 0, 16, 0, 0, 0, 1, 0, 0, 0, 0] = .error (.badLength 17 16 10) ∧
    parsePdu [1, 10, 0, 2, 0, 0, 0, 17, 0, 0, 0, 0, 0, 0, 0, 1, 0xff] = .error .badUtf8 ∧
    parsePdu [2, 10, 0, 2, 0, 0, 0, 8] = .error (.badVersion 2) := by decide +kernel

/-! ### C41: reading from a stream -/

/-- the largest PDU that is read: an Error Report with 65535 octets of PDU and of text. -/
def maxPdu : Nat := 8 + 4 + 65535 + 4 + 65535

/-- C41: whatever the reader does, reading does not panic; what it returns as a PDU is one, and exactly its octets were
taken. -/
theorem c41_read_sound (s : Src) :
    (readPdu s).1 ≠ .error .panic ∧
      ∀ p, (readPdu s).1 = .ok p → ∃ b, PduBytes p b ∧ b.length ≤ maxPdu ∧
        toks s.evs = byteToks b ++ toks (readPdu s).2.evs ∧ (readPdu s).2.stuck = s.stuck := by
  obtain ⟨s1, g1, g2, g3⟩ := readExact_eq 8 s
  obtain ⟨e, k1, k2, k3, k4, k5⟩ := takeT_split s.stuck 8 (toks s.evs)
  generalize takeT s.stuck 8 (toks s.evs) = T at *
  obtain ⟨hb, st, t1⟩ := T
  unfold readPdu
  rw [g1]
  simp only [] at *
  cases st with
  | full =>
    obtain ⟨rfl, k3⟩ := k3 rfl
    obtain ⟨ty, h1⟩ := idx_lt (d := hb) (i := 1) (by omega)
    obtain ⟨len, h4⟩ := idx32_lt (d := hb) (i := 4) (by omega)
    simp only [h1, h4]
    by_cases c1 : len.toNat < 8
    · rw [if_pos c1]; exact ⟨by simp, fun p h => by cases h⟩
    rw [if_neg c1]
    by_cases c2 : len.toNat > 131086
    · rw [if_pos c2]; exact ⟨by simp, fun p h => by cases h⟩
    rw [if_neg c2]
    obtain ⟨s2, m1, m2, m3⟩ := readExact_eq (len.toNat - 8) s1
    obtain ⟨e, n1, n2, n3, n4, n5⟩ := takeT_split s1.stuck (len.toNat - 8) (toks s1.evs)
    generalize takeT s1.stuck (len.toNat - 8) (toks s1.evs) = T at *
    obtain ⟨bb, st, t2⟩ := T
    rw [m1]
    simp only [] at *
    cases st with
    | full =>
      obtain ⟨rfl, n3⟩ := n3 rfl
      cases hp : parsePdu (hb ++ bb) with
      | error e =>
        simp only [hp]
        refine ⟨?_, fun p h => by cases h⟩
        intro h
        injection h with h
        subst h
        exact c41_no_panic _ hp
      | ok r =>
        obtain ⟨p, n⟩ := r
        simp only [hp]
        refine ⟨by simp, fun p' h => ?_⟩
        cases h
        obtain ⟨b, rest, e1, e2, e3⟩ := (c41_accepts _ _ _).1 hp
        have ha := pduBytes_announces e3
        have ha2 : RtrAnnounces (hb ++ bb) len.toNat := by
          rw [idx32_ok] at h4
          refine ⟨len.toNat_lt, hb.take 4, hb.drop 8 ++ bb, by rw [List.length_take]; omega, ?_⟩
          rw [← be32_n32, ← List.append_assoc (be32 len), ← h4, ← List.append_assoc, List.take_append_drop]
        have ha3 : RtrAnnounces (hb ++ bb) b.length := by
          obtain ⟨q1, q2, q3, q4, q5⟩ := ha
          refine ⟨q1, q2, q3 ++ rest, q4, ?_⟩
          rw [e1]
          generalize b.length = N at *
          rw [q5]; simp
        have e4 := announces_unique ha2 ha3
        have e5 : (hb ++ bb).length = len.toNat := by rw [List.length_append]; omega
        have e6 : rest = [] := by
          have := congrArg List.length e1
          rw [List.length_append (as := b)] at this
          cases rest with
          | nil => rfl
          | cons _ _ => simp only [List.length_cons] at this; omega
        subst e6
        rw [List.append_nil] at e1
        refine ⟨b, e3, by unfold maxPdu; omega, ?_, by rw [m3, g3]⟩
        rw [k1, List.append_nil, ← g2, n1, List.append_nil, ← m2, ← e1, byteToks_append, List.append_assoc]
    | short => exact ⟨by simp [rtrStop], fun p h => by cases h⟩
    | failed z => exact ⟨by simp [rtrStop], fun p h => by cases h⟩
  | short => exact ⟨by simp [rtrStop], fun p h => by cases h⟩
  | failed z => exact ⟨by simp [rtrStop], fun p h => by cases h⟩

/-- C40, C41: a PDU within the limit is read back from any reader that delivers it, in whatever pieces, and what comes after
it is left. -/
theorem c41_read_complete (p : Pdu) (b : Bytes) (t : List Tok) (s : Src) (hb : PduBytes p b) (hl : b.length ≤ maxPdu)
    (hs : toks s.evs = byteToks b ++ t) :
    ∃ s', readPdu s = (.ok p, s') ∧ toks s'.evs = t ∧ s'.stuck = s.stuck := by
  have hl' : b.length ≤ 131086 := hl
  obtain ⟨a1, q, u, a2, a3⟩ := pduBytes_announces hb
  have h8 : 8 ≤ b.length := by rw [a3]; simp [n32, a2]; omega
  have hsplit : b = b.take 8 ++ b.drop 8 := (List.take_append_drop 8 b).symm
  have t8 : (b.take 8).length = 8 := by rw [List.length_take]; omega
  obtain ⟨s1, g1, g2, g3⟩ := readExact_eq 8 s
  rw [hs, hsplit, byteToks_append, List.append_assoc, takeT_full' _ _ _ _ t8] at g1 g2
  simp only [] at g1 g2
  obtain ⟨s2, m1, m2, m3⟩ := readExact_eq (b.length - 8) s1
  rw [g2, takeT_full' _ _ _ _ (by rw [List.length_drop])] at m1 m2
  have i4 : idx32 (b.take 8) 4 = .ok (UInt32.ofNat b.length) := by
    have e : b.take 8 = q ++ n32 b.length := by
      generalize b.length = N at *
      rw [a3, ← List.append_assoc, List.take_left' (by simp [n32, a2])]
    rw [idx32_ok, e, be32_n32, List.drop_left' a2]
    have e2 : (UInt32.ofNat b.length).toNat = b.length := by simp; omega
    rw [e2, List.drop_eq_nil_of_le (by simp [n32, a2])]; simp
  obtain ⟨ty, i1⟩ := idx_lt (d := b.take 8) (i := 1) (by omega)
  have e2 : (UInt32.ofNat b.length).toNat = b.length := by simp; omega
  refine ⟨s2, ?_, m2, by rw [m3, g3]⟩
  unfold readPdu
  rw [g1]
  simp only [i1, i4, e2]
  rw [if_neg (by omega), if_neg (by omega), m1]
  simp only [List.take_append_drop]
  have := parsePdu_complete hb []
  rw [List.append_nil] at this
  rw [this]

/-- C41: a length below the header or above the limit is refused after the header: nothing more is read. -/
theorem c41_read_limit (h : Bytes) (n : Nat) (t : List Tok) (s : Src) (h8 : h.length = 8) (ha : RtrAnnounces h n)
    (hn : n < 8 ∨ maxPdu < n) (hs : toks s.evs = byteToks h ++ t) :
    ∃ want got ty s', readPdu s = (.error (.badLength want got ty), s') ∧ got.toNat = n ∧
      want.toNat = (if n < 8 then 8 else maxPdu) ∧ HasType h ty ∧ toks s'.evs = t ∧ s'.stuck = s.stuck := by
  obtain ⟨s1, g1, g2, g3⟩ := readExact_eq 8 s
  rw [hs, takeT_full' _ _ _ _ h8] at g1 g2
  simp only [] at g1 g2
  obtain ⟨len, i4⟩ := idx32_lt (d := h) (i := 4) (by omega)
  obtain ⟨vb, i0⟩ := idx_lt (d := h) (i := 0) (by omega)
  obtain ⟨ty, i1⟩ := idx_lt (d := h) (i := 1) (by omega)
  have ha2 : RtrAnnounces h len.toNat := by
    rw [idx32_ok] at i4
    refine ⟨len.toNat_lt, h.take 4, h.drop 8, by rw [List.length_take]; omega, ?_⟩
    rw [← be32_n32, ← i4, List.take_append_drop]
  have e := announces_unique ha2 ha
  have hty : HasType h ty := by
    rw [idx_ok] at i0 i1
    refine ⟨vb, h.drop 2, ?_⟩
    have e : h = h.drop 0 := rfl
    conv => lhs; rw [e, i0, i1]
  unfold readPdu
  rw [g1]
  simp only [i1, i4]
  unfold maxPdu at *
  by_cases c1 : n < 8
  · rw [if_pos (by omega)]
    exact ⟨_, _, _, s1, rfl, e, by rw [if_pos c1]; rfl, hty, g2, g3⟩
  · rw [if_neg (by omega), if_pos (by omega)]
    exact ⟨_, _, _, s1, rfl, e, by rw [if_neg c1]; rfl, hty, g2, g3⟩

/-- C41: a stream that ends inside a PDU gives an unexpected end of file. -/
theorem c41_read_short (d : Bytes) (s : Src) (hs : Delivers s d)
    (hd : d.length < 8 ∨ ∃ n, 8 ≤ n ∧ n ≤ maxPdu ∧ RtrAnnounces d n ∧ d.length < n) :
    (readPdu s).1 = .error (.io true) := by
  have short : ∀ (b : Bytes) (n : Nat), b.length < n → ∃ r, takeT none n (byteToks b) = (r, .short, []) := by
    intro b n h
    have := takeT_bytes none b n [] (by omega)
    rw [List.append_nil] at this
    rw [this]
    obtain ⟨m, hm⟩ : ∃ m, n - b.length = m + 1 := ⟨n - b.length - 1, by omega⟩
    rw [hm]
    exact ⟨_, rfl⟩
  obtain ⟨d1, d2⟩ := hs
  obtain ⟨s1, g1, g2, g3⟩ := readExact_eq 8 s
  rw [d1, d2] at g1 g2
  by_cases h8 : d.length < 8
  · obtain ⟨r, hr⟩ := short d 8 h8
    rw [hr] at g1
    unfold readPdu
    rw [g1]; rfl
  · obtain ⟨n, n1, n2, n3, n4⟩ : ∃ n, 8 ≤ n ∧ n ≤ maxPdu ∧ RtrAnnounces d n ∧ d.length < n := by
      rcases hd with h | h
      · omega
      · exact h
    unfold maxPdu at n2
    have hsplit : d = d.take 8 ++ d.drop 8 := (List.take_append_drop 8 d).symm
    have t8 : (d.take 8).length = 8 := by rw [List.length_take]; omega
    rw [hsplit, byteToks_append, takeT_full' _ _ _ _ t8] at g1 g2
    simp only [] at g1 g2
    obtain ⟨ty, i1⟩ := idx_lt (d := d.take 8) (i := 1) (by omega)
    obtain ⟨len, i4⟩ := idx32_lt (d := d.take 8) (i := 4) (by omega)
    have ha2 : RtrAnnounces d len.toNat := by
      rw [idx32_ok] at i4
      refine ⟨len.toNat_lt, (d.take 8).take 4, (d.take 8).drop 8 ++ d.drop 8, by rw [List.length_take]; omega, ?_⟩
      rw [← be32_n32, ← List.append_assoc (be32 len), ← i4, ← List.append_assoc, List.take_append_drop, List.take_append_drop]
    have e := announces_unique ha2 n3
    obtain ⟨s2, m1, m2, m3⟩ := readExact_eq (len.toNat - 8) s1
    obtain ⟨r, hr⟩ := short (d.drop 8) (len.toNat - 8) (by rw [List.length_drop]; omega)
    rw [g2, g3, d2, hr] at m1
    unfold readPdu
    rw [g1]
    simp only [i1, i4]
    rw [if_neg (by omega), if_neg (by omega), m1]; rfl

example : (readPdu ⟨[.data 1 [9, 0], .interrupted, .data 0 [0, 0, 0, 37, 1, 0], .data 7 []], none⟩).1 = .error (.io true) ∧
    (readPdu ⟨[.data 1 [9, 0, 0, 0xff, 0, 0, 37, 1, 0]], none⟩).1 = .error (.badLength 131086 4278190117 9) := by decide +kernel

/-! ### C61: the layouts of the RFCs -/

/-- C61, part: apart from Router Keys, well-formed PDUs are encoded as RFC 6810 and RFC 8210 lay them out. -/
theorem c61_rfc_partial (p : Pdu) (hp : PduOk p) (hk : p.type ≠ .routerKey) :
    ∃ b, encodePdu p = .ok b ∧ RfcPdu p b ∧ ∀ rest, parsePdu (b ++ rest) = .ok (p, b.length) := by
  obtain ⟨b, h1, h2, h3⟩ := c40_roundtrip p hp
  refine ⟨b, h1, ?_, h3⟩
  cases p with
  | serialNotify v s n =>
    cases h1
    rw [rtrHead_start]; exact .serialNotify v s n
  | serialQuery v s n =>
    cases h1
    rw [rtrHead_start]; exact .serialQuery v s n
  | resetQuery v =>
    cases h1
    rw [rtrHead_start]; exact .resetQuery v
  | cacheResponse v s =>
    cases h1
    rw [rtrHead_start]; exact .cacheResponse v s
  | ipv4Prefix v f l m q a =>
    cases h1
    rw [rtrHead_start]; exact .ipv4Prefix v f l m q a hp.1 hp.2
  | ipv6Prefix v f l m q a =>
    cases h1
    rw [rtrHead_start]; exact .ipv6Prefix v f l m q a hp.1 hp.2
  | endOfData v s n r t e =>
    cases v with
    | v0 =>
      obtain ⟨rfl, rfl, rfl⟩ := hp
      cases h1
      rw [rtrHead_start, if_neg (by decide), List.append_nil]; exact .endOfDataV0 s n
    | v1 =>
      obtain ⟨g1, g2, g3⟩ := hp
      cases r with
      | none => simp at g1
      | some r =>
      cases t with
      | none => simp at g2
      | some t =>
      cases e with
      | none => simp at g3
      | some e =>
      cases h1
      rw [rtrHead_start, if_pos rfl]; exact .endOfDataV1 s n r t e
  | cacheReset v =>
    cases h1
    rw [rtrHead_start]; exact .cacheReset v
  | routerKey => exact absurd rfl hk
  | errorReport v c q t =>
    obtain ⟨g1, g2⟩ := hp
    have e : (UInt32.ofNat (16 + q.length + t.length)).toNat = 16 + q.length + t.length := by simp; omega
    have e1 : (UInt32.ofNat q.length).toNat = q.length := by simp; omega
    have e2 : (UInt32.ofNat t.length).toNat = t.length := by simp; omega
    have := RfcPdu.errorReport v c q t g1 g2
    cases h1
    rw [rtrHead_start, e, be32_n32, be32_n32, e1, e2, ← be16_n16, be16_code]; exact this

example : PduOk c40Report ∧ c40Report.type ≠ .routerKey := by simp [PduOk, c40Report, Pdu.type]; decide

/-- C61: every Router Key is encoded differently from RFC 8210, and no Router Key laid out as RFC 8210 says is parsed as the
key it is. -/
theorem c61_router_key_layout (f : UInt8) (k : Vector UInt8 20) (a : Asn) (spki b : Bytes)
    (hb : RfcPdu (.routerKey .v1 f k a spki) b) :
    encodePdu (.routerKey .v1 f k a spki) ≠ .ok b ∧ ∀ rest n, parsePdu (b ++ rest) ≠ .ok (.routerKey .v1 f k a spki, n) := by
  have key : ∀ rest n, parsePdu (b ++ rest) ≠ .ok (.routerKey .v1 f k a spki, n) := by
    intro rest n h
    obtain ⟨c, r, e1, e2, hc⟩ := (c41_accepts _ _ _).1 h
    cases hb with
    | routerKey _ _ _ _ hs =>
      have ha : RtrAnnounces (rtrStart .v1 9 [f, 0] (32 + spki.length) ++ (k.toList ++ (n32 a.toNat ++ spki)) ++ rest)
          (32 + spki.length) := ⟨hs, [1, 9, f, 0], k.toList ++ (n32 a.toNat ++ spki) ++ rest, rfl, by
            simp [rtrStart, rtrVersionNum]⟩
      cases hc with
      | routerKey _ _ _ _ z y hz hs' =>
        have ha2 : RtrAnnounces (rtrStart .v1 9 z (34 + spki.length) ++ (f :: y :: (k.toList ++ (n32 a.toNat ++ spki))) ++ r)
            (34 + spki.length) := ⟨hs', 1 :: 9 :: z, f :: y :: (k.toList ++ (n32 a.toNat ++ spki)) ++ r, by simp [hz], by
              simp [rtrStart, rtrVersionNum]⟩
        rw [← e1] at ha2
        have := announces_unique ha ha2
        omega
  refine ⟨?_, key⟩
  intro h
  by_cases hl : 34 + spki.length < 4294967296
  · obtain ⟨b', h1, -, h3⟩ := c40_roundtrip (.routerKey .v1 f k a spki) ⟨rfl, hl⟩
    rw [h] at h1
    cases h1
    exact key [] _ (h3 [])
  · cases hb with
    | routerKey _ _ _ _ hs =>
      rw [c40_length_panics _ _ _ _ _ (by omega)] at h
      cases h

example : RfcPdu c40Key ([1, 9, 1, 0, 0, 0, 0, 35] ++ (List.replicate 20 0xab ++ ([0, 0, 253, 233] ++ [0x30, 0x59, 0x30]))) := by
  have := RfcPdu.routerKey 1 (Vector.replicate 20 0xab) 65001 [0x30, 0x59, 0x30] (by decide)
  exact this

/-- C61: what happens to a Router Key of RFC 8210: with 2 octets of key information or more it is read as another key. -/
theorem c61_router_key_misread :
    (parsePdu ([1, 9, 1, 0, 0, 0, 0, 35] ++ List.replicate 20 0xab ++ [0, 0, 253, 233] ++ [0x30, 0x59, 0x30])).map
      (fun r => match r.1 with | .routerKey _ f k a spki => some (f, k.toList, a, spki) | _ => none) =
    .ok (some (0xab, List.replicate 18 0xab ++ [0, 0], 0xfde93059, [0x30])) := by decide +kernel

/-! ### the accessors -/

/-- C61. `version` and `pdu_type` are the first two octets of the PDU, and `is_announcement` is the lowest bit of the flags octet
of the three PDUs that have one. -/
theorem c61_accessors (p : Pdu) (b : Bytes) (h : PduBytes p b) :
    b[0]? = some (rtrVersionNum p.version) ∧ b[1]? = some p.type.toU8 ∧
    (b[1]? = some 4 ∨ b[1]? = some 6 ∨ b[1]? = some 9 → ∃ f : UInt8, b[8]? = some f ∧ p.isAnnouncement = some (decide (f.toNat % 2 = 1))) ∧
    (¬ (b[1]? = some 4 ∨ b[1]? = some 6 ∨ b[1]? = some 9) → p.isAnnouncement = none) := by
  have hbit : ∀ f : UInt8, (f &&& 1 != 0) = decide (f.toNat % 2 = 1) := by
    intro f
    have h1 : (f &&& 1).toNat = f.toNat % 2 := by rw [UInt8.toNat_and]; exact Nat.and_one_is_mod f.toNat
    rw [Bool.eq_iff_iff, bne_iff_ne, decide_eq_true_iff, Ne, ← UInt8.toNat_inj, h1]
    show ¬ _ = 0 ↔ _
    omega
  have h8 : ∀ (v : RtrVersion) (t : UInt8) (z : Bytes) (n : Nat) (f : UInt8) (r : Bytes), z.length = 2 →
      (rtrStart v t z n ++ f :: r)[8]? = some f := by
    intro v t z n f r hz
    rw [List.getElem?_append_right (by simp [rtrStart, n32, hz])]
    simp [rtrStart, n32, hz]
  cases h with
  | ipv4Prefix v f l m p a z y h1 h2 hz =>
    exact ⟨rfl, rfl, fun _ => ⟨f, h8 _ _ _ _ _ _ hz, congrArg some (hbit f)⟩, fun h => absurd (.inl rfl) h⟩
  | ipv6Prefix v f l m p a z y h1 h2 hz =>
    exact ⟨rfl, rfl, fun _ => ⟨f, h8 _ _ _ _ _ _ hz, congrArg some (hbit f)⟩, fun h => absurd (.inr (.inl rfl)) h⟩
  | routerKey f k a spki z y hz h1 =>
    exact ⟨rfl, rfl, fun _ => ⟨f, h8 _ _ _ _ _ _ hz, congrArg some (hbit f)⟩, fun h => absurd (.inr (.inr rfl)) h⟩
  | _ => exact ⟨rfl, rfl, fun h => by simp [rtrStart] at h, fun _ => rfl⟩

example : ∃ b, PduBytes c40Key b ∧ c40Key.isAnnouncement = some true := by
  obtain ⟨b, h⟩ : ∃ b, PduBytes c40Key b := ⟨_, .routerKey _ _ _ _ [0, 0] 0 rfl (by decide)⟩
  exact ⟨b, h, by decide⟩

end Verif.Props
