import Verif.Lemmas.Exact
import Verif.Lemmas.Attr
import Verif.Spec.Bgp
/-
Capabilities: the decoders accept exactly the layouts of `Spec.CapBytes`.
-/
namespace Verif
open Spec

/-! ### numbers -/

theorem be16_n16 (x : UInt16) : be16 x = n16 x.toNat := rfl

theorem be32_n32 (x : UInt32) : be32 x = n32 x.toNat := rfl

theorem be16_afi (a : Afi) : be16 a.toU16 = n16 (afiNum a) := by cases a <;> rfl

theorem safi_num (s : Safi) : s.toU8 = UInt8.ofNat (safiNum s) := by cases s <;> rfl

theorem role_num (r : Role) : r.toU8 = UInt8.ofNat (roleNum r) := by cases r <;> rfl

theorem mode_num (r : SendRecv) : r.toU8 = UInt8.ofNat (modeNum r) := by cases r <;> rfl

theorem role_ofU8_some {x : UInt8} {a : Role} (h : Role.ofU8? x = some a) : x = a.toU8 := by
  unfold Role.ofU8? at h
  by_cases h0 : x = 0
  · subst h0; cases h; rfl
  by_cases h1 : x = 1
  · subst h1; cases h; rfl
  by_cases h2 : x = 2
  · subst h2; cases h; rfl
  by_cases h3 : x = 3
  · subst h3; cases h; rfl
  by_cases h4 : x = 4
  · subst h4; cases h; rfl
  simp [h0, h1, h2, h3, h4] at h

@[simp] theorem role_ofU8_toU8 (r : Role) : Role.ofU8? r.toU8 = some r := by cases r <;> rfl

theorem mode_ofU8_some {x : UInt8} {a : SendRecv} (h : SendRecv.ofU8? x = some a) : x = a.toU8 := by
  unfold SendRecv.ofU8? at h
  by_cases h1 : x = 1
  · subst h1; cases h; rfl
  by_cases h2 : x = 2
  · subst h2; cases h; rfl
  by_cases h3 : x = 3
  · subst h3; cases h; rfl
  simp [h1, h2, h3] at h

@[simp] theorem mode_ofU8_toU8 (r : SendRecv) : SendRecv.ofU8? r.toU8 = some r := by cases r <;> rfl

theorem n16_pair (a b : UInt8) : n16 (a.toNat * 256 + b.toNat) = [a, b] := by
  rw [← u16of_toNat, ← be16_n16, be16_u16of]

theorem afi_of_n16 (a : Afi) : Afi.ofU16? (UInt16.ofNat (afiNum a)) = some a := by cases a <;> rfl

theorem nat_and_two_pow (n i : Nat) : n &&& 2 ^ i = (n.testBit i).toNat * 2 ^ i := by
  apply Nat.eq_of_testBit_eq
  intro j
  rw [Nat.testBit_and, Nat.testBit_two_pow]
  by_cases h : i = j
  · subst h
    cases n.testBit i
    · simp
    · simp [Nat.testBit_two_pow_self]
  · cases n.testBit i
    · simp [h]
    · simp [h, Nat.testBit_two_pow_of_ne h]

theorem u16_and_top (w : UInt16) : (w &&& 0x8000 != 0) = decide (32768 ≤ w.toNat) := by
  have h1 : (w &&& 0x8000).toNat = (w.toNat.testBit 15).toNat * 2 ^ 15 := by
    rw [UInt16.toNat_and]; exact nat_and_two_pow _ 15
  have h2 : w.toNat.testBit 15 = decide (32768 ≤ w.toNat) := by
    have := w.toNat_lt
    rw [Nat.testBit_eq_decide_div_mod_eq]
    apply decide_eq_decide.mpr
    omega
  rw [h2] at h1
  by_cases h : 32768 ≤ w.toNat
  · simp only [h, decide_true] at h1 ⊢
    have : w &&& 0x8000 ≠ 0 := by
      intro h0; rw [h0] at h1; simp at h1
    simpa using this
  · simp only [h, decide_false] at h1 ⊢
    have : w &&& 0x8000 = 0 := by
      apply UInt16.toNat_inj.mp; rw [h1]; simp
    simp [this]

theorem u16_and_low (w : UInt16) : (w &&& 0x0FFF).toNat = w.toNat % 4096 := by
  rw [UInt16.toNat_and]; exact Nat.and_two_pow_sub_one_eq_mod _ 12

theorem u8_and_top (x : UInt8) : (x &&& 0x80 != 0) = x.toNat.testBit 7 := by
  have h1 : (x &&& 0x80).toNat = (x.toNat.testBit 7).toNat * 2 ^ 7 := by
    rw [UInt8.toNat_and]; exact nat_and_two_pow _ 7
  cases h : x.toNat.testBit 7 with
  | true =>
    rw [h] at h1
    have : x &&& 0x80 ≠ 0 := by
      intro h0; rw [h0] at h1; simp at h1
    simpa using this
  | false =>
    rw [h] at h1
    have : x &&& 0x80 = 0 := by
      apply UInt8.toNat_inj.mp; rw [h1]; simp
    simp [this]

theorem gr_word (state : Bool) (time : UInt16) :
    (if state then 0x8000 ||| (time &&& 0x0FFF) else time &&& 0x0FFF : UInt16).toNat =
      (if state then 32768 else 0) + time.toNat % 4096 := by
  cases state with
  | false => simp only [Bool.false_eq_true, if_false]; rw [u16_and_low]; omega
  | true =>
    simp only [if_true]
    rw [UInt16.toNat_or, u16_and_low]
    have : time.toNat % 4096 < 2 ^ 15 := by omega
    have := Nat.two_pow_add_eq_or_of_lt this 1
    rw [Nat.mul_one] at this
    exact this.symm

/-! ### entries -/

theorem exact_rdEnhEntry : Exact rdEnhEntry EnhBytes := by
  refine (Exact.bind Exact.rdAfi fun a => Exact.bind Exact.rdU16 fun s => Exact.bind (Exact.safiOr s.toUInt8) fun f =>
    Exact.bind Exact.rdAfi fun n => Exact.pure (EnhEntry.mk a f n)).congr ?_
  intro e c
  constructor
  · rintro ⟨a, c1, c2, rfl, rfl, s, c3, c4, rfl, rfl, f, c5, c6, rfl, ⟨hf, rfl⟩, n, c7, c8, rfl, rfl, rfl, rfl⟩
    refine ⟨UInt8.ofNat (s.toNat / 256), ?_⟩
    dsimp only
    rw [be16_afi, be16_afi, ← safi_num, ← hf]
    have : be16 s = [UInt8.ofNat (s.toNat / 256), s.toUInt8] := by
      simp only [be16]; congr
    rw [this]; simp
  · rintro ⟨x, rfl⟩
    refine ⟨e.afi, _, _, by rw [List.append_assoc]; rfl, (be16_afi _).symm, u16of x (UInt8.ofNat (safiNum e.safi)), _, _,
      rfl, (be16_u16of _ _).symm, e.safi, [], _, rfl, ⟨?_, rfl⟩, e.nextHopAfi, _, [], (List.append_nil _).symm,
      (be16_afi _).symm, rfl, rfl⟩
    rw [safi_num]
    apply UInt8.toNat_inj.mp
    have := (UInt8.ofNat (safiNum e.safi)).toNat_lt
    rw [UInt16.toNat_toUInt8, u16of_toNat]; omega

theorem exact_rdGrFamily : Exact rdGrFamily GrBytes := by
  refine (Exact.bind Exact.rdAfi fun a => Exact.bind Exact.rdU8 fun s => Exact.bind (Exact.safiOr s) fun f =>
    Exact.bind Exact.rdU8 fun x => Exact.pure (GrFamily.mk a f (x &&& 0x80 != 0))).congr ?_
  intro e c
  constructor
  · rintro ⟨a, c1, c2, rfl, rfl, s, c3, c4, rfl, rfl, f, c5, c6, rfl, ⟨hf, rfl⟩, x, c7, c8, rfl, rfl, rfl, rfl⟩
    refine ⟨x, ?_, u8_and_top x⟩
    dsimp only
    rw [be16_afi, hf, safi_num]; simp
  · rintro ⟨x, rfl, hx⟩
    refine ⟨e.afi, _, _, rfl, (be16_afi _).symm, UInt8.ofNat (safiNum e.safi), _, [x],
      (by simp), rfl, e.safi, [], _, rfl, ⟨(safi_num _).symm, rfl⟩, x, _, [], (List.append_nil _).symm,
      rfl, ?_, rfl⟩
    obtain ⟨a, f, w⟩ := e
    simp only [u8_and_top] at hx ⊢
    rw [hx]

theorem exact_rdApFamily : Exact rdApFamily ApBytes := by
  have hm : ∀ (a : Afi) (f : Safi) (m : UInt8), Exact (match SendRecv.ofU8? m with
      | some m => pure (ApFamily.mk a f m)
      | none => Rd.fail .parse) (fun r c => (∃ k : SendRecv, m = k.toU8 ∧ r = ⟨a, f, k⟩) ∧ c = []) := by
    intro a f m s r t
    constructor
    · intro h
      cases hk : SendRecv.ofU8? m with
      | none => rw [hk] at h; cases h
      | some k => rw [hk] at h; cases h; exact ⟨[], rfl, ⟨k, mode_ofU8_some hk, rfl⟩, rfl⟩
    · rintro ⟨c, rfl, ⟨k, rfl, rfl⟩, rfl⟩
      simp
  refine (Exact.bind Exact.rdAfi fun a => Exact.bind Exact.rdU8 fun s => Exact.bind (Exact.safiOr s) fun f =>
    Exact.bind Exact.rdU8 fun x => hm a f x).congr ?_
  intro e c
  constructor
  · rintro ⟨a, c1, c2, rfl, rfl, s, c3, c4, rfl, rfl, f, c5, c6, rfl, ⟨hf, rfl⟩, x, c7, c8, rfl, rfl, ⟨k, hk, rfl⟩, rfl⟩
    unfold ApBytes
    rw [be16_afi, hf, hk, safi_num, mode_num]; simp
  · rintro rfl
    exact ⟨e.afi, _, _, rfl, (be16_afi _).symm, UInt8.ofNat (safiNum e.safi), _, [UInt8.ofNat (modeNum e.mode)],
      (by simp), rfl, e.safi, [], _, rfl, ⟨(safi_num _).symm, rfl⟩, UInt8.ofNat (modeNum e.mode), _, [],
      (List.append_nil _).symm, rfl, ⟨e.mode, (mode_num _).symm, rfl⟩, rfl⟩

theorem EnhBytes_length (e : EnhEntry) (b : Bytes) (h : EnhBytes e b) : b.length = 6 := by
  obtain ⟨x, rfl⟩ := h; simp [n16]

theorem GrBytes_length (e : GrFamily) (b : Bytes) (h : GrBytes e b) : b.length = 4 := by
  obtain ⟨x, rfl, _⟩ := h; simp [n16]

theorem ApBytes_length (e : ApFamily) (b : Bytes) (h : ApBytes e b) : b.length = 4 := by
  rw [h]; simp [n16]

/-! ### decoders -/

theorem parseExtNextHop_ok (d : Bytes) (es : List EnhEntry) :
    parseExtNextHop d = .ok es ↔ Blocks EnhBytes es d := by
  rw [← exact_rdEnhEntry.whileGe_exact (by omega) EnhBytes_length]
  unfold parseExtNextHop
  by_cases h : d.length % 6 = 0 <;> simp [h]

theorem parseAddPathCap_ok (d : Bytes) (es : List ApFamily) :
    parseAddPathCap d = .ok es ↔ Blocks ApBytes es d := by
  rw [← exact_rdApFamily.whileGe_exact (by omega) ApBytes_length]
  unfold parseAddPathCap
  by_cases h : d.length % 4 = 0 <;> simp [h]

theorem parseMultiprotocol_ok (d : Bytes) (afi : Afi) (safi : Safi) :
    parseMultiprotocol d = .ok (afi, safi) ↔ ∃ x, d = n16 (afiNum afi) ++ [x, UInt8.ofNat (safiNum safi)] := by
  constructor
  · intro h
    unfold parseMultiprotocol at h
    split at h
    · rename_i a b x s
      cases h1 : Afi.ofU16? (u16of a b) with
      | none => rw [h1] at h; cases h
      | some y =>
        rw [h1] at h
        dsimp only at h
        cases h2 : Safi.ofU8? s with
        | none => rw [h2] at h; cases h
        | some z =>
          rw [h2] at h
          cases h
          refine ⟨x, ?_⟩
          rw [← be16_afi, ← safi_num, ← Exact.safi_ofU8_some h2]
          have : (u16of a b) = afi.toU16 := by
            have := (Exact.rdAfi (be16 (u16of a b)) afi []).mp (by
              unfold rdAfi
              rw [Rd.bind_ok (a := u16of a b) (r := []) (by simpa using rdU16_be16 (u16of a b) [])]
              rw [h1]; rfl)
            obtain ⟨c, hc, rfl⟩ := this
            rw [List.append_nil] at hc
            have h3 := rdU16_be16 (u16of a b) []
            rw [hc, rdU16_be16] at h3
            simpa using h3.symm
          rw [← this, be16_u16of]; rfl
    · cases h
  · rintro ⟨x, rfl⟩
    have : n16 (afiNum afi) ++ [x, UInt8.ofNat (safiNum safi)] =
      [UInt8.ofNat (afiNum afi / 256), UInt8.ofNat (afiNum afi), x, UInt8.ofNat (safiNum safi)] := rfl
    rw [this]
    simp only [parseMultiprotocol]
    cases afi <;> cases safi <;> rfl

theorem parseEmptyCap_ok (d : Bytes) : parseEmptyCap d = .ok () ↔ d = [] := by
  unfold parseEmptyCap; cases d <;> simp

theorem parseFourOctetAs_ok (d : Bytes) (a : UInt32) : parseFourOctetAs d = .ok a ↔ d = n32 a.toNat := by
  rw [← be32_n32]
  constructor
  · intro h
    unfold parseFourOctetAs at h
    split at h
    · cases h; rw [be32_u32of]
    · cases h
  · rintro rfl
    simp only [be32, parseFourOctetAs, u32of_be32]

theorem parseRoleCap_ok (d : Bytes) (r : Role) : parseRoleCap d = .ok r ↔ d = [UInt8.ofNat (roleNum r)] := by
  rw [← role_num]
  constructor
  · intro h
    unfold parseRoleCap at h
    match d, h with
    | [x], h =>
      simp only [List.length_singleton, ne_eq, not_true, if_false, rdU8_cons] at h
      cases hr : Role.ofU8? x with
      | none => rw [hr] at h; cases h
      | some k => rw [hr] at h; cases h; rw [role_ofU8_some hr]
    | [], h => simp at h
    | _ :: _ :: _, h => simp at h
  · rintro rfl
    simp [parseRoleCap]

theorem parseGracefulRestart_ok (d : Bytes) (st : Bool) (t : UInt16) (fs : List GrFamily) :
    parseGracefulRestart d = .ok (st, t, fs) ↔
      ∃ (w : UInt16) (b : Bytes), d = be16 w ++ b ∧ st = decide (32768 ≤ w.toNat) ∧ t = w &&& 0x0FFF ∧
        Blocks GrBytes fs b := by
  constructor
  · intro h
    unfold parseGracefulRestart at h
    by_cases h0 : d.length < 2
    · rw [if_pos h0] at h; cases h
    rw [if_neg h0] at h
    cases h1 : rdU16 d with
    | error e => rw [h1] at h; cases h
    | ok v =>
      obtain ⟨w, r⟩ := v
      rw [h1] at h
      dsimp only at h
      by_cases h2 : r.length % 4 = 0
      · rw [if_neg (by simpa using h2)] at h
        cases h3 : whileGe 4 rdGrFamily r with
        | error e => rw [h3] at h; cases h
        | ok gs =>
          rw [h3] at h
          cases h
          exact ⟨w, r, rdU16_ok h1, u16_and_top w, rfl,
            (exact_rdGrFamily.whileGe_exact (by omega) GrBytes_length r fs).mp ⟨h2, h3⟩⟩
      · rw [if_pos h2] at h; cases h
  · rintro ⟨w, b, rfl, rfl, rfl, hb⟩
    obtain ⟨h2, h3⟩ := (exact_rdGrFamily.whileGe_exact (by omega) GrBytes_length b fs).mpr hb
    unfold parseGracefulRestart
    rw [if_neg (by simp), rdU16_be16]
    dsimp only
    rw [if_neg (by simpa using h2), h3, u16_and_top]

theorem capBytes_gr (d : Bytes) (v : CapVal) :
    CapBytes 64 d v ↔ ∃ (w : UInt16) (b : Bytes) (fs : List GrFamily), d = be16 w ++ b ∧
      v = .gracefulRestart (decide (32768 ≤ w.toNat)) (w &&& 0x0FFF) fs ∧ Blocks GrBytes fs b := by
  constructor
  · intro h
    cases h with
    | gracefulRestart state reserved time hr ht hb =>
      rename_i fs b
      have hw : (UInt16.ofNat ((if state then 32768 else 0) + reserved * 4096 + time)).toNat =
          (if state then 32768 else 0) + reserved * 4096 + time := by
        simp only [UInt16.toNat_ofNat']
        apply Nat.mod_eq_of_lt
        cases state <;> simp <;> omega
      refine ⟨_, b, fs, by rw [be16_n16, hw], ?_, hb⟩
      congr 1
      · rw [hw]
        cases state <;> simp <;> omega
      · apply UInt16.toNat_inj.mp
        rw [u16_and_low, hw]
        simp only [UInt16.toNat_ofNat']
        cases state <;> simp <;> omega
  · rintro ⟨w, b, fs, rfl, rfl, hb⟩
    have hlt := w.toNat_lt
    have := CapBytes.gracefulRestart (decide (32768 ≤ w.toNat)) (w.toNat % 32768 / 4096) (w.toNat % 4096)
      (by omega) (by omega) hb
    have e1 : (if decide (32768 ≤ w.toNat) = true then 32768 else 0) + w.toNat % 32768 / 4096 * 4096 + w.toNat % 4096 =
        w.toNat := by
      by_cases h : 32768 ≤ w.toNat <;> simp [h] <;> omega
    have e2 : UInt16.ofNat (w.toNat % 4096) = w &&& 0x0FFF := by
      apply UInt16.toNat_inj.mp
      rw [u16_and_low, UInt16.toNat_ofNat']
      omega
    rw [e1, e2] at this
    exact this

/-! ### no panic -/

theorem noPanic_safiOr (x : UInt8) : NoPanic (safiOr x) := by
  unfold safiOr
  split
  · exact .pure _
  · exact .fail (by decide)

theorem noPanic_rdEnhEntry : NoPanic rdEnhEntry :=
  .bind .rdAfi fun _ => .bind .rdU16 fun _ => .bind (noPanic_safiOr _) fun _ =>
    .bind .rdAfi fun _ => .pure _

theorem noPanic_rdGrFamily : NoPanic rdGrFamily :=
  .bind .rdAfi fun _ => .bind .rdU8 fun _ => .bind (noPanic_safiOr _) fun _ => .bind .rdU8 fun _ => .pure _

theorem noPanic_rdApFamily : NoPanic rdApFamily := by
  refine .bind .rdAfi fun _ => .bind .rdU8 fun _ => .bind (noPanic_safiOr _) fun _ => .bind .rdU8 fun m => ?_
  split
  · exact .pure _
  · exact .fail (by decide)

theorem exact_whileGe_noPanic {p : Rd α} {R : α → Bytes → Prop} {n : Nat} (hn : 0 < n) (h : Exact p R)
    (hl : ∀ a c, R a c → c.length = n) (hp : NoPanic p) (s : Bytes) : whileGe n p s ≠ .error .panic :=
  whileGe_noPanic hn hp (fun s a r h' => by
    obtain ⟨c, rfl, hr⟩ := (h _ _ _).mp h'
    have := hl _ _ hr
    simp; omega) s

theorem capOr_noPanic {f : α → CapVal} {d : Bytes} {x : Except Err α} (h : x ≠ .error .panic) :
    capOr f d x ≠ .error .panic := by
  intro h'
  cases x with
  | ok a => cases h'
  | error e => cases e <;> simp_all [capOr]

theorem parseExtNextHop_noPanic (d : Bytes) : parseExtNextHop d ≠ .error .panic := by
  unfold parseExtNextHop
  split
  · simp
  · exact exact_whileGe_noPanic (by omega) exact_rdEnhEntry EnhBytes_length noPanic_rdEnhEntry d

theorem parseAddPathCap_noPanic (d : Bytes) : parseAddPathCap d ≠ .error .panic := by
  unfold parseAddPathCap
  split
  · simp
  · exact exact_whileGe_noPanic (by omega) exact_rdApFamily ApBytes_length noPanic_rdApFamily d

theorem parseMultiprotocol_noPanic (d : Bytes) : parseMultiprotocol d ≠ .error .panic := by
  unfold parseMultiprotocol
  split
  · split
    · simp
    · split <;> simp
  · simp

theorem parseFourOctetAs_noPanic (d : Bytes) : parseFourOctetAs d ≠ .error .panic := by
  unfold parseFourOctetAs
  split <;> simp

theorem parseEmptyCap_noPanic (d : Bytes) : parseEmptyCap d ≠ .error .panic := by
  unfold parseEmptyCap
  split <;> simp

theorem parseRoleCap_noPanic (d : Bytes) : parseRoleCap d ≠ .error .panic := by
  unfold parseRoleCap
  split
  · simp
  · cases h : rdU8 d with
    | error e => intro h'; cases h'; exact NoPanic.rdU8 _ h
    | ok v =>
      obtain ⟨x, r⟩ := v
      dsimp only
      split <;> simp

theorem parseGracefulRestart_noPanic (d : Bytes) : parseGracefulRestart d ≠ .error .panic := by
  unfold parseGracefulRestart
  split
  · simp
  · cases h : rdU16 d with
    | error e => intro h'; cases h'; exact NoPanic.rdU16 _ h
    | ok v =>
      obtain ⟨x, r⟩ := v
      dsimp only
      split
      · simp
      · cases h3 : whileGe 4 rdGrFamily r with
        | error e =>
          intro h'; cases h'
          exact exact_whileGe_noPanic (by omega) exact_rdGrFamily GrBytes_length noPanic_rdGrFamily r h3
        | ok v => simp

theorem capValue_noPanic (code : UInt8) (d : Bytes) : capValue code d ≠ .error .panic := by
  unfold capValue
  refine ite_noPanic (capOr_noPanic (parseMultiprotocol_noPanic d)) ?_
  refine ite_noPanic (capOr_noPanic (parseEmptyCap_noPanic d)) ?_
  refine ite_noPanic (capOr_noPanic (parseExtNextHop_noPanic d)) ?_
  refine ite_noPanic (capOr_noPanic (parseGracefulRestart_noPanic d)) ?_
  refine ite_noPanic (capOr_noPanic (parseFourOctetAs_noPanic d)) ?_
  refine ite_noPanic (capOr_noPanic (parseAddPathCap_noPanic d)) ?_
  refine ite_noPanic (capOr_noPanic (parseRoleCap_noPanic d)) ?_
  refine ite_noPanic (capOr_noPanic (parseEmptyCap_noPanic d)) ?_
  simp

/-! ### the code switch -/

/-- the generic shape: a decoder that accepts exactly `R`, with raw fallback. -/
theorem capOr_ok {f : α → CapVal} {d : Bytes} {x : Except Err α} {P : CapVal → Prop} (hnp : x ≠ .error .panic)
    (hp : ∀ v, P v ↔ ∃ a, x = .ok a ∧ v = f a) (v : CapVal) :
    capOr f d x = .ok v ↔ P v ∨ (v = .raw d ∧ ∀ v', ¬ P v') := by
  cases x with
  | ok a =>
    simp only [capOr]
    constructor
    · intro h; cases h; exact .inl ((hp _).mpr ⟨a, rfl, rfl⟩)
    · rintro (h | ⟨_, h⟩)
      · obtain ⟨b, hb, rfl⟩ := (hp _).mp h; cases hb; rfl
      · exact absurd ((hp _).mpr ⟨a, rfl, rfl⟩) (h (f a))
  | error e =>
    have he : capOr f d (.error e) = .ok (.raw d) := by cases e <;> first | rfl | exact absurd rfl hnp
    have hn : ∀ v', ¬ P v' := by
      intro v' h; obtain ⟨b, hb, _⟩ := (hp _).mp h; cases hb
    rw [he]
    constructor
    · intro h; cases h; exact .inr ⟨rfl, hn⟩
    · rintro (h | ⟨rfl, _⟩)
      · exact absurd h (hn v)
      · rfl

theorem capValue_spec (code : UInt8) (d : Bytes) (v : CapVal) :
    capValue code d = .ok v ↔ CapBytes code d v ∨ (v = .raw d ∧ ∀ v', ¬ CapBytes code d v') := by
  unfold capValue
  by_cases h1 : code = 1
  · subst h1
    rw [if_pos rfl]
    refine capOr_ok (parseMultiprotocol_noPanic d) ?_ v
    intro v
    constructor
    · intro h; cases h with
      | multiprotocol a s x => exact ⟨(a, s), (parseMultiprotocol_ok _ _ _).mpr ⟨x, rfl⟩, rfl⟩
    · rintro ⟨⟨a, s⟩, h, rfl⟩
      obtain ⟨x, rfl⟩ := (parseMultiprotocol_ok _ _ _).mp h
      exact .multiprotocol a s x
  rw [if_neg h1]
  by_cases h2 : code = 2
  · subst h2
    rw [if_pos rfl]
    refine capOr_ok (parseEmptyCap_noPanic d) ?_ v
    intro v
    constructor
    · intro h; cases h; exact ⟨(), (parseEmptyCap_ok _).mpr rfl, rfl⟩
    · rintro ⟨⟨⟩, h, rfl⟩
      rw [(parseEmptyCap_ok _).mp h]; exact .routeRefresh
  rw [if_neg h2]
  by_cases h5 : code = 5
  · subst h5
    rw [if_pos rfl]
    refine capOr_ok (parseExtNextHop_noPanic d) ?_ v
    intro v
    constructor
    · intro h; cases h with
      | extNextHop hb => exact ⟨_, (parseExtNextHop_ok _ _).mpr hb, rfl⟩
    · rintro ⟨es, h, rfl⟩
      exact .extNextHop ((parseExtNextHop_ok _ _).mp h)
  rw [if_neg h5]
  by_cases h64 : code = 64
  · subst h64
    rw [if_pos rfl]
    refine capOr_ok (parseGracefulRestart_noPanic d) ?_ v
    intro v
    rw [capBytes_gr]
    constructor
    · rintro ⟨w, b, fs, rfl, rfl, hb⟩
      exact ⟨(_, _, fs), (parseGracefulRestart_ok _ _ _ _).mpr ⟨w, b, rfl, rfl, rfl, hb⟩, rfl⟩
    · rintro ⟨⟨st, t, fs⟩, h, rfl⟩
      obtain ⟨w, b, rfl, rfl, rfl, hb⟩ := (parseGracefulRestart_ok _ _ _ _).mp h
      exact ⟨w, b, fs, rfl, rfl, hb⟩
  rw [if_neg h64]
  by_cases h65 : code = 65
  · subst h65
    rw [if_pos rfl]
    refine capOr_ok (parseFourOctetAs_noPanic d) ?_ v
    intro v
    constructor
    · intro h; cases h with
      | fourOctetAs a => exact ⟨a, (parseFourOctetAs_ok _ _).mpr rfl, rfl⟩
    · rintro ⟨a, h, rfl⟩
      rw [(parseFourOctetAs_ok _ _).mp h]; exact .fourOctetAs a
  rw [if_neg h65]
  by_cases h69 : code = 69
  · subst h69
    rw [if_pos rfl]
    refine capOr_ok (parseAddPathCap_noPanic d) ?_ v
    intro v
    constructor
    · intro h; cases h with
      | addPath hb => exact ⟨_, (parseAddPathCap_ok _ _).mpr hb, rfl⟩
    · rintro ⟨es, h, rfl⟩
      exact .addPath ((parseAddPathCap_ok _ _).mp h)
  rw [if_neg h69]
  by_cases h9 : code = 9
  · subst h9
    rw [if_pos rfl]
    refine capOr_ok (parseRoleCap_noPanic d) ?_ v
    intro v
    constructor
    · intro h; cases h with
      | role r => exact ⟨r, (parseRoleCap_ok _ _).mpr rfl, rfl⟩
    · rintro ⟨a, h, rfl⟩
      rw [(parseRoleCap_ok _ _).mp h]; exact .role a
  rw [if_neg h9]
  by_cases h6 : code = 6
  · subst h6
    rw [if_pos rfl]
    refine capOr_ok (parseEmptyCap_noPanic d) ?_ v
    intro v
    constructor
    · intro h; cases h; exact ⟨(), (parseEmptyCap_ok _).mpr rfl, rfl⟩
    · rintro ⟨⟨⟩, h, rfl⟩
      rw [(parseEmptyCap_ok _).mp h]; exact .extMessage
  rw [if_neg h6]
  have hn : ∀ v', ¬ CapBytes code d v' := by
    intro v' h
    cases h <;> simp_all
  constructor
  · intro h; cases h; exact .inr ⟨rfl, hn⟩
  · rintro (h | ⟨rfl, _⟩)
    · exact absurd h (hn v)
    · rfl

/-- what the encoder writes means the value, when its code can carry it. -/
theorem encCapVal_bytes {code : UInt8} {v : CapVal} (h : CapOk code v) (hr : ∀ b, v ≠ .raw b) :
    CapBytes code (encCapVal v) v := by
  cases v with
  | raw b => exact absurd rfl (hr b)
  | multiprotocol a s =>
    cases h
    show CapBytes 1 (be16 a.toU16 ++ [0, s.toU8]) _
    rw [be16_afi, safi_num]; exact .multiprotocol a s 0
  | routeRefresh => cases h; exact .routeRefresh
  | extMessage => cases h; exact .extMessage
  | role r =>
    cases h
    show CapBytes 9 [r.toU8] _
    rw [role_num]; exact .role r
  | fourOctetAs a => cases h; exact .fourOctetAs a
  | extNextHop es =>
    cases h
    refine .extNextHop (Blocks_flatMap es fun e _ => ⟨0, ?_⟩)
    rw [be16_afi, be16_afi]
    have : be16 e.safi.toU8.toUInt16 = [0, UInt8.ofNat (safiNum e.safi)] := by cases e.safi <;> decide +kernel
    rw [this]
  | addPath fs =>
    cases h
    refine .addPath (Blocks_flatMap fs fun f _ => ?_)
    unfold ApBytes
    rw [be16_afi, safi_num, mode_num]
  | gracefulRestart st t fs =>
    obtain ⟨rfl, ht⟩ := h
    have hb : Blocks GrBytes fs (fs.flatMap fun f => be16 f.afi.toU16 ++ [f.safi.toU8, if f.forwarding then 0x80 else 0]) := by
      refine Blocks_flatMap fs fun f _ => ⟨if f.forwarding then 0x80 else 0, ?_, ?_⟩
      · rw [be16_afi, safi_num]
      · cases f.forwarding <;> rfl
    have := CapBytes.gracefulRestart st 0 t.toNat (by omega) ht hb
    have e : be16 (if st then 0x8000 ||| (t &&& 0x0FFF) else t &&& 0x0FFF) =
        n16 ((if st then 32768 else 0) + 0 * 4096 + t.toNat) := by
      rw [be16_n16, gr_word, Nat.mod_eq_of_lt ht]; simp
    rw [← e, UInt16.ofNat_toNat] at this
    exact this

theorem capValue_encCapVal {code : UInt8} {v : CapVal} (h : CapOk code v) : capValue code (encCapVal v) = .ok v := by
  rw [capValue_spec]
  by_cases hr : ∃ b, v = .raw b
  · obtain ⟨b, rfl⟩ := hr
    exact .inr ⟨rfl, h⟩
  · exact .inl (encCapVal_bytes h fun b hb => hr ⟨b, hb⟩)

end Verif
