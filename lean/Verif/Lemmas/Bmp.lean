import Verif.Spec.Bmp
import Verif.Lemmas.MrtPeers
import Verif.Lemmas.Bgp
/-
Exactness and safety of the BMP readers.
-/
namespace Verif
open Spec

theorem n32_mod (n : Nat) : n32 (n % 4294967296) = n32 n := by
  unfold n32
  refine congr (congrArg _ ?_) (congr (congrArg _ ?_) (congr (congrArg _ ?_) (congr (congrArg _ ?_) rfl))) <;>
    (apply UInt8.toNat_inj.mp; simp only [UInt8.toNat_ofNat']; omega)

theorem be64_n64 (x : UInt64) : be64 x = n64 x.toNat := by
  unfold be64 n64
  rw [be32_n32, be32_n32]
  simp only [UInt32.toNat_ofNat']
  rw [show (2 : Nat) ^ 32 = 4294967296 from rfl, n32_mod, n32_mod]

namespace Exact

theorem rdU64 : Exact rdU64 (fun a c => c = be64 a) := by
  intro s a r
  constructor
  · intro h
    refine ⟨be64 a, ?_, rfl⟩
    unfold Verif.rdU64 at h
    rw [Rd.bind_eq_ok] at h; obtain ⟨_, t, h1, h⟩ := h
    simp only [needN] at h1
    split at h1
    · cases h1
    cases h1
    rw [Rd.bind_eq_ok] at h; obtain ⟨hi, t', h2, h⟩ := h
    rw [Rd.bind_eq_ok] at h; obtain ⟨lo, t'', h3, h⟩ := h
    cases h
    rw [rdU32_ok h2, rdU32_ok h3, ← List.append_assoc]
    congr 1
    unfold be64
    have e1 := hi.toNat_lt
    have e2 := lo.toNat_lt
    have : (UInt64.ofNat (hi.toNat * 4294967296 + lo.toNat)).toNat = hi.toNat * 4294967296 + lo.toNat := by
      simp only [UInt64.toNat_ofNat']; omega
    rw [this]
    congr 1
    · congr 1; apply UInt32.toNat_inj.mp; simp only [UInt32.toNat_ofNat']; omega
    · congr 1; apply UInt32.toNat_inj.mp; simp only [UInt32.toNat_ofNat']; omega
  · rintro ⟨c, rfl, rfl⟩; simp

theorem skipN (n : Nat) : Exact (skipN n) (fun _ c => c.length = n) := by
  intro s a r
  unfold Verif.skipN
  rw [Rd.bind_eq_ok]
  constructor
  · rintro ⟨_, t, h1, h2⟩
    simp only [needN] at h1
    split at h1
    · cases h1
    rename_i hn
    cases h1
    simp only [advance, hn, if_false] at h2
    cases h2
    exact ⟨s.take n, (List.take_append_drop n s).symm, by simp; omega⟩
  · rintro ⟨c, rfl, rfl⟩
    refine ⟨(), c ++ r, by simp [needN], by simp [advance]⟩

theorem rdBmpAddr (v6 : Bool) : Exact (rdBmpAddr v6) (fun a c => isV6 a = v6 ∧ AddrField a c) := by
  cases v6
  · refine congr (bind (skipN 12) fun _ => bind (rdVec 4) fun a => pure _) ?_
    intro a c
    constructor
    · rintro ⟨_, pad, _, rfl, hp, o, _, _, rfl, rfl, rfl, rfl⟩
      exact ⟨rfl, by simpa using AddrField.v4 pad o hp⟩
    · rintro ⟨h, ha⟩
      cases ha with
      | v6 o => cases h
      | v4 pad o hp => exact ⟨(), pad, _, rfl, hp, o, o.toList, [], by simp, rfl, rfl, rfl⟩
  · refine congr (bind (rdVec 16) fun a => pure _) ?_
    intro a c
    constructor
    · rintro ⟨o, _, _, rfl, rfl, rfl, rfl⟩
      exact ⟨rfl, by simpa using AddrField.v6 o⟩
    · rintro ⟨h, ha⟩
      cases ha with
      | v6 o => exact ⟨o, _, [], by simp, rfl, rfl, rfl⟩
      | v4 pad o hp => cases h

theorem rdBmpAsn (l : AsnLen) : Exact (rdBmpAsn l) (fun a c => AsnField l a c) := by
  cases l
  · refine congr (bind (skipN 2) fun _ => bind rdU16 fun a => pure _) ?_
    intro a c
    constructor
    · rintro ⟨_, pad, _, rfl, hp, x, _, _, rfl, rfl, rfl, rfl⟩
      have := AsnField.as2 pad x.toUInt32 hp (by simpa using x.toNat_lt)
      simpa [be16_n16] using this
    · intro h
      cases h with
      | as2 pad a hp ha =>
        refine ⟨(), pad, _, rfl, hp, UInt16.ofNat a.toNat, n16 a.toNat, [], by simp, (n16_ofNat ha).symm, ?_, rfl⟩
        apply UInt32.toNat_inj.mp
        simp
        omega
  · refine congr rdU32 ?_
    intro a c
    constructor
    · rintro rfl; rw [be32_n32]; exact .as4 a
    · intro h; cases h; rw [be32_n32]

end Exact

theorem flagIpv6_bit (f : UInt8) : flagIpv6 f = f.toNat.testBit 7 := by
  have : ∀ n : Fin 256, flagIpv6 (UInt8.ofNat n.val) = (UInt8.ofNat n.val).toNat.testBit 7 := by decide +kernel
  simpa using this ⟨f.toNat, f.toNat_lt⟩

theorem flagAsnLen_bit (f : UInt8) : flagAsnLen f = if f.toNat.testBit 5 then .b16 else .b32 := by
  have : ∀ n : Fin 256, flagAsnLen (UInt8.ofNat n.val) = if (UInt8.ofNat n.val).toNat.testBit 5 then .b16 else .b32 := by
    decide +kernel
  simpa using this ⟨f.toNat, f.toNat_lt⟩

theorem exact_rdPeerHeader (t : BmpPeerType) (ht : t ≠ .localRib) :
    Exact (rdPeerHeader t) (fun h c => h.peerType = t ∧ PeerHeaderBytes h (UInt8.ofNat (bmpPeerNum t) :: c)) := by
  refine Exact.congr (p := rdPeerHeader t) (.bind .rdU8 fun f => .bind .rdU64 fun d => .bind (.rdBmpAddr _) fun ip =>
    .bind (.rdBmpAsn _) fun asn => .bind (.rdVec 4) fun id => .bind .rdU32 fun sec => .bind .rdU32 fun usec => .pure _) ?_
  intro h c
  constructor
  · rintro ⟨f, _, _, rfl, rfl, d, _, _, rfl, rfl, ip, ab, _, rfl, ⟨hv, ha⟩, asn, nb, _, rfl, hn, id, _, _, rfl, rfl,
      sec, _, _, rfl, rfl, usec, _, _, rfl, rfl, rfl, rfl⟩
    rw [flagIpv6_bit] at hv
    rw [flagAsnLen_bit] at hn
    refine ⟨rfl, ?_⟩
    have := PeerHeaderBytes.peer (t := t) (f := f) (d := d) (id := id) (sec := sec) (usec := usec) ht hv ha hn
    simpa [be32_n32, be64_n64] using this
  · rintro ⟨rfl, h⟩
    generalize hc : UInt8.ofNat (bmpPeerNum _) :: c = s at h
    cases h with
    | peer ht' hv ha hn =>
      rename_i f d ip asn id sec usec ab nb
      simp only [List.cons_append, List.nil_append, List.append_assoc, List.cons.injEq, true_and] at hc
      subst hc
      rw [← flagIpv6_bit] at hv
      rw [← flagAsnLen_bit] at hn
      exact ⟨f, [f], _, rfl, rfl, d, n64 d.toNat, _, rfl, (be64_n64 d).symm, ip, ab, _, rfl, ⟨hv, ha⟩, asn, nb, _, rfl, hn,
        id, _, _, rfl, rfl, sec, _, _, rfl, (be32_n32 sec).symm, usec, n32 usec.toNat, [], by simp, (be32_n32 usec).symm, rfl, rfl⟩
    | localRib => exact absurd rfl ht

theorem exact_rdLocalRibHeader :
    Exact rdLocalRibHeader (fun h c => h.peerType = .localRib ∧ PeerHeaderBytes h (3 :: c)) := by
  refine Exact.congr (p := rdLocalRibHeader) (.bind .rdU8 fun f => .bind .rdU64 fun d => .bind (.rdVec 16) fun _ =>
    .bind .rdU32 fun asn => .bind (.rdVec 4) fun id => .bind .rdU32 fun sec => .bind .rdU32 fun usec => .pure _) ?_
  intro h c
  constructor
  · rintro ⟨f, _, _, rfl, rfl, d, _, _, rfl, rfl, ab, _, _, rfl, rfl, asn, nb, _, rfl, rfl, id, _, _, rfl, rfl,
      sec, _, _, rfl, rfl, usec, _, _, rfl, rfl, rfl, rfl⟩
    refine ⟨rfl, ?_⟩
    have := PeerHeaderBytes.localRib (f := f) (d := d) (asn := asn) (id := id) (sec := sec) (usec := usec) (ab := ab.toList)
      (by simp)
    simpa [be32_n32, be64_n64] using this
  · rintro ⟨ht, h⟩
    generalize hc : (3 : UInt8) :: c = s at h
    cases h with
    | peer ht' hv ha hn => exact absurd ht ht'
    | localRib hab =>
      rename_i f d asn id sec usec ab
      simp only [List.cons_append, List.nil_append, List.append_assoc, List.cons.injEq, true_and] at hc
      subst hc
      exact ⟨f, [f], _, rfl, rfl, d, n64 d.toNat, _, rfl, (be64_n64 d).symm, ⟨ab.toArray, by simpa using hab⟩, ab, _, rfl, rfl,
        asn, _, _, rfl, (be32_n32 asn).symm,
        id, _, _, rfl, rfl, sec, _, _, rfl, (be32_n32 sec).symm, usec, n32 usec.toNat, [], by simp, (be32_n32 usec).symm, rfl, rfl⟩

theorem peerType_ofU8_some {b : UInt8} {t : BmpPeerType} (h : BmpPeerType.ofU8? b = some t) :
    b = UInt8.ofNat (bmpPeerNum t) := by
  unfold BmpPeerType.ofU8? at h
  split at h
  · rename_i hb; cases h; exact hb
  split at h
  · rename_i hb; cases h; exact hb
  split at h
  · rename_i hb; cases h; exact hb
  split at h
  · rename_i hb; cases h; exact hb
  · cases h

theorem peerType_ofU8_num (t : BmpPeerType) : BmpPeerType.ofU8? (UInt8.ofNat (bmpPeerNum t)) = some t := by cases t <;> rfl

/-- a header begins with its peer type. -/
theorem peerHeader_head {h : PerPeerHeader} {s : Bytes} (hb : PeerHeaderBytes h s) :
    ∃ c, s = UInt8.ofNat (bmpPeerNum h.peerType) :: c := by
  cases hb with
  | peer ht hv ha hn => exact ⟨_, by simp only [List.cons_append]; rfl⟩
  | localRib => exact ⟨_, by simp only [List.cons_append]; rfl⟩

theorem exact_rdPerPeerHeader : Exact rdPerPeerHeader PeerHeaderBytes := by
  intro s h r
  unfold rdPerPeerHeader
  rw [Rd.bind_eq_ok]
  constructor
  · rintro ⟨b, t, h1, h2⟩
    have := rdU8_ok h1
    subst this
    cases hb : BmpPeerType.ofU8? b with
    | none => rw [hb] at h2; cases h2
    | some pt =>
      rw [hb] at h2
      have hb' := peerType_ofU8_some hb
      cases pt with
      | localRib =>
        obtain ⟨c, rfl, _, hc⟩ := (exact_rdLocalRibHeader _ _ _).mp h2
        subst hb'
        exact ⟨_, rfl, hc⟩
      | «global» =>
        obtain ⟨c, rfl, _, hc⟩ := (exact_rdPeerHeader _ (by simp) _ _ _).mp h2
        subst hb'
        exact ⟨_, rfl, hc⟩
      | rd =>
        obtain ⟨c, rfl, _, hc⟩ := (exact_rdPeerHeader _ (by simp) _ _ _).mp h2
        subst hb'
        exact ⟨_, rfl, hc⟩
      | «local» =>
        obtain ⟨c, rfl, _, hc⟩ := (exact_rdPeerHeader _ (by simp) _ _ _).mp h2
        subst hb'
        exact ⟨_, rfl, hc⟩
  · rintro ⟨c0, rfl, hb⟩
    obtain ⟨c, rfl⟩ := peerHeader_head hb
    refine ⟨_, c ++ r, rdU8_cons _ _, ?_⟩
    rw [peerType_ofU8_num]
    cases hp : h.peerType with
    | localRib =>
      rw [hp] at hb
      exact (exact_rdLocalRibHeader _ _ _).mpr ⟨c, rfl, hp, hb⟩
    | «global» => rw [hp] at hb; exact (exact_rdPeerHeader _ (by simp) _ _ _).mpr ⟨c, rfl, hp, hb⟩
    | rd => rw [hp] at hb; exact (exact_rdPeerHeader _ (by simp) _ _ _).mpr ⟨c, rfl, hp, hb⟩
    | «local» => rw [hp] at hb; exact (exact_rdPeerHeader _ (by simp) _ _ _).mpr ⟨c, rfl, hp, hb⟩


theorem lift_bind_ok {x : Except Err α} {a : α} (h : x = .ok a) (f : α → Rd β) (s : Bytes) : (Rd.lift x >>= f) s = f a s := by
  subst h; rfl

/-! ### statistics, peer down -/

theorem Rd.bind_assoc (p : Rd α) (f : α → Rd β) (g : β → Rd γ) : (p >>= f) >>= g = p >>= fun a => f a >>= g :=
  congrArg Rd.mk (funext (Rd.bind_assoc_apply p f g))

theorem Exact.needGuard {p : Rd α} {R : α → Bytes → Prop} {n : Nat} (h : Exact p R) (hl : ∀ a c, R a c → n ≤ c.length) :
    Exact (needN n >>= fun _ => p) R := by
  intro s a r
  by_cases hn : s.length < n
  · rw [Rd.bind_error (show needN n s = .error .truncated by simp [needN, hn])]
    constructor
    · intro h; cases h
    · rintro ⟨c, rfl, hr⟩
      have := hl _ _ hr
      simp at hn; omega
  · rw [Rd.bind_ok (show needN n s = .ok ((), s) by simp [needN, hn])]; exact h s a r

theorem be64_length (x : UInt64) : (be64 x).length = 8 := by simp [be64]

theorem exact_rdStatsData (len : UInt16) :
    Exact (needN len.toNat >>= fun _ => rdStatsData len) (fun d c => ∀ ty, StatBytes ⟨ty, len, d⟩ (n16 ty.toNat ++ n16 len.toNat ++ c)) := by
  unfold rdStatsData
  by_cases h4 : len = 4
  · subst h4
    simp only [if_true]
    refine Exact.congr (.needGuard (R := fun d c => ∃ v, d = .counter v ∧ c = be32 v) (.congr (.bind .rdU32 fun v => .pure _) ?_) ?_) ?_
    · intro d c
      constructor
      · rintro ⟨v, _, _, rfl, rfl, rfl, rfl⟩; exact ⟨v, rfl, by simp⟩
      · rintro ⟨v, rfl, rfl⟩; exact ⟨v, _, [], by simp, rfl, rfl, rfl⟩
    · rintro d c ⟨v, rfl, rfl⟩; simp
    · intro d c
      constructor
      · rintro ⟨v, rfl, rfl⟩ ty
        have := StatBytes.counter ty v
        rwa [be32_n32]
      · intro h
        have h := h 0
        generalize hb : n16 (UInt16.toNat 0) ++ n16 (UInt16.toNat 4) ++ c = b at h
        cases h with
        | counter ty v =>
          have := List.append_cancel_left hb
          exact ⟨v, rfl, by rw [be32_n32]; exact this⟩
        | unknown _ _ b hb h1 => exact absurd rfl h1
  by_cases h8 : len = 8
  · subst h8
    simp only [show ¬ ((8 : UInt16) = 4) by decide, if_false, if_true]
    refine Exact.congr (.needGuard (R := fun d c => ∃ v, d = .gauge v ∧ c = be64 v) (.congr (.bind .rdU64 fun v => .pure _) ?_) ?_) ?_
    · intro d c
      constructor
      · rintro ⟨v, _, _, rfl, rfl, rfl, rfl⟩; exact ⟨v, rfl, by simp⟩
      · rintro ⟨v, rfl, rfl⟩; exact ⟨v, _, [], by simp, rfl, rfl, rfl⟩
    · rintro d c ⟨v, rfl, rfl⟩; simp [be64_length]
    · intro d c
      constructor
      · rintro ⟨v, rfl, rfl⟩ ty
        have := StatBytes.gauge ty v
        rwa [be64_n64]
      · intro h
        have h := h 0
        generalize hb : n16 (UInt16.toNat 0) ++ n16 (UInt16.toNat 8) ++ c = b at h
        cases h with
        | gauge ty v =>
          have := List.append_cancel_left hb
          exact ⟨v, rfl, by rw [be64_n64]; exact this⟩
        | unknown _ _ b hb h1 h2 => exact absurd rfl h2
  by_cases h11 : len = 11
  · subst h11
    simp only [show ¬ ((11 : UInt16) = 4) by decide, show ¬ ((11 : UInt16) = 8) by decide, if_false, if_true]
    refine Exact.congr (.needGuard (R := fun d c => ∃ a s v, d = .afiSafiGauge a s v ∧ c = be16 a ++ [s] ++ be64 v)
      (.congr (.bind .rdU16 fun a => .bind .rdU8 fun s => .bind .rdU64 fun v => .pure _) ?_) ?_) ?_
    · intro d c
      constructor
      · rintro ⟨a, _, _, rfl, rfl, s, _, _, rfl, rfl, v, _, _, rfl, rfl, rfl, rfl⟩; exact ⟨a, s, v, rfl, by simp⟩
      · rintro ⟨a, s, v, rfl, rfl⟩
        exact ⟨a, _, _, by rw [List.append_assoc], rfl, s, _, _, rfl, rfl, v, _, [], by simp, rfl, rfl, rfl⟩
    · rintro d c ⟨a, s, v, rfl, rfl⟩; simp [be64_length]
    · intro d c
      constructor
      · rintro ⟨a, s, v, rfl, rfl⟩ ty
        have := StatBytes.afiSafi ty a s v
        rw [be64_n64, be16_n16]
        simpa using this
      · intro h
        have h := h 0
        generalize hb : n16 (UInt16.toNat 0) ++ n16 (UInt16.toNat 11) ++ c = b at h
        cases h with
        | afiSafi ty a s v =>
          refine ⟨a, s, v, rfl, ?_⟩
          rw [be64_n64, be16_n16]
          simp only [List.append_assoc] at hb ⊢
          exact List.append_cancel_left (List.append_cancel_left hb)
        | unknown _ _ b hb h1 h2 h3 => exact absurd rfl h3
  · simp only [h4, h8, h11, if_false]
    refine Exact.congr (.needSplit _ fun b => .pure _) ?_
    intro d c
    constructor
    · rintro ⟨b, _, rfl, hb, rfl, rfl⟩ ty
      simpa using StatBytes.unknown ty len b hb h4 h8 h11
    · intro h
      have h := h 0
      generalize hb : n16 (UInt16.toNat 0) ++ n16 (UInt16.toNat len) ++ c = b at h
      cases h with
      | counter => exact absurd rfl h4
      | gauge => exact absurd rfl h8
      | afiSafi => exact absurd rfl h11
      | unknown _ _ b hl =>
        have := List.append_cancel_left hb
        subst this
        exact ⟨c, [], by simp, hl, rfl, rfl⟩

theorem n16_inj {a b : UInt16} {s t : Bytes} (h : n16 a.toNat ++ s = n16 b.toNat ++ t) : a = b ∧ s = t := by
  rw [← be16_n16, ← be16_n16] at h
  obtain ⟨h1, h2⟩ := List.append_inj h (by simp)
  have := rdU16_be16 a []
  rw [h1] at this
  have e := rdU16_be16 b []
  rw [this] at e
  cases e
  exact ⟨rfl, h2⟩

theorem stat_head {st : StatCounter} {b : Bytes} (h : StatBytes st b) :
    ∃ c, b = n16 st.type.toNat ++ n16 st.len.toNat ++ c := by
  cases h with
  | counter => exact ⟨_, rfl⟩
  | gauge => exact ⟨_, rfl⟩
  | afiSafi => exact ⟨_, by rw [List.append_assoc, List.append_assoc, List.append_assoc, ← List.append_assoc (n16 _)]; rfl⟩
  | unknown => exact ⟨_, rfl⟩

/-- the type of a statistic does not matter for its layout. -/
theorem stat_type {st : StatCounter} {c : Bytes} (h : StatBytes st (n16 st.type.toNat ++ n16 st.len.toNat ++ c)) (ty : UInt16) :
    StatBytes ⟨ty, st.len, st.data⟩ (n16 ty.toNat ++ n16 st.len.toNat ++ c) := by
  generalize hb : n16 st.type.toNat ++ n16 st.len.toNat ++ c = b at h
  cases h with
  | counter t v => rw [List.append_cancel_left hb]; exact .counter ty v
  | gauge t v => rw [List.append_cancel_left hb]; exact .gauge ty v
  | afiSafi t a s v =>
    simp only [List.append_assoc] at hb
    have := List.append_cancel_left (List.append_cancel_left hb)
    subst this
    have := StatBytes.afiSafi ty a s v
    simpa using this
  | unknown t l b hl h4 h8 h11 => rw [List.append_cancel_left hb]; exact .unknown ty l b hl h4 h8 h11

theorem exact_rdStatCounter : Exact rdStatCounter StatBytes := by
  have : rdStatCounter = (do
      let ty ← rdU16
      let len ← rdU16
      let d ← (needN len.toNat >>= fun _ => rdStatsData len)
      pure ⟨ty, len, d⟩) := by
    unfold rdStatCounter
    simp only [Rd.bind_assoc]
  rw [this]
  refine Exact.congr (.bind .rdU16 fun ty => .bind .rdU16 fun len => .bind (exact_rdStatsData len) fun d => .pure _) ?_
  intro st c
  constructor
  · rintro ⟨ty, _, _, rfl, rfl, len, _, _, rfl, rfl, d, c, _, rfl, h, rfl, rfl⟩
    have := h ty
    simpa [be16_n16] using this
  · intro h
    obtain ⟨c, rfl⟩ := stat_head h
    refine ⟨st.type, _, _, List.append_assoc _ _ _, (be16_n16 _).symm, st.len, _, _, rfl, (be16_n16 _).symm, st.data, c, [], by simp, ?_, rfl, rfl⟩
    exact fun ty => stat_type h ty

theorem exact_rdStatsReport : Exact rdStatsReport (fun m c => ∃ cb, c = n32 m.count.toNat ++ cb ∧
    m.counters.length = m.count.toNat ∧ Blocks StatBytes m.counters cb) := by
  refine Exact.congr (p := rdStatsReport) (.bind .rdU32 fun n => .bind (exact_rdStatCounter.rdTimes _) fun cs => .pure _) ?_
  intro m c
  constructor
  · rintro ⟨n, _, _, rfl, rfl, cs, cb, _, rfl, ⟨hl, hb⟩, rfl, rfl⟩
    exact ⟨cb, by simp [be32_n32], hl, hb⟩
  · rintro ⟨cb, rfl, hl, hb⟩
    exact ⟨m.count, _, _, rfl, (be32_n32 _).symm, m.counters, cb, [], by simp, ⟨hl, hb⟩, rfl, rfl⟩

theorem rdPeerDown_iff (s : Bytes) (d : PeerDown) : (∃ r, rdPeerDown s = .ok (d, r)) ↔ PeerDownBytes d s := by
  cases s with
  | nil =>
    constructor
    · rintro ⟨r, h⟩; cases h
    · intro h; cases h
  | cons b s =>
    have hr : rdPeerDown (b :: s) = match PeerDownReason.ofU8? b with
        | none => .error .bmpTlvValue
        | some r => .ok (⟨r, peerDownData r s⟩, s) := by
      unfold rdPeerDown
      rw [Rd.bind_ok (rdU8_cons b s)]
      cases PeerDownReason.ofU8? b <;> rfl
    rw [hr]
    unfold PeerDownReason.ofU8?
    constructor
    · rintro ⟨r, h⟩
      split at h
      · cases h
      rename_i pr hpr
      cases h
      split at hpr
      · rename_i hb; subst hb; cases hpr
        cases s with
        | nil => exact .reserved
        | cons x xs => exact .reservedData _ (by simp)
      split at hpr
      · rename_i hb; subst hb; cases hpr; exact .localNotification _
      split at hpr
      · rename_i hb; subst hb; cases hpr; exact .localFsmEvent _
      split at hpr
      · rename_i hb; subst hb; cases hpr; exact .remoteNotification _
      split at hpr
      · rename_i hb; subst hb; cases hpr; exact .remoteNoData _
      split at hpr
      · rename_i hb; subst hb; cases hpr; exact .deConfigured _
      split at hpr
      · rename_i hb; subst hb; cases hpr; exact .localTlv _
      · cases hpr
    · intro h
      refine ⟨s, ?_⟩
      cases h with
      | reservedData b hb => cases s <;> simp_all [peerDownData]
      | _ => rfl

/-! ### TLVs -/

theorem exact_rdPeerUpTlv : Exact rdPeerUpTlv TlvBytes := by
  refine Exact.congr (p := rdPeerUpTlv) (.bind .rdU16 fun ty => .bind .rdU16 fun len => .bind (.rdN _) fun v => .pure _) ?_
  intro t c
  constructor
  · rintro ⟨ty, _, _, rfl, rfl, len, _, _, rfl, rfl, v, _, _, rfl, ⟨rfl, hv⟩, rfl, rfl⟩
    exact ⟨_, hv, rfl, by simp [be16_n16]⟩
  · rintro ⟨v, hv, hi, rfl⟩
    refine ⟨t.type, _, _, List.append_assoc _ _ _, (be16_n16 _).symm, t.len, _, _, rfl, (be16_n16 _).symm, v, v, [], by simp, ⟨rfl, hv⟩, ?_, rfl⟩
    cases t; simp_all

theorem tlv_length {t : BmpTlv} {b : Bytes} (h : TlvBytes t b) : b.length = 4 + t.len.toNat := by
  obtain ⟨v, hv, _, rfl⟩ := h
  simp [n16]; omega

/-- What the loops with `break` read. -/
inductive Reads (n : Nat) (R : α → Bytes → Bytes → Prop) (Stop : Bytes → Prop) : List α → Bytes → Prop where
  | short {s : Bytes} : s.length < n → Reads n R Stop [] s
  | stop {s : Bytes} : n ≤ s.length → Stop s → Reads n R Stop [] s
  | cons {a : α} {as : List α} {c r : Bytes} : n ≤ (c ++ r).length → R a c r → Reads n R Stop as r →
      Reads n R Stop (a :: as) (c ++ r)

theorem whileSomeFuel_reads {p : Rd (Option α)} {n : Nat} {R : α → Bytes → Bytes → Prop} {Stop : Bytes → Prop} (hn : 0 < n)
    (h1 : ∀ s a r, p s = .ok (some a, r) ↔ ∃ c, s = c ++ r ∧ R a c r) (hl : ∀ a c r, R a c r → c ≠ [])
    (h2 : ∀ s, (∃ r, p s = .ok (none, r)) ↔ Stop s) :
    ∀ (fuel : Nat) (s : Bytes) (as : List α), s.length ≤ fuel → (whileSomeFuel n p fuel s = .ok as ↔ Reads n R Stop as s) := by
  intro fuel
  induction fuel with
  | zero =>
    intro s as hs
    have : s = [] := by cases s; rfl; simp at hs
    subst this
    simp only [whileSomeFuel, List.length_nil, hn, if_true]
    constructor
    · intro h; cases h; exact .short hn
    · intro h
      generalize hs' : ([] : Bytes) = s at h
      cases h with
      | short => rfl
      | stop => rfl
      | cons hle => rw [← hs'] at hle; simp at hle; omega
  | succ fuel ih =>
    intro s as hs
    rw [whileSomeFuel]
    by_cases hlt : s.length < n
    · rw [if_pos hlt]
      constructor
      · intro h; cases h; exact .short hlt
      · intro h
        cases h with
        | short => rfl
        | stop => rfl
        | cons hle => omega
    · rw [if_neg hlt]
      constructor
      · intro hm
        cases hp : p s with
        | error e => rw [hp] at hm; cases hm
        | ok v =>
          obtain ⟨o, r⟩ := v
          rw [hp] at hm
          cases o with
          | none => cases hm; exact .stop (by omega) ((h2 s).mp ⟨r, hp⟩)
          | some a =>
            dsimp only at hm
            obtain ⟨c, rfl, hr⟩ := (h1 _ _ _).mp hp
            have := List.length_pos_iff.mpr (hl _ _ _ hr)
            cases h2 : whileSomeFuel n p fuel r with
            | error e => rw [h2] at hm; cases hm
            | ok as' =>
              rw [h2] at hm
              cases hm
              exact .cons (by omega) hr ((ih r as' (by simp at hs; omega)).mp h2)
      · intro h
        cases h with
        | short hs' => exact absurd hs' hlt
        | stop _ hst =>
          obtain ⟨r, hr⟩ := (h2 s).mpr hst
          rw [hr]
        | cons hle hr hrest =>
          rename_i a as c r
          have := List.length_pos_iff.mpr (hl _ _ _ hr)
          rw [(h1 (c ++ r) a r).mpr ⟨c, rfl, hr⟩]
          dsimp only
          rw [(ih r as (by simp at hs; omega)).mpr hrest]

theorem whileSome_reads {p : Rd (Option α)} {n : Nat} {R : α → Bytes → Bytes → Prop} {Stop : Bytes → Prop} (hn : 0 < n)
    (h1 : ∀ s a r, p s = .ok (some a, r) ↔ ∃ c, s = c ++ r ∧ R a c r) (hl : ∀ a c r, R a c r → c ≠ [])
    (h2 : ∀ s, (∃ r, p s = .ok (none, r)) ↔ Stop s) (s : Bytes) (as : List α) :
    whileSome n p s = .ok as ↔ Reads n R Stop as s := whileSomeFuel_reads hn h1 hl h2 _ s as (Nat.le_refl _)

theorem whileSomeFuel_noPanic {p : Rd (Option α)} {n : Nat} {k : Nat} (hp : Safe k p) (hn : 0 < n)
    (hc : ∀ s a r, p s = .ok (some a, r) → r.length < s.length) :
    ∀ (fuel : Nat) (s : Bytes), s.length ≤ fuel → whileSomeFuel n p fuel s ≠ .error .panic := by
  intro fuel
  induction fuel with
  | zero =>
    intro s hs h
    simp only [whileSomeFuel] at h
    rw [if_pos (by omega)] at h; cases h
  | succ fuel ih =>
    intro s hs h
    rw [whileSomeFuel] at h
    split at h
    · cases h
    · cases h1 : p s with
      | error e =>
        rw [h1] at h
        have : e = .panic := by injection h
        subst this; exact hp.noPanic _ h1
      | ok v =>
        obtain ⟨o, r⟩ := v
        rw [h1] at h
        cases o with
        | none => cases h
        | some a =>
          simp only at h
          have hl := hc _ _ _ h1
          cases h2 : whileSomeFuel n p fuel r with
          | error e =>
            rw [h2] at h
            have : e = .panic := by injection h
            subst this
            exact ih r (by omega) h2
          | ok as' => rw [h2] at h; cases h


theorem rdInitTlv_some (s : Bytes) (t : BmpTlv) (r : Bytes) : rdInitTlv s = .ok (some t, r) ↔ ∃ c, s = c ++ r ∧ TlvBytes t c := by
  unfold rdInitTlv
  constructor
  · intro h
    rw [Rd.bind_eq_ok] at h; obtain ⟨ty, t1, h1, h⟩ := h
    rw [Rd.bind_eq_ok] at h; obtain ⟨len, t2, h2, h⟩ := h
    rw [Rd.bind_ok (Rd.remaining_apply _)] at h
    split at h
    · cases h
    rw [Rd.bind_eq_ok] at h; obtain ⟨v, t3, h3, h⟩ := h
    cases h
    obtain ⟨rfl, hv⟩ := rdN_ok h3
    rw [rdU16_ok h1, rdU16_ok h2]
    exact ⟨be16 ty ++ be16 len ++ v, by simp, v, hv, rfl, by simp [be16_n16]⟩
  · rintro ⟨c, rfl, v, hv, hi, rfl⟩
    simp only [← be16_n16, List.append_assoc]
    rw [Rd.bind_ok (rdU16_be16 _ _), Rd.bind_ok (rdU16_be16 _ _), Rd.bind_ok (Rd.remaining_apply _),
      if_neg (by simp; omega), Rd.bind_ok (rdN_append' hv _)]
    rw [← hi]; rfl

theorem rdInitTlv_none (s : Bytes) : (∃ r, rdInitTlv s = .ok (none, r)) ↔
    ∃ (ty len : UInt16) (v : Bytes), s = n16 ty.toNat ++ n16 len.toNat ++ v ∧ v.length < len.toNat := by
  unfold rdInitTlv
  constructor
  · rintro ⟨r, h⟩
    rw [Rd.bind_eq_ok] at h; obtain ⟨ty, t1, h1, h⟩ := h
    rw [Rd.bind_eq_ok] at h; obtain ⟨len, t2, h2, h⟩ := h
    rw [Rd.bind_ok (Rd.remaining_apply _)] at h
    split at h
    · rename_i hlt
      rw [rdU16_ok h1, rdU16_ok h2]
      exact ⟨ty, len, t2, by simp [be16_n16], hlt⟩
    rw [Rd.bind_eq_ok] at h; obtain ⟨v, t3, h3, h⟩ := h
    cases h
  · rintro ⟨ty, len, v, rfl, hv⟩
    refine ⟨v, ?_⟩
    simp only [← be16_n16, List.append_assoc]
    rw [Rd.bind_ok (rdU16_be16 _ _), Rd.bind_ok (rdU16_be16 _ _), Rd.bind_ok (Rd.remaining_apply _), if_pos hv]
    rfl

/-- a block of at least four octets in front: only the last one can be too short for the loop. -/
theorem reads_blocks {R : α → Bytes → Prop} {Stop : Bytes → Prop} {empty : α → Bool} (hl : ∀ a c, R a c → 4 ≤ c.length)
    (he : ∀ a c, R a c → (empty a = true ↔ c.length = 4)) (as : List α) (s : Bytes) :
    Reads 5 (fun a c _ => R a c) Stop as s ↔
      ∃ c t, s = c ++ t ∧ Blocks R as c ∧ (t.length < 5 ∨ (5 ≤ t.length ∧ Stop t)) ∧
        (∀ a, as.getLast? = some a → empty a = true → t ≠ []) := by
  constructor
  · intro h
    induction h with
    | short hs => exact ⟨[], _, rfl, .nil, Or.inl hs, by simp⟩
    | stop hs hst => exact ⟨[], _, rfl, .nil, Or.inr ⟨hs, hst⟩, by simp⟩
    | cons hle hr h ih =>
      rename_i a as c r
      obtain ⟨c', t, rfl, hb, ht, hlast⟩ := ih
      refine ⟨c ++ c', t, by simp, .cons hr hb, ht, ?_⟩
      cases as with
      | nil =>
        intro x hx hex
        cases hx
        cases hb
        have := (he _ _ hr).mp hex
        rintro rfl
        simp at hle; omega
      | cons b bs => simpa using hlast
  · rintro ⟨c, t, rfl, hb, ht, hlast⟩
    induction hb with
    | nil =>
      rcases ht with ht | ⟨h5, ht⟩
      · exact .short ht
      · exact .stop h5 ht
    | cons hr hb ih =>
      rename_i a as c s
      have hle := hl _ _ hr
      rw [List.append_assoc]
      refine .cons ?_ hr (ih ?_)
      · cases as with
        | nil =>
          have h' := hlast a (by simp)
          cases hb
          by_cases hea : empty a = true
          · have : 0 < t.length := List.length_pos_iff.mpr (h' hea)
            simp; omega
          · have : c.length ≠ 4 := fun hc => hea ((he _ _ hr).mpr hc)
            simp; omega
        | cons b bs =>
          cases hb with
          | cons hr' hb' =>
            have := hl _ _ hr'
            simp; omega
      · cases as with
        | nil => simp
        | cons b bs => simpa using hlast

theorem parseInitiation_iff (s : Bytes) (ts : List BmpTlv) :
    parseInitiation s = .ok ts ↔ ∃ c t, s = c ++ t ∧ Blocks TlvBytes ts c ∧ NoTlv t ∧
      (∀ x, ts.getLast? = some x → x.len = 0 → t ≠ []) := by
  unfold parseInitiation
  rw [whileSome_reads (R := fun a c _ => TlvBytes a c) (by decide) (fun s a r => rdInitTlv_some s a r)
    (fun a c r h => by have := tlv_length h; intro e; rw [e] at this; simp at this; omega) rdInitTlv_none,
    reads_blocks (empty := fun t => t.len == 0) (fun a c h => by have := tlv_length h; omega)
    (fun a c h => by
      have := tlv_length h
      simp only [beq_iff_eq]
      constructor
      · intro e; rw [e] at this; exact this
      · intro e; apply UInt16.toNat_inj.mp; simp; omega)]
  simp only [beq_iff_eq, NoTlv]
  constructor
  · rintro ⟨c, t, rfl, hb, ht, hl⟩
    refine ⟨c, t, rfl, hb, ?_, hl⟩
    rcases ht with h | ⟨_, h⟩
    · exact Or.inl h
    · exact Or.inr h
  · rintro ⟨c, t, rfl, hb, ht, hl⟩
    refine ⟨c, t, rfl, hb, ?_, hl⟩
    by_cases h5 : t.length < 5
    · exact Or.inl h5
    · exact Or.inr ⟨by omega, ht.resolve_left h5⟩

/-! termination -/

theorem term_ofU16_some {x : UInt16} {r : TermReason} (h : TermReason.ofU16? x = some r) : x = UInt16.ofNat (termReasonNum r) := by
  unfold TermReason.ofU16? at h
  split at h
  · rename_i hb; cases h; exact hb
  split at h
  · rename_i hb; cases h; exact hb
  split at h
  · rename_i hb; cases h; exact hb
  split at h
  · rename_i hb; cases h; exact hb
  split at h
  · rename_i hb; cases h; exact hb
  · cases h

theorem term_ofU16_num (r : TermReason) : TermReason.ofU16? (UInt16.ofNat (termReasonNum r)) = some r := by cases r <;> rfl

/-- what one round reads: for a reason any length that does not exceed what is left. -/
inductive TermRead : TermTlv → Bytes → Bytes → Prop where
  | string {len : UInt16} {v r : Bytes} : v.length = len.toNat →
      TermRead (.string len (latin1 v)) (n16 0 ++ n16 len.toNat ++ v) r
  | reason {len : UInt16} {x : TermReason} {r : Bytes} : len.toNat ≤ 2 + r.length →
      TermRead (.reason len x) (n16 1 ++ n16 len.toNat ++ n16 (termReasonNum x)) r

theorem rdTermTlv_some (s : Bytes) (t : TermTlv) (r : Bytes) :
    rdTermTlv s = .ok (some t, r) ↔ ∃ c, s = c ++ r ∧ TermRead t c r := by
  unfold rdTermTlv
  constructor
  · intro h
    rw [Rd.bind_eq_ok] at h; obtain ⟨ty, t1, h1, h⟩ := h
    split at h
    · cases h
    rename_i hty
    rw [Rd.bind_eq_ok] at h; obtain ⟨len, t2, h2, h⟩ := h
    rw [Rd.bind_ok (Rd.remaining_apply _)] at h
    split at h
    · cases h
    rename_i hlt
    rw [rdU16_ok h1, rdU16_ok h2]
    split at h
    · rename_i h0
      subst h0
      rw [Rd.bind_eq_ok] at h; obtain ⟨v, t3, h3, h⟩ := h
      cases h
      obtain ⟨rfl, hv⟩ := rdN_ok h3
      exact ⟨be16 0 ++ be16 len ++ v, by simp, .string hv⟩
    · rename_i h0
      have : ty = 1 := by
        rcases Decidable.not_not.mp hty with h | h
        · exact absurd h h0
        · exact h
      subst this
      rw [Rd.bind_eq_ok] at h; obtain ⟨x, t3, h3, h⟩ := h
      cases hx : TermReason.ofU16? x with
      | none => rw [hx] at h; cases h
      | some y =>
        rw [hx] at h
        cases h
        have := term_ofU16_some hx
        subst this
        have e := rdU16_ok h3
        refine ⟨be16 1 ++ be16 len ++ n16 (termReasonNum y), ?_, .reason ?_⟩
        · rw [e, be16_n16 (UInt16.ofNat _)]
          have : (UInt16.ofNat (termReasonNum y)).toNat = termReasonNum y := by cases y <;> rfl
          rw [this]; simp
        · rw [e] at hlt; simp at hlt; omega
  · rintro ⟨c, rfl, h⟩
    cases h with
    | string hv =>
      rename_i len v
      have e : n16 0 = be16 0 := rfl
      rw [e]
      simp only [← be16_n16, List.append_assoc]
      rw [Rd.bind_ok (rdU16_be16 _ _), if_neg (by decide), Rd.bind_ok (rdU16_be16 _ _), Rd.bind_ok (Rd.remaining_apply _),
        if_neg (by simp; omega), if_pos rfl, Rd.bind_ok (rdN_append' hv _)]
      rfl
    | reason hl =>
      rename_i len x
      have e : n16 1 = be16 1 := rfl
      have e2 : n16 (termReasonNum x) = be16 (UInt16.ofNat (termReasonNum x)) := by cases x <;> rfl
      rw [e, e2]
      simp only [← be16_n16, List.append_assoc]
      rw [Rd.bind_ok (rdU16_be16 _ _), if_neg (by decide), Rd.bind_ok (rdU16_be16 _ _), Rd.bind_ok (Rd.remaining_apply _),
        if_neg (by simp; omega), if_neg (by decide), Rd.bind_ok (rdU16_be16 _ _), term_ofU16_num]
      rfl

theorem rdTermTlv_none (s : Bytes) : (∃ r, rdTermTlv s = .ok (none, r)) ↔
    ∃ (ty len : UInt16) (v : Bytes), ty.toNat ≤ 1 ∧ s = n16 ty.toNat ++ n16 len.toNat ++ v ∧ v.length < len.toNat := by
  unfold rdTermTlv
  constructor
  · rintro ⟨r, h⟩
    rw [Rd.bind_eq_ok] at h; obtain ⟨ty, t1, h1, h⟩ := h
    split at h
    · cases h
    rename_i hty
    rw [Rd.bind_eq_ok] at h; obtain ⟨len, t2, h2, h⟩ := h
    rw [Rd.bind_ok (Rd.remaining_apply _)] at h
    split at h
    · rename_i hlt
      rw [rdU16_ok h1, rdU16_ok h2]
      refine ⟨ty, len, t2, ?_, by simp [be16_n16], hlt⟩
      rcases Decidable.not_not.mp hty with h | h <;> simp [h]
    split at h
    · rw [Rd.bind_eq_ok] at h; obtain ⟨v, t3, h3, h⟩ := h
      cases h
    · rw [Rd.bind_eq_ok] at h; obtain ⟨x, t3, h3, h⟩ := h
      split at h <;> cases h
  · rintro ⟨ty, len, v, hty, rfl, hv⟩
    refine ⟨v, ?_⟩
    simp only [← be16_n16, List.append_assoc]
    have : ty = 0 ∨ ty = 1 := by
      rcases Nat.lt_or_ge ty.toNat 1 with h | h
      · left; apply UInt16.toNat_inj.mp; simp; omega
      · right; apply UInt16.toNat_inj.mp; simp; omega
    rw [Rd.bind_ok (rdU16_be16 _ _), if_neg (not_not_intro this), Rd.bind_ok (rdU16_be16 _ _),
      Rd.bind_ok (Rd.remaining_apply _), if_pos hv]
    rfl

theorem termRead_ok {t : TermTlv} {c r : Bytes} (h : ∀ l x, t = .reason l x → l = 2) : TermRead t c r ↔ TermTlvBytes t c := by
  constructor
  · intro hr
    cases hr with
    | string hv => exact .string hv
    | reason => have := h _ _ rfl; subst this; exact .reason _
  · intro hb
    cases hb with
    | string hv => exact .string hv
    | reason => exact .reason (len := 2) (by simp)

theorem reads_congr {n : Nat} {R R' : α → Bytes → Bytes → Prop} {Stop : Bytes → Prop} {as : List α} {s : Bytes}
    (h : ∀ a ∈ as, ∀ c r, R a c r → R' a c r) (hr : Reads n R Stop as s) : Reads n R' Stop as s := by
  induction hr with
  | short hs => exact .short hs
  | stop h1 h2 => exact .stop h1 h2
  | cons hle hR _ ih => exact .cons hle (h _ (by simp) _ _ hR) (ih fun a ha => h a (by simp [ha]))

theorem termTlv_length {t : TermTlv} {c : Bytes} (h : TermTlvBytes t c) :
    4 ≤ c.length ∧ (emptyTerm t = true ↔ c.length = 4) := by
  cases h with
  | string hv =>
    rename_i len v
    simp only [emptyTerm, beq_iff_eq, List.length_append, n16, List.length_cons, List.length_nil]
    refine ⟨by omega, ?_⟩
    constructor
    · intro e; rw [e] at hv; simp at hv; simp [hv]
    · intro e; apply UInt16.toNat_inj.mp; simp; omega
  | reason r => simp [emptyTerm, n16]

theorem parseTermination_iff (s : Bytes) (ts : List TermTlv) (hc : ∀ len r, TermTlv.reason len r ∈ ts → len = 2) :
    parseTermination s = .ok ts ↔ ∃ c t, s = c ++ t ∧ Blocks TermTlvBytes ts c ∧ NoTermTlv t ∧
      (∀ x, ts.getLast? = some x → emptyTerm x = true → t ≠ []) := by
  unfold parseTermination
  rw [whileSome_reads (R := TermRead) (by decide) rdTermTlv_some
    (fun a c r h => by cases h <;> simp [n16]) rdTermTlv_none]
  have : Reads 5 TermRead (fun s => ∃ (ty len : UInt16) (v : Bytes), ty.toNat ≤ 1 ∧ s = n16 ty.toNat ++ n16 len.toNat ++ v ∧
      v.length < len.toNat) ts s ↔ Reads 5 (fun a c _ => TermTlvBytes a c) (fun s => ∃ (ty len : UInt16) (v : Bytes),
      ty.toNat ≤ 1 ∧ s = n16 ty.toNat ++ n16 len.toNat ++ v ∧ v.length < len.toNat) ts s := by
    constructor
    · exact reads_congr fun a ha c r h => (termRead_ok (fun l x e => by subst e; exact hc _ _ ha)).mp h
    · exact reads_congr fun a ha c r h => (termRead_ok (fun l x e => by subst e; exact hc _ _ ha)).mpr h
  rw [this, reads_blocks (empty := emptyTerm) (fun a c h => (termTlv_length h).1) (fun a c h => (termTlv_length h).2)]
  simp only [NoTermTlv]
  constructor
  · rintro ⟨c, t, rfl, hb, ht, hl⟩
    refine ⟨c, t, rfl, hb, ?_, hl⟩
    rcases ht with h | ⟨_, h⟩
    · exact Or.inl h
    · exact Or.inr h
  · rintro ⟨c, t, rfl, hb, ht, hl⟩
    refine ⟨c, t, rfl, hb, ?_, hl⟩
    by_cases h5 : t.length < 5
    · exact Or.inl h5
    · exact Or.inr ⟨by omega, ht.resolve_left h5⟩

/-! mirroring -/

theorem bgpIn_length {l : AsnLen} {m : BgpMessage} {b : Bytes} (h : BgpIn l m b) : 19 ≤ b.length := by
  obtain ⟨r, h⟩ := h
  obtain ⟨marker, len, ty, rest, t, hm, _, _, rfl, _⟩ := (parseBgpMessage_iff _ _ _ _ _).mp h
  simp [n16, hm]; omega

theorem runOn_iff {p : Rd α} {s : Bytes} {a : α} : p.runOn s = .ok a ↔ ∃ r, p s = .ok (a, r) := by
  unfold Rd.runOn
  constructor
  · intro h
    cases hp : p s with
    | error e => rw [hp] at h; cases h
    | ok v => obtain ⟨b, r⟩ := v; rw [hp] at h; cases h; exact ⟨r, rfl⟩
  · rintro ⟨r, h⟩; rw [h]

/-- what one round reads: for an information code any length. -/
inductive MirrorRead (l : AsnLen) : MirrorTlv → Bytes → Prop where
  | bgp {len : UInt16} {m : BgpMessage} {b : Bytes} : b.length = len.toNat → BgpIn l m b →
      MirrorRead l (.bgp len m) (n16 0 ++ n16 len.toNat ++ b)
  | info {len : UInt16} {i : MirrorInfo} : MirrorRead l (.info len i) (n16 1 ++ n16 len.toNat ++ n16 (mirrorNum i))

theorem exact_mirrorInfoOr (x : UInt16) : Exact (mirrorInfoOr x) (fun i c => be16 x = n16 (mirrorNum i) ∧ c = []) := by
  intro s a r
  unfold mirrorInfoOr
  constructor
  · intro h
    split at h
    · rename_i hx; subst hx; cases h; exact ⟨[], rfl, rfl, rfl⟩
    split at h
    · rename_i hx; subst hx; cases h; exact ⟨[], rfl, rfl, rfl⟩
    · cases h
  · rintro ⟨c, rfl, hx, rfl⟩
    have := rdU16_be16 x []
    rw [hx] at this
    cases a
    · have e : x = 0 := by
        have e := rdU16_be16 0 []
        rw [show be16 0 = n16 (mirrorNum .erroredPdu) from rfl, this] at e
        cases e; rfl
      subst e; rfl
    · have e : x = 1 := by
        have e := rdU16_be16 1 []
        rw [show be16 1 = n16 (mirrorNum .messageLost) from rfl, this] at e
        cases e; rfl
      subst e; rfl

theorem exact_rdMirrorTlv (l : AsnLen) : Exact (rdMirrorTlv l) (MirrorRead l) := by
  refine Exact.congr (p := rdMirrorTlv l) (.bind .rdU16 fun ty => .ite
    (.bind .rdU16 fun len => .needSplit _ fun b => .bind (.lift _) fun m => .pure _)
    (.ite (.bind .rdU16 fun len => .bind .rdU16 fun x => .bind (exact_mirrorInfoOr x) fun i => .pure _) (.fail _))) ?_
  intro t c
  constructor
  · rintro ⟨ty, _, _, rfl, rfl, h⟩
    rcases h with ⟨rfl, len, _, _, rfl, rfl, b, _, rfl, hb, m, _, _, rfl, ⟨hm, rfl⟩, rfl, rfl⟩ |
      ⟨_, h⟩
    · have := MirrorRead.bgp hb (runOn_iff.mp hm)
      simpa [be16_n16] using this
    · rcases h with ⟨rfl, len, _, _, rfl, rfl, x, _, _, rfl, rfl, i, _, _, rfl, ⟨hx, rfl⟩, rfl, rfl⟩ | ⟨_, h⟩
      · have := MirrorRead.info (l := l) (len := len) (i := i)
        simpa [be16_n16, ← hx] using this
      · cases h
  · intro h
    cases h with
    | bgp hb hm =>
      rename_i len m b
      exact ⟨0, be16 0, _, List.append_assoc _ _ _, rfl, Or.inl ⟨rfl, len, be16 len, _, rfl, rfl, b, [], by simp, hb, m, [], [], rfl,
        ⟨runOn_iff.mpr hm, rfl⟩, rfl, rfl⟩⟩
    | info =>
      rename_i len i
      refine ⟨1, be16 1, _, List.append_assoc _ _ _, rfl, Or.inr ⟨by decide, Or.inl ⟨rfl, len, be16 len, _, rfl, rfl,
        UInt16.ofNat (mirrorNum i), n16 (mirrorNum i), [], by simp, ?_, i, [], [], rfl, ⟨?_, rfl⟩, rfl, rfl⟩⟩⟩
      · cases i <;> rfl
      · cases i <;> rfl

theorem mirrorRead_length {l : AsnLen} {t : MirrorTlv} {c : Bytes} (h : MirrorRead l t c) : 5 ≤ c.length := by
  cases h with
  | bgp hb hm => have := bgpIn_length hm; simp [n16]; omega
  | info => simp [n16]

theorem blocks_congr {R R' : α → Bytes → Prop} {as : List α} {s : Bytes}
    (h : ∀ a ∈ as, ∀ c, R a c → R' a c) (hb : Blocks R as s) : Blocks R' as s := by
  induction hb with
  | nil => exact .nil
  | cons hr _ ih => exact .cons (h _ (by simp) _ hr) (ih fun a ha => h a (by simp [ha]))

theorem mirrorRead_ok {l : AsnLen} {t : MirrorTlv} {c : Bytes} (h : ∀ n i, t = .info n i → n = 2) :
    MirrorRead l t c ↔ MirrorTlvBytes l t c := by
  constructor
  · intro hr
    cases hr with
    | bgp hb hm => exact .bgp hb hm
    | info => have := h _ _ rfl; subst this; exact .info _
  · intro hb
    cases hb with
    | bgp hb hm => exact .bgp hb hm
    | info => exact .info (len := 2)

theorem parseMirroring_iff (l : AsnLen) (s : Bytes) (ts : List MirrorTlv) (hc : ∀ len i, MirrorTlv.info len i ∈ ts → len = 2) :
    parseMirroring l s = .ok ts ↔ ∃ c t, s = c ++ t ∧ Blocks (MirrorTlvBytes l) ts c ∧ t.length < 5 := by
  unfold parseMirroring
  rw [Exact.whileGe (by decide) (exact_rdMirrorTlv l) (fun a c h => mirrorRead_length h)]
  constructor
  · rintro ⟨c, t, rfl, hb, ht⟩
    exact ⟨c, t, rfl, blocks_congr (fun a ha c h => (mirrorRead_ok (fun n i e => by subst e; exact hc _ _ ha)).mp h) hb, ht⟩
  · rintro ⟨c, t, rfl, hb, ht⟩
    exact ⟨c, t, rfl, blocks_congr (fun a ha c h => (mirrorRead_ok (fun n i e => by subst e; exact hc _ _ ha)).mpr h) hb, ht⟩

/-! peer up -/

theorem n16_u16of (a b : UInt8) : n16 (u16of a b).toNat = [a, b] := by rw [← be16_n16, be16_u16of]

theorem exact_rdOpen (l : AsnLen) : Exact (rdOpen l) (WholeBgp l) := by
  intro s m r
  unfold rdOpen
  constructor
  · intro h
    rw [Rd.bind_eq_ok] at h; obtain ⟨_, t, h1, h⟩ := h
    simp only [needN] at h1
    split at h1
    · cases h1
    rename_i h19
    cases h1
    rw [Rd.bind_eq_ok] at h; obtain ⟨n, t, h1, h⟩ := h
    have e16 : s[16]? = some s[16] := List.getElem?_eq_getElem (by omega)
    have e17 : s[17]? = some s[17] := List.getElem?_eq_getElem (by omega)
    simp only [peekBgpLen, e16, e17] at h1
    cases h1
    obtain ⟨c, rfl, b, _, rfl, hb, hm, rfl⟩ := (Exact.needSplit _ (fun b => .lift _) _ _ _).mp h
    have hm := runOn_iff.mp hm
    have hl := bgpIn_length hm
    refine ⟨b, by simp, hl, ?_, ?_, hm⟩
    · simp only [List.append_nil] at hb e16 e17 ⊢
      rw [hb, n16_u16of]
      rw [List.getElem_append_left (by omega), List.getElem_append_left (by omega)]
      rw [List.drop_eq_getElem_cons (by omega), List.drop_eq_getElem_cons (by omega)]
      rfl
    · rw [hb]; exact UInt16.toNat_lt _
  · rintro ⟨b, rfl, hl, h2, h3, hm⟩
    have h19 : ¬ (b ++ r).length < 19 := by simp; omega
    rw [Rd.bind_ok (show needN 19 (b ++ r) = .ok ((), b ++ r) by simp only [needN]; rw [if_neg h19])]
    have e16 : (b ++ r)[16]? = some b[16] := by
      rw [List.getElem?_append_left (by omega)]; exact List.getElem?_eq_getElem (by omega)
    have e17 : (b ++ r)[17]? = some b[17] := by
      rw [List.getElem?_append_left (by omega)]; exact List.getElem?_eq_getElem (by omega)
    have hn : (u16of b[16] b[17]).toNat = b.length := by
      rw [List.drop_eq_getElem_cons (by omega), List.drop_eq_getElem_cons (by omega)] at h2
      have h2 : [b[16], b[17]] = n16 b.length := h2
      rw [← n16_u16of, show n16 b.length = n16 (UInt16.ofNat b.length).toNat by rw [toNat_u16len (by omega)]] at h2
      have := (n16_inj (a := u16of b[16] b[17]) (b := UInt16.ofNat b.length) (s := []) (t := []) (by rw [h2])).1
      rw [this, toNat_u16len (by omega)]
    rw [Rd.bind_ok (show peekBgpLen (b ++ r) = .ok (u16of b[16] b[17], b ++ r) by simp only [peekBgpLen, e16, e17])]
    refine (Exact.needSplit _ (fun b => .lift _) _ _ _).mpr ⟨b, rfl, b, [], by simp, hn.symm, runOn_iff.mpr hm, rfl⟩

theorem rdPeerUp_iff (v6 : Bool) (l : AsnLen) (s : Bytes) (u : PeerUp) :
    (∃ r, rdPeerUp v6 l s = .ok (u, r)) ↔ PeerUpBytes v6 l u s := by
  unfold rdPeerUp
  constructor
  · rintro ⟨r, h⟩
    rw [Rd.bind_eq_ok] at h; obtain ⟨ip, t1, h1, h⟩ := h
    rw [Rd.bind_eq_ok] at h; obtain ⟨lp, t2, h2, h⟩ := h
    rw [Rd.bind_eq_ok] at h; obtain ⟨rp, t3, h3, h⟩ := h
    rw [Rd.bind_eq_ok] at h; obtain ⟨sent, t4, h4, h⟩ := h
    rw [Rd.bind_eq_ok] at h; obtain ⟨rec, t5, h5, h⟩ := h
    rw [Rd.bind_ok (show Rd.peek t5 = .ok (t5, t5) from rfl)] at h
    rw [Rd.bind_eq_ok] at h; obtain ⟨tlvs, t6, h6, h⟩ := h
    cases h
    obtain ⟨ab, rfl, hv, ha⟩ := (Exact.rdBmpAddr v6 _ _ _).mp h1
    rw [rdU16_ok h2, rdU16_ok h3]
    obtain ⟨sb, rfl, hs⟩ := (exact_rdOpen l _ _ _).mp h4
    obtain ⟨rb, rfl, hr⟩ := (exact_rdOpen l _ _ _).mp h5
    obtain ⟨_, _, h6, _⟩ := (Exact.lift _ _ _ _).mp h6
    obtain ⟨tb, junk, rfl, hb, hj⟩ := (Exact.whileGe (n := 4) (by decide) exact_rdPeerUpTlv (fun a c h => by rw [tlv_length h]; omega) _ _).mp h6
    have := PeerUpBytes.mk (lp := lp) (rp := rp) hv ha hs hr hb hj
    simpa [be16_n16] using this
  · intro h
    cases h with
    | mk hv ha hs hr hb hj =>
      rename_i ip lp rp sent rec tlvs ab sb rb tb junk
      refine ⟨tb ++ junk, ?_⟩
      simp only [List.append_assoc, ← be16_n16]
      rw [Rd.bind_ok ((Exact.rdBmpAddr v6 _ _ _).mpr ⟨ab, rfl, hv, ha⟩), Rd.bind_ok (rdU16_be16 _ _), Rd.bind_ok (rdU16_be16 _ _),
        Rd.bind_ok ((exact_rdOpen l _ _ _).mpr ⟨sb, rfl, hs⟩), Rd.bind_ok ((exact_rdOpen l _ _ _).mpr ⟨rb, rfl, hr⟩),
        Rd.bind_ok (show Rd.peek (tb ++ junk) = .ok (tb ++ junk, tb ++ junk) from rfl)]
      rw [lift_bind_ok ((Exact.whileGe (n := 4) (by decide) exact_rdPeerUpTlv
        (fun a c h => by rw [tlv_length h]; omega) _ _).mpr ⟨tb, junk, rfl, hb, hj⟩)]
      rfl

/-! contents -/

theorem bmpAsnLen_eq (h : PerPeerHeader) : h.asnLen = bmpAsnLen h := by
  unfold PerPeerHeader.asnLen bmpAsnLen
  cases h.flags with
  | peer f => exact flagAsnLen_bit f
  | localRib => rfl

theorem afi_isV6 (h : PerPeerHeader) : (h.afi == .ipv6) = isV6 h.ip := by
  unfold PerPeerHeader.afi; cases h.ip <;> rfl

theorem peerBody_iff (t : BmpMsgType) (h : PerPeerHeader) (hb s : Bytes) (b : BmpBody) (hh : PeerHeaderBytes h hb)
    (ht : t ≠ .initiation) (ht' : t ≠ .termination) (hc : CodesHaveLength2 b)
    (hinj : ∀ h' hb' s', hb ++ s = hb' ++ s' → PeerHeaderBytes h' hb' → h = h' → hb = hb' ∧ s = s') :
    (∃ r, rdPeerBody t h s = .ok (b, r)) ↔ ContentBytes t (some h) b (hb ++ s) := by
  constructor
  · rintro ⟨r, hr⟩
    cases t with
    | initiation => exact absurd rfl ht
    | termination => exact absurd rfl ht'
    | routeMonitoring =>
      simp only [rdPeerBody] at hr
      rw [Rd.bind_eq_ok] at hr; obtain ⟨m, t, h1, hr⟩ := hr
      cases hr
      rw [bmpAsnLen_eq] at h1
      exact .routeMonitoring hh ⟨_, h1⟩
    | routeMirroring =>
      simp only [rdPeerBody] at hr
      rw [Rd.bind_ok (show Rd.peek s = .ok (s, s) from rfl)] at hr
      rw [Rd.bind_eq_ok] at hr; obtain ⟨ts, t, h1, hr⟩ := hr
      cases hr
      obtain ⟨_, _, h1, _⟩ := (Exact.lift _ _ _ _).mp h1
      rw [bmpAsnLen_eq] at h1
      obtain ⟨c, t, rfl, hb, ht⟩ := (parseMirroring_iff _ _ _ hc).mp h1
      rw [← List.append_assoc]
      exact .routeMirroring hh hb ht
    | statisticsReport =>
      simp only [rdPeerBody] at hr
      rw [Rd.bind_eq_ok] at hr; obtain ⟨m, t, h1, hr⟩ := hr
      cases hr
      obtain ⟨_, rfl, cb, rfl, hl, hb⟩ := (exact_rdStatsReport _ _ _).mp h1
      have := ContentBytes.stats (junk := r) hh hl hb
      simpa using this
    | peerDown =>
      simp only [rdPeerBody] at hr
      rw [Rd.bind_eq_ok] at hr; obtain ⟨m, t, h1, hr⟩ := hr
      cases hr
      exact .peerDown hh ((rdPeerDown_iff _ _).mp ⟨_, h1⟩)
    | peerUp =>
      simp only [rdPeerBody] at hr
      rw [Rd.bind_eq_ok] at hr; obtain ⟨m, t, h1, hr⟩ := hr
      cases hr
      rw [bmpAsnLen_eq, afi_isV6] at h1
      exact .peerUp hh ((rdPeerUp_iff _ _ _ _).mp ⟨_, h1⟩)
  · intro hr
    generalize hs : hb ++ s = d at hr
    cases hr with
    | routeMonitoring hh' hm =>
      obtain ⟨rfl, rfl⟩ := hinj _ _ _ hs hh' rfl
      obtain ⟨r, hm⟩ := hm
      refine ⟨r, ?_⟩
      simp only [rdPeerBody]
      rw [bmpAsnLen_eq, Rd.bind_ok hm]; rfl
    | stats hh' hl hb =>
      rename_i n cs hb' cb junk
      obtain ⟨rfl, rfl⟩ := hinj _ _ _ (hs.trans (by rw [List.append_assoc, List.append_assoc])) hh' rfl
      refine ⟨junk, ?_⟩
      simp only [rdPeerBody]
      rw [Rd.bind_ok ((exact_rdStatsReport _ ⟨n, cs⟩ junk).mpr ⟨_, by rw [← List.append_assoc], cb, rfl, hl, hb⟩)]; rfl
    | peerDown hh' hd =>
      obtain ⟨rfl, rfl⟩ := hinj _ _ _ hs hh' rfl
      obtain ⟨r, hd⟩ := (rdPeerDown_iff _ _).mpr hd
      refine ⟨r, ?_⟩
      simp only [rdPeerBody]
      rw [Rd.bind_ok hd]; rfl
    | peerUp hh' hd =>
      obtain ⟨rfl, rfl⟩ := hinj _ _ _ hs hh' rfl
      obtain ⟨r, hd⟩ := (rdPeerUp_iff _ _ _ _).mpr hd
      refine ⟨r, ?_⟩
      simp only [rdPeerBody]
      rw [bmpAsnLen_eq, afi_isV6, Rd.bind_ok hd]; rfl
    | routeMirroring hh' hb hj =>
      rename_i ts hb' tb junk
      obtain ⟨rfl, rfl⟩ := hinj _ _ _ (hs.trans (by rw [List.append_assoc])) hh' rfl
      refine ⟨tb ++ junk, ?_⟩
      simp only [rdPeerBody]
      rw [Rd.bind_ok (show Rd.peek (tb ++ junk) = .ok (tb ++ junk, tb ++ junk) from rfl)]
      rw [bmpAsnLen_eq, lift_bind_ok ((parseMirroring_iff _ _ _ hc).mpr ⟨tb, junk, rfl, hb, hj⟩)]
      rfl

theorem peerHeader_length {h : PerPeerHeader} {b : Bytes} (hb : PeerHeaderBytes h b) : b.length = 42 := by
  have l64 : ∀ n, (n64 n).length = 8 := by intro n; simp [n64, n32]
  have l32 : ∀ n, (n32 n).length = 4 := by intro n; simp [n32]
  cases hb with
  | peer ht hv ha hn =>
    have e1 : ∀ {ip : Ip} {ab : Bytes}, AddrField ip ab → ab.length = 16 := by
      intro ip ab h; cases h <;> simp; omega
    have e2 : ∀ {l : AsnLen} {a : Asn} {ab : Bytes}, AsnField l a ab → ab.length = 4 := by
      intro l a ab h; cases h <;> simp [n16, n32]; omega
    simp [l64, l32, e1 ha, e2 hn]
  | localRib ha => simp [l64, l32, ha]

theorem rdContent_iff (t : BmpMsgType) (p : Option PerPeerHeader) (b : BmpBody) (s : Bytes) (hc : CodesHaveLength2 b) :
    (rdContent t).runOn s = .ok (p, b) ↔ ContentBytes t p b s := by
  rw [runOn_iff]
  by_cases h4 : t = .initiation
  · subst h4
    simp only [rdContent]
    rw [Rd.bind_ok (show Rd.peek s = .ok (s, s) from rfl)]
    constructor
    · rintro ⟨r, hr⟩
      rw [Rd.bind_eq_ok] at hr; obtain ⟨ts, t, h1, hr⟩ := hr
      cases hr
      obtain ⟨_, _, h1, _⟩ := (Exact.lift _ _ _ _).mp h1
      obtain ⟨c, t, rfl, hb, ht, hl⟩ := (parseInitiation_iff _ _).mp h1
      exact .initiation hb ht hl
    · intro h
      cases h with
      | initiation hb ht hl =>
        rename_i ts tb junk
        refine ⟨tb ++ junk, ?_⟩
        rw [lift_bind_ok ((parseInitiation_iff _ _).mpr ⟨tb, junk, rfl, hb, ht, hl⟩)]
        rfl
  by_cases h5 : t = .termination
  · subst h5
    simp only [rdContent]
    rw [Rd.bind_ok (show Rd.peek s = .ok (s, s) from rfl)]
    constructor
    · rintro ⟨r, hr⟩
      rw [Rd.bind_eq_ok] at hr; obtain ⟨ts, t, h1, hr⟩ := hr
      cases hr
      obtain ⟨_, _, h1, _⟩ := (Exact.lift _ _ _ _).mp h1
      obtain ⟨c, t, rfl, hb, ht, hl⟩ := (parseTermination_iff _ _ hc).mp h1
      exact .termination hb ht hl
    · intro h
      cases h with
      | termination hb ht hl =>
        rename_i ts tb junk
        refine ⟨tb ++ junk, ?_⟩
        rw [lift_bind_ok ((parseTermination_iff _ _ hc).mpr ⟨tb, junk, rfl, hb, ht, hl⟩)]
        rfl
  have hrd : rdContent t = (do let h ← rdPerPeerHeader; let b ← rdPeerBody t h; pure (some h, b)) := by
    cases t <;> first | rfl | exact absurd rfl h4 | exact absurd rfl h5
  have hinj : ∀ (h : PerPeerHeader) (hb s : Bytes), PeerHeaderBytes h hb → ∀ h' hb' s', hb ++ s = hb' ++ s' → PeerHeaderBytes h' hb' → h = h' → hb = hb' ∧ s = s' := by
    intro h hb s hh h' hb' s' e hh' _
    exact List.append_inj e (by rw [peerHeader_length hh, peerHeader_length hh'])
  rw [hrd]
  constructor
  · rintro ⟨r, hr⟩
    rw [Rd.bind_eq_ok] at hr; obtain ⟨h, t1, h1, hr⟩ := hr
    rw [Rd.bind_eq_ok] at hr; obtain ⟨b', t2, h2, hr⟩ := hr
    cases hr
    obtain ⟨hb, rfl, hh⟩ := (exact_rdPerPeerHeader _ _ _).mp h1
    exact (peerBody_iff t h hb t1 b hh h4 h5 hc (hinj h hb t1 hh)).mp ⟨_, h2⟩
  · intro hcb
    have : ∃ h hb s', p = some h ∧ s = hb ++ s' ∧ PeerHeaderBytes h hb := by
      cases hcb with
      | routeMonitoring hh => exact ⟨_, _, _, rfl, rfl, hh⟩
      | stats hh => exact ⟨_, _, _, rfl, by rw [List.append_assoc, List.append_assoc], hh⟩
      | peerDown hh => exact ⟨_, _, _, rfl, rfl, hh⟩
      | peerUp hh => exact ⟨_, _, _, rfl, rfl, hh⟩
      | routeMirroring hh => exact ⟨_, _, _, rfl, by rw [List.append_assoc], hh⟩
      | initiation => exact absurd rfl h4
      | termination => exact absurd rfl h5
    obtain ⟨h, hb, s', rfl, rfl, hh⟩ := this
    obtain ⟨r, hr⟩ := (peerBody_iff t h hb s' b hh h4 h5 hc (hinj h hb s' hh)).mpr hcb
    refine ⟨r, ?_⟩
    rw [Rd.bind_ok ((exact_rdPerPeerHeader _ _ _).mpr ⟨hb, rfl, hh⟩), Rd.bind_ok hr]
    rfl


/-! ### no panics -/

namespace Safe

theorem skipN (n : Nat) : Safe n (skipN n) := by
  refine ⟨?_, ?_⟩
  · intro s h
    unfold Verif.skipN at h
    by_cases hn : s.length < n
    · rw [Rd.bind_error (show Verif.needN n s = .error .truncated by simp [Verif.needN, hn])] at h; cases h
    · rw [Rd.bind_ok (show Verif.needN n s = .ok ((), s) by simp [Verif.needN, hn])] at h
      simp [advance, hn] at h
  · intro s a r h
    obtain ⟨c, rfl, hc⟩ := (Exact.skipN n _ _ _).mp h
    simp; omega

theorem rdBmpAddr (v6 : Bool) : Safe 16 (rdBmpAddr v6) := by
  cases v6
  · exact (skipN 12).bind fun _ => (rdVec 4).bind fun _ => pure _
  · exact (rdVec 16).bind fun _ => pure _

theorem rdBmpAsn (l : AsnLen) : Safe 4 (rdBmpAsn l) := by
  cases l
  · exact (skipN 2).bind fun _ => rdU16.bind fun _ => pure _
  · exact rdU32

theorem rdPerPeerHeader : Safe 1 rdPerPeerHeader := by
  refine rdU8.bind (m := 0) fun b => ?_
  split
  · exact fail (by decide) _
  · exact (rdU8.bind fun f => rdU64.bind fun d => (rdVec 16).bind fun _ => rdU32.bind fun _ => (rdVec 4).bind fun _ => rdU32.bind fun _ =>
      rdU32.bind fun _ => pure _).weaken (by omega)
  · exact (rdU8.bind fun f => rdU64.bind fun d => (rdBmpAddr _).bind fun _ => (rdBmpAsn _).bind fun _ => (rdVec 4).bind fun _ =>
      rdU32.bind fun _ => rdU32.bind fun _ => pure _).weaken (by omega)

theorem rdMirrorTlv (l : AsnLen) : Safe 2 (rdMirrorTlv l) := by
  refine rdU16.bind (m := 0) fun ty => .ite (fun _ => ?_) fun _ => .ite (fun _ => ?_) fun _ => fail (by decide) _
  · exact (rdU16.bind fun len => safe_needSplit _ fun b => (lift (NoPanic.runOn (parseBgpMessage_noPanic _ _) _)).bind fun _ => pure _).weaken (by omega)
  · refine (rdU16.bind fun len => rdU16.bind fun x => Safe.bind (n := 0) (m := 0) ?_ fun _ => pure _).weaken (by omega)
    unfold mirrorInfoOr
    exact .ite (fun _ => pure _) fun _ => .ite (fun _ => pure _) fun _ => fail (by decide) _

theorem rdStatCounter : Safe 4 rdStatCounter := by
  refine rdU16.bind fun ty => rdU16.bind (m := 0) fun len => ?_
  have : Safe 0 (Verif.needN len.toNat >>= fun _ => rdStatsData len) := by
    unfold rdStatsData
    by_cases h4 : len = 4
    · subst h4; exact (needN _).bind fun _ => (rdU32.bind (m := 0) fun _ => pure _).weaken (m := 0) (Nat.zero_le _)
    by_cases h8 : len = 8
    · subst h8; exact (needN _).bind fun _ => (rdU64.bind (m := 0) fun _ => pure _).weaken (m := 0) (Nat.zero_le _)
    by_cases h11 : len = 11
    · subst h11
      exact (needN _).bind fun _ => (rdU16.bind fun _ => rdU8.bind fun _ => rdU64.bind (m := 0) fun _ => pure _).weaken (m := 0) (Nat.zero_le _)
    simp only [h4, h8, h11, if_false]
    exact safe_needSplit _ fun _ => pure _
  have h := this.bind (m := 0) (f := fun d => (Pure.pure ⟨ty, len, d⟩ : Rd StatCounter)) fun _ => pure _
  rwa [Rd.bind_assoc] at h

theorem rdStatsReport : NoPanic rdStatsReport := .bind .rdU32 fun _ => .bind (.rdTimes rdStatCounter.noPanic _) fun _ => .pure _

theorem rdPeerDown : NoPanic rdPeerDown := by
  refine .bind .rdU8 fun b => ?_
  split
  · exact .fail (by decide)
  · exact .bind .peek fun _ => .pure _

theorem rdInitTlv : Safe 4 rdInitTlv := by
  refine rdU16.bind fun ty => rdU16.bind fun len => remaining.bind (m := 0) fun rem => .ite (fun _ => pure _) fun _ => ?_
  exact ((rdN _).bind fun _ => pure _).weaken (by omega)

theorem rdTermTlv : Safe 2 rdTermTlv := by
  refine rdU16.bind (m := 0) fun ty => .ite (fun _ => fail (by decide) _) fun _ => ?_
  refine (rdU16.bind fun len => remaining.bind (m := 0) fun rem => .ite (fun _ => pure _) fun _ => .ite (fun _ => ?_) fun _ => ?_).weaken (Nat.zero_le _)
  · exact ((rdN _).bind fun _ => pure _).weaken (by omega)
  · refine (rdU16.bind (m := 0) fun x => ?_).weaken (by omega)
    split
    · exact fail (by decide) _
    · exact pure _

theorem rdOpen (l : AsnLen) : Safe 0 (rdOpen l) := by
  constructor
  · intro s h
    unfold Verif.rdOpen at h
    by_cases hn : s.length < 19
    · rw [Rd.bind_error (show Verif.needN 19 s = .error .truncated by simp [Verif.needN, hn])] at h; cases h
    · rw [Rd.bind_ok (show Verif.needN 19 s = .ok ((), s) by simp [Verif.needN, hn])] at h
      have e16 : s[16]? = some s[16] := List.getElem?_eq_getElem (by omega)
      have e17 : s[17]? = some s[17] := List.getElem?_eq_getElem (by omega)
      rw [Rd.bind_ok (show peekBgpLen s = .ok (u16of s[16] s[17], s) by simp only [peekBgpLen, e16, e17])] at h
      exact (safe_needSplit _ (k := 0) fun b => lift (NoPanic.runOn (parseBgpMessage_noPanic _ _) _)).noPanic _ h
  · intro s a r h
    obtain ⟨c, rfl, _⟩ := (exact_rdOpen l _ _ _).mp h
    simp

theorem rdPeerUp (v6 : Bool) (l : AsnLen) : NoPanic (rdPeerUp v6 l) :=
  .bind (rdBmpAddr v6).noPanic fun _ => .bind .rdU16 fun _ => .bind .rdU16 fun _ => .bind (rdOpen l).noPanic fun _ =>
    .bind (rdOpen l).noPanic fun _ => .bind .peek fun s => .bind (.lift (Safe.whileGe (n := 4) (by
      exact rdU16.bind fun _ => rdU16.bind fun _ => ((rdN _).bind fun _ => pure _).weaken (Nat.zero_le _)) (by decide) (by decide) _)) fun _ => .pure _

end Safe

theorem parseInitiation_noPanic (s : Bytes) : parseInitiation s ≠ .error .panic :=
  whileSomeFuel_noPanic Safe.rdInitTlv (by decide) (fun s a r h => by have := Safe.rdInitTlv.prog _ _ _ h; omega) _ _ (Nat.le_refl _)

theorem parseTermination_noPanic (s : Bytes) : parseTermination s ≠ .error .panic :=
  whileSomeFuel_noPanic Safe.rdTermTlv (by decide) (fun s a r h => by have := Safe.rdTermTlv.prog _ _ _ h; omega) _ _ (Nat.le_refl _)

theorem rdContent_noPanic (t : BmpMsgType) : NoPanic (rdContent t) := by
  have hb : ∀ t h, NoPanic (rdPeerBody t h) := by
    intro t h
    cases t with
    | routeMonitoring => exact .bind (parseBgpMessage_noPanic _ _) fun _ => .pure _
    | routeMirroring => exact .bind .peek fun s => .bind (.lift ((Safe.rdMirrorTlv _).whileGe (by decide) (by decide) s)) fun _ => .pure _
    | statisticsReport => exact .bind Safe.rdStatsReport fun _ => .pure _
    | peerDown => exact .bind Safe.rdPeerDown fun _ => .pure _
    | _ => exact .bind (Safe.rdPeerUp _ _) fun _ => .pure _
  unfold rdContent
  split
  · exact .bind .peek fun s => .bind (.lift (parseInitiation_noPanic s)) fun _ => .pure _
  · exact .bind .peek fun s => .bind (.lift (parseTermination_noPanic s)) fun _ => .pure _
  · exact .bind Safe.rdPerPeerHeader.noPanic fun h => .bind (hb _ h) fun _ => .pure _

/-! ### OpenBMP -/

theorem flag_bit7 (f : UInt8) : (f &&& 0x80 = 0) ↔ f.toNat.testBit 7 = false := by
  have : ∀ n : Fin 256, (UInt8.ofNat n.val &&& 0x80 = 0) ↔ (UInt8.ofNat n.val).toNat.testBit 7 = false := by decide +kernel
  simpa using this ⟨f.toNat, f.toNat_lt⟩

theorem flag_bit6 (f : UInt8) : (f &&& 0x40 != 0) = f.toNat.testBit 6 := by
  have : ∀ n : Fin 256, (UInt8.ofNat n.val &&& 0x40 != 0) = (UInt8.ofNat n.val).toNat.testBit 6 := by decide +kernel
  simpa using this ⟨f.toNat, f.toNat_lt⟩

theorem exact_rdRouterIp (v6 : Bool) : Exact (rdRouterIp v6) (fun ip c => match ip with
    | .v6 a => v6 = true ∧ c = a.toList
    | .v4 a => v6 = false ∧ ∃ pad, pad.length = 12 ∧ c = a.toList ++ pad) := by
  cases v6
  · refine Exact.congr (p := rdRouterIp false) (.bind (.rdVec 4) fun a => .bind (.skipN 12) fun _ => .pure _) ?_
    intro ip c
    constructor
    · rintro ⟨a, _, _, rfl, rfl, _, pad, _, rfl, hp, rfl, rfl⟩
      exact ⟨rfl, pad, hp, by simp⟩
    · cases ip with
      | v6 a => rintro ⟨h, _⟩; cases h
      | v4 a => rintro ⟨_, pad, hp, rfl⟩; exact ⟨a, _, _, rfl, rfl, (), pad, [], by simp, hp, rfl, rfl⟩
  · refine Exact.congr (p := rdRouterIp true) (.bind (.rdVec 16) fun a => .pure _) ?_
    intro ip c
    constructor
    · rintro ⟨a, _, _, rfl, rfl, rfl, rfl⟩
      exact ⟨rfl, by simp⟩
    · cases ip with
      | v4 a => rintro ⟨h, _⟩; cases h
      | v6 a => rintro ⟨_, rfl⟩; exact ⟨a, _, [], by simp, rfl, rfl, rfl⟩

theorem exact_rdGroup : Exact rdGroup (fun g c => ∃ b : Bytes, b.length < 65536 ∧ g = latin1 b ∧ c = n16 b.length ++ b) := by
  refine Exact.congr (p := rdGroup) (.bind .rdU16 fun n => .ite (.pure _) (.bind (.rdN _) fun b => .pure _)) ?_
  intro g c
  constructor
  · rintro ⟨n, _, _, rfl, rfl, h⟩
    rcases h with ⟨rfl, rfl, rfl⟩ | ⟨_, b, _, _, rfl, ⟨rfl, hb⟩, rfl, rfl⟩
    · exact ⟨[], by simp, rfl, rfl⟩
    · refine ⟨_, by rw [hb]; exact n.toNat_lt, rfl, by simp [be16_n16, hb]⟩
  · rintro ⟨b, hb, rfl, rfl⟩
    have e := toNat_u16len (n := b.length) (by omega)
    refine ⟨UInt16.ofNat b.length, _, _, rfl, (n16_ofNat hb).symm, ?_⟩
    by_cases h0 : b = []
    · subst h0; exact Or.inl ⟨rfl, rfl, rfl⟩
    · refine Or.inr ⟨?_, b, b, [], by simp, ⟨rfl, e.symm⟩, rfl, rfl⟩
      intro h
      rw [h] at e
      exact h0 (List.length_eq_zero_iff.mp e.symm)

theorem latin1_eq_ascii {s t : Bytes} (ht : ∀ b ∈ t, b < 0x80) (h : latin1 s = t) : s = t := by
  induction s generalizing t with
  | nil => exact h
  | cons b s ih =>
    unfold latin1 at h ih
    rw [List.flatMap_cons] at h
    by_cases hb : b.toNat < 0x80
    · rw [if_pos hb] at h
      subst h
      exact congrArg (b :: ·) (ih (fun c hc => ht c (by simp at hc ⊢; exact Or.inr hc)) rfl)
    · rw [if_neg hb] at h
      subst h
      have h1 := ht (UInt8.ofNat (0xC0 + b.toNat / 64)) (by simp)
      have := b.toNat_lt
      rw [UInt8.lt_iff_toNat_lt] at h1
      simp at h1
      omega

theorem openBmp_magic {m : Bytes} (_ : m.length = 4) (h : latin1 m = [0x4F, 0x42, 0x4D, 0x50]) : m = [0x4F, 0x42, 0x4D, 0x50] :=
  latin1_eq_ascii (by decide) h

theorem exact_rdOpenBmpHeader : Exact rdOpenBmpHeader OpenBmpBytes := by
  refine Exact.congr (p := rdOpenBmpHeader) (.bind (.rdN 4) fun magic => .ite (.fail _) (.bind .rdU8 fun major => .bind .rdU8 fun minor => .ite (.fail _)
    (.bind .rdU16 fun hl => .bind .rdU32 fun ml => .bind .rdU8 fun flags => .ite (.fail _) (.bind .rdU8 fun ty => .ite (.fail _)
      (.bind .rdU32 fun sec => .bind .rdU32 fun usec => .bind (.skipN 16) fun _ => .bind .rdU16 fun n => .bind (.rdN _) fun admin =>
        .bind (.skipN 16) fun _ => .bind (exact_rdRouterIp _) fun ip => .bind exact_rdGroup fun g => .bind .rdU32 fun rows =>
          .ite (.fail _) (.pure _)))))) ?_
  intro h c
  constructor
  · rintro ⟨_, magic, _, rfl, ⟨rfl, hm4⟩, ⟨_, h⟩ | ⟨hm, h⟩⟩
    · cases h
    obtain ⟨major, _, _, rfl, rfl, minor, _, _, rfl, rfl, h⟩ := h
    rcases h with ⟨_, h⟩ | ⟨hv, h⟩
    · cases h
    obtain ⟨hl, _, _, rfl, rfl, ml, _, _, rfl, rfl, flags, _, _, rfl, rfl, h⟩ := h
    rcases h with ⟨_, h⟩ | ⟨hf, h⟩
    · cases h
    obtain ⟨ty, _, _, rfl, rfl, h⟩ := h
    rcases h with ⟨_, h⟩ | ⟨ht, h⟩
    · cases h
    obtain ⟨sec, _, _, rfl, rfl, usec, _, _, rfl, rfl, _, ch, _, rfl, hch, n, _, _, rfl, rfl, admin, _, _, rfl, ⟨rfl, hn⟩,
      _, rh, _, rfl, hrh, ip, ipb, _, rfl, hip, g, _, _, rfl, ⟨group, hg, rfl, rfl⟩, rows, _, _, rfl, rfl, h⟩ := h
    rcases h with ⟨_, h⟩ | ⟨hr, rfl, rfl⟩
    · cases h
    have hr := Decidable.not_not.mp hr
    have ht := Decidable.not_not.mp ht
    have hv := Decidable.not_not.mp hv
    have hm := Decidable.not_not.mp hm
    cases hv
    subst hr ht
    have hmag : magic = [0x4F, 0x42, 0x4D, 0x50] := openBmp_magic hm4 hm
    subst hmag
    rw [flag_bit7, Bool.not_eq_false] at hf
    rw [flag_bit6] at hip
    have := OpenBmpBytes.mk (hl := hl) (ml := ml) (sec := sec) (usec := usec) hf hch (by rw [hn]; exact n.toNat_lt) hrh hg hip
    simpa [be16_n16, be32_n32, hn] using this
  · intro h
    cases h with
    | mk hf hch had hrh hg hip =>
      rename_i hl ml flags sec usec ch admin rh ipb group ip
      have e := toNat_u16len (n := admin.length) (by omega)
      refine ⟨[0x4F, 0x42, 0x4D, 0x50], _, _, by simp only [List.append_assoc, List.cons_append, List.nil_append]; rfl, ⟨rfl, rfl⟩, Or.inr ⟨by decide, 1, _, _, rfl, rfl, 7, _, _, rfl, rfl, Or.inr ⟨by decide, 
        hl, _, _, rfl, (be16_n16 _).symm, ml, _, _, rfl, (be32_n32 _).symm, flags, _, _, rfl, rfl, Or.inr ⟨?_, 12, _, _, rfl, rfl, Or.inr ⟨by decide, 
        sec, _, _, rfl, (be32_n32 _).symm, usec, _, _, rfl, (be32_n32 _).symm, (), ch, _, rfl, hch, UInt16.ofNat admin.length, _, _, rfl, (n16_ofNat had).symm,
        admin, admin, _, rfl, ⟨rfl, e.symm⟩, (), rh, _, rfl, hrh, ip, ipb, _, rfl, ?_, latin1 group, _, _, rfl, ⟨group, hg, rfl, rfl⟩, 1, n32 1, [], by simp, rfl, Or.inr ⟨by decide, rfl, rfl⟩⟩⟩⟩⟩⟩
      · rw [flag_bit7, hf]; simp
      · rw [flag_bit6]; exact hip

theorem openBmp_noPanic : NoPanic rdOpenBmpHeader := by
  refine .bind (.rdN 4) fun magic => .ite (fun _ => .fail (by decide)) fun _ => .bind .rdU8 fun major => .bind .rdU8 fun minor =>
    .ite (fun _ => .fail (by decide)) fun _ => .bind .rdU16 fun hl => .bind .rdU32 fun ml => .bind .rdU8 fun flags =>
    .ite (fun _ => .fail (by decide)) fun _ => .bind .rdU8 fun ty => .ite (fun _ => .fail (by decide)) fun _ =>
    .bind .rdU32 fun sec => .bind .rdU32 fun usec => .bind (Safe.skipN 16).noPanic fun _ => .bind .rdU16 fun n => .bind (.rdN _) fun admin =>
    .bind (Safe.skipN 16).noPanic fun _ => .bind ?_ fun ip => .bind ?_ fun g => .bind .rdU32 fun rows =>
    .ite (fun _ => .fail (by decide)) fun _ => .pure _
  · unfold rdRouterIp
    exact .ite (fun _ => .bind (.rdVec 16) fun _ => .pure _) fun _ => .bind (.rdVec 4) fun _ => .bind (Safe.skipN 12).noPanic fun _ => .pure _
  · exact .bind .rdU16 fun n => .ite (fun _ => .pure _) fun _ => .bind (.rdN _) fun _ => .pure _

/-- only termination and mirroring messages have codes. -/
theorem content_codes (t : BmpMsgType) (ht : t ≠ .termination) (hm : t ≠ .routeMirroring) {s r : Bytes} {p : Option PerPeerHeader}
    {b : BmpBody} (h : rdContent t s = .ok ((p, b), r)) : CodesHaveLength2 b := by
  cases t with
  | termination => exact absurd rfl ht
  | routeMirroring => exact absurd rfl hm
  | initiation =>
    simp only [rdContent] at h
    rw [Rd.bind_eq_ok] at h; obtain ⟨_, _, _, h⟩ := h
    rw [Rd.bind_eq_ok] at h; obtain ⟨_, _, _, h⟩ := h
    cases h; trivial
  | _ =>
    simp only [rdContent, rdPeerBody] at h
    rw [Rd.bind_eq_ok] at h; obtain ⟨_, _, _, h⟩ := h
    rw [Rd.bind_eq_ok] at h; obtain ⟨_, _, h1, h⟩ := h
    rw [Rd.bind_eq_ok] at h1; obtain ⟨_, _, _, h1⟩ := h1
    cases h; cases h1; trivial

theorem whileSomeFuel_total {p : Rd (Option α)} {n : Nat} (hn : 0 < n)
    (hp : ∀ s, n ≤ s.length → ∃ o r, p s = .ok (o, r) ∧ r.length < s.length) :
    ∀ (fuel : Nat) (s : Bytes), s.length ≤ fuel → ∃ as, whileSomeFuel n p fuel s = .ok as := by
  intro fuel
  induction fuel with
  | zero => intro s hs; exact ⟨[], by rw [whileSomeFuel, if_pos (by omega)]⟩
  | succ fuel ih =>
    intro s hs
    rw [whileSomeFuel]
    split
    · exact ⟨[], rfl⟩
    · obtain ⟨o, r, h, hl⟩ := hp s (by omega)
      rw [h]
      cases o with
      | none => exact ⟨[], rfl⟩
      | some a =>
        obtain ⟨as, has⟩ := ih r (by omega)
        exact ⟨a :: as, by dsimp only; rw [has]⟩

theorem parseInitiation_total (s : Bytes) : ∃ ts, parseInitiation s = .ok ts := by
  refine whileSomeFuel_total (by decide) ?_ _ s (Nat.le_refl _)
  intro s hs
  match s, hs with
  | a :: b :: c :: d :: s, _ =>
    unfold rdInitTlv
    have h1 : rdU16 (a :: b :: c :: d :: s) = .ok (u16of a b, c :: d :: s) := rfl
    have h2 : rdU16 (c :: d :: s) = .ok (u16of c d, s) := rfl
    rw [Rd.bind_ok h1, Rd.bind_ok h2, Rd.bind_ok (Rd.remaining_apply _)]
    by_cases hl : s.length < (u16of c d).toNat
    · rw [if_pos hl]; exact ⟨none, s, rfl, by simp; omega⟩
    · rw [if_neg hl]
      have : rdN (u16of c d).toNat s = .ok (s.take (u16of c d).toNat, s.drop (u16of c d).toNat) := by
        have := rdN_append' (a := s.take (u16of c d).toNat) (n := (u16of c d).toNat) (by simp; omega) (s.drop (u16of c d).toNat)
        rwa [List.take_append_drop] at this
      rw [Rd.bind_ok this]
      exact ⟨_, _, rfl, by simp; omega⟩

end Verif
