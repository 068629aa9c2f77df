import Verif.Lemmas.RecoveryRead
/-
Candidates: the checks on a record, and reading one.
-/
namespace Verif
open Spec

theorem Raw.parses_iff (r : Raw) : r.parses = true ↔ ∃ m, r.parse = .ok m := by
  unfold Raw.parses
  cases r.parse <;> simp

theorem legacyPlausible_iff (subtype : UInt16) (n : Nat) : legacyPlausible subtype n = true ↔ LegacyLength subtype.toNat n := by
  have e : ∀ k : UInt16, (subtype = k) = (subtype.toNat = k.toNat) := fun k => by
    rw [← UInt16.toNat_inj]
  unfold legacyPlausible LegacyLength
  simp only [e]
  have h1 : (1 : UInt16).toNat = 1 := rfl
  have h3 : (3 : UInt16).toNat = 3 := rfl
  have h5 : (5 : UInt16).toNat = 5 := rfl
  have h6 : (6 : UInt16).toNat = 6 := rfl
  have h7 : (7 : UInt16).toNat = 7 := rfl
  rw [h1, h3, h5, h6, h7]
  repeat' split
  all_goals simp <;> omega

theorem split_at {d : Bytes} {n : Nat} (h : n ≤ d.length) : ∃ a b : Bytes, d = a ++ b ∧ a.length = n :=
  ⟨d.take n, d.drop n, (List.take_append_drop n d).symm, by rw [List.length_take]; omega⟩

theorem addrLenAt_append (a c : Bytes) (n : Nat) (h : a.length = n) : addrLenAt (a ++ c) n = addrLenAt c 0 := by
  unfold addrLenAt
  rw [List.drop_append_of_le_length (by omega), List.drop_eq_nil_iff.mpr (by omega)]
  simp

/-- The head of a BGP4MP body: what `addrLenAt` sees. -/
theorem peerHead_iff (d : Bytes) (l m : Nat) :
    (∃ a, addrLenAt d (2 * l + 2) = some a ∧ 2 * l + 4 + a * 2 + m = d.length) ↔
      ∃ p q : Bytes, q.length = m ∧ d = p ++ q ∧ PeerHead l p := by
  constructor
  · rintro ⟨a, h1, h2⟩
    obtain ⟨ases, r, rfl, h3⟩ := split_at (d := d) (n := 2 * l) (by omega)
    obtain ⟨iface, r, rfl, h4⟩ := split_at (d := r) (n := 2) (by simp at h2; omega)
    rw [← List.append_assoc, addrLenAt_append _ _ _ (by simp; omega)] at h1
    unfold addrLenAt at h1
    match r, h1 with
    | x :: y :: r, h1 =>
      simp only [List.drop_zero] at h1
      split at h1
      · next he =>
        cases h1
        obtain ⟨addrs, q, rfl, h5⟩ := split_at (d := r) (n := 8) (by simp at h2; omega)
        exact ⟨ases ++ iface ++ n16 1 ++ addrs, q, by simp at h2; omega, by simp [he, n16],
          ases, iface, addrs, h3, h4, .inl ⟨h5, rfl⟩⟩
      · split at h1
        · next he =>
          cases h1
          obtain ⟨addrs, q, rfl, h5⟩ := split_at (d := r) (n := 32) (by simp at h2; omega)
          exact ⟨ases ++ iface ++ n16 2 ++ addrs, q, by simp at h2; omega, by simp [he, n16],
            ases, iface, addrs, h3, h4, .inr ⟨h5, rfl⟩⟩
        · cases h1
  · rintro ⟨p, q, hq, rfl, ases, iface, addrs, h3, h4, h5⟩
    rcases h5 with ⟨h5, rfl⟩ | ⟨h5, rfl⟩
    · refine ⟨4, ?_, by simp [n16]; omega⟩
      rw [show ases ++ iface ++ n16 1 ++ addrs ++ q = (ases ++ iface) ++ (n16 1 ++ (addrs ++ q)) by simp,
        addrLenAt_append _ _ _ (by simp; omega)]
      rfl
    · refine ⟨16, ?_, by simp [n16]; omega⟩
      rw [show ases ++ iface ++ n16 2 ++ addrs ++ q = (ases ++ iface) ++ (n16 2 ++ (addrs ++ q)) by simp,
        addrLenAt_append _ _ _ (by simp; omega)]
      rfl

/-- The embedded BGP header. -/
theorem bgpHeaderFits_iff (p m : Bytes) (off : Nat) (hp : p.length = off) : bgpHeaderFits (p ++ m) off = true ↔ HeaderFitsBgp m := by
  have hd : (p ++ m).drop off = m := by
    rw [List.drop_append_of_le_length (by omega), List.drop_eq_nil_iff.mpr (by omega)]; rfl
  unfold bgpHeaderFits HeaderFitsBgp
  simp only [hd]
  constructor
  · intro h
    split at h
    · next a b ty heq =>
      simp only [Bool.and_eq_true, decide_eq_true_eq, beq_iff_eq, Bool.not_eq_true', Bool.or_eq_false_iff,
        decide_eq_false_iff_not] at h
      obtain ⟨⟨⟨⟨h1, h2⟩, h3⟩, h4⟩, h5⟩ := h
      have hlen : a.toNat * 256 + b.toNat = m.length := by simp at h4; omega
      have ha := a.toNat_lt
      have hb := b.toNat_lt
      refine ⟨ty, m.drop 19, by omega, ?_, ?_⟩
      · conv => lhs; rw [← List.take_append_drop 19 m, ← List.take_append_drop 16 (m.take 19), heq, h1]
        have : n16 m.length = [a, b] := by rw [← hlen]; exact n16_pair a b
        rw [this]
        simp
      · have : ty.toNat = 1 ∨ ty.toNat = 2 ∨ ty.toNat = 3 ∨ ty.toNat = 4 := by omega
        have e : ∀ k : UInt8, (ty = k) = (ty.toNat = k.toNat) := fun k => by rw [← UInt8.toNat_inj]
        simp only [e] at h5 ⊢
        have h1 : (1 : UInt8).toNat = 1 := rfl
        have h2 : (2 : UInt8).toNat = 2 := rfl
        have h3 : (3 : UInt8).toNat = 3 := rfl
        have h4 : (4 : UInt8).toNat = 4 := rfl
        rw [h1, h2, h3, h4] at h5 ⊢
        omega
    · cases h
  · rintro ⟨ty, rest, h1, h2, h3⟩
    have e1 : m.take 19 = List.replicate 16 0xFF ++ n16 m.length ++ [ty] := by
      conv => lhs; rw [h2]
      rw [List.take_append_of_le_length (by simp [n16]), List.take_of_length_le (by simp [n16])]
    have hl : m.length ≥ 19 := by rw [h2]; simp [n16]
    have e2 : (m.take 19).drop 16 = [UInt8.ofNat (m.length / 256), UInt8.ofNat m.length, ty] := by
      rw [e1]; rfl
    have e3 : (m.take 19).take 16 = List.replicate 16 0xFF := by rw [e1]; rfl
    have e4 : (UInt8.ofNat (m.length / 256)).toNat * 256 + (UInt8.ofNat m.length).toNat = m.length := by
      simp only [UInt8.toNat_ofNat']; omega
    rw [e2, e3]
    simp only [Bool.and_eq_true, decide_eq_true_eq, beq_iff_eq, Bool.not_eq_true', Bool.or_eq_false_iff,
        decide_eq_false_iff_not, e4]
    have e : ∀ k : UInt8, (ty = k) = (ty.toNat = k.toNat) := fun k => by rw [← UInt8.toNat_inj]
    simp only [e] at h3 ⊢
    have h1 : (1 : UInt8).toNat = 1 := rfl
    have h2 : (2 : UInt8).toNat = 2 := rfl
    have h3' : (3 : UInt8).toNat = 3 := rfl
    have h4 : (4 : UInt8).toNat = 4 := rfl
    rw [h1, h2, h3', h4] at h3 ⊢
    refine ⟨⟨⟨⟨trivial, by omega⟩, by omega⟩, by simp; omega⟩, by omega⟩

theorem mpType_message {x : UInt16} {t : MpType} (h : MpType.ofU16? x = some t) (ht : ¬ (t = .stateChange ∨ t = .stateChangeAs4)) :
    ∃ l ap, mpMessageType t = some (x.toNat, l, ap) ∧ asnPairLen t = 2 * l.bytes ∧
      ∀ d, usesZebraCompat x d = isShortZebraOpen d l := by
  have key : ∀ x : UInt16, ∀ t, MpType.ofU16? x = some t → ¬ (t = .stateChange ∨ t = .stateChangeAs4) →
      (∃ l ap, mpMessageType t = some (x.toNat, l, ap) ∧ asnPairLen t = 2 * l.bytes) ∧
      ((t = .message ∨ t = .messageLocal ∨ t = .messageAp ∨ t = .messageLocalAp) ∨
       (t = .messageAs4 ∨ t = .messageAs4Local ∨ t = .messageAs4Ap ∨ t = .messageLocalAs4Ap)) := by
    intro x t h ht
    unfold MpType.ofU16? at h
    repeat' split at h
    all_goals first
      | cases h; done
      | (cases h; subst_vars; simp at ht; done)
      | (cases h; subst_vars; exact ⟨⟨_, _, rfl, rfl⟩, by simp⟩)
  obtain ⟨⟨l, ap, h1, h2⟩, h3⟩ := key x t h ht
  refine ⟨l, ap, h1, h2, fun d => ?_⟩
  unfold usesZebraCompat
  rw [h]
  rcases h3 with (rfl | rfl | rfl | rfl) | (rfl | rfl | rfl | rfl) <;>
    simp only [mpMessageType, Option.some.injEq, Prod.mk.injEq] at h1 <;> obtain ⟨_, rfl, rfl⟩ := h1 <;>
    simp [isShortZebraOpen]

theorem mpType_state {x : UInt16} {t : MpType} (h : MpType.ofU16? x = some t) (ht : t = .stateChange ∨ t = .stateChangeAs4) :
    ∃ l, mpStateType t = some (x.toNat, l) ∧ asnPairLen t = 2 * l.bytes ∧
      ∀ d, usesZebraCompat x d = true ↔ l = .b16 ∧ d.length = 8 := by
  have key : (x = 0 ∧ t = .stateChange) ∨ (x = 5 ∧ t = .stateChangeAs4) := by
    unfold MpType.ofU16? at h
    repeat' split at h
    all_goals first
      | cases h; done
      | (cases h; simp at ht; done)
      | (cases h; subst_vars; simp)
  rcases key with ⟨rfl, rfl⟩ | ⟨rfl, rfl⟩
  · exact ⟨.b16, rfl, rfl, fun d => by simp [usesZebraCompat, MpType.ofU16?]⟩
  · exact ⟨.b32, rfl, rfl, fun d => by simp [usesZebraCompat, MpType.ofU16?]⟩

theorem mpMessage_ofU16 {x : UInt16} {t : MpType} {l : AsnLen} {ap : Bool} (h : mpMessageType t = some (x.toNat, l, ap)) :
    MpType.ofU16? x = some t ∧ ¬ (t = .stateChange ∨ t = .stateChangeAs4) := by
  cases t <;> simp only [mpMessageType, Option.some.injEq, Prod.mk.injEq, reduceCtorEq] at h <;>
    (obtain ⟨h, _, _⟩ := h
     have : x = UInt16.ofNat x.toNat := by simp
     rw [← h] at this
     subst this
     exact ⟨rfl, by simp⟩)

theorem mpState_ofU16 {x : UInt16} {t : MpType} {l : AsnLen} (h : mpStateType t = some (x.toNat, l)) :
    MpType.ofU16? x = some t ∧ (t = .stateChange ∨ t = .stateChangeAs4) := by
  cases t <;> simp only [mpStateType, Option.some.injEq, Prod.mk.injEq, reduceCtorEq] at h <;>
    (obtain ⟨h, _⟩ := h
     have : x = UInt16.ofNat x.toNat := by simp
     rw [← h] at this
     subst this
     exact ⟨rfl, by simp⟩)

theorem stateEvidence_iff (r : Raw) (e : Evidence) :
    (∃ t, MpType.ofU16? r.header.subtype = some t ∧ (t = .stateChange ∨ t = .stateChangeAs4) ∧ stateChangeEvidence r t = some e) ↔
      e = .bgp4MpStateChangeChain ∧ (∃ m, r.parse = .ok m) ∧ StateBody r.header.subtype.toNat r.body := by
  constructor
  · rintro ⟨t, h1, h2, h3⟩
    obtain ⟨l, g1, g2, g3⟩ := mpType_state h1 h2
    unfold stateChangeEvidence at h3
    simp only at h3
    obtain ⟨hs, he⟩ := Option.ite_none_right_eq_some.mp h3
    · cases he
      rw [Bool.and_eq_true, r.parses_iff] at hs
      refine ⟨rfl, hs.2, t, l, g1, ?_⟩
      have hs := hs.1
      split at hs
      · next hz => exact .inl ((g3 _).mp hz)
      · right
        split at hs
        · cases hs
        · next a ha =>
          obtain ⟨p, q, k1, k2, k3⟩ := (peerHead_iff r.body l.bytes 4).mp ⟨a, by rw [← g2]; exact ha, by
            have := eq_of_beq hs; omega⟩
          exact ⟨p, q, k1, k2, k3⟩
  · rintro ⟨rfl, hp, t, l, ht, hb⟩
    obtain ⟨h1, h2⟩ := mpState_ofU16 ht
    obtain ⟨l', g1, g2, g3⟩ := mpType_state h1 h2
    rw [ht] at g1
    cases g1
    refine ⟨t, h1, h2, ?_⟩
    unfold stateChangeEvidence
    simp only
    rw [if_pos]
    rw [Bool.and_eq_true, r.parses_iff]
    refine ⟨?_, hp⟩
    rcases hb with hb | ⟨p, q, k1, k2, k3⟩
    · rw [if_pos ((g3 _).mpr hb)]; exact beq_iff_eq.mpr hb.2
    · obtain ⟨a, ha, hl⟩ := (peerHead_iff r.body l.bytes 4).mpr ⟨p, q, k1, k2, k3⟩
      by_cases hz : usesZebraCompat r.header.subtype r.body = true
      · rw [if_pos hz]; exact beq_iff_eq.mpr ((g3 _).mp hz).2
      · rw [if_neg hz, g2, ha]
        simp only
        exact beq_iff_eq.mpr (by omega)

theorem markerEvidence_iff (r : Raw) (e : Evidence) :
    (∃ t, MpType.ofU16? r.header.subtype = some t ∧ ¬ (t = .stateChange ∨ t = .stateChangeAs4) ∧ ∃ off, markerOffset r t = some off ∧
      (if bgpHeaderFits r.body off && r.parses then some Evidence.bgpMarkerChain else none) = some e) ↔
      e = .bgpMarkerChain ∧ (∃ m, r.parse = .ok m) ∧ MessageBody r.header.subtype.toNat r.body := by
  constructor
  · rintro ⟨t, h1, h2, off, h3, h4⟩
    obtain ⟨l, ap, g1, g2, g3⟩ := mpType_message h1 h2
    split at h4
    · next hs =>
      cases h4
      rw [Bool.and_eq_true, r.parses_iff] at hs
      obtain ⟨hs, hp⟩ := hs
      have hoff : off ≤ r.body.length := by
        unfold bgpHeaderFits at hs
        simp only at hs
        split at hs
        · simp only [Bool.and_eq_true, decide_eq_true_eq] at hs; omega
        · cases hs
      obtain ⟨p, m, hpm, hlen⟩ := split_at hoff
      rw [hpm] at hs
      have hw := (bgpHeaderFits_iff p m off hlen).mp hs
      refine ⟨rfl, hp, t, l, ap, g1, p, m, hpm, hw, ?_⟩
      unfold markerOffset at h3
      rw [g3] at h3
      by_cases hz : isShortZebraOpen r.body l = true
      · rw [if_pos hz] at h3
        have hz' := (isShortZebraOpen_iff _ _).mp hz
        rw [if_pos hz']
        rw [hz'.1] at g2
        simp only [Option.some.injEq, AsnLen.bytes] at h3 g2
        omega
      · rw [if_neg hz] at h3
        rw [if_neg (fun h => hz ((isShortZebraOpen_iff _ _).mpr h))]
        split at h3
        · cases h3
        · next a ha =>
          cases h3
          have hl : r.body.length = p.length + m.length := by rw [hpm]; simp
          obtain ⟨p', q', k1, k2, k3⟩ := (peerHead_iff r.body l.bytes m.length).mp ⟨a, by rw [← g2]; exact ha, by omega⟩
          have : p' = p ∧ q' = m := List.append_inj' (by rw [← k2, hpm]) k1
          rw [← this.1]; exact k3
    · cases h4
  · rintro ⟨rfl, hp, t, l, ap, ht, p, m, hpm, hw, hh⟩
    obtain ⟨h1, h2⟩ := mpMessage_ofU16 ht
    obtain ⟨l', ap', g1, g2, g3⟩ := mpType_message h1 h2
    rw [ht] at g1
    cases g1
    refine ⟨t, h1, h2, ?_⟩
    have key : markerOffset r t = some p.length := by
      unfold markerOffset
      rw [g3]
      by_cases hz : l = .b16 ∧ ZebraOpen r.body
      · rw [if_pos ((isShortZebraOpen_iff _ _).mpr hz)]
        rw [if_pos hz] at hh
        rw [g2, hz.1, hh]; rfl
      · rw [if_neg (fun h => hz ((isShortZebraOpen_iff _ _).mp h))]
        rw [if_neg hz] at hh
        obtain ⟨a, ha, hl⟩ := (peerHead_iff r.body l.bytes m.length).mpr ⟨p, m, rfl, hpm, hh⟩
        rw [g2, ha]
        have hl' : r.body.length = p.length + m.length := by rw [hpm]; simp
        simp only [Option.some.injEq]
        omega
    refine ⟨_, key, ?_⟩
    rw [if_pos]
    rw [Bool.and_eq_true, r.parses_iff, hpm]
    exact ⟨(bgpHeaderFits_iff p m _ rfl).mpr hw, hp⟩

theorem strictEvidence_iff (r : Raw) (e : Evidence) : strictEvidence r = some e ↔
    (∃ m, r.parse = .ok m) ∧ (e = .bgpMarkerChain ∧ MessageBody r.header.subtype.toNat r.body ∨
      e = .bgp4MpStateChangeChain ∧ StateBody r.header.subtype.toNat r.body) := by
  have a := stateEvidence_iff r e
  have b := markerEvidence_iff r e
  constructor
  · intro h
    unfold strictEvidence at h
    cases ht : MpType.ofU16? r.header.subtype with
    | none => rw [ht] at h; cases h
    | some t =>
      rw [ht] at h
      simp only at h
      by_cases hs : t = .stateChange ∨ t = .stateChangeAs4
      · rw [if_pos hs] at h
        obtain ⟨k1, k2, k3⟩ := a.mp ⟨t, ht, hs, h⟩
        exact ⟨k2, .inr ⟨k1, k3⟩⟩
      · rw [if_neg hs] at h
        cases hm : markerOffset r t with
        | none => rw [hm] at h; cases h
        | some off =>
          rw [hm] at h
          obtain ⟨k1, k2, k3⟩ := b.mp ⟨t, ht, hs, off, hm, h⟩
          exact ⟨k2, .inl ⟨k1, k3⟩⟩
  · rintro ⟨hp, ⟨h1, h2⟩ | ⟨h1, h2⟩⟩
    · obtain ⟨t, ht, hs, off, hm, h⟩ := b.mpr ⟨h1, hp, h2⟩
      unfold strictEvidence
      rw [ht]
      simp only
      rw [if_neg hs, hm]
      exact h
    · obtain ⟨t, ht, hs, h⟩ := a.mpr ⟨h1, hp, h2⟩
      unfold strictEvidence
      rw [ht]
      simp only
      rw [if_pos hs]
      exact h

theorem subtype_known {x : UInt16} {d : Bytes} (h : MessageBody x.toNat d ∨ StateBody x.toNat d) : (MpType.ofU16? x).isSome := by
  rcases h with ⟨t, l, ap, h, _⟩ | ⟨t, l, h, _⟩
  · rw [(mpMessage_ofU16 h).1]; rfl
  · rw [(mpState_ofU16 h).1]; rfl

/-- All the checks on a candidate. -/
theorem plausible_iff (f : StreamFamily) (e : Evidence) (r : Raw) (hb : HeaderBytes r.header r.headerBytes)
    (hl : r.body.length = r.header.length.toNat) :
    (headerFamily r.header = some f ∧ microsTooBig r.header = false ∧ candidateEvidence f r = some e) ↔ PlausibleAs f e r := by
  have hmicro : microsTooBig r.header = false ↔ ∀ m, r.header.micro = some m → m.toNat < 1000000 := by
    unfold microsTooBig
    cases r.header.micro with
    | none => simp
    | some m => simp
  rw [hmicro]
  cases f with
  | legacy =>
    constructor
    · rintro ⟨h1, h2, h3⟩
      have ht : r.header.type = .bgp ∧ legacyPlausible r.header.subtype r.header.length.toNat = true := by
        unfold headerFamily at h1
        split at h1
        · next ht => split at h1 <;> simp_all
        · split at h1 <;> simp at h1
        · split at h1 <;> simp at h1
        · cases h1
      simp only [candidateEvidence] at h3
      split at h3
      · next hp =>
        cases h3
        exact ⟨(r.parses_iff).mp hp, ht.1, by rw [hl]; exact (legacyPlausible_iff _ _).mp ht.2⟩
      · cases h3
    · rintro ⟨hp, h⟩
      cases e <;> simp only at h
      obtain ⟨ht, hlen⟩ := h
      rw [hl] at hlen
      refine ⟨?_, ?_, ?_⟩
      · unfold headerFamily
        rw [ht]
        simp only
        rw [if_pos ((legacyPlausible_iff _ _).mpr hlen)]
      · intro m hm
        unfold HeaderBytes at hb
        rw [hm] at hb
        rw [ht] at hb
        cases hb.1
      · simp only [candidateEvidence]
        rw [if_pos ((r.parses_iff).mpr hp)]
  | bgp4Mp =>
    simp only [candidateEvidence, strictEvidence_iff]
    have hfam : headerFamily r.header = some .bgp4Mp ↔ (r.header.type = .bgp4mp ∨ r.header.type = .bgp4mpEt) ∧
        (MpType.ofU16? r.header.subtype).isSome ∧ r.header.length.toNat ≤ 65599 := by
      unfold headerFamily
      cases ht : r.header.type <;> simp <;> split <;> simp_all
    rw [hfam, ← hl]
    constructor
    · rintro ⟨⟨h1, h2, h3⟩, h4, hp, ⟨rfl, h5⟩ | ⟨rfl, h5⟩⟩
      · exact ⟨hp, h1, h3, h4, h5⟩
      · exact ⟨hp, h1, h3, h4, h5⟩
    · rintro ⟨hp, h⟩
      cases e <;> simp only at h
      · obtain ⟨h1, h3, h4, h5⟩ := h
        exact ⟨⟨h1, subtype_known (.inl h5), h3⟩, h4, hp, .inl ⟨rfl, h5⟩⟩
      · obtain ⟨h1, h3, h4, h5⟩ := h
        exact ⟨⟨h1, subtype_known (.inr h5), h3⟩, h4, hp, .inr ⟨rfl, h5⟩⟩

theorem plausible_type {f : StreamFamily} {e : Evidence} {r : Raw} (h : PlausibleAs f e r) :
    r.header.type ≠ .tableDump ∧ (r.header.type = .bgp ∨ r.header.type = .bgp4mp ∨ r.header.type = .bgp4mpEt) ∧
      r.body.length ≤ 65599 := by
  obtain ⟨_, h⟩ := h
  cases f <;> cases e <;> simp only at h
  · obtain ⟨h1, h2⟩ := h
    refine ⟨by rw [h1]; simp, .inl h1, ?_⟩
    unfold LegacyLength at h2
    omega
  · exact ⟨by rcases h.1 with h | h <;> rw [h] <;> simp, .inr h.1, h.2.1⟩
  · exact ⟨by rcases h.1 with h | h <;> rw [h] <;> simp, .inr h.1, h.2.1⟩

theorem frame_plain {r : Raw} {b : Bytes} (ht : r.header.type ≠ .tableDump) (hl : r.body.length ≤ 65599) :
    Frame r b ↔ HeaderBytes r.header r.headerBytes ∧ b = r.headerBytes ++ r.body ∧ r.body.length = r.header.length.toNat := by
  unfold Frame
  rw [if_neg (fun h => ht h.1)]
  constructor
  · rintro ⟨h1, h2, h3, h4⟩; exact ⟨h1, h3, h4⟩
  · rintro ⟨h1, h3, h4⟩; exact ⟨h1, by omega, h3, h4⟩

/-! ### reading a candidate -/

/-- `readCandidate` on a delivery. -/
def candT (k : Option Bool) (t : List Tok) : Except ScanErr (Option (StreamFamily × Evidence)) × List Tok :=
  match headerT k t with
  | (_, .error e, t) => (if isNonEofIo e then .error (.io false) else .ok none, t)
  | (_, .ok (h, hb), t) =>
    match headerFamily h with
    | none => (.ok none, t)
    | some f =>
      if microsTooBig h then (.ok none, t)
      else
        match takeT k h.length.toNat t with
        | (_, .failed k, t) => (.error (.io k), t)
        | (b, _, t) =>
          if b.length ≠ h.length.toNat then (.ok none, t)
          else
            match candidateEvidence f ⟨h, hb, b⟩ with
            | none => (.ok none, t)
            | some e => (.ok (some (f, e)), t)

theorem readCandidate_eqG [LReader ρ] (pol : Pol) (s : ρ) :
    ∃ s', readCandidate pol s = ((candT (stk s) (del s)).1, s') ∧ del s' = (candT (stk s) (del s)).2 ∧ stk s' = stk s := by
  obtain ⟨s1, h1, h2, h3⟩ := parseHeader_eqG s
  unfold readCandidate candT
  rw [h1]
  generalize headerT (stk s) (del s) = x0 at h2 ⊢
  obtain ⟨cap, x, t⟩ := x0
  simp only at h2 ⊢
  cases x with
  | error e => exact ⟨s1, rfl, h2, h3⟩
  | ok v =>
    obtain ⟨h, hb⟩ := v
    simp only
    cases headerFamily h with
    | none => exact ⟨s1, rfl, h2, h3⟩
    | some f =>
      simp only
      cases microsTooBig h with
      | true => exact ⟨s1, rfl, h2, h3⟩
      | false =>
        rw [if_neg (by simp), if_neg (by simp)]
        obtain ⟨s2, g1, g2, g3⟩ := readUpTo_eqG pol h.length.toNat s1
        rw [g1]
        rw [h2, h3] at g2 ⊢
        rw [h3] at g3
        generalize takeT (stk s) h.length.toNat t = x0 at g2 ⊢
        obtain ⟨b, st, t'⟩ := x0
        simp only at g2 ⊢
        have key : ∃ s', (if b.length ≠ h.length.toNat then ((.ok none, s2) : Except ScanErr (Option (StreamFamily × Evidence)) × ρ)
            else match candidateEvidence f ⟨h, hb, b⟩ with
              | none => (.ok none, s2)
              | some e => (.ok (some (f, e)), s2)) =
          ((if b.length ≠ h.length.toNat then ((.ok none, t') : Except ScanErr (Option (StreamFamily × Evidence)) × List Tok)
            else match candidateEvidence f ⟨h, hb, b⟩ with
              | none => (.ok none, t')
              | some e => (.ok (some (f, e)), t')).1, s') ∧ del s' =
          (if b.length ≠ h.length.toNat then ((.ok none, t') : Except ScanErr (Option (StreamFamily × Evidence)) × List Tok)
            else match candidateEvidence f ⟨h, hb, b⟩ with
              | none => (.ok none, t')
              | some e => (.ok (some (f, e)), t')).2 ∧ stk s' = stk s := by
          by_cases hl : b.length ≠ h.length.toNat
          · rw [if_pos hl, if_pos hl]; exact ⟨s2, rfl, g2, g3⟩
          · rw [if_neg hl, if_neg hl]
            cases candidateEvidence f ⟨h, hb, b⟩ <;> exact ⟨s2, rfl, g2, g3⟩
        cases st with
        | failed z => exact ⟨s2, rfl, g2, g3⟩
        | full => exact key
        | short => exact key

theorem candT_some {k : Option Bool} {t t' : List Tok} {f : StreamFamily} {e : Evidence}
    (h : candT k t = (.ok (some (f, e)), t')) : ∃ r b, Frame r b ∧ PlausibleAs f e r ∧ t = byteToks b ++ t' := by
  unfold candT at h
  cases hh : headerT k t with
  | mk cap x =>
    obtain ⟨x, t1⟩ := x
    rw [hh] at h
    cases x with
    | error er =>
      simp only [Prod.mk.injEq] at h
      split at h <;> simp at h
    | ok v =>
      obtain ⟨hd, hb⟩ := v
      obtain ⟨rfl, hbytes, ht⟩ := headerT_ok hh
      simp only at h
      cases hf : headerFamily hd with
      | none => rw [hf] at h; simp at h
      | some f' =>
        rw [hf] at h
        simp only at h
        cases hm : microsTooBig hd with
        | true => rw [hm] at h; simp at h
        | false =>
          rw [hm, if_neg (by simp)] at h
          have a := takeT_stop k hd.length.toNat t1
          generalize takeT k hd.length.toNat t1 = x1 at h a
          obtain ⟨b, st, t2⟩ := x1
          simp only at a
          have : b.length = hd.length.toNat ∧ t1 = byteToks b ++ t2 ∧
              (match candidateEvidence f' ⟨hd, cap, b⟩ with
              | none => ((.ok none, t2) : Except ScanErr (Option (StreamFamily × Evidence)) × List Tok)
              | some e => (.ok (some (f', e)), t2)) = (.ok (some (f, e)), t') := by
            rcases a with ⟨rfl, g2, g3⟩ | ⟨e', g1, g2, g3⟩
            · simp only at h
              rw [if_neg (by simp [g3])] at h
              exact ⟨g3, g2, h⟩
            · cases st with
              | full => exact absurd rfl g2.ne_full
              | short => simp only at h; rw [if_pos (by simp; omega)] at h; simp at h
              | failed z => simp at h
          obtain ⟨g1, g2, g3⟩ := this
          cases hc : candidateEvidence f' ⟨hd, cap, b⟩ with
          | none => rw [hc] at g3; simp at g3
          | some e' =>
            rw [hc] at g3
            simp only [Prod.mk.injEq, Except.ok.injEq, Option.some.injEq] at g3
            obtain ⟨⟨rfl, rfl⟩, rfl⟩ := g3
            have hp := (plausible_iff f' e' ⟨hd, cap, b⟩ hbytes g1).mp ⟨hf, hm, hc⟩
            refine ⟨⟨hd, cap, b⟩, cap ++ b, (frame_plain (plausible_type hp).1 (plausible_type hp).2.2).mpr ⟨hbytes, rfl, g1⟩, hp, ?_⟩
            rw [byteToks_append, List.append_assoc, ht, g2]

theorem candT_complete (k : Option Bool) {t' : List Tok} {f : StreamFamily} {e : Evidence} {r : Raw} {b : Bytes}
    (hf : Frame r b) (hp : PlausibleAs f e r) : candT k (byteToks b ++ t') = (.ok (some (f, e)), t') := by
  obtain ⟨h1, rfl, h2⟩ := (frame_plain (plausible_type hp).1 (plausible_type hp).2.2).mp hf
  obtain ⟨g1, g2, g3⟩ := (plausible_iff f e r h1 h2).mpr hp
  unfold candT
  rw [byteToks_append, List.append_assoc, headerT_complete k h1]
  simp only
  rw [g1]
  simp only
  rw [g2, if_neg (by simp), takeT_full' k _ _ _ h2]
  simp only
  rw [if_neg (by simp [h2])]
  have : (⟨r.header, r.headerBytes, r.body⟩ : Raw) = r := rfl
  rw [this, g3]

theorem ends_none {t : Bytes} {c : Bytes} {e t' : List Tok} {st : Stop} (h : byteToks t = byteToks c ++ (e ++ t')) (he : Ends none e t' st) :
    st = .short := by
  rcases he with ⟨_, _, h1⟩ | ⟨rfl, h1⟩ | ⟨z, rfl, h1⟩
  · exact h1
  · exact h1
  · have : Tok.fail z ∈ byteToks t := by rw [h]; simp
    simp [byteToks] at this

/-- on the bytes of a file there are no I/O errors. -/
theorem candT_file (d : Bytes) : ∃ x t, candT none (byteToks d) = (.ok x, t) := by
  unfold candT
  cases hh : headerT none (byteToks d) with
  | mk cap x =>
    obtain ⟨x, t1⟩ := x
    cases x with
    | error er =>
      rcases headerT_error hh with ⟨rfl, _, _⟩ | ⟨e, st, h1, h2, h3, _⟩
      · exact ⟨_, _, rfl⟩
      · rw [ends_none h1 h3] at h2
        subst h2
        exact ⟨_, _, rfl⟩
    | ok v =>
      obtain ⟨hd, hb⟩ := v
      obtain ⟨rfl, hbytes, ht⟩ := headerT_ok hh
      simp only
      cases headerFamily hd with
      | none => exact ⟨_, _, rfl⟩
      | some f' =>
        simp only
        split
        · exact ⟨_, _, rfl⟩
        · have a := takeT_stop none hd.length.toNat t1
          obtain ⟨rest, _, rfl⟩ := byteToks_split ht
          generalize takeT none hd.length.toNat (byteToks rest) = x1 at a
          obtain ⟨b, st, t2⟩ := x1
          simp only at a
          have : ∃ x t, (if b.length ≠ hd.length.toNat then ((.ok none, t2) : Except ScanErr (Option (StreamFamily × Evidence)) × List Tok)
            else match candidateEvidence f' ⟨hd, cap, b⟩ with
              | none => (.ok none, t2)
              | some e => (.ok (some (f', e)), t2)) = (.ok x, t) := by
            split
            · exact ⟨_, _, rfl⟩
            · split <;> exact ⟨_, _, rfl⟩
          rcases a with ⟨rfl, g2, g3⟩ | ⟨e', g1, g2, g3⟩
          · exact this
          · rw [ends_none g1 g2]
            exact this

end Verif
