import Verif.Lemmas.DissectMsg
/-
MRT records: the dissector shows what the description says.
-/
namespace Verif
open Spec

/-- the AS number width of a BGP4MP subtype -/
def mpAsnLen (sub : Nat) : AsnLen := if mpFour sub then .b32 else .b16

theorem mpAsnLen_octets (sub : Nat) : (mpAsnLen sub).octets = mpAsnSize sub := by
  unfold mpAsnLen mpAsnSize; split <;> rfl

theorem mpFour_iff (sub : Nat) : (sub = 4 ∨ sub = 5 ∨ sub = 7 ∨ sub = 9 ∨ sub = 11) ↔ mpFour sub = true := by simp [mpFour]
theorem mpAddPath_iff (sub : Nat) : decide (8 ≤ sub ∧ sub ≤ 11) = mpAddPath sub := by
  rw [Bool.eq_iff_iff]
  simp [mpAddPath]
  omega
theorem mpState_iff (sub : Nat) : (¬ (sub = 0 ∨ sub = 5)) ↔ mpState sub = false := by simp [mpState]

theorem marker_iff (b : Bytes) : (16 ≤ b.length ∧ (b.take 16).all (· == 0xFF) = true) ↔ startsWithMarker b := by
  constructor
  · rintro ⟨h1, h2⟩
    refine ⟨b.drop 16, ?_⟩
    have : b.take 16 = List.replicate 16 0xFF := by
      rw [List.eq_replicate_iff]
      refine ⟨by simp; omega, ?_⟩
      intro x hx
      have := List.all_eq_true.1 h2 x hx
      simpa using this
    rw [← this, List.take_append_drop]
  · rintro ⟨t, rfl⟩
    refine ⟨by simp, ?_⟩
    rw [List.take_left' (by simp)]
    decide

theorem afi_size {afi size : Nat} (h : (afi, size) ∈ [(1, 4), (2, 16)]) :
    afi < 65536 ∧ (afi = 1 ∨ afi = 2) ∧ size = (if afi = 1 then 4 else 16) := by
  simp at h
  rcases h with ⟨rfl, rfl⟩ | ⟨rfl, rfl⟩ <;> simp

/-- what follows the addresses -/
inductive MpEnd (sub : Nat) : List Part → Prop where
  | message (m : Part) : mpState sub = false → BgpPart (mpAsnSize sub) (mpAddPath sub) m → MpEnd sub [m]
  | cutState (b : Bytes) : mpState sub = true → b.length < 4 → MpEnd sub [leaf "mrt.bgp4mp.truncated" b]
  | state (old new b : Bytes) : mpState sub = true → old.length = 2 → new.length = 2 →
      MpEnd sub [leaf "mrt.bgp4mp.old_state" old, leaf "mrt.bgp4mp.new_state" new, .gap b]

theorem stateNodes_ok {base pos : Nat} (h : base + pos + 4 < 4294967296) :
    stateNodes base pos = some [.mk "mrt.bgp4mp.old_state" (base + pos) 2 [], .mk "mrt.bgp4mp.new_state" (base + pos + 2) 2 []] := by
  unfold stateNodes
  rw [mkNode_ok (by omega) (by omega), mkNode_ok (by omega) (by omega)]
  rfl

theorem walkMpAddresses_full {d : Bytes} {base : Nat} (pre i : Bytes) {afi size : Nat} (p q rest : Bytes)
    (hi : i.length = 2) (ha : (afi, size) ∈ [(1, 4), (2, 16)]) (hp : p.length = size) (hq : q.length = size)
    (hd : d = pre ++ (i ++ (n16 afi ++ (p ++ (q ++ rest))))) (hb : base + d.length < 4294967296) :
    walkMpAddresses d base pre.length = some ([.mk "mrt.bgp4mp.interface_index" (base + pre.length) 2 [],
      .mk "mrt.bgp4mp.afi" (base + pre.length + 2) 2 [], .mk "mrt.bgp4mp.peer_ip" (base + pre.length + 4) size [],
      .mk "mrt.bgp4mp.local_ip" (base + pre.length + 4 + size) size []], some (pre.length + 4 + size + size)) := by
  obtain ⟨h1, h2, h3⟩ := afi_size ha
  have hlen : d.length = pre.length + 4 + size + size + rest.length := by rw [hd]; simp; omega
  have hg : getU16 d (pre.length + 2) = some afi := by
    rw [hd, ← List.append_assoc, show pre.length + 2 = (pre ++ i).length + 0 by simp; omega, getU16_pre, getU16_n16 h1]
  have hs1 : subslice d (pre.length + 4) (pre.length + 4 + size) = some p := by
    rw [hd, show pre ++ (i ++ (n16 afi ++ (p ++ (q ++ rest)))) = (pre ++ i ++ n16 afi) ++ (p ++ (q ++ rest)) by simp]
    exact subslice_mid _ _ _ (by simp; omega) (by simp; omega)
  have hs2 : subslice d (pre.length + 4 + size) (pre.length + 4 + size + size) = some q := by
    rw [hd, show pre ++ (i ++ (n16 afi ++ (p ++ (q ++ rest)))) = (pre ++ i ++ n16 afi ++ p) ++ (q ++ rest) by simp]
    exact subslice_mid _ _ _ (by simp; omega) (by simp; omega)
  unfold walkMpAddresses
  rw [if_neg (by omega), hg]
  simp only [Option.getD_some]
  rw [mkNode_ok (by omega) (by omega), mkNode_ok (by omega) (by omega)]
  simp only [Option.bind_eq_bind, Option.bind_some]
  rw [if_neg (by omega), ← h3]
  rw [if_neg (by omega), hs1, hs2, mkNode_ok (by omega) (by omega), mkNode_ok (by omega) (by omega)]
  simp [Nat.add_assoc]

theorem walkMpAddresses_cut {d : Bytes} {base : Nat} (pre i : Bytes) {afi size : Nat} (b : Bytes)
    (hi : i.length = 2) (ha : (afi, size) ∈ [(1, 4), (2, 16)]) (hl : b.length < 2 * size)
    (hd : d = pre ++ (i ++ (n16 afi ++ b))) (hb : base + d.length < 4294967296) :
    walkMpAddresses d base pre.length = some ([.mk "mrt.bgp4mp.interface_index" (base + pre.length) 2 [],
      .mk "mrt.bgp4mp.afi" (base + pre.length + 2) 2 [], .mk "mrt.bgp4mp.truncated" (base + pre.length + 4) b.length []], none) := by
  obtain ⟨h1, h2, h3⟩ := afi_size ha
  have hlen : d.length = pre.length + 4 + b.length := by rw [hd]; simp; omega
  have hg : getU16 d (pre.length + 2) = some afi := by
    rw [hd, ← List.append_assoc, show pre.length + 2 = (pre ++ i).length + 0 by simp; omega, getU16_pre, getU16_n16 h1]
  unfold walkMpAddresses
  rw [if_neg (by omega), hg]
  simp only [Option.getD_some]
  rw [mkNode_ok (by omega) (by omega), mkNode_ok (by omega) (by omega)]
  simp only [Option.bind_eq_bind, Option.bind_some]
  rw [if_neg (by omega), ← h3]
  rw [if_pos (by omega), usub_ok (by omega)]
  simp only [Option.bind_some]
  rw [mkNode_ok (by omega) (by omega)]
  simp [Nat.add_assoc]
  omega

theorem walkMpAddresses_unknown {d : Bytes} {base : Nat} (pre i : Bytes) {afi : Nat} (b : Bytes)
    (hi : i.length = 2) (h0 : afi < 65536) (h1 : afi ≠ 1) (h2 : afi ≠ 2)
    (hd : d = pre ++ (i ++ (n16 afi ++ b))) (hb : base + d.length < 4294967296) :
    walkMpAddresses d base pre.length = some ([.mk "mrt.bgp4mp.interface_index" (base + pre.length) 2 [],
      .mk "mrt.bgp4mp.afi" (base + pre.length + 2) 2 [], .mk "mrt.bgp4mp.addresses" (base + pre.length + 4) b.length []], none) := by
  have hlen : d.length = pre.length + 4 + b.length := by rw [hd]; simp; omega
  have hg : getU16 d (pre.length + 2) = some afi := by
    rw [hd, ← List.append_assoc, show pre.length + 2 = (pre ++ i).length + 0 by simp; omega, getU16_pre, getU16_n16 h0]
  unfold walkMpAddresses
  rw [if_neg (by omega), hg]
  simp only [Option.getD_some]
  rw [mkNode_ok (by omega) (by omega), mkNode_ok (by omega) (by omega)]
  simp only [Option.bind_eq_bind, Option.bind_some]
  rw [if_pos ⟨h1, h2⟩, usub_ok (by omega)]
  simp only [Option.bind_some]
  rw [mkNode_ok (by omega) (by omega)]
  simp [Nat.add_assoc]
  omega

theorem walkMpAddresses_short {d : Bytes} {base : Nat} (pre b : Bytes) (hl : b.length < 4)
    (hd : d = pre ++ b) (hb : base + d.length < 4294967296) :
    walkMpAddresses d base pre.length = some ([.mk "mrt.bgp4mp.truncated" (base + pre.length) b.length []], none) := by
  have hlen : d.length = pre.length + b.length := by rw [hd]; simp
  unfold walkMpAddresses
  rw [if_pos (by omega), usub_ok (by omega)]
  simp only [Option.bind_eq_bind, Option.bind_some]
  rw [mkNode_ok (by omega) (by omega)]
  simp
  omega

/-- the message or the states after the addresses -/
def mpEndFields (d : Bytes) (base sub : Nat) (pos : Nat) : Option (List Node) :=
  if mpState sub = false then do
    let b ← subslice d pos d.length
    let m ← dissectBgpBase b (base + pos) (mpAsnLen sub) (mpAddPath sub)
    return [m]
  else if d.length < pos + 4 then do
    let len ← usub d.length pos
    let t ← mkNode "mrt.bgp4mp.truncated" (base + pos) len []
    return [t]
  else stateNodes base pos

theorem mpEnd_parts {sub : Nat} {ps : List Part} (h : MpEnd sub ps) (base : Nat) (pre : Bytes)
    (hb : base + (pre ++ partsBytes ps).length < 4294967296) :
    mpEndFields (pre ++ partsBytes ps) base sub pre.length = some (partsNodes (base + pre.length) ps) := by
  unfold mpEndFields
  cases h with
  | message m hs hm =>
    simp at hb
    rw [if_pos hs]
    have hsl : subslice (pre ++ partsBytes [m]) pre.length (pre ++ partsBytes [m]).length = some m.bytes := by
      have := subslice_mid pre m.bytes [] (i := pre.length) (j := (pre ++ partsBytes [m]).length) rfl (by simp)
      simpa using this
    rw [hsl]
    rw [← mpAsnLen_octets] at hm
    have := dissectBgpBase_part hm (base + pre.length) (by omega)
    simp only [Option.bind_eq_bind, Option.bind_some]
    cases hn : dissectBgpBase m.bytes (base + pre.length) (mpAsnLen sub) (mpAddPath sub) with
    | none => rw [hn] at this; cases this
    | some n =>
      rw [hn] at this
      simp at this ⊢
      exact this
  | cutState b hs hl =>
    simp at hb
    rw [if_neg (by simp [hs]), if_pos (by simp; omega), usub_ok (by simp)]
    simp only [Option.bind_eq_bind, Option.bind_some]
    rw [mkNode_ok (by omega) (by simp; omega)]
    simp
  | state old new b hs ho hn =>
    simp at hb
    rw [if_neg (by simp [hs]), if_neg (by simp; omega), stateNodes_ok (by omega)]
    simp [ho, hn]

theorem dissectMpFields_eq (d : Bytes) (base sub : Nat) :
    dissectMpFields d base sub = (
      if d.length < 2 * mpAsnSize sub then (mkNode "mrt.bgp4mp.truncated" base d.length []).map ([·])
      else do
        let p ← mkNode "mrt.bgp4mp.peer_asn" base (mpAsnSize sub) []
        let q ← mkNode "mrt.bgp4mp.local_asn" (base + mpAsnSize sub) (mpAsnSize sub) []
        let rest ← subslice d (mpAsnSize sub + mpAsnSize sub) d.length
        if 16 ≤ rest.length ∧ (rest.take 16).all (· == 0xFF) then do
          let z ← mkNode "mrt.bgp4mp.zebra_compat" (base + (mpAsnSize sub + mpAsnSize sub)) 0 []
          let m ← dissectBgpBase rest (base + (mpAsnSize sub + mpAsnSize sub)) (mpAsnLen sub) (mpAddPath sub)
          return [p, q, z, m]
        else if sub = 0 ∧ d.length = 8 then do
          let s ← stateNodes base (mpAsnSize sub + mpAsnSize sub)
          return [p, q] ++ s
        else do
          let (ns, after) ← walkMpAddresses d base (mpAsnSize sub + mpAsnSize sub)
          match after with
          | none => return [p, q] ++ ns
          | some pos => do
            let s ← mpEndFields d base sub pos
            return [p, q] ++ ns ++ s) := by
  have hsize : (if sub = 4 ∨ sub = 5 ∨ sub = 7 ∨ sub = 9 ∨ sub = 11 then 4 else 2) = mpAsnSize sub := by
    unfold mpAsnSize; simp only [mpFour_iff]
  have hl : (if sub = 4 ∨ sub = 5 ∨ sub = 7 ∨ sub = 9 ∨ sub = 11 then AsnLen.b32 else AsnLen.b16) = mpAsnLen sub := by
    unfold mpAsnLen; simp only [mpFour_iff]
  have hz : (¬ ¬ (sub = 0 ∨ sub = 5) ∧ mpAsnSize sub = 2 ∧ d.length = 8) ↔ sub = 0 ∧ d.length = 8 := by
    rw [Classical.not_not]
    constructor
    · rintro ⟨rfl | rfl, h1, h2⟩
      · exact ⟨rfl, h2⟩
      · exact absurd h1 (by decide)
    · rintro ⟨rfl, h⟩
      exact ⟨Or.inl rfl, by decide, h⟩
  unfold dissectMpFields
  simp only [hsize, hl, mpAddPath_iff, hz]
  split
  · rfl
  · congr 1; funext p
    congr 1; funext q
    congr 1; funext rest
    split
    · rfl
    · split
      · rfl
      · congr 1; funext r
        obtain ⟨ns, after⟩ := r
        cases after with
        | none => rfl
        | some pos =>
          simp only [mpEndFields, mpState_iff]
          split
          · cases subslice d pos d.length with
            | none => rfl
            | some b =>
              simp only [Option.bind_eq_bind, Option.bind_some]
              cases dissectBgpBase b (base + pos) (mpAsnLen sub) (mpAddPath sub) <;> rfl
          · split
            · cases usub d.length pos with
              | none => rfl
              | some len =>
                simp only [Option.bind_eq_bind, Option.bind_some]
                cases mkNode "mrt.bgp4mp.truncated" (base + pos) len [] <;> rfl
            · rfl

/-- the rest after the AS numbers -/
theorem mpRest_parts {sub : Nat} {ps : List Part} (h : MpRestParts sub ps) (base : Nat) (pre : Bytes)
    (hb : base + (pre ++ partsBytes ps).length < 4294967296) (p q : Node) :
    (walkMpAddresses (pre ++ partsBytes ps) base pre.length).bind (fun r => match r.2 with
      | none => some ([p, q] ++ r.1)
      | some pos => (mpEndFields (pre ++ partsBytes ps) base sub pos).bind fun s => some ([p, q] ++ r.1 ++ s))
    = some ([p, q] ++ partsNodes (base + pre.length) ps) := by
  have full : ∀ (i : Bytes) (afi size : Nat) (p' q' : Bytes) (qs : List Part), i.length = 2 → (afi, size) ∈ [(1, 4), (2, 16)] →
      p'.length = size → q'.length = size → MpEnd sub qs →
      ps = leaf "mrt.bgp4mp.interface_index" i :: leaf "mrt.bgp4mp.afi" (n16 afi) :: leaf "mrt.bgp4mp.peer_ip" p'
        :: leaf "mrt.bgp4mp.local_ip" q' :: qs →
      (walkMpAddresses (pre ++ partsBytes ps) base pre.length).bind (fun r => match r.2 with
        | none => some ([p, q] ++ r.1)
        | some pos => (mpEndFields (pre ++ partsBytes ps) base sub pos).bind fun s => some ([p, q] ++ r.1 ++ s))
      = some ([p, q] ++ partsNodes (base + pre.length) ps) := by
    rintro i afi size p' q' qs hi ha hp hq he rfl
    rw [walkMpAddresses_full pre i p' q' (partsBytes qs) hi ha hp hq (by simp) hb]
    simp at hb
    have := mpEnd_parts he base (pre ++ (i ++ (n16 afi ++ (p' ++ q')))) (by simp; omega)
    have hl : (pre ++ (i ++ (n16 afi ++ (p' ++ q')))).length = pre.length + 4 + size + size := by simp; omega
    rw [hl] at this
    have hd : pre ++ (i ++ (n16 afi ++ (p' ++ q'))) ++ partsBytes qs
        = pre ++ partsBytes (leaf "mrt.bgp4mp.interface_index" i :: leaf "mrt.bgp4mp.afi" (n16 afi) :: leaf "mrt.bgp4mp.peer_ip" p'
        :: leaf "mrt.bgp4mp.local_ip" q' :: qs) := by simp
    rw [hd] at this
    simp only [Option.bind_some]
    rw [this]
    simp [hi, hp, hq, Nat.add_assoc]
  cases h with
  | short b hl =>
    rw [walkMpAddresses_short pre b hl (by simp) hb]
    simp
  | unknownAfi i afi b hi h0 h1 h2 =>
    rw [walkMpAddresses_unknown pre i b hi h0 h1 h2 (by simp) hb]
    simp [hi]
  | cutAddresses i afi size b hi ha hl =>
    rw [walkMpAddresses_cut pre i b hi ha hl (by simp) hb]
    simp [hi]
  | message i afi size p' q' m hi ha hp hq hs hm => exact full i afi size p' q' [m] hi ha hp hq (.message m hs hm) rfl
  | cutState i afi size p' q' b hi ha hp hq hs hl => exact full i afi size p' q' _ hi ha hp hq (.cutState b hs hl) rfl
  | state i afi size p' q' old new b hi ha hp hq hs ho hn => exact full i afi size p' q' _ hi ha hp hq (.state old new b hs ho hn) rfl

theorem dissectMpFields_parts {sub : Nat} {ps : List Part} (h : MpParts sub ps) (base : Nat)
    (hb : base + (partsBytes ps).length < 4294967296) :
    dissectMpFields (partsBytes ps) base sub = some (partsNodes base ps) := by
  rw [dissectMpFields_eq]
  have hsz : mpAsnSize sub ≤ 4 := by unfold mpAsnSize; split <;> omega
  cases h with
  | short b hl =>
    simp at hb
    rw [if_pos (by simpa using hl), mkNode_ok (by omega) (by simp; omega)]
    simp
  | zebra p q m hp hq hs hm =>
    simp at hb
    rw [if_neg (by simp; omega), mkNode_ok (by omega) (by omega), mkNode_ok (by omega) (by omega)]
    have hsl : subslice (partsBytes [leaf "mrt.bgp4mp.peer_asn" p, leaf "mrt.bgp4mp.local_asn" q, leaf "mrt.bgp4mp.zebra_compat" [], m])
        (mpAsnSize sub + mpAsnSize sub) (partsBytes [leaf "mrt.bgp4mp.peer_asn" p, leaf "mrt.bgp4mp.local_asn" q, leaf "mrt.bgp4mp.zebra_compat" [], m]).length
        = some m.bytes := by
      have := subslice_mid (p ++ q) m.bytes [] (i := mpAsnSize sub + mpAsnSize sub) (j := p.length + (q.length + m.bytes.length)) (by simp; omega) (by simp; omega)
      simpa using this
    rw [hsl]
    simp only [Option.bind_eq_bind, Option.bind_some]
    rw [if_pos ((marker_iff _).2 hs), mkNode_ok (by omega) (by omega)]
    rw [← mpAsnLen_octets] at hm
    have := dissectBgpBase_part hm (base + (mpAsnSize sub + mpAsnSize sub)) (by omega)
    simp only [Option.bind_some]
    cases hn : dissectBgpBase m.bytes (base + (mpAsnSize sub + mpAsnSize sub)) (mpAsnLen sub) (mpAddPath sub) with
    | none => rw [hn] at this; cases this
    | some n =>
      rw [hn] at this
      simp [hp, hq, Nat.add_assoc] at this ⊢
      exact this
  | zebraState p q old new hp hq ho hn h0 =>
    subst h0
    simp at hb
    have h2 : mpAsnSize 0 = 2 := by decide
    rw [h2, if_neg (by simp; omega), mkNode_ok (by omega) (by omega), mkNode_ok (by omega) (by omega)]
    have hsl : subslice (partsBytes [leaf "mrt.bgp4mp.peer_asn" p, leaf "mrt.bgp4mp.local_asn" q, leaf "mrt.bgp4mp.old_state" old, leaf "mrt.bgp4mp.new_state" new])
        (2 + 2) (partsBytes [leaf "mrt.bgp4mp.peer_asn" p, leaf "mrt.bgp4mp.local_asn" q, leaf "mrt.bgp4mp.old_state" old, leaf "mrt.bgp4mp.new_state" new]).length
        = some (old ++ new) := by
      have := subslice_mid (p ++ q) (old ++ new) [] (i := 2 + 2) (j := p.length + (q.length + (old.length + new.length))) (by simp; omega) (by simp; omega)
      simpa using this
    rw [hsl]
    simp only [Option.bind_eq_bind, Option.bind_some]
    rw [if_neg (by simp; omega), if_pos ⟨trivial, by simp; omega⟩, stateNodes_ok (by omega)]
    simp [hp, hq, ho, hn, Nat.add_assoc]
  | full p q qs hp hq hs h8 hr =>
    simp at hb
    rw [if_neg (by simp; omega), mkNode_ok (by omega) (by omega), mkNode_ok (by omega) (by omega)]
    have hsl : subslice (partsBytes (leaf "mrt.bgp4mp.peer_asn" p :: leaf "mrt.bgp4mp.local_asn" q :: qs))
        (mpAsnSize sub + mpAsnSize sub) (partsBytes (leaf "mrt.bgp4mp.peer_asn" p :: leaf "mrt.bgp4mp.local_asn" q :: qs)).length
        = some (partsBytes qs) := by
      have := subslice_mid (p ++ q) (partsBytes qs) [] (i := mpAsnSize sub + mpAsnSize sub) (j := p.length + (q.length + (partsBytes qs).length)) (by simp; omega) (by simp; omega)
      simpa using this
    rw [hsl]
    simp only [Option.bind_eq_bind, Option.bind_some]
    rw [if_neg (fun h => hs ((marker_iff _).1 h)), if_neg]
    · have := mpRest_parts hr base (p ++ q) (by simp; omega) (.mk "mrt.bgp4mp.peer_asn" base (mpAsnSize sub) []) (.mk "mrt.bgp4mp.local_asn" (base + mpAsnSize sub) (mpAsnSize sub) [])
      rw [List.append_assoc, List.length_append, hp, hq] at this
      simp only [partsBytes_cons, leaf_bytes]
      simp only [partsNodes_cons, leaf_nodes, leaf_bytes, hp, hq]
      rw [Nat.add_assoc base]
      exact this
    · rintro ⟨h0, hl⟩
      subst h0
      have h2 : mpAsnSize 0 = 2 := by decide
      rw [h2] at hp hq
      refine h8 ⟨rfl, ?_⟩
      simp at hl
      omega

/-! ### the record -/

theorem dissectMp_part {sub : Nat} {ps : List Part} (h : MpParts sub ps) (base : Nat)
    (hb : base + (partsBytes ps).length < 4294967296) :
    (dissectMp (partsBytes ps) base sub).map ([·]) = some (Part.nodes base (.group "mrt.bgp4mp" ps)) := by
  unfold dissectMp
  rw [dissectMpFields_parts h base hb]
  simp only [Option.bind_eq_bind, Option.bind_some]
  rw [mkNode_ok (by omega) (by omega)]
  simp

theorem mrtExtended_iff (ty : Nat) : decide (ty = 17 ∨ ty = 33 ∨ ty = 49) = mrtExtended ty := by
  rw [Bool.eq_iff_iff]; simp [mrtExtended]

theorem mrtHeaderParts_bytes (time : Bytes) (ty sub : Nat) (len micros : Bytes) :
    partsBytes (mrtHeaderParts time ty sub len micros)
      = time ++ (n16 ty ++ (n16 sub ++ (len ++ (if mrtExtended ty then micros else [])))) := by
  unfold mrtHeaderParts; split <;> simp

theorem mrtHeaderParts_nodes (base : Nat) {time : Bytes} (ty sub : Nat) {len micros : Bytes} (ht : time.length = 4) (hl : len.length = 4) :
    partsNodes base (mrtHeaderParts time ty sub len micros)
      = [.mk "mrt.header.timestamp" base 4 [], .mk "mrt.header.type" (base + 4) 2 [], .mk "mrt.header.subtype" (base + 6) 2 [],
         .mk "mrt.header.length" (base + 8) 4 []] ++ (if mrtExtended ty then [.mk "mrt.header.microsecond" (base + 12) micros.length []] else []) := by
  unfold mrtHeaderParts; split <;> simp [ht, hl]

theorem mrt_numbers {time : Bytes} {ty sub : Nat} (r : Bytes) (ht : time.length = 4) (hty : ty < 65536) (hsub : sub < 65536) :
    getU16 (time ++ (n16 ty ++ (n16 sub ++ r))) 4 = some ty ∧ getU16 (time ++ (n16 ty ++ (n16 sub ++ r))) 6 = some sub := by
  constructor
  · rw [show 4 = time.length + 0 by omega, getU16_pre, getU16_n16 hty]
  · rw [show 6 = (time ++ n16 ty).length + 0 by simp; omega, ← List.append_assoc, getU16_pre, getU16_n16 hsub]

theorem dissectMrtBytes_parts {ps : List Part} (h : MrtParts ps) (hb : (partsBytes ps).length < 4294967296) :
    (dissectMrtBytes (partsBytes ps)).map ([·]) = some (Part.nodes 0 (.group "mrt" ps)) := by
  unfold dissectMrtBytes
  cases h with
  | short b hl =>
    simp only [shown_bytes] at hb ⊢
    rw [if_pos hl, pushIf_shown (b := b) (by simp) rfl (by omega)]
    simp only [Option.bind_eq_bind, Option.bind_some]
    rw [mkNode_ok (by omega) (by omega)]
    simp
  | cutMicros time ty sub len micros ht hty hsub hl he hm =>
    have hbytes : partsBytes [Part.group "mrt.header" (mrtHeaderParts time ty sub len micros)] = time ++ (n16 ty ++ (n16 sub ++ (len ++ micros))) := by
      simp [mrtHeaderParts_bytes, he]
    have hlen : (time ++ (n16 ty ++ (n16 sub ++ (len ++ micros)))).length = 12 + micros.length := by simp; omega
    obtain ⟨h1, h2⟩ := mrt_numbers (len ++ micros) ht hty hsub
    have hn := mrtHeaderParts_nodes 0 ty sub (micros := micros) ht hl
    simp only [group_nodes]
    rw [hbytes] at hb ⊢
    rw [if_neg (by omega), h1]
    simp only [Option.getD_some, mrtExtended_iff]
    rw [he, mkNode_ok (by omega) (by omega), mkNode_ok (by omega) (by omega), mkNode_ok (by omega) (by omega), mkNode_ok (by omega) (by omega)]
    simp only [Option.bind_eq_bind, Option.bind_some]
    rw [if_pos ⟨trivial, by omega⟩, usub_ok (by omega)]
    simp only [Option.bind_some]
    rw [mkNode_ok (by omega) (by omega)]
    simp only [Option.bind_some]
    rw [mkNode_ok (by omega) (by omega)]
    simp only [Option.bind_some]
    rw [mkNode_ok (by omega) (by omega)]
    simp [hn, he, mrtHeaderParts_bytes, ht, hl]
    omega
  | empty time ty sub len micros ht hty hsub hl he =>
    have hhl : (partsBytes (mrtHeaderParts time ty sub len micros)).length = if mrtExtended ty then 16 else 12 := by
      rw [mrtHeaderParts_bytes]
      by_cases hx : mrtExtended ty = true
      · simp [hx, ht, hl, he hx]
      · simp [hx, ht, hl]
    have hbytes : partsBytes [Part.group "mrt.header" (mrtHeaderParts time ty sub len micros)]
        = time ++ (n16 ty ++ (n16 sub ++ (len ++ (if mrtExtended ty then micros else [])))) := by
      simp [mrtHeaderParts_bytes]
    have hlen : (time ++ (n16 ty ++ (n16 sub ++ (len ++ (if mrtExtended ty then micros else []))))).length = if mrtExtended ty then 16 else 12 := by
      rw [← mrtHeaderParts_bytes]; exact hhl
    have hle : 12 ≤ (if mrtExtended ty = true then 16 else 12) ∧ (if mrtExtended ty = true then 16 else 12) ≤ 16 := by split <;> omega
    obtain ⟨h1, h2⟩ := mrt_numbers (len ++ (if mrtExtended ty then micros else [])) ht hty hsub
    have hn := mrtHeaderParts_nodes 0 ty sub (micros := micros) ht hl
    simp only [group_nodes]
    rw [hbytes] at hb ⊢
    generalize time ++ (n16 ty ++ (n16 sub ++ (len ++ (if mrtExtended ty then micros else [])))) = d at *
    rw [if_neg (by omega), h1]
    simp only [Option.getD_some, mrtExtended_iff]
    rw [mkNode_ok (by omega) (by omega), mkNode_ok (by omega) (by omega), mkNode_ok (by omega) (by omega), mkNode_ok (by omega) (by omega)]
    simp only [Option.bind_eq_bind, Option.bind_some]
    rw [if_neg (by intro ⟨hx, hy⟩; simp [hx] at hlen; omega), mkNode_ok (by omega) (by omega)]
    have hp : pushIf (mrtExtended ty = true) (some (Node.mk "mrt.header.microsecond" 12 4 []))
        = some (if mrtExtended ty then [.mk "mrt.header.microsecond" (0 + 12) micros.length []] else []) := by
      by_cases hx : mrtExtended ty = true
      · rw [pushIf_pos hx, if_pos hx, he hx]
      · rw [pushIf_neg hx, if_neg hx]
    rw [hp, ← hlen, subslice_all _ _ (Nat.le_refl _)]
    simp only [Option.bind_some, Nat.min_self, List.drop_length]
    rw [mkNode_ok (by omega) (by omega)]
    simp only [Option.bind_some, if_true]
    rw [mkNode_ok (by omega) (by omega)]
    simp [hn, hhl, hlen]
  | full time ty sub len micros body ht hty hsub hl he hne hbody =>
    have hhl : (partsBytes (mrtHeaderParts time ty sub len micros)).length = if mrtExtended ty then 16 else 12 := by
      rw [mrtHeaderParts_bytes]
      by_cases hx : mrtExtended ty = true
      · simp [hx, ht, hl, he hx]
      · simp [hx, ht, hl]
    have hpos := List.length_pos_iff.2 hne
    have hle : 12 ≤ (if mrtExtended ty = true then 16 else 12) ∧ (if mrtExtended ty = true then 16 else 12) ≤ 16 := by split <;> omega
    obtain ⟨h1, h2⟩ := mrt_numbers (len ++ (if mrtExtended ty then micros else []) ++ body.bytes) ht hty hsub
    have hbytes : partsBytes [Part.group "mrt.header" (mrtHeaderParts time ty sub len micros), body]
        = partsBytes (mrtHeaderParts time ty sub len micros) ++ body.bytes := by simp
    have hd' : time ++ (n16 ty ++ (n16 sub ++ (len ++ (if mrtExtended ty then micros else []) ++ body.bytes)))
        = partsBytes (mrtHeaderParts time ty sub len micros) ++ body.bytes := by
      rw [mrtHeaderParts_bytes]; simp
    rw [hd'] at h1 h2
    have hn := mrtHeaderParts_nodes 0 ty sub (micros := micros) ht hl
    simp only [group_nodes]
    rw [hbytes] at hb ⊢
    have hlen : (partsBytes (mrtHeaderParts time ty sub len micros) ++ body.bytes).length = (if mrtExtended ty then 16 else 12) + body.bytes.length := by
      rw [List.length_append, hhl]
    have hsl : subslice (partsBytes (mrtHeaderParts time ty sub len micros) ++ body.bytes) (if mrtExtended ty then 16 else 12)
        (partsBytes (mrtHeaderParts time ty sub len micros) ++ body.bytes).length = some body.bytes := by
      have := subslice_mid (partsBytes (mrtHeaderParts time ty sub len micros)) body.bytes [] hhl.symm
        (j := (partsBytes (mrtHeaderParts time ty sub len micros) ++ body.bytes).length) (by simp)
      simpa using this
    generalize hk : (if mrtExtended ty = true then 16 else 12) = k at *
    generalize hdd : partsBytes (mrtHeaderParts time ty sub len micros) ++ body.bytes = d at *
    rw [if_neg (by omega), h1, h2]
    simp only [Option.getD_some, mrtExtended_iff]
    rw [mkNode_ok (by omega) (by omega), mkNode_ok (by omega) (by omega), mkNode_ok (by omega) (by omega), mkNode_ok (by omega) (by omega)]
    simp only [Option.bind_eq_bind, Option.bind_some]
    rw [if_neg (by intro ⟨hx, hy⟩; simp [hx] at hk; omega), mkNode_ok (by omega) (by omega)]
    have hp : pushIf (mrtExtended ty = true) (some (Node.mk "mrt.header.microsecond" 12 4 []))
        = some (if mrtExtended ty then [.mk "mrt.header.microsecond" (0 + 12) micros.length []] else []) := by
      by_cases hx : mrtExtended ty = true
      · rw [pushIf_pos hx, if_pos hx, he hx]
      · rw [pushIf_neg hx, if_neg hx]
    rw [hp, hk, hsl]
    simp only [Option.bind_some]
    rw [mkNode_ok (by omega) (by omega)]
    simp only [Option.bind_some]
    rw [if_neg hne, Nat.min_eq_left (by omega)]
    have hbn : ((if ty = 16 ∨ ty = 17 then dissectMp body.bytes k sub else mkNode "mrt.body" k body.bytes.length [])).map ([·])
        = some (body.nodes k) := by
      cases hbody with
      | bgp4mp ps hmem h =>
        rw [if_pos (by simpa using hmem)]
        exact dissectMp_part h k (by simp at hlen; omega)
      | other b hmem =>
        rw [if_neg (by simpa using hmem), mkNode_ok (by omega) (by omega)]
        simp
    cases hx : (if ty = 16 ∨ ty = 17 then dissectMp body.bytes k sub else mkNode "mrt.body" k body.bytes.length []) with
    | none => rw [hx] at hbn; cases hbn
    | some nb =>
      rw [hx] at hbn
      simp only [Option.map_some, Option.some.injEq] at hbn
      simp only [Option.bind_some]
      rw [mkNode_ok (by omega) (by omega)]
      simp [hn, hhl, ← hbn]

/-! ### every record has a description -/

theorem mpRest_exists (sub : Nat) (d : Bytes) : ∃ ps, MpRestParts sub ps ∧ partsBytes ps = d := by
  match d with
  | [] => exact ⟨_, .short [] (by simp), by simp⟩
  | [a] => exact ⟨_, .short [a] (by simp), by simp⟩
  | [a, b] => exact ⟨_, .short [a, b] (by simp), by simp⟩
  | [a, b, c] => exact ⟨_, .short [a, b, c] (by simp), by simp⟩
  | a :: b :: x :: y :: r =>
    have hn : (u16of x y).toNat < 65536 := UInt16.toNat_lt _
    have hb : n16 (u16of x y).toNat = [x, y] := n16_exists x y
    have known : ∀ size, ((u16of x y).toNat, size) ∈ [(1, 4), (2, 16)] → ∃ ps, MpRestParts sub ps ∧ partsBytes ps = a :: b :: x :: y :: r := by
      intro size hm
      by_cases hl : r.length < 2 * size
      · exact ⟨_, .cutAddresses [a, b] _ size r rfl hm hl, by simp [hb]⟩
      · have h1 : (r.take size).length = size := by simp; omega
        have h2 : ((r.drop size).take size).length = size := by simp; omega
        have h3 : r = r.take size ++ ((r.drop size).take size ++ (r.drop size).drop size) := by rw [List.take_append_drop, List.take_append_drop]
        by_cases hs : mpState sub = false
        · obtain ⟨m, hm', hmb⟩ := bgp_exists (mpAsnLen sub) (mpAddPath sub) ((r.drop size).drop size)
          rw [mpAsnLen_octets] at hm'
          refine ⟨_, .message [a, b] _ size (r.take size) ((r.drop size).take size) m rfl hm h1 h2 hs hm', ?_⟩
          simp only [partsBytes_cons, leaf_bytes, partsBytes_nil, List.append_nil, hb, hmb, ← h3]
          rfl
        · have hs : mpState sub = true := by simpa using hs
          generalize hr : (r.drop size).drop size = t at h3
          by_cases hl4 : t.length < 4
          · refine ⟨_, .cutState [a, b] _ size (r.take size) ((r.drop size).take size) t rfl hm h1 h2 hs hl4, ?_⟩
            simp only [partsBytes_cons, leaf_bytes, partsBytes_nil, List.append_nil, hb, ← h3]
            rfl
          · match t, hl4 with
            | o1 :: o2 :: n1 :: n2 :: u, _ =>
              refine ⟨_, .state [a, b] _ size (r.take size) ((r.drop size).take size) [o1, o2] [n1, n2] u rfl hm h1 h2 hs rfl rfl, ?_⟩
              simp only [partsBytes_cons, leaf_bytes, gap_bytes, partsBytes_nil, List.append_nil, hb]
              simp only [List.cons_append, List.nil_append]
              rw [← h3]
            | [], h => exact absurd (by simp) h
            | [_], h => exact absurd (by simp) h
            | [_, _], h => exact absurd (by simp) h
            | [_, _, _], h => exact absurd (by simp) h
    by_cases h1 : (u16of x y).toNat = 1
    · exact known 4 (by simp [h1])
    by_cases h2 : (u16of x y).toNat = 2
    · exact known 16 (by simp [h2])
    exact ⟨_, .unknownAfi [a, b] _ r rfl hn h1 h2, by simp [hb]⟩

theorem mp_exists (sub : Nat) (d : Bytes) : ∃ ps, MpParts sub ps ∧ partsBytes ps = d := by
  by_cases hl : d.length < 2 * mpAsnSize sub
  · exact ⟨_, .short d hl, by simp⟩
  have h1 : (d.take (mpAsnSize sub)).length = mpAsnSize sub := by simp; omega
  have h2 : ((d.drop (mpAsnSize sub)).take (mpAsnSize sub)).length = mpAsnSize sub := by simp; omega
  have h3 : d = d.take (mpAsnSize sub) ++ ((d.drop (mpAsnSize sub)).take (mpAsnSize sub) ++ (d.drop (mpAsnSize sub)).drop (mpAsnSize sub)) := by rw [List.take_append_drop, List.take_append_drop]
  generalize (d.drop (mpAsnSize sub)).drop (mpAsnSize sub) = r at h3
  generalize d.take (mpAsnSize sub) = p at *
  generalize (d.drop (mpAsnSize sub)).take (mpAsnSize sub) = q at *
  by_cases hm : startsWithMarker r
  · obtain ⟨m, hm', hmb⟩ := bgp_exists (mpAsnLen sub) (mpAddPath sub) r
    rw [mpAsnLen_octets] at hm'
    exact ⟨_, .zebra p q m h1 h2 (by rw [hmb]; exact hm) hm', by simp [hmb, h3]⟩
  by_cases h0 : sub = 0 ∧ r.length = 4
  · obtain ⟨rfl, hr⟩ := h0
    have h22 : mpAsnSize 0 = 2 := by decide
    match r, hr with
    | [a, b, c, e], _ => exact ⟨_, .zebraState p q [a, b] [c, e] (by omega) (by omega) rfl rfl rfl, by simp [h3]⟩
  obtain ⟨ps, hp, hb⟩ := mpRest_exists sub r
  exact ⟨_, .full p q ps h1 h2 (by rw [hb]; exact hm) (by rw [hb]; exact h0) hp, by simp [hb, h3]⟩

theorem mrt_exists (d : Bytes) : ∃ ps, MrtParts ps ∧ partsBytes ps = d := by
  by_cases hl : d.length < 12
  · exact ⟨_, .short d hl, by simp⟩
  match d, hl with
  | t1 :: t2 :: t3 :: t4 :: y1 :: y2 :: s1 :: s2 :: l1 :: l2 :: l3 :: l4 :: r, _ =>
    have hy : (u16of y1 y2).toNat < 65536 := UInt16.toNat_lt _
    have hs : (u16of s1 s2).toNat < 65536 := UInt16.toNat_lt _
    have withBody : ∀ (micros b : Bytes), (mrtExtended (u16of y1 y2).toNat = true → micros.length = 4) →
        r = (if mrtExtended (u16of y1 y2).toNat then micros else []) ++ b →
        ∃ ps, MrtParts ps ∧ partsBytes ps = t1 :: t2 :: t3 :: t4 :: y1 :: y2 :: s1 :: s2 :: l1 :: l2 :: l3 :: l4 :: r := by
      rintro micros b hmic rfl
      by_cases hb : b = []
      · subst hb
        exact ⟨_, .empty [t1, t2, t3, t4] _ _ [l1, l2, l3, l4] micros rfl hy hs rfl hmic,
          by simp [mrtHeaderParts_bytes, n16_exists]⟩
      · by_cases hm : (u16of y1 y2).toNat ∈ [16, 17]
        · obtain ⟨ps, hp, hpb⟩ := mp_exists (u16of s1 s2).toNat b
          exact ⟨_, .full [t1, t2, t3, t4] _ _ [l1, l2, l3, l4] micros _ rfl hy hs rfl hmic (by simpa [hpb] using hb) (.bgp4mp ps hm hp),
            by simp [mrtHeaderParts_bytes, n16_exists, hpb]⟩
        · exact ⟨_, .full [t1, t2, t3, t4] _ _ [l1, l2, l3, l4] micros _ rfl hy hs rfl hmic (by simpa using hb) (.other b hm),
            by simp [mrtHeaderParts_bytes, n16_exists]⟩
    by_cases hx : mrtExtended (u16of y1 y2).toNat = true
    · by_cases hr : r.length < 4
      · exact ⟨_, .cutMicros [t1, t2, t3, t4] _ _ [l1, l2, l3, l4] r rfl hy hs rfl hx hr,
          by simp [mrtHeaderParts_bytes, n16_exists, hx]⟩
      · exact withBody (r.take 4) (r.drop 4) (by intro; simp; omega) (by simp [hx])
    · exact withBody [] r (by simp [hx]) (by simp [hx])
  | [], h | [_], h | [_, _], h | [_, _, _], h | [_, _, _, _], h | [_, _, _, _, _], h | [_, _, _, _, _, _], h
  | [_, _, _, _, _, _, _], h | [_, _, _, _, _, _, _, _], h | [_, _, _, _, _, _, _, _, _], h
  | [_, _, _, _, _, _, _, _, _, _], h | [_, _, _, _, _, _, _, _, _, _, _], h => exact absurd (by simp) h

end Verif
