import Verif.Props.DissectMessages
import Verif.Props.Mrt
import Verif.Model.DissectRecord
import Verif.Spec.DissectRecord
/-
C110 for the header of an MRT record.
-/
namespace Verif.Props
open Spec

theorem n32_number {n : Nat} (h : n < 4294967296) :
    (u32of (UInt8.ofNat (n / 16777216)) (UInt8.ofNat (n / 65536)) (UInt8.ofNat (n / 256)) (UInt8.ofNat n)).toNat = n := by
  rw [u32of_toNat]
  simp only [UInt8.toNat_ofNat']
  omega

theorem entryTitle_shown (t : EntryType) :
    lit "Type: " ++ entryTitle (entryNum t) ++ lit " (" ++ decText (entryNum t) ++ lit ")" = "Type: ".toList ++ entryShown t := by
  cases t <;> decide +kernel

theorem entryNum_lt (t : EntryType) : entryNum t < 65536 := by cases t <;> decide

theorem bodyLabel_shown (h : Header) (b : Bytes) : bodyLabel (entryNum h.type) h.subtype.toNat b = bodyShown h b := by
  obtain ⟨time, micro, type, subtype, length⟩ := h
  dsimp only [bodyShown]
  unfold bodyLabel
  cases b with
  | nil => rfl
  | cons x b =>
    have e1 : (subtype.toNat = 0 ∨ subtype.toNat = 5) ↔ (subtype = 0 ∨ subtype = 5) := by
      have a : subtype.toNat = 0 ↔ subtype = 0 := ⟨fun k => UInt16.toNat_inj.mp k, fun k => by rw [k]; rfl⟩
      have c : subtype.toNat = 5 ↔ subtype = 5 := ⟨fun k => UInt16.toNat_inj.mp k, fun k => by rw [k]; rfl⟩
      rw [a, c]
    have e2 : (entryNum type = 16 ∨ entryNum type = 17) ↔ (type = .bgp4mp ∨ type = .bgp4mpEt) := by cases type <;> decide
    rw [if_neg (by simp : ¬ (x :: b).isEmpty = true), if_neg (by simp : ¬ x :: b = [])]
    by_cases k : type = .bgp4mp ∨ type = .bgp4mpEt
    · rw [if_pos k, if_pos (e2.mpr k)]
      by_cases j : subtype = 0 ∨ subtype = 5
      · rw [if_pos j, if_pos (e1.mpr j)]; rfl
      · rw [if_neg j, if_neg (fun q => j (e1.mp q))]; rfl
    · rw [if_neg k, if_neg (fun q => k (e2.mp q))]; rfl

/-- the labels of a header with these numbers. -/
theorem recordLabels_plain (t ty s l : Nat) (r : Bytes) (ht : t < 4294967296) (hy : ty < 65536) (hs : s < 65536)
    (hl : l < 4294967296) (hne : ¬ (ty = 17 ∨ ty = 33 ∨ ty = 49)) :
    recordLabels (n32 t ++ n16 ty ++ n16 s ++ n32 l ++ r) = ⟨lit "MRT record (" ++ decText (12 + r.length) ++ lit " bytes)",
      [lit "Common header"], [lit "Timestamp: " ++ decText t, lit "Type: " ++ entryTitle ty ++ lit " (" ++ decText ty ++ lit ")",
        lit "Subtype: " ++ decText s, lit "Length: " ++ decText l], bodyLabel ty s r⟩ := by
  have e : (n32 t ++ n16 ty ++ n16 s ++ n32 l ++ r).length = 12 + r.length := by simp [n32, n16]; omega
  rw [← e]
  simp only [n32, n16, List.cons_append, List.nil_append, recordLabels, n32_number ht, n16_number hy, n16_number hs,
    n32_number hl, if_neg hne]

theorem recordLabels_et (t s l m : Nat) (r : Bytes) (ht : t < 4294967296) (hs : s < 65536)
    (hl : l < 4294967296) (hm : m < 4294967296) :
    recordLabels (n32 t ++ n16 17 ++ n16 s ++ n32 l ++ n32 m ++ r) = ⟨lit "MRT record (" ++ decText (16 + r.length) ++ lit " bytes)",
      [lit "Common header"], [lit "Timestamp: " ++ decText t, lit "Type: " ++ entryTitle 17 ++ lit " (" ++ decText 17 ++ lit ")",
        lit "Subtype: " ++ decText s, lit "Length: " ++ decText l] ++ [lit "Microsecond timestamp: " ++ decText m],
      bodyLabel 17 s r⟩ := by
  have e : (n32 t ++ n16 17 ++ n16 s ++ n32 l ++ n32 m ++ r).length = 16 + r.length := by simp [n32, n16]; omega
  have hy : 17 < 65536 := by decide
  have hq : 17 = 17 ∨ 17 = 33 ∨ 17 = 49 := .inl rfl
  rw [← e]
  simp only [n32, n16, List.cons_append, List.nil_append, recordLabels, n32_number ht, n16_number hy, n16_number hs,
    n32_number hl, n32_number hm, if_pos hq, true_or, if_true]

/-- **C110** The header of a record that the parser reads from any reader is shown as the parser reads it. Missing: ISIS_ET
and OSPFv3_ET (see `c110_violation_microseconds`). -/
theorem c110_record_partial (pol : Pol) (s s' : Src) (r : Raw) (h : chunk pol s = (.ok r, s')) (h1 : r.header.type ≠ .isisEt)
    (h2 : r.header.type ≠ .ospfv3Et) : recordLabels r.bytes = recordShown r := by
  obtain ⟨⟨hb, _, _, _⟩, _, _, _⟩ := c21_record_bytes pol s s' r h
  obtain ⟨hd, hbytes, body⟩ := r
  have hbody := bodyLabel_shown hd body
  obtain ⟨time, micro, type, subtype, length⟩ := hd
  dsimp only [Raw.bytes] at *
  unfold HeaderBytes at hb
  cases micro with
  | none =>
    obtain ⟨h3, rfl⟩ := hb
    dsimp only at h3
    have hne : ¬ (entryNum type = 17 ∨ entryNum type = 33 ∨ entryNum type = 49) := by
      cases type <;> first | exact absurd rfl h1 | exact absurd rfl h2 | exact absurd rfl h3 | decide
    dsimp only
    rw [recordLabels_plain _ _ _ _ _ time.toNat_lt (entryNum_lt _) subtype.toNat_lt length.toNat_lt hne, hbody,
      entryTitle_shown]
    rfl
  | some m =>
    obtain ⟨h3, h4, rfl⟩ := hb
    dsimp only at h3 h4
    subst h3
    dsimp only [entryNum] at *
    have ht := entryTitle_shown .bgp4mpEt
    dsimp only [entryNum] at ht
    rw [recordLabels_et _ _ _ _ _ time.toNat_lt subtype.toNat_lt h4 m.toNat_lt, hbody, ht]
    rfl

/-- **C110** Any octets, a record or not, have one label for the header and the body if these have nodes, and one for each
node under the header. -/
theorem c110_record_count (d : Bytes) (n : Node) (h : dissectMrtBytes d = some n) :
    n.children.length = (recordLabels d).header.length + (recordLabels d).body.length ∧
      ∀ c, n.children.head? = some c → c.children.length = (recordLabels d).fields.length := by
  unfold dissectMrtBytes at h
  by_cases hd : d.length < 12
  · simp only [if_pos hd, Option.bind_eq_bind, Option.bind_eq_some_iff] at h
    obtain ⟨cs, h1, h2⟩ := h
    rw [mkNode_node h2]
    show cs.length = _ ∧ ∀ c, cs.head? = some c → _
    have hl := pushIf_length h1
    have hc : ∀ c, cs.head? = some c → c.children = [] := by
      intro c hc
      unfold pushIf at h1
      split at h1
      · obtain ⟨m, hm, rfl⟩ := Option.map_eq_some_iff.mp h1
        cases hc
        rw [mkNode_node hm]
        rfl
      · cases h1; cases hc
    have hf : (recordLabels d).fields = [] ∧ (recordLabels d).body = [] ∧ (recordLabels d).header.length = if d ≠ [] then 1 else 0 := by
      rcases d with _ | ⟨a0, _ | ⟨a1, _ | ⟨a2, _ | ⟨a3, _ | ⟨a4, _ | ⟨a5, _ | ⟨a6, _ | ⟨a7, _ | ⟨a8, _ | ⟨a9, _ | ⟨a10, _ | ⟨a11, r⟩⟩⟩⟩⟩⟩⟩⟩⟩⟩⟩⟩
      all_goals first
        | (exfalso; simp only [List.length_cons] at hd; omega)
        | exact ⟨rfl, rfl, rfl⟩
    obtain ⟨f1, f2, f3⟩ := hf
    refine ⟨by rw [hl, f2, f3]; rfl, fun c k => by rw [hc c k, f1]; rfl⟩
  · simp only [if_neg hd] at h
    rcases d with _ | ⟨a0, _ | ⟨a1, _ | ⟨a2, _ | ⟨a3, _ | ⟨a4, _ | ⟨a5, _ | ⟨a6, _ | ⟨a7, _ | ⟨a8, _ | ⟨a9, _ | ⟨a10, _ | ⟨a11, r⟩⟩⟩⟩⟩⟩⟩⟩⟩⟩⟩⟩
    all_goals try (exfalso; simp at hd; done)
    have g4 : (getU16 (a0 :: a1 :: a2 :: a3 :: a4 :: a5 :: a6 :: a7 :: a8 :: a9 :: a10 :: a11 :: r) 4).getD 0 = (u16of a4 a5).toNat := rfl
    have g6 : (getU16 (a0 :: a1 :: a2 :: a3 :: a4 :: a5 :: a6 :: a7 :: a8 :: a9 :: a10 :: a11 :: r) 6).getD 0 = (u16of a6 a7).toNat := rfl
    rw [g4, g6] at h
    have body_count : ∀ b : Bytes, (bodyLabel (u16of a4 a5).toNat (u16of a6 a7).toNat b).length = if b = [] then 0 else 1 := by
      intro b
      unfold bodyLabel
      cases b with
      | nil => rfl
      | cons x b =>
        rw [if_neg (by simp : ¬ (x :: b).isEmpty = true), if_neg (by simp : ¬ x :: b = [])]
        split <;> rfl
    by_cases et : (u16of a4 a5).toNat = 17 ∨ (u16of a4 a5).toNat = 33 ∨ (u16of a4 a5).toNat = 49
    · simp only [et, decide_true, if_true, true_and, Option.bind_eq_bind, Option.bind_eq_some_iff] at h
      obtain ⟨n1, _, n2, _, n3, _, n4, _, h⟩ := h
      rcases r with _ | ⟨b0, _ | ⟨b1, _ | ⟨b2, _ | ⟨b3, r⟩⟩⟩⟩
      case cons.cons.cons.cons =>
        have hq : ¬ (a0 :: a1 :: a2 :: a3 :: a4 :: a5 :: a6 :: a7 :: a8 :: a9 :: a10 :: a11 :: b0 :: b1 :: b2 :: b3 :: r).length < 16 := by
          simp
        simp only [if_neg hq, Option.bind_eq_some_iff] at h
        obtain ⟨m, hm, hn, hh, b, hb, h⟩ := h
        have hm1 := pushIf_length hm
        have hbr : b = r := by
          unfold subslice at hb
          split at hb
          · cases hb; simp
          · cases hb
        subst hbr
        simp only [recordLabels, if_pos et]
        have hk : n.children.length = 1 + (if b = [] then 0 else 1) ∧ ∀ c, n.children.head? = some c → c = hn := by
          by_cases hb0 : b = []
          · rw [if_pos hb0] at h ⊢
            rw [mkNode_node h]
            exact ⟨rfl, fun c k => by cases k; rfl⟩
          · rw [if_neg hb0] at h ⊢
            obtain ⟨bn, _, h⟩ := Option.bind_eq_some_iff.mp h
            rw [mkNode_node h]
            exact ⟨rfl, fun c k => by cases k; rfl⟩
        refine ⟨by rw [hk.1, body_count]; rfl, fun c k => ?_⟩
        rw [hk.2 c k, mkNode_node hh]
        show ([n1, n2, n3, n4] ++ m).length = _
        rw [List.length_append, hm1]
        rfl
      all_goals
        rw [if_pos (by simp)] at h
        simp only [Option.bind_eq_some_iff] at h
        obtain ⟨len, _, m, _, hn, hh, h⟩ := h
        simp only [recordLabels, if_pos et]
        rw [mkNode_node h]
        refine ⟨rfl, fun c k => ?_⟩
        cases k
        rw [mkNode_node hh]
        rfl
    · simp only [et, decide_false, Bool.false_eq_true, false_and, if_false, Option.bind_eq_bind, Option.bind_eq_some_iff] at h
      obtain ⟨n1, _, n2, _, n3, _, n4, _, m, hm, hn, hh, b, hb, h⟩ := h
      have hm1 := pushIf_length hm
      have hbr : b = r := by
        unfold subslice at hb
        split at hb
        · cases hb; simp
        · cases hb
      subst hbr
      simp only [recordLabels, if_neg et]
      have hk : n.children.length = 1 + (if b = [] then 0 else 1) ∧ ∀ c, n.children.head? = some c → c = hn := by
        by_cases hb0 : b = []
        · rw [if_pos hb0] at h ⊢
          rw [mkNode_node h]
          exact ⟨rfl, fun c k => by cases k; rfl⟩
        · rw [if_neg hb0] at h ⊢
          obtain ⟨bn, _, h⟩ := Option.bind_eq_some_iff.mp h
          rw [mkNode_node h]
          exact ⟨rfl, fun c k => by cases k; rfl⟩
      refine ⟨by rw [hk.1, body_count]; rfl, fun c k => ?_⟩
      rw [hk.2 c k, mkNode_node hh]
      show ([n1, n2, n3, n4] ++ m).length = _
      rw [List.length_append, hm1]
      rfl

/-- **C110** fails for ISIS_ET: the parser reads no microseconds and a body of five octets; the dissection shows
microseconds, and a body of one octet. -/
theorem c110_violation_microseconds :
    ∃ (s s' : Src) (r : Raw), chunk (fun n _ => n) s = (.ok r, s') ∧ r.header.type = .isisEt ∧ r.header.micro = none ∧
      r.body.length = 5 ∧ "Microsecond timestamp: 7".toList ∈ (recordLabels r.bytes).fields ∧
      (recordLabels r.bytes).body = ["Message body (1 bytes)".toList] := by
  refine ⟨⟨[.data 0 [0, 0, 1, 0, 33, 0, 0, 0, 0, 0, 5, 0, 0, 0, 7, 9]], none⟩, ⟨[], none⟩,
    ⟨⟨1, none, .isisEt, 0, 5⟩, [0, 0, 0, 1, 0, 33, 0, 0, 0, 0, 0, 5], [0, 0, 0, 7, 9]⟩, ?_, rfl, rfl, rfl, ?_, ?_⟩
  · rfl
  · decide +kernel
  · decide +kernel

/-- the hypotheses are met: a header and one octet of a body. -/
example : ∃ n, dissectMrtBytes [0, 0, 0, 1, 0, 12, 0, 1, 0, 0, 0, 1, 7] = some n ∧ n.children.length = 2 := ⟨_, rfl, rfl⟩
/-- the hypotheses are met: a BGP4MP_ET record with microseconds. -/
example : ∃ (s s' : Src) (r : Raw), chunk (fun n _ => n) s = (.ok r, s') ∧ r.header.type = .bgp4mpEt ∧ r.header.micro = some 7 :=
  ⟨⟨[.data 0 [0, 0, 1, 0, 17, 0, 4, 0, 0, 0, 5, 0, 0, 0, 7, 9]], none⟩, ⟨[], none⟩,
    ⟨⟨1, some 7, .bgp4mpEt, 4, 1⟩, [0, 0, 0, 1, 0, 17, 0, 4, 0, 0, 0, 5, 0, 0, 0, 7], [9]⟩, rfl, rfl, rfl⟩

end Verif.Props
