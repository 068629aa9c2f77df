import Verif.Lemmas.Dissect
/-
Lemmas about the dissection of path attributes.
-/
namespace Verif
open Spec

theorem two_octets {b : Bytes} (h : b.length = 2) : ∃ x y, b = [x, y] := by
  match b, h with
  | [x, y], _ => exact ⟨x, y, rfl⟩

theorem dissectMpReach_parts {ap : Bool} {ps : List Part} (h : MpReachParts ap ps) (base : Nat)
    (hb : base + (partsBytes ps).length < 4294967296) :
    dissectMpReach (partsBytes ps) base ap = some (partsNodes base ps) := by
  cases h with
  | short v hv =>
    unfold dissectMpReach
    rw [if_neg (by simp; omega)]
    simp
  | cutNextHop afi safi n v ha hv =>
    obtain ⟨x, y, rfl⟩ := two_octets ha
    simp at hb
    unfold dissectMpReach
    rw [if_pos (by simp)]
    simp only [partsBytes_cons, leaf_bytes, partsBytes_nil, List.append_nil, List.cons_append, List.nil_append,
      List.getElem?_cons_zero, List.getElem?_cons_succ, List.length_cons]
    rw [mkNode_ok (by omega) (by omega), mkNode_ok (by omega) (by omega), mkNode_ok (by omega) (by omega)]
    simp only [Option.bind_eq_bind, Option.bind_some]
    rw [if_pos (by omega), usub_ok (by omega)]
    simp only [Option.bind_some]
    rw [mkNode_ok (by omega) (by omega)]
    simp
  | noNlri afi safi n nh ha hn =>
    obtain ⟨x, y, rfl⟩ := two_octets ha
    simp at hb
    unfold dissectMpReach
    rw [if_pos (by simp)]
    simp only [partsBytes_cons, partsBytes_append, shown_bytes, leaf_bytes, partsBytes_nil, List.append_nil, List.cons_append, List.nil_append,
      List.getElem?_cons_zero, List.getElem?_cons_succ, List.length_cons]
    rw [mkNode_ok (by omega) (by omega), mkNode_ok (by omega) (by omega), mkNode_ok (by omega) (by omega)]
    simp only [Option.bind_eq_bind, Option.bind_some]
    rw [if_neg (by omega), pushIf_neg (c := 4 + n.toNat < nh.length + 1 + 1 + 1 + 1) (by omega), if_neg (c := 4 + n.toNat < nh.length + 1 + 1 + 1 + 1) (by omega), if_neg (by omega), ← hn,
      pushIf_shown (b := nh) (by rw [← List.length_pos_iff]) rfl (by omega)]
    simp
  | full afi safi n nh res qs ha hn hw =>
    obtain ⟨x, y, rfl⟩ := two_octets ha
    simp at hb
    unfold dissectMpReach
    rw [if_pos (by simp)]
    simp only [partsBytes_cons, partsBytes_append, shown_bytes, leaf_bytes, partsBytes_nil, List.append_nil, List.cons_append, List.nil_append,
      List.getElem?_cons_zero, List.getElem?_cons_succ, List.length_cons, List.length_append]
    rw [mkNode_ok (by omega) (by omega), mkNode_ok (by omega) (by omega), mkNode_ok (by omega) (by omega)]
    simp only [Option.bind_eq_bind, Option.bind_some]
    rw [if_neg (by omega)]
    have h1 : 4 + n.toNat < nh.length + ((partsBytes qs).length + 1) + 1 + 1 + 1 + 1 := by omega
    rw [if_pos h1, mkNode_ok (o := base + (4 + n.toNat)) (by omega) (by omega), pushIf_pos h1, ← hn,
      pushIf_shown (b := nh) (by rw [← List.length_pos_iff]) rfl (by omega)]
    have hs : subslice (x :: y :: safi :: n :: (nh ++ res :: partsBytes qs)) (4 + nh.length + 1) (nh.length + ((partsBytes qs).length + 1) + 1 + 1 + 1 + 1)
        = some (partsBytes qs) := by
      rw [show x :: y :: safi :: n :: (nh ++ res :: partsBytes qs) = ([x, y, safi, n] ++ nh ++ [res]) ++ (partsBytes qs ++ []) by simp,
        subslice_mid _ _ _ (by simp; omega) (by simp; omega)]
    have hlast : (if 4 + nh.length + 1 < nh.length + ((partsBytes qs).length + 1) + 1 + 1 + 1 + 1 then
        (subslice (x :: y :: safi :: n :: (nh ++ res :: partsBytes qs)) (4 + nh.length + 1) (nh.length + ((partsBytes qs).length + 1) + 1 + 1 + 1 + 1)).bind
          fun s => dissectNlri s (base + (4 + nh.length + 1)) ap else some []) = some (partsNodes (base + (4 + nh.length + 1)) qs) := by
      rw [hs]
      simp only [Option.bind_some]
      rw [dissectNlri_walked hw _ (by omega)]
      split
      · rfl
      next h0 =>
        obtain ⟨items, rest, rfl, hi, hr⟩ := hw
        have hl := items_length prefixItem_pos items hi
        have : items = [] := by
          apply List.length_eq_zero_iff.1
          simp only [partsBytes_append, List.length_append] at h0
          omega
        subst this
        simp
    rw [hlast]
    simp [shown_nodes, Nat.add_assoc]

theorem dissectMpUnreach_parts {ap : Bool} {ps : List Part} (h : MpUnreachParts ap ps) (base : Nat)
    (hb : base + (partsBytes ps).length < 4294967296) :
    dissectMpUnreach (partsBytes ps) base ap = some (partsNodes base ps) := by
  cases h with
  | short v hv =>
    unfold dissectMpUnreach
    rw [if_neg (by simp; omega)]
    simp
  | full afi safi qs ha hw =>
    obtain ⟨x, y, rfl⟩ := two_octets ha
    simp at hb
    unfold dissectMpUnreach
    rw [if_pos (by simp)]
    simp only [partsBytes_cons, leaf_bytes, List.cons_append, List.nil_append,
      List.getElem?_cons_zero, List.getElem?_cons_succ, List.length_cons]
    rw [mkNode_ok (by omega) (by omega), mkNode_ok (by omega) (by omega),
      show x :: y :: safi :: partsBytes qs = [x, y, safi] ++ (partsBytes qs ++ []) by simp,
      subslice_mid _ _ _ (by simp) (by simp; omega)]
    simp only [Option.bind_eq_bind, Option.bind_some]
    rw [dissectNlri_walked hw _ (by omega)]
    simp

theorem fourOctets_parts {f : String} {ps : List Part} (h : FourOctets f ps) (base : Nat)
    (hb : base + (partsBytes ps).length < 4294967296) :
    (if 4 ≤ (partsBytes ps).length then (mkNode f base (partsBytes ps).length []).map ([·]) else some [])
      = some (partsNodes base ps) := by
  obtain ⟨v, rfl⟩ := h
  by_cases h : 4 ≤ v.length
  · rw [if_pos h] at hb ⊢
    simp at hb
    simp only [partsBytes_cons, leaf_bytes, partsBytes_nil, List.append_nil]
    rw [if_pos h, mkNode_ok (by omega) (by omega)]
    simp
  · rw [if_neg h]
    simp [h]

theorem aggregator_parts {ps : List Part} (h : AggregatorParts ps) (base : Nat)
    (hb : base + (partsBytes ps).length < 4294967296) :
    (if 4 < (partsBytes ps).length then do
      let n ← usub (partsBytes ps).length 4
      let a ← mkNode "bgp.attr.aggregator.asn" base n []
      let _ ← subslice (partsBytes ps) n (n + 4)
      let i ← mkNode "bgp.attr.aggregator.id" (base + n) 4 []
      return [a, i]
    else some []) = some (partsNodes base ps) := by
  rcases h with ⟨v, hv, rfl⟩ | ⟨a, id, ha, hi, rfl⟩
  · rw [if_neg (by simp; omega)]
    simp
  · have := List.length_pos_iff.2 ha
    simp at hb
    simp only [partsBytes_cons, leaf_bytes, partsBytes_nil, List.append_nil, List.length_append]
    have hs := subslice_mid a id [] rfl rfl
    simp only [List.append_nil] at hs
    rw [if_pos (by omega), usub_ok (by omega), show a.length + id.length - 4 = a.length by omega]
    simp only [Option.bind_eq_bind, Option.bind_some]
    rw [← hi, hs, mkNode_ok (by omega) (by omega), mkNode_ok (by omega) (by omega)]
    simp

theorem toNat_of_ne {c : UInt8} {n : Nat} (hn : n < 256) : c.toNat = n ↔ c = UInt8.ofNat n := by
  constructor
  · intro h
    apply UInt8.toNat_inj.1
    rw [h]; simp; omega
  · rintro rfl
    simp; omega

theorem dissectAttrValue_parts {k : Nat} {ap : Bool} {c : UInt8} {ps : List Part} (h : AttrValueParts k ap c ps) (base : Nat)
    (hb : base + (partsBytes ps).length < 4294967296) :
    dissectAttrValue c (partsBytes ps) base k ap = some (partsNodes base ps) := by
  unfold dissectAttrValue
  unfold AttrValueParts at h
  split at h
  case h_1 e =>
    rw [(toNat_of_ne (by omega)).1 e]
    rw [if_pos (c := UInt8.ofNat 1 = 1) rfl]
    rcases h with rfl | ⟨v, r, rfl⟩
    · simp
    · simp at hb
      simp only [partsBytes_cons, leaf_bytes, List.cons_append, List.nil_append, List.head?_cons]
      rw [mkNode_ok (by omega) (by omega)]
      simp
  case h_2 e => rw [(toNat_of_ne (by omega)).1 e]; exact rounds_segments h base hb
  case h_3 e => rw [(toNat_of_ne (by omega)).1 e]; exact fourOctets_parts h base hb
  case h_4 e =>
    rw [(toNat_of_ne (by omega)).1 e]
    have := fourOctets_parts h base hb
    simpa [hasU32] using this
  case h_5 e =>
    rw [(toNat_of_ne (by omega)).1 e]
    have := fourOctets_parts h base hb
    simpa [hasU32] using this
  case h_6 e => rw [(toNat_of_ne (by omega)).1 e]; exact aggregator_parts h base hb
  case h_7 e => rw [(toNat_of_ne (by omega)).1 e]; exact rounds_entries (by omega) h base hb
  case h_8 e => rw [(toNat_of_ne (by omega)).1 e]; exact fourOctets_parts h base hb
  case h_9 e => rw [(toNat_of_ne (by omega)).1 e]; exact rounds_entries (by omega) h base hb
  case h_10 e => rw [(toNat_of_ne (by omega)).1 e]; exact dissectMpReach_parts h base hb
  case h_11 e => rw [(toNat_of_ne (by omega)).1 e]; exact dissectMpUnreach_parts h base hb
  case h_12 e => rw [(toNat_of_ne (by omega)).1 e]; exact rounds_entries (by omega) h base hb
  case h_13 e => rw [(toNat_of_ne (by omega)).1 e]; exact rounds_segments h base hb
  case h_14 e => rw [(toNat_of_ne (by omega)).1 e]; exact aggregator_parts h base hb
  case h_15 e => rw [(toNat_of_ne (by omega)).1 e]; exact rounds_entries (by omega) h base hb
  case h_16 e => rw [(toNat_of_ne (by omega)).1 e]; exact rounds_aigp h base hb
  case h_17 e => rw [(toNat_of_ne (by omega)).1 e]; exact rounds_entries (by omega) h base hb
  case h_18 e =>
    rw [(toNat_of_ne (by omega)).1 e]
    have := fourOctets_parts h base hb
    simpa [hasU32] using this
  case h_19 h1 h2 h3 h4 h5 h6 h7 h8 h9 h10 h11 h12 h13 h14 h15 h16 h17 h18 =>
    obtain ⟨v, rfl⟩ := h
    have hc : ∀ n : Nat, n < 256 → c = UInt8.ofNat n → c.toNat = n := fun n hn h => (toNat_of_ne hn).2 h
    rw [if_neg (c := c = 1) (fun h => h1 (hc 1 (by omega) h)), if_neg (c := c = 2) (fun h => h2 (hc 2 (by omega) h)),
      if_neg (c := c = 17) (fun h => h13 (hc 17 (by omega) h)), if_neg (c := c = 3) (fun h => h3 (hc 3 (by omega) h)),
      if_neg (c := c = 4 ∨ c = 5 ∨ c = 35) (by rintro (h | h | h); exact h4 (hc 4 (by omega) h); exact h5 (hc 5 (by omega) h); exact h18 (hc 35 (by omega) h)),
      if_neg (c := c = 7 ∨ c = 18) (by rintro (h | h); exact h6 (hc 7 (by omega) h); exact h14 (hc 18 (by omega) h)),
      if_neg (c := c = 8) (fun h => h7 (hc 8 (by omega) h)), if_neg (c := c = 9) (fun h => h8 (hc 9 (by omega) h)),
      if_neg (c := c = 10) (fun h => h9 (hc 10 (by omega) h)), if_neg (c := c = 14) (fun h => h10 (hc 14 (by omega) h)),
      if_neg (c := c = 15) (fun h => h11 (hc 15 (by omega) h)), if_neg (c := c = 16) (fun h => h12 (hc 16 (by omega) h)),
      if_neg (c := c = 25) (fun h => h15 (hc 25 (by omega) h)), if_neg (c := c = 26) (fun h => h16 (hc 26 (by omega) h)),
      if_neg (c := c = 32) (fun h => h17 (hc 32 (by omega) h))]
    simp

/-! ### every value has a description -/

theorem mpReach_exists (ap : Bool) (d : Bytes) : ∃ ps, MpReachParts ap ps ∧ partsBytes ps = d := by
  match d with
  | x :: y :: s :: n :: r =>
    by_cases h : r.length < n.toNat
    · exact ⟨_, .cutNextHop [x, y] s n r rfl h, by simp⟩
    · by_cases h' : r.length = n.toNat
      · exact ⟨_, .noNlri [x, y] s n r rfl h', by simp⟩
      · have hd : r.drop n.toNat ≠ [] := by
          intro hc
          simp at hc
          omega
        obtain ⟨z, q, hz⟩ := List.exists_cons_of_ne_nil hd
        obtain ⟨ps, hw, hq⟩ := walked_exists' (prefixItem_pos (ap := ap)) q
        refine ⟨_, .full [x, y] s n (r.take n.toNat) z ps rfl (by simp; omega) hw, ?_⟩
        simp [hq, ← hz]
  | [] => exact ⟨_, .short [] (by simp), rfl⟩
  | [a] => exact ⟨_, .short [a] (by simp), rfl⟩
  | [a, b] => exact ⟨_, .short [a, b] (by simp), rfl⟩
  | [a, b, c] => exact ⟨_, .short [a, b, c] (by simp), rfl⟩

theorem mpUnreach_exists (ap : Bool) (d : Bytes) : ∃ ps, MpUnreachParts ap ps ∧ partsBytes ps = d := by
  match d with
  | x :: y :: s :: r =>
    obtain ⟨ps, hw, hq⟩ := walked_exists' (prefixItem_pos (ap := ap)) r
    exact ⟨_, .full [x, y] s ps rfl hw, by simp [hq]⟩
  | [] => exact ⟨_, .short [] (by simp), rfl⟩
  | [a] => exact ⟨_, .short [a] (by simp), rfl⟩
  | [a, b] => exact ⟨_, .short [a, b] (by simp), rfl⟩

theorem fourOctets_exists (f : String) (d : Bytes) : ∃ ps, FourOctets f ps ∧ partsBytes ps = d := by
  refine ⟨_, ⟨d, rfl⟩, ?_⟩
  split <;> simp

theorem aggregator_exists (d : Bytes) : ∃ ps, AggregatorParts ps ∧ partsBytes ps = d := by
  by_cases h : d.length ≤ 4
  · exact ⟨_, .inl ⟨d, h, rfl⟩, by simp⟩
  · refine ⟨_, .inr ⟨d.take (d.length - 4), d.drop (d.length - 4), ?_, ?_, rfl⟩, by simp⟩
    · intro hc
      have := congrArg List.length hc
      simp at this
      omega
    · simp; omega

theorem attrValue_exists (k : Nat) (ap : Bool) (c : UInt8) (d : Bytes) :
    ∃ ps, AttrValueParts k ap c ps ∧ partsBytes ps = d := by
  unfold AttrValueParts
  split
  case h_1 =>
    match d with
    | [] => exact ⟨[], .inl rfl, rfl⟩
    | v :: r => exact ⟨_, .inr ⟨v, r, rfl⟩, by simp⟩
  all_goals first
    | exact walked_exists' segmentItem_pos d
    | exact walked_exists' (entryItem_pos (by omega)) d
    | exact walked_exists' aigpItem_pos d
    | exact fourOctets_exists _ d
    | exact aggregator_exists d
    | exact mpReach_exists ap d
    | exact mpUnreach_exists ap d
    | exact ⟨_, ⟨d, rfl⟩, by simp⟩

/-! ### the attribute list -/

theorem attrName_eq (c : UInt8) : attrField c = attrName c := rfl

theorem lenField_length {two : Bool} {n : Nat} {b : Bytes} (h : LenField two n b) : b.length = if two then 2 else 1 := by
  unfold LenField at h
  split at h
  · rw [h.2]; simp_all
  · rw [h.2]; simp_all

theorem lenField_lt {two : Bool} {n : Nat} {b : Bytes} (h : LenField two n b) : n < 65536 := by
  unfold LenField at h
  split at h
  · exact h.1
  · omega

/-- reading the length of an attribute -/
theorem lenField_get {two : Bool} {n : Nat} {b : Bytes} (h : LenField two n b) (t : Bytes) :
    (if two then getU16 (b ++ t) 0 else ((b ++ t)[0]?).map UInt8.toNat) = some n := by
  unfold LenField at h
  cases two with
  | true =>
    simp at h
    rw [h.2, if_pos rfl, getU16_n16 h.1]
  | false =>
    simp at h
    rw [h.2]
    simp
    omega

theorem lenField_exists_two (a b : UInt8) : LenField true (u16of a b).toNat [a, b] := by
  unfold LenField
  rw [if_pos rfl]
  refine ⟨UInt16.toNat_lt _, ?_⟩
  rw [← be16_n16, be16_u16of]

theorem lenField_exists_one (a : UInt8) : LenField false a.toNat [a] := by
  unfold LenField
  simp
  exact UInt8.toNat_lt a

theorem attrStep_item {k : Nat} {ap : Bool} {d : Bytes} {base : Nat} (pre : Bytes) (e : Part) (t : Bytes)
    (hd : d = pre ++ (e.bytes ++ t)) (hb : base + d.length < 4294967296) (h : AttrItem k ap e) :
    ∃ n, attrStep d base k ap pre.length = some (some (n, pre.length + e.bytes.length)) ∧ e.nodes (base + pre.length) = [n] := by
  obtain ⟨f, c, lb, v, hl, hv, rfl⟩ := h
  have hll := lenField_length hl
  simp only [group_bytes, partsBytes_cons, leaf_bytes, partsBytes_nil, List.append_nil, List.cons_append, List.nil_append,
    List.append_assoc] at hd
  have hlen : d.length = pre.length + (2 + lb.length + (partsBytes v).length + t.length) := by
    rw [hd]; simp; omega
  have hg := lenField_get hl (partsBytes v ++ t)
  have h2 : d[pre.length + 2]? = (lb ++ (partsBytes v ++ t))[0]? := by rw [hd, get_pre]; rfl
  have h2' : getU16 d (pre.length + 2) = getU16 (lb ++ (partsBytes v ++ t)) 0 := by rw [hd, getU16_pre]; rfl
  have hs : subslice d (pre.length + (2 + lb.length)) (pre.length + (2 + lb.length) + (partsBytes v).length) = some (partsBytes v) := by
    rw [hd, show pre ++ f :: c :: (lb ++ (partsBytes v ++ t)) = (pre ++ [f, c] ++ lb) ++ (partsBytes v ++ t) by simp]
    exact subslice_mid _ _ _ (by simp; omega) (by simp; omega)
  have hh : (if (f &&& 0x10 != 0) = true then 4 else 3) = 2 + lb.length := by
    rw [hll]; unfold longLen; split <;> rfl
  unfold attrStep
  have hpos : 1 ≤ lb.length := by rw [hll]; split <;> omega
  rw [if_pos (by omega), hd, get_pre0, get_pre, ← hd]
  simp only [List.getElem?_cons_zero, List.getElem?_cons_succ, Option.bind_eq_bind, Option.bind_some]
  rw [hh, if_neg (by omega), h2, h2']
  unfold longLen at hg
  rw [hg]
  dsimp only
  rw [if_neg (by omega), hs]
  simp only [Option.bind_some]
  rw [dissectAttrValue_parts hv _ (by omega), mkNode_ok (by omega) (by omega), mkNode_ok (by omega) (by omega),
    mkNode_ok (by omega) (by omega)]
  simp only [Option.bind_some]
  rw [mkNode_ok (by omega) (by omega)]
  simp only [Option.bind_some]
  rw [mkNode_ok (by omega) (by omega)]
  refine ⟨_, ?_, group_nodes _ _ _⟩
  simp [attrName_eq]
  rw [show base + (pre.length + (2 + lb.length)) = base + pre.length + 1 + 1 + lb.length by omega]
  exact ⟨⟨by omega, rfl, rfl⟩, by omega⟩

end Verif
