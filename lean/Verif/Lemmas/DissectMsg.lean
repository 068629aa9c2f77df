import Verif.Lemmas.DissectUpdate
/-
OPEN, NOTIFICATION, ROUTE-REFRESH and the whole BGP message: the dissector shows what the description says.
-/
namespace Verif
open Spec

/-! ### capabilities -/

theorem capabilityItem_pos (e : Part) (h : CapabilityItem e) : e.bytes ≠ [] := by
  obtain ⟨c, n, v, _, rfl⟩ := h
  simp

theorem rounds_capabilities {ps : List Part} (hw : Walked CapabilityItem ps) (base : Nat)
    (hb : base + (partsBytes ps).length < 4294967296) :
    rounds (capStep (partsBytes ps) base) ((partsBytes ps).length + 1) 0 = some (partsNodes base ps) := by
  apply rounds_walked hw capabilityItem_pos
  · intro pre e t hd ⟨c, n, v, hl, he⟩
    subst he
    rw [hd] at hb ⊢
    simp at hb
    unfold capStep
    simp only [group_bytes, partsBytes_cons, leaf_bytes, gap_bytes, partsBytes_nil, List.append_nil, List.cons_append, List.nil_append]
    rw [if_pos (by simp), get_pre0, get_pre]
    simp only [List.getElem?_cons_zero, List.getElem?_cons_succ, Option.bind_eq_bind, Option.bind_some]
    rw [if_neg (by simp; omega), mkNode_ok (by omega) (by omega), mkNode_ok (by omega) (by omega)]
    simp only [Option.bind_some]
    rw [mkNode_ok (by omega) (by omega)]
    simp [hl]
    omega
  · intro pre rest hd hr
    rw [hd]
    unfold capStep
    split
    · rename_i h
      simp at h
      match rest, h with
      | c :: n :: r, _ =>
        rw [get_pre0, get_pre]
        simp only [List.getElem?_cons_zero, List.getElem?_cons_succ, Option.bind_eq_bind, Option.bind_some]
        rw [if_pos]
        apply Classical.byContradiction
        intro h'
        simp at h'
        refine hr _ (r.drop n.toNat) ⟨c, n, r.take n.toNat, ?_, rfl⟩ (by simp)
        simp; omega
    · rfl

/-! ### optional parameters -/

theorem paramItem_pos {x : Bool} (e : Part) (h : ParamItem x e) : e.bytes ≠ [] := by
  obtain ⟨t, lb, v, _, _, rfl⟩ := h
  simp

theorem lenField_get' {two : Bool} {n : Nat} {b : Bytes} (h : LenField two n b) (t : Bytes) :
    (if two then getU16 (b ++ t) 0 else some (((b ++ t)[0]?).getD 0).toNat) = some n := by
  unfold LenField at h
  cases two with
  | true =>
    simp at h
    rw [h.2, if_pos rfl, getU16_n16 h.1]
  | false =>
    simp at h
    rw [h.2]
    simp
    omega

theorem paramValue_parts {ty : UInt8} {v : List Part} (base : Nat)
    (hv : if ty = 2 then Walked CapabilityItem v else ∃ x : Bytes, v = [leaf "bgp.open.param.value" x])
    (hb : base + (partsBytes v).length < 4294967296) :
    (if ty = 2 then rounds (capStep (partsBytes v) base) ((partsBytes v).length + 1) 0
      else pushIf True (mkNode "bgp.open.param.value" base (partsBytes v).length [])) = some (partsNodes base v) := by
  by_cases h : ty = 2
  · rw [if_pos h] at hv ⊢
    exact rounds_capabilities hv base hb
  · rw [if_neg h] at hv ⊢
    obtain ⟨x, rfl⟩ := hv
    rw [mkNode_ok (by omega) (by omega), pushIf_pos trivial]
    simp

theorem paramNode_item {x : Bool} {d : Bytes} {base : Nat} (pre : Bytes) (e : Part) (t : Bytes)
    (hd : d = pre ++ (e.bytes ++ t)) (hb : base + d.length < 4294967296) (h : ParamItem x e) :
    pre.length + 2 ≤ d.length ∧ ∃ ty, d[pre.length]? = some ty ∧
    ∃ n, paramNode d base x pre.length ty = some (some (n, pre.length + e.bytes.length)) ∧ e.nodes (base + pre.length) = [n] := by
  obtain ⟨ty, lb, v, hl, hv, rfl⟩ := h
  have hll := lenField_length hl
  have hpos : 1 ≤ lb.length := by rw [hll]; split <;> omega
  simp only [group_bytes, partsBytes_cons, leaf_bytes, List.cons_append, List.nil_append, List.append_assoc] at hd
  have hlen : d.length = pre.length + (1 + lb.length + (partsBytes v).length + t.length) := by
    rw [hd]; simp; omega
  refine ⟨by omega, ty, by rw [hd, get_pre0]; rfl, ?_⟩
  have hg := lenField_get' hl (partsBytes v ++ t)
  have h2 : d[pre.length + 1]? = (lb ++ (partsBytes v ++ t))[0]? := by rw [hd, get_pre]; rfl
  have h2' : getU16 d (pre.length + 1) = getU16 (lb ++ (partsBytes v ++ t)) 0 := by rw [hd, getU16_pre]; rfl
  have hs : subslice d (pre.length + (1 + lb.length)) (pre.length + (1 + lb.length) + (partsBytes v).length) = some (partsBytes v) := by
    rw [hd, show pre ++ ty :: (lb ++ (partsBytes v ++ t)) = (pre ++ [ty] ++ lb) ++ (partsBytes v ++ t) by simp]
    exact subslice_mid _ _ _ (by simp; omega) (by simp; omega)
  unfold paramNode
  rw [h2, h2', hg, ← hll]
  dsimp only
  rw [if_neg (by omega), hs, mkNode_ok (by omega) (by omega), mkNode_ok (by omega) (by omega)]
  simp only [Option.bind_eq_bind, Option.bind_some]
  rw [paramValue_parts _ hv (by omega)]
  simp only [Option.bind_some]
  rw [mkNode_ok (by omega) (by omega)]
  refine ⟨_, ?_, group_nodes _ _ _⟩
  simp
  rw [show base + (pre.length + (1 + lb.length)) = base + pre.length + 1 + lb.length by omega]
  exact ⟨⟨by omega, rfl⟩, by omega⟩

theorem paramNode_stop {x : Bool} {base : Nat} (pre : Bytes) (ty : UInt8) (b : UInt8) (r : Bytes)
    (hr : ∀ e t, ParamItem x e → ty :: b :: r ≠ e.bytes ++ t) :
    paramNode (pre ++ ty :: b :: r) base x pre.length ty = some none := by
  have key : ∀ (n : Nat) (lb : Bytes) (t : Bytes), LenField x n lb → b :: r = lb ++ t → t.length < n := by
    intro n lb t hl hlt
    apply Classical.byContradiction
    intro hc
    have hv : ∃ v, (if ty = 2 then Walked CapabilityItem v else ∃ x : Bytes, v = [leaf "bgp.open.param.value" x]) ∧ partsBytes v = t.take n := by
      by_cases h : ty = 2
      · simp only [if_pos h]; exact walked_exists' capabilityItem_pos _
      · simp only [if_neg h]; exact ⟨_, ⟨t.take n, rfl⟩, by simp⟩
    obtain ⟨v, hv, hvb⟩ := hv
    refine hr _ (t.drop n) ⟨ty, lb, v, ?_, hv, rfl⟩ ?_
    · have : (partsBytes v).length = n := by rw [hvb]; simp; omega
      rw [this]; exact hl
    · simp [hvb, hlt]
  unfold paramNode
  rw [get_pre, getU16_pre]
  cases x with
  | false =>
    have := key b.toNat [b] r (lenField_exists_one b) rfl
    simp
    omega
  | true =>
    match r, key with
    | [], _ => simp [getU16]
    | c :: r, key =>
      have := key _ [b, c] r (lenField_exists_two b c) rfl
      simp [getU16]
      omega

/-- the rounds over the parameters after the first decision -/
theorem paramStep_items {x : Bool} {ps : List Part} (hw : Walked (ParamItem x) ps) (base : Nat) (o : UInt8) (pre : Bytes) (fuel : Nat)
    (hb : base + (pre ++ partsBytes ps).length < 4294967296) (hf : (partsBytes ps).length < fuel) :
    rounds (paramStep (pre ++ partsBytes ps) base o) fuel (pre.length, x, false) = some (partsNodes (base + pre.length) ps) := by
  obtain ⟨items, rest, rfl, hi, hr⟩ := hw
  have hl := items_length paramItem_pos items hi
  simp at hf
  have hstep : ∀ q e t, pre ++ partsBytes (items ++ [.gap rest]) = q ++ (e.bytes ++ t) → ParamItem x e →
      ∃ n, paramStep (pre ++ partsBytes (items ++ [.gap rest])) base o (q.length, x, false)
        = some (some (n, (q.length + e.bytes.length, x, false))) ∧ e.nodes (base + q.length) = [n] := by
    intro q e t hd he
    obtain ⟨h1, ty, h2, n, h3, h4⟩ := paramNode_item q e t hd hb he
    refine ⟨n, ?_, h4⟩
    unfold paramStep; dsimp only
    rw [if_pos h1, h2]
    simp only [Option.bind_eq_bind, Option.bind_some]
    rw [if_neg (by simp), h3]
    rfl
  have hstop : ∀ q r, pre ++ partsBytes (items ++ [.gap rest]) = q ++ r → (∀ e t, ParamItem x e → r ≠ e.bytes ++ t) →
      paramStep (pre ++ partsBytes (items ++ [.gap rest])) base o (q.length, x, false) = some none := by
    intro q r hd hr
    rw [hd]
    unfold paramStep; dsimp only
    split
    · rename_i h
      simp at h
      match r, h, hr with
      | ty :: b :: r, _, hr =>
        rw [get_pre0]
        simp [paramNode_stop q ty b r hr]
    · rfl
  have := rounds_items (at' := fun p => (p, x, false)) hstep hstop items rest pre fuel (by simp) hi hr (by omega)
  simpa using this

theorem dissectParams_parts {o : UInt8} {ps : List Part} (h : ParamsParts o ps) (base : Nat) (pre : Bytes)
    (hb : base + (pre ++ partsBytes ps).length < 4294967296) :
    rounds (paramStep (pre ++ partsBytes ps) base o) ((pre ++ partsBytes ps).length + 1) (pre.length, false, true)
      = some (partsNodes (base + pre.length) ps) := by
  cases h with
  | extended n qs ho hn hq =>
    simp at hb
    simp only [partsBytes_cons, leaf_bytes]
    have hlen : (pre ++ (255 :: n16 n ++ partsBytes qs)).length = pre.length + 3 + (partsBytes qs).length := by simp; omega
    have hstep : paramStep (pre ++ (255 :: n16 n ++ partsBytes qs)) base o (pre.length, false, true)
        = some (some (.mk "bgp.open.ext_params_len" (base + pre.length) 3 [],
            (if n = 0 then pre.length + 3 + (partsBytes qs).length else pre.length + 3), true, false)) := by
      unfold paramStep; dsimp only
      rw [if_pos (by omega), get_pre0]
      simp only [List.cons_append, List.getElem?_cons_zero, Option.bind_eq_bind, Option.bind_some]
      rw [if_pos ⟨trivial, trivial, ho⟩, ← List.cons_append, if_neg (by omega), getU16_pre]
      have hg : getU16 (255 :: n16 n ++ partsBytes qs) 1 = some n := getU16_n16 hn (partsBytes qs)
      rw [hg, mkNode_ok (by omega) (by omega), hlen]
      simp
    rw [rounds, hstep]
    dsimp only
    by_cases h0 : n = 0
    · rw [if_pos h0] at hq ⊢
      obtain ⟨b, rfl⟩ := hq
      rw [hlen]
      rw [show pre.length + 3 + (partsBytes [Part.gap b]).length = (pre.length + 2 + (partsBytes [Part.gap b]).length) + 1 by omega, rounds]
      unfold paramStep; dsimp only
      rw [if_neg (by simp; omega)]
      simp
    · rw [if_neg h0] at hq ⊢
      have := paramStep_items hq base o (pre ++ 255 :: n16 n) (pre.length + 3 + (partsBytes qs).length) (by simp; omega) (by omega)
      rw [List.append_assoc] at this
      simp only [List.length_append, List.length_cons, n16_length] at this
      rw [hlen]
      rw [this]
      simp [Nat.add_assoc]
  | cutExtended b ho =>
    simp only [partsBytes_cons, gap_bytes, partsBytes_nil, List.append_nil]
    rw [rounds]
    unfold paramStep; dsimp only
    rw [if_pos (by simp), get_pre0]
    simp only [List.getElem?_cons_zero, Option.bind_eq_bind, Option.bind_some]
    rw [if_pos ⟨trivial, trivial, ho⟩, if_pos (by simp)]
    simp
  | plain _ hn hw =>
    -- the first round is like the others
    have h1 : paramStep (pre ++ partsBytes ps) base o (pre.length, false, true) = paramStep (pre ++ partsBytes ps) base o (pre.length, false, false) := by
      unfold paramStep; dsimp only
      split
      · rename_i h
        rw [get_pre0]
        simp at h
        match hd : partsBytes ps, h with
        | ty :: b :: r, _ =>
          simp only [List.getElem?_cons_zero, Option.bind_eq_bind, Option.bind_some]
          rw [if_neg, if_neg (by simp)]
          rintro ⟨_, rfl, ho⟩
          exact hn b r ho hd
      · rfl
    have := paramStep_items hw base o pre ((pre ++ partsBytes ps).length + 1) hb (by simp; omega)
    rw [rounds] at this ⊢
    rw [h1]
    exact this

theorem params_exists (o : UInt8) (d : Bytes) : ∃ ps, ParamsParts o ps ∧ partsBytes ps = d := by
  by_cases h : o ≠ 0 ∧ ∃ b t, d = 255 :: b :: t
  · obtain ⟨ho, b, t, rfl⟩ := h
    match t with
    | [] => exact ⟨_, .cutExtended b ho, by simp⟩
    | c :: r =>
      have hn : (u16of b c).toNat < 65536 := UInt16.toNat_lt _
      by_cases h0 : (u16of b c).toNat = 0
      · exact ⟨_, .extended _ [.gap r] ho hn (by rw [if_pos h0]; exact ⟨r, rfl⟩), by simp [n16_exists]⟩
      · obtain ⟨ps, hp, hb⟩ := walked_exists' (paramItem_pos (x := true)) r
        exact ⟨_, .extended _ ps ho hn (by rw [if_neg h0]; exact hp), by simp [n16_exists, hb]⟩
  · obtain ⟨ps, hp, hb⟩ := walked_exists' (paramItem_pos (x := false)) d
    refine ⟨ps, .plain ps ?_ hp, hb⟩
    intro b t ho he
    exact h ⟨ho, b, t, by rw [← hb, he]⟩

/-! ### OPEN -/

theorem dissectOpenFields_parts {ps : List Part} (h : OpenParts ps) (base : Nat)
    (hb : base + (partsBytes ps).length < 4294967296) :
    dissectOpenFields (partsBytes ps) base = some (partsNodes base ps) := by
  unfold dissectOpenFields
  cases h with
  | short b hl =>
    simp only [shown_bytes] at hb ⊢
    rw [if_pos hl]
    exact pushIf_shown (by simp) rfl hb
  | full v asn hold id o ps ha hh hi hp =>
    obtain ⟨a1, a2, rfl⟩ := two_octets ha
    obtain ⟨h1, h2, rfl⟩ := two_octets hh
    match id, hi with
    | [i1, i2, i3, i4], _ =>
      simp at hb
      have hw := dissectParams_parts hp base [v, a1, a2, h1, h2, i1, i2, i3, i4, o] (by simp; omega)
      simp only [partsBytes_append, partsBytes_cons, leaf_bytes, partsBytes_nil, List.append_nil, List.cons_append, List.nil_append] at hw ⊢
      rw [if_neg (by simp), mkNode_ok (by omega) (by omega), mkNode_ok (by omega) (by omega), mkNode_ok (by omega) (by omega),
        mkNode_ok (by omega) (by omega), mkNode_ok (by omega) (by omega)]
      simp only [Option.bind_eq_bind, Option.bind_some, List.getElem?_cons_zero, List.getElem?_cons_succ]
      simp only [List.length_cons, List.length_nil, Nat.zero_add, Nat.reduceAdd] at hw ⊢
      rw [hw]
      simp [Nat.add_assoc]

theorem open_exists (d : Bytes) : ∃ ps, OpenParts ps ∧ partsBytes ps = d := by
  match d with
  | v :: a1 :: a2 :: h1 :: h2 :: i1 :: i2 :: i3 :: i4 :: o :: r =>
    obtain ⟨ps, hp, hb⟩ := params_exists o r
    exact ⟨_, .full v [a1, a2] [h1, h2] [i1, i2, i3, i4] o ps rfl rfl rfl hp, by simp [hb]⟩
  | [] => exact ⟨_, .short [] (by simp), by simp⟩
  | [a] => exact ⟨_, .short [a] (by simp), by simp⟩
  | [a, b] => exact ⟨_, .short [a, b] (by simp), by simp⟩
  | [a, b, c] => exact ⟨_, .short [a, b, c] (by simp), by simp⟩
  | [a, b, c, d] => exact ⟨_, .short [a, b, c, d] (by simp), by simp⟩
  | [a, b, c, d, e] => exact ⟨_, .short [a, b, c, d, e] (by simp), by simp⟩
  | [a, b, c, d, e, f] => exact ⟨_, .short [a, b, c, d, e, f] (by simp), by simp⟩
  | [a, b, c, d, e, f, g] => exact ⟨_, .short [a, b, c, d, e, f, g] (by simp), by simp⟩
  | [a, b, c, d, e, f, g, h] => exact ⟨_, .short [a, b, c, d, e, f, g, h] (by simp), by simp⟩
  | [a, b, c, d, e, f, g, h, i] => exact ⟨_, .short [a, b, c, d, e, f, g, h, i] (by simp), by simp⟩

/-! ### NOTIFICATION, ROUTE-REFRESH -/

theorem dissectNotification_parts {ps : List Part} (h : NotificationParts ps) (base : Nat)
    (hb : base + (partsBytes ps).length < 4294967296) :
    (dissectNotification (partsBytes ps) base).map ([·]) = some (Part.nodes base (.group "bgp.notification" ps)) := by
  unfold dissectNotification
  cases h with
  | empty => simp at hb; simp [pushIf]; rw [mkNode_ok (by omega) (by omega)]
  | code c =>
    simp at hb
    rw [mkNode_ok (by omega) (by omega), pushIf_pos (by simp), pushIf_neg (by simp), pushIf_neg (by simp)]
    simp only [Option.bind_eq_bind, Option.bind_some]
    rw [mkNode_ok (by omega) (by simp)]
    simp
  | full c s b =>
    simp at hb
    simp only [group_nodes, partsBytes_append, shown_bytes, partsBytes_cons, leaf_bytes, partsBytes_nil, List.append_nil, List.cons_append, List.nil_append]
    rw [mkNode_ok (by omega) (by omega), pushIf_pos (by simp), mkNode_ok (by omega) (by omega), pushIf_pos (by simp),
      pushIf_shown (b := b) (by rw [← List.length_pos_iff]; simp) (by simp) (by omega)]
    simp only [Option.bind_eq_bind, Option.bind_some]
    rw [mkNode_ok (by omega) (by simp; omega)]
    simp

theorem notification_exists (d : Bytes) : ∃ ps, NotificationParts ps ∧ partsBytes ps = d := by
  match d with
  | [] => exact ⟨_, .empty, rfl⟩
  | [c] => exact ⟨_, .code c, by simp⟩
  | c :: s :: b => exact ⟨_, .full c s b, by simp⟩

theorem dissectRouteRefresh_parts {ps : List Part} (h : RefreshParts ps) (base : Nat)
    (hb : base + (partsBytes ps).length < 4294967296) :
    (dissectRouteRefresh (partsBytes ps) base).map ([·]) = some (Part.nodes base (.group "bgp.route_refresh" ps)) := by
  unfold dissectRouteRefresh
  cases h with
  | short b hl =>
    simp at hb
    simp only [partsBytes_cons, gap_bytes, partsBytes_nil, List.append_nil, group_nodes]
    rw [pushIf_neg (by omega), pushIf_neg (by omega), pushIf_neg (by omega), pushIf_neg (by omega)]
    simp only [Option.bind_eq_bind, Option.bind_some]
    rw [mkNode_ok (by omega) (by omega)]
    simp
  | full afi sub safi b ha =>
    obtain ⟨x, y, rfl⟩ := two_octets ha
    simp at hb
    simp only [group_nodes, partsBytes_append, shown_bytes, partsBytes_cons, leaf_bytes, partsBytes_nil, List.append_nil, List.cons_append, List.nil_append]
    rw [mkNode_ok (by omega) (by omega), pushIf_pos (by simp), mkNode_ok (by omega) (by omega), pushIf_pos (by simp),
      mkNode_ok (by omega) (by omega), pushIf_pos (by simp),
      pushIf_shown (b := b) (by rw [← List.length_pos_iff]; simp) (by simp) (by omega)]
    simp only [Option.bind_eq_bind, Option.bind_some]
    rw [mkNode_ok (by omega) (by simp; omega)]
    simp

theorem refresh_exists (d : Bytes) : ∃ ps, RefreshParts ps ∧ partsBytes ps = d := by
  match d with
  | x :: y :: s :: t :: b => exact ⟨_, .full [x, y] s t b rfl, by simp⟩
  | [] => exact ⟨_, .short [] (by simp), by simp⟩
  | [a] => exact ⟨_, .short [a] (by simp), by simp⟩
  | [a, b] => exact ⟨_, .short [a, b] (by simp), by simp⟩
  | [a, b, c] => exact ⟨_, .short [a, b, c] (by simp), by simp⟩

/-! ### the body and the message -/

theorem dissectBody_parts {l : AsnLen} {ap : Bool} {ty : UInt8} {ps : List Part} (h : BodyParts l.octets ap ty ps) (base : Nat)
    (hb : base + (partsBytes ps).length < 4294967296) :
    dissectBody ty (partsBytes ps) base l ap = some (partsNodes base ps) := by
  unfold dissectBody
  cases h with
  | open_ qs h =>
    simp at hb
    rw [if_pos rfl]
    simp only [partsBytes_cons, group_bytes, partsBytes_nil, List.append_nil]
    unfold dissectOpen
    rw [dissectOpenFields_parts h base hb]
    simp only [Option.bind_eq_bind, Option.bind_some]
    rw [mkNode_ok (by omega) (by omega)]
    simp
  | update qs h =>
    simp at hb
    rw [if_neg (by decide), if_pos rfl]
    simp only [partsBytes_cons, group_bytes, partsBytes_nil, List.append_nil]
    unfold dissectUpdate
    rw [dissectUpdateFields_parts h base hb]
    simp only [Option.bind_eq_bind, Option.bind_some]
    rw [mkNode_ok (by omega) (by omega)]
    simp
  | notification qs h =>
    simp at hb
    rw [if_neg (by decide), if_neg (by decide), if_pos rfl]
    simp only [partsBytes_cons, group_bytes, partsBytes_nil, List.append_nil]
    rw [dissectNotification_parts h base hb]
    simp
  | keepalive b => rw [if_neg (by decide), if_neg (by decide), if_neg (by decide), if_pos rfl]; simp
  | refresh qs h =>
    simp at hb
    rw [if_neg (by decide), if_neg (by decide), if_neg (by decide), if_neg (by decide), if_pos rfl]
    simp only [partsBytes_cons, group_bytes, partsBytes_nil, List.append_nil]
    rw [dissectRouteRefresh_parts h base hb]
    simp
  | other _ b h =>
    simp at h hb
    rw [if_neg h.1, if_neg h.2.1, if_neg h.2.2.1, if_neg h.2.2.2.1, if_neg h.2.2.2.2]
    simp only [partsBytes_cons, leaf_bytes, partsBytes_nil, List.append_nil]
    rw [mkNode_ok (by omega) (by omega)]
    simp

theorem body_exists (l : AsnLen) (ap : Bool) (ty : UInt8) (d : Bytes) : ∃ ps, BodyParts l.octets ap ty ps ∧ partsBytes ps = d := by
  by_cases h1 : ty = 1
  · subst h1; obtain ⟨ps, h, hb⟩ := open_exists d; exact ⟨_, .open_ ps h, by simp [hb]⟩
  by_cases h2 : ty = 2
  · subst h2; obtain ⟨ps, h, hb⟩ := update_exists l ap d; exact ⟨_, .update ps h, by simp [hb]⟩
  by_cases h3 : ty = 3
  · subst h3; obtain ⟨ps, h, hb⟩ := notification_exists d; exact ⟨_, .notification ps h, by simp [hb]⟩
  by_cases h4 : ty = 4
  · subst h4; exact ⟨_, .keepalive d, by simp⟩
  by_cases h5 : ty = 5
  · subst h5; obtain ⟨ps, h, hb⟩ := refresh_exists d; exact ⟨_, .refresh ps h, by simp [hb]⟩
  exact ⟨_, .other ty d (by simp [h1, h2, h3, h4, h5]), by simp⟩

theorem headerParts_bytes (m : Bytes) (n : Nat) (ty : UInt8) : partsBytes (headerParts m n ty) = m ++ (n16 n ++ [ty]) := by
  simp [headerParts]
theorem headerParts_nodes (base : Nat) {m : Bytes} (hm : m.length = 16) (n : Nat) (ty : UInt8) :
    partsNodes base (headerParts m n ty) = [.mk "bgp.header" base 19 [.mk "bgp.header.marker" base 16 [],
      .mk "bgp.header.length" (base + 16) 2 [], .mk "bgp.header.type" (base + 18) 1 []]] := by
  simp [headerParts, hm]

theorem dissectBgpBase_msg {l : AsnLen} {ap : Bool} {m : Bytes} {n : Nat} {ty : UInt8} {body : List Part} {extra : Bytes} {cut : Bool}
    (hm : m.length = 16) (hn : n < 65536) (hbody : BodyParts l.octets ap ty body)
    (hlen : (partsBytes body).length = min (n - 19) ((partsBytes body).length + extra.length))
    (hcut : cut = true ↔ (partsBytes body).length + extra.length < n - 19) (base : Nat)
    (hb : base + (Part.msg (headerParts m n ty) cut body extra).bytes.length < 4294967296) :
    (dissectBgpBase (Part.msg (headerParts m n ty) cut body extra).bytes base l ap).map ([·])
      = some ((Part.msg (headerParts m n ty) cut body extra).nodes base) := by
  rw [msg_bytes, headerParts_bytes] at hb ⊢
  simp [hm] at hb
  generalize hd : m ++ (n16 n ++ [ty]) ++ (partsBytes body ++ extra) = d
  have hdl : d.length = 19 + (partsBytes body).length + extra.length := by rw [← hd]; simp [hm]; omega
  have hix : ixU16 d 16 = some n := by
    rw [← hd, List.append_assoc, ← Nat.add_zero 16, ← hm, ixU16_pre, List.append_assoc, ixU16_n16 hn]
  have hty : d[18]? = some ty := by
    rw [← hd, show 18 = m.length + 2 by omega, List.append_assoc, get_pre]
    simp [n16]
  have hs : subslice d 19 (19 + (partsBytes body).length) = some (partsBytes body) := by
    rw [← hd]; exact subslice_mid _ _ _ (by simp [hm]) (by simp [hm])
  unfold dissectBgpBase
  rw [if_neg (by omega), hix, hty]
  simp only [Option.bind_eq_bind, Option.bind_some]
  rw [usub_ok (by omega), show d.length - 19 = (partsBytes body).length + extra.length by omega]
  simp only [Option.bind_some]
  rw [← hlen, hs, mkNode_ok (by omega) (by omega), mkNode_ok (by omega) (by omega), mkNode_ok (by omega) (by omega)]
  simp only [Option.bind_some]
  rw [mkNode_ok (by omega) (by omega), dissectBody_parts hbody _ (by omega), mkNode_ok (by omega) (by omega), mkNode_ok (by omega) (by omega)]
  simp only [Option.bind_some]
  have h1 : pushIf ((partsBytes body).length + extra.length < n - 19) (some (Node.mk "bgp.truncated" (base + (19 + (partsBytes body).length)) 0 []))
      = some (if cut then [.mk "bgp.truncated" (base + (19 + (partsBytes body).length)) 0 []] else []) := by
    by_cases h : cut = true
    · rw [pushIf_pos (hcut.1 h), if_pos h]
    · rw [pushIf_neg (fun hc => h (hcut.2 hc)), if_neg h]
  have h2 : pushIf ((partsBytes body).length < (partsBytes body).length + extra.length)
      (some (Node.mk "bgp.trailing" (base + (19 + (partsBytes body).length)) ((partsBytes body).length + extra.length - (partsBytes body).length) []))
      = some (if extra = [] then [] else [.mk "bgp.trailing" (base + (19 + (partsBytes body).length)) extra.length []]) := by
    by_cases h : extra = []
    · simp [h, pushIf]
    · have := List.length_pos_iff.2 h
      rw [pushIf_pos (by omega), if_neg h, Nat.add_sub_cancel_left]
  rw [h1, h2]
  simp only [Option.bind_some]
  rw [mkNode_ok (by omega) (by omega)]
  have h3 : (partsBytes (headerParts m n ty)).length = 19 := by rw [headerParts_bytes]; simp [hm]
  simp only [Part.nodes, h3, headerParts_nodes base hm]
  simp

theorem dissectBgpBase_part {l : AsnLen} {ap : Bool} {p : Part} (h : BgpPart l.octets ap p) (base : Nat)
    (hb : base + p.bytes.length < 4294967296) :
    (dissectBgpBase p.bytes base l ap).map ([·]) = some (p.nodes base) := by
  cases h with
  | short b hl =>
    simp at hb
    unfold dissectBgpBase
    simp only [group_bytes, shown_bytes]
    rw [if_pos hl, pushIf_shown (b := b) (by simp) rfl hb]
    simp only [Option.bind_eq_bind, Option.bind_some]
    rw [mkNode_ok (by omega) (by omega)]
    simp
  | whole m n ty body extra hm hn hbody hlen =>
    exact dissectBgpBase_msg hm hn hbody (by omega) (by simp; omega) base hb
  | cut m n ty body hm hn hbody hlen =>
    exact dissectBgpBase_msg hm hn hbody (by simp; omega) (by simp; omega) base hb

theorem bgp_exists (l : AsnLen) (ap : Bool) (d : Bytes) : ∃ p, BgpPart l.octets ap p ∧ p.bytes = d := by
  by_cases h : d.length < 19
  · exact ⟨_, .short d h, by simp⟩
  · have hm : (d.take 16).length = 16 := by simp; omega
    obtain ⟨a, b, ty, r, hr⟩ : ∃ a b ty r, d.drop 16 = a :: b :: ty :: r := by
      match hr : d.drop 16 with
      | a :: b :: ty :: r => exact ⟨a, b, ty, r, rfl⟩
      | [] | [_] | [_, _] =>
        have := congrArg List.length hr
        simp at this
        omega
    have hd : d = d.take 16 ++ ([a, b] ++ [ty] ++ r) := by
      rw [List.append_assoc]
      simp only [List.cons_append, List.nil_append]
      rw [← hr, List.take_append_drop]
    have hn : (u16of a b).toNat < 65536 := UInt16.toNat_lt _
    by_cases hl : r.length < (u16of a b).toNat - 19
    · obtain ⟨body, hbody, hbb⟩ := body_exists l ap ty r
      refine ⟨_, .cut (d.take 16) _ ty body hm hn hbody (by rw [hbb]; exact hl), ?_⟩
      rw [msg_bytes, headerParts_bytes, hbb, n16_exists]
      simpa using hd.symm
    · obtain ⟨body, hbody, hbb⟩ := body_exists l ap ty (r.take ((u16of a b).toNat - 19))
      refine ⟨_, .whole (d.take 16) _ ty body (r.drop ((u16of a b).toNat - 19)) hm hn hbody (by rw [hbb]; simp; omega), ?_⟩
      rw [msg_bytes, headerParts_bytes, hbb, n16_exists, List.take_append_drop]
      simpa using hd.symm

end Verif
