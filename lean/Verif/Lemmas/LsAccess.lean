import Verif.Lemmas.AttrLs
import Verif.Lemmas.Bmp
import Verif.Lemmas.MrtBody
import Verif.Props.Utf8
import Verif.Spec.LsAccess
/-
Methods of link-state and tunnel attributes.
-/
namespace Verif
open Spec

/-! ### maps -/

theorem mapGet_insert (k j : UInt16) (v : Bytes) : ∀ m : List (UInt16 × Bytes),
    mapGet j (mapInsert k v m) = if k = j then some v else mapGet j m
  | [] => by simp [mapInsert, mapGet]
  | (k', v') :: r => by
    simp only [mapInsert]
    by_cases h : k' = k
    · subst h
      simp only [if_true, mapGet]
      split <;> rfl
    · simp only [if_neg h, mapGet, mapGet_insert k j v r]
      by_cases h2 : k' = j
      · subst h2
        simp [Ne.symm h]
      · simp [h2]

theorem lastOf_append (k : UInt16) (ts : List Tlv16) (t : Tlv16) :
    lastOf k (ts ++ [t]) = if t.type = k then some t.value else lastOf k ts := by
  unfold lastOf
  rw [List.filter_append]
  by_cases h : t.type = k
  · simp [h]
  · simp [h]

theorem snocInduction {P : List α → Prop} (h0 : P []) (h1 : ∀ xs x, P xs → P (xs ++ [x])) (xs : List α) : P xs := by
  have : ∀ ys : List α, P ys.reverse := by
    intro ys
    induction ys with
    | nil => exact h0
    | cons y ys ih => rw [List.reverse_cons]; exact h1 _ _ ih
  have h := this xs.reverse
  rwa [List.reverse_reverse] at h

/-! ### values -/

theorem toNat_and24 (x : UInt32) : (x &&& 0x00FFFFFF).toNat = x.toNat % 2 ^ 24 := by
  rw [UInt32.toNat_and, show (0x00FFFFFF : UInt32).toNat = 2 ^ 24 - 1 from rfl, Nat.and_two_pow_sub_one_eq_mod]

theorem numOf4 (a b c d : UInt8) : numOf [a, b, c, d] = (u32of a b c d).toNat := by
  rw [u32of_toNat]; simp [numOf]; omega

theorem firstU32_spec (v : Bytes) : (firstU32 v).map UInt32.toNat = leading 4 v := by
  unfold firstU32 leading
  split
  · rename_i a b c d r
    simp [numOf4]
  · rename_i h
    rw [if_neg]
    · rfl
    · intro hl
      match v, hl with
      | a :: b :: c :: d :: r, _ => exact h a b c d r rfl

theorem firstU32_low (v : Bytes) : ((firstU32 v).map (· &&& 0x00FFFFFF)).map UInt32.toNat = low24 v := by
  unfold low24
  rw [← firstU32_spec, Option.map_map, Option.map_map]
  congr 1
  funext x
  exact toNat_and24 x

theorem bind_map_eq {o : Option Bytes} {f : Bytes → Option β} {g : β → γ} {h : Bytes → Option γ}
    (e : ∀ v, (f v).map g = h v) : (o.bind f).map g = o.bind h := by
  cases o with
  | none => rfl
  | some v => exact e v

theorem utf8Text_spec (o : Option Bytes) : TextOf o (o.bind utf8Text) := by
  intro s
  rw [← Props.utf8_exact]
  cases o with
  | none => simp
  | some v =>
    simp only [Option.bind_some, utf8Text, Option.some.injEq]
    split
    · rename_i h
      simp only [Option.some.injEq]
      constructor
      · rintro rfl; exact ⟨rfl, h⟩
      · exact fun h => h.1
    · rename_i h
      simp only [reduceCtorEq, false_iff, not_and]
      rintro rfl; exact h

theorem igp_spec (v : Bytes) :
    (match v with
      | [x] => some x.toUInt32
      | [x, y] => some (u16of x y).toUInt32
      | [x, y, z] => some ((x.toUInt32 <<< 16) + (y.toUInt32 <<< 8) + z.toUInt32)
      | _ => none : Option UInt32).map UInt32.toNat =
    if 1 ≤ v.length ∧ v.length ≤ 3 then some (numOf v) else none := by
  split
  · simp [numOf]
  · rename_i x y
    simp [numOf, u16of]
    have := x.toNat_lt; have := y.toNat_lt
    omega
  · rename_i x y z
    have := x.toNat_lt; have := y.toNat_lt; have := z.toNat_lt
    simp [numOf, Nat.shiftLeft_eq]
    omega
  · rename_i h1 h2 h3
    rw [if_neg]
    · rfl
    · rintro ⟨h, h'⟩
      match v, h, h' with
      | [x], _, _ => exact h1 x rfl
      | [x, y], _, _ => exact h2 x y rfl
      | [x, y, z], _, _ => exact h3 x y z rfl
      | _ :: _ :: _ :: _ :: _, _, h' => simp at h'

theorem minMax_spec (v : Bytes) :
    (match v with
    | b0 :: b1 :: b2 :: b3 :: b4 :: b5 :: b6 :: b7 :: _ =>
      some (u32of b0 b1 b2 b3 &&& 0x00FFFFFF, u32of b4 b5 b6 b7 &&& 0x00FFFFFF)
    | _ => none : Option (UInt32 × UInt32)).map (fun p => (p.1.toNat, p.2.toNat)) =
    if 8 ≤ v.length then some (numOf (v.take 4) % 2 ^ 24, numOf ((v.drop 4).take 4) % 2 ^ 24) else none := by
  split
  · simp [toNat_and24, numOf4, -UInt32.toNat_and]
  · rename_i h
    rw [if_neg]
    · rfl
    · intro hl
      match v, hl with
      | b0 :: b1 :: b2 :: b3 :: b4 :: b5 :: b6 :: b7 :: r, _ => exact h b0 b1 b2 b3 b4 b5 b6 b7 r rfl

/-- reading is a matter of the values found in the three maps. -/
theorem lsReads_of {node link pfx : UInt16 → Option Bytes} {a : LsAttr}
    (h1 : ∀ k, k ∈ [1026, 1024] → mapGet k a.node = node k)
    (h2 : ∀ k, k ∈ [1098, 1088, 1089, 1095, 1114, 1115, 1116, 1117, 1118, 1119, 1120] → mapGet k a.link = link k)
    (h3 : mapGet 1155 a.pfx = pfx 1155) : LsReads node link pfx a where
  nodeName := by rw [← h1 _ (by decide)]; exact utf8Text_spec _
  linkName := by rw [← h2 _ (by decide)]; exact utf8Text_spec _
  nodeFlags := by
    intro f
    rw [← h1 _ (by decide), LsAttr.nodeFlags]
    cases mapGet 1024 a.node with
    | none => simp
    | some v => cases v <;> simp
  adminGroup := by rw [← h2 _ (by decide)]; exact bind_map_eq firstU32_spec
  maxBandwidth := by rw [← h2 _ (by decide)]; exact bind_map_eq firstU32_spec
  igpMetric := by rw [← h2 _ (by decide)]; exact bind_map_eq igp_spec
  prefixMetric := by rw [← h3]; exact bind_map_eq firstU32_spec
  linkDelay := by rw [← h2 _ (by decide)]; exact bind_map_eq firstU32_low
  minMaxDelay := by rw [← h2 _ (by decide)]; exact bind_map_eq minMax_spec
  delayVariation := by rw [← h2 _ (by decide)]; exact bind_map_eq firstU32_low
  linkLoss := by rw [← h2 _ (by decide)]; exact bind_map_eq firstU32_low
  residual := by rw [← h2 _ (by decide)]; exact bind_map_eq firstU32_spec
  available := by rw [← h2 _ (by decide)]; exact bind_map_eq firstU32_spec
  utilized := by rw [← h2 _ (by decide)]; exact bind_map_eq firstU32_spec

/-! ### from the wire -/

theorem exact_rdLsTlv : Exact rdLsTlv Tlv16Bytes := by
  refine Exact.congr (p := rdLsTlv) (.bind .rdU16 fun ty => .bind .rdU16 fun len => .bind (.rdN _) fun v => .pure _) ?_
  intro t c
  constructor
  · rintro ⟨ty, _, _, rfl, rfl, len, _, _, rfl, rfl, _, v, _, rfl, ⟨rfl, hv⟩, rfl, rfl⟩
    refine ⟨_, ⟨by show v.length < _; rw [hv]; exact len.toNat_lt, rfl⟩, ?_⟩
    simp [be16_n16, hv]
  · rintro ⟨_, ⟨hv, rfl⟩, rfl⟩
    refine ⟨t.type, _, _, rfl, (be16_n16 _).symm, UInt16.ofNat t.value.length, _, _, rfl, (n16_ofNat hv).symm, t.value, t.value, [],
      by simp, ⟨rfl, ?_⟩, rfl, rfl⟩
    simp [Nat.mod_eq_of_lt hv]

theorem tlv16_length {t : Tlv16} {b : Bytes} (h : Tlv16Bytes t b) : 4 ≤ b.length := by
  obtain ⟨_, ⟨_, rfl⟩, rfl⟩ := h
  simp [n16]

theorem parseLsAttr_iff (s : Bytes) (a : LsAttr) :
    parseLsAttr s = .ok a ↔ ∃ ts, Entries Tlv16Bytes ts s ∧ a = ts.foldl LsAttr.add ⟨[], [], [], []⟩ := by
  unfold parseLsAttr Entries
  have h := Exact.whileGe (n := 4) (by decide) exact_rdLsTlv (fun a c => tlv16_length) s
  cases hw : whileGe 4 rdLsTlv s with
  | error e =>
    simp only [reduceCtorEq, false_iff]
    rintro ⟨ts, ⟨b, r, rfl, hb, hr⟩, _⟩
    rw [(h ts).mpr ⟨b, r, rfl, hb, hr⟩] at hw; cases hw
  | ok ts =>
    obtain ⟨b, r, hs, hb, hr⟩ := (h ts).mp hw
    constructor
    · intro e; cases e; exact ⟨ts, ⟨b, r, hs, hb, hr⟩, rfl⟩
    · rintro ⟨ts', ⟨b', r', hs', hb', hr'⟩, rfl⟩
      have := (h ts').mpr ⟨b', r', hs', hb', hr'⟩
      rw [hw] at this; cases this; rfl

theorem lsCodes_disjoint (c : UInt16) : (LsNodeCode c → ¬ LsLinkCode c ∧ ¬ LsPrefixCode c) ∧ (LsLinkCode c → ¬ LsPrefixCode c) := by
  constructor
  · intro h
    simp only [LsNodeCode, List.mem_cons, List.not_mem_nil, or_false] at h
    rcases h with rfl | rfl | rfl | rfl | rfl | rfl | rfl | rfl | rfl | rfl <;> decide
  · intro h
    simp only [LsLinkCode, List.mem_cons, List.not_mem_nil, or_false] at h
    rcases h with rfl | rfl | rfl | rfl | rfl | rfl | rfl | rfl | rfl | rfl | rfl | rfl | rfl | rfl | rfl | rfl | rfl |
      rfl | rfl | rfl | rfl | rfl | rfl | rfl | rfl <;> decide

theorem mapGet_add (a : LsAttr) (t : Tlv16) (k : UInt16) :
    mapGet k (a.add t).node = (if LsNodeCode t.type ∧ t.type = k then some t.value else mapGet k a.node) ∧
    mapGet k (a.add t).link = (if LsLinkCode t.type ∧ t.type = k then some t.value else mapGet k a.link) ∧
    mapGet k (a.add t).pfx = (if LsPrefixCode t.type ∧ t.type = k then some t.value else mapGet k a.pfx) := by
  by_cases h1 : LsNodeCode t.type
  · have h := (lsCodes_disjoint t.type).1 h1
    rw [lsAdd_node a t h1]
    simp [h1, h.1, h.2, mapGet_insert]
  · by_cases h2 : LsLinkCode t.type
    · have h := (lsCodes_disjoint t.type).2 h2
      rw [lsAdd_link a t h2]
      simp [h1, h2, h, mapGet_insert]
    · by_cases h3 : LsPrefixCode t.type
      · rw [lsAdd_pfx a t h3]
        simp [h1, h2, h3, mapGet_insert]
      · rw [lsAdd_unknown a t h1 h2 h3]
        simp [h1, h2, h3]

theorem mapGet_fold (k : UInt16) (ts : List Tlv16) :
    mapGet k (ts.foldl LsAttr.add ⟨[], [], [], []⟩).node = (if LsNodeCode k then lastOf k ts else none) ∧
    mapGet k (ts.foldl LsAttr.add ⟨[], [], [], []⟩).link = (if LsLinkCode k then lastOf k ts else none) ∧
    mapGet k (ts.foldl LsAttr.add ⟨[], [], [], []⟩).pfx = (if LsPrefixCode k then lastOf k ts else none) := by
  induction ts using snocInduction with
  | h0 => simp [mapGet, lastOf]
  | h1 ts t ih =>
    rw [List.foldl_append]
    simp only [List.foldl_cons, List.foldl_nil]
    obtain ⟨e1, e2, e3⟩ := mapGet_add (ts.foldl LsAttr.add ⟨[], [], [], []⟩) t k
    rw [e1, e2, e3, ih.1, ih.2.1, ih.2.2, lastOf_append]
    by_cases hk : t.type = k
    · subst hk
      simp only [and_true, if_true]
      refine ⟨?_, ?_, ?_⟩ <;> split <;> simp_all
    · simp [hk]

theorem unknown_fold (ts : List Tlv16) : ∀ a : LsAttr, (ts.foldl LsAttr.add a).unknown = a.unknown ++
    ts.filter (fun t => decide (¬ LsNodeCode t.type ∧ ¬ LsLinkCode t.type ∧ ¬ LsPrefixCode t.type)) := by
  induction ts with
  | nil => simp
  | cons t ts ih =>
    intro a
    rw [List.foldl_cons, ih]
    by_cases h1 : LsNodeCode t.type
    · rw [lsAdd_node a t h1, List.filter_cons_of_neg (by simp [h1])]
    · by_cases h2 : LsLinkCode t.type
      · rw [lsAdd_link a t h2, List.filter_cons_of_neg (by simp [h2])]
      · by_cases h3 : LsPrefixCode t.type
        · rw [lsAdd_pfx a t h3, List.filter_cons_of_neg (by simp [h3])]
        · rw [lsAdd_unknown a t h1 h2 h3, List.filter_cons_of_pos (by simp [h1, h2, h3])]
          simp

/-! ### calls -/

theorem calls_maps (cs : List LsCall) (k : UInt16) :
    mapGet k (cs.foldl LsAttr.call .new).node = lastOf k (nodeCalls cs) ∧
    mapGet k (cs.foldl LsAttr.call .new).link = lastOf k (linkCalls cs) ∧
    mapGet k (cs.foldl LsAttr.call .new).pfx = lastOf k (prefixCalls cs) ∧
    (cs.foldl LsAttr.call .new).unknown = unknownCalls cs := by
  induction cs using snocInduction with
  | h0 => simp [LsAttr.new, mapGet, nodeCalls, linkCalls, prefixCalls, unknownCalls, lastOf]
  | h1 cs c ih =>
    simp only [List.foldl_append, List.foldl_cons, List.foldl_nil, nodeCalls, linkCalls, prefixCalls, unknownCalls,
      List.filterMap_append] at ih ⊢
    obtain ⟨i1, i2, i3, i4⟩ := ih
    cases c <;> simp [LsAttr.call, LsAttr.addNode, LsAttr.addLink, LsAttr.addPrefix, LsAttr.addUnknown, mapGet_insert,
      lastOf_append, i1, i2, i3, i4]

/-! ### tunnels -/

theorem exact_rdSubTlv : Exact rdSubTlv (fun a c => ∃ t, SubTlvBytes t c ∧ a = ⟨knownSub t.type, t.value⟩) := by
  have hk : ∀ x : UInt8, subTlvType x = knownSub x := by
    intro x
    unfold subTlvType knownSub
    have e1 : (x = 128) ↔ x.toNat = 128 := ⟨fun h => by rw [h]; rfl, fun h => UInt8.toNat_inj.mp h⟩
    have e2 : (x = 129) ↔ x.toNat = 129 := ⟨fun h => by rw [h]; rfl, fun h => UInt8.toNat_inj.mp h⟩
    simp only [e1, e2]
    congr 1
    simp only [eq_iff_iff]; omega
  have h : Exact (do
      let t ← rdU8
      let l ← (if t.toNat < 128 then do let x ← rdU8; pure x.toNat else do let x ← rdU16; pure x.toNat : Rd Nat)
      let v ← rdN l
      pure ⟨subTlvType t, v⟩ : Rd Tlv8) (fun a c => ∃ t, SubTlvBytes t c ∧ a = ⟨knownSub t.type, t.value⟩) := by
    refine Exact.congr (.bind .rdU8 fun t => .bind (.ite (.bind .rdU8 fun x => .pure _) (.bind .rdU16 fun x => .pure _)) fun l =>
      .bind (.rdN _) fun v => .pure _) ?_
    intro a c
    constructor
    · rintro ⟨t, _, _, rfl, rfl, l, _, _, rfl, hl, _, v, _, rfl, ⟨rfl, hv⟩, rfl, rfl⟩
      refine ⟨⟨t, v⟩, ?_, by rw [hk]⟩
      unfold SubTlvBytes
      rcases hl with ⟨ht, x, _, _, rfl, rfl, rfl, rfl⟩ | ⟨ht, x, _, _, rfl, rfl, rfl, rfl⟩
      · rw [if_pos ht]
        refine ⟨_, ⟨by show v.length < _; rw [hv]; exact x.toNat_lt, rfl⟩, ?_⟩
        simp [hv]
      · rw [if_neg ht]
        refine ⟨_, ⟨by show v.length < _; rw [hv]; exact x.toNat_lt, rfl⟩, ?_⟩
        simp [hv, be16_n16]
    · rintro ⟨t, hb, rfl⟩
      unfold SubTlvBytes at hb
      by_cases ht : t.type.toNat < 128
      · rw [if_pos ht] at hb
        obtain ⟨_, ⟨hv, rfl⟩, rfl⟩ := hb
        refine ⟨t.type, _, _, rfl, rfl, t.value.length, [UInt8.ofNat t.value.length], t.value, by simp, .inl ⟨ht, UInt8.ofNat t.value.length, _, _, by simp, rfl, ?_, rfl⟩,
          t.value, t.value, [], by simp, ⟨rfl, rfl⟩, by rw [hk], rfl⟩
        simp [Nat.mod_eq_of_lt hv]
      · rw [if_neg ht] at hb
        obtain ⟨_, ⟨hv, rfl⟩, rfl⟩ := hb
        refine ⟨t.type, _, _, rfl, rfl, t.value.length, n16 t.value.length, t.value, rfl, .inr ⟨ht, UInt16.ofNat t.value.length, n16 t.value.length, [], by simp,
          (n16_ofNat hv).symm, ?_, rfl⟩,
          t.value, t.value, [], by simp, ⟨rfl, rfl⟩, by rw [hk], rfl⟩
        simp [Nat.mod_eq_of_lt hv]
  intro s a r
  rw [← h s a r]
  unfold rdSubTlv
  rw [Rd.bind_ok (Rd.remaining_apply s)]
  by_cases hs : s.length < 2
  · rw [if_pos hs]
    simp only [Rd.fail_apply, reduceCtorEq, false_iff]
    intro e
    obtain ⟨c, rfl, t, hb, _⟩ := (h _ _ _).mp e
    have : 2 ≤ c.length := by
      unfold SubTlvBytes at hb
      split at hb <;> obtain ⟨_, ⟨_, rfl⟩, rfl⟩ := hb <;> simp [n16] <;> omega
    simp at hs; omega
  · rw [if_neg hs]

theorem blocks_map {R : α → Bytes → Prop} {f : α → β} {bs : List β} {s : Bytes} :
    Blocks (fun b c => ∃ a, R a c ∧ b = f a) bs s ↔ ∃ as, Blocks R as s ∧ bs = as.map f := by
  constructor
  · intro h
    induction h with
    | nil => exact ⟨[], .nil, rfl⟩
    | cons hr _ ih =>
      obtain ⟨a, ha, rfl⟩ := hr
      obtain ⟨as, has, rfl⟩ := ih
      exact ⟨a :: as, .cons ha has, rfl⟩
  · rintro ⟨as, h, rfl⟩
    induction h with
    | nil => exact .nil
    | cons hr _ ih => exact .cons ⟨_, hr, rfl⟩ ih

theorem exact_rdTunnelTlv : Exact rdTunnelTlv (fun a c => ∃ t, TunnelBytes t c ∧ a = knownTypes t) := by
  have hk : ∀ x : UInt16, tunnelType x = knownTunnel x := by
    intro x; unfold tunnelType knownTunnel
    congr 1
    simp only [eq_iff_iff]; omega
  have hm := fun d => Exact.many exact_rdSubTlv (fun a c => by
      rintro ⟨t, hb, _⟩
      unfold SubTlvBytes at hb
      split at hb <;> obtain ⟨_, _, rfl⟩ := hb <;> simp) d
  refine Exact.congr (p := rdTunnelTlv) (.bind .rdU16 fun ty => .bind .rdU16 fun len => .bind (.rdN _) fun d =>
    .bind (.lift _) fun subs => .pure _) ?_
  intro a c
  constructor
  · rintro ⟨ty, _, _, rfl, rfl, len, _, _, rfl, rfl, _, d, _, rfl, ⟨rfl, hd⟩, subs, _, _, rfl, ⟨hs, rfl⟩, rfl, rfl⟩
    obtain ⟨raw, hraw, rfl⟩ := blocks_map.mp ((hm _ _).mp hs)
    refine ⟨⟨ty, raw⟩, ⟨d, _, hraw, ⟨by rw [hd]; exact len.toNat_lt, rfl⟩, ?_⟩, by rw [knownTypes, hk]⟩
    simp [be16_n16, hd]
  · rintro ⟨t, ⟨s, _, hb, ⟨hs, rfl⟩, rfl⟩, rfl⟩
    refine ⟨t.type, _, _, rfl, (be16_n16 _).symm, UInt16.ofNat s.length, _, _, rfl, (n16_ofNat hs).symm, s, s, [], by simp, ⟨rfl, ?_⟩,
      _, [], [], rfl, ⟨(hm _ _).mpr (blocks_map.mpr ⟨_, hb, rfl⟩), rfl⟩, by rw [knownTypes, hk], rfl⟩
    simp [Nat.mod_eq_of_lt hs]

theorem parseTunnel_iff (s : Bytes) (ts : List TunnelTlv) :
    parseTunnel s = .ok ts ↔ ∃ raw, Entries TunnelBytes raw s ∧ ts = raw.map knownTypes := by
  unfold parseTunnel Entries
  rw [Exact.whileGe (by decide) exact_rdTunnelTlv (fun a c => by
    rintro ⟨t, ⟨s, _, _, ⟨_, rfl⟩, rfl⟩, _⟩; simp [n16])]
  constructor
  · rintro ⟨c, t, rfl, hb, ht⟩
    obtain ⟨raw, hr, rfl⟩ := blocks_map.mp hb
    exact ⟨raw, ⟨c, t, rfl, hr, ht⟩, rfl⟩
  · rintro ⟨raw, ⟨c, t, rfl, hb, ht⟩, rfl⟩
    exact ⟨c, t, rfl, blocks_map.mpr ⟨raw, hb, rfl⟩, ht⟩

theorem sub_firstOf (t : TunnelTlv) (k : UInt8) : t.sub k = firstOf k t.subs := by
  unfold TunnelTlv.sub firstOf
  congr 1
  induction t.subs with
  | nil => rfl
  | cons s r ih => by_cases h : s.type = k <;> simp [h, ih]

theorem firstOf_known {k : UInt8} (hk : knownSub k = k) (h0 : k ≠ 0) (ts : List Tlv8) :
    firstOf k (ts.map fun s => ⟨knownSub s.type, s.value⟩) = firstOf k ts := by
  unfold firstOf
  induction ts with
  | nil => rfl
  | cons t ts ih =>
    have : knownSub t.type = k ↔ t.type = k := by
      constructor
      · intro h
        unfold knownSub at h
        split at h
        · exact h
        · exact absurd h.symm h0
      · rintro rfl; exact hk
    simp only [List.map_cons]
    by_cases h : t.type = k
    · rw [List.filter_cons_of_pos (by simpa [this] using h), List.filter_cons_of_pos (by simp [h])]; simp
    · rw [List.filter_cons_of_neg (by simpa [this] using h), List.filter_cons_of_neg (by simp [h])]; exact ih

theorem firstOf_snoc (k : UInt8) (ts : List Tlv8) (t : Tlv8) :
    firstOf k (ts ++ [t]) = (firstOf k ts).or (if t.type = k then some t.value else none) := by
  unfold firstOf
  rw [List.filter_append]
  cases h : ts.filter (·.type = k) with
  | nil => by_cases h2 : t.type = k <;> simp [h2]
  | cons x r => simp

end Verif
