import Verif.Lemmas.AttrMp
import Verif.Lemmas.AsPath
import Verif.Lemmas.Community
import Verif.Props.AsPath
import Verif.Props.Community
/-
The attribute loop: presence mask, cutting into attributes, isolation, round trip.
-/
namespace Verif
open Spec

/-! ### the presence mask -/

theorem shl_toNat {i : UInt8} (h : i.toNat < 64) : ((1 : UInt64) <<< i.toUInt64).toNat = 2 ^ i.toNat := by
  rw [UInt64.toNat_shiftLeft]
  have h1 : i.toUInt64.toNat = i.toNat := by simp
  rw [h1, Nat.mod_eq_of_lt h, Nat.shiftLeft_eq]
  simp only [UInt64.toNat_one, Nat.one_mul]
  exact Nat.mod_eq_of_lt (Nat.pow_lt_pow_right (by decide) h)

theorem bit_test (w : UInt64) {i : UInt8} (h : i.toNat < 64) :
    (w &&& ((1 : UInt64) <<< i.toUInt64) != 0) = w.toNat.testBit i.toNat := by
  have e : (w &&& ((1 : UInt64) <<< i.toUInt64)).toNat = w.toNat &&& 2 ^ i.toNat := by
    rw [UInt64.toNat_and, shl_toNat h]
  cases hb : w.toNat.testBit i.toNat with
  | false =>
    have : w &&& ((1 : UInt64) <<< i.toUInt64) = 0 := by
      apply UInt64.toNat_inj.mp
      rw [e]
      apply Nat.eq_of_testBit_eq
      intro k
      rw [Nat.testBit_and, Nat.testBit_two_pow]
      by_cases hk : i.toNat = k
      · rw [← hk, hb]; simp
      · simp [hk]
    simp [this]
  | true =>
    simp only [bne_iff_ne, ne_eq]
    intro h0
    rw [h0] at e
    have := congrArg (fun n => n.testBit i.toNat) e
    simp [Nat.testBit_and, hb] at this

theorem mod64_lt (c : UInt8) : (c % 64).toNat < 64 := by
  rw [UInt8.toNat_mod]; exact Nat.mod_lt _ (by decide)

theorem maskHas_eq (m : Mask) (c : UInt8) :
    maskHas m c = (m[(c / 64).toNat]'(maskIdx c)).toNat.testBit (c % 64).toNat := bit_test _ (mod64_lt c)

theorem maskHas_set (m : Mask) (c d : UInt8) : maskHas (maskSet m c) d = (decide (c = d) || maskHas m d) := by
  rw [maskHas_eq, maskHas_eq]
  by_cases hq : (c / 64).toNat = (d / 64).toNat
  · have e1 : (maskSet m c)[(d / 64).toNat]'(maskIdx d) =
        (m[(d / 64).toNat]'(maskIdx d) ||| ((1 : UInt64) <<< (c % 64).toUInt64)) := by
      unfold maskSet
      simp only [← hq, Vector.getElem_set_self]
    rw [e1, UInt64.toNat_or, Nat.testBit_or, shl_toNat (mod64_lt c), Nat.testBit_two_pow, Bool.or_comm]
    congr 1
    have h1 : (c / 64).toNat = c.toNat / 64 := by simp
    have h2 : (d / 64).toNat = d.toNat / 64 := by simp
    have h3 : (c % 64).toNat = c.toNat % 64 := by simp
    have h4 : (d % 64).toNat = d.toNat % 64 := by simp
    rw [h1, h2] at hq
    rw [h3, h4, decide_eq_decide]
    rw [← UInt8.toNat_inj]
    omega
  · have hne : c ≠ d := fun h => hq (by rw [h])
    have e1 : (maskSet m c)[(d / 64).toNat]'(maskIdx d) = m[(d / 64).toNat]'(maskIdx d) := by
      unfold maskSet
      rw [Vector.getElem_set_ne _ _ hq]
    rw [e1]; simp [hne]

theorem maskHas_zero (c : UInt8) : maskHas maskZero c = false := by
  rw [maskHas_eq]
  have : maskZero[(c / 64).toNat]'(maskIdx c) = 0 := by simp [maskZero]
  rw [this]; simp

/-! ### one attribute -/

theorem ite_noPanic {c : Prop} [Decidable c] {x y : Except Err α} {e : Err} (hx : x ≠ .error e) (hy : y ≠ .error e) :
    (if c then x else y) ≠ .error e := by
  split <;> assumption

theorem parseAttrVal_noPanic (cfg : AttrCfg) (code : UInt8) (d : Bytes) : parseAttrVal cfg code d ≠ .error .panic := by
  have hc := Props.c46_no_panic d
  unfold parseAttrVal
  repeat' (refine ite_noPanic ?_ ?_)
  all_goals first
    | exact mapOk_noPanic (parseOrigin_noPanic _)
    | exact mapOk_noPanic (Props.c04_aspath_no_panic _ _)
    | exact mapOk_noPanic (parseNextHop_noPanic _ _)
    | exact mapOk_noPanic (parseU32Attr_noPanic _)
    | exact mapOk_noPanic (parseAggregator_noPanic _)
    | exact mapOk_noPanic (parseOriginatorId_noPanic _)
    | exact mapOk_noPanic (parseClusters_noPanic _)
    | exact mapOk_noPanic (parseNlri_noPanic _ _ _ _ _ _)
    | exact mapOk_noPanic hc.1
    | exact mapOk_noPanic hc.2.1
    | exact mapOk_noPanic hc.2.2.1
    | exact mapOk_noPanic hc.2.2.2
    | exact mapOk_noPanic (parseAigp_noPanic _)
    | exact mapOk_noPanic (parseTunnel_noPanic _)
    | exact mapOk_noPanic (parseTrafficEng_noPanic _)
    | exact mapOk_noPanic (parseLsAttr_noPanic _)
    | exact mapOk_noPanic (parseTlv8Ext_noPanic _)
    | exact mapOk_noPanic (parseBfd_noPanic _)
    | exact mapOk_noPanic (parseBier_noPanic _)
    | (intro h; cases h; done)

theorem mapOk_code {f : α → AttrVal} {x : Except Err α} {v : AttrVal} {c : UInt8} (hf : ∀ a, (f a).code = c)
    (h : mapOk f x = .ok v) : v.code = c := by
  cases x with
  | ok a => simp only [mapOk] at h; injection h with h; rw [← h]; exact hf a
  | error e => cases h

theorem ite_imp {c : Prop} [Decidable c] {x y z : α} {P : Prop} (hx : c → x = z → P) (hy : y = z → P) :
    (if c then x else y) = z → P := by
  split
  · exact hx (by assumption)
  · exact hy

theorem parseAttrVal_code {cfg : AttrCfg} {code : UInt8} {d : Bytes} {v : AttrVal} :
    parseAttrVal cfg code d = .ok v → v.code = code := by
  unfold parseAttrVal
  repeat' (refine ite_imp ?_ ?_)
  all_goals first
    | (intro hc h; rw [hc]; exact mapOk_code (fun _ => rfl) h)
    | (intro hc h; rw [hc]; injection h with h; rw [← h]; rfl)
    | (intro h; cases h)

theorem decodeAttr_total (cfg : AttrCfg) (code : UInt8) (d : Bytes) :
    ∃ x bad, decodeAttr cfg code d = .ok (x, bad) ∧ x.code = code := by
  unfold decodeAttr
  split
  · exact ⟨_, _, rfl, rfl⟩
  split
  · exact ⟨_, _, rfl, rfl⟩
  split
  · exact ⟨_, _, rfl, rfl⟩
  split
  · rename_i x hx
    rw [if_neg (fun hn => hn (parseAttrVal_code hx))]
    exact ⟨_, _, rfl, parseAttrVal_code hx⟩
  · rename_i hx; exact absurd hx (parseAttrVal_noPanic _ _ _)
  · exact ⟨_, _, rfl, rfl⟩

/-! ### the loop -/

theorem isExtended_eq (f : UInt8) : isExtended f = decide (ExtendedLength f) := by
  have : ∀ n : Fin 256, isExtended (UInt8.ofNat n.val) = decide (ExtendedLength (UInt8.ofNat n.val)) := by decide +kernel
  have h := this ⟨f.toNat, f.toNat_lt⟩
  simpa using h

theorem rdAttrHead_ext {f : UInt8} (he : ExtendedLength f) (c a b : UInt8) (r : Bytes) :
    rdAttrHead (f :: c :: a :: b :: r) = .ok ((f, c, (u16of a b).toNat), r) := by
  unfold rdAttrHead
  rw [Rd.bind_ok (show rdU8 (f :: c :: a :: b :: r) = .ok (f, c :: a :: b :: r) from rfl),
    Rd.bind_ok (show rdU8 (c :: a :: b :: r) = .ok (c, a :: b :: r) from rfl), isExtended_eq, if_pos (decide_eq_true he)]
  rfl

theorem rdAttrHead_short {f : UInt8} (he : ExtendedLength f) (c a : UInt8) :
    rdAttrHead [f, c, a] = .error .truncated := by
  unfold rdAttrHead
  rw [Rd.bind_ok (show rdU8 [f, c, a] = .ok (f, [c, a]) from rfl),
    Rd.bind_ok (show rdU8 [c, a] = .ok (c, [a]) from rfl), isExtended_eq, if_pos (decide_eq_true he)]
  rfl

theorem rdAttrHead_std {f : UInt8} (he : ¬ ExtendedLength f) (c a : UInt8) (r : Bytes) :
    rdAttrHead (f :: c :: a :: r) = .ok ((f, c, a.toNat), r) := by
  unfold rdAttrHead
  rw [Rd.bind_ok (show rdU8 (f :: c :: a :: r) = .ok (f, c :: a :: r) from rfl),
    Rd.bind_ok (show rdU8 (c :: a :: r) = .ok (c, a :: r) from rfl), isExtended_eq, if_neg (by simpa using he)]
  rfl

theorem rdAttrHead_append {f c : UInt8} {len : Nat} (h : LenFits f len) (t : Bytes) :
    rdAttrHead (headBytes f c len ++ t) = .ok ((f, c, len), t) := by
  unfold headBytes LenFits at *
  by_cases he : ExtendedLength f
  · rw [if_pos he] at h
    rw [if_pos he]
    have h1 : (UInt8.ofNat (len / 256)).toNat = len / 256 := by simp; omega
    have h2 : (UInt8.ofNat (len % 256)).toNat = len % 256 := by simp
    have h3 : (u16of (UInt8.ofNat (len / 256)) (UInt8.ofNat (len % 256))).toNat = len := by
      rw [u16of_toNat, h1, h2]; omega
    refine (rdAttrHead_ext he _ _ _ _).trans ?_
    rw [h3]; rfl
  · rw [if_neg he] at h
    rw [if_neg he]
    have h1 : (UInt8.ofNat len).toNat = len := by simp; omega
    refine (rdAttrHead_std he _ _ _).trans ?_
    rw [h1]; rfl

/-- a three-byte header that announces a two-byte length. -/
theorem attr_head_cases (s : Bytes) (h : 3 ≤ s.length) :
    (∃ f c len t, LenFits f len ∧ s = headBytes f c len ++ t) ∨ ∃ f c a, ExtendedLength f ∧ s = [f, c, a] := by
  match s, h with
  | [f, c, a], _ =>
    by_cases he : ExtendedLength f
    · exact .inr ⟨f, c, a, he, rfl⟩
    · refine .inl ⟨f, c, a.toNat, [], ?_, ?_⟩
      · rw [LenFits, if_neg he]; exact a.toNat_lt
      · rw [headBytes, if_neg he]; simp
  | f :: c :: a :: b :: r, _ =>
    by_cases he : ExtendedLength f
    · refine .inl ⟨f, c, (u16of a b).toNat, r, ?_, ?_⟩
      · rw [LenFits, if_pos he]; exact (u16of a b).toNat_lt
      · rw [headBytes, if_pos he, u16of_toNat]
        have := b.toNat_lt
        have h1 : (a.toNat * 256 + b.toNat) / 256 = a.toNat := by omega
        have h2 : (a.toNat * 256 + b.toNat) % 256 = b.toNat := by omega
        rw [h1, h2]; simp
    · refine .inl ⟨f, c, a.toNat, b :: r, ?_, ?_⟩
      · rw [LenFits, if_neg he]; exact a.toNat_lt
      · rw [headBytes, if_neg he]; simp

theorem headBytes_length (f c : UInt8) (len : Nat) : 3 ≤ (headBytes f c len).length := by
  unfold headBytes; split <;> simp

/-- every byte string is a sequence of attributes and an ending. -/
theorem attr_cut : ∀ (n : Nat) (s : Bytes), s.length ≤ n →
    ∃ ws r, (∀ w ∈ ws, w.ok) ∧ s = wireBytes ws ++ r ∧ (Rest r ∨ BrokenRest r) := by
  intro n
  induction n with
  | zero => intro s h; exact ⟨[], s, by simp, by simp [wireBytes], .inl (.inl (by omega))⟩
  | succ n ih =>
    intro s h
    by_cases h3 : s.length < 3
    · exact ⟨[], s, by simp, by simp [wireBytes], .inl (.inl h3)⟩
    rcases attr_head_cases s (by omega) with ⟨f, c, len, t, hf, rfl⟩ | ⟨f, c, a, he, rfl⟩
    · by_cases ht : t.length < len
      · exact ⟨[], _, by simp, by simp [wireBytes], .inl (.inr ⟨f, c, len, t, hf, rfl, ht⟩)⟩
      · have hl := headBytes_length f c len
        rw [List.length_append] at h
        obtain ⟨ws, r, h1, h2, h3⟩ := ih (t.drop len) (by rw [List.length_drop]; omega)
        have hlen : (t.take len).length = len := by rw [List.length_take]; omega
        refine ⟨⟨f, c, t.take len⟩ :: ws, r, ?_, ?_, h3⟩
        · intro w hw
          rcases List.mem_cons.mp hw with rfl | hw
          · show LenFits f (t.take len).length
            rw [hlen]; exact hf
          · exact h1 w hw
        · rw [wireBytes, List.flatMap_cons, List.append_assoc]
          rw [wireBytes] at h2
          rw [← h2, Wire.bytes]
          simp only [hlen, List.append_assoc, List.take_append_drop]
    · exact ⟨[], _, by simp, by simp [wireBytes], .inr ⟨f, c, a, he, rfl⟩⟩

/-! the loop, without fuel -/

theorem attrLoop_fuel (cfg : AttrCfg) : ∀ (m n : Nat) (v : VState) (s : Bytes), s.length ≤ m → s.length ≤ n →
    attrLoop cfg m v s = attrLoop cfg n v s := by
  intro m
  induction m with
  | zero =>
    intro n v s h _
    have h3 : s.length < 3 := by omega
    cases n <;> simp [attrLoop, h3]
  | succ m ih =>
    intro n v s h hn
    by_cases h3 : s.length < 3
    · cases n <;> simp [attrLoop, h3]
    cases n with
    | zero => omega
    | succ n =>
      rw [attrLoop, attrLoop, if_neg h3, if_neg h3]
      rcases attr_head_cases s (by omega) with ⟨f, c, len, t, hf, rfl⟩ | ⟨f, c, a, he, rfl⟩
      · rw [rdAttrHead_append hf]
        dsimp only
        have hl := headBytes_length f c len
        rw [List.length_append] at h hn
        split
        · rfl
        · cases decodeAttr cfg c (t.take len) with
          | error e => rfl
          | ok p =>
            obtain ⟨x, bad⟩ := p
            dsimp only
            rw [ih n _ (t.drop len) (by rw [List.length_drop]; omega) (by rw [List.length_drop]; omega)]
      · rw [rdAttrHead_short he]

/-- the value of one attribute on the wire. -/
def valueOf (cfg : AttrCfg) (w : Wire) : AttrVal × Bool :=
  match decodeAttr cfg w.code w.value with
  | .ok p => p
  | .error _ => (.raw w.code w.value, false)

theorem decodeAttr_valueOf (cfg : AttrCfg) (w : Wire) : decodeAttr cfg w.code w.value = .ok (valueOf cfg w) := by
  obtain ⟨x, bad, h, _⟩ := decodeAttr_total cfg w.code w.value
  rw [valueOf, h]

theorem valueOf_code (cfg : AttrCfg) (w : Wire) : (valueOf cfg w).1.code = w.code := by
  obtain ⟨x, bad, h, hc⟩ := decodeAttr_total cfg w.code w.value
  rw [valueOf, h]; exact hc

/-- the held attribute. -/
def attrOf (cfg : AttrCfg) (w : Wire) : Attribute := ⟨w.flag, (valueOf cfg w).1⟩

/-- the validation state after one attribute. -/
def stepV (cfg : AttrCfg) (v : VState) (w : Wire) : VState :=
  if (valueOf cfg w).2 then (v.header w.code w.flag w.value.length).parseError w.code (isPartial w.flag)
  else v.header w.code w.flag w.value.length

def loop (cfg : AttrCfg) (v : VState) (s : Bytes) : Except Err (List Attribute × VState) := attrLoop cfg s.length v s

theorem loop_cons (cfg : AttrCfg) (v : VState) {w : Wire} (hw : w.ok) (t : Bytes) :
    loop cfg v (w.bytes ++ t) = mapOk (fun p => (attrOf cfg w :: p.1, p.2)) (loop cfg (stepV cfg v w) t) := by
  have hl := headBytes_length w.flag w.code w.value.length
  have hlen : (w.bytes ++ t).length = (headBytes w.flag w.code w.value.length).length + (w.value.length + t.length) := by
    simp [Wire.bytes]
  obtain ⟨n, hn⟩ : ∃ n, (w.bytes ++ t).length = n + 1 := ⟨(w.bytes ++ t).length - 1, by omega⟩
  unfold loop
  rw [hn, attrLoop, if_neg (by omega)]
  have hh : rdAttrHead (w.bytes ++ t) = .ok ((w.flag, w.code, w.value.length), w.value ++ t) := by
    rw [Wire.bytes, List.append_assoc]; exact rdAttrHead_append hw _
  rw [hh]
  dsimp only
  rw [if_neg (by simp), List.take_left, List.drop_left, decodeAttr_valueOf]
  dsimp only
  rw [attrLoop_fuel cfg n t.length _ t (by omega) (Nat.le_refl _)]
  unfold stepV attrOf mapOk
  cases attrLoop cfg t.length _ t <;> rfl

theorem loop_wires (cfg : AttrCfg) (ws : List Wire) (hws : ∀ w ∈ ws, w.ok) (v : VState) (t : Bytes) :
    loop cfg v (wireBytes ws ++ t) =
      mapOk (fun p => (ws.map (attrOf cfg) ++ p.1, p.2)) (loop cfg (ws.foldl (stepV cfg) v) t) := by
  induction ws generalizing v with
  | nil =>
    show loop cfg v t = mapOk (fun p => ([] ++ p.1, p.2)) (loop cfg v t)
    cases loop cfg v t <;> rfl
  | cons w ws ih =>
    rw [wireBytes, List.flatMap_cons, List.append_assoc, loop_cons cfg v (hws w (by simp))]
    rw [wireBytes] at ih
    rw [ih (fun x hx => hws x (by simp [hx]))]
    rw [List.foldl_cons]
    cases loop cfg _ t <;> rfl

/-- the code of an over-declared header. -/
def restV (v : VState) (r : Bytes) : VState :=
  if r.length < 3 then v else
  match rdAttrHead r with
  | .ok ((f, c, len), _) => v.header c f len
  | .error _ => v

theorem loop_rest (cfg : AttrCfg) (v : VState) {r : Bytes} (h : Rest r) : loop cfg v r = .ok ([], restV v r) := by
  unfold loop restV
  by_cases h3 : r.length < 3
  · rw [if_pos h3]
    cases r.length <;> simp [attrLoop, h3]
  · rw [if_neg h3]
    rcases h with h | ⟨f, c, len, t, hf, rfl, ht⟩
    · omega
    obtain ⟨n, hn⟩ : ∃ n, (headBytes f c len ++ t).length = n + 1 := ⟨(headBytes f c len ++ t).length - 1, by omega⟩
    rw [hn, attrLoop, if_neg h3, rdAttrHead_append hf]
    dsimp only
    rw [if_pos ht]

theorem loop_broken (cfg : AttrCfg) (v : VState) {r : Bytes} (h : BrokenRest r) : loop cfg v r = .error .truncated := by
  obtain ⟨f, c, a, he, rfl⟩ := h
  unfold loop
  show attrLoop cfg 3 v [f, c, a] = _
  rw [attrLoop, if_neg (by simp), rdAttrHead_short he]

theorem parse_wires (cfg : AttrCfg) (ws : List Wire) (hws : ∀ w ∈ ws, w.ok) {r : Bytes} (hr : Rest r) :
    parseAttributes cfg (wireBytes ws ++ r) = .ok ⟨ws.map (attrOf cfg),
      (restV (ws.foldl (stepV cfg) VState.init) r).warnings, (restV (ws.foldl (stepV cfg) VState.init) r).mask⟩ := by
  have := loop_wires cfg ws hws VState.init r
  rw [loop_rest cfg _ hr] at this
  unfold loop at this
  unfold parseAttributes
  rw [this]
  simp [mapOk]

theorem parse_broken (cfg : AttrCfg) (ws : List Wire) (hws : ∀ w ∈ ws, w.ok) {r : Bytes} (hr : BrokenRest r) :
    parseAttributes cfg (wireBytes ws ++ r) = .error .truncated := by
  have := loop_wires cfg ws hws VState.init r
  rw [loop_broken cfg _ hr] at this
  unfold loop at this
  unfold parseAttributes
  rw [this]
  simp [mapOk]

/-! ### mask and warnings along the loop -/

theorem stepV_mask (cfg : AttrCfg) (v : VState) (w : Wire) : (stepV cfg v w).mask = maskSet v.mask w.code := by
  unfold stepV; split <;> rfl

theorem foldV_has (cfg : AttrCfg) (ws : List Wire) (v : VState) (c : UInt8) :
    maskHas (ws.foldl (stepV cfg) v).mask c = true ↔ maskHas v.mask c = true ∨ ∃ w ∈ ws, w.code = c := by
  induction ws generalizing v with
  | nil => simp
  | cons w ws ih =>
    rw [List.foldl_cons, ih, stepV_mask, maskHas_set]
    simp only [Bool.or_eq_true, decide_eq_true_eq, List.mem_cons, exists_eq_or_imp]
    constructor
    · rintro ((h | h) | h)
      · exact .inr (.inl h)
      · exact .inl h
      · exact .inr (.inr h)
    · rintro (h | h | h)
      · exact .inl (.inr h)
      · exact .inl (.inl h)
      · exact .inr h

theorem decodedCode_iff (c : UInt8) :
    DecodedCode c ↔ c ∉ deprecatedCodes ∧ c ∈ knownAttrCodes ∧ c ∉ rawRetainedCodes := by
  have : ∀ n : Fin 256, DecodedCode (UInt8.ofNat n.val) ↔ UInt8.ofNat n.val ∉ deprecatedCodes ∧
      UInt8.ofNat n.val ∈ knownAttrCodes ∧ UInt8.ofNat n.val ∉ rawRetainedCodes := by decide +kernel
  have h := this ⟨c.toNat, c.toNat_lt⟩
  simpa using h

theorem unassignedCode_iff (c : UInt8) : UnassignedCode c ↔ c ∉ deprecatedCodes ∧ c ∉ knownAttrCodes := by
  have : ∀ n : Fin 256, UnassignedCode (UInt8.ofNat n.val) ↔ UInt8.ofNat n.val ∉ deprecatedCodes ∧
      UInt8.ofNat n.val ∉ knownAttrCodes := by decide +kernel
  have h := this ⟨c.toNat, c.toNat_lt⟩
  simpa using h

theorem rawCode_iff (c : UInt8) : RawCode c ↔ c ∉ deprecatedCodes ∧ c ∈ knownAttrCodes ∧ c ∈ rawRetainedCodes := by
  have : ∀ n : Fin 256, RawCode (UInt8.ofNat n.val) ↔ UInt8.ofNat n.val ∉ deprecatedCodes ∧
      UInt8.ofNat n.val ∈ knownAttrCodes ∧ UInt8.ofNat n.val ∈ rawRetainedCodes := by decide +kernel
  have h := this ⟨c.toNat, c.toNat_lt⟩
  simpa using h

theorem mapOk_notRaw {f : α → AttrVal} {x : Except Err α} {c : UInt8} {b : Bytes} (hf : ∀ a, f a ≠ .raw c b) :
    mapOk f x ≠ .ok (.raw c b) := by
  cases x with
  | ok a => simp only [mapOk]; intro h; injection h with h; exact hf a h
  | error e => intro h; cases h

theorem ite_ne {c : Prop} [Decidable c] {x y z : α} (hx : x ≠ z) (hy : y ≠ z) : (if c then x else y) ≠ z := by
  split <;> assumption

theorem parseAttrVal_notRaw (cfg : AttrCfg) (code : UInt8) (d : Bytes) (c : UInt8) (b : Bytes) :
    parseAttrVal cfg code d ≠ .ok (.raw c b) := by
  unfold parseAttrVal
  repeat' (refine ite_ne ?_ ?_)
  all_goals first
    | exact mapOk_notRaw (fun _ h => by cases h)
    | (intro h; cases h; done)

theorem decodeAttr_ok (cfg : AttrCfg) (c : UInt8) (d : Bytes) (x : AttrVal) (bad : Bool) :
    decodeAttr cfg c d = .ok (x, bad) ↔
      (DeprecatedCode c ∧ x = .deprecated c d ∧ bad = false) ∨ (UnassignedCode c ∧ x = .unknown c d ∧ bad = false) ∨
      (RawCode c ∧ x = .raw c d ∧ bad = false) ∨
      (DecodedCode c ∧ ((parseAttrVal cfg c d = .ok x ∧ bad = false) ∨
        ((∃ e, parseAttrVal cfg c d = .error e) ∧ x = .raw c d ∧ bad = true))) := by
  rw [decodedCode_iff, unassignedCode_iff, rawCode_iff, show DeprecatedCode c ↔ c ∈ deprecatedCodes from Iff.rfl]
  unfold decodeAttr
  by_cases h1 : c ∈ deprecatedCodes
  · simp [h1, eq_comm]
  by_cases h2 : c ∈ knownAttrCodes
  · by_cases h3 : c ∈ rawRetainedCodes
    · simp [h1, h2, h3, eq_comm]
    · simp only [h1, h2, h3, if_false, not_true, not_false_iff, true_and, false_and, false_or]
      cases hp : parseAttrVal cfg c d with
      | ok y =>
        have := parseAttrVal_code hp
        simp [this, eq_comm]
      | error e =>
        have : e ≠ .panic := fun h => parseAttrVal_noPanic cfg c d (by rw [hp, h])
        cases e <;> first | exact absurd rfl this | simp [eq_comm]
  · simp [h1, h2, eq_comm]

theorem deprecated_not_decoded (c : UInt8) (h : DecodedCode c) : ¬ DeprecatedCode c ∧ ¬ UnassignedCode c ∧ ¬ RawCode c := by
  rw [unassignedCode_iff, rawCode_iff, show DeprecatedCode c ↔ c ∈ deprecatedCodes from Iff.rfl]
  rw [decodedCode_iff] at h
  refine ⟨h.1, fun h' => h'.2 h.2.1, fun h' => h.2.2 h'.2.2⟩

theorem valueOf_bad (cfg : AttrCfg) (w : Wire) :
    (valueOf cfg w).2 = true ↔ DecodedCode w.code ∧ (valueOf cfg w).1 = .raw w.code w.value := by
  have h := decodeAttr_valueOf cfg w
  generalize valueOf cfg w = p at h ⊢
  obtain ⟨x, bad⟩ := p
  rw [decodeAttr_ok] at h
  constructor
  · intro hb
    dsimp only at hb
    subst hb
    rcases h with ⟨_, _, h⟩ | ⟨_, _, h⟩ | ⟨_, _, h⟩ | ⟨hd, ⟨_, h⟩ | ⟨_, h, _⟩⟩
    · cases h
    · cases h
    · cases h
    · cases h
    · exact ⟨hd, h⟩
  · rintro ⟨hd, hx⟩
    dsimp only at hx
    subst hx
    have hn := deprecated_not_decoded _ hd
    rcases h with ⟨h, _⟩ | ⟨h, _⟩ | ⟨h, _⟩ | ⟨_, ⟨h, _⟩ | ⟨_, _, h⟩⟩
    · exact absurd h hn.1
    · exact absurd h hn.2.1
    · exact absurd h hn.2.2
    · exact absurd h (parseAttrVal_notRaw _ _ _ _ _)
    · exact h

theorem isPartial_eq (f : UInt8) : isPartial f = decide (PartialBit f) := by
  have : ∀ n : Fin 256, isPartial (UInt8.ofNat n.val) = decide (PartialBit (UInt8.ofNat n.val)) := by decide +kernel
  have h := this ⟨f.toNat, f.toNat_lt⟩
  simpa using h

theorem header_warn (v : VState) (c f : UInt8) (n : Nat) (wn : Warning) (h : IsMalformed wn) :
    wn ∈ (v.header c f n).warnings ↔ wn ∈ v.warnings := by
  have hd : wn ∉ (if maskHas v.mask c then [Warning.duplicate c] else []) := by
    split <;> simp; rintro rfl; exact h
  have hf : wn ∉ flagWarnings c f := by
    unfold flagWarnings
    split
    · simp
    · rw [List.mem_append]
      rintro (hm | hm)
      · split at hm
        · rw [List.mem_singleton] at hm; subst hm; exact h
        · cases hm
      · split at hm
        · rw [List.mem_singleton] at hm; subst hm; exact h
        · cases hm
  have hl : wn ∉ lengthWarnings c n := by
    unfold lengthWarnings
    split
    · simp
    · split
      · rw [List.mem_singleton]; rintro rfl; exact h
      · simp
  unfold VState.header
  simp only [List.mem_append, hd, hf, hl, or_false]

theorem parseError_warn (v : VState) (c f : UInt8) (wn : Warning) :
    wn ∈ (v.parseError c (isPartial f)).warnings ↔ wn ∈ v.warnings ∨ wn = malformedWarning c f := by
  unfold VState.parseError malformedWarning
  rw [isPartial_eq]
  simp

theorem foldV_warn (cfg : AttrCfg) (ws : List Wire) (v : VState) (wn : Warning) (h : IsMalformed wn) :
    wn ∈ (ws.foldl (stepV cfg) v).warnings ↔ wn ∈ v.warnings ∨
      ∃ w ∈ ws, (valueOf cfg w).2 = true ∧ wn = malformedWarning w.code w.flag := by
  induction ws generalizing v with
  | nil => simp
  | cons w ws ih =>
    rw [List.foldl_cons, ih]
    have : wn ∈ (stepV cfg v w).warnings ↔
        wn ∈ v.warnings ∨ ((valueOf cfg w).2 = true ∧ wn = malformedWarning w.code w.flag) := by
      unfold stepV
      split
      · rename_i hb; rw [parseError_warn, header_warn _ _ _ _ _ h]; simp [hb]
      · rename_i hb; rw [header_warn _ _ _ _ _ h]; simp [hb]
    rw [this]
    simp only [List.mem_cons, exists_eq_or_imp, or_assoc]

theorem restV_warn (v : VState) (r : Bytes) (wn : Warning) (h : IsMalformed wn) :
    wn ∈ (restV v r).warnings ↔ wn ∈ v.warnings := by
  unfold restV
  split
  · rfl
  · split
    · exact header_warn _ _ _ _ _ h
    · rfl

theorem restV_has (v : VState) {r : Bytes} (hr : Rest r) (c : UInt8) :
    maskHas (restV v r).mask c = true ↔ maskHas v.mask c = true ∨ (3 ≤ r.length ∧ r[1]? = some c) := by
  unfold restV
  by_cases h3 : r.length < 3
  · rw [if_pos h3]; simp [show ¬ 3 ≤ r.length by omega]
  rw [if_neg h3]
  rcases hr with hr | ⟨f, c', len, t, hf, rfl, ht⟩
  · exact absurd hr h3
  rw [rdAttrHead_append hf]
  show maskHas (maskSet v.mask c') c = true ↔ _
  rw [maskHas_set]
  have : (headBytes f c' len ++ t)[1]? = some c' := by simp [headBytes]
  rw [this]
  simp only [Bool.or_eq_true, decide_eq_true_eq, Option.some.injEq]
  constructor
  · rintro (h | h)
    · exact .inr ⟨by omega, h⟩
    · exact .inl h
  · rintro (h | h)
    · exact .inr h
    · exact .inl h.2

/-! ### round trip -/

theorem decodeAttr_typed {cfg : AttrCfg} {c : UInt8} {d : Bytes} {x : AttrVal} (hc : DecodedCode c)
    (h : parseAttrVal cfg c d = .ok x) : decodeAttr cfg c d = .ok (x, false) := by
  rw [decodeAttr_ok]; exact .inr (.inr (.inr ⟨hc, .inl ⟨h, rfl⟩⟩))

theorem decodeAttr_enc {cfg : AttrCfg} {v : AttrVal} {b : Bytes} (hok : AttrValOk cfg v)
    (h : encodeAttrVal cfg.asnLen v = .ok b) : decodeAttr cfg v.code b = .ok (v, false) := by
  have key : ∀ {α : Type} (f : α → AttrVal) (x : Except Err α) (a : α), x = .ok a → mapOk f x = .ok (f a) := by
    intro α f x a hx; rw [hx]; rfl
  cases v with
  | origin o =>
    refine decodeAttr_typed (of_decide_eq_true rfl) (key .origin (parseOrigin b) o ?_)
    injection h with h; rw [← h]; exact parseOrigin_enc o
  | asPath p => exact decodeAttr_typed (of_decide_eq_true rfl) (key .asPath (parseAsPath cfg.asnLen b) p ((Props.c04_aspath_roundtrip _ _ _).mp h))
  | as4Path p => exact decodeAttr_typed (of_decide_eq_true rfl) (key .as4Path (parseAsPath .b32 b) p ((Props.c04_aspath_roundtrip _ _ _).mp h))
  | nextHop a =>
    refine decodeAttr_typed (of_decide_eq_true rfl) (key .nextHop (parseNextHop cfg.afi b) a ?_)
    injection h with h; rw [← h]; exact parseNextHop_enc _ _ hok
  | med x =>
    refine decodeAttr_typed (of_decide_eq_true rfl) (key .med (parseU32Attr b) x ?_)
    injection h with h; rw [← h]; exact parseU32Attr_enc x
  | localPref x =>
    refine decodeAttr_typed (of_decide_eq_true rfl) (key .localPref (parseU32Attr b) x ?_)
    injection h with h; rw [← h]; exact parseU32Attr_enc x
  | otc x =>
    refine decodeAttr_typed (of_decide_eq_true rfl) (key .otc (parseU32Attr b) x ?_)
    injection h with h; rw [← h]; exact parseU32Attr_enc x
  | atomic => exact decodeAttr_typed (of_decide_eq_true rfl) rfl
  | aggregator a i =>
    exact decodeAttr_typed (of_decide_eq_true rfl) (key (fun p : Asn × V4 => AttrVal.aggregator p.1 p.2) (parseAggregator b) (a, i) (parseAggregator_enc (h : encodeAggregator _ a i = .ok b)))
  | as4Aggregator a i =>
    exact decodeAttr_typed (of_decide_eq_true rfl) (key (fun p : Asn × V4 => AttrVal.as4Aggregator p.1 p.2) (parseAggregator b) (a, i) (parseAggregator_enc (l := .b32) h))
  | communities cs =>
    refine decodeAttr_typed (of_decide_eq_true rfl) (key .communities (parseCommunities b) cs ?_)
    injection h with h; rw [← h]; exact (Props.c46_standard_roundtrip cs).mpr hok
  | extCommunities cs =>
    refine decodeAttr_typed (of_decide_eq_true rfl) (key .extCommunities (parseExtCommunities b) cs ?_)
    injection h with h; rw [← h]; exact (Props.c46_extended_roundtrip cs).mpr hok
  | ipv6ExtCommunities cs =>
    refine decodeAttr_typed (of_decide_eq_true rfl) (key .ipv6ExtCommunities (parseIpv6ExtCommunities b) cs ?_)
    injection h with h; rw [← h]; exact (Props.c46_ipv6_extended_roundtrip cs).mpr hok
  | largeCommunities cs =>
    refine decodeAttr_typed (of_decide_eq_true rfl) (key .largeCommunities (parseLargeCommunities b) cs ?_)
    injection h with h; rw [← h]; exact Props.c46_large_roundtrip cs
  | originatorId i =>
    refine decodeAttr_typed (of_decide_eq_true rfl) (key .originatorId (parseOriginatorId b) i ?_)
    injection h with h; rw [← h]; exact parseOriginatorId_enc i
  | clusters cs =>
    refine decodeAttr_typed (of_decide_eq_true rfl) (key .clusters (parseClusters b) cs ?_)
    injection h with h; rw [← h]; exact parseClusters_enc cs
  | mpReach n =>
    exact decodeAttr_typed (of_decide_eq_true rfl) (key .mpReach (parseNlri cfg.afi cfg.safi cfg.prefixes true cfg.addPath b) n
      (parseMpNlri_enc cfg (fun p hp hs => by rw [List.any_eq_true]; exact ⟨p, hp, hs⟩) hok h))
  | mpUnreach n =>
    refine decodeAttr_typed (of_decide_eq_true rfl) (key .mpUnreach (parseNlri cfg.afi cfg.safi cfg.prefixes false cfg.addPath b) n
      (parseMpNlri_enc cfg (fun p hp hs => ?_) hok h))
    have hl : n.labeled = none := by
      have hk : MpNlriOk false cfg.addPath n := hok
      by_cases hs : n.safi = .mplsLabel
      · simpa using (hk.labeled hs).2
      · exact (hk.plain hs).1
    rw [hl] at hp; cases hp
  | linkState a => exact decodeAttr_typed (of_decide_eq_true rfl) (key .linkState (parseLsAttr b) a (parseLsAttr_enc hok h))
  | tunnel ts => exact decodeAttr_typed (of_decide_eq_true rfl) (key .tunnel (parseTunnel b) ts (parseTunnel_enc hok h))
  | trafficEng t =>
    refine decodeAttr_typed (of_decide_eq_true rfl) (key .trafficEng (parseTrafficEng b) t ?_)
    injection h with h; rw [← h]; exact parseTrafficEng_enc t
  | bfd t => exact decodeAttr_typed (of_decide_eq_true rfl) (key .bfd (parseBfd b) t (parseBfd_enc h))
  | prefixSid ts => exact decodeAttr_typed (of_decide_eq_true rfl) (key .prefixSid (parseTlv8Ext b) ts (parseTlv8Ext_enc h))
  | bier ts => exact decodeAttr_typed (of_decide_eq_true rfl) (key .bier (parseBier b) ts (parseBier_enc h))
  | sfp ts => exact decodeAttr_typed (of_decide_eq_true rfl) (key .sfp (parseTlv8Ext b) ts (parseTlv8Ext_enc h))
  | development d => injection h with h; rw [h]; exact decodeAttr_typed (of_decide_eq_true rfl) rfl
  | raw c d => injection h with h; rw [h, decodeAttr_ok]; exact .inr (.inr (.inl ⟨hok, rfl, rfl⟩))
  | deprecated c d => injection h with h; rw [h, decodeAttr_ok]; exact .inl ⟨hok, rfl, rfl⟩
  | unknown c d => injection h with h; rw [h, decodeAttr_ok]; exact .inr (.inl ⟨hok, rfl, rfl⟩)
  | aigp ts =>
    refine decodeAttr_typed (of_decide_eq_true rfl) (key .aigp (parseAigp b) ts ?_)
    injection h with h; rw [← h]; exact parseAigp_enc hok
  | attrSet => exact absurd hok id

theorem be16_ofNat {n : Nat} (h : n < 65536) :
    be16 (UInt16.ofNat n) = [UInt8.ofNat (n / 256), UInt8.ofNat (n % 256)] := by
  have h1 : (UInt16.ofNat n).toNat = n := by simp; omega
  rw [be16, h1]
  congr 2
  apply UInt8.toNat_inj.mp; simp

theorem encodeAttr_wire {l : AsnLen} {a : Attribute} {bs : Bytes} (h : encodeAttr l a = .ok bs) :
    ∃ b, encodeAttrVal l a.value = .ok b ∧ (⟨a.flag, a.value.code, b⟩ : Wire).ok ∧
      bs = (⟨a.flag, a.value.code, b⟩ : Wire).bytes := by
  unfold encodeAttr at h
  cases hv : encodeAttrVal l a.value with
  | error e => rw [hv] at h; cases h
  | ok b =>
    rw [hv] at h
    dsimp only at h
    refine ⟨b, rfl, ?_⟩
    unfold Wire.ok Wire.bytes LenFits headBytes
    dsimp only
    rw [isExtended_eq] at h
    by_cases he : ExtendedLength a.flag
    · rw [if_pos he, if_pos he]
      rw [if_pos (decide_eq_true he)] at h
      cases hl : u16Len b with
      | error e => rw [hl] at h; cases h
      | ok c =>
        rw [hl] at h
        obtain ⟨h1, h2⟩ := u16Len_ok.mp hl
        refine ⟨by omega, ?_⟩
        injection h with h
        rw [← h, h2, be16_ofNat (by omega)]
        simp
    · rw [if_neg he, if_neg he]
      rw [if_neg (by simpa using he)] at h
      cases hl : u8Len b with
      | error e => rw [hl] at h; cases h
      | ok c =>
        rw [hl] at h
        obtain ⟨h1, h2⟩ := u8Len_ok.mp hl
        refine ⟨by omega, ?_⟩
        injection h with h
        rw [← h, h2]
        simp

theorem encodeAttributes_wires (cfg : AttrCfg) {as : List Attribute} {bs : Bytes} (hok : ∀ a ∈ as, AttrValOk cfg a.value)
    (h : encodeAttributes cfg.asnLen as = .ok bs) :
    ∃ ws, (∀ w ∈ ws, w.ok) ∧ bs = wireBytes ws ∧ ws.map (attrOf cfg) = as := by
  unfold encodeAttributes at h
  induction as generalizing bs with
  | nil => injection h with h; exact ⟨[], by simp, h.symm, rfl⟩
  | cons a as ih =>
    obtain ⟨x, y, h1, h2, rfl⟩ := encAll_cons_ok.mp h
    obtain ⟨ws, hw, rfl, hm⟩ := ih (fun a ha => hok a (by simp [ha])) h2
    obtain ⟨b, hb, hwo, rfl⟩ := encodeAttr_wire h1
    refine ⟨⟨a.flag, a.value.code, b⟩ :: ws, ?_, ?_, ?_⟩
    · intro w hw'
      rcases List.mem_cons.mp hw' with rfl | hw'
      · exact hwo
      · exact hw w hw'
    · simp [wireBytes]
    · rw [List.map_cons, hm]
      congr 1
      unfold attrOf valueOf
      rw [decodeAttr_enc (hok a (by simp)) hb]

end Verif
