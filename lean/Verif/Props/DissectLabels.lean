import Verif.Model.DissectLabels
import Verif.Spec.DissectLabels
import Verif.Lemmas.Exact
import Verif.Lemmas.AsPath
import Verif.Lemmas.RewriteMp
/-
C110: the labels of a dissected attribute value show what the parser reads.
-/
namespace Verif.Props
open Spec

/-! ### loops -/

/-- labels of entries numbered from `i` on. -/
def mapFrom (f : Nat → α → List Char) : Nat → List α → List (List Char)
  | _, [] => []
  | i, a :: as => f i a :: mapFrom f (i + 1) as

theorem mapFrom_plain (g : α → List Char) : ∀ (i : Nat) (as : List α), mapFrom (fun _ a => g a) i as = as.map g
  | _, [] => rfl
  | i, _ :: as => by rw [mapFrom, mapFrom_plain g (i + 1) as]; rfl

theorem mapFrom_entries (name : String) (g : α → List Char) : ∀ (i : Nat) (as : List α),
    mapFrom (fun i a => entryLabel name i (g a)) i as = entriesFrom name g i as
  | _, [] => rfl
  | i, _ :: as => by rw [mapFrom, mapFrom_entries name g (i + 1) as]; rfl

theorem labels_many {p : Rd α} {step : Nat → Bytes → Option (List Char × Bytes)} {f : Nat → α → List Char} {Q : α → Prop}
    (hp : ∀ i s a r, p s = .ok (a, r) → Q a → step i s = some (f i a, r)) (hnil : ∀ i, step i [] = none) :
    ∀ (fuel i : Nat) (s : Bytes) (as : List α), manyFuel p fuel s = .ok as → (∀ a ∈ as, Q a) →
      labels step (fuel + 1) i s = mapFrom f i as := by
  intro fuel
  induction fuel with
  | zero =>
    intro i s as h _
    cases s with
    | nil => cases h; simp only [labels, hnil]; rfl
    | cons b bs => cases h
  | succ fuel ih =>
    intro i s as h hq
    cases s with
    | nil => cases h; simp only [labels, hnil]; rfl
    | cons b bs =>
      simp only [manyFuel] at h
      cases h1 : p (b :: bs) with
      | error e => rw [h1] at h; cases h
      | ok v =>
        obtain ⟨a, r⟩ := v
        rw [h1] at h
        dsimp only at h
        cases h2 : manyFuel p fuel r with
        | error e => rw [h2] at h; cases h
        | ok as' =>
          rw [h2] at h
          cases h
          rw [labels, hp i _ _ _ h1 (hq a (by simp))]
          dsimp only
          rw [ih (i + 1) r as' h2 fun x hx => hq x (List.mem_cons_of_mem _ hx)]
          rfl

theorem loop_many {p : Rd α} {step : Nat → Bytes → Option (List Char × Bytes)} {f : Nat → α → List Char} {s : Bytes}
    {as : List α} (h : many p s = .ok as) (hp : ∀ i s a r, p s = .ok (a, r) → step i s = some (f i a, r))
    (hnil : ∀ i, step i [] = none) : loopLabels step s = mapFrom f 1 as :=
  labels_many (Q := fun _ => True) (fun i s a r h _ => hp i s a r h) hnil s.length 1 s as h fun _ _ => trivial

theorem num_eq (n : Nat) : num n = decText n := rfl
theorem lit_eq (s : String) : lit s = s.toList := rfl

/-! ### entries -/

theorem rdU32_bytes {s r : Bytes} {a : UInt32} (h : rdU32 s = .ok (a, r)) :
    ∃ b c d e, s = b :: c :: d :: e :: r ∧ a = u32of b c d e := by
  simp only [rdU32] at h
  split at h
  · cases h; exact ⟨_, _, _, _, rfl, rfl⟩
  · cases h

theorem rdU16_bytes {s r : Bytes} {a : UInt16} (h : rdU16 s = .ok (a, r)) : ∃ b c, s = b :: c :: r ∧ a = u16of b c := by
  simp only [rdU16] at h
  split at h
  · cases h; exact ⟨_, _, rfl, rfl⟩
  · cases h

theorem cluster_step (i : Nat) (s : Bytes) (a : UInt32) (r : Bytes) (h : rdU32 s = .ok (a, r)) :
    clusterLabelStep i s = some (entryLabel "Cluster ID" i (num a.toNat), r) := by
  obtain ⟨b, c, d, e, rfl, rfl⟩ := rdU32_bytes h
  rfl

theorem large_step (i : Nat) (s : Bytes) (a : LargeCommunity) (r : Bytes) (h : rdLarge s = .ok (a, r)) :
    largeLabelStep i s = some (entryLabel "Large community" i (num a.globalAdmin.toNat ++ ":".toList ++
      num a.local1.toNat ++ ":".toList ++ num a.local2.toNat), r) := by
  simp only [rdLarge] at h
  rw [Rd.bind_eq_ok] at h; obtain ⟨x, s1, h1, h⟩ := h
  rw [Rd.bind_eq_ok] at h; obtain ⟨y, s2, h2, h⟩ := h
  rw [Rd.bind_eq_ok] at h; obtain ⟨z, s3, h3, h⟩ := h
  obtain ⟨_, _, _, _, rfl, rfl⟩ := rdU32_bytes h1
  obtain ⟨_, _, _, _, rfl, rfl⟩ := rdU32_bytes h2
  obtain ⟨_, _, _, _, rfl, rfl⟩ := rdU32_bytes h3
  cases h
  rfl

theorem u32_halves (a b c d : UInt8) : (u32of a b c d).toNat = (u16of a b).toNat * 65536 + (u16of c d).toNat := by
  rw [u32of_toNat, u16of_toNat, u16of_toNat]; omega

theorem wellKnown1 : decText 65535 ++ lit ":" ++ decText 65281 = "65535:65281".toList := by decide +kernel
theorem wellKnown2 : decText 65535 ++ lit ":" ++ decText 65282 = "65535:65282".toList := by decide +kernel
theorem wellKnown3 : decText 65535 ++ lit ":" ++ decText 65283 = "65535:65283".toList := by decide +kernel

/-- the community with a 32-bit value. -/
def commOf (v : UInt32) : Community :=
  if v = 0xFFFFFF01 then .noExport else if v = 0xFFFFFF02 then .noAdvertise else if v = 0xFFFFFF03 then .noExportSubConfed
  else .custom (UInt32.ofNat (v.toNat / 65536)) (UInt16.ofNat v.toNat)

theorem rdCommunity_shown {s r : Bytes} {a : Community} (h : rdCommunity s = .ok (a, r)) :
    ∃ v, rdU32 s = .ok (v, r) ∧ a = commOf v := by
  unfold rdCommunity at h
  rw [Rd.bind_eq_ok] at h; obtain ⟨x, s1, h1, h⟩ := h
  have : (Pure.pure (commOf x) : Rd Community) s1 = .ok (a, r) := by
    rw [← h, commOf]
    by_cases e1 : x = 0xFFFFFF01
    · rw [if_pos e1, if_pos e1]
    rw [if_neg e1, if_neg e1]
    by_cases e2 : x = 0xFFFFFF02
    · rw [if_pos e2, if_pos e2]
    rw [if_neg e2, if_neg e2]
    by_cases e3 : x = 0xFFFFFF03
    · rw [if_pos e3, if_pos e3]
    rw [if_neg e3, if_neg e3]
  rw [Rd.pure_apply] at this
  injection this with this
  injection this with h3 h4
  exact ⟨x, h4 ▸ h1, h3.symm⟩

theorem wk1_nat (v : UInt32) (e : v = 0xFFFFFF01) : v.toNat = 4294967041 := by rw [e]; rfl
theorem wk1_halves (n m k : Nat) (hm : m < 65536) (h : k = n * 65536 + m) (hk : k = 4294967041) : n = 65535 ∧ m = 65281 := by
  omega
theorem wk1_shown : communityShown .noExport = decText 65535 ++ lit ":" ++ decText 65281 := wellKnown1.symm

theorem wk2_nat (v : UInt32) (e : v = 0xFFFFFF02) : v.toNat = 4294967042 := by rw [e]; rfl
theorem wk2_halves (n m k : Nat) (hm : m < 65536) (h : k = n * 65536 + m) (hk : k = 4294967042) : n = 65535 ∧ m = 65282 := by
  omega
theorem wk2_shown : communityShown .noAdvertise = decText 65535 ++ lit ":" ++ decText 65282 := wellKnown2.symm

theorem wk3_nat (v : UInt32) (e : v = 0xFFFFFF03) : v.toNat = 4294967043 := by rw [e]; rfl
theorem wk3_halves (n m k : Nat) (hm : m < 65536) (h : k = n * 65536 + m) (hk : k = 4294967043) : n = 65535 ∧ m = 65283 := by
  omega
theorem wk3_shown : communityShown .noExportSubConfed = decText 65535 ++ lit ":" ++ decText 65283 := wellKnown3.symm

theorem high_half (v : UInt32) (n m : Nat) (hm : m < 65536) (h : v.toNat = n * 65536 + m) :
    (UInt32.ofNat (v.toNat / 65536)).toNat = n := by
  have hv := v.toNat_lt
  rw [UInt32.toNat_ofNat']; omega

theorem low_half (v : UInt32) (n m : Nat) (hm : m < 65536) (h : v.toNat = n * 65536 + m) : (UInt16.ofNat v.toNat).toNat = m := by
  rw [UInt16.toNat_ofNat']; omega

theorem custom_shown (a : UInt32) (b : UInt16) (n m : Nat) (h1 : a.toNat = n) (h2 : b.toNat = m) :
    communityShown (.custom a b) = decText n ++ lit ":" ++ decText m := by
  subst h1 h2; rfl

theorem commOf_shown (v : UInt32) (n m : Nat) (hm : m < 65536) (h : v.toNat = n * 65536 + m) :
    communityShown (commOf v) = decText n ++ lit ":" ++ decText m := by
  by_cases e1 : v = 0xFFFFFF01
  · obtain ⟨a1, a2⟩ := wk1_halves n m _ hm h (wk1_nat v e1)
    have e : commOf v = .noExport := by rw [commOf, if_pos e1]
    exact (congrArg communityShown e).trans (wk1_shown.trans (by rw [a1, a2]))
  by_cases e2 : v = 0xFFFFFF02
  · obtain ⟨a1, a2⟩ := wk2_halves n m _ hm h (wk2_nat v e2)
    have e : commOf v = .noAdvertise := by rw [commOf, if_neg e1, if_pos e2]
    exact (congrArg communityShown e).trans (wk2_shown.trans (by rw [a1, a2]))
  by_cases e3 : v = 0xFFFFFF03
  · obtain ⟨a1, a2⟩ := wk3_halves n m _ hm h (wk3_nat v e3)
    have e : commOf v = .noExportSubConfed := by rw [commOf, if_neg e1, if_neg e2, if_pos e3]
    exact (congrArg communityShown e).trans (wk3_shown.trans (by rw [a1, a2]))
  have e : commOf v = .custom (UInt32.ofNat (v.toNat / 65536)) (UInt16.ofNat v.toNat) := by
    rw [commOf, if_neg e1, if_neg e2, if_neg e3]
  exact (congrArg communityShown e).trans (custom_shown _ _ n m (high_half v n m hm h) (low_half v n m hm h))

theorem community_step (i : Nat) (s : Bytes) (a : Community) (r : Bytes) (h : rdCommunity s = .ok (a, r)) :
    communityLabelStep i s = some (entryLabel "Community" i (communityShown a), r) := by
  obtain ⟨x, h1, e⟩ := rdCommunity_shown h
  obtain ⟨p, q, u, v, rfl, ex⟩ := rdU32_bytes h1
  rw [e, commOf_shown x _ _ (u16of u v).toNat_lt (by rw [ex]; exact u32_halves p q u v)]
  rfl

theorem aigp_step (i : Nat) (s : Bytes) (t : AigpTlv) (r : Bytes) (h : rdAigp s = .ok (t, r)) :
    aigpLabelStep i s = some ("AIGP TLV: type ".toList ++ num t.type.toNat ++ ", ".toList ++ num (3 + t.value.length) ++
      " bytes".toList, r) := by
  simp only [rdAigp] at h
  rw [Rd.bind_ok (Rd.remaining_apply _)] at h
  split at h
  · cases h
  rw [Rd.bind_eq_ok] at h; obtain ⟨x, s1, h1, h⟩ := h
  rw [Rd.bind_eq_ok] at h; obtain ⟨y, s2, h2, h⟩ := h
  have e1 := rdU8_ok h1
  obtain ⟨b, c, e2, rfl⟩ := rdU16_bytes h2
  subst e2
  subst e1
  split at h
  · cases h
  rw [Rd.bind_ok (Rd.remaining_apply _)] at h
  split at h
  · cases h
  rename_i n1 n2 n3
  simp only [splitTo] at h
  rw [Rd.bind_eq_ok] at h; obtain ⟨v, s4, h4, h⟩ := h
  dsimp only at h4
  rw [if_neg n3] at h4
  cases h4
  cases h
  simp only [aigpLabelStep]
  rw [if_neg (by simp; omega)]
  have hl : 3 + (s2.take ((u16of b c).toNat - 3)).length = (u16of b c).toNat := by simp; omega
  have hd : (x :: b :: c :: s2).drop (u16of b c).toNat = s2.drop ((u16of b c).toNat - 3) := by
    obtain ⟨k, hk⟩ : ∃ k, (u16of b c).toNat = k + 3 := ⟨(u16of b c).toNat - 3, by omega⟩
    rw [hk]; rfl
  rw [hl, hd]
  rfl

theorem ipv6Ext_step (i : Nat) (s : Bytes) (a : Ipv6ExtCommunity) (r : Bytes) (h : rdIpv6Ext s = .ok (a, r)) :
    ipv6ExtLabelStep i s = some ("IPv6 extended community [".toList ++ num i ++ "]".toList, r) := by
  simp only [rdIpv6Ext] at h
  rw [Rd.bind_eq_ok] at h; obtain ⟨x, s1, h1, h⟩ := h
  rw [Rd.bind_eq_ok] at h; obtain ⟨y, s2, h2, h⟩ := h
  rw [Rd.bind_eq_ok] at h; obtain ⟨z, s3, h3, h⟩ := h
  rw [Rd.bind_eq_ok] at h; obtain ⟨w, s4, h4, h⟩ := h
  rw [Rd.bind_eq_ok] at h; obtain ⟨w', s5, h5, h⟩ := h
  have e1 := rdU8_ok h1
  have e2 := rdU8_ok h2
  have e3 := rdVec_ok h3
  have e4 := rdU8_ok h4
  have e5 := rdU8_ok h5
  cases h
  subst e5 e4 e3 e2 e1
  have hz : z.toList.length = 16 := by simp
  have he : (x :: y :: (z.toList ++ w :: w' :: r)) = (x :: y :: (z.toList ++ [w, w'])) ++ r := by simp
  simp only [ipv6ExtLabelStep]
  rw [he, if_neg (by simp; omega), List.drop_left' (by simp)]
  rfl

theorem ipv6_range (i : Nat) (as : List α) :
    mapFrom (fun i (_ : α) => "IPv6 extended community [".toList ++ num i ++ "]".toList) i as =
      (List.range as.length).map fun k => "IPv6 extended community [".toList ++ num (k + i) ++ "]".toList := by
  induction as generalizing i with
  | nil => rfl
  | cons a as ih =>
    rw [mapFrom, ih (i + 1), List.length_cons, List.range_succ_eq_map, List.map_cons, List.map_map, Nat.zero_add]
    congr 1
    apply List.map_congr_left
    intro k _
    simp only [Function.comp, Nat.succ_eq_add_one]
    rw [show k + 1 + i = k + (i + 1) from by omega]

/-! ### extended communities -/

theorem vec2_list (v : Vector UInt8 2) : ∃ a b, v.toList = [a, b] := by
  have h : v.toList.length = 2 := by simp
  match v.toList, h with
  | [a, b], _ => exact ⟨a, b, rfl⟩

theorem vec4_list (v : Vector UInt8 4) : ∃ a b c d, v.toList = [a, b, c, d] := by
  have h : v.toList.length = 4 := by simp
  match v.toList, h with
  | [a, b, c, d], _ => exact ⟨a, b, c, d, rfl⟩

theorem vec6_list (v : Vector UInt8 6) : ∃ a b c d e f, v.toList = [a, b, c, d, e, f] := by
  have h : v.toList.length = 6 := by simp
  match v.toList, h with
  | [a, b, c, d, e, f], _ => exact ⟨a, b, c, d, e, f, rfl⟩

theorem numOf2 (a b : UInt8) : numOf [a, b] = (u16of a b).toNat := by
  rw [u16of_toNat]; simp [numOf]

theorem numOf_four (a b c d : UInt8) : numOf [a, b, c, d] = (u32of a b c d).toNat := by
  rw [u32of_toNat]; simp only [numOf, List.foldl]; omega

theorem hex2_eq (b : UInt8) : hex2 b = hexOf b := rfl

theorem extHead_eq (t st : UInt8) : lit "type 0x" ++ hex2 t ++ lit " subtype 0x" ++ hex2 st ++ lit ": " = extHead t st := by
  unfold extHead lit hex2 hexText hexOf
  rfl

theorem extLabel_low0 (t st a b c d e f : UInt8) (h : t &&& 0x0F = 0) :
    extLabel t st a b c d e f = extHead t st ++ pair (num (u16of a b).toNat) (num (u32of c d e f).toNat) := by
  unfold extLabel
  dsimp only
  rw [extHead_eq, if_pos h, pair, num_eq, num_eq, lit_eq, List.append_assoc, List.append_assoc, List.append_assoc]

theorem extLabel_low1 (t st a b c d e f : UInt8) (h : t &&& 0x0F = 1) :
    extLabel t st a b c d e f = extHead t st ++ pair (v4Text #v[a, b, c, d]) (num (u16of e f).toNat) := by
  unfold extLabel
  dsimp only
  rw [extHead_eq, if_neg (by rw [h]; decide), if_pos h, pair, num_eq, lit_eq, List.append_assoc, List.append_assoc,
    List.append_assoc]

theorem extLabel_low2 (t st a b c d e f : UInt8) (h : t &&& 0x0F = 2) :
    extLabel t st a b c d e f = extHead t st ++ pair (num (u32of a b c d).toNat) (num (u16of e f).toNat) := by
  unfold extLabel
  dsimp only
  rw [extHead_eq, if_neg (by rw [h]; decide), if_neg (by rw [h]; decide), if_pos h, pair, num_eq, num_eq, lit_eq,
    List.append_assoc, List.append_assoc, List.append_assoc]

theorem extLabel_low3 (t st a b c d e f : UInt8) (h : t &&& 0x0F = 3) :
    extLabel t st a b c d e f = extHead t st ++ hexList [a, b, c, d, e, f] := by
  unfold extLabel
  dsimp only
  rw [extHead_eq, if_neg (by rw [h]; decide), if_neg (by rw [h]; decide), if_neg (by rw [h]; decide), hexList]
  rfl

theorem extLabelStep_eq (i : Nat) (t st a b c d e f : UInt8) (r : Bytes) :
    extLabelStep i (t :: st :: a :: b :: c :: d :: e :: f :: r) =
      some (entryLabel "Extended community" i (extLabel t st a b c d e f), r) := rfl

/-- the label of two-octet layouts. -/
theorem ext_two (i : Nat) (t st : UInt8) (h : t &&& 0x0F = 0) {s s1 r : Bytes} {g : UInt16} {l : Vector UInt8 4}
    (h1 : rdU16 s = .ok (g, s1)) (h2 : rdVec 4 s1 = .ok (l, r)) :
    extLabelStep i (t :: st :: s) = some (entryLabel "Extended community" i
      (extHead t st ++ pair (num g.toNat) (num (numOf l.toList))), r) := by
  obtain ⟨a, b, rfl, rfl⟩ := rdU16_bytes h1
  have e := rdVec_ok h2
  obtain ⟨c, d, x, y, hl⟩ := vec4_list l
  rw [hl] at e ⊢
  subst e
  rw [numOf_four, ← extLabel_low0 t st a b c d x y h]
  exact extLabelStep_eq i t st a b c d x y r

theorem ext_two32 (i : Nat) (t st : UInt8) (h : t &&& 0x0F = 0) {s s1 r : Bytes} {g : UInt16} {l : UInt32}
    (h1 : rdU16 s = .ok (g, s1)) (h2 : rdU32 s1 = .ok (l, r)) :
    extLabelStep i (t :: st :: s) = some (entryLabel "Extended community" i
      (extHead t st ++ pair (num g.toNat) (num l.toNat)), r) := by
  obtain ⟨a, b, rfl, rfl⟩ := rdU16_bytes h1
  obtain ⟨c, d, x, y, rfl, rfl⟩ := rdU32_bytes h2
  rw [← extLabel_low0 t st a b c d x y h]
  exact extLabelStep_eq i t st a b c d x y r

theorem ext_ip (i : Nat) (t st : UInt8) (h : t &&& 0x0F = 1) {s s1 r : Bytes} {g : V4} {l : Vector UInt8 2}
    (h1 : rdVec 4 s = .ok (g, s1)) (h2 : rdVec 2 s1 = .ok (l, r)) :
    extLabelStep i (t :: st :: s) = some (entryLabel "Extended community" i
      (extHead t st ++ pair (v4Text g) (num (numOf l.toList))), r) := by
  have e1 := rdVec_ok h1
  have e2 := rdVec_ok h2
  obtain ⟨a, b, c, d, hg⟩ := vec4_list g
  obtain ⟨x, y, hl⟩ := vec2_list l
  have hv : v4Text g = v4Text #v[a, b, c, d] := by
    rw [v4Text, v4Text, hg]; rfl
  rw [hl] at e2 ⊢
  rw [hg] at e1
  subst e2 e1
  rw [hv, numOf2, ← extLabel_low1 t st a b c d x y h]
  exact extLabelStep_eq i t st a b c d x y r

theorem ext_four (i : Nat) (t st : UInt8) (h : t &&& 0x0F = 2) {s s1 r : Bytes} {g : UInt32} {l : Vector UInt8 2}
    (h1 : rdU32 s = .ok (g, s1)) (h2 : rdVec 2 s1 = .ok (l, r)) :
    extLabelStep i (t :: st :: s) = some (entryLabel "Extended community" i
      (extHead t st ++ pair (num g.toNat) (num (numOf l.toList))), r) := by
  obtain ⟨a, b, c, d, rfl, rfl⟩ := rdU32_bytes h1
  have e2 := rdVec_ok h2
  obtain ⟨x, y, hl⟩ := vec2_list l
  rw [hl] at e2 ⊢
  subst e2
  rw [numOf2, ← extLabel_low2 t st a b c d x y h]
  exact extLabelStep_eq i t st a b c d x y r

theorem ext_opaque (i : Nat) (t st : UInt8) (h : t &&& 0x0F = 3) {s r : Bytes} {l : Vector UInt8 6}
    (h1 : rdVec 6 s = .ok (l, r)) :
    extLabelStep i (t :: st :: s) = some (entryLabel "Extended community" i (extHead t st ++ hexList l.toList), r) := by
  have e := rdVec_ok h1
  obtain ⟨a, b, c, d, x, y, hl⟩ := vec6_list l
  rw [hl] at e ⊢
  subst e
  rw [← extLabel_low3 t st a b c d x y h]
  exact extLabelStep_eq i t st a b c d x y r

theorem toU32_of16 (g : UInt16) : g.toUInt32.toNat = g.toNat := by simp

theorem ofU8_toU8 (x : UInt8) : (ExtType.ofU8 x).toU8 = x := by
  unfold ExtType.ofU8
  repeat' split
  all_goals first | (rename_i h; exact h.symm) | rfl

theorem ext_step (i : Nat) (s : Bytes) (a : ExtCommunity) (r : Bytes) (h : rdExt s = .ok (a, r)) (t : List Char)
    (ht : extShown a = some t) : extLabelStep i s = some (entryLabel "Extended community" i t, r) := by
  unfold rdExt at h
  rw [Rd.bind_eq_ok] at h; obtain ⟨x, s1, h1, h⟩ := h
  have e1 := rdU8_ok h1
  subst e1
  have ex := ofU8_toU8 x
  cases ht' : ExtType.ofU8 x with
  | twoOctetAs =>
    rw [ht'] at h ex
    simp only [ExtType.toU8] at ex
    simp only [rdExtTwoOctetAs] at h
    rw [Rd.bind_eq_ok] at h; obtain ⟨st, s2, h2, h⟩ := h
    have e2 := rdU8_ok h2
    subst e2 ex
    split at h
    · rename_i e
      rw [Rd.bind_eq_ok] at h; obtain ⟨g, s3, h3, h⟩ := h
      rw [Rd.bind_eq_ok] at h; obtain ⟨b, s4, h4, h⟩ := h
      cases h; cases ht; subst e
      exact ext_two32 i 0 4 (by decide) h3 h4
    · rw [Rd.bind_eq_ok] at h; obtain ⟨g, s3, h3, h⟩ := h
      rw [Rd.bind_eq_ok] at h; obtain ⟨l, s4, h4, h⟩ := h
      cases h; cases ht
      rw [toU32_of16]
      exact ext_two i 0 st (by decide) h3 h4
  | ntTwoOctetAs =>
    rw [ht'] at h ex
    simp only [ExtType.toU8] at ex
    simp only [rdExtNtTwoOctetAs] at h
    rw [Rd.bind_eq_ok] at h; obtain ⟨st, s2, h2, h⟩ := h
    have e2 := rdU8_ok h2
    subst e2 ex
    split at h
    · rename_i e
      rw [Rd.bind_eq_ok] at h; obtain ⟨g, s3, h3, h⟩ := h
      rw [Rd.bind_eq_ok] at h; obtain ⟨b, s4, h4, h⟩ := h
      cases h; cases ht; subst e
      exact ext_two32 i 0x40 4 (by decide) h3 h4
    split at h
    · rename_i e
      rw [Rd.bind_eq_ok] at h; obtain ⟨g, s3, h3, h⟩ := h
      rw [Rd.bind_eq_ok] at h; obtain ⟨b, s4, h4, h⟩ := h
      cases h; cases ht; subst e
      exact ext_two32 i 0x40 6 (by decide) h3 h4
    split at h
    · rw [Rd.bind_eq_ok] at h; obtain ⟨g, s3, h3, h⟩ := h
      rw [Rd.bind_eq_ok] at h; obtain ⟨b, s4, h4, h⟩ := h
      cases h; cases ht
    split at h
    · rw [Rd.bind_eq_ok] at h; obtain ⟨g, s3, h3, h⟩ := h
      rw [Rd.bind_eq_ok] at h; obtain ⟨l, s4, h4, h⟩ := h
      cases h; cases ht
      rw [toU32_of16]
      exact ext_two i 0x40 st (by decide) h3 h4
    split at h
    · rw [Rd.bind_eq_ok] at h; obtain ⟨g, s3, h3, h⟩ := h
      rw [Rd.bind_eq_ok] at h; obtain ⟨b, s4, h4, h⟩ := h
      rw [Rd.bind_eq_ok] at h; obtain ⟨b', s5, h5, h⟩ := h
      rw [Rd.bind_eq_ok] at h; obtain ⟨b'', s6, h6, h⟩ := h
      cases h; cases ht
    · rw [Rd.bind_eq_ok] at h; obtain ⟨g, s3, h3, h⟩ := h
      rw [Rd.bind_eq_ok] at h; obtain ⟨l, s4, h4, h⟩ := h
      cases h; cases ht
      rw [toU32_of16]
      exact ext_two i 0x40 st (by decide) h3 h4
  | ipv4Addr =>
    rw [ht'] at h ex
    simp only [ExtType.toU8] at ex
    rw [Rd.bind_eq_ok] at h; obtain ⟨st, s2, h2, h⟩ := h
    rw [Rd.bind_eq_ok] at h; obtain ⟨g, s3, h3, h⟩ := h
    rw [Rd.bind_eq_ok] at h; obtain ⟨l, s4, h4, h⟩ := h
    have e2 := rdU8_ok h2
    subst e2 ex
    cases h; cases ht
    exact ext_ip i 0x01 st (by decide) h3 h4
  | ntIpv4Addr =>
    rw [ht'] at h ex
    simp only [ExtType.toU8] at ex
    rw [Rd.bind_eq_ok] at h; obtain ⟨st, s2, h2, h⟩ := h
    rw [Rd.bind_eq_ok] at h; obtain ⟨g, s3, h3, h⟩ := h
    rw [Rd.bind_eq_ok] at h; obtain ⟨l, s4, h4, h⟩ := h
    have e2 := rdU8_ok h2
    subst e2 ex
    cases h; cases ht
    exact ext_ip i 0x41 st (by decide) h3 h4
  | fourOctetAs =>
    rw [ht'] at h ex
    simp only [ExtType.toU8] at ex
    rw [Rd.bind_eq_ok] at h; obtain ⟨st, s2, h2, h⟩ := h
    rw [Rd.bind_eq_ok] at h; obtain ⟨g, s3, h3, h⟩ := h
    rw [Rd.bind_eq_ok] at h; obtain ⟨l, s4, h4, h⟩ := h
    have e2 := rdU8_ok h2
    subst e2 ex
    cases h; cases ht
    exact ext_four i 0x02 st (by decide) h3 h4
  | ntFourOctetAs =>
    rw [ht'] at h ex
    simp only [ExtType.toU8] at ex
    rw [Rd.bind_eq_ok] at h; obtain ⟨st, s2, h2, h⟩ := h
    rw [Rd.bind_eq_ok] at h; obtain ⟨g, s3, h3, h⟩ := h
    rw [Rd.bind_eq_ok] at h; obtain ⟨l, s4, h4, h⟩ := h
    have e2 := rdU8_ok h2
    subst e2 ex
    cases h; cases ht
    exact ext_four i 0x42 st (by decide) h3 h4
  | opaq =>
    rw [ht'] at h ex
    simp only [ExtType.toU8] at ex
    rw [Rd.bind_eq_ok] at h; obtain ⟨st, s2, h2, h⟩ := h
    rw [Rd.bind_eq_ok] at h; obtain ⟨l, s3, h3, h⟩ := h
    have e2 := rdU8_ok h2
    subst e2 ex
    cases h; cases ht
    exact ext_opaque i 0x03 st (by decide) h3
  | ntOpaque =>
    rw [ht'] at h ex
    simp only [ExtType.toU8] at ex
    rw [Rd.bind_eq_ok] at h; obtain ⟨st, s2, h2, h⟩ := h
    rw [Rd.bind_eq_ok] at h; obtain ⟨l, s3, h3, h⟩ := h
    have e2 := rdU8_ok h2
    subst e2 ex
    cases h; cases ht
    exact ext_opaque i 0x43 st (by decide) h3
  | unknown c =>
    rw [ht'] at h
    rw [Rd.bind_eq_ok] at h; obtain ⟨l, s2, h2, h⟩ := h
    cases h; cases ht

theorem allOf_some {f : α → Option (List Char)} : ∀ {as : List α} {ts : List (List Char)}, allOf f as = some ts →
    (∀ a ∈ as, (f a).isSome = true) ∧ ts = as.map fun a => (f a).getD []
  | [], ts, h => by cases h; simp
  | a :: as, ts, h => by
    simp only [allOf] at h
    split at h
    · rename_i t ts' h1 h2
      cases h
      obtain ⟨k1, k2⟩ := allOf_some h2
      refine ⟨?_, by rw [List.map_cons, h1, ← k2]; rfl⟩
      intro x hx
      rcases List.mem_cons.mp hx with rfl | hx
      · rw [h1]; rfl
      · exact k1 x hx
    · cases h

theorem entriesFrom_map (name : String) (g : α → List Char) : ∀ (i : Nat) (as : List α),
    entriesFrom name id i (as.map g) = entriesFrom name g i as
  | _, [] => rfl
  | i, _ :: as => by rw [List.map_cons, entriesFrom, entriesFrom_map name g (i + 1) as]; rfl

/-! ### AS path segments -/

theorem asnAt_enc (l : AsnLen) (a : Asn) (h : l = .b16 → a.toNat ≤ 65535) (r : Bytes) :
    asnAt l.octets (encAsn l a ++ r) = a.toNat := by
  cases l with
  | b16 =>
    have := h rfl
    have e : a.toUInt16.toNat = a.toNat := by rw [UInt32.toNat_toUInt16]; omega
    have k := u16of_be16 a.toUInt16
    simp only [asnAt, AsnLen.octets, encAsn, be16, List.cons_append, List.nil_append, if_true]
    rw [k, e]
  | b32 =>
    have k := u32of_be32 a
    unfold asnAt
    rw [if_neg (by decide : ¬ AsnLen.b32.octets = 2)]
    simp only [encAsn, be32, List.cons_append, List.nil_append]
    rw [k]

theorem encAsn_length (l : AsnLen) (a : Asn) : (encAsn l a).length = l.octets := by cases l <;> rfl

theorem asns_shown (l : AsnLen) (r : Bytes) : ∀ as : List Asn, (l = .b16 → ∀ a ∈ as, a.toNat ≤ 65535) →
    (List.range as.length).map (fun i => decText (asnAt l.octets ((as.flatMap (encAsn l) ++ r).drop (i * l.octets)))) =
      as.map fun a => num a.toNat
  | [], _ => rfl
  | a :: as, h => by
    have ih := asns_shown l r as fun hl b hb => h hl b (List.mem_cons_of_mem _ hb)
    rw [List.length_cons, List.range_succ_eq_map, List.map_cons, List.map_map, List.map_cons, ← ih]
    congr 1
    · rw [Nat.zero_mul, List.drop_zero, List.flatMap_cons, List.append_assoc, asnAt_enc l a fun hl => h hl a (by simp)]
      rfl
    · apply List.map_congr_left
      intro k _
      simp only [Function.comp, Nat.succ_eq_add_one]
      rw [List.flatMap_cons, List.append_assoc, Nat.add_mul, Nat.one_mul, Nat.add_comm, ← List.drop_drop,
        List.drop_left' (encAsn_length l a)]

theorem segHead (g : Seg) : segLabelName g.code ++ lit ": " = (match g with
      | .set _ => "AS_SET: " | .seq _ => "AS_SEQUENCE: " | .confedSeq _ => "AS_CONFED_SEQUENCE: "
      | .confedSet _ => "AS_CONFED_SET: " : String).toList := by
  cases g
  · show lit "AS_SEQUENCE" ++ lit ": " = _; simp [lit]
  · show lit "AS_SET" ++ lit ": " = _; simp [lit]
  · show lit "AS_CONFED_SEQUENCE" ++ lit ": " = _; simp [lit]
  · show lit "AS_CONFED_SET" ++ lit ": " = _; simp [lit]

theorem seg_step (l : AsnLen) (i : Nat) (s : Bytes) (g : Seg) (r : Bytes) (h : parseSeg l s = .ok (g, r)) :
    segLabelStep l.octets i s = some (segShown g, r) := by
  obtain ⟨rfl, hf⟩ := parseSeg_ok h
  obtain ⟨h1, h2⟩ := hf
  have hc : (UInt8.ofNat g.asns.length).toNat = g.asns.length := by simp; omega
  have hl : (g.asns.flatMap (encAsn l)).length = g.asns.length * l.octets := by
    have := length_flatMap_encAsn l g.asns
    rw [this]; cases l <;> rfl
  have ha := asns_shown l r g.asns h2
  simp only [segEnc, List.cons_append, segLabelStep]
  rw [hc, if_neg (by rw [List.length_append, hl]; omega), ha, List.drop_left' hl]
  rw [segHead]
  rfl

/-! ### prefixes -/

theorem labels_flatMap {step : Nat → Bytes → Option (List Char × Bytes)} {f : Nat → α → List Char} {enc : α → Bytes}
    (hnil : ∀ i, step i [] = none) : ∀ (as : List α), (∀ a ∈ as, enc a ≠ [] ∧ ∀ i r, step i (enc a ++ r) = some (f i a, r)) →
    ∀ fuel i, (as.flatMap enc).length ≤ fuel → labels step (fuel + 1) i (as.flatMap enc) = mapFrom f i as
  | [], _, fuel, i, _ => by simp only [List.flatMap_nil, labels, hnil]; rfl
  | a :: as, h, fuel, i, hl => by
    obtain ⟨h1, h2⟩ := h a (by simp)
    rw [List.flatMap_cons, labels, h2]
    dsimp only
    have hp : 0 < (enc a).length := List.length_pos_iff.mpr h1
    rw [List.flatMap_cons, List.length_append] at hl
    obtain ⟨k, rfl⟩ : ∃ k, fuel = k + 1 := ⟨fuel - 1, by omega⟩
    rw [labels_flatMap hnil as (fun b hb => h b (List.mem_cons_of_mem _ hb)) k (i + 1) (by omega)]
    rfl

theorem prefixLabel_text (env : ShowEnv) {afi : Afi} {ap : Bool} {p : NetworkPrefix} (ha : afi = .ipv4 ∨ afi = .ipv6)
    (h : PrefixOk afi ap p) :
    prefixLabel env (decide (afi = .ipv4)) p.prefix_.len (p.prefix_.addr.octets.take (byteLen p.prefix_.len)) = p.text env ∧
      (p.prefix_.addr.octets.take (byteLen p.prefix_.len)).length = byteLen p.prefix_.len := by
  obtain ⟨hf, hl, ht, _⟩ := h
  obtain ⟨⟨a, l⟩, pid⟩ := p
  rcases ha with rfl | rfl
  · cases a with
    | v6 o => exact absurd hf id
    | v4 o =>
      have hb : byteLen l ≤ 4 := byteLen_le_of hl
      refine ⟨?_, by simp [Ip.octets]; omega⟩
      have := padVec_take o hb fun i hi h => ht i (show l.toNat ≤ 8 * i by simp only [byteLen] at hi; omega) h
      simp only [prefixLabel, decide_true, if_true, Ip.octets]
      rw [this]; rfl
  · cases a with
    | v4 o => exact absurd hf id
    | v6 o =>
      have hb : byteLen l ≤ 16 := byteLen_le_of hl
      refine ⟨?_, by simp [Ip.octets]; omega⟩
      have := padVec_take o hb fun i hi h => ht i (show l.toNat ≤ 8 * i by simp only [byteLen] at hi; omega) h
      simp only [prefixLabel, Ip.octets]
      rw [this, if_neg (by decide)]; rfl

theorem nlri_step (env : ShowEnv) {afi : Afi} {ap : Bool} {p : NetworkPrefix} (ha : afi = .ipv4 ∨ afi = .ipv6)
    (h : PrefixOk afi ap p) (i : Nat) (r : Bytes) :
    nlriLabelStep env (decide (afi = .ipv4)) ap i (p.encode ++ r) = some (p.text env, r) := by
  obtain ⟨ht, hl⟩ := prefixLabel_text env ha h
  have hp := h.path
  have core : ∀ b bs, (if ap then (p.encode ++ r).drop 4 else p.encode ++ r) =
      p.prefix_.len :: (p.prefix_.addr.octets.take (byteLen p.prefix_.len) ++ r) → p.encode ++ r = b :: bs →
      ¬ (ap = true ∧ (p.encode ++ r).length < 5) →
      nlriLabelStep env (decide (afi = .ipv4)) ap i (p.encode ++ r) = some (p.text env, r) := by
    intro b bs hd he hlen
    rw [he] at hd hlen ⊢
    simp only [nlriLabelStep]
    rw [if_neg hlen, hd]
    dsimp only
    change (if _ < byteLen p.prefix_.len then none else some (prefixLabel env _ _ (List.take (byteLen p.prefix_.len) _),
      List.drop (byteLen p.prefix_.len) _)) = _
    rw [if_neg (by rw [List.length_append, hl]; omega), List.take_left' hl, List.drop_left' hl, ht]
  cases hid : p.pathId with
  | none =>
    rw [hid] at hp
    have : ap = false := by rw [← hp]; rfl
    subst this
    exact core p.prefix_.len (p.prefix_.addr.octets.take (byteLen p.prefix_.len) ++ r)
      (by simp [NetworkPrefix.encode, hid, encPathId]) (by simp [NetworkPrefix.encode, hid, encPathId]) (by simp)
  | some k =>
    rw [hid] at hp
    have : ap = true := by rw [← hp]; rfl
    subst this
    have he : p.encode = be32 k ++ (p.prefix_.len :: p.prefix_.addr.octets.take (byteLen p.prefix_.len)) := by
      simp [NetworkPrefix.encode, hid, encPathId]
    refine core (UInt8.ofNat (k.toNat / 16777216)) _ ?_ (by rw [he]; rfl) ?_
    · rw [if_pos rfl, he, List.append_assoc, List.drop_left' (length_be32 k)]; rfl
    · rw [he]; simp; omega

/-- **C110** the prefixes of an NLRI section are shown as the parser reads them: one line each, in order. -/
theorem c110_nlri (env : ShowEnv) (afi : Afi) (ap : Bool) (s : Bytes) (ps : List NetworkPrefix)
    (ha : afi = .ipv4 ∨ afi = .ipv6) (h : parseNlriList afi ap s = .ok ps) (hid : ∀ p ∈ ps, p.pathId.isSome = ap) :
    nlriLabels env (decide (afi = .ipv4)) ap s = ps.map (NetworkPrefix.text env) := by
  obtain ⟨h1, h2⟩ := nlriLoop_sound _ _ _ _ _ (fun h => h) h
  subst h1
  rw [nlriLabels, loopLabels, encodeNlri]
  rw [labels_flatMap (f := fun _ p => NetworkPrefix.text env p) (fun i => rfl) ps
    (fun p hp => ⟨List.length_pos_iff.mp (encode_length_pos p), fun i r =>
      nlri_step env ha (by have := (h2 p hp).1; rwa [hid p hp] at this) i r⟩) _ 1 (Nat.le_refl _), mapFrom_plain]

/-! ### multiprotocol attributes -/

theorem hopLen_of {b : Bytes} {nh : Option NextHop} (h : parseMpNextHop b = .ok nh) :
    b.length = hopLen nh ∧ (nh = none ↔ b.length = 0) := by
  rcases parseMpNextHop_sound h with ⟨rfl, rfl⟩ | ⟨x, rfl, rfl⟩
  · exact ⟨rfl, by simp⟩
  · have := length_nextHop x
    refine ⟨by rw [this]; cases x <;> rfl, ?_⟩
    rw [this]; cases x <;> simp

/-- the plain-prefix branch of the parser. -/
theorem body_plain {a : Afi} {f : Safi} {nh : Option NextHop} {z reach ap : Bool} {s : Bytes} {n : Nlri}
    (h : parseNlriBody a f nh none z reach ap s = .ok n) (hp : PlainPrefixes ap n) :
    n.afi = a ∧ n.safi = f ∧ n.nextHop = nh ∧ ∃ r, rdReserved reach s = .ok ((), r) ∧ parseNlriList a ap r = .ok n.prefixes := by
  obtain ⟨h1, h2, _⟩ := hp
  unfold parseNlriBody at h
  split at h
  · rename_i hc
    cases h3 : rdReserved reach s with
    | error e => rw [h3] at h; cases h
    | ok v =>
      obtain ⟨u, r⟩ := v
      rw [h3] at h
      dsimp only at h
      cases h4 : parseLsNlri r with
      | error e => rw [h4] at h; cases h
      | ok ls =>
        rw [h4] at h
        cases h
        rcases h1 with h1 | h1 <;> (dsimp only at h1; rw [hc.1] at h1; cases h1)
  · split at h
    · rename_i hc
      split at h
      · cases h3 : rdReserved true s with
        | error e => rw [h3] at h; cases h
        | ok v =>
          obtain ⟨u, r⟩ := v
          rw [h3] at h
          dsimp only at h
          cases h4 : parseLabeledNlri a (nlriLabelCfg ap) r with
          | error e => rw [h4] at h; cases h
          | ok ls => rw [h4] at h; cases h; exact absurd hc h2
      · cases h4 : parseLabeledWithdrawals a ap s with
        | error e => rw [h4] at h; cases h
        | ok ls => rw [h4] at h; cases h; exact absurd hc h2
    · dsimp only at h
      cases h3 : rdReserved reach s with
      | error e => rw [h3] at h; cases h
      | ok v =>
        obtain ⟨u, r⟩ := v
        rw [h3] at h
        dsimp only at h
        cases h4 : parseNlriList a ap r with
        | error e => rw [h4] at h; cases h
        | ok ps =>
          rw [h4] at h
          cases h
          exact ⟨rfl, rfl, rfl, r, rfl, h4⟩

theorem be16_afi_octets {a : Afi} (h : a = .ipv4 ∨ a = .ipv6) (r : Bytes) :
    ∃ x y, be16 a.toU16 ++ r = x :: y :: r ∧ afiLabel (u16of x y).toNat = afiShown a ∧
      (u16of x y).toNat = a.toU16.toNat ∧ ((u16of x y).toNat == 1) = decide (a = .ipv4) := by
  rcases h with rfl | rfl
  · exact ⟨0, 1, rfl, by decide +kernel, by decide, by decide⟩
  · exact ⟨0, 2, rfl, by decide +kernel, by decide, by decide⟩

theorem mpReach_shown (env : ShowEnv) (ap : Bool) (d : Bytes) (n : Nlri)
    (h : parseNlri none none none true ap d = .ok n) (hp : PlainPrefixes ap n) :
    mpReachLabels env ap d = [afiShown n.afi, safiShown n.safi, "Next hop length: ".toList ++ num (hopLen n.nextHop)] ++
        (if n.nextHop = none then [] else ["Next hop (".toList ++ num (hopLen n.nextHop) ++ " bytes)".toList]) ++
        ["Reserved".toList] ++ n.prefixes.map (NetworkPrefix.text env) := by
  unfold parseNlri at h
  dsimp only at h
  generalize (d.head? == some 0) = z at h
  cases h0 : rdNlriHead none none z true d with
  | error e => rw [h0] at h; cases h
  | ok v =>
    obtain ⟨⟨a, f, nh⟩, r⟩ := v
    rw [h0] at h
    dsimp only at h
    obtain ⟨e1, e2, e3, t, h6, h7⟩ := body_plain h hp
    rw [e1, e2, e3]
    obtain ⟨hp1, hp2, hp3⟩ := hp
    rw [e1] at hp1
    unfold rdNlriHead at h0
    simp only [rdAfiOr, rdSafiOr, if_true] at h0
    rw [Rd.bind_eq_ok] at h0; obtain ⟨a', s1, k1, h0⟩ := h0
    rw [Rd.bind_eq_ok] at h0; obtain ⟨f', s2, k2, h0⟩ := h0
    rw [Rd.bind_eq_ok] at h0; obtain ⟨l, s3, k3, h0⟩ := h0
    rw [Rd.bind_eq_ok] at h0; obtain ⟨b, s4, k4, h0⟩ := h0
    rw [Rd.bind_eq_ok] at h0; obtain ⟨nh', s5, k5, h0⟩ := h0
    cases h0
    obtain ⟨k6, k7⟩ := lift_inv k5
    obtain ⟨m1, m2⟩ := hopLen_of k6
    obtain ⟨m3, m4⟩ := rdN_ok k4
    have g1 := rdAfi_ok k1
    have g2 := rdSafi_ok k2
    have g3 := rdU8_ok k3
    simp only [rdReserved, if_true] at h6
    rw [Rd.bind_eq_ok] at h6; obtain ⟨x, s6, k8, h6⟩ := h6
    have g4 := rdU8_ok k8
    cases h6
    have hd : d = be16 a.toU16 ++ (f.toU8 :: l :: (b ++ (x :: t))) := by
      rw [g1, g2, g3, m3, ← g4, k7]
    obtain ⟨p, q, c1, c2, c3, c4⟩ := be16_afi_octets hp1 (f.toU8 :: l :: (b ++ (x :: t)))
    rw [hd, c1]
    unfold mpReachLabels
    dsimp only
    rw [if_neg (by rw [List.length_append]; omega), ← m4, List.drop_left' rfl, c2, c4]
    dsimp only
    rw [c110_nlri env a ap t n.prefixes hp1 h7 hp3, m1]
    by_cases hn : nh = none
    · have := m2.mp hn
      rw [if_pos hn, if_neg (by omega)]
      rfl
    · have : b.length ≠ 0 := fun h => hn (m2.mpr h)
      rw [if_neg hn, if_pos (by omega)]
      rfl

theorem mpUnreach_shown (env : ShowEnv) (ap : Bool) (d : Bytes) (n : Nlri)
    (h : parseNlri none none none false ap d = .ok n) (hp : PlainPrefixes ap n) :
    mpUnreachLabels env ap d =
      ["AFI: ".toList ++ num n.afi.toU16.toNat, safiShown n.safi] ++ n.prefixes.map (NetworkPrefix.text env) := by
  unfold parseNlri at h
  dsimp only at h
  generalize (d.head? == some 0) = z at h
  cases h0 : rdNlriHead none none z false d with
  | error e => rw [h0] at h; cases h
  | ok v =>
    obtain ⟨⟨a, f, nh⟩, r⟩ := v
    rw [h0] at h
    dsimp only at h
    obtain ⟨e1, e2, e3, t, h6, h7⟩ := body_plain h hp
    rw [e1, e2]
    obtain ⟨hp1, hp2, hp3⟩ := hp
    rw [e1] at hp1
    unfold rdNlriHead at h0
    simp only [rdAfiOr, rdSafiOr] at h0
    rw [Rd.bind_eq_ok] at h0; obtain ⟨a', s1, k1, h0⟩ := h0
    rw [Rd.bind_eq_ok] at h0; obtain ⟨f', s2, k2, h0⟩ := h0
    cases h0
    cases h6
    have hd : d = be16 a.toU16 ++ (f.toU8 :: r) := by rw [rdAfi_ok k1, rdSafi_ok k2]
    obtain ⟨p, q, c1, c2, c3, c4⟩ := be16_afi_octets hp1 (f.toU8 :: r)
    rw [hd, c1]
    unfold mpUnreachLabels
    dsimp only
    rw [c4, c3, c110_nlri env a ap r n.prefixes hp1 h7 hp3]
    rfl

/-! ### all values -/

theorem runU32 {d : Bytes} {v : UInt32} (h : parseU32Attr d = .ok v) (name : String) :
    u32Labels name d = [name.toList ++ ": ".toList ++ num v.toNat] := by
  obtain ⟨r, h⟩ := runOn_inv h
  obtain ⟨a, b, c, e, rfl, rfl⟩ := rdU32_bytes h
  rfl

theorem v4Text_list {a : V4} {p q u w : UInt8} (h : a.toList = [p, q, u, w]) : v4Text a = v4Text #v[p, q, u, w] := by
  rw [v4Text, v4Text, h]; rfl

theorem v4Labels_of {d r : Bytes} {a : V4} (h : rdVec 4 d = .ok (a, r)) (name : String) :
    v4Labels name d = [name.toList ++ ": ".toList ++ v4Text a] := by
  have e := rdVec_ok h
  obtain ⟨p, q, u, w, hl⟩ := vec4_list a
  rw [v4Text_list hl]
  rw [hl] at e
  subst e
  rfl

theorem assertCount_inv {w : Nat} {s : Bytes} {r : Except Err (List α)} {xs : List α} (h : assertCount w s r = .ok xs) :
    r = .ok xs := by
  unfold assertCount at h
  split at h
  · split at h
    · cases h; rfl
    · cases h
  · cases h

theorem padVec_self {n : Nat} (v : Vector UInt8 n) : padVec n v.toList = v := by
  have := padVec_take v (Nat.le_refl n) fun i hi h => by simp at h; omega
  rwa [List.take_of_length_le (by simp)] at this

theorem asnAt4 (a b c e : UInt8) (r : Bytes) : asnAt 4 (a :: b :: c :: e :: r) = (u32of a b c e).toNat := by
  unfold asnAt
  rw [if_neg (by decide : ¬ (4 : Nat) = 2)]

theorem asnAt2 (a b : UInt8) (r : Bytes) : asnAt 2 (a :: b :: r) = (u16of a b).toNat := by
  unfold asnAt
  rw [if_pos rfl]

theorem aggregator_labels {d h : Bytes} {w n : Nat} (id : V4) (hd : d = h ++ id.toList) (hl : h.length = w) (h0 : w = 4 ∨ w = 2)
    (ha : asnAt w d = n) : aggregatorLabels d = [lit "Aggregator ASN: " ++ decText n, lit "Aggregator router ID: " ++ v4Text id] := by
  have e1 : d.length - 4 = w := by rw [hd, List.length_append, Vector.length_toList, hl]; omega
  have e2 : 4 < d.length := by rw [hd, List.length_append, Vector.length_toList, hl]; omega
  unfold aggregatorLabels
  rw [if_pos e2]
  dsimp only
  rw [e1]
  have e3 : d.drop w = id.toList := by rw [hd]; exact List.drop_left' hl
  rw [e3, padVec_self]
  have e4 : (if w = 4 then asnAt 4 d else asnAt 2 d) = n := by
    rcases h0 with rfl | rfl
    · rw [if_pos rfl]; exact ha
    · rw [if_neg (by decide)]; exact ha
  rw [e4]

theorem aggregator_shown {d : Bytes} {a : Asn} {id : V4} (h : parseAggregator d = .ok (a, id)) :
    aggregatorLabels d = ["Aggregator ASN: ".toList ++ num a.toNat, "Aggregator router ID: ".toList ++ v4Text id] := by
  unfold parseAggregator at h
  split at h
  · rename_i hl
    obtain ⟨r, h⟩ := runOn_inv h
    rw [Rd.bind_eq_ok] at h; obtain ⟨x, s1, h1, h⟩ := h
    rw [Rd.bind_eq_ok] at h; obtain ⟨y, s2, h2, h⟩ := h
    cases h
    have e2 := rdVec_ok h2
    obtain ⟨p, q, u, w, rfl, rfl⟩ := rdU32_bytes h1
    have hs : r = [] := by
      subst e2; simp at hl; exact hl
    subst hs
    rw [List.append_nil] at e2
    subst e2
    exact aggregator_labels (h := [p, q, u, w]) id rfl rfl (Or.inl rfl) (asnAt4 p q u w _)
  · split at h
    · rename_i hl
      obtain ⟨r, h⟩ := runOn_inv h
      rw [Rd.bind_eq_ok] at h; obtain ⟨x, s1, h1, h⟩ := h
      rw [Rd.bind_eq_ok] at h; obtain ⟨y, s2, h2, h⟩ := h
      cases h
      have e2 := rdVec_ok h2
      simp only [rdAsn] at h1
      rw [Rd.bind_eq_ok] at h1; obtain ⟨g, s3, h3, h1⟩ := h1
      cases h1
      obtain ⟨p, q, rfl, rfl⟩ := rdU16_bytes h3
      have hs : r = [] := by
        subst e2; simp at hl; exact hl
      subst hs
      rw [List.append_nil] at e2
      subst e2
      exact aggregator_labels (h := [p, q]) id rfl rfl (Or.inr rfl) ((asnAt2 p q _).trans (toU32_of16 _).symm)
    · cases h

theorem mapOk_from {f : α → β} {x : Except Err α} {b : β} (h : mapOk f x = .ok b) : ∃ a, x = .ok a ∧ f a = b := by
  cases x with
  | ok a => cases h; exact ⟨a, rfl, rfl⟩
  | error e => cases h

theorem al1 (env : ShowEnv) (b : UInt8) (d : Bytes) (n : Nat) (ap : Bool) : attrLabels env 1 (b :: d) n ap =
    [lit "Origin: " ++ originLabelName b ++ lit " (" ++ decText b.toNat ++ lit ")"] := rfl
theorem al2 (env : ShowEnv) (d : Bytes) (n : Nat) (ap : Bool) : attrLabels env 2 d n ap = loopLabels (segLabelStep n) d := rfl
theorem al3 (env : ShowEnv) (d : Bytes) (n : Nat) (ap : Bool) : attrLabels env 3 d n ap = v4Labels "Next hop" d := rfl
theorem al4 (env : ShowEnv) (d : Bytes) (n : Nat) (ap : Bool) : attrLabels env 4 d n ap = u32Labels "Multi-exit discriminator" d := rfl
theorem al5 (env : ShowEnv) (d : Bytes) (n : Nat) (ap : Bool) : attrLabels env 5 d n ap = u32Labels "Local preference" d := rfl
theorem al6 (env : ShowEnv) (d : Bytes) (n : Nat) (ap : Bool) : attrLabels env 6 d n ap = [] := rfl
theorem al7 (env : ShowEnv) (d : Bytes) (n : Nat) (ap : Bool) : attrLabels env 7 d n ap = aggregatorLabels d := rfl
theorem al8 (env : ShowEnv) (d : Bytes) (n : Nat) (ap : Bool) : attrLabels env 8 d n ap = loopLabels communityLabelStep d := rfl
theorem al9 (env : ShowEnv) (d : Bytes) (n : Nat) (ap : Bool) : attrLabels env 9 d n ap = v4Labels "Originator ID" d := rfl
theorem al10 (env : ShowEnv) (d : Bytes) (n : Nat) (ap : Bool) : attrLabels env 10 d n ap = loopLabels clusterLabelStep d := rfl
theorem al14 (env : ShowEnv) (d : Bytes) (n : Nat) (ap : Bool) : attrLabels env 14 d n ap = mpReachLabels env ap d := rfl
theorem al15 (env : ShowEnv) (d : Bytes) (n : Nat) (ap : Bool) : attrLabels env 15 d n ap = mpUnreachLabels env ap d := rfl
theorem al16 (env : ShowEnv) (d : Bytes) (n : Nat) (ap : Bool) : attrLabels env 16 d n ap = loopLabels extLabelStep d := rfl
theorem al17 (env : ShowEnv) (d : Bytes) (n : Nat) (ap : Bool) : attrLabels env 17 d n ap = loopLabels (segLabelStep 4) d := rfl
theorem al18 (env : ShowEnv) (d : Bytes) (n : Nat) (ap : Bool) : attrLabels env 18 d n ap = aggregatorLabels d := rfl
theorem al25 (env : ShowEnv) (d : Bytes) (n : Nat) (ap : Bool) : attrLabels env 25 d n ap = loopLabels ipv6ExtLabelStep d := rfl
theorem al26 (env : ShowEnv) (d : Bytes) (n : Nat) (ap : Bool) : attrLabels env 26 d n ap = loopLabels aigpLabelStep d := rfl
theorem al32 (env : ShowEnv) (d : Bytes) (n : Nat) (ap : Bool) : attrLabels env 32 d n ap = loopLabels largeLabelStep d := rfl
theorem al35 (env : ShowEnv) (d : Bytes) (n : Nat) (ap : Bool) : attrLabels env 35 d n ap = u32Labels "Only to customer" d := rfl

theorem u32_value {env : ShowEnv} {ap : Bool} {code : UInt8} {d : Bytes} {v : UInt32} {n : Nat} {name : String} {t : List Char}
    (ha : attrLabels env code d n ap = u32Labels name d) (h : parseU32Attr d = .ok v) (ht : name.toList ++ ": ".toList = t) :
    attrLabels env code d n ap = [t ++ num v.toNat] := by rw [ha, runU32 h, ht]

/-- **C110** The labels of an attribute value that the parser reads show what it reads: the same numbers, addresses and
prefixes, in the same order. The family is taken from the attribute itself, as in a BGP message. -/
theorem c110_value_partial (env : ShowEnv) (cfg : AttrCfg) (code : UInt8) (d : Bytes) (v : AttrVal) (ls : List (List Char))
    (hc : cfg.afi = none ∧ cfg.safi = none ∧ cfg.prefixes = none)
    (h : parseAttrVal cfg code d = .ok v) (hs : valueShown env cfg.addPath v = some ls) :
    attrLabels env code d cfg.asnLen.octets cfg.addPath = ls := by
  obtain ⟨c1, c2, c3⟩ := hc
  unfold parseAttrVal at h
  rw [c1, c2, c3] at h
  by_cases e1 : code = 1
  · rw [if_pos e1] at h
    subst e1
    obtain ⟨a, g, rfl⟩ := mapOk_from h
    clear h
    have h := g
    clear g
    unfold parseOrigin at h
    cases d with
    | nil => cases h
    | cons b r =>
      rw [rdU8_cons] at h
      dsimp only at h
      rw [al1]
      split at h
      · cases h; cases hs; subst_vars; exact congrArg (fun x => [x]) (by decide +kernel)
      · split at h
        · cases h; cases hs; subst_vars; exact congrArg (fun x => [x]) (by decide +kernel)
        · split at h
          · cases h; cases hs; subst_vars; exact congrArg (fun x => [x]) (by decide +kernel)
          · cases h
  rw [if_neg e1] at h
  by_cases e2 : code = 2
  · rw [if_pos e2] at h
    subst e2
    obtain ⟨a, g, rfl⟩ := mapOk_from h
    clear h
    have h := g
    clear g
    cases hs
    rw [al2, loop_many h (seg_step cfg.asnLen) fun _ => rfl, mapFrom_plain]
  rw [if_neg e2] at h
  by_cases e3 : code = 3
  · rw [if_pos e3] at h
    subst e3
    obtain ⟨a, g, rfl⟩ := mapOk_from h
    clear h
    have h := g
    clear g
    obtain ⟨r, h⟩ := runOn_inv h
    simp only [Option.getD_none, rdAddr] at h
    cases h4 : rdV4 d with
    | error e => rw [h4] at h; cases h
    | ok x =>
      obtain ⟨o, t⟩ := x
      rw [h4] at h
      cases h
      cases hs
      rw [al3, v4Labels_of h4 "Next hop"]
      exact congrArg (fun x => [x ++ v4Text o]) (by decide +kernel)
  rw [if_neg e3] at h
  by_cases e4 : code = 4
  · rw [if_pos e4] at h
    subst e4
    obtain ⟨a, g, rfl⟩ := mapOk_from h
    clear h
    have h := g
    clear g
    cases hs
    exact u32_value (al4 env d _ _) h (by decide +kernel)
  rw [if_neg e4] at h
  by_cases e5 : code = 5
  · rw [if_pos e5] at h
    subst e5
    obtain ⟨a, g, rfl⟩ := mapOk_from h
    clear h
    have h := g
    clear g
    cases hs
    exact u32_value (al5 env d _ _) h (by decide +kernel)
  rw [if_neg e5] at h
  by_cases e6 : code = 6
  · rw [if_pos e6] at h
    subst e6
    cases h; cases hs; exact al6 env d _ _
  rw [if_neg e6] at h
  by_cases e7 : code = 7
  · rw [if_pos e7] at h
    subst e7
    obtain ⟨a, g, rfl⟩ := mapOk_from h
    clear h
    have h := g
    clear g
    cases hs; rw [al7]; exact aggregator_shown h
  rw [if_neg e7] at h
  by_cases e9 : code = 9
  · rw [if_pos e9] at h
    subst e9
    obtain ⟨a, g, rfl⟩ := mapOk_from h
    clear h
    have h := g
    clear g
    cases hs
    unfold parseOriginatorId at h
    split at h
    · cases h
    obtain ⟨r, h⟩ := runOn_inv h
    rw [al9, v4Labels_of h "Originator ID"]
    exact congrArg (fun x => [x ++ v4Text a]) (by decide +kernel)
  rw [if_neg e9] at h
  by_cases e10 : code = 10
  · rw [if_pos e10] at h
    subst e10
    obtain ⟨a, g, rfl⟩ := mapOk_from h
    clear h
    have h := g
    clear g
    cases hs
    rw [al10, loop_many h cluster_step fun _ => rfl, mapFrom_entries]; rfl
  rw [if_neg e10] at h
  by_cases e14 : code = 14
  · rw [if_pos e14] at h
    subst e14
    obtain ⟨a, g, rfl⟩ := mapOk_from h
    clear h
    have h := g
    clear g
    simp only [valueShown] at hs
    split at hs
    · rename_i hp; cases hs; rw [al14]; exact mpReach_shown env _ d a h hp
    · cases hs
  rw [if_neg e14] at h
  by_cases e15 : code = 15
  · rw [if_pos e15] at h
    subst e15
    obtain ⟨a, g, rfl⟩ := mapOk_from h
    clear h
    have h := g
    clear g
    simp only [valueShown] at hs
    split at hs
    · rename_i hp; cases hs; rw [al15]; exact mpUnreach_shown env _ d a h hp
    · cases hs
  rw [if_neg e15] at h
  by_cases e17 : code = 17
  · rw [if_pos e17] at h
    subst e17
    obtain ⟨a, g, rfl⟩ := mapOk_from h
    clear h
    have h := g
    clear g
    cases hs
    rw [al17]
    have := loop_many h (seg_step .b32) fun _ => rfl
    rw [mapFrom_plain] at this
    exact this
  rw [if_neg e17] at h
  by_cases e18 : code = 18
  · rw [if_pos e18] at h
    subst e18
    obtain ⟨a, g, rfl⟩ := mapOk_from h
    clear h
    have h := g
    clear g
    cases hs; rw [al18]; exact aggregator_shown h
  rw [if_neg e18] at h
  by_cases e8 : code = 8
  · rw [if_pos e8] at h
    subst e8
    obtain ⟨a, g, rfl⟩ := mapOk_from h
    clear h
    have h := g
    clear g
    cases hs
    rw [al8, loop_many h community_step fun _ => rfl, mapFrom_entries]; rfl
  rw [if_neg e8] at h
  by_cases e32 : code = 32
  · rw [if_pos e32] at h
    subst e32
    obtain ⟨a, g, rfl⟩ := mapOk_from h
    clear h
    have h := g
    clear g
    cases hs
    rw [al32, loop_many (assertCount_inv h) large_step fun _ => rfl]
    exact mapFrom_entries "Large community" (fun c : LargeCommunity => num c.globalAdmin.toNat ++ ":".toList ++
      num c.local1.toNat ++ ":".toList ++ num c.local2.toNat) 1 a
  rw [if_neg e32] at h
  by_cases e16 : code = 16
  · rw [if_pos e16] at h
    subst e16
    obtain ⟨a, g, rfl⟩ := mapOk_from h
    clear h
    have h := g
    clear g
    simp only [valueShown, Option.map_eq_some_iff] at hs
    obtain ⟨ts, hts, rfl⟩ := hs
    obtain ⟨q1, rfl⟩ := allOf_some hts
    rw [al16, loopLabels, labels_many (f := fun i c => entryLabel "Extended community" i ((extShown c).getD []))
      (Q := fun c => (extShown c).isSome = true) (fun i s c r hr hq => by
        obtain ⟨t, ht⟩ := Option.isSome_iff_exists.mp hq
        rw [ext_step i s c r hr t ht, ht]; rfl) (fun _ => rfl) d.length 1 d a (assertCount_inv h) q1, mapFrom_entries, entries,
      entriesFrom_map]
  rw [if_neg e16] at h
  by_cases e25 : code = 25
  · rw [if_pos e25] at h
    subst e25
    obtain ⟨a, g, rfl⟩ := mapOk_from h
    clear h
    have h := g
    clear g
    cases hs
    rw [al25, loop_many (assertCount_inv h) ipv6Ext_step fun _ => rfl]
    exact ipv6_range 1 a
  rw [if_neg e25] at h
  by_cases e255 : code = 255
  · rw [if_pos e255] at h
    subst e255
    cases h; cases hs
  rw [if_neg e255] at h
  by_cases e35 : code = 35
  · rw [if_pos e35] at h
    subst e35
    obtain ⟨a, g, rfl⟩ := mapOk_from h
    clear h
    have h := g
    clear g
    cases hs
    exact u32_value (al35 env d _ _) h (by decide +kernel)
  rw [if_neg e35] at h
  by_cases e26 : code = 26
  · rw [if_pos e26] at h
    subst e26
    obtain ⟨a, g, rfl⟩ := mapOk_from h
    clear h
    have h := g
    clear g
    cases hs
    rw [al26, loop_many h aigp_step fun _ => rfl, mapFrom_plain]
  rw [if_neg e26] at h
  by_cases e23 : code = 23
  · rw [if_pos e23] at h
    subst e23
    obtain ⟨a, g, rfl⟩ := mapOk_from h
    clear h
    have h := g
    clear g
    cases hs
  rw [if_neg e23] at h
  by_cases e24 : code = 24
  · rw [if_pos e24] at h
    subst e24
    obtain ⟨a, g, rfl⟩ := mapOk_from h
    clear h
    have h := g
    clear g
    cases hs
  rw [if_neg e24] at h
  by_cases e29 : code = 29
  · rw [if_pos e29] at h
    subst e29
    obtain ⟨a, g, rfl⟩ := mapOk_from h
    clear h
    have h := g
    clear g
    cases hs
  rw [if_neg e29] at h
  by_cases e37 : code = 37
  · rw [if_pos e37] at h
    subst e37
    obtain ⟨a, g, rfl⟩ := mapOk_from h
    clear h
    have h := g
    clear g
    cases hs
  rw [if_neg e37] at h
  by_cases e38 : code = 38
  · rw [if_pos e38] at h
    subst e38
    obtain ⟨a, g, rfl⟩ := mapOk_from h
    clear h
    have h := g
    clear g
    cases hs
  rw [if_neg e38] at h
  by_cases e40 : code = 40
  · rw [if_pos e40] at h
    subst e40
    obtain ⟨a, g, rfl⟩ := mapOk_from h
    clear h
    have h := g
    clear g
    cases hs
  rw [if_neg e40] at h
  by_cases e41 : code = 41
  · rw [if_pos e41] at h
    subst e41
    obtain ⟨a, g, rfl⟩ := mapOk_from h
    clear h
    have h := g
    clear g
    cases hs
  rw [if_neg e41] at h
  cases h

/-- the hypotheses are met: two communities of a COMMUNITIES value. -/
example (env : ShowEnv) : attrLabels env 8 [255, 255, 255, 1, 0, 1, 0, 2] 4 false =
    ["Community [1]: 65535:65281".toList, "Community [2]: 1:2".toList] := by
  have e : valueShown env false (.communities [.noExport, .custom 1 2]) =
      some ["Community [1]: 65535:65281".toList, "Community [2]: 1:2".toList] := by
    simp only [valueShown]
    exact congrArg some (by decide +kernel)
  exact c110_value_partial env ⟨.b32, false, none, none, none⟩ 8 _ (.communities [.noExport, .custom 1 2]) _ ⟨rfl, rfl, rfl⟩
    (by rfl) e

/-- **C110** An AGGREGATOR of seven octets is refused by the parser, yet shown as an AS number and a router ID. -/
theorem c110_violation_aggregator (env : ShowEnv) : parseAttrVal ⟨.b32, false, none, none, none⟩ 7 [0, 1, 2, 10, 0, 0, 1] = .error .parse ∧
    attrLabels env 7 [0, 1, 2, 10, 0, 0, 1] 4 false = ["Aggregator ASN: 1".toList, "Aggregator router ID: 10.0.0.1".toList] := by
  refine ⟨by rfl, ?_⟩
  rw [al7]
  decide +kernel

/-- **C110** A labelled prefix (10.0.0.0/8 with label 100) is shown as if its label were part of the address. -/
theorem c110_violation_labeled (env : ShowEnv) :
    (∃ n, parseAttrVal ⟨.b32, false, none, none, none⟩ 14 [0, 1, 4, 4, 192, 0, 2, 1, 0, 32, 0, 6, 65, 10] = .ok (.mpReach n) ∧
      (n.labeled.getD []).map (fun p => (p.labels, p.prefix_.len)) = [([100], 8)]) ∧
    (attrLabels env 14 [0, 1, 4, 4, 192, 0, 2, 1, 0, 32, 0, 6, 65, 10] 4 false).getLast? = some "0.6.65.10/32".toList :=
  ⟨⟨_, rfl, rfl⟩, rfl⟩

/-- **C110** Where the parser takes path identifiers although none were configured, five prefixes are shown for its one. -/
theorem c110_violation_path_id (env : ShowEnv) :
    (∃ n, parseAttrVal ⟨.b32, false, none, none, none⟩ 14 [0, 1, 1, 4, 192, 0, 2, 1, 0, 0, 0, 0, 0, 24, 10, 1, 2] = .ok (.mpReach n) ∧
      n.prefixes.map (NetworkPrefix.text env) = ["10.1.2.0/24".toList]) ∧
    (attrLabels env 14 [0, 1, 1, 4, 192, 0, 2, 1, 0, 0, 0, 0, 0, 24, 10, 1, 2] 4 false).drop 5 =
      ["0.0.0.0/0".toList, "0.0.0.0/0".toList, "0.0.0.0/0".toList, "0.0.0.0/0".toList, "10.1.2.0/24".toList] :=
  ⟨⟨_, rfl, rfl⟩, rfl⟩

end Verif.Props
