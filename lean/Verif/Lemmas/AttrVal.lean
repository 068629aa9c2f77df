import Verif.Spec.Attr
import Verif.Lemmas.Rd
import Verif.Lemmas.Mpls
/-
Round trips and panic freedom of the individual attribute value codecs.
-/
namespace Verif
open Spec

/-! ### length prefixes -/

theorem u8Len_ok {b c : Bytes} : u8Len b = .ok c ↔ b.length ≤ 255 ∧ c = UInt8.ofNat b.length :: b := by
  unfold u8Len checkMax
  by_cases h : b.length > 255
  · simp [h]; omega
  · simp [h]; constructor
    · intro e; exact ⟨by omega, e.symm⟩
    · intro e; exact e.2.symm

theorem u16Len_ok {b c : Bytes} : u16Len b = .ok c ↔ b.length ≤ 65535 ∧ c = be16 (UInt16.ofNat b.length) ++ b := by
  unfold u16Len checkMax
  by_cases h : b.length > 65535
  · simp [h]; omega
  · simp [h]; constructor
    · intro e; exact ⟨by omega, e.symm⟩
    · intro e; exact e.2.symm

theorem toNat_u8len {n : Nat} (h : n ≤ 255) : (UInt8.ofNat n).toNat = n := by simp; omega
theorem toNat_u16len {n : Nat} (h : n ≤ 65535) : (UInt16.ofNat n).toNat = n := by simp; omega

theorem splitTo_append' {n : Nat} {a : Bytes} (h : a.length = n) (s : Bytes) : splitTo n (a ++ s) = .ok (a, s) := by
  subst h; simp

/-! ### loops -/

theorem encAll_cons_ok {f : α → Except EncErr Bytes} {x : α} {xs : List α} {bs : Bytes} :
    encAll f (x :: xs) = .ok bs ↔ ∃ b c, f x = .ok b ∧ encAll f xs = .ok c ∧ bs = b ++ c := by
  simp only [encAll]
  cases h1 : f x with
  | error e => simp
  | ok b =>
    cases h2 : encAll f xs with
    | error e => simp
    | ok c => simp [eq_comm]

theorem manyFuel_encAll {f : α → Except EncErr Bytes} {p : Rd α} :
    ∀ (xs : List α) (bs : Bytes) (fuel : Nat), bs.length ≤ fuel → encAll f xs = .ok bs →
      (∀ x ∈ xs, ∀ b, f x = .ok b → b ≠ [] ∧ ∀ r, p (b ++ r) = .ok (x, r)) → manyFuel p fuel bs = .ok xs := by
  intro xs
  induction xs with
  | nil => intro bs fuel _ h _; cases h; cases fuel <;> simp [manyFuel]
  | cons x xs ih =>
    intro bs fuel hf h hp
    obtain ⟨b, c, h1, h2, rfl⟩ := encAll_cons_ok.mp h
    obtain ⟨hne, hr⟩ := hp x (by simp) b h1
    cases b with
    | nil => exact absurd rfl hne
    | cons y b =>
      cases fuel with
      | zero => simp at hf
      | succ fuel =>
        have := hr c
        simp only [List.cons_append] at this ⊢
        simp only [manyFuel, this]
        rw [ih c fuel (by simp at hf; omega) h2 (fun x hx => hp x (by simp [hx]))]

theorem many_encAll {f : α → Except EncErr Bytes} {p : Rd α} {xs : List α} {bs : Bytes} (h : encAll f xs = .ok bs)
    (hp : ∀ x ∈ xs, ∀ b, f x = .ok b → b ≠ [] ∧ ∀ r, p (b ++ r) = .ok (x, r)) : many p bs = .ok xs :=
  manyFuel_encAll xs bs _ (Nat.le_refl _) h hp

theorem whileGeFuel_encAll {f : α → Except EncErr Bytes} {p : Rd α} {n : Nat} (hn : 0 < n) :
    ∀ (xs : List α) (bs : Bytes) (fuel : Nat), bs.length ≤ fuel → encAll f xs = .ok bs →
      (∀ x ∈ xs, ∀ b, f x = .ok b → n ≤ b.length ∧ ∀ r, p (b ++ r) = .ok (x, r)) → whileGeFuel n p fuel bs = .ok xs := by
  intro xs
  induction xs with
  | nil =>
    intro bs fuel _ h _
    cases h
    cases fuel <;> simp [whileGeFuel, hn]
  | cons x xs ih =>
    intro bs fuel hf h hp
    obtain ⟨b, c, h1, h2, rfl⟩ := encAll_cons_ok.mp h
    obtain ⟨hne, hr⟩ := hp x (by simp) b h1
    cases fuel with
    | zero => simp at hf; have : b.length = 0 := by rw [hf.1]; rfl
              omega
    | succ fuel =>
      simp only [whileGeFuel]
      rw [if_neg (by simp; omega), hr c]
      simp only
      rw [ih c fuel (by simp at hf; omega) h2 (fun x hx => hp x (by simp [hx]))]

theorem whileGe_encAll {f : α → Except EncErr Bytes} {p : Rd α} {n : Nat} (hn : 0 < n) {xs : List α} {bs : Bytes}
    (h : encAll f xs = .ok bs)
    (hp : ∀ x ∈ xs, ∀ b, f x = .ok b → n ≤ b.length ∧ ∀ r, p (b ++ r) = .ok (x, r)) : whileGe n p bs = .ok xs :=
  whileGeFuel_encAll hn xs bs _ (Nat.le_refl _) h hp

theorem whileGeFuel_noPanic {p : Rd α} {n : Nat} (hp : NoPanic p) (hc : ∀ s a r, p s = .ok (a, r) → r.length < s.length) :
    ∀ (fuel : Nat) (s : Bytes), 0 < n → s.length ≤ fuel → whileGeFuel n p fuel s ≠ .error .panic := by
  intro fuel
  induction fuel with
  | zero =>
    intro s hn hs h
    simp only [whileGeFuel] at h
    rw [if_pos (by omega)] at h; cases h
  | succ fuel ih =>
    intro s hn hs h
    simp only [whileGeFuel] at h
    split at h
    · cases h
    · cases h1 : p s with
      | error e =>
        rw [h1] at h
        have : e = .panic := by injection h
        subst this; exact hp _ h1
      | ok v =>
        obtain ⟨a, r⟩ := v
        rw [h1] at h
        simp only at h
        have hl := hc _ _ _ h1
        cases h2 : whileGeFuel n p fuel r with
        | error e =>
          rw [h2] at h
          have : e = .panic := by injection h
          subst this
          exact ih r hn (by omega) h2
        | ok as' => rw [h2] at h; cases h

theorem whileGe_noPanic {p : Rd α} {n : Nat} (hn : 0 < n) (hp : NoPanic p)
    (hc : ∀ s a r, p s = .ok (a, r) → r.length < s.length) (s : Bytes) : whileGe n p s ≠ .error .panic :=
  whileGeFuel_noPanic hp hc _ _ hn (Nat.le_refl _)

/-! ### readers that never panic and always move forward -/

/-- no panic, and every success consumes at least `n` bytes. -/
structure Safe (n : Nat) (p : Rd α) : Prop where
  noPanic : NoPanic p
  prog : ∀ s a r, p s = .ok (a, r) → r.length + n ≤ s.length

namespace Safe

theorem of {p : Rd α} {n : Nat} (h : NoPanic p) (c : Consumes n p) : Safe n p :=
  ⟨h, fun s a r e => by have := c s a r e; omega⟩
theorem pure (a : α) : Safe 0 (Pure.pure a : Rd α) := .of (.pure a) (.pure a)
theorem fail {e : Err} (h : e ≠ .panic) (n : Nat) : Safe n (Rd.fail e : Rd α) := .of (.fail h) (.fail e n)
theorem rdU8 : Safe 1 rdU8 := .of .rdU8 .rdU8
theorem rdU16 : Safe 2 rdU16 := .of .rdU16 .rdU16
theorem rdU32 : Safe 4 rdU32 := .of .rdU32 .rdU32
theorem rdN (n : Nat) : Safe n (rdN n) := .of (.rdN n) (.rdN n)
theorem rdVec (n : Nat) : Safe n (rdVec n) := .of (.rdVec n) (.rdVec n)
theorem remaining : Safe 0 Rd.remaining := ⟨.remaining, by intro s a r h; cases h; simp⟩
theorem peek : Safe 0 Rd.peek := ⟨.peek, by intro s a r h; cases h; simp⟩
theorem needN (n : Nat) : Safe 0 (needN n) :=
  ⟨.needN n, by intro s a r h; simp only [Verif.needN] at h; split at h <;> cases h; simp⟩
theorem rdU64 : Safe 8 rdU64 :=
  ⟨.rdU64, by
    intro s a r h
    unfold Verif.rdU64 at h
    rw [Rd.bind_eq_ok] at h; obtain ⟨_, t, h1, h⟩ := h
    rw [Rd.bind_eq_ok] at h; obtain ⟨_, t', h2, h⟩ := h
    rw [Rd.bind_eq_ok] at h; obtain ⟨_, t'', h3, h⟩ := h
    cases h
    have := (needN 8).prog _ _ _ h1
    have := rdU32.prog _ _ _ h2
    have := rdU32.prog _ _ _ h3
    omega⟩
theorem lift {x : Except Err α} (h : x ≠ .error .panic) : Safe 0 (Rd.lift x) :=
  ⟨.lift h, by intro s a r e; cases x <;> simp at e; rw [e.2]; simp⟩
theorem bind {p : Rd α} {f : α → Rd β} {n m : Nat} (hp : Safe n p) (hf : ∀ a, Safe m (f a)) : Safe (n + m) (p >>= f) :=
  ⟨.bind hp.noPanic fun a => (hf a).noPanic, by
    intro s b r h
    rw [Rd.bind_eq_ok] at h; obtain ⟨a, t, h1, h⟩ := h
    have := hp.prog _ _ _ h1
    have := (hf a).prog _ _ _ h
    omega⟩
theorem ite {c : Prop} [Decidable c] {n : Nat} {p q : Rd α} (hp : c → Safe n p) (hq : ¬ c → Safe n q) :
    Safe n (if c then p else q) := by
  by_cases h : c
  · simpa [h] using hp h
  · simpa [h] using hq h
theorem weaken {p : Rd α} {n m : Nat} (h : Safe n p) (hm : m ≤ n) : Safe m p :=
  ⟨h.noPanic, fun s a r e => by have := h.prog s a r e; omega⟩
theorem many {p : Rd α} {n : Nat} (h : Safe n p) (hn : 0 < n) (s : Bytes) : many p s ≠ .error .panic :=
  many_noPanic h.noPanic (fun s a r e => by have := h.prog s a r e; omega) s
theorem whileGe {p : Rd α} {n k : Nat} (h : Safe n p) (hn : 0 < n) (hk : 0 < k) (s : Bytes) :
    whileGe k p s ≠ .error .panic :=
  whileGe_noPanic hk h.noPanic (fun s a r e => by have := h.prog s a r e; omega) s

/-- `if remaining < n then fail else split_to n`. -/
theorem guardedSplit {e : Err} (he : e ≠ .panic) (n k : Nat) {f : Bytes → Rd β} (hf : ∀ a, Safe k (f a)) :
    Safe k (do let rem ← Rd.remaining; if rem < n then Rd.fail e else do let v ← splitTo n; f v) := by
  constructor
  · intro s h
    rw [Rd.bind_ok (Rd.remaining_apply s)] at h
    by_cases hn : s.length < n
    · simp only [hn, if_true] at h; cases h; exact he rfl
    · simp only [hn, if_false] at h
      have hs : splitTo n s = .ok (s.take n, s.drop n) := by simp [splitTo, hn]
      rw [Rd.bind_ok hs] at h
      exact (hf _).noPanic _ h
  · intro s a r h
    rw [Rd.bind_ok (Rd.remaining_apply s)] at h
    by_cases hn : s.length < n
    · simp only [hn, if_true] at h; cases h
    · simp only [hn, if_false] at h
      have hs : splitTo n s = .ok (s.take n, s.drop n) := by simp [splitTo, hn]
      rw [Rd.bind_ok hs] at h
      have := (hf _).prog _ _ _ h
      simp at this; omega

end Safe

theorem mapOk_noPanic {f : α → β} {x : Except Err α} (h : x ≠ .error .panic) : mapOk f x ≠ .error .panic := by
  cases x with
  | ok a => simp [mapOk]
  | error e => intro h'; simp [mapOk] at h'; exact h (by rw [h'])

theorem runOn_append {p : Rd α} {s : Bytes} {a : α} (h : ∀ r, p (s ++ r) = .ok (a, r)) : p.runOn s = .ok a := by
  have := h []; rw [List.append_nil] at this; exact Rd.runOn_ok this

/-! ### the codecs -/

theorem parseOrigin_enc (o : Origin) : parseOrigin [o.toU8] = .ok o := by cases o <;> rfl
theorem parseOrigin_noPanic (s : Bytes) : parseOrigin s ≠ .error .panic := by
  unfold parseOrigin
  cases s with
  | nil => simp
  | cons a s => simp only [rdU8_cons]; repeat' split <;> try simp

theorem parseNextHop_enc (afi : Option Afi) (a : Ip) (h : a.afi = afi.getD .ipv4) : parseNextHop afi a.octets = .ok a := by
  unfold parseNextHop; rw [← h]
  exact runOn_append (rdAddr_octets a)
theorem parseNextHop_noPanic (afi : Option Afi) (s : Bytes) : parseNextHop afi s ≠ .error .panic :=
  (NoPanic.rdAddr _).runOn s

theorem parseU32Attr_enc (v : UInt32) : parseU32Attr (be32 v) = .ok v := runOn_append (rdU32_be32 v)
theorem parseU32Attr_noPanic (s : Bytes) : parseU32Attr s ≠ .error .panic := NoPanic.rdU32.runOn s

theorem parseAggregator_enc {l : AsnLen} {a : Asn} {i : V4} {b : Bytes} (h : encodeAggregator l a i = .ok b) :
    parseAggregator b = .ok (a, i) := by
  cases l with
  | b32 =>
    simp only [encodeAggregator] at h
    cases h
    unfold parseAggregator
    rw [if_pos (by simp)]
    refine runOn_append fun r => ?_
    rw [List.append_assoc, Rd.bind_ok (show rdAsn .b32 (be32 a ++ (i.toList ++ r)) = .ok (a, i.toList ++ r) from rdU32_be32 a _), Rd.bind_ok (rdV4_append i r)]
    rfl
  | b16 =>
    simp only [encodeAggregator, checkMax] at h
    by_cases ha : a.toNat > 65535
    · simp [ha] at h
    · simp only [ha, if_false] at h
      cases h
      unfold parseAggregator
      rw [if_neg (by simp), if_pos (by simp)]
      refine runOn_append fun r => ?_
      have h1 : rdAsn .b16 (be16 a.toUInt16 ++ (i.toList ++ r)) = .ok (a, i.toList ++ r) := by
        simp only [rdAsn]
        rw [Rd.bind_ok (rdU16_be16 _ _), Rd.pure_apply, toUInt32_toUInt16 (by omega)]
      rw [List.append_assoc, Rd.bind_ok h1, Rd.bind_ok (rdV4_append i r)]
      rfl
theorem parseAggregator_noPanic (s : Bytes) : parseAggregator s ≠ .error .panic := by
  unfold parseAggregator
  split
  · exact NoPanic.runOn (.bind (.rdAsn _) fun _ => .bind (.rdVec 4) fun _ => .pure _) s
  · split
    · exact NoPanic.runOn (.bind (.rdAsn _) fun _ => .bind (.rdVec 4) fun _ => .pure _) s
    · simp

theorem parseOriginatorId_enc (i : V4) : parseOriginatorId i.toList = .ok i := by
  unfold parseOriginatorId
  rw [if_neg (by simp)]
  exact runOn_append (rdV4_append i)
theorem parseOriginatorId_noPanic (s : Bytes) : parseOriginatorId s ≠ .error .panic := by
  unfold parseOriginatorId
  split
  · simp
  · exact (NoPanic.rdVec 4).runOn s

theorem parseClusters_enc (cs : List UInt32) : parseClusters (encodeClusters cs) = .ok cs :=
  many_encode cs fun c _ => ⟨by simp [be32], rdU32_be32 c⟩
theorem parseClusters_noPanic (s : Bytes) : parseClusters s ≠ .error .panic := Safe.rdU32.many (by decide) s

theorem vec8_toList (v : Vector UInt32 8) : v.toList = [v[0], v[1], v[2], v[3], v[4], v[5], v[6], v[7]] := by
  apply List.ext_getElem
  · simp
  · intro i h1 h2
    have : i = 0 ∨ i = 1 ∨ i = 2 ∨ i = 3 ∨ i = 4 ∨ i = 5 ∨ i = 6 ∨ i = 7 := by simp at h1; omega
    rcases this with rfl | rfl | rfl | rfl | rfl | rfl | rfl | rfl <;> simp

theorem parseTrafficEng_enc (t : TrafficEng) : parseTrafficEng (encodeTrafficEng t) = .ok t := by
  obtain ⟨sc, en, rs, bw, sp⟩ := t
  have hv : bw = #v[bw[0], bw[1], bw[2], bw[3], bw[4], bw[5], bw[6], bw[7]] := by
    apply Vector.toList_inj.mp; rw [vec8_toList]; rfl
  unfold parseTrafficEng encodeTrafficEng
  simp only [vec8_toList]
  rw [if_neg (by simp; omega)]
  simp only [Rd.runOn, Rd.bind_apply, rdU8_cons, rdU16_be16, List.flatMap_cons, List.append_assoc, rdU32_be32,
    List.flatMap_nil, List.nil_append, Rd.peek_apply, Rd.pure_apply]
  rw [← hv]
theorem parseTrafficEng_noPanic (s : Bytes) : parseTrafficEng s ≠ .error .panic := by
  unfold parseTrafficEng
  split
  · simp
  · refine NoPanic.runOn ?_ s
    repeat' first | exact .pure _ | refine .bind .rdU8 fun _ => ?_ | refine .bind .rdU16 fun _ => ?_ | refine .bind .rdU32 fun _ => ?_ | refine .bind .peek fun _ => ?_

theorem rdTlv8Ext_safe : Safe 3 rdTlv8Ext := by
  unfold rdTlv8Ext
  refine Safe.weaken (n := 0 + 3) (.bind .remaining fun rem => .ite (fun _ => .fail (by simp) 3) fun _ => ?_) (by omega)
  refine Safe.weaken (n := 1 + (2 + 0)) (.bind .rdU8 fun t => .bind .rdU16 fun l => ?_) (by omega)
  exact Safe.guardedSplit (by simp) _ _ fun v => .pure _
theorem rdTlv8_safe : Safe 2 rdTlv8 := by
  unfold rdTlv8
  refine Safe.weaken (n := 0 + 2) (.bind .remaining fun rem => .ite (fun _ => .fail (by simp) 2) fun _ => ?_) (by omega)
  refine Safe.weaken (n := 1 + (1 + 0)) (.bind .rdU8 fun t => .bind .rdU8 fun l => ?_) (by omega)
  exact Safe.guardedSplit (by simp) _ _ fun v => .pure _
theorem rdTlv16_safe : Safe 4 rdTlv16 := by
  unfold rdTlv16
  refine Safe.weaken (n := 0 + 4) (.bind .remaining fun rem => .ite (fun _ => .fail (by simp) 4) fun _ => ?_) (by omega)
  refine Safe.weaken (n := 2 + (2 + 0)) (.bind .rdU16 fun t => .bind .rdU16 fun l => ?_) (by omega)
  exact Safe.guardedSplit (by simp) _ _ fun v => .pure _
theorem rdAigp_safe : Safe 3 rdAigp := by
  unfold rdAigp
  refine Safe.weaken (n := 0 + 3) (.bind .remaining fun rem => .ite (fun _ => .fail (by simp) 3) fun _ => ?_) (by omega)
  refine Safe.weaken (n := 1 + (2 + 0)) (.bind .rdU8 fun t => .bind .rdU16 fun l =>
    .ite (fun _ => .fail (by simp) 0) fun _ => ?_) (by omega)
  exact Safe.guardedSplit (by simp) _ _ fun v => .pure _

/-- `if remaining < n then fail` when there is enough. -/
theorem guard_ok {n : Nat} {e : Err} {p : Rd α} {s : Bytes} (h : n ≤ s.length) :
    (do let rem ← Rd.remaining; if rem < n then Rd.fail e else p) s = p s := by
  rw [Rd.bind_ok (Rd.remaining_apply s)]
  simp only [show ¬ s.length < n by omega, if_false]

theorem rdTlv8Ext_enc {t : Tlv8} {b : Bytes} (h : encTlv8Ext t = .ok b) :
    b ≠ [] ∧ ∀ r, rdTlv8Ext (b ++ r) = .ok (t, r) := by
  obtain ⟨ty, v⟩ := t
  unfold encTlv8Ext at h
  cases h1 : u16Len v with
  | error e => rw [h1] at h; cases h
  | ok c =>
    rw [h1] at h; cases h
    obtain ⟨hl, rfl⟩ := u16Len_ok.mp h1
    refine ⟨by simp, fun r => ?_⟩
    unfold rdTlv8Ext
    rw [guard_ok (by simp)]
    rw [List.cons_append, Rd.bind_ok (rdU8_cons _ _), List.append_assoc, Rd.bind_ok (rdU16_be16 _ _), toNat_u16len hl,
      guard_ok (by simp), Rd.bind_ok (splitTo_append _ _)]
    rfl

theorem rdTlv8_enc {t : Tlv8} {b : Bytes} (h : encTlv8 t = .ok b) :
    b ≠ [] ∧ ∀ r, rdTlv8 (b ++ r) = .ok (t, r) := by
  obtain ⟨ty, v⟩ := t
  unfold encTlv8 at h
  cases h1 : u8Len v with
  | error e => rw [h1] at h; cases h
  | ok c =>
    rw [h1] at h; cases h
    obtain ⟨hl, rfl⟩ := u8Len_ok.mp h1
    refine ⟨by simp, fun r => ?_⟩
    unfold rdTlv8
    rw [guard_ok (by simp)]
    rw [List.cons_append, Rd.bind_ok (rdU8_cons _ _), List.cons_append, Rd.bind_ok (rdU8_cons _ _), toNat_u8len hl,
      guard_ok (by simp), Rd.bind_ok (splitTo_append _ _)]
    rfl

theorem encTlv16_ok {t : Tlv16} {b : Bytes} :
    encTlv16 t = .ok b ↔ t.value.length ≤ 65535 ∧ b = be16 t.type ++ (be16 (UInt16.ofNat t.value.length) ++ t.value) := by
  unfold encTlv16
  cases h1 : u16Len t.value with
  | error e =>
    simp only [reduceCtorEq, false_iff]
    intro h
    have := u16Len_ok.mpr ⟨h.1, rfl⟩
    rw [this] at h1; cases h1
  | ok c =>
    obtain ⟨hl, rfl⟩ := u16Len_ok.mp h1
    simp [hl, eq_comm]

theorem rdTlv16_enc {t : Tlv16} {b : Bytes} (h : encTlv16 t = .ok b) :
    b ≠ [] ∧ ∀ r, rdTlv16 (b ++ r) = .ok (t, r) := by
  obtain ⟨hl, rfl⟩ := encTlv16_ok.mp h
  refine ⟨by simp [be16], fun r => ?_⟩
  unfold rdTlv16
  rw [guard_ok (by simp; omega)]
  rw [List.append_assoc, Rd.bind_ok (rdU16_be16 _ _), List.append_assoc, Rd.bind_ok (rdU16_be16 _ _), toNat_u16len hl,
    guard_ok (by simp), Rd.bind_ok (splitTo_append _ _)]
  rfl

theorem rdLsTlv_enc {t : Tlv16} {b : Bytes} (h : encTlv16 t = .ok b) :
    4 ≤ b.length ∧ ∀ r, rdLsTlv (b ++ r) = .ok (t, r) := by
  obtain ⟨hl, rfl⟩ := encTlv16_ok.mp h
  refine ⟨by simp; omega, fun r => ?_⟩
  unfold rdLsTlv
  rw [List.append_assoc, Rd.bind_ok (rdU16_be16 _ _), List.append_assoc, Rd.bind_ok (rdU16_be16 _ _), toNat_u16len hl,
    Rd.bind_ok (rdN_append _ _)]
  rfl

theorem parseTlv8Ext_enc {ts : List Tlv8} {b : Bytes} (h : encodeTlv8Ext ts = .ok b) : parseTlv8Ext b = .ok ts :=
  many_encAll h fun _ _ _ h => rdTlv8Ext_enc h
theorem parseTlv8Ext_noPanic (s : Bytes) : parseTlv8Ext s ≠ .error .panic := rdTlv8Ext_safe.many (by decide) s

theorem parseBier_enc {ts : List Tlv16} {b : Bytes} (h : encodeBier ts = .ok b) : parseBier b = .ok ts :=
  many_encAll h fun _ _ _ h => rdTlv16_enc h
theorem parseBier_noPanic (s : Bytes) : parseBier s ≠ .error .panic := rdTlv16_safe.many (by decide) s

theorem parseBfd_enc {t : Bfd} {b : Bytes} (h : encodeBfd t = .ok b) : parseBfd b = .ok t := by
  obtain ⟨m, d, ts⟩ := t
  unfold encodeBfd at h
  cases h1 : encAll encTlv8 ts with
  | error e => simp only [h1] at h; cases h
  | ok c =>
    simp only [h1] at h; cases h
    unfold parseBfd
    rw [if_neg (by simp)]
    have h2 : (do let m ← rdU8; let d ← rdU32; pure (m, d) : Rd (UInt8 × UInt32)) (m :: (be32 d ++ c)) = .ok ((m, d), c) := by
      rw [Rd.bind_ok (rdU8_cons _ _), Rd.bind_ok (rdU32_be32 _ _)]; rfl
    rw [h2]
    simp only
    rw [many_encAll h1 fun _ _ _ h => rdTlv8_enc h]
theorem parseBfd_noPanic (s : Bytes) : parseBfd s ≠ .error .panic := by
  unfold parseBfd
  split
  · simp
  · have hp : NoPanic (do let m ← rdU8; let d ← rdU32; pure (m, d) : Rd (UInt8 × UInt32)) :=
      .bind .rdU8 fun _ => .bind .rdU32 fun _ => .pure _
    split
    · rename_i e he
      intro h
      have : e = .panic := by injection h
      subst this; exact hp _ he
    · rename_i m d r hr
      split
      · rename_i e he
        intro h
        have : e = .panic := by injection h
        subst this
        exact rdTlv8_safe.many (by decide) _ he
      · simp

theorem rdAigp_enc {t : AigpTlv} (h : t.length.toNat = t.value.length + 3) (r : Bytes) :
    rdAigp (encAigp t ++ r) = .ok (t, r) := by
  obtain ⟨ty, l, v⟩ := t
  simp only at h
  unfold encAigp
  simp only [h, if_true]
  unfold rdAigp
  rw [guard_ok (by simp)]
  rw [List.cons_append, Rd.bind_ok (rdU8_cons _ _), List.append_assoc, Rd.bind_ok (rdU16_be16 _ _)]
  rw [if_neg (by omega), guard_ok (by simp; omega), Rd.bind_ok (splitTo_append' (by omega) r)]
  rfl
theorem parseAigp_enc {ts : List AigpTlv} (h : ∀ t ∈ ts, t.length.toNat = t.value.length + 3) :
    parseAigp (encodeAigp ts) = .ok ts :=
  many_encode ts fun t ht => ⟨by simp [encAigp], rdAigp_enc (h t ht)⟩
theorem parseAigp_noPanic (s : Bytes) : parseAigp s ≠ .error .panic := rdAigp_safe.many (by decide) s

/-! tunnel encapsulation -/

theorem rdSubTlv_enc {t : Tlv8} {b : Bytes} (ht : t.type.toNat ≤ 20 ∨ t.type = 128 ∨ t.type = 129)
    (h : encSubTlv t = .ok b) : b ≠ [] ∧ ∀ r, rdSubTlv (b ++ r) = .ok (t, r) := by
  obtain ⟨ty, v⟩ := t
  simp only at ht
  have hty : subTlvType ty = ty := by unfold subTlvType; rw [if_pos ht]
  unfold encSubTlv at h
  by_cases hs : ty.toNat < 128
  · simp only [hs, if_true] at h
    cases h1 : u8Len v with
    | error e => rw [h1] at h; cases h
    | ok c =>
      rw [h1] at h; cases h
      obtain ⟨hl, rfl⟩ := u8Len_ok.mp h1
      refine ⟨by simp, fun r => ?_⟩
      unfold rdSubTlv
      rw [guard_ok (by simp)]
      rw [List.cons_append, Rd.bind_ok (rdU8_cons _ _)]
      simp only [hs, if_true]
      rw [Rd.bind_ok (a := v.length) (r := v ++ r) (by rw [List.cons_append, Rd.bind_ok (rdU8_cons _ _), Rd.pure_apply, toNat_u8len hl])]
      rw [Rd.bind_ok (rdN_append _ _), Rd.pure_apply, hty]
  · simp only [hs, if_false] at h
    cases h1 : u16Len v with
    | error e => rw [h1] at h; cases h
    | ok c =>
      rw [h1] at h; cases h
      obtain ⟨hl, rfl⟩ := u16Len_ok.mp h1
      refine ⟨by simp, fun r => ?_⟩
      unfold rdSubTlv
      rw [guard_ok (by simp; omega)]
      rw [List.cons_append, Rd.bind_ok (rdU8_cons _ _)]
      simp only [hs, if_false]
      rw [Rd.bind_ok (a := v.length) (r := v ++ r) (by rw [List.append_assoc, Rd.bind_ok (rdU16_be16 _ _), Rd.pure_apply, toNat_u16len hl])]
      rw [Rd.bind_ok (rdN_append _ _), Rd.pure_apply, hty]

theorem rdSubTlv_safe : Safe 1 rdSubTlv := by
  unfold rdSubTlv
  refine Safe.weaken (n := 0 + 1) (.bind .remaining fun rem => .ite (fun _ => .fail (by simp) 1) fun _ => ?_) (by omega)
  refine Safe.weaken (n := 1 + (0 + 0)) (.bind .rdU8 fun t => .bind (.ite (fun _ => ?_) fun _ => ?_) fun l => ?_) (by omega)
  · exact Safe.weaken (.bind .rdU8 fun _ => .pure _) (Nat.zero_le _)
  · exact Safe.weaken (.bind .rdU16 fun _ => .pure _) (Nat.zero_le _)
  · exact Safe.weaken (.bind (.rdN _) fun _ => .pure _) (Nat.zero_le _)

theorem rdTunnelTlv_safe : Safe 4 rdTunnelTlv := by
  unfold rdTunnelTlv
  refine Safe.weaken (n := 2 + (2 + (0 + (0 + 0)))) (.bind .rdU16 fun t => .bind .rdU16 fun l =>
    .bind (.weaken (.rdN _) (Nat.zero_le _)) fun d => .bind (.lift (rdSubTlv_safe.many (by decide) d)) fun _ => .pure _) (by omega)

theorem rdTunnelTlv_enc {t : TunnelTlv} {b : Bytes} (ht : TunnelOk t) (h : encTunnelTlv t = .ok b) :
    4 ≤ b.length ∧ ∀ r, rdTunnelTlv (b ++ r) = .ok (t, r) := by
  obtain ⟨ty, subs⟩ := t
  obtain ⟨h1, h2⟩ := ht
  simp only at h1 h2
  unfold encTunnelTlv at h
  cases h3 : encAll encSubTlv subs with
  | error e => simp only [h3] at h; cases h
  | ok c =>
    simp only [h3] at h
    cases h4 : u16Len c with
    | error e => rw [h4] at h; cases h
    | ok d =>
      rw [h4] at h; cases h
      obtain ⟨hl, rfl⟩ := u16Len_ok.mp h4
      refine ⟨by simp; omega, fun r => ?_⟩
      unfold rdTunnelTlv
      rw [List.append_assoc, Rd.bind_ok (rdU16_be16 _ _), List.append_assoc, Rd.bind_ok (rdU16_be16 _ _), toNat_u16len hl,
        Rd.bind_ok (rdN_append _ _)]
      have hm : many rdSubTlv c = .ok subs := many_encAll h3 fun x hx b hb => rdSubTlv_enc (h2 x hx) hb
      rw [hm, Rd.bind_ok (Rd.lift_ok _ _), Rd.pure_apply]
      unfold tunnelType; rw [if_pos h1]

theorem parseTunnel_enc {ts : List TunnelTlv} {b : Bytes} (ht : ∀ t ∈ ts, TunnelOk t) (h : encodeTunnel ts = .ok b) :
    parseTunnel b = .ok ts := whileGe_encAll (by decide) h fun t hx _ hb => rdTunnelTlv_enc (ht t hx) hb
theorem parseTunnel_noPanic (s : Bytes) : parseTunnel s ≠ .error .panic := rdTunnelTlv_safe.whileGe (by decide) (by decide) s

end Verif
