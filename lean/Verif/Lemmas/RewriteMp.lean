import Verif.Lemmas.RewriteLs
import Verif.Props.Nlri
/-
Multiprotocol NLRI, read and written.
-/
namespace Verif
open Spec

/-! ### next hops -/

theorem runOn_vec1 {n : Nat} {f : Vector UInt8 n → β} {s : Bytes} {x : β} (hs : s.length = n)
    (h : (do let a ← rdVec n; pure (f a) : Rd β).runOn s = .ok x) : ∃ a, x = f a ∧ s = a.toList := by
  obtain ⟨r, h⟩ := runOn_inv h
  rw [Rd.bind_eq_ok] at h; obtain ⟨a, s1, h1, h⟩ := h
  cases h
  have e := rdVec_ok h1
  subst e
  have : r = [] := by
    apply List.length_eq_zero_iff.mp
    simp at hs; simpa using hs
  subst this
  exact ⟨a, rfl, by simp⟩

theorem runOn_vec2 {n m : Nat} {f : Vector UInt8 n → Vector UInt8 m → β} {s : Bytes} {x : β} (hs : s.length = n + m)
    (h : (do let a ← rdVec n; let b ← rdVec m; pure (f a b) : Rd β).runOn s = .ok x) :
    ∃ a b, x = f a b ∧ s = a.toList ++ b.toList := by
  obtain ⟨r, h⟩ := runOn_inv h
  rw [Rd.bind_eq_ok] at h; obtain ⟨a, s1, h1, h⟩ := h
  rw [Rd.bind_eq_ok] at h; obtain ⟨b, s2, h2, h⟩ := h
  cases h
  have e := rdVec_ok h1
  have e2 := rdVec_ok h2
  subst e2
  subst e
  have : r = [] := by
    apply List.length_eq_zero_iff.mp
    simp only [List.length_append, Vector.length_toList] at hs; omega
  subst this
  exact ⟨a, b, rfl, by simp⟩

theorem runOn_vec4 {n m k l : Nat} {f : Vector UInt8 n → Vector UInt8 m → Vector UInt8 k → Vector UInt8 l → β} {s : Bytes}
    {x : β} (hs : s.length = n + m + k + l)
    (h : (do let a ← rdVec n; let b ← rdVec m; let c ← rdVec k; let d ← rdVec l; pure (f a b c d) : Rd β).runOn s = .ok x) :
    ∃ a b c d, x = f a b c d ∧ s = a.toList ++ (b.toList ++ (c.toList ++ d.toList)) := by
  obtain ⟨r, h⟩ := runOn_inv h
  rw [Rd.bind_eq_ok] at h; obtain ⟨a, s1, h1, h⟩ := h
  rw [Rd.bind_eq_ok] at h; obtain ⟨b, s2, h2, h⟩ := h
  rw [Rd.bind_eq_ok] at h; obtain ⟨c, s3, h3, h⟩ := h
  rw [Rd.bind_eq_ok] at h; obtain ⟨d, s4, h4, h⟩ := h
  cases h
  have e := rdVec_ok h1
  have e2 := rdVec_ok h2
  have e3 := rdVec_ok h3
  have e4 := rdVec_ok h4
  subst e4
  subst e3
  subst e2
  subst e
  have : r = [] := by
    apply List.length_eq_zero_iff.mp
    simp only [List.length_append, Vector.length_toList] at hs; omega
  subst this
  exact ⟨a, b, c, d, rfl, by simp⟩

theorem parseMpNextHop_sound {s : Bytes} {nh : Option NextHop} (h : parseMpNextHop s = .ok nh) :
    (nh = none ∧ s = []) ∨ ∃ x, nh = some x ∧ s = x.bytes := by
  unfold parseMpNextHop at h
  split at h
  · rename_i hs
    cases h
    exact .inl ⟨rfl, List.length_eq_zero_iff.mp hs⟩
  · right
    split at h
    · rename_i hs
      obtain ⟨a, rfl, rfl⟩ := runOn_vec1 hs h
      exact ⟨_, rfl, rfl⟩
    split at h
    · rename_i hs
      obtain ⟨a, rfl, rfl⟩ := runOn_vec1 hs h
      exact ⟨_, rfl, rfl⟩
    split at h
    · rename_i hs
      obtain ⟨a, b, rfl, rfl⟩ := runOn_vec2 (n := 8) (m := 16) hs h
      exact ⟨_, rfl, rfl⟩
    split at h
    · rename_i hs
      obtain ⟨a, b, rfl, rfl⟩ := runOn_vec2 (n := 16) (m := 16) hs h
      exact ⟨_, rfl, rfl⟩
    split at h
    · rename_i hs
      obtain ⟨a, b, c, d, rfl, rfl⟩ := runOn_vec4 (n := 8) (m := 16) (k := 8) (l := 16) hs h
      exact ⟨_, rfl, rfl⟩
    · cases h

/-! ### the head -/

theorem rdSafi_ok {s r : Bytes} {a : Safi} (h : rdSafi s = .ok (a, r)) : s = a.toU8 :: r := by
  unfold rdSafi at h
  rw [Rd.bind_eq_ok] at h; obtain ⟨x, t, h1, h⟩ := h
  cases hx : Safi.ofU8? x with
  | none => rw [hx] at h; cases h
  | some b => rw [hx] at h; cases h; rw [rdU8_ok h1, Exact.safi_ofU8_some hx]

theorem rdAfi_ok {s r : Bytes} {a : Afi} (h : rdAfi s = .ok (a, r)) : s = be16 a.toU16 ++ r := by
  obtain ⟨c, rfl, rfl⟩ := (Exact.rdAfi _ _ _).mp h; rfl

theorem nextHop_bytes_le (nh : NextHop) : nh.bytes.length ≤ 48 := by rw [length_nextHop]; cases nh <;> simp

theorem encNextHop_some (nh : NextHop) : encNextHop (some nh) = .ok (UInt8.ofNat nh.bytes.length :: nh.bytes) :=
  u8Len_ok.mpr ⟨by have := nextHop_bytes_le nh; omega, rfl⟩

/-- the two ways to find the family: from the input, or from the caller. -/
def FromInput (afi : Option Afi) (safi : Option Safi) (z : Bool) : Prop := (afi = none ∧ safi = none) ∨ z = true

theorem FromInput.reads {afi : Option Afi} {safi : Option Safi} {z : Bool} (h : FromInput afi safi z) :
    rdAfiOr afi z = rdAfi ∧ rdSafiOr safi z = rdSafi := by
  rcases h with ⟨rfl, rfl⟩ | rfl
  · exact ⟨rfl, rfl⟩
  · exact ⟨by cases afi <;> rfl, by cases safi <;> rfl⟩

theorem head_inv {afi : Option Afi} {safi : Option Safi} {z reach : Bool} (hi : FromInput afi safi z) {s r : Bytes}
    {a : Afi} {f : Safi} {nh : Option NextHop} (h : rdNlriHead afi safi z reach s = .ok ((a, f, nh), r)) :
    (reach = false → nh = none) ∧ (nh.isSome = reach → ∃ nhb, encNextHop nh = .ok nhb ∧
      s = be16 a.toU16 ++ ([f.toU8] ++ (nhb ++ r))) ∧ ∃ t, s = be16 a.toU16 ++ t := by
  unfold rdNlriHead at h
  rw [hi.reads.1, hi.reads.2] at h
  rw [Rd.bind_eq_ok] at h; obtain ⟨a', s1, h1, h⟩ := h
  rw [Rd.bind_eq_ok] at h; obtain ⟨f', s2, h2, h⟩ := h
  have e1 := rdAfi_ok h1
  have e2 := rdSafi_ok h2
  subst e2
  subst e1
  cases reach with
  | false =>
    simp only [Bool.false_eq_true, if_false] at h
    cases h
    exact ⟨fun _ => rfl, fun _ => ⟨[], rfl, rfl⟩, _, rfl⟩
  | true =>
    simp only [if_true] at h
    rw [Rd.bind_eq_ok] at h; obtain ⟨l, s3, h3, h⟩ := h
    rw [Rd.bind_eq_ok] at h; obtain ⟨b, s4, h4, h⟩ := h
    rw [Rd.bind_eq_ok] at h; obtain ⟨nh', s5, h5, h⟩ := h
    cases h
    obtain ⟨hnh, rfl⟩ := lift_inv h5
    have e3 := rdU8_ok h3
    obtain ⟨rfl, hb⟩ := rdN_ok h4
    subst e3
    refine ⟨by simp, fun hs => ?_, _, rfl⟩
    rcases parseMpNextHop_sound hnh with ⟨rfl, _⟩ | ⟨x, rfl, rfl⟩
    · cases hs
    · refine ⟨_, encNextHop_some x, ?_⟩
      have : UInt8.ofNat x.bytes.length = l := by rw [hb]; simp
      simp [this]

theorem afi_head (a : Afi) (s : Bytes) : ((be16 a.toU16 ++ s).head? == some 0) = decide (a ≠ .linkState) := by
  cases a <;> rfl

theorem head_again {afi : Option Afi} {safi : Option Safi} {z : Bool} (hi : FromInput afi safi z) (reach : Bool)
    {nh : Option NextHop} (hn : nh.isSome = reach) {nhb : Bytes} (he : encNextHop nh = .ok nhb) (a : Afi) (f : Safi) (r : Bytes) :
    rdNlriHead afi safi z reach (be16 a.toU16 ++ ([f.toU8] ++ (nhb ++ r))) = .ok ((a, f, nh), r) := by
  unfold rdNlriHead
  rw [hi.reads.1, hi.reads.2, Rd.bind_ok (rdAfi_enc _ _)]
  rw [show [f.toU8] ++ (nhb ++ r) = f.toU8 :: (nhb ++ r) from rfl, Rd.bind_ok (rdSafi_enc _ _)]
  cases nh with
  | none =>
    cases he
    have : reach = false := by simpa using hn.symm
    subst this
    rfl
  | some nh =>
    have : reach = true := by simpa using hn.symm
    subst this
    rw [encNextHop_some] at he
    injection he with he
    subst he
    have := nextHop_bytes_le nh
    simp only [if_true]
    rw [List.cons_append, Rd.bind_ok (rdU8_cons _ _), toNat_u8len (by omega), Rd.bind_ok (rdN_append _ _), parseMpNextHop_enc,
      Rd.bind_ok (Rd.lift_ok _ _)]
    rfl

theorem head_none {afi : Option Afi} {safi : Option Safi} {z : Bool} (hi : FromInput afi safi z) (a : Afi) (f : Safi)
    (r : Bytes) : rdNlriHead afi safi z true (be16 a.toU16 ++ ([f.toU8] ++ (0 :: r))) = .ok ((a, f, none), r) := by
  unfold rdNlriHead
  rw [hi.reads.1, hi.reads.2, Rd.bind_ok (rdAfi_enc _ _)]
  rw [show [f.toU8] ++ (0 :: r) = f.toU8 :: (0 :: r) from rfl, Rd.bind_ok (rdSafi_enc _ _)]
  simp only [if_true]
  have h0 : rdN (UInt8.toNat 0) r = .ok ([], r) := rdN_append' (a := []) rfl r
  rw [Rd.bind_ok (rdU8_cons _ _), Rd.bind_ok h0]
  rfl

/-! ### the body -/

/-- Add-Path as `encode_to` derives it from the labelled prefixes. -/
def apOf (n : Nlri) : Bool := (n.labeled.getD []).any fun p => p.pathId.isSome

/-- what is written behind the reserved octet, without flow specifications. -/
def mpTail (n : Nlri) : Except EncErr Bytes :=
  if n.safi = .mplsLabel then encAll (encNlriLabeled (apOf n)) (n.labeled.getD [])
  else if n.afi = .linkState then .ok ((n.linkState.getD []).flatMap fun l => be16 l.type ++ be16 0)
  else .ok (encodeNlri n.prefixes)

def resOf (reach : Bool) : Bytes := if reach then [0] else []

theorem encodeMpNlri_ok {n : Nlri} {reach : Bool} (hf : n.flowspec = none) {b : Bytes} :
    encodeMpNlri n reach (apOf n) = .ok b ↔ ∃ nhb t, encNextHop n.nextHop = .ok nhb ∧ mpTail n = .ok t ∧
      b = be16 n.afi.toU16 ++ ([n.safi.toU8] ++ (nhb ++ (resOf reach ++ t))) := by
  unfold encodeMpNlri mpTail resOf
  cases hn : encNextHop n.nextHop with
  | error e => simp
  | ok nhb =>
    by_cases h1 : n.safi = .mplsLabel
    · simp only [h1, if_true]
      cases he : encAll (encNlriLabeled (apOf n)) (n.labeled.getD []) with
      | error e => simp
      | ok t => simp [eq_comm]
    · simp only [if_neg h1]
      by_cases h2 : n.afi = .linkState
      · simp [h2, eq_comm]
      · simp [h2, hf, encAll, eq_comm]

theorem rdLsEntry_size {s r : Bytes} {l : LsNlri} (h : rdLsEntry s = .ok (l, r)) : 13 + r.length ≤ s.length := by
  unfold rdLsEntry at h
  rw [Rd.bind_eq_ok] at h; obtain ⟨t, s1, h1, h⟩ := h
  rw [Rd.bind_eq_ok] at h; obtain ⟨n, s2, h2, h⟩ := h
  rw [Rd.bind_eq_ok] at h; obtain ⟨d, s3, h3, h⟩ := h
  obtain ⟨hl, rfl⟩ := lift_inv h
  obtain ⟨rfl, hd⟩ := rdN_ok h3
  have e2 := rdU16_ok h2
  have e1 := rdU16_ok h1
  subst e2
  subst e1
  have : 9 ≤ d.length := by
    obtain ⟨r', hl⟩ := runOn_inv hl
    unfold rdLsNlri at hl
    rw [Rd.bind_eq_ok] at hl; obtain ⟨m, s4, h4, hl⟩ := hl
    obtain ⟨rfl, rfl⟩ := remaining_inv h4
    by_cases hd9 : s4.length < 9
    · rw [if_pos hd9] at hl; cases hl
    · omega
  simp; omega

theorem whileGeFuel_size {p : Rd α} {n k : Nat} (hp : ∀ s a r, p s = .ok (a, r) → k + r.length ≤ s.length) :
    ∀ (fuel : Nat) (s : Bytes) (xs : List α), whileGeFuel n p fuel s = .ok xs → k * xs.length ≤ s.length := by
  intro fuel
  induction fuel with
  | zero =>
    intro s xs h
    simp only [whileGeFuel] at h
    by_cases hs : s.length < n
    · rw [if_pos hs] at h; cases h; simp
    · rw [if_neg hs] at h; cases h
  | succ fuel ih =>
    intro s xs h
    simp only [whileGeFuel] at h
    by_cases hs : s.length < n
    · rw [if_pos hs] at h; cases h; simp
    · rw [if_neg hs] at h
      cases h1 : p s with
      | error e => rw [h1] at h; cases h
      | ok v =>
        obtain ⟨a, r⟩ := v
        rw [h1] at h
        simp only at h
        cases h2 : whileGeFuel n p fuel r with
        | error e => rw [h2] at h; cases h
        | ok as =>
          rw [h2] at h
          cases h
          have := hp _ _ _ h1
          have := ih _ _ h2
          rw [List.length_cons, Nat.mul_add]; omega

theorem parseLsNlri_size {s : Bytes} {ls : List LsNlri} (h : parseLsNlri s = .ok ls) : 13 * ls.length ≤ s.length :=
  whileGeFuel_size (fun _ _ _ h => rdLsEntry_size h) _ _ _ h

theorem labelBytes_facts {t : Bytes} {l : Label} {b : Bool} (h : LabelBytes t l b) : t.length = 3 ∧ l.toNat < 2 ^ 20 := by
  obtain ⟨x, y, z, rfl, hl, _⟩ := h
  have := x.toNat_lt
  have := y.toNat_lt
  have := z.toNat_lt
  exact ⟨rfl, by rw [hl]; omega⟩

theorem stackBytes_facts {t : Bytes} {ls : List Label} (h : StackBytes t ls) :
    t.length = 3 * ls.length ∧ ls ≠ [] ∧ ∀ l ∈ ls, l.toNat < 2 ^ 20 := by
  induction h with
  | last h => obtain ⟨h1, h2⟩ := labelBytes_facts h; exact ⟨by simp [h1], by simp, by simpa using h2⟩
  | more h _ ih =>
    obtain ⟨h1, h2⟩ := labelBytes_facts h
    refine ⟨by simp [h1, ih.1]; omega, by simp, ?_⟩
    intro x hx
    rcases List.mem_cons.mp hx with rfl | hx
    · exact h2
    · exact ih.2.2 x hx

theorem encLabels_length : ∀ ls : List Label, (encLabels ls).length = 3 * ls.length
  | [] => rfl
  | [l] => rfl
  | l :: m :: ls => by
    have := encLabels_length (m :: ls)
    simp only [encLabels, List.length_append, List.length_cons] at this ⊢
    rw [this]; simp [encLabel]; omega

theorem rdLabeled_back {afi : Afi} {ap : Bool} {s r : Bytes} {p : LabeledPrefix}
    (h : rdLabeled afi (nlriLabelCfg ap) s = .ok (p, r)) : LabeledOk afi ⟨ap, .multi, 16, none⟩ p ∧
      ∀ ap', (p.pathId.isSome = true → ap' = true) → ∃ b, encNlriLabeled ap' p = .ok b ∧ b.length + r.length = s.length := by
  obtain ⟨st, pf, e1, e2, e3, e4, e5, e6, e7, e8, e9⟩ := rdLabeled_sound h
  obtain ⟨h1, h2, h3⟩ := stackBytes_facts e9.1
  have hb := (maskedPrefix_bits e7 e8).2
  have hok : LabeledOk afi ⟨ap, .multi, 16, none⟩ p :=
    ⟨⟨e4, e6⟩, e5, hb, e3, h2, h3, e2, e9.2.1, e9.2.2⟩
  refine ⟨hok, fun ap' hap => ⟨_, encNlriLabeled_ok hok hap, ?_⟩⟩
  have hno : (netOctets p.prefix_).length = byteLen p.prefix_.len := by
    unfold netOctets
    rw [List.length_take]
    have : byteLen p.prefix_.len ≤ p.prefix_.addr.octets.length := by
      unfold byteLen
      cases afi <;> cases ha : p.prefix_.addr <;> rw [ha] at e4 <;> simp only [FamilyOk, LenOk] at e4 e5 <;>
        simp only [Ip.octets, Vector.length_toList]
      · omega
      · omega
      · rw [e5]; decide
    omega
  rw [e1]
  simp only [List.length_append, List.length_cons, List.length_nil, encLabels_length, hno, h1, e8]

/-- reading the body: the family and the next hop are passed on, and what follows the reserved octet is what is written,
as far as it can be written. -/
theorem body_inv {a : Afi} {f : Safi} {nh : Option NextHop} {pfx : Option (List NetworkPrefix)} {z reach ap : Bool} {s : Bytes}
    {n : Nlri} (hz : pfx = none ∨ z = true) (h : parseNlriBody a f nh pfx z reach ap s = .ok n) :
    n.afi = a ∧ n.safi = f ∧ n.nextHop = nh ∧ n.flowspec = none ∧
    ∃ r0 t, s = r0 ++ t ∧ r0.length = (resOf reach).length ∧
      (∀ X, mpTail n = .ok X → X.length ≤ t.length) ∧
      (mpTail n = .ok t → NlriRewritable ap n ∧ (reach = false → n.safi = .mplsLabel → n.prefixes = [])) ∧
      (NlriRewritable ap n → (reach = false → n.safi = .mplsLabel → n.prefixes = []) →
        ∃ X, mpTail n = .ok X ∧ X.length ≤ t.length ∧ ∀ pfx' z', (pfx' = none ∨ z' = true) →
          parseNlriBody a f nh pfx' z' reach ap (resOf reach ++ X) = .ok n) := by
  have hres : ∀ t, rdReserved reach (resOf reach ++ t) = .ok ((), t) := by intro t; cases reach <;> rfl
  have hresInv : ∀ {s t : Bytes}, rdReserved reach s = .ok ((), t) → ∃ r0, s = r0 ++ t ∧ r0.length = (resOf reach).length := by
    intro s t h
    cases reach with
    | false => cases h; exact ⟨[], rfl, rfl⟩
    | true =>
      change (do let _ ← rdU8; pure () : Rd Unit) s = _ at h
      rw [Rd.bind_eq_ok] at h; obtain ⟨x, t', h1, h⟩ := h
      cases h
      exact ⟨[x], rdU8_ok h1, rfl⟩
  unfold parseNlriBody at h
  by_cases h1 : a = .linkState ∧ (f = .linkState ∨ f = .linkStateVpn)
  · rw [if_pos h1] at h
    cases hr : rdReserved reach s with
    | error e => rw [hr] at h; cases h
    | ok v =>
      obtain ⟨⟨⟩, t⟩ := v
      rw [hr] at h
      simp only at h
      obtain ⟨r0, rfl, hl⟩ := hresInv hr
      cases hp : parseLsNlri t with
      | error e => rw [hp] at h; cases h
      | ok ls =>
        rw [hp] at h
        cases h
        have hf : f ≠ .mplsLabel := by rcases h1.2 with rfl | rfl <;> decide
        have hsz := parseLsNlri_size hp
        have htail : mpTail ⟨a, f, nh, [], none, some ls, none⟩ = .ok (ls.flatMap fun l => be16 l.type ++ be16 0) := by
          unfold mpTail; simp only [if_neg hf, h1.1, if_true, Option.getD_some]
        have hlen : (ls.flatMap fun l : LsNlri => be16 l.type ++ be16 0).length = 4 * ls.length := by
          clear hp hsz htail
          induction ls with
          | nil => rfl
          | cons x xs ih => simp at ih ⊢; omega
        refine ⟨rfl, rfl, rfl, rfl, r0, t, rfl, hl, ?_, ?_, ?_⟩
        · intro X hX; rw [htail] at hX; cases hX; omega
        · intro ht; rw [htail] at ht; injection ht with ht
          have : ls = [] := by
            apply List.length_eq_zero_iff.mp
            rw [ht] at hlen; omega
          exact ⟨⟨this, fun _ => rfl, fun _ p hp => by cases hp⟩, fun _ _ => rfl⟩
        · intro hrw _
          have : ls = [] := hrw.noLinkState
          subst this
          refine ⟨[], htail, by simp, fun pfx' z' hz' => ?_⟩
          unfold parseNlriBody
          rw [if_pos h1, hres]
          rfl
  · rw [if_neg h1] at h
    by_cases h2 : f = .mplsLabel
    · rw [if_pos h2] at h
      cases reach with
      | true =>
        simp only [if_true] at h
        cases hr : rdReserved true s with
        | error e => rw [hr] at h; cases h
        | ok v =>
          obtain ⟨⟨⟩, t⟩ := v
          rw [hr] at h
          simp only at h
          obtain ⟨r0, rfl, hl⟩ := hresInv hr
          cases hp : parseLabeledNlri a (nlriLabelCfg ap) t with
          | error e => rw [hp] at h; cases h
          | ok ls =>
            rw [hp] at h
            cases h
            have hok : ∀ p ∈ ls, LabeledOk a ⟨ap, .multi, 16, none⟩ p :=
              many_all (P := fun p => LabeledOk a ⟨ap, .multi, 16, none⟩ p) (fun _ _ _ h => (rdLabeled_back h).1) hp
            have hap : ∀ p ∈ ls, p.pathId.isSome = true → apOf ⟨a, f, nh, [], some ls, none, none⟩ = true := by
              intro p hp hs
              unfold apOf
              rw [List.any_eq_true]; exact ⟨p, hp, hs⟩
            generalize hA : apOf ⟨a, f, nh, [], some ls, none, none⟩ = A at hap
            obtain ⟨X, hX, hXl⟩ := encAll_of_many (f := encNlriLabeled A) (Q := fun p => p.pathId.isSome = true → A = true)
              (fun s p r h hq => by
                obtain ⟨b, hb, hbl⟩ := (rdLabeled_back h).2 A hq
                exact ⟨b, hb, by omega⟩) hp hap
            have htail : mpTail ⟨a, f, nh, [], some ls, none, none⟩ = .ok X := by
              unfold mpTail; simp only [h2, if_true, Option.getD_some]; rw [← h2, hA]; exact hX
            refine ⟨rfl, rfl, rfl, rfl, r0, t, rfl, hl, ?_, ?_, ?_⟩
            · intro Y hY; rw [htail] at hY; cases hY; exact hXl
            · intro _; exact ⟨⟨rfl, fun _ => rfl, fun _ p hp => by cases hp⟩, fun _ _ => rfl⟩
            · intro _ _
              refine ⟨X, htail, hXl, fun pfx' z' _ => ?_⟩
              unfold parseNlriBody
              rw [if_neg h1, if_pos h2]
              simp only [if_true, hres]
              rw [encAll_eq_flatMap ls fun x hx => encNlriLabeled_ok (hok x hx) (hap x hx)] at hX
              injection hX with hX
              have : parseLabeledNlri a (nlriLabelCfg ap) X = .ok ls := by
                rw [← hX]
                exact many_encode ls fun p hp => ⟨by simp, fun s => rdLabeled_enc (hok p hp) s⟩
              rw [this]
      | false =>
        simp only [Bool.false_eq_true, if_false] at h
        cases hp : parseLabeledWithdrawals a ap s with
        | error e => rw [hp] at h; cases h
        | ok ps =>
          rw [hp] at h
          cases h
          have htail : mpTail ⟨a, f, nh, ps, none, none, none⟩ = .ok [] := by
            unfold mpTail; simp only [h2, if_true, Option.getD_none]; rfl
          refine ⟨rfl, rfl, rfl, rfl, [], s, rfl, rfl, ?_, ?_, ?_⟩
          · intro X hX; rw [htail] at hX; cases hX; simp
          · intro ht; rw [htail] at ht; injection ht with ht
            subst ht
            cases hp
            exact ⟨⟨rfl, fun _ => rfl, fun _ p hp => by cases hp⟩, fun _ _ => rfl⟩
          · intro _ hps
            have : ps = [] := hps rfl h2
            subst this
            refine ⟨[], htail, by simp, fun pfx' z' _ => ?_⟩
            unfold parseNlriBody
            rw [if_neg h1, if_pos h2]
            rfl
    · rw [if_neg h2] at h
      have h' : (match rdReserved reach s with
          | .error e => .error e
          | .ok ((), r) =>
            match parseNlriList a ap r with
            | .error e => .error e
            | .ok ps => .ok ⟨a, f, nh, ps, none, none, none⟩ : Except Err Nlri) = .ok n := by
        rcases hz with rfl | rfl
        · exact h
        · cases pfx <;> exact h
      clear h
      cases hr : rdReserved reach s with
      | error e => rw [hr] at h'; cases h'
      | ok v =>
        obtain ⟨⟨⟩, t⟩ := v
        rw [hr] at h'
        simp only at h'
        obtain ⟨r0, rfl, hl⟩ := hresInv hr
        cases hp : parseNlriList a ap t with
        | error e => rw [hp] at h'; cases h'
        | ok ps =>
          rw [hp] at h'
          cases h'
          obtain ⟨hs1, hs2⟩ := Props.c02_nlri_sound a ap t ps hp
          have hpath : ap = true → ∀ p ∈ ps, p.pathId ≠ none := by
            intro hap p hp he
            have := (hs2 p hp).2.2.2 hap
            rw [he] at this; cases this
          have hagain : ∀ pfx' z', (pfx' = none ∨ z' = true) → ∀ X qs, parseNlriList a ap X = .ok qs →
              parseNlriBody a f nh pfx' z' reach ap (resOf reach ++ X) = .ok ⟨a, f, nh, qs, none, none, none⟩ := by
            intro pfx' z' hz' X qs hq
            unfold parseNlriBody
            rw [if_neg h1, if_neg h2]
            rcases hz' with rfl | rfl
            · simp only [hres, hq]
            · cases pfx' <;> simp only [hres, hq]
          by_cases ha : a = .linkState
          · have htail : mpTail ⟨a, f, nh, ps, none, none, none⟩ = .ok [] := by
              unfold mpTail; simp only [if_neg h2, ha, if_true]; rfl
            refine ⟨rfl, rfl, rfl, rfl, r0, t, rfl, hl, ?_, ?_, ?_⟩
            · intro X hX; rw [htail] at hX; cases hX; simp
            · intro ht; rw [htail] at ht; injection ht with ht
              subst ht
              have : ps = [] := by
                have : parseNlriList a ap [] = .ok [] := rfl
                rw [this] at hp; injection hp with hp; exact hp.symm
              subst this
              exact ⟨⟨rfl, fun _ => rfl, fun _ p hp => by cases hp⟩, fun _ _ => rfl⟩
            · intro hrw _
              have : ps = [] := hrw.family ha
              subst this
              exact ⟨[], htail, by simp, fun pfx' z' hz' => hagain pfx' z' hz' [] [] rfl⟩
          · have htail : mpTail ⟨a, f, nh, ps, none, none, none⟩ = .ok t := by
              unfold mpTail; simp only [if_neg h2, if_neg ha]; rw [hs1]
            refine ⟨rfl, rfl, rfl, rfl, r0, t, rfl, hl, ?_, ?_, ?_⟩
            · intro X hX; rw [htail] at hX; cases hX; exact Nat.le_refl _
            · intro _
              exact ⟨⟨rfl, fun he => absurd he ha, hpath⟩, fun _ he => absurd he h2⟩
            · intro _ _
              exact ⟨t, htail, Nat.le_refl _, fun pfx' z' hz' => hagain pfx' z' hz' t ps hp⟩

end Verif
