import Verif.Lemmas.Rd
import Verif.Spec.Mpls
/-
Helper lemmas for MPLS labels and labelled NLRI.
-/
namespace Verif
open Spec

/-! ### labels -/

theorem encLabel_raw {l : Label} (h : l.toNat < 2 ^ 20) (b : Bool) :
    ((l <<< 4) ||| (if b then 1 else 0) : UInt32).toNat = l.toNat * 16 + b.toNat := by
  have h1 : (l <<< 4 : UInt32).toNat = l.toNat <<< 4 := by
    simp [Nat.shiftLeft_eq]; omega
  rw [UInt32.toNat_or, h1]
  have := Nat.shiftLeft_add_eq_or_of_lt (a := l.toNat) (b := b.toNat) (i := 4) (by cases b <;> decide)
  have e : (if b then (1 : UInt32) else 0).toNat = b.toNat := by cases b <;> rfl
  rw [e, ← this, Nat.shiftLeft_eq]

theorem encLabel_eq {l : Label} (h : l.toNat < 2 ^ 20) (b : Bool) :
    encLabel l b = [UInt8.ofNat ((l.toNat * 16 + b.toNat) / 65536), UInt8.ofNat ((l.toNat * 16 + b.toNat) / 256),
      UInt8.ofNat (l.toNat * 16 + b.toNat)] := by
  have hr := encLabel_raw h b
  simp only [encLabel]
  generalize ((l <<< 4) ||| (if b then 1 else 0) : UInt32) = raw at hr
  have e : ∀ n, UInt8.ofNat n = UInt8.ofNat (n % 256) := by
    intro n; apply UInt8.toNat_inj.mp; simp
  congr 1
  · apply UInt8.toNat_inj.mp
    simp [Nat.shiftRight_eq_div_pow, hr]
  congr 1
  · apply UInt8.toNat_inj.mp
    simp [Nat.shiftRight_eq_div_pow, hr]
  congr 1
  apply UInt8.toNat_inj.mp
  simp [hr]

theorem decLabel_spec (a b c : UInt8) :
    (decLabel a b c).1.toNat = (a.toNat * 65536 + b.toNat * 256 + c.toNat) / 16 ∧
    ((decLabel a b c).2 = true ↔ c.toNat % 2 = 1) := by
  have ha := a.toNat_lt
  have hb := b.toNat_lt
  have hc := c.toNat_lt
  have hr : (u32of 0 a b c).toNat = a.toNat * 65536 + b.toNat * 256 + c.toNat := by
    rw [u32of_toNat]; simp
  simp only [decLabel]
  constructor
  · rw [UInt32.toNat_and]
    have h1 : (u32of 0 a b c >>> 4).toNat = (u32of 0 a b c).toNat / 16 := by
      simp [Nat.shiftRight_eq_div_pow]
    rw [h1, hr]
    have := Nat.and_two_pow_sub_one_eq_mod ((a.toNat * 65536 + b.toNat * 256 + c.toNat) / 16) 20
    have e : (0x000FFFFF : UInt32).toNat = 2 ^ 20 - 1 := rfl
    rw [e, this]
    omega
  · have h1 : (u32of 0 a b c &&& 1).toNat = c.toNat % 2 := by
      rw [UInt32.toNat_and, hr]
      have := Nat.and_two_pow_sub_one_eq_mod (a.toNat * 65536 + b.toNat * 256 + c.toNat) 1
      have e : (1 : UInt32).toNat = 2 ^ 1 - 1 := rfl
      rw [e, this]; omega
    rw [bne_iff_ne, ne_eq, ← UInt32.toNat_inj, h1]
    simp

theorem decLabel_enc {l : Label} (h : l.toNat < 2 ^ 20) (b : Bool) :
    ∃ x y z, encLabel l b = [x, y, z] ∧ decLabel x y z = (l, b) := by
  rw [encLabel_eq h]
  refine ⟨_, _, _, rfl, ?_⟩
  have hb : b.toNat ≤ 1 := by cases b <;> decide
  obtain ⟨h1, h2⟩ := decLabel_spec (UInt8.ofNat ((l.toNat * 16 + b.toNat) / 65536))
    (UInt8.ofNat ((l.toNat * 16 + b.toNat) / 256)) (UInt8.ofNat (l.toNat * 16 + b.toNat))
  apply Prod.ext
  · apply UInt32.toNat_inj.mp
    rw [h1]; simp; omega
  · apply Bool.eq_iff_iff.mpr
    rw [h2]
    cases b <;> simp <;> omega

theorem vec3_toList (v : Vector UInt8 3) : v.toList = [v[0], v[1], v[2]] := by
  apply List.ext_getElem
  · simp
  · intro i h1 h2
    have : i = 0 ∨ i = 1 ∨ i = 2 := by simp at h1; omega
    rcases this with rfl | rfl | rfl <;> simp

theorem orErr_ok {p : Rd α} {e : Err} {s r : Bytes} {a : α} : p.orErr e s = .ok (a, r) ↔ p s = .ok (a, r) := by
  simp only [Rd.orErr]
  cases p s <;> simp

theorem orErr_noPanic {p : Rd α} {e : Err} (h : e ≠ .panic) : NoPanic (p.orErr e) := by
  intro s hs
  simp only [Rd.orErr] at hs
  split at hs
  · cases hs
  · cases hs; exact h rfl

theorem rdLabel_enc {l : Label} (h : l.toNat < 2 ^ 20) (b : Bool) (s : Bytes) :
    rdLabel (encLabel l b ++ s) = .ok ((l, b), s) := by
  obtain ⟨x, y, z, h1, h2⟩ := decLabel_enc h b
  have hv : (rdVec 3).orErr .truncatedLabeledNlri ([x, y, z] ++ s) = .ok (#v[x, y, z], s) :=
    orErr_ok.mpr (rdVec_append #v[x, y, z] s)
  unfold rdLabel
  rw [h1, Rd.bind_ok hv]
  simp [h2]

theorem rdLabel_sound {s r : Bytes} {l : Label} {b : Bool} (h : rdLabel s = .ok ((l, b), r)) :
    ∃ t, s = t ++ r ∧ t.length = 3 ∧ LabelBytes t l b := by
  unfold rdLabel at h
  rw [Rd.bind_eq_ok] at h; obtain ⟨v, t, h1, h⟩ := h
  have h1 := rdVec_ok (orErr_ok.mp h1)
  simp only [Rd.pure_apply, Except.ok.injEq, Prod.mk.injEq] at h
  obtain ⟨h, rfl⟩ := h
  obtain ⟨h2, h3⟩ := decLabel_spec v[0] v[1] v[2]
  rw [h] at h2 h3
  exact ⟨v.toList, h1, by simp, v[0], v[1], v[2], vec3_toList v, h2, h3⟩

theorem rdLabel_noPanic : NoPanic rdLabel := .bind (orErr_noPanic (by simp)) fun _ => .pure _

theorem length_encLabel (l : Label) (b : Bool) : (encLabel l b).length = 3 := rfl

theorem length_encLabels (ls : List Label) : (encLabels ls).length = 3 * ls.length := by
  induction ls with
  | nil => rfl
  | cons l ls ih =>
    cases ls with
    | nil => rfl
    | cons m ms => simp [encLabels, length_encLabel] at ih ⊢; omega

/-! ### stacks -/

theorem rdLabels_enc {maxL : Nat} {peer : Option UInt8} :
    ∀ (ls : List Label) (fuel n : Nat) (s : Bytes), ls ≠ [] → (∀ l ∈ ls, l.toNat < 2 ^ 20) → ls.length ≤ fuel →
      n + ls.length ≤ maxL → (∀ m, peer = some m → n + ls.length ≤ m.toNat) →
      rdLabels maxL peer fuel n (encLabels ls ++ s) = .ok (ls, s) := by
  intro ls
  induction ls with
  | nil => intro _ _ _ h; exact absurd rfl h
  | cons l ls ih =>
    intro fuel n s _ hl hf hm hp
    cases fuel with
    | zero => simp at hf
    | succ fuel =>
      have hmax : ¬ n ≥ maxL := by simp at hm; omega
      have hpeer : peerReached peer n = false := by
        cases peer with
        | none => rfl
        | some m => have := hp m rfl; simp at this; simp [peerReached]; omega
      simp only [rdLabels]
      rw [if_neg hmax, hpeer, if_neg (by simp)]
      cases ls with
      | nil =>
        simp only [encLabels]
        rw [Rd.bind_ok (rdLabel_enc (hl l (by simp)) true s)]
        simp
      | cons m ms =>
        have henc : encLabels (l :: m :: ms) = encLabel l false ++ encLabels (m :: ms) := by simp [encLabels]
        rw [henc, List.append_assoc]
        rw [Rd.bind_ok (rdLabel_enc (hl l (by simp)) false _)]
        simp only [Bool.false_eq_true, if_false]
        rw [Rd.bind_ok (ih fuel (n + 1) s (by simp) (fun x hx => hl x (by simp [hx])) (by simp at hf ⊢; omega)
          (by simp at hm ⊢; omega) (fun k hk => by have := hp k hk; simp at this ⊢; omega))]
        simp

theorem rdLabels_sound {maxL : Nat} {peer : Option UInt8} :
    ∀ (fuel n : Nat) (s r : Bytes) (ls : List Label), rdLabels maxL peer fuel n s = .ok (ls, r) →
      ∃ t, s = t ++ r ∧ t.length = 3 * ls.length ∧ StackBytes t ls ∧ n + ls.length ≤ maxL ∧
        ∀ m, peer = some m → n + ls.length ≤ m.toNat := by
  intro fuel
  induction fuel with
  | zero => intro n s r ls h; simp [rdLabels] at h
  | succ fuel ih =>
    intro n s r ls h
    simp only [rdLabels] at h
    by_cases hmax : n ≥ maxL
    · rw [if_pos hmax] at h; simp at h
    rw [if_neg hmax] at h
    by_cases hpeer : peerReached peer n = true
    · rw [if_pos hpeer] at h; simp at h
    rw [if_neg hpeer] at h
    have hp : ∀ m, peer = some m → n + 1 ≤ m.toNat := by
      rintro m rfl; simp [peerReached] at hpeer; omega
    rw [Rd.bind_eq_ok] at h; obtain ⟨⟨l, b⟩, t, h1, h⟩ := h
    obtain ⟨tl, rfl, hlen, hlb⟩ := rdLabel_sound h1
    cases b with
    | true =>
      simp only [if_true] at h
      cases h
      exact ⟨tl, rfl, by simp [hlen], .last hlb, by simp; omega, by simpa using hp⟩
    | false =>
      simp only [Bool.false_eq_true, if_false] at h
      rw [Rd.bind_eq_ok] at h; obtain ⟨ls', t', h2, h⟩ := h
      cases h
      obtain ⟨ts, rfl, hlen', hst, hm, hp'⟩ := ih _ _ _ _ h2
      exact ⟨tl ++ ts, by simp, by simp [hlen, hlen']; omega, .more hlb hst, by simp; omega,
        fun m hm => by have := hp' m hm; simp; omega⟩

theorem rdLabels_noPanic {maxL : Nat} {peer : Option UInt8} :
    ∀ (fuel n : Nat), n ≤ maxL → maxL < n + fuel → NoPanic (rdLabels maxL peer fuel n) := by
  intro fuel
  induction fuel with
  | zero =>
    intro n h1 h2 s hs
    omega
  | succ fuel ih =>
    intro n h1 h
    unfold rdLabels
    refine .ite (fun _ => .fail (by simp)) fun hlt => .ite (fun _ => .fail (by simp)) fun _ =>
      .bind rdLabel_noPanic fun ⟨l, b⟩ => .ite (fun _ => .pure _) fun _ => .bind (ih (n + 1) (by omega) (by omega)) fun _ => .pure _

theorem rdLabels_fuel_zero_unreachable {maxL : Nat} {peer : Option UInt8} (n : Nat) (h : maxL ≤ n) (fuel : Nat) (s : Bytes) :
    rdLabels maxL peer (fuel + 1) n s = .error .maxLabelStackDepthExceeded := by
  simp [rdLabels, h]

theorem rdLabelStack_noPanic (cfg : LabelCfg) : NoPanic (rdLabelStack cfg) := by
  unfold rdLabelStack
  cases cfg.mode
  · exact .bind rdLabel_noPanic fun _ => .pure _
  · exact rdLabels_noPanic _ _ (by omega) (by omega)

/-! ### masking -/

theorem mask_fin : ∀ n : Fin 256, ∀ r : Fin 8, 0 < r.val →
    (∀ j : Fin 8, r.val ≤ j.val → n.val.testBit (7 - j.val) = false) →
    UInt8.ofNat n.val &&& (0xFF <<< UInt8.ofNat (8 - r.val)) = UInt8.ofNat n.val := by
  decide +kernel

theorem mask_id {o : UInt8} {r : Nat} (h0 : 0 < r) (h8 : r < 8)
    (h : ∀ j, r ≤ j → j < 8 → o.toNat.testBit (7 - j) = false) : o &&& (0xFF <<< UInt8.ofNat (8 - r)) = o := by
  have := mask_fin ⟨o.toNat, o.toNat_lt⟩ ⟨r, h8⟩ h0 (fun j hj => h j.val hj j.isLt)
  simpa using this

theorem byte_zero {o : UInt8} (h : ∀ j, j < 8 → o.toNat.testBit (7 - j) = false) : o = 0 := by
  apply UInt8.toNat_inj.mp
  apply Nat.eq_of_testBit_eq
  intro i
  simp
  by_cases hi : i < 8
  · have := h (7 - i) (by omega)
    rwa [show 7 - (7 - i) = i by omega] at this
  · exact Nat.testBit_lt_two_pow (Nat.lt_of_lt_of_le o.toNat_lt (by
      have : 2 ^ 8 ≤ 2 ^ i := Nat.pow_le_pow_right (by decide) (by omega)
      exact this))

theorem noHostBits_tail {p : IpNet} (h : NoHostBits p) : TailZero p := by
  intro i hi hl
  apply byte_zero
  intro j hj
  have := h (8 * i + j) (by omega)
  simp only [addrBit] at this
  rw [show (8 * i + j) / 8 = i by omega, show (8 * i + j) % 8 = j by omega] at this
  simpa [List.getD_eq_getElem?_getD, List.getElem?_eq_getElem hl] using this

theorem maskOctets_id {p : IpNet} (h : NoHostBits p) : maskOctets p.len (netOctets p) = netOctets p := by
  unfold maskOctets
  split
  · rename_i hr
    apply List.ext_getElem
    · simp
    · intro i h1 h2
      rw [List.getElem_modify]
      split
      · rename_i he
        apply mask_id hr (by omega)
        intro j hj hj8
        have hb := h (8 * i + j) (by omega)
        simp only [addrBit] at hb
        rw [show (8 * i + j) / 8 = i by omega, show (8 * i + j) % 8 = j by omega] at hb
        have hi : i < p.addr.octets.length := by
          simp [netOctets] at h2; omega
        simpa [netOctets, List.getD_eq_getElem?_getD, List.getElem?_eq_getElem hi] using hb
      · rfl
  · rfl

theorem maskedPrefix_enc {afi : Afi} {p : IpNet} (hf : FamilyOk afi p.addr) (hne : afi ≠ .linkState)
    (hl : LenOk afi p.len) (hh : NoHostBits p) : maskedPrefix afi (netOctets p) p.len = .ok p := by
  have ht := noHostBits_tail hh
  have hm := maskOctets_id hh
  obtain ⟨a, len⟩ := p
  cases afi with
  | ipv4 =>
    cases a with
    | v6 o => simp [FamilyOk] at hf
    | v4 o =>
      simp only [LenOk] at hl
      have hb : byteLen len ≤ 4 := byteLen_le_of hl
      have hpad : padVec 4 (o.toList.take (byteLen len)) = o := padVec_take o hb (by
        intro i hi h
        exact ht i (by unfold byteLen at hi; simp only; omega) h)
      simp only [maskedPrefix]
      rw [hm]
      simp [netOctets, Ip.octets, hpad, IpNet.new?, Ip.maxLen, hl]
  | ipv6 =>
    cases a with
    | v4 o => simp [FamilyOk] at hf
    | v6 o =>
      simp only [LenOk] at hl
      have hb : byteLen len ≤ 16 := byteLen_le_of hl
      have hpad : padVec 16 (o.toList.take (byteLen len)) = o := padVec_take o hb (by
        intro i hi h
        exact ht i (by unfold byteLen at hi; simp only; omega) h)
      simp only [maskedPrefix]
      rw [hm]
      simp [netOctets, Ip.octets, hpad, IpNet.new?, Ip.maxLen, hl]
  | linkState => exact absurd rfl hne

theorem length_netOctets {afi : Afi} {p : IpNet} (hf : FamilyOk afi p.addr) (hl : LenOk afi p.len) :
    (netOctets p).length = byteLen p.len := by
  obtain ⟨a, len⟩ := p
  cases afi with
  | ipv4 =>
    cases a with
    | v6 o => simp [FamilyOk] at hf
    | v4 o => simp only [LenOk] at hl; simp [netOctets, Ip.octets, byteLen]; omega
  | ipv6 =>
    cases a with
    | v4 o => simp [FamilyOk] at hf
    | v6 o => simp only [LenOk] at hl; simp [netOctets, Ip.octets, byteLen]; omega
  | linkState => simp only [LenOk] at hl; subst hl; simp [netOctets, byteLen]

theorem labeledTail_enc {afi : Afi} {p : IpNet} (hf : FamilyOk afi p.addr) (hne : afi ≠ .linkState)
    (hl : LenOk afi p.len) (hh : NoHostBits p) {used : Nat} {bits : UInt8} (hb : bits.toNat = used + p.len.toNat) :
    labeledTail afi bits used (netOctets p) = .ok p := by
  have hmax : p.len.toNat ≤ afi.maxBits := by
    cases afi <;> simp [LenOk, Afi.maxBits] at hl ⊢
    · exact hl
    · exact hl
    · simp [hl]
  have hsub : bits.toNat - used = p.len.toNat := by omega
  have hlen := length_netOctets hf hl
  simp only [labeledTail]
  rw [if_neg (by omega), if_neg hne, if_neg (by omega), hsub]
  simp only [UInt8.ofNat_toNat]
  rw [if_neg (by omega), ← hlen, List.take_length, maskedPrefix_enc hf hne hl hh]
  simp

theorem maskedPrefix_family {afi : Afi} {d : Bytes} {b : UInt8} {p : IpNet} (h : maskedPrefix afi d b = .ok p) :
    p.len = b ∧ FamilyOk afi p.addr ∧ LenOk afi p.len ∧ afi ≠ .linkState := by
  cases afi <;> simp only [maskedPrefix] at h
  · split at h
    · rename_i q hq
      cases h
      simp only [IpNet.new?] at hq
      split at hq
      · rename_i hlen; cases hq; exact ⟨rfl, trivial, by simpa [LenOk, Ip.maxLen] using hlen, by simp⟩
      · cases hq
    · cases h
  · split at h
    · rename_i q hq
      cases h
      simp only [IpNet.new?] at hq
      split at hq
      · rename_i hlen; cases hq; exact ⟨rfl, trivial, by simpa [LenOk, Ip.maxLen] using hlen, by simp⟩
      · cases hq
    · cases h
  · cases h

theorem mask_bits_fin : ∀ n : Fin 256, ∀ r : Fin 8, 0 < r.val → ∀ j : Fin 8,
    (UInt8.ofNat n.val &&& (0xFF <<< UInt8.ofNat (8 - r.val))).toNat.testBit (7 - j.val) =
      (decide (j.val < r.val) && n.val.testBit (7 - j.val)) := by
  decide +kernel

theorem mask_bits {o : UInt8} {r j : Nat} (h0 : 0 < r) (h8 : r < 8) (hj : j < 8) :
    (o &&& (0xFF <<< UInt8.ofNat (8 - r))).toNat.testBit (7 - j) = (decide (j < r) && o.toNat.testBit (7 - j)) := by
  have := mask_bits_fin ⟨o.toNat, o.toNat_lt⟩ ⟨r, h8⟩ h0 ⟨j, hj⟩
  simpa using this

theorem addrBit_mask {b : UInt8} {d : Bytes} (h : d.length = byteLen b) (k : Nat) :
    addrBit (maskOctets b d) k = (decide (k < b.toNat) && addrBit d k) := by
  unfold addrBit maskOctets
  have hb : byteLen b = (b.toNat + 7) / 8 := rfl
  split
  · rename_i hr
    rw [List.getD_eq_getElem?_getD, List.getD_eq_getElem?_getD, List.getElem?_modify]
    by_cases hk : b.toNat / 8 = k / 8
    · have hd : k / 8 < d.length := by omega
      rw [List.getElem?_eq_getElem hd]
      simp only [Option.map_eq_map, Option.map_some, Option.getD_some]
      rw [if_pos hk, mask_bits hr (by omega) (by omega)]
      congr 1
      apply decide_eq_decide.mpr
      omega
    · simp only [if_neg hk, Option.map_eq_map, Option.map_id_fun', id]
      by_cases hlt : k < b.toNat
      · simp [hlt]
      · rw [List.getElem?_eq_none (by omega)]; simp
  · by_cases hlt : k < b.toNat
    · simp [hlt]
    · rw [List.getD_eq_getElem?_getD, List.getElem?_eq_none (by omega)]; simp

theorem addrBit_pad {n : Nat} {d : Bytes} (h : d.length ≤ n) (k : Nat) : addrBit (padVec n d).toList k = addrBit d k := by
  unfold addrBit
  have : (padVec n d).toList.getD (k / 8) 0 = d.getD (k / 8) 0 := by
    rw [List.getD_eq_getElem?_getD, List.getD_eq_getElem?_getD, padVec_toList, List.getElem?_take]
    by_cases hk : k / 8 < n
    · rw [if_pos hk]
      by_cases hd : k / 8 < d.length
      · rw [List.getElem?_append_left hd]
      · rw [List.getElem?_append_right (by omega), List.getElem?_eq_none (l := d) (by omega), List.getElem?_replicate]
        split <;> rfl
    · rw [if_neg hk, List.getElem?_eq_none (by omega)]
  rw [this]

theorem length_maskOctets (b : UInt8) (d : Bytes) : (maskOctets b d).length = d.length := by
  unfold maskOctets; split <;> simp

theorem maskedPrefix_bits {afi : Afi} {d : Bytes} {b : UInt8} {p : IpNet} (h : maskedPrefix afi d b = .ok p)
    (hd : d.length = byteLen b) :
    (∀ k < p.len.toNat, addrBit p.addr.octets k = addrBit d k) ∧ NoHostBits p := by
  obtain ⟨hl, hf, hlen, hne⟩ := maskedPrefix_family h
  suffices H : ∀ k, addrBit p.addr.octets k = (decide (k < b.toNat) && addrBit d k) by
    rw [← hl] at H
    exact ⟨fun k hk => by rw [H]; simp [hk], fun k hk => by rw [H]; simp; omega⟩
  intro k
  rw [← addrBit_mask hd k]
  rw [hl] at hlen
  cases afi <;> simp only [maskedPrefix] at h
  · simp only [LenOk] at hlen
    have hb4 : byteLen b ≤ 4 := byteLen_le_of hlen
    split at h
    · rename_i q hq
      cases h
      simp only [IpNet.new?] at hq
      split at hq
      · cases hq; exact addrBit_pad (by rw [length_maskOctets]; omega) k
      · cases hq
    · cases h
  · simp only [LenOk] at hlen
    have hb4 : byteLen b ≤ 16 := byteLen_le_of hlen
    split at h
    · rename_i q hq
      cases h
      simp only [IpNet.new?] at hq
      split at hq
      · cases hq; exact addrBit_pad (by rw [length_maskOctets]; omega) k
      · cases hq
    · cases h
  · cases h

theorem labeledTail_sound {afi : Afi} {bits : UInt8} {used : Nat} {rest : Bytes} {p : IpNet}
    (h : labeledTail afi bits used rest = .ok p) :
    bits.toNat = used + p.len.toNat ∧ rest.length = byteLen p.len ∧ maskedPrefix afi rest p.len = .ok p ∧
      FamilyOk afi p.addr ∧ LenOk afi p.len ∧ afi ≠ .linkState := by
  simp only [labeledTail] at h
  split at h
  · cases h
  split at h
  · cases h
  split at h
  · cases h
  split at h
  · cases h
  rename_i h1 h2 h3 h4
  split at h
  · cases h
  rename_i q hq
  split at h
  · cases h
  rename_i h5
  cases h
  obtain ⟨e1, e2, e3, e4⟩ := maskedPrefix_family hq
  have hbits := bits.toNat_lt
  have hp : p.len.toNat = bits.toNat - used := by rw [e1]; simp; omega
  have h5 : rest.length = byteLen p.len := by rw [e1]; simp at h5; omega
  refine ⟨by omega, h5, ?_, e2, e3, e4⟩
  rw [← e1, ← h5, List.take_length] at hq
  exact hq

theorem labeledTail_noPanic (afi : Afi) (bits : UInt8) (used : Nat) (rest : Bytes) :
    labeledTail afi bits used rest ≠ .error .panic := by
  simp only [labeledTail]
  intro h
  split at h
  · cases h
  split at h
  · cases h
  split at h
  · cases h
  split at h
  · cases h
  split at h
  · rename_i e he
    cases h
    cases afi <;> simp only [maskedPrefix] at he
    · split at he <;> cases he
    · split at he <;> cases he
    · cases he
  split at h <;> cases h

/-! ### one NLRI -/

theorem labeledHead_noPanic (ap : Bool) : NoPanic (labeledHead ap) := by
  unfold labeledHead
  refine .bind ?_ fun _ => .bind (orErr_noPanic (by simp)) fun _ => .ite (fun _ => .fail (by simp)) fun _ =>
    .bind (orErr_noPanic (by simp)) fun _ => .pure _
  cases ap
  · exact .pure _
  · exact .bind (orErr_noPanic (by simp)) fun _ => .pure _

theorem labeledHead_enc {ap : Bool} {pid : Option UInt32} (hp : pid.isSome = ap) {bits : UInt8} (h24 : 24 ≤ bits.toNat)
    {view : Bytes} (hv : view.length = byteLen bits) (s : Bytes) :
    labeledHead ap (encPathId pid ++ [bits] ++ view ++ s) = .ok ((pid, bits, view), s) := by
  have hrest : (rdU8.orErr .truncatedLabeledNlri >>= fun bits' =>
      if bits'.toNat < 24 then Rd.fail .invalidLabeledNlriLength else do
      let view ← (rdN (byteLen bits')).orErr .truncatedLabeledNlri
      pure (pid, bits', view) : Rd _) ([bits] ++ view ++ s) = .ok ((pid, bits, view), s) := by
    rw [Rd.bind_ok (a := bits) (r := view ++ s) (orErr_ok.mpr (by simp))]
    rw [if_neg (by omega), Rd.bind_ok (orErr_ok.mpr (rdN_append' hv s))]
    rfl
  unfold labeledHead
  cases pid with
  | none =>
    subst hp
    simp only [encPathId, List.nil_append]
    exact hrest
  | some i =>
    subst hp
    have : (do let i ← rdU32.orErr .truncatedLabeledNlri; pure (some i) : Rd (Option UInt32))
        (encPathId (some i) ++ [bits] ++ view ++ s) = .ok (some i, [bits] ++ view ++ s) := by
      rw [Rd.bind_ok (a := i) (r := [bits] ++ view ++ s)]
      · rfl
      · apply orErr_ok.mpr; simp [encPathId]
    simp only [Option.isSome_some, if_true]
    rw [Rd.bind_ok this]
    exact hrest

theorem labeledHead_sound {ap : Bool} {s r : Bytes} {pid : Option UInt32} {bits : UInt8} {view : Bytes}
    (h : labeledHead ap s = .ok ((pid, bits, view), r)) :
    pid.isSome = ap ∧ s = encPathId pid ++ [bits] ++ view ++ r ∧ view.length = byteLen bits ∧ 24 ≤ bits.toNat := by
  unfold labeledHead at h
  rw [Rd.bind_eq_ok] at h; obtain ⟨pid', t1, h1, h⟩ := h
  rw [Rd.bind_eq_ok] at h; obtain ⟨b', t2, h2, h⟩ := h
  have h2 := rdU8_ok (orErr_ok.mp h2)
  subst h2
  by_cases hlt : b'.toNat < 24
  · rw [if_pos hlt] at h; simp at h
  rw [if_neg hlt] at h
  rw [Rd.bind_eq_ok] at h; obtain ⟨v', t3, h3, h⟩ := h
  cases h
  obtain ⟨rfl, hl⟩ := rdN_ok (orErr_ok.mp h3)
  cases ap with
  | false =>
    simp only [Bool.false_eq_true, if_false] at h1
    cases h1
    exact ⟨rfl, by simp [encPathId], hl, by omega⟩
  | true =>
    simp only [if_true] at h1
    rw [Rd.bind_eq_ok] at h1; obtain ⟨i, t, h4, h1⟩ := h1
    cases h1
    exact ⟨rfl, by rw [rdU32_ok (orErr_ok.mp h4)]; simp [encPathId], hl, by omega⟩

theorem byteLen_add (n : Nat) (len bits : UInt8) (h : bits.toNat = 24 * n + len.toNat) :
    byteLen bits = 3 * n + byteLen len := by
  unfold byteLen; omega

theorem rdLabeled_noPanic (afi : Afi) (cfg : LabelCfg) : NoPanic (rdLabeled afi cfg) := by
  refine .bind (labeledHead_noPanic _) fun ⟨pid, bits, view⟩ => ?_
  simp only
  cases h : rdLabelStack cfg view with
  | error e => exact .fail (by rintro rfl; exact rdLabelStack_noPanic cfg view h)
  | ok v =>
    obtain ⟨ls, rest⟩ := v
    simp only
    cases h2 : labeledTail afi bits (ls.length * 24) rest with
    | error e => exact .fail (by rintro rfl; exact labeledTail_noPanic _ _ _ _ h2)
    | ok p => exact .pure _

theorem rdLabeledWithdrawal_noPanic (afi : Afi) (ap : Bool) : NoPanic (rdLabeledWithdrawal afi ap) := by
  refine .bind (labeledHead_noPanic _) fun ⟨pid, bits, view⟩ => ?_
  simp only
  cases h : (rdN 3).orErr .truncatedLabeledNlri view with
  | error e => exact .fail (by rintro rfl; exact orErr_noPanic (by simp) view h)
  | ok v =>
    obtain ⟨ls, rest⟩ := v
    simp only
    cases h2 : labeledTail afi bits 24 rest with
    | error e => exact .fail (by rintro rfl; exact labeledTail_noPanic _ _ _ _ h2)
    | ok p => exact .pure _

/-- the bytes of a well-formed labelled prefix. -/
theorem encodeLabeled_ok {afi : Afi} {cfg : LabelCfg} {p : LabeledPrefix} (h : LabeledOk afi cfg p) :
    encodeLabeled p cfg.mode cfg.addPath cfg.peerMax =
      .ok (encPathId p.pathId ++ [UInt8.ofNat (p.labels.length * 24 + p.prefix_.len.toNat)] ++ encLabels p.labels ++
        netOctets p.prefix_) := by
  obtain ⟨pf, ls, pid⟩ := p
  obtain ⟨ap, mode, maxL, peer⟩ := cfg
  obtain ⟨hfam, hlen, hhost, hpath, hne, hlab, hfit, hmode⟩ := h
  simp only at *
  have hp : ¬ (pid.isSome = true ∧ ap = false) := by rw [hpath]; cases ap <;> simp
  unfold encodeLabeled
  simp only
  rw [if_neg hne, if_neg hp, if_neg (by omega)]
  cases mode with
  | single =>
    match ls, hmode with
    | [l], _ => simp [encLabels]
  | multi =>
    cases peer with
    | none => rfl
    | some m =>
      have := hmode.2 m rfl
      simp only
      rw [if_neg (by omega)]

theorem rdLabelStack_enc {afi : Afi} {cfg : LabelCfg} {p : LabeledPrefix} (h : LabeledOk afi cfg p) (s : Bytes) :
    rdLabelStack cfg (encLabels p.labels ++ s) = .ok (p.labels, s) := by
  obtain ⟨pf, ls, pid⟩ := p
  obtain ⟨ap, mode, maxL, peer⟩ := cfg
  obtain ⟨hfam, hlen, hhost, hpath, hne, hlab, hfit, hmode⟩ := h
  simp only at *
  cases mode with
  | single =>
    match ls, hmode with
    | [l], _ =>
      simp only [rdLabelStack, encLabels]
      rw [Rd.bind_ok (rdLabel_enc (hlab l (by simp)) true s)]
      rfl
  | multi =>
    simp only [rdLabelStack]
    exact rdLabels_enc ls _ 0 s hne hlab (by omega) (by omega) (fun m hm => by have := hmode.2 m hm; omega)

theorem rdLabeled_enc {afi : Afi} {cfg : LabelCfg} {p : LabeledPrefix} (h : LabeledOk afi cfg p) (s : Bytes) :
    rdLabeled afi cfg (encPathId p.pathId ++ [UInt8.ofNat (p.labels.length * 24 + p.prefix_.len.toNat)] ++
      encLabels p.labels ++ netOctets p.prefix_ ++ s) = .ok (p, s) := by
  have hst := rdLabelStack_enc h (netOctets p.prefix_)
  obtain ⟨hfam, hlen, hhost, hpath, hne, hlab, hfit, hmode⟩ := h
  have hpos : 0 < p.labels.length := by
    cases hl : p.labels with
    | nil => exact absurd hl hne
    | cons a b => simp
  have hbits : (UInt8.ofNat (p.labels.length * 24 + p.prefix_.len.toNat)).toNat =
      p.labels.length * 24 + p.prefix_.len.toNat := by simp; omega
  have hv : (encLabels p.labels ++ netOctets p.prefix_).length =
      byteLen (UInt8.ofNat (p.labels.length * 24 + p.prefix_.len.toNat)) := by
    rw [byteLen_add p.labels.length p.prefix_.len _ (by omega), List.length_append, length_encLabels,
      length_netOctets hfam.1 hlen]
  have hh := labeledHead_enc hpath (by omega) hv s
  unfold rdLabeled
  rw [show encPathId p.pathId ++ [UInt8.ofNat (p.labels.length * 24 + p.prefix_.len.toNat)] ++
      encLabels p.labels ++ netOctets p.prefix_ ++ s = encPathId p.pathId ++
      [UInt8.ofNat (p.labels.length * 24 + p.prefix_.len.toNat)] ++ (encLabels p.labels ++ netOctets p.prefix_) ++ s by
    simp only [List.append_assoc]]
  rw [Rd.bind_ok hh]
  simp only [hst]
  rw [labeledTail_enc hfam.1 hfam.2 hlen hhost (by omega)]
  rfl

theorem rdLabeledWithdrawal_enc {afi : Afi} {p : NetworkPrefix} (hf : FamilyOk afi p.prefix_.addr)
    (hne : afi ≠ .linkState) (hl : LenOk afi p.prefix_.len) (hh : NoHostBits p.prefix_) (c : Vector UInt8 3) (s : Bytes) :
    rdLabeledWithdrawal afi p.pathId.isSome (encPathId p.pathId ++ [UInt8.ofNat (24 + p.prefix_.len.toNat)] ++
      c.toList ++ netOctets p.prefix_ ++ s) = .ok (p, s) := by
  have hlen : p.prefix_.len.toNat ≤ 128 := by
    cases afi <;> simp [LenOk] at hl
    · omega
    · omega
    · simp [hl]
  have hbits : (UInt8.ofNat (24 + p.prefix_.len.toNat)).toNat = 24 + p.prefix_.len.toNat := by simp; omega
  have hv : (c.toList ++ netOctets p.prefix_).length = byteLen (UInt8.ofNat (24 + p.prefix_.len.toNat)) := by
    rw [byteLen_add 1 p.prefix_.len _ (by omega), List.length_append, length_netOctets hf hl]; simp
  have hhd := labeledHead_enc (pid := p.pathId) rfl (by omega) hv s
  unfold rdLabeledWithdrawal
  rw [show encPathId p.pathId ++ [UInt8.ofNat (24 + p.prefix_.len.toNat)] ++ c.toList ++ netOctets p.prefix_ ++ s =
      encPathId p.pathId ++ [UInt8.ofNat (24 + p.prefix_.len.toNat)] ++ (c.toList ++ netOctets p.prefix_) ++ s by
    simp only [List.append_assoc]]
  rw [Rd.bind_ok hhd]
  have h3 : (rdN 3).orErr .truncatedLabeledNlri (c.toList ++ netOctets p.prefix_) = .ok (c.toList, netOctets p.prefix_) :=
    orErr_ok.mpr (rdN_append' (by simp) _)
  simp only [h3]
  rw [labeledTail_enc hf hne hl hh (by omega)]
  rfl

theorem rdLabeled_sound {afi : Afi} {cfg : LabelCfg} {s r : Bytes} {p : LabeledPrefix}
    (h : rdLabeled afi cfg s = .ok (p, r)) :
    ∃ stack pfx : Bytes,
      s = encPathId p.pathId ++ [UInt8.ofNat (24 * p.labels.length + p.prefix_.len.toNat)] ++ stack ++ pfx ++ r ∧
      24 * p.labels.length + p.prefix_.len.toNat ≤ 255 ∧
      p.pathId.isSome = cfg.addPath ∧ FamilyOk afi p.prefix_.addr ∧ LenOk afi p.prefix_.len ∧ afi ≠ .linkState ∧
      maskedPrefix afi pfx p.prefix_.len = .ok p.prefix_ ∧ pfx.length = byteLen p.prefix_.len ∧
      match cfg.mode with
      | .single => ∃ l b, p.labels = [l] ∧ LabelBytes stack l b
      | .multi => StackBytes stack p.labels ∧ p.labels.length ≤ cfg.maxLabels.toNat ∧
          ∀ m, cfg.peerMax = some m → p.labels.length ≤ m.toNat := by
  unfold rdLabeled at h
  rw [Rd.bind_eq_ok] at h; obtain ⟨⟨pid, bits, view⟩, t, h1, h⟩ := h
  obtain ⟨hp, rfl, hv, h24⟩ := labeledHead_sound h1
  simp only at h
  cases h2 : rdLabelStack cfg view with
  | error e => rw [h2] at h; simp at h
  | ok v =>
    obtain ⟨ls, rest⟩ := v
    rw [h2] at h
    simp only at h
    cases h3 : labeledTail afi bits (ls.length * 24) rest with
    | error e => rw [h3] at h; simp at h
    | ok pf =>
      rw [h3] at h
      cases h
      obtain ⟨hb, hrl, hmp, hf, hl, hne⟩ := labeledTail_sound h3
      have hbl := bits.toNat_lt
      have hbits : bits = UInt8.ofNat (24 * ls.length + pf.len.toNat) := by
        apply UInt8.toNat_inj.mp; simp; omega
      cases hm : cfg.mode with
      | single =>
        simp only [rdLabelStack, hm] at h2
        rw [Rd.bind_eq_ok] at h2; obtain ⟨⟨l, b⟩, t', h4, h2⟩ := h2
        cases h2
        obtain ⟨tl, rfl, htl, hlb⟩ := rdLabel_sound h4
        exact ⟨tl, rest, by simp [hbits], by simp at hb ⊢; omega, hp, hf, hl, hne, hmp, hrl, l, b, rfl, hlb⟩
      | multi =>
        simp only [rdLabelStack, hm] at h2
        obtain ⟨tl, rfl, htl, hst, hmx, hpr⟩ := rdLabels_sound _ _ _ _ _ h2
        exact ⟨tl, rest, by simp [hbits], by simp at hb ⊢; omega, hp, hf, hl, hne, hmp, hrl, hst, by simpa using hmx,
          by simpa using hpr⟩

theorem rdLabeled_progress {afi : Afi} {cfg : LabelCfg} {s r : Bytes} {p : LabeledPrefix}
    (h : rdLabeled afi cfg s = .ok (p, r)) : r.length < s.length := by
  obtain ⟨st, pf, hs, _⟩ := rdLabeled_sound h
  rw [hs]; simp; omega

theorem rdLabeledWithdrawal_progress {afi : Afi} {ap : Bool} {s r : Bytes} {p : NetworkPrefix}
    (h : rdLabeledWithdrawal afi ap s = .ok (p, r)) : r.length < s.length := by
  unfold rdLabeledWithdrawal at h
  rw [Rd.bind_eq_ok] at h; obtain ⟨⟨pid, bits, view⟩, t, h1, h⟩ := h
  obtain ⟨hp, rfl, hv, h24⟩ := labeledHead_sound h1
  simp only at h
  split at h
  · simp at h
  split at h
  · simp at h
  cases h
  simp; omega

end Verif
