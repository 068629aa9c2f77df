import Verif.Lemmas.Bytes
import Verif.Spec.Nlri
/-
Helper lemmas for NLRI parsing.
-/
namespace Verif
open Spec

theorem NoPanic.rdAsn (l : AsnLen) : NoPanic (rdAsn l) := by
  cases l
  · exact .bind .rdU16 fun _ => .pure _
  · exact .rdU32

theorem NoPanic.rdAsnsLoop (l : AsnLen) (n : Nat) : NoPanic (rdAsnsLoop l n) := by
  induction n with
  | zero => exact .pure _
  | succ n ih => exact .bind (.rdAsn l) fun _ => .bind ih fun _ => .pure _

theorem NoPanic.rdAsns (l : AsnLen) (n : Nat) : NoPanic (rdAsns l n) :=
  .bind (.needN _) fun _ => .rdAsnsLoop l n

theorem NoPanic.rdAfi : NoPanic rdAfi := by
  refine .bind .rdU16 fun x => ?_
  cases Afi.ofU16? x
  · exact .fail (by simp)
  · exact .pure _

theorem NoPanic.rdSafi : NoPanic rdSafi := by
  refine .bind .rdU8 fun x => ?_
  cases Safi.ofU8? x
  · exact .fail (by simp)
  · exact .pure _

theorem NoPanic.rdAddr (a : Afi) : NoPanic (rdAddr a) := by
  intro s h
  cases a
  · simp only [Verif.rdAddr] at h; split at h <;> cases h
  · simp only [Verif.rdAddr] at h; split at h <;> cases h
  · cases h

@[simp] theorem afi_ofU16_toU16 (a : Afi) : Afi.ofU16? a.toU16 = some a := by cases a <;> decide
@[simp] theorem safi_ofU8_toU8 (a : Safi) : Safi.ofU8? a.toU8 = some a := by cases a <;> decide

@[simp] theorem rdAfi_enc (a : Afi) (s : Bytes) : rdAfi (be16 a.toU16 ++ s) = .ok (a, s) := by
  simp [rdAfi, Rd.bind_apply]
@[simp] theorem rdSafi_enc (a : Safi) (s : Bytes) : rdSafi (a.toU8 :: s) = .ok (a, s) := by
  simp [rdSafi, Rd.bind_apply]

@[simp] theorem rdV4_append (o : V4) (s : Bytes) : rdV4 (o.toList ++ s) = .ok (o, s) := rdVec_append o s
@[simp] theorem rdV6_append (o : V6) (s : Bytes) : rdV6 (o.toList ++ s) = .ok (o, s) := rdVec_append o s

theorem rdAddr_octets (a : Ip) (s : Bytes) : rdAddr a.afi (a.octets ++ s) = .ok (a, s) := by
  cases a <;> simp [rdAddr, Ip.afi, Ip.octets]

theorem rdAsn_enc (l : AsnLen) (a : Asn) (s : Bytes) (h : l = .b16 → a.toNat < 65536) :
    rdAsn l (encAsn l a ++ s) = .ok (a, s) := by
  cases l
  · simp only [rdAsn, encAsn, Rd.bind_apply, rdU16_be16, Rd.pure_apply]
    congr 2
    apply UInt32.toNat_inj.mp
    have := h rfl
    simp; omega
  · simp [rdAsn, encAsn]

@[simp] theorem length_encAsn (l : AsnLen) (a : Asn) : (encAsn l a).length = l.bytes := by
  cases l <;> rfl

/-! ### padding -/

theorem padVec_toList (n : Nat) (bs : Bytes) : (padVec n bs).toList = (bs ++ List.replicate n 0).take n := by
  simp [padVec]

theorem padVec_take {n k : Nat} (v : Vector UInt8 n) (hk : k ≤ n)
    (hz : ∀ i, k ≤ i → ∀ h : i < v.toList.length, v.toList[i] = 0) : padVec n (v.toList.take k) = v := by
  apply Vector.toList_inj.mp
  rw [padVec_toList]
  apply List.ext_getElem
  · simp
  · intro i h1 h2
    have hin : i < n := by simpa using h2
    rw [List.getElem_take]
    by_cases hik : i < k
    · rw [List.getElem_append_left (by simp; omega)]
      simp
    · rw [List.getElem_append_right (by simp; omega)]
      rw [hz i (by omega) h2]
      simp

theorem padVec_toList_take {n : Nat} (bs : Bytes) (h : bs.length ≤ n) :
    (padVec n bs).toList.take bs.length = bs := by
  rw [padVec_toList, List.take_take, Nat.min_eq_left h, List.take_append_of_le_length (Nat.le_refl _)]
  simp

theorem v4zero_get (i : Nat) (h : i < v4zero.toList.length) : v4zero.toList[i] = 0 := by
  have : v4zero.toList = List.replicate 4 0 := rfl
  simp only [this, List.getElem_replicate]

/-! ### one prefix -/

theorem byteLen_le_of {b : UInt8} {n : Nat} (h : b.toNat ≤ 8 * n) : byteLen b ≤ n := by
  unfold byteLen; omega

theorem tryParsePrefix_noPanic (afi : Afi) (ap : Bool) : NoPanic (tryParsePrefix afi ap) := by
  unfold tryParsePrefix
  refine .bind ?_ fun pid => .bind .rdU8 fun bl => .ite (fun _ => .fail (by simp)) fun hbl => .bind ?_ fun a => ?_
  · cases ap
    · exact .pure _
    · exact .bind .rdU32 fun _ => .pure _
  · cases afi
    · exact .ite (fun _ => .fail (by simp)) fun _ => .bind (.rdN _) fun _ => .pure _
    · exact .ite (fun _ => .fail (by simp)) fun _ => .bind (.rdN _) fun _ => .pure _
    · have h0 : byteLen bl = 0 := by
        simp [Afi.maxBits] at hbl
        simp [byteLen, hbl]
      refine .bind ?_ fun _ => .pure _
      intro s h
      simp [advance, h0] at h
  · cases IpNet.new? a bl
    · exact .fail (by simp)
    · exact .pure _

private theorem tryParsePrefix_decodes {afi : Afi} {ap : Bool} {p : NetworkPrefix} (h : PrefixOk afi ap p) (s : Bytes) :
    tryParsePrefix afi ap (p.encode ++ s) = .ok (p, s) := by
  obtain ⟨⟨addr, len⟩, pid⟩ := p
  obtain ⟨hf, hl, ht, hp⟩ := h
  simp only at hf hl ht hp
  have hrest : ∀ t, (rdU8 >>= fun bitLen =>
      if bitLen.toNat > afi.maxBits then Rd.fail .parse else do
      let addr ← (match afi with
        | .ipv4 => do
          if byteLen bitLen > 4 then Rd.fail .parse else do
          let bs ← rdN (byteLen bitLen)
          pure (Ip.v4 (padVec 4 bs))
        | .ipv6 => do
          if byteLen bitLen > 16 then Rd.fail .parse else do
          let bs ← rdN (byteLen bitLen)
          pure (Ip.v6 (padVec 16 bs))
        | .linkState => do
          advance (byteLen bitLen)
          pure (Ip.v4 v4zero) : Rd Ip)
      match IpNet.new? addr bitLen with
      | some p => pure ⟨p, pid⟩
      | none => Rd.fail .parse : Rd NetworkPrefix) ((len :: addr.octets.take (byteLen len)) ++ t)
      = .ok (⟨⟨addr, len⟩, pid⟩, t) := by
    intro t
    cases afi with
    | ipv4 =>
      cases addr with
      | v6 o => simp [FamilyOk] at hf
      | v4 o =>
        simp only [LenOk] at hl
        have hb : byteLen len ≤ 4 := byteLen_le_of hl
        have hn : ¬ len.toNat > Afi.ipv4.maxBits := by simp [Afi.maxBits]; omega
        have hpad : padVec 4 (o.toList.take (byteLen len)) = o := padVec_take o hb (by
          intro i hi h
          exact ht i (by unfold byteLen at hi; simp only; omega) h)
        have hlen : (o.toList.take (byteLen len)).length = byteLen len := by simp; omega
        rw [List.cons_append, Rd.bind_ok (rdU8_cons _ _), if_neg hn]
        simp only [Ip.octets]
        rw [Rd.bind_ok (a := Ip.v4 o) (r := t)]
        · simp [IpNet.new?, Ip.maxLen, hl]
        · rw [if_neg (by omega), Rd.bind_ok (rdN_append' hlen t), hpad]; rfl
    | ipv6 =>
      cases addr with
      | v4 o => simp [FamilyOk] at hf
      | v6 o =>
        simp only [LenOk] at hl
        have hb : byteLen len ≤ 16 := byteLen_le_of hl
        have hn : ¬ len.toNat > Afi.ipv6.maxBits := by simp [Afi.maxBits]; omega
        have hpad : padVec 16 (o.toList.take (byteLen len)) = o := padVec_take o hb (by
          intro i hi h
          exact ht i (by unfold byteLen at hi; simp only; omega) h)
        have hlen : (o.toList.take (byteLen len)).length = byteLen len := by simp; omega
        rw [List.cons_append, Rd.bind_ok (rdU8_cons _ _), if_neg hn]
        simp only [Ip.octets]
        rw [Rd.bind_ok (a := Ip.v6 o) (r := t)]
        · simp [IpNet.new?, Ip.maxLen, hl]
        · rw [if_neg (by omega), Rd.bind_ok (rdN_append' hlen t), hpad]; rfl
    | linkState =>
      cases addr with
      | v6 o => simp [FamilyOk] at hf
      | v4 o =>
        simp only [FamilyOk] at hf
        simp only [LenOk] at hl
        subst hf; subst hl
        simp [byteLen, Rd.bind_apply, Afi.maxBits, advance, IpNet.new?, Ip.maxLen]
  unfold tryParsePrefix
  cases ap with
  | false =>
    cases pid with
    | some i => simp at hp
    | none =>
      simp only [NetworkPrefix.encode, encPathId, List.nil_append]
      exact hrest s
  | true =>
    cases pid with
    | none => simp at hp
    | some i =>
      simp only [NetworkPrefix.encode, encPathId, List.append_assoc]
      rw [Rd.bind_ok (a := some i) (r := (len :: addr.octets.take (byteLen len)) ++ s)]
      · exact hrest s
      · simp [Rd.bind_apply]

theorem tryParsePrefix_encode {afi : Afi} {ap : Bool} {p : NetworkPrefix} (h : PrefixOk afi ap p) (s : Bytes) :
    tryParsePrefix afi ap (p.encode ++ s) = .ok (p, s) := tryParsePrefix_decodes h s

theorem rdN_ok {n : Nat} {s a r : Bytes} (h : rdN n s = .ok (a, r)) : s = a ++ r ∧ a.length = n := by
  simp only [rdN] at h
  split at h
  · cases h
  · cases h; simp; omega

theorem rdU8_ok {s r : Bytes} {a : UInt8} (h : rdU8 s = .ok (a, r)) : s = a :: r := by
  cases s with
  | nil => cases h
  | cons x s => cases h; rfl

theorem rdU16_ok {s r : Bytes} {a : UInt16} (h : rdU16 s = .ok (a, r)) : s = be16 a ++ r := by
  simp only [rdU16] at h
  split at h
  · cases h; rw [be16_u16of]; rfl
  · cases h

theorem rdU32_ok {s r : Bytes} {a : UInt32} (h : rdU32 s = .ok (a, r)) : s = be32 a ++ r := by
  simp only [rdU32] at h
  split at h
  · cases h; rw [be32_u32of]; rfl
  · cases h

theorem rdVec_ok {n : Nat} {s r : Bytes} {a : Vector UInt8 n} (h : rdVec n s = .ok (a, r)) : s = a.toList ++ r := by
  simp only [rdVec] at h
  split at h
  · cases h
  · cases h; simp

theorem padVec_tailZero {n : Nat} (bs : Bytes) (i : Nat) (hi : bs.length ≤ i) (h : i < (padVec n bs).toList.length) :
    (padVec n bs).toList[i] = 0 := by
  have hn : i < n := by simpa using h
  simp only [padVec_toList]
  rw [List.getElem_take, List.getElem_append_right hi]
  simp

/-- Whatever `tryParsePrefix` accepts is the encoding of the prefix it returns. -/
theorem tryParsePrefix_sound {afi : Afi} {ap : Bool} {s r : Bytes} {p : NetworkPrefix}
    (h : tryParsePrefix afi ap s = .ok (p, r)) : PrefixOk afi ap p ∧ s = p.encode ++ r := by
  unfold tryParsePrefix at h
  rw [Rd.bind_eq_ok] at h; obtain ⟨pid, t1, h1, h⟩ := h
  rw [Rd.bind_eq_ok] at h; obtain ⟨bl, t2, h2, h⟩ := h
  have h2' := rdU8_ok h2
  subst h2'
  have hpid : pid.isSome = ap ∧ s = encPathId pid ++ (bl :: t2) := by
    cases ap with
    | false => simp at h1; obtain ⟨rfl, rfl⟩ := h1; simp [encPathId]
    | true =>
      simp only [if_true] at h1
      obtain ⟨i, t, h3, h4⟩ := Rd.bind_eq_ok.mp h1
      cases h4
      exact ⟨rfl, rdU32_ok h3⟩
  by_cases hmax : bl.toNat > afi.maxBits
  · rw [if_pos hmax] at h; simp at h
  rw [if_neg hmax] at h
  rw [Rd.bind_eq_ok] at h; obtain ⟨a, t3, h3, h⟩ := h
  cases hnew : IpNet.new? a bl with
  | none => rw [hnew] at h; simp at h
  | some pf =>
    rw [hnew] at h
    cases h
    simp only [IpNet.new?] at hnew
    split at hnew
    · cases hnew
      rw [hpid.2]
      cases afi with
      | ipv4 =>
        simp only [Afi.maxBits] at hmax
        have hb : byteLen bl ≤ 4 := byteLen_le_of (by omega)
        simp only at h3
        rw [if_neg (by omega)] at h3
        obtain ⟨bs, t, h5, h6⟩ := Rd.bind_eq_ok.mp h3
        cases h6
        obtain ⟨rfl, hlen⟩ := rdN_ok h5
        refine ⟨⟨trivial, ?_, ?_, hpid.1⟩, ?_⟩
        · simp only [LenOk]; omega
        · intro i hi h
          exact padVec_tailZero bs i (by rw [hlen]; unfold byteLen; simp only at hi; omega) h
        · have := padVec_toList_take (n := 4) bs (by omega)
          simp only [NetworkPrefix.encode, Ip.octets, List.append_assoc, List.cons_append]
          rw [← hlen, this]
      | ipv6 =>
        simp only [Afi.maxBits] at hmax
        have hb : byteLen bl ≤ 16 := byteLen_le_of (by omega)
        simp only at h3
        rw [if_neg (by omega)] at h3
        obtain ⟨bs, t, h5, h6⟩ := Rd.bind_eq_ok.mp h3
        cases h6
        obtain ⟨rfl, hlen⟩ := rdN_ok h5
        refine ⟨⟨trivial, ?_, ?_, hpid.1⟩, ?_⟩
        · simp only [LenOk]; omega
        · intro i hi h
          exact padVec_tailZero bs i (by rw [hlen]; unfold byteLen; simp only at hi; omega) h
        · have := padVec_toList_take (n := 16) bs (by omega)
          simp only [NetworkPrefix.encode, Ip.octets, List.append_assoc, List.cons_append]
          rw [← hlen, this]
      | linkState =>
        simp only [Afi.maxBits] at hmax
        have hz : bl = 0 := by apply UInt8.toNat_inj.mp; simp; omega
        subst hz
        simp [byteLen, advance, Rd.bind_apply] at h3
        obtain ⟨rfl, rfl⟩ := h3
        refine ⟨⟨rfl, rfl, ?_, hpid.1⟩, ?_⟩
        · intro i hi h
          exact v4zero_get i h
        · simp [NetworkPrefix.encode, byteLen]
    · cases hnew

theorem encode_length_pos (p : NetworkPrefix) : 0 < p.encode.length := by
  obtain ⟨⟨a, l⟩, pid⟩ := p
  cases pid <;> simp [NetworkPrefix.encode, encPathId] <;> omega

/-- The list parser on anything it accepts: re-encoding gives the input back, every prefix is valid, and with Add-Path
every prefix has a path id. -/
theorem nlriLoop_sound {afi : Afi} {ap : Bool} :
    ∀ (fuel : Nat) (cur heur : Bool) (s : Bytes) (ps : List NetworkPrefix), (ap = true → cur = true) →
      nlriLoop afi ap fuel cur heur s = .ok ps →
      encodeNlri ps = s ∧ ∀ p ∈ ps, PrefixOk afi p.pathId.isSome p ∧ (ap = true → p.pathId.isSome = true) := by
  intro fuel
  induction fuel with
  | zero =>
    intro cur heur s ps hc h
    cases s with
    | nil => simp [nlriLoop] at h; subst h; simp [encodeNlri]
    | cons b bs => simp [nlriLoop] at h
  | succ fuel ih =>
    intro cur heur s ps hc h
    cases s with
    | nil => simp [nlriLoop] at h; subst h; simp [encodeNlri]
    | cons b bs =>
      simp only [nlriLoop] at h
      generalize hcur : (cur || (!cur && (b == 0))) = cur' at h
      generalize (heur || (!cur && (b == 0))) = heur' at h
      have hc' : ap = true → cur' = true := by
        intro h; rw [← hcur, hc h]; rfl
      cases h1 : tryParsePrefix afi cur' (b :: bs) with
      | ok v =>
        obtain ⟨p, r⟩ := v
        rw [h1] at h
        simp only at h
        cases h2 : nlriLoop afi ap fuel cur' heur' r with
        | error e => rw [h2] at h; cases h
        | ok ps' =>
          rw [h2] at h
          cases h
          obtain ⟨hok, hs⟩ := tryParsePrefix_sound h1
          obtain ⟨he, hall⟩ := ih _ _ _ _ hc' h2
          refine ⟨?_, ?_⟩
          · rw [hs, ← he]; simp [encodeNlri]
          · intro q hq
            rcases List.mem_cons.mp hq with rfl | hq
            · refine ⟨?_, ?_⟩
              · rw [hok.path]; exact hok
              · intro hap; rw [hok.path]; exact hc' hap
            · exact hall q hq
      | error e =>
        rw [h1] at h
        simp only at h
        cases heur' with
        | false => simp at h
        | true =>
          simp only [if_true] at h
          cases h3 : tryParsePrefix afi ap (b :: bs) with
          | error e => rw [h3] at h; simp at h
          | ok v =>
            obtain ⟨p, r⟩ := v
            rw [h3] at h
            simp only at h
            cases h2 : nlriLoop afi ap fuel ap false r with
            | error e => rw [h2] at h; cases h
            | ok ps' =>
              rw [h2] at h
              cases h
              obtain ⟨hok, hs⟩ := tryParsePrefix_sound h3
              obtain ⟨he, hall⟩ := ih _ _ _ _ (fun h => h) h2
              refine ⟨?_, ?_⟩
              · rw [hs, ← he]; simp [encodeNlri]
              · intro q hq
                rcases List.mem_cons.mp hq with rfl | hq
                · refine ⟨?_, ?_⟩
                  · rw [hok.path]; exact hok
                  · intro hap; rw [hok.path]; exact hap
                · exact hall q hq

theorem nlriLoop_noPanic {afi : Afi} {ap : Bool} :
    ∀ (fuel : Nat) (cur heur : Bool) (s : Bytes), s.length ≤ fuel → nlriLoop afi ap fuel cur heur s ≠ .error .panic := by
  intro fuel
  induction fuel with
  | zero =>
    intro cur heur s hs h
    cases s with
    | nil => simp [nlriLoop] at h
    | cons b bs => simp at hs
  | succ fuel ih =>
    intro cur heur s hs h
    cases s with
    | nil => simp [nlriLoop] at h
    | cons b bs =>
      simp only [nlriLoop] at h
      generalize (cur || (!cur && (b == 0))) = cur' at h
      generalize (heur || (!cur && (b == 0))) = heur' at h
      have key : ∀ c p r, tryParsePrefix afi c (b :: bs) = .ok (p, r) → r.length ≤ fuel := by
        intro c p r h1
        obtain ⟨_, hs'⟩ := tryParsePrefix_sound h1
        have := congrArg List.length hs'
        have hp := encode_length_pos p
        simp at this hs
        omega
      cases h1 : tryParsePrefix afi cur' (b :: bs) with
      | ok v =>
        obtain ⟨p, r⟩ := v
        rw [h1] at h
        simp only at h
        cases h2 : nlriLoop afi ap fuel cur' heur' r with
        | error e =>
          rw [h2] at h
          have : e = .panic := by injection h
          subst this
          exact ih _ _ _ (key _ _ _ h1) h2
        | ok ps' => rw [h2] at h; cases h
      | error e =>
        rw [h1] at h
        simp only at h
        have he : e ≠ .panic := by
          intro he; subst he; exact tryParsePrefix_noPanic _ _ _ h1
        cases heur' with
        | false => simp at h; exact he h
        | true =>
          simp only [if_true] at h
          cases h3 : tryParsePrefix afi ap (b :: bs) with
          | error e' =>
            rw [h3] at h
            have : e' = .panic := by injection h
            subst this
            exact tryParsePrefix_noPanic _ _ _ h3
          | ok v =>
            obtain ⟨p, r⟩ := v
            rw [h3] at h
            simp only at h
            cases h2 : nlriLoop afi ap fuel ap false r with
            | error e =>
              rw [h2] at h
              have : e = .panic := by injection h
              subst this
              exact ih _ _ _ (key _ _ _ h3) h2
            | ok ps' => rw [h2] at h; cases h

/-- Parsing an encoded list, from a state in which no guess is pending. -/
theorem nlriLoop_encode {afi : Afi} {ap : Bool} :
    ∀ (ps : List NetworkPrefix) (fuel : Nat), (encodeNlri ps).length ≤ fuel →
      (∀ p ∈ ps, PrefixOk afi ap p ∧ (ap = false → p.prefix_.len ≠ 0)) →
      nlriLoop afi ap fuel ap false (encodeNlri ps) = .ok ps := by
  intro ps
  induction ps with
  | nil => intro fuel _ _; cases fuel <;> simp [encodeNlri, nlriLoop]
  | cons p ps ih =>
    intro fuel hf hall
    obtain ⟨hok, hz⟩ := hall p (by simp)
    have henc : encodeNlri (p :: ps) = p.encode ++ encodeNlri ps := by simp [encodeNlri]
    rw [henc] at hf ⊢
    have hpos := encode_length_pos p
    obtain ⟨b, bs, hb⟩ : ∃ b bs, p.encode = b :: bs := by
      cases h : p.encode with
      | nil => simp [h] at hpos
      | cons b bs => exact ⟨b, bs, rfl⟩
    have hg : (!ap && (b == 0)) = false := by
      cases ap with
      | true => rfl
      | false =>
        have hpid := hok.path
        have hne := hz rfl
        obtain ⟨⟨a, l⟩, pid⟩ := p
        cases pid with
        | some i => simp at hpid
        | none =>
          simp [NetworkPrefix.encode, encPathId] at hb
          simp at hne ⊢
          rw [← hb.1]; exact hne
    cases fuel with
    | zero => rw [hb] at hf; simp at hf
    | succ fuel =>
      have hparse := tryParsePrefix_encode hok (encodeNlri ps)
      rw [hb, List.cons_append] at hparse ⊢
      simp only [nlriLoop, hg, Bool.or_false]
      rw [hparse]
      simp only
      rw [ih fuel (by rw [hb] at hf; simp at hf; omega) (fun q hq => hall q (by simp [hq]))]
      rfl

end Verif
