import Verif.Spec.AttrLayout
import Verif.Props.Attr
import Verif.Lemmas.Exact
import Verif.Lemmas.Capability
/-
C56: attribute codes and layouts.
-/
namespace Verif.Props
open Spec

/-! ### blocks -/

theorem encAll_blocks {f : α → Except EncErr Bytes} (xs : List α) (b : Bytes) :
    encAll f xs = .ok b ↔ Blocks (fun x c => f x = .ok c) xs b := by
  induction xs generalizing b with
  | nil =>
    constructor
    · intro h; cases h; exact .nil
    · intro h; cases h; rfl
  | cons x xs ih =>
    constructor
    · intro h
      obtain ⟨c, d, h1, h2, rfl⟩ := encAll_cons_ok.mp h
      exact .cons h1 ((ih d).mp h2)
    · intro h
      cases h with
      | cons h1 h2 => exact encAll_cons_ok.mpr ⟨_, _, h1, (ih _).mpr h2, rfl⟩

theorem Blocks_congr {R S : α → Bytes → Prop} {xs : List α} {b : Bytes} (h : ∀ x ∈ xs, ∀ c, R x c ↔ S x c) :
    Blocks R xs b ↔ Blocks S xs b := by
  induction xs generalizing b with
  | nil =>
    constructor <;> (intro h; cases h; exact .nil)
  | cons x xs ih =>
    constructor
    · intro hb
      cases hb with
      | cons h1 h2 => exact .cons ((h x (by simp) _).mp h1) ((ih fun y hy => h y (by simp [hy])).mp h2)
    · intro hb
      cases hb with
      | cons h1 h2 => exact .cons ((h x (by simp) _).mpr h1) ((ih fun y hy => h y (by simp [hy])).mpr h2)

theorem flatMap_blocks {f : α → Bytes} (xs : List α) (b : Bytes) : xs.flatMap f = b ↔ Blocks (fun x c => c = f x) xs b := by
  constructor
  · rintro rfl
    exact Blocks_flatMap _ fun _ _ => rfl
  · intro h
    induction h with
    | nil => rfl
    | cons h _ ih => rw [List.flatMap_cons, ih, h]

theorem encAll_iff {f : α → Except EncErr Bytes} {R : α → Bytes → Prop} (xs : List α) (b : Bytes)
    (h : ∀ x ∈ xs, ∀ c, f x = .ok c ↔ R x c) : encAll f xs = .ok b ↔ Blocks R xs b := by
  rw [encAll_blocks]; exact Blocks_congr h

theorem flatMap_iff {f : α → Bytes} {R : α → Bytes → Prop} (xs : List α) (b : Bytes)
    (h : ∀ x ∈ xs, ∀ c, c = f x ↔ R x c) : (.ok (xs.flatMap f) : Except EncErr Bytes) = .ok b ↔ Blocks R xs b := by
  rw [Except.ok.injEq, flatMap_blocks]; exact Blocks_congr h

/-! ### numbers -/

theorem be16_low (a : UInt32) : be16 a.toUInt16 = n16 a.toNat := by
  rw [be16_n16]
  unfold n16
  congr 1
  · apply UInt8.toNat_inj.mp; simp; omega
  · congr 1; apply UInt8.toNat_inj.mp; simp

theorem encAsn_bytes (l : AsnLen) (a : Asn) : encAsn l a = asnBytes l a := by
  cases l
  · exact be16_low a
  · exact be32_n32 a

theorem len8_iff {v c : Bytes} : u8Len v = .ok c ↔ Len8 v c := by
  rw [u8Len_ok]; unfold Len8; constructor <;> (rintro ⟨h, e⟩; exact ⟨by omega, e⟩)

theorem len16_iff {v c : Bytes} : u16Len v = .ok c ↔ Len16 v c := by
  rw [u16Len_ok]
  unfold Len16
  constructor
  · rintro ⟨h, e⟩; refine ⟨by omega, ?_⟩; rw [e, be16_n16, toNat_u16len h]
  · rintro ⟨h, e⟩; refine ⟨by omega, ?_⟩; rw [e, be16_n16, toNat_u16len (by omega)]

/-! ### values -/

theorem asPath_bytes (l : AsnLen) (p : AsPath) (b : Bytes) : encodeAsPath l p = .ok b ↔ Blocks (SegBytes l) p b := by
  have e : ∀ s : Seg, s.asns = segMembers s := fun s => by cases s <;> rfl
  have ec : ∀ s : Seg, s.code = segType s := fun s => by cases s <;> rfl
  have ef : ∀ (xs : List Asn), xs.flatMap (encAsn l) = xs.flatMap (asnBytes l) := by
    intro xs; congr 1; funext a; exact encAsn_bytes l a
  have es : ∀ s : Seg, segEnc l s = [segType s, UInt8.ofNat (segMembers s).length] ++ (segMembers s).flatMap (asnBytes l) := by
    intro s; unfold segEnc; rw [e, ec, ef]; rfl
  rw [encodeAsPath_ok]
  have hf : ∀ s : Seg, SegFits l s ↔ (segMembers s).length < 256 ∧ ∀ a ∈ segMembers s, AsnFits l a := by
    intro s
    unfold SegFits AsnFits
    rw [e]
    constructor
    · rintro ⟨h1, h2⟩; exact ⟨by omega, fun a ha hl => by have := h2 hl a ha; omega⟩
    · rintro ⟨h1, h2⟩; exact ⟨by omega, fun hl a ha => by have := h2 a ha hl; omega⟩
  constructor
  · rintro ⟨h1, rfl⟩
    refine Blocks_flatMap _ fun s hs => ?_
    exact ⟨((hf s).mp (h1 s hs)).1, ((hf s).mp (h1 s hs)).2, es s⟩
  · intro h
    induction h with
    | nil => exact ⟨by simp, rfl⟩
    | @cons s p c b h _ ih =>
      obtain ⟨h1, h2⟩ := ih
      obtain ⟨g1, g2, rfl⟩ := h
      refine ⟨?_, by rw [List.flatMap_cons, ← h2, es]⟩
      intro x hx
      rcases List.mem_cons.mp hx with rfl | hx
      · exact (hf _).mpr ⟨g1, g2⟩
      · exact h1 x hx

theorem tlv16_bytes (t : Tlv16) (c : Bytes) : encTlv16 t = .ok c ↔ Tlv16Bytes t c := by
  unfold encTlv16 Tlv16Bytes
  cases h : u16Len t.value with
  | error e =>
    simp only [reduceCtorEq, false_iff]
    rintro ⟨v, hv, _⟩
    rw [← len16_iff, h] at hv; cases hv
  | ok v =>
    simp only [Except.ok.injEq, be16_n16]
    constructor
    · rintro rfl; exact ⟨v, len16_iff.mp h, rfl⟩
    · rintro ⟨w, hw, rfl⟩
      rw [← len16_iff, h] at hw; cases hw; rfl

theorem tlv8ext_bytes (t : Tlv8) (c : Bytes) : encTlv8Ext t = .ok c ↔ Tlv8Len16Bytes t c := by
  unfold encTlv8Ext Tlv8Len16Bytes
  cases h : u16Len t.value with
  | error e =>
    simp only [reduceCtorEq, false_iff]
    rintro ⟨v, hv, _⟩
    rw [← len16_iff, h] at hv; cases hv
  | ok v =>
    simp only [Except.ok.injEq]
    constructor
    · rintro rfl; exact ⟨v, len16_iff.mp h, rfl⟩
    · rintro ⟨w, hw, rfl⟩
      rw [← len16_iff, h] at hw; cases hw; rfl

theorem tlv8_bytes (t : Tlv8) (c : Bytes) : encTlv8 t = .ok c ↔ Tlv8Bytes t c := by
  unfold encTlv8 Tlv8Bytes
  cases h : u8Len t.value with
  | error e =>
    simp only [reduceCtorEq, false_iff]
    rintro ⟨v, hv, _⟩
    rw [← len8_iff, h] at hv; cases hv
  | ok v =>
    simp only [Except.ok.injEq]
    constructor
    · rintro rfl; exact ⟨v, len8_iff.mp h, rfl⟩
    · rintro ⟨w, hw, rfl⟩
      rw [← len8_iff, h] at hw; cases hw; rfl

theorem subTlv_bytes (t : Tlv8) (c : Bytes) : encSubTlv t = .ok c ↔ SubTlvBytes t c := by
  unfold SubTlvBytes
  by_cases h : t.type.toNat < 128
  · rw [if_pos h, ← tlv8_bytes]; unfold encSubTlv encTlv8; rw [if_pos h]
  · rw [if_neg h, ← tlv8ext_bytes]; unfold encSubTlv encTlv8Ext; rw [if_neg h]

theorem tunnel_bytes (t : TunnelTlv) (c : Bytes) : encTunnelTlv t = .ok c ↔ TunnelBytes t c := by
  unfold encTunnelTlv TunnelBytes
  have hi := fun s => encAll_iff (f := encSubTlv) (R := SubTlvBytes) t.subs s (fun x _ c => subTlv_bytes x c)
  cases h : encAll encSubTlv t.subs with
  | error e =>
    simp only [reduceCtorEq, false_iff]
    rintro ⟨s, v, hs, _⟩
    rw [← hi, h] at hs; cases hs
  | ok s =>
    simp only
    have hs := (hi s).mp h
    have huniq : ∀ s', Blocks SubTlvBytes t.subs s' → s' = s := by
      intro s' hs'
      rw [← hi, h] at hs'; cases hs'; rfl
    cases h2 : u16Len s with
    | error e =>
      simp only [reduceCtorEq, false_iff]
      rintro ⟨s', v, hs', hv, _⟩
      rw [huniq s' hs', ← len16_iff, h2] at hv; cases hv
    | ok v =>
      simp only [Except.ok.injEq, be16_n16]
      constructor
      · rintro rfl; exact ⟨s, v, hs, len16_iff.mp h2, rfl⟩
      · rintro ⟨s', w, hs', hw, rfl⟩
        rw [huniq s' hs', ← len16_iff, h2] at hw; cases hw; rfl

theorem bfd_bytes (x : Bfd) (b : Bytes) :
    encodeBfd x = .ok b ↔ ∃ w, Blocks Tlv8Bytes x.tlvs w ∧ b = [x.mode] ++ n32 x.disc.toNat ++ w := by
  unfold encodeBfd
  have hi := fun s => encAll_iff (f := encTlv8) (R := Tlv8Bytes) x.tlvs s (fun x _ c => tlv8_bytes x c)
  cases h : encAll encTlv8 x.tlvs with
  | error e =>
    simp only [reduceCtorEq, false_iff]
    rintro ⟨s, hs, _⟩
    rw [← hi, h] at hs; cases hs
  | ok s =>
    simp only [Except.ok.injEq, be32_n32]
    constructor
    · rintro rfl; exact ⟨s, (hi s).mp h, by simp⟩
    · rintro ⟨s', hs', rfl⟩
      rw [← hi, h] at hs'; cases hs'; simp

theorem community_bytes (c : Community) (b : Bytes) : b = encCommunity c ↔ CommunityBytes c b := by
  unfold CommunityBytes
  cases c with
  | custom a v => simp only [encCommunity, be16_low, be16_n16 v]
  | _ => exact Iff.rfl

theorem large_bytes (c : LargeCommunity) (b : Bytes) : b = encLarge c ↔ LargeBytes c b := by
  unfold LargeBytes encLarge
  simp only [be32_n32]

theorem ext_bytes (c : ExtCommunity) (b : Bytes) : b = encExt c ↔ ExtBytes c b := by
  unfold ExtBytes
  cases c with
  | trafficAction a t s => cases t <;> cases s <;> (simp only [encExt, be16_n16]; exact Iff.rfl)
  | linkBandwidth g w t => cases t <;> (simp only [encExt, be16_n16, be32_n32]; exact Iff.rfl)
  | _ => simp only [encExt, be16_low] <;> (try simp only [be16_n16, be32_n32]) <;> exact Iff.rfl

theorem ipv6ext_bytes (c : Ipv6ExtCommunity) (b : Bytes) : b = encIpv6Ext c ↔ Ipv6ExtBytes c b := by
  unfold Ipv6ExtBytes encIpv6Ext
  obtain ⟨t, s, a, l⟩ := c
  cases t <;> exact Iff.rfl

theorem path_bytes (p : Option UInt32) : encPathId p = match p with | some i => n32 i.toNat | none => [] := by
  cases p with
  | none => rfl
  | some i => exact be32_n32 i

theorem prefix_bytes (p : NetworkPrefix) (b : Bytes) : b = p.encode ↔ NlriBytes p b := by
  unfold NlriBytes NetworkPrefix.encode
  rw [path_bytes]
  cases p.pathId <;> simp [byteLen]

theorem label_bytes {l : Label} (h : l.toNat < 2 ^ 20) (b : Bool) : encLabel l b = labelBytes l b := by
  rw [encLabel_eq h]
  cases b <;> rfl

theorem stack_bytes : ∀ (ls : List Label), (∀ l ∈ ls, l.toNat < 2 ^ 20) → encLabels ls = stackBytes ls
  | [], _ => rfl
  | [l], h => label_bytes (h l (by simp)) true
  | l :: m :: ls, h => by
    show encLabel l false ++ encLabels (m :: ls) = labelBytes l false ++ stackBytes (m :: ls)
    rw [label_bytes (h l (by simp)), stack_bytes (m :: ls) fun x hx => h x (by simp [hx])]

theorem nextHop_bytes (h : NextHop) : h.bytes = nextHopBytes h := by
  cases h <;> simp [NextHop.bytes, nextHopBytes]

theorem nextHop_len (h : NextHop) : (nextHopBytes h).length ≤ 255 := by
  cases h <;> simp [nextHopBytes]

theorem family_bytes (n : Nlri) : be16 n.afi.toU16 ++ [n.safi.toU8] = n16 (afiNum n.afi) ++ [UInt8.ofNat (safiNum n.safi)] := by
  cases n.afi <;> cases n.safi <;> rfl

theorem mp_bytes {n : Nlri} {reach ap ap' : Bool} (hap : ∀ p ∈ n.labeled.getD [], p.pathId.isSome = true → ap' = true)
    (hok : MpNlriOk reach ap n) (b : Bytes) : encodeMpNlri n reach ap' = .ok b ↔ MpBytes n b := by
  obtain ⟨h1, h2, h3, h4, h5, h6⟩ := hok
  have hnh : ∃ nhb, encNextHop n.nextHop = .ok nhb ∧ nhb ++ (if reach then [0] else []) = nextHopField n.nextHop := by
    cases hn : n.nextHop with
    | none =>
      rw [hn] at h1
      have : reach = false := by simpa using h1.symm
      subst this
      exact ⟨[], rfl, rfl⟩
    | some h =>
      rw [hn] at h1
      have : reach = true := by simpa using h1.symm
      subst this
      refine ⟨UInt8.ofNat (nextHopBytes h).length :: nextHopBytes h, ?_, by simp [nextHopField]⟩
      unfold encNextHop
      rw [u8Len_ok, nextHop_bytes]
      exact ⟨nextHop_len h, rfl⟩
  obtain ⟨nhb, g1, g2⟩ := hnh
  unfold encodeMpNlri MpBytes
  simp only [g1, ← g2, ← family_bytes]
  by_cases hm : n.safi = .mplsLabel
  · simp only [if_pos hm]
    have hl : ∀ p ∈ n.labeled.getD [], LabeledOk n.afi ⟨ap, .multi, 16, none⟩ p := by
      obtain ⟨_, hlab⟩ := h6 hm
      cases reach with
      | false => simp only [Bool.false_eq_true, if_false] at hlab; rw [hlab]; simp
      | true =>
        simp only [if_true] at hlab
        obtain ⟨ls, hls, hlo⟩ := hlab
        rw [hls]; exact hlo
    have hi := fun s => encAll_iff (f := encNlriLabeled ap') (R := LabeledBytes) (n.labeled.getD []) s (fun p hp c => by
      rw [encNlriLabeled_ok (hl p hp) (hap p hp), Except.ok.injEq]
      unfold LabeledBytes
      rw [path_bytes, stack_bytes _ (hl p hp).labels, Nat.mul_comm]
      exact eq_comm)
    cases h : encAll (encNlriLabeled ap') (n.labeled.getD []) with
    | error e =>
      simp only [reduceCtorEq, false_iff]
      rintro ⟨s, hs, _⟩
      rw [← hi, h] at hs; cases hs
    | ok s =>
      simp only [Except.ok.injEq]
      constructor
      · rintro rfl; exact ⟨s, (hi s).mp h, by simp⟩
      · rintro ⟨s', hs', rfl⟩
        rw [← hi, h] at hs'; cases hs'; simp
  · simp only [if_neg hm, if_neg h2, h4, Option.getD_none, encAll, List.append_nil, Except.ok.injEq]
    have hi := fun s => (flatMap_blocks (f := NetworkPrefix.encode) n.prefixes s).trans
      (Blocks_congr (S := NlriBytes) fun p _ c => prefix_bytes p c)
    constructor
    · rintro rfl
      exact ⟨encodeNlri n.prefixes, (hi _).mp rfl, by simp⟩
    · rintro ⟨r, hr, rfl⟩
      rw [← hi] at hr
      subst hr
      simp [encodeNlri]

theorem ok_iff {a b : Bytes} : (.ok a : Except EncErr Bytes) = .ok b ↔ b = a := by
  rw [Except.ok.injEq]; exact eq_comm

/-- C56. The octets of a value are exactly those its RFC lays down. -/
theorem c56_value_bytes (cfg : AttrCfg) (v : AttrVal) (h : AttrValOk cfg v) (b : Bytes) :
    encodeAttrVal cfg.asnLen v = .ok b ↔ ValueBytes cfg.asnLen v b := by
  cases v with
  | origin o => unfold encodeAttrVal ValueBytes; rw [ok_iff]; cases o <;> exact Iff.rfl
  | asPath p => exact asPath_bytes _ p b
  | as4Path p => exact asPath_bytes _ p b
  | nextHop a => exact ok_iff
  | med x => exact ok_iff
  | localPref x => exact ok_iff
  | otc x => exact ok_iff
  | atomic => exact ok_iff
  | aggregator a i =>
    unfold encodeAttrVal ValueBytes encodeAggregator AsnFits asnBytes
    cases cfg.asnLen with
    | b32 => simp only [be32_n32]; rw [ok_iff]; simp
    | b16 =>
      simp only
      unfold checkMax
      by_cases hx : a.toNat > 65535
      · rw [if_pos hx]
        simp only [reduceCtorEq, false_iff]
        rintro ⟨h, _⟩
        have := h trivial; omega
      · rw [if_neg hx]
        simp only
        rw [ok_iff, be16_low]
        exact ⟨fun h => ⟨fun _ => by omega, h⟩, fun h => h.2⟩
  | as4Aggregator a i => exact ok_iff
  | communities cs => exact flatMap_iff cs b fun c _ b => community_bytes c b
  | extCommunities cs => exact flatMap_iff cs b fun c _ b => ext_bytes c b
  | ipv6ExtCommunities cs => exact flatMap_iff cs b fun c _ b => ipv6ext_bytes c b
  | largeCommunities cs => exact flatMap_iff cs b fun c _ b => large_bytes c b
  | originatorId i => exact ok_iff
  | clusters cs => exact flatMap_iff cs b fun c _ b => by rw [be32_n32]
  | mpReach n =>
    refine mp_bytes (fun p hp hs => ?_) h b
    exact List.any_eq_true.mpr ⟨p, hp, hs⟩
  | mpUnreach n =>
    refine mp_bytes (fun p hp hs => ?_) h b
    have hu : MpNlriOk false cfg.addPath n := h
    by_cases hm : n.safi = .mplsLabel
    · have := (hu.labeled hm).2
      simp only [Bool.false_eq_true, if_false] at this
      rw [this] at hp; simp at hp
    · rw [(hu.plain hm).1] at hp; simp at hp
  | linkState a => exact encAll_iff _ b fun t _ c => tlv16_bytes t c
  | tunnel ts => exact encAll_iff _ b fun t _ c => tunnel_bytes t c
  | trafficEng t =>
    unfold encodeAttrVal ValueBytes encodeTrafficEng
    rw [ok_iff]
    have hi := fun s => (flatMap_blocks (f := be32) t.bandwidth.toList s).trans
      (Blocks_congr (S := fun x b => b = n32 x.toNat) fun x _ c => by rw [be32_n32])
    constructor
    · rintro rfl
      exact ⟨_, (hi _).mp rfl, by simp [be16_n16]⟩
    · rintro ⟨w, hw, rfl⟩
      rw [← hi] at hw
      subst hw
      simp [be16_n16]
  | bfd x => exact bfd_bytes x b
  | prefixSid ts => exact encAll_iff _ b fun t _ c => tlv8ext_bytes t c
  | sfp ts => exact encAll_iff _ b fun t _ c => tlv8ext_bytes t c
  | bier ts => exact encAll_iff _ b fun t _ c => tlv16_bytes t c
  | development x => exact ok_iff
  | raw c x => exact ok_iff
  | deprecated c x => exact ok_iff
  | unknown c x => exact ok_iff
  | aigp ts =>
    refine flatMap_iff ts b fun t ht c => ?_
    have hl : t.length.toNat = t.value.length + 3 := h t ht
    unfold AigpBytes encAigp
    simp only [if_pos hl]
    rw [be16_n16, hl]
    simp
  | attrSet => exact absurd h id

theorem code_assigned (v : AttrVal) : v.code = assignedCode v := by cases v <;> rfl

/-- C56. An encoded attribute list is the sequence of its attributes on the wire: flags, assigned code, length, value
octets. -/
theorem c56_encoded (cfg : AttrCfg) (as : List Attribute) (hok : ∀ a ∈ as, AttrValOk cfg a.value) (bs : Bytes) :
    encodeAttributes cfg.asnLen as = .ok bs ↔ ∃ ws, Pairwise2 (OnWire cfg.asnLen) as ws ∧ bs = wireBytes ws := by
  unfold encodeAttributes
  induction as generalizing bs with
  | nil =>
    constructor
    · intro h; cases h; exact ⟨[], .nil, rfl⟩
    · rintro ⟨ws, h, rfl⟩; cases h; rfl
  | cons a as ih =>
    have ih := ih (fun x hx => hok x (by simp [hx]))
    have ha := hok a (by simp)
    constructor
    · intro h
      obtain ⟨x, y, h1, h2, rfl⟩ := encAll_cons_ok.mp h
      obtain ⟨ws, hw, rfl⟩ := (ih y).mp h2
      obtain ⟨b, hb, hwo, rfl⟩ := encodeAttr_wire h1
      exact ⟨⟨a.flag, a.value.code, b⟩ :: ws, .cons ⟨hwo, rfl, code_assigned _, (c56_value_bytes cfg _ ha b).mp hb⟩ hw, by simp [wireBytes]⟩
    · rintro ⟨ws, h, rfl⟩
      cases h with
      | @cons _ w _ ws h1 h2 =>
        obtain ⟨g1, g2, g3, g4⟩ := h1
        have hb := (c56_value_bytes cfg _ ha _).mpr g4
        obtain ⟨c, hc⟩ := c11_encodable cfg.asnLen [a] (by
          intro x hx
          rw [List.mem_singleton] at hx
          subst hx
          exact ⟨_, hb, by rw [← g2]; exact g1⟩)
        obtain ⟨x, y, h3, h4, rfl⟩ := encAll_cons_ok.mp hc
        cases h4
        obtain ⟨b', hb', _, he⟩ := encodeAttr_wire h3
        rw [hb] at hb'
        cases hb'
        refine encAll_cons_ok.mpr ⟨x, wireBytes ws, h3, (ih _).mpr ⟨ws, h2, rfl⟩, ?_⟩
        rw [he, ← g2, code_assigned, ← g3]
        simp [wireBytes]

/-- C56. And the parser reads exactly these layouts back. -/
theorem c56_parsed (cfg : AttrCfg) (as : List Attribute) (ws : List Wire) (hok : ∀ a ∈ as, AttrValOk cfg a.value)
    (h : Pairwise2 (OnWire cfg.asnLen) as ws) : ∃ a, parseAttributes cfg (wireBytes ws) = .ok a ∧ a.inner = as :=
  c11_attributes_roundtrip_partial cfg as _ hok ((c56_encoded cfg as hok _).mpr ⟨ws, h, rfl⟩)

/-- an IPv6 route with a global and a link-local next hop, and a FlowSpec redirect. -/
example : ∃ as ws, (∀ a ∈ as, AttrValOk c11Cfg a.value) ∧ Pairwise2 (OnWire c11Cfg.asnLen) as ws ∧
    wireBytes ws = [0x80, 4, 4, 0, 0, 1, 2, 0xC0, 16, 8, 0x40, 8, 0xFB, 0xF0, 0, 0, 0, 1] := by
  refine ⟨[⟨0x80, .med 258⟩, ⟨0xC0, .extCommunities [.redirect 8 64496 #v[0, 0, 0, 1]]⟩],
    [⟨0x80, 4, [0, 0, 1, 2]⟩, ⟨0xC0, 16, [0x40, 8, 0xFB, 0xF0, 0, 0, 0, 1]⟩], ?_, ?_, by decide +kernel⟩
  · intro a ha
    rcases List.mem_cons.mp ha with rfl | ha
    · trivial
    · rw [List.mem_singleton] at ha
      subst ha
      show ∀ c ∈ _, ExtCommunityOk c
      decide
  · exact .cons ⟨by decide, rfl, rfl, rfl⟩ (.cons ⟨by decide, rfl, rfl, .cons (c := [0x40, 8, 0xFB, 0xF0, 0, 0, 0, 1]) rfl .nil⟩ .nil)

end Verif.Props
