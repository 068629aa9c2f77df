import Verif.Spec.NlriBuild
import Verif.Props.Families
import Verif.Props.Attr
/-
C100: NLRI built by hand.
-/
namespace Verif.Props
open Spec

/-! ### what the accessors say -/

/-- **C100** The NLRI of one announced or withdrawn route tells which family the route is of, whether it is announced, its next hop, and
the route itself. -/
theorem c100_describes (p : NetworkPrefix) (nh : Option Ip) :
    (∀ n, n = Nlri.newReachable p nh ∨ n = Nlri.newUnreachable p →
      (n.isIpv4 = true ↔ ∃ a, p.prefix_.addr = .v4 a) ∧ (n.isIpv6 = true ↔ ∃ a, p.prefix_.addr = .v6 a) ∧
      n.isLinkState = false ∧ n.isFlowspec = false ∧ n.isMplsLabeled = false ∧ n.iter = [p.prefix_]) ∧
    (Nlri.newReachable p nh).nextHopAddr = nh ∧ (Nlri.newUnreachable p).nextHopAddr = none := by
  obtain ⟨⟨a, l⟩, pid⟩ := p
  refine ⟨?_, ?_, rfl⟩
  · rintro n (rfl | rfl) <;> cases a <;>
      refine ⟨⟨fun h => ?_, fun h => ?_⟩, ⟨fun h => ?_, fun h => ?_⟩, rfl, rfl, rfl, rfl⟩ <;>
      first
        | exact ⟨_, rfl⟩
        | rfl
        | (obtain ⟨a, h⟩ := h; cases h)
        | cases h
  · cases nh with
    | none => rfl
    | some x => cases x <;> rfl

/-- **C100** The routes of any NLRI, from first to last: those of both lists, each once. -/
theorem c100_iter (n : Nlri) (q : IpNet) :
    n.iter.count q = (n.prefixes.map (·.prefix_)).count q + ((n.labeled.getD []).map (·.prefix_)).count q := by
  unfold Nlri.iter
  rw [List.count_append]
  cases n.labeled <;> rfl

/-- **C100** Asking for the next hop panics exactly if there is none. -/
theorem c100_next_hop (n : Nlri) : n.nextHopAddr = none ↔ n.isReachable = false := by
  unfold Nlri.nextHopAddr Nlri.isReachable
  cases n.nextHop <;> simp

/-- **C100** The labels of a labelled route accepted by the constructor: the top one is the first, the bottom one the last, and they exist. -/
theorem c100_labels (p : IpNet) (ls : List Label) (pid : Option UInt32) (q : LabeledPrefix) (h : LabeledPrefix.tryNew p ls pid = some q) :
    (∃ t rest, ls = t :: rest ∧ q.topLabel = some t) ∧ (∃ rest b, ls = rest ++ [b] ∧ q.bottomLabel = some b) ∧
    q.labelCount = ls.length ∧ (q.hasMultipleLabels = true ↔ q.topLabel ≠ none ∧ 2 ≤ ls.length) := by
  unfold LabeledPrefix.tryNew at h
  split at h
  · cases h
  · next hne =>
    split at h
    · cases h
    · cases h
      refine ⟨?_, ?_, rfl, ?_⟩
      · cases ls with
        | nil => exact absurd rfl hne
        | cons t rest => exact ⟨t, rest, rfl, rfl⟩
      · refine ⟨ls.dropLast, ls.getLast hne, (List.dropLast_concat_getLast hne).symm, ?_⟩
        simp [LabeledPrefix.bottomLabel, List.getLast?_eq_some_getLast hne]
      · cases ls with
        | nil => exact absurd rfl hne
        | cons t rest => simp [LabeledPrefix.hasMultipleLabels, LabeledPrefix.topLabel]; omega

/-! ### link-local next hops -/

theorem linkLocal_bytes : ∀ a b : UInt8, ((a.toUInt16 <<< 8 ||| b.toUInt16) &&& 0xffc0 == 0xfe80) =
    decide (0xfe80 ≤ a.toNat * 256 + b.toNat ∧ a.toNat * 256 + b.toNat < 0xfec0) := by
  have key : ∀ a b : Fin 256, (((UInt8.ofNat a).toUInt16 <<< 8 ||| (UInt8.ofNat b).toUInt16) &&& 0xffc0 == 0xfe80) =
    decide (0xfe80 ≤ a.val * 256 + b.val ∧ a.val * 256 + b.val < 0xfec0) := by decide +kernel
  intro a b
  have := key ⟨a.toNat, a.toNat_lt⟩ ⟨b.toNat, b.toNat_lt⟩
  simpa using this

/-- **C100** (part) A next hop of one address is link-local exactly if the address is. -/
theorem c100_link_local_partial (nh : NextHop) (h : ∀ a b, nh ≠ .v6ll a b) (h' : ∀ r a s b, nh ≠ .vpn6ll r a s b) :
    nh.isLinkLocal = true ↔ LinkLocalAddr nh.addr := by
  cases nh with
  | v4 a => simp [NextHop.isLinkLocal, NextHop.addr, LinkLocalAddr, ← UInt8.toNat_inj]
  | v6 a => simp [NextHop.isLinkLocal, NextHop.addr, LinkLocalAddr, v6LinkLocal, linkLocal_bytes]
  | vpn6 r a => simp [NextHop.isLinkLocal, NextHop.addr, LinkLocalAddr, v6LinkLocal, linkLocal_bytes]
  | v6ll a b => exact absurd rfl (h a b)
  | vpn6ll r a s b => exact absurd rfl (h' r a s b)

/-- **C100** (refuted) A next hop of two addresses is called link-local whatever they are, although the address it gives is the first,
a global one. -/
theorem c100_violation_link_local (a b : V6) : (NextHop.v6ll a b).isLinkLocal = true ∧ (NextHop.v6ll a b).addr = .v6 a := ⟨rfl, rfl⟩

/-- 2001:db8::1 with fe80::1, and two global addresses. -/
example : ¬ LinkLocalAddr (NextHop.v6ll #v[0x20, 1, 0x0D, 0xB8, 0, 0, 0, 0, 0, 0, 0, 0, 0, 0, 0, 1]
    #v[0xFE, 0x80, 0, 0, 0, 0, 0, 0, 0, 0, 0, 0, 0, 0, 0, 1]).addr := by decide +kernel

example : LinkLocalAddr (.v6 #v[0xFE, 0xBF, 0, 0, 0, 0, 0, 0, 0, 0, 0, 0, 0, 0, 0, 1]) ∧
    ¬ LinkLocalAddr (.v6 #v[0xFE, 0xC0, 0, 0, 0, 0, 0, 0, 0, 0, 0, 0, 0, 0, 0, 1]) ∧ LinkLocalAddr (.v4 #v[169, 254, 3, 4]) := by decide +kernel

/-! ### on the wire -/

theorem survives {cfg : AttrCfg} {a : Attribute} {b : Bytes} (hok : AttrValOk cfg a.value)
    (h : encodeAttrVal cfg.asnLen a.value = .ok b) (hf : LenFits a.flag b.length) : Survives cfg a := by
  obtain ⟨bs, hb⟩ := c11_encodable cfg.asnLen [a] (by
    intro x hx
    rw [List.mem_singleton] at hx
    subst hx
    exact ⟨b, h, hf⟩)
  obtain ⟨out, h1, h2⟩ := c11_attributes_roundtrip_partial cfg [a] bs (by
    intro x hx
    rw [List.mem_singleton] at hx
    subst hx
    exact hok) hb
  exact ⟨bs, out, hb, h1, h2⟩

theorem fits_small (flag : UInt8) {n : Nat} (h : n < 256) : LenFits flag n := by
  unfold LenFits
  split <;> omega

theorem encNextHop_ip (x : Ip) : ∃ b, encNextHop (some (.ofIp x)) = .ok b ∧ b.length ≤ 17 := by
  cases x with
  | v4 a => exact ⟨4 :: a.toList, by simp [encNextHop, NextHop.ofIp, NextHop.bytes, u8Len, checkMax], by simp⟩
  | v6 a => exact ⟨16 :: a.toList, by simp [encNextHop, NextHop.ofIp, NextHop.bytes, u8Len, checkMax], by simp⟩

theorem prefix_encode_len (p : NetworkPrefix) : p.encode.length ≤ 21 := by
  have : p.prefix_.addr.octets.length ≤ 16 := by cases p.prefix_.addr <;> simp [Ip.octets]
  cases hp : p.pathId <;> simp [NetworkPrefix.encode, encPathId, hp, be32] <;> omega

theorem afiOf_ne (p : NetworkPrefix) : prefixAfi p ≠ .linkState := by
  obtain ⟨⟨a, l⟩, i⟩ := p
  cases a <;> simp [prefixAfi, Ip.isV4]

/-- **C100** (part) One route, announced with its next hop or withdrawn: the attribute can be written whatever its flags, and is read as it was,
in a session with the same Add-Path setting; the default route needs Add-Path, because without it the parser's guess fails (C01). -/
theorem c100_route_partial (cfg : AttrCfg) (p : NetworkPrefix) (nh : Ip) (flag : UInt8)
    (hp : PrefixOk (prefixAfi p) cfg.addPath p) (h0 : cfg.addPath = false → p.prefix_.len ≠ 0) :
    Survives cfg ⟨flag, .mpReach (Nlri.newReachable p (some nh))⟩ ∧ Survives cfg ⟨flag, .mpUnreach (Nlri.newUnreachable p)⟩ := by
  have hl := prefix_encode_len p
  constructor
  · obtain ⟨b, hb, hbl⟩ := encNextHop_ip nh
    refine survives (b := be16 (prefixAfi p).toU16 ++ [Safi.unicast.toU8] ++ b ++ [0] ++ encodeNlri [p] ++ []) ?_ ?_ (fits_small _ ?_)
    · refine ⟨rfl, afiOf_ne _, rfl, rfl, fun _ => ⟨rfl, fun q hq => ?_⟩, fun h => by cases h⟩
      cases List.mem_singleton.1 hq
      exact ⟨hp, h0⟩
    · have he : encNextHop (Nlri.newReachable p (some nh)).nextHop = .ok b := hb
      simp only [encodeAttrVal, encodeMpNlri, he]
      rw [if_neg (by simp [Nlri.newReachable]), if_neg (by exact afiOf_ne _)]
      rfl
    · simp [encodeNlri, be16]; omega
  · refine survives (b := be16 (prefixAfi p).toU16 ++ [Safi.unicast.toU8] ++ [] ++ [] ++ encodeNlri [p] ++ []) ?_ ?_ (fits_small _ ?_)
    · refine ⟨rfl, afiOf_ne _, rfl, rfl, fun _ => ⟨rfl, fun q hq => ?_⟩, fun h => by cases h⟩
      cases List.mem_singleton.1 hq
      exact ⟨hp, h0⟩
    · have he : encNextHop (Nlri.newUnreachable p).nextHop = .ok [] := rfl
      simp only [encodeAttrVal, encodeMpNlri, he]
      rw [if_neg (by simp [Nlri.newUnreachable]), if_neg (by exact afiOf_ne _)]
      rfl
    · simp [encodeNlri, be16]; omega

/-- **C100** (part) Labelled announcements: whatever the list, if it can be written in the length field it is read as it was. -/
theorem c100_labeled_partial (cfg : AttrCfg) (afi : Afi) (nh : Ip) (ps : List LabeledPrefix) (flag : UInt8) (ha : afi ≠ .linkState)
    (hp : ∀ p ∈ ps, LabeledOk afi ⟨cfg.addPath, .multi, 16, none⟩ p) :
    ∃ b, encodeAttrVal cfg.asnLen (.mpReach (Nlri.newLabeledReachable afi (some nh) ps)) = .ok b ∧
      (LenFits flag b.length → Survives cfg ⟨flag, .mpReach (Nlri.newLabeledReachable afi (some nh) ps)⟩) := by
  obtain ⟨b, hb, hbl⟩ := encNextHop_ip nh
  have key : ∀ ap', (∀ p ∈ ps, p.pathId.isSome = true → ap' = true) → ∃ c, encAll (encNlriLabeled ap') ps = .ok c := by
    intro ap' hap
    induction ps with
    | nil => exact ⟨[], rfl⟩
    | cons p ps ih =>
      obtain ⟨c, hc⟩ := ih (fun q hq => hp q (List.mem_cons_of_mem _ hq)) (fun q hq => hap q (List.mem_cons_of_mem _ hq))
      exact ⟨_, encAll_cons_ok.mpr ⟨_, c, encNlriLabeled_ok (hp p List.mem_cons_self) (hap p List.mem_cons_self), hc, rfl⟩⟩
  obtain ⟨c, hc⟩ := key (ps.any fun p => p.pathId.isSome) (fun p hp h => List.any_eq_true.2 ⟨p, hp, h⟩)
  have he : encNextHop (Nlri.newLabeledReachable afi (some nh) ps).nextHop = .ok b := hb
  have hv : encodeAttrVal cfg.asnLen (.mpReach (Nlri.newLabeledReachable afi (some nh) ps)) =
      .ok (be16 afi.toU16 ++ [Safi.mplsLabel.toU8] ++ b ++ [0] ++ c) := by
    simp only [encodeAttrVal, encodeMpNlri, he]
    rw [if_pos (by rfl)]
    simp only [Nlri.newLabeledReachable, Option.getD_some, hc]
    rfl
  exact ⟨_, hv, fun hf => survives ⟨rfl, ha, rfl, rfl, fun h => absurd rfl h, fun _ => ⟨rfl, ps, rfl, hp⟩⟩ hv hf⟩

/-! ### what is lost -/

/-- **C100** (refuted) Labelled withdrawals: the attribute is written without its routes, whatever they are. -/
theorem c100_violation_labeled_withdrawals (l : AsnLen) (afi : Afi) (ps : List NetworkPrefix) :
    encodeAttrVal l (.mpUnreach (Nlri.newLabeledUnreachable afi ps)) = .ok (be16 afi.toU16 ++ [4]) := by
  cases afi <;> rfl

/-- Two values written alike do not both survive. -/
theorem one_survives {cfg : AttrCfg} {flag : UInt8} {v w : AttrVal} (h : encodeAttr cfg.asnLen ⟨flag, v⟩ = encodeAttr cfg.asnLen ⟨flag, w⟩)
    (hv : Survives cfg ⟨flag, v⟩) (hw : Survives cfg ⟨flag, w⟩) : v = w := by
  obtain ⟨b1, o1, h1, h2, h3⟩ := hv
  obtain ⟨b2, o2, h4, h5, h6⟩ := hw
  simp only [encodeAttributes, encAll] at h1 h4
  rw [h, h4] at h1
  cases h1
  rw [h2] at h5
  cases h5
  rw [h3] at h6
  cases h6
  rfl

/-- so no list of withdrawn labelled routes survives, except the empty one. -/
theorem c100_violation_withdrawals_lost (cfg : AttrCfg) (afi : Afi) (ha : afi ≠ .linkState) (ps : List NetworkPrefix) (flag : UInt8) :
    Survives cfg ⟨flag, .mpUnreach (Nlri.newLabeledUnreachable afi ps)⟩ ↔ ps = [] := by
  have h0 : Survives cfg ⟨flag, .mpUnreach (Nlri.newLabeledUnreachable afi [])⟩ :=
    survives ⟨rfl, ha, rfl, rfl, fun h => absurd rfl h, fun _ => ⟨rfl, rfl⟩⟩
      (c100_violation_labeled_withdrawals cfg.asnLen afi []) (fits_small _ (by cases afi <;> decide))
  constructor
  · intro h
    have := one_survives (by simp only [encodeAttr, c100_violation_labeled_withdrawals]; rfl) h h0
    simpa [Nlri.newLabeledUnreachable] using this
  · rintro rfl; exact h0

/-- **C100** (refuted) Link-state NLRI: only the types are written. Two lists with the same types, whatever nodes, links and prefixes they
describe, give the same octets. -/
theorem c100_violation_link_state (l : AsnLen) (nh : Option Ip) (f : Safi) (hf : f ≠ .mplsLabel) (xs ys : List LsNlri)
    (h : xs.map (·.type) = ys.map (·.type)) :
    encodeAttrVal l (.mpReach (Nlri.newLinkStateReachable nh f xs)) = encodeAttrVal l (.mpReach (Nlri.newLinkStateReachable nh f ys)) ∧
    encodeAttrVal l (.mpUnreach (Nlri.newLinkStateUnreachable f xs)) = encodeAttrVal l (.mpUnreach (Nlri.newLinkStateUnreachable f ys)) := by
  have e : xs.flatMap (fun l => be16 l.type ++ be16 0) = ys.flatMap (fun l => be16 l.type ++ be16 0) := by
    have : ∀ zs : List LsNlri, zs.flatMap (fun l => be16 l.type ++ be16 0) = (zs.map (·.type)).flatMap (fun t => be16 t ++ be16 0) := by
      intro zs
      rw [List.flatMap_map]
    rw [this, this, h]
  constructor
  · simp [encodeAttrVal, encodeMpNlri, Nlri.newLinkStateReachable, hf, e]
  · simp [encodeAttrVal, encodeMpNlri, Nlri.newLinkStateUnreachable, hf, e]

/-- so of two different lists with the same types at most one survives. -/
theorem c100_violation_link_state_lost (cfg : AttrCfg) (nh : Option Ip) (f : Safi) (hf : f ≠ .mplsLabel) (xs ys : List LsNlri) (flag : UInt8)
    (h : xs.map (·.type) = ys.map (·.type)) (hne : xs ≠ ys) :
    ¬ (Survives cfg ⟨flag, .mpReach (Nlri.newLinkStateReachable nh f xs)⟩ ∧ Survives cfg ⟨flag, .mpReach (Nlri.newLinkStateReachable nh f ys)⟩) := by
  rintro ⟨h1, h2⟩
  have := one_survives (by simp only [encodeAttr, (c100_violation_link_state cfg.asnLen nh f hf xs ys h).1]; rfl) h1 h2
  exact hne (by simpa [Nlri.newLinkStateReachable] using this)

/-- **C100** (refuted) FlowSpec NLRI: whatever is written, what is read is not what was built. -/
theorem c100_violation_flowspec (afi : Afi) (f : Safi) (nh : Option Ip) (fs : List (List FsComp)) (a g ps reach ap b n)
    (hn : parseNlri a g ps reach ap b = .ok n) :
    n ≠ Nlri.newFlowspecReachable afi f nh fs ∧ n ≠ Nlri.newFlowspecUnreachable afi f fs := by
  have := c99_violation_no_flowspec _ _ _ _ _ _ _ hn
  constructor <;> (intro e; rw [e] at this; cases this)

/-- **C100** (refuted) An announcement built without a next hop is written without the octet that says so; 192.0.2.0/24 cannot be read
again. -/
theorem c100_violation_no_next_hop :
    ∃ b, encodeAttrVal .b32 (.mpReach (Nlri.newReachable ⟨⟨.v4 #v[192, 0, 2, 0], 24⟩, none⟩ none)) = .ok b ∧
      b = [0, 1, 1, 0, 24, 192, 0, 2] ∧ (parseNlri none none none true false b).isOk = false :=
  ⟨_, rfl, by decide +kernel, by decide +kernel⟩

/-! ### the hypotheses are met -/

/-- 2001:db8::/32 with next hop 2001:db8::1. -/
def c100P : NetworkPrefix := ⟨⟨.v6 #v[0x20, 1, 0x0D, 0xB8, 0, 0, 0, 0, 0, 0, 0, 0, 0, 0, 0, 0], 32⟩, none⟩

example : PrefixOk (prefixAfi c100P) c11Cfg.addPath c100P ∧ (c11Cfg.addPath = false → c100P.prefix_.len ≠ 0) := by decide +kernel

/-- 192.0.2.0/24 with labels 16 and 17. -/
def c100L : LabeledPrefix := ⟨⟨.v4 #v[192, 0, 2, 0], 24⟩, [16, 17], none⟩

example : ∃ q, LabeledPrefix.tryNew c100L.prefix_ c100L.labels none = some q ∧ q.topLabel = some 16 ∧ q.bottomLabel = some 17 ∧
    q.hasMultipleLabels = true := ⟨_, rfl, by decide +kernel⟩

example : encodeAttrVal .b32 (.mpReach (Nlri.newLabeledReachable .ipv4 (some (.v4 #v[10, 0, 0, 1])) [c100L])) =
    .ok [0, 1, 4, 4, 10, 0, 0, 1, 0, 72, 0, 1, 0, 0, 1, 17, 192, 0, 2] := by decide +kernel

end Verif.Props
