import Verif.Props.Elem
import Verif.Props.FlowSpec
/-
C99: address families.
-/
namespace Verif.Props
open Spec

/-- the head of an MP attribute for an IP family: AFI and SAFI. -/
def familyBytes (afi : Afi) (f : Safi) : Bytes := be16 afi.toU16 ++ [f.toU8]

/-- The NLRI of an attribute, apart from the SAFI written in it. -/
def apartFromSafi : Except Err Nlri → Except Err (Afi × Option NextHop × List NetworkPrefix × Option (List LabeledPrefix) ×
    Option (List LsNlri) × Option (List (List FsComp)))
  | .ok n => .ok (n.afi, n.nextHop, n.prefixes, n.labeled, n.linkState, n.flowspec)
  | .error e => .error e

theorem rdAfi_family (afi : Afi) (f : Safi) (r : Bytes) : rdAfiOr none z (familyBytes afi f ++ r) = .ok (afi, f.toU8 :: r) := by
  cases afi <;> rfl

theorem rdSafi_family (f : Safi) (r : Bytes) : rdSafiOr none z (f.toU8 :: r) = .ok (f, r) := by cases f <;> rfl

/-- the next hop does not depend on the family. -/
theorem head_family (z reach : Bool) (a : Afi) (s : Bytes) : ∃ res : Except Err (Option NextHop × Bytes), ∀ f,
    rdNlriHead none none z reach (familyBytes a f ++ s) = match res with | .ok (nh, r) => .ok ((a, f, nh), r) | .error e => .error e := by
  cases reach with
  | false =>
    refine ⟨.ok (none, s), fun f => ?_⟩
    rw [rdNlriHead, Rd.bind_ok (rdAfi_family a f s), Rd.bind_ok (rdSafi_family f s)]
    rfl
  | true =>
    have key : ∀ f, rdNlriHead none none z true (familyBytes a f ++ s) =
        (do let l ← rdU8; let b ← rdN l.toNat; let nh ← Rd.lift (parseMpNextHop b); pure (a, f, nh) : Rd _) s := by
      intro f
      rw [rdNlriHead, Rd.bind_ok (rdAfi_family a f s), Rd.bind_ok (rdSafi_family f s)]
      rfl
    cases h1 : rdU8 s with
    | error e => exact ⟨.error e, fun f => by rw [key, Rd.bind_error h1]⟩
    | ok x =>
      obtain ⟨l, r1⟩ := x
      cases h2 : rdN l.toNat r1 with
      | error e => exact ⟨.error e, fun f => by rw [key, Rd.bind_ok h1, Rd.bind_error h2]⟩
      | ok y =>
        obtain ⟨b, r2⟩ := y
        cases h3 : parseMpNextHop b with
        | error e => exact ⟨.error e, fun f => by rw [key, Rd.bind_ok h1, Rd.bind_ok h2, h3]; rfl⟩
        | ok nh => exact ⟨.ok (nh, r2), fun f => by rw [key, Rd.bind_ok h1, Rd.bind_ok h2, h3]; rfl⟩

/-- **C99** (refuted) The parser does not look at the SAFI, except for labelled routes and link state: whatever stands in an MP
attribute of IPv4 or IPv6, it is read in the same way under any two other SAFIs. So FlowSpec rules (133, 134), VPN routes (128) and
multicast VPN routes (129) are all read as plain prefixes. -/
theorem c99_violation_safi (a : Afi) (ha : a ≠ .linkState) (f g : Safi) (hf : f ≠ .mplsLabel) (hg : g ≠ .mplsLabel) (reach ap : Bool) (s : Bytes) :
    apartFromSafi (parseNlri none none none reach ap (familyBytes a f ++ s)) =
      apartFromSafi (parseNlri none none none reach ap (familyBytes a g ++ s)) := by
  obtain ⟨res, h⟩ := head_family ((familyBytes a f ++ s).head? == some 0) reach a s
  have hz : ∀ k : Safi, (familyBytes a k ++ s).head? = some 0 := by
    intro k
    rw [familyBytes, List.append_assoc]
    exact afi_first_zero ha _
  simp only [parseNlri, hz] at h ⊢
  rw [h f, h g]
  cases res with
  | error e => rfl
  | ok x =>
    obtain ⟨nh, r⟩ := x
    simp only [parseNlriBody, ha, hf, hg, false_and, if_false]
    cases rdReserved reach r with
    | error e => rfl
    | ok y =>
      obtain ⟨u, r⟩ := y
      cases u
      dsimp only
      cases parseNlriList a ap r <;> rfl

/-- **C99** (refuted) Whatever the octets: no MP attribute is ever read as holding flow specifications. -/
theorem c99_violation_no_flowspec (afi : Option Afi) (safi : Option Safi) (ps : Option (List NetworkPrefix)) (reach ap : Bool) (s : Bytes) (n : Nlri)
    (h : parseNlri afi safi ps reach ap s = .ok n) : n.flowspec = none := by
  unfold parseNlri at h
  dsimp only at h
  split at h
  · cases h
  · unfold parseNlriBody at h
    split at h
    · split at h
      · cases h
      · split at h <;> cases h; rfl
    · split at h
      · split at h
        · split at h
          · cases h
          · split at h <;> cases h; rfl
        · split at h <;> cases h; rfl
      · split at h
        · cases h; rfl
        · split at h
          · cases h
          · split at h <;> cases h; rfl

/-- what stands before the list of prefixes: nothing in MP_UNREACH_NLRI; the next hop with its length and a reserved octet in
MP_REACH_NLRI. -/
def BeforeList (reach : Bool) (pre : Bytes) : Prop :=
  if reach then ∃ (l : UInt8) (hop : Bytes) (reserved : UInt8), hop.length = l.toNat ∧ pre = l :: (hop ++ [reserved]) else pre = []

theorem head_family_ok {z reach : Bool} {a b : Afi} {f g : Safi} {nh : Option NextHop} {s r : Bytes}
    (h : rdNlriHead none none z reach (familyBytes a f ++ s) = .ok ((b, g, nh), r)) :
    b = a ∧ g = f ∧ (if reach then ∃ (l : UInt8) (hop : Bytes), hop.length = l.toNat ∧ s = l :: (hop ++ r) else s = r) := by
  rw [rdNlriHead, Rd.bind_ok (rdAfi_family a f s), Rd.bind_ok (rdSafi_family f s)] at h
  cases reach with
  | false => cases h; exact ⟨rfl, rfl, rfl⟩
  | true =>
    simp only [if_true] at h ⊢
    obtain ⟨l, r1, h1, h⟩ := Rd.bind_eq_ok.1 h
    obtain ⟨hop, r2, h2, h⟩ := Rd.bind_eq_ok.1 h
    obtain ⟨nh', r3, h3, h⟩ := Rd.bind_eq_ok.1 h
    cases h4 : parseMpNextHop hop with
    | error e => rw [h4] at h3; cases h3
    | ok x =>
      rw [h4] at h3
      cases h3
      cases h
      obtain ⟨h5, h6⟩ := rdN_ok h2
      exact ⟨rfl, rfl, l, hop, h6, by rw [rdU8_ok h1, h5]⟩

/-- **C99** What holds: link-state attributes and announcements of labelled routes have no prefixes, so no elements; in the other
families the prefixes are those of the list behind the next hop (C01-C03 for what this list is). -/
theorem c99_prefixes_partial (reach ap : Bool) (a : Afi) (f : Safi) (s : Bytes) (n : Nlri)
    (h : parseNlri none none none reach ap (familyBytes a f ++ s) = .ok n) :
    n.afi = a ∧ n.safi = f ∧
    (a = .linkState → (f = .linkState ∨ f = .linkStateVpn) → n.prefixes = [] ∧ n.linkState ≠ none) ∧
    (f = .mplsLabel → reach = true → n.prefixes = [] ∧ n.labeled ≠ none) ∧
    (a ≠ .linkState → f ≠ .mplsLabel → ∃ pre list, BeforeList reach pre ∧ s = pre ++ list ∧ parseNlriList a ap list = .ok n.prefixes) := by
  unfold parseNlri at h
  dsimp only at h
  split at h
  · cases h
  · next a' f' nh r hh =>
    obtain ⟨rfl, rfl, hs⟩ := head_family_ok hh
    unfold parseNlriBody at h
    split at h
    · next hl =>
      split at h
      · cases h
      · split at h <;> cases h
        refine ⟨rfl, rfl, fun _ _ => ⟨rfl, by simp⟩, fun e => ?_, fun e => absurd hl.1 e⟩
        rcases hl.2 with e' | e' <;> rw [e'] at e <;> cases e
    · next hl =>
      have hl' : a' = .linkState → ¬ (f' = .linkState ∨ f' = .linkStateVpn) := fun e1 e2 => hl ⟨e1, e2⟩
      split at h
      · next hm =>
        cases reach with
        | true =>
          simp only [if_true] at h
          split at h
          · cases h
          · split at h <;> cases h
            exact ⟨rfl, rfl, fun e1 e2 => absurd e2 (hl' e1), fun _ _ => ⟨rfl, by simp⟩, fun _ e => absurd hm e⟩
        | false =>
          simp only [Bool.false_eq_true, if_false] at h
          split at h <;> cases h
          exact ⟨rfl, rfl, fun e1 e2 => absurd e2 (hl' e1), fun _ e => (by cases e), fun _ e => absurd hm e⟩
      · next hm =>
        split at h
        · next hp _ => cases hp
        · split at h
          · cases h
          · next r2 hr =>
            split at h
            · cases h
            · next ps hps =>
              cases h
              refine ⟨rfl, rfl, fun e1 e2 => absurd e2 (hl' e1), fun e => absurd e hm, fun _ _ => ?_⟩
              cases reach with
              | false =>
                simp only [Bool.false_eq_true, if_false] at hs
                cases hr
                exact ⟨[], r, by simp [BeforeList], by rw [hs]; rfl, hps⟩
              | true =>
                simp only [if_true] at hs
                obtain ⟨l, hop, h1, h2⟩ := hs
                simp only [rdReserved, if_true] at hr
                obtain ⟨x, r3, h3, h4⟩ := Rd.bind_eq_ok.1 hr
                cases h4
                exact ⟨l :: (hop ++ [x]), r2, by simp only [BeforeList, if_true]; exact ⟨l, hop, x, h1, rfl⟩, by rw [h2, rdU8_ok h3]; simp, hps⟩

/-! ### what a user sees -/

/-- an UPDATE with ORIGIN, an AS path of one AS and these MP attribute octets (code 14 or 15). -/
def mpUpdate (code : UInt8) (value : Bytes) : Bytes :=
  let attrs : Bytes := [0x40, 1, 1, 0, 0x40, 2, 6, 2, 1, 0, 0, 0xFD, 0xE9, 0x80, code, UInt8.ofNat value.length] ++ value
  List.replicate 16 255 ++ ([0, UInt8.ofNat (23 + attrs.length), 2, 0, 0, 0, UInt8.ofNat attrs.length] ++ attrs)

/-- the elements of a message, without times and attributes. -/
def shownElems (s : Bytes) : List (ElemType × IpNet) :=
  match parseBgpMessage false .b32 s with
  | .ok (m, _) => (bgpToElems m 0 (.v4 #v[10, 0, 0, 1]) 65001).map fun e => (e.type, e.prefix_.prefix_)
  | .error _ => []

/-- **C99** (refuted) The rule that matches traffic to 192.0.2.0/24, in an UPDATE with FlowSpec, becomes two announcements, one of them of
1.0.0.0/5. -/
theorem c99_violation_flowspec :
    encodeFlowSpec [.dstPrefix ⟨⟨.v4 #v[192, 0, 2, 0], 24⟩, none⟩] = .ok [5, 1, 24, 192, 0, 2] ∧
    shownElems (mpUpdate 14 (familyBytes .ipv4 .flowSpec ++ [0, 0] ++ [5, 1, 24, 192, 0, 2])) =
      [(.announce, ⟨.v4 #v[1, 0, 0, 0], 5⟩), (.announce, ⟨.v4 #v[192, 0, 2, 0], 24⟩)] := by decide +kernel

/-- **C99** (refuted) The VPN route 2001:db8::/32 with label 16 and route distinguisher 65001:1 is announced as a prefix of 120 bits
that begins with label and distinguisher. -/
theorem c99_violation_vpn :
    shownElems (mpUpdate 14 (familyBytes .ipv6 .mplsVpn ++ [0, 0] ++ ([120] ++ [0, 1, 1] ++ [0, 0, 0xFD, 0xE9, 0, 0, 0, 1] ++ [0x20, 1, 0x0D, 0xB8]))) =
      [(.announce, ⟨.v6 #v[0, 1, 1, 0, 0, 0xFD, 0xE9, 0, 0, 0, 1, 0x20, 1, 0x0D, 0xB8, 0], 120⟩)] := by decide +kernel

/-- A plain route in the same form. -/
example : shownElems (mpUpdate 14 (familyBytes .ipv4 .unicast ++ [4, 10, 0, 0, 2, 0] ++ [24, 192, 0, 2])) =
    [(.announce, ⟨.v4 #v[192, 0, 2, 0], 24⟩)] := by decide +kernel

example : ∃ n, parseNlri none none none true false (familyBytes .ipv4 .unicast ++ [4, 10, 0, 0, 2, 0, 24, 192, 0, 2]) = .ok n ∧
    n.prefixes = [⟨⟨.v4 #v[192, 0, 2, 0], 24⟩, none⟩] := ⟨_, rfl, by decide +kernel⟩

end Verif.Props
