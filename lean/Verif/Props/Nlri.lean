import Verif.Lemmas.Net
/-
C01, C02, C03: NLRI.
-/
namespace Verif.Props
open Spec

/-- C01. Encoding a list of prefixes that the address family and Add-Path setting can carry, and parsing it with the
same setting, returns the list. Without Add-Path the list must not contain a /0 (see C03). -/
theorem c01_nlri_roundtrip (afi : Afi) (addPath : Bool) (ps : List NetworkPrefix)
    (hok : ∀ p ∈ ps, PrefixOk afi addPath p)
    (hz : addPath = false → ∀ p ∈ ps, p.prefix_.len ≠ 0) :
    parseNlriList afi addPath (encodeNlri ps) = .ok ps :=
  nlriLoop_encode ps _ (Nat.le_refl _) fun p hp => ⟨hok p hp, fun h => hz h p hp⟩

/-- 10.1.0.0/16 and 10.1.2.128/25 with path ids. -/
def exA : List NetworkPrefix :=
  [⟨⟨.v4 #v[10, 1, 0, 0], 16⟩, some 7⟩, ⟨⟨.v4 #v[10, 1, 2, 128], 25⟩, some 0⟩]

example : ∀ p ∈ exA, PrefixOk .ipv4 true p := by decide +kernel

/-- C02. Whatever NLRI bytes the parser accepts are exactly the concatenated encodings of the prefixes it returns
(nothing skipped, nothing read twice, nothing beyond the end), and every returned prefix is valid for the family. With
Add-Path every prefix carries a path id. -/
theorem c02_nlri_sound (afi : Afi) (addPath : Bool) (input : Bytes) (ps : List NetworkPrefix)
    (h : parseNlriList afi addPath input = .ok ps) :
    encodeNlri ps = input ∧
    ∀ p ∈ ps, FamilyOk afi p.prefix_.addr ∧ LenOk afi p.prefix_.len ∧ TailZero p.prefix_ ∧
      (addPath = true → p.pathId.isSome = true) := by
  obtain ⟨h1, h2⟩ := nlriLoop_sound _ _ _ _ _ (fun h => h) h
  exact ⟨h1, fun p hp => ⟨(h2 p hp).1.family, (h2 p hp).1.len, (h2 p hp).1.tail, (h2 p hp).2⟩⟩

/-- C02, with Add-Path, as an equivalence: parsing succeeds exactly on encodings of valid lists. -/
theorem c02_nlri_addpath_iff (afi : Afi) (input : Bytes) (ps : List NetworkPrefix) :
    parseNlriList afi true input = .ok ps ↔ encodeNlri ps = input ∧ ∀ p ∈ ps, PrefixOk afi true p := by
  constructor
  · intro h
    obtain ⟨h1, h2⟩ := nlriLoop_sound _ _ _ _ _ (fun h => h) h
    refine ⟨h1, fun p hp => ?_⟩
    have := h2 p hp
    rw [this.2 rfl] at this
    exact this.1
  · rintro ⟨rfl, h⟩
    exact c01_nlri_roundtrip afi true ps h (by simp)

/-- C02. NLRI parsing never panics. -/
theorem c02_nlri_no_panic (afi : Afi) (addPath : Bool) (input : Bytes) :
    parseNlriList afi addPath input ≠ .error .panic :=
  nlriLoop_noPanic _ _ _ _ (Nat.le_refl _)

example : parseNlriList .ipv4 false [16, 10, 1, 25, 10, 1, 2, 128] =
    .ok [⟨⟨.v4 #v[10, 1, 0, 0], 16⟩, none⟩, ⟨⟨.v4 #v[10, 1, 2, 128], 25⟩, none⟩] := by decide +kernel

/-- C03 (partial). The full property, "a well-formed plain list is always parsed as plain prefixes", is false (see the
counterexample below). Proved: it holds for every list without a /0. -/
theorem c03_plain_list_partial (afi : Afi) (ps : List NetworkPrefix)
    (hok : ∀ p ∈ ps, PrefixOk afi false p) (hz : ∀ p ∈ ps, p.prefix_.len ≠ 0) :
    parseNlriList afi false (encodeNlri ps) = .ok ps :=
  c01_nlri_roundtrip afi false ps hok fun _ => hz

/-- C03, counterexample: `0.0.0.0/0, 1.2.0.0/16, 0.0.0.0/0` sent without Add-Path is read as the single prefix
`0.0.0.0/0` with path id 0x00100102. -/
theorem c03_counterexample :
    ∃ ps : List NetworkPrefix, (∀ p ∈ ps, PrefixOk .ipv4 false p) ∧
      parseNlriList .ipv4 false (encodeNlri ps) = .ok [⟨⟨.v4 v4zero, 0⟩, some 0x00100102⟩] ∧ ps.length = 3 := by
  refine ⟨[⟨⟨.v4 v4zero, 0⟩, none⟩, ⟨⟨.v4 #v[1, 2, 0, 0], 16⟩, none⟩, ⟨⟨.v4 v4zero, 0⟩, none⟩], ?_, ?_, rfl⟩
  · decide +kernel
  · decide +kernel

end Verif.Props
