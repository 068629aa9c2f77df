import Verif.Lemmas.JsonRead
import Verif.Props.JsonAttrs
import Verif.Props.RewriteFile
import Verif.Props.Updates
/-
**C108**: what was read satisfies what the theorems of Props/JsonAttrs.lean assume of a value.
-/
namespace Verif.Props
open Spec

/-- **C108** Attributes that were read: the types hold, whatever the octets. -/
theorem c108_read_attributes (cfg : AttrCfg) (hp : ∀ ps, cfg.prefixes = some ps → ∀ p ∈ ps, NetOk p.prefix_) (s : Bytes) (a : Attributes)
    (h : parseAttributes cfg s = .ok a) : AttributesOk a := attributes_typed hp h

/-- **C108** An UPDATE message that was read. -/
theorem c108_read_update (ap : Bool) (l : AsnLen) (s : Bytes) (u : Update) (h : parseUpdate ap l s = .ok u) : UpdateTyped u :=
  update_typed h

/-- **C108** The announcements of a record that was read. -/
theorem c108_read_record (r : MrtRecord) (hr : WasRead r) (u : MrtUpdate) (hu : u ∈ updatesOf r) : MrtUpdateTyped u := by
  obtain ⟨raw, b, _, hp⟩ := hr
  obtain ⟨_, hp⟩ := raw_parse.mp hp
  unfold updatesOf at hu
  obtain ⟨hd, msg⟩ := r
  simp only at hu hp
  have htd : ∀ ms : List TableDump, parseTableDumps raw.header.subtype raw.body = .ok ms → ∀ m ∈ ms,
      MrtUpdateTyped (.tableDump m) := fun ms h m hm => tableDumps_typed h m hm
  unfold parseMrtBody at hp
  split at hp
  · split at hp
    · cases hp
    · rename_i h1
      cases hp
      simp only [List.mem_singleton] at hu
      subst hu
      exact htd _ h1 _ (by simp)
    · rename_i h1
      cases hp
      simp only [List.mem_map] at hu
      obtain ⟨m, hm, rfl⟩ := hu
      exact htd _ h1 m hm
  · obtain ⟨v, hv, rfl⟩ := mapOk_eq hp
    cases v with
    | ribAfi t =>
      simp only [List.mem_singleton] at hu
      subst hu
      exact tableDumpV2_typed hv
    | _ => simp at hu
  · obtain ⟨v, hv, rfl⟩ := mapOk_eq hp
    have := bgp4mp_typed hv
    split at hu <;> simp_all [MrtUpdateTyped, MpTyped, BgpTyped]
  · obtain ⟨v, hv, rfl⟩ := mapOk_eq hp
    have := bgp4mp_typed hv
    split at hu <;> simp_all [MrtUpdateTyped, MpTyped, BgpTyped]
  · obtain ⟨v, hv, rfl⟩ := mapOk_eq hp
    have := legacy_typed hv
    split at hu <;> simp_all [MrtUpdateTyped, LegacyTyped, BgpTyped]
  · cases hp

/-- **C108** Every announcement of the iterators. -/
theorem c108_read_iterators (cd : Bool) (pol : Pol) (s : Src) (n : Nat) (u : MrtUpdate) :
    (u ∈ (forLoop (updatesNext cd pol) n (.new false s)).1 → MrtUpdateTyped u) ∧
    (s.stuck ≠ some false → Except.ok u ∈ (forLoop (fallibleUpdatesNext pol) n (.new false s)).1 → MrtUpdateTyped u) := by
  constructor
  · intro hu
    rw [(c69_updates cd pol pol s ((toks s.evs).length + 1) (Nat.lt_succ_self _) n).1] at hu
    obtain ⟨r, hr, hu⟩ := List.mem_flatMap.mp (List.mem_of_mem_take hu)
    exact c108_read_record r ((c106_iterators keepAll () cd pol s _ r).2 (Nat.lt_succ_self _) hr) u hu
  · intro hs hu
    rw [(c69_fallible pol pol s hs ((toks s.evs).length + 1) (Nat.lt_succ_self _) n).1] at hu
    obtain ⟨x, hr, hu⟩ := List.mem_flatMap.mp (List.mem_of_mem_take hu)
    cases x with
    | error e => simp at hu
    | ok r =>
      simp only [List.mem_map, Except.ok.injEq, exists_eq_right] at hu
      exact c108_read_record r ((c106_iterators keepAll () cd pol s _ r).1 hr) u hu

/-- **C108** An announcement of the iterators whose numbers are finite is read back from its JSON document with the same prefixes,
entries, peer and time, and the attributes of `attributesRead`; one with an infinite number or NaN is not read back. -/
theorem c108_iterators (env : JsonEnv) (ok : JsonOk env) (fok : FloatOk env) (cd : Bool) (pol : Pol) (s : Src) (n : Nat)
    (u : MrtUpdate) (hu : u ∈ (forLoop (updatesNext cd pol) n (.new false s)).1) :
    ((∀ a ∈ mrtAttributeLists u, FloatsFinite a) → mrtUpdateOf env (mrtUpdateJson env u) = some (onMrtUpdate attributesRead u)) ∧
    (¬ (∀ a ∈ mrtAttributeLists u, FloatsFinite a) → mrtUpdateOf env (mrtUpdateJson env u) = none) :=
  c108_announcement_partial env ok fok u ((c108_read_iterators cd pol s n u).1 hu)

/-- **C108** An announcement of the iterators is read back as itself exactly if JSON keeps the attributes. -/
theorem c108_iterators_same (env : JsonEnv) (ok : JsonOk env) (fok : FloatOk env) (cd : Bool) (pol : Pol) (s : Src) (n : Nat)
    (u : MrtUpdate) (hu : u ∈ (forLoop (updatesNext cd pol) n (.new false s)).1) :
    mrtUpdateOf env (mrtUpdateJson env u) = some u ↔ ∀ a ∈ mrtAttributeLists u, AttrsKept a :=
  c108_announcement_same env ok fok u ((c108_read_iterators cd pol s n u).1 hu)

/-! ### not vacuous -/

theorem jsonEnv_float : FloatOk jsonEnv := { jsonEnv_nan with finite := jsonEnv_f32 }

/-- ORIGIN, an AS_PATH with two AS numbers, NEXT_HOP and MP_REACH_NLRI with a labelled prefix, as they are sent. -/
def exAttrBytes : Bytes :=
  [0x40, 1, 1, 0] ++ ([0x40, 2, 10, 2, 2, 0, 0, 0, 1, 0, 1, 0, 2] ++ ([0x40, 3, 4, 10, 0, 0, 1] ++
    [0x80, 14, 16, 0, 1, 4, 4, 10, 0, 0, 1, 0, 48, 0, 1, 1, 192, 0, 2]))

/-- what is read. -/
def exAttrs : Attributes :=
  let inner := [⟨0x40, .origin .igp⟩, ⟨0x40, .asPath [.seq [1, 65538]]⟩, ⟨0x40, .nextHop (.v4 #v[10, 0, 0, 1])⟩,
    ⟨0x80, .mpReach ⟨.ipv4, .mplsLabel, some (.v4 #v[10, 0, 0, 1]), [], some [⟨⟨.v4 #v[192, 0, 2, 0], 24⟩, [16], none⟩], none, none⟩⟩]
  ⟨inner, [], Attributes.computeMask inner⟩

theorem exAttrs_read : parseAttributes ⟨.b32, false, none, none, none⟩ exAttrBytes = .ok exAttrs := by decide +kernel

/-- they are read, and JSON keeps them. -/
theorem exAttrs_kept : AttributesOk exAttrs ∧ AttrsKept exAttrs := by
  refine ⟨c108_read_attributes _ (by simp) _ _ exAttrs_read, ?_, rfl, rfl, ?_⟩ <;> intro x hx <;>
    simp only [exAttrs, List.mem_cons, List.not_mem_nil, or_false] at hx
  · rcases hx with rfl | rfl | rfl | rfl <;> simp [valueFloats]
  · rcases hx with rfl | rfl | rfl | rfl <;> simp [valuePath, PathKept, HasEmptySeq]

example : attributesOf jsonEnv (attributesJson jsonEnv exAttrs) = some exAttrs :=
  (c108_attributes_same _ jsonEnv_ok jsonEnv_float _ exAttrs_kept.1).mpr exAttrs_kept.2

/-- an announcement with them. -/
example : mrtUpdateOf jsonEnv (mrtUpdateJson jsonEnv (.bgp4mp 1 (.v4 #v[10, 0, 0, 1]) 1 ⟨[], exAttrs, [⟨⟨.v4 #v[10, 0, 0, 0], 8⟩, none⟩]⟩)) =
    some (.bgp4mp 1 (.v4 #v[10, 0, 0, 1]) 1 ⟨[], exAttrs, [⟨⟨.v4 #v[10, 0, 0, 0], 8⟩, none⟩]⟩) := by
  have ht : UpdateTyped ⟨[], exAttrs, [⟨⟨.v4 #v[10, 0, 0, 0], 8⟩, none⟩]⟩ := by
    refine ⟨by simp, exAttrs_kept.1, ?_⟩
    intro p hp
    simp only [List.mem_singleton] at hp
    subst hp
    unfold NetOk
    decide
  refine (c108_announcement_same _ jsonEnv_ok jsonEnv_float (.bgp4mp 1 (.v4 #v[10, 0, 0, 1]) 1 _) ht).mpr ?_
  intro a ha
  simp only [mrtAttributeLists, List.mem_singleton] at ha
  subst ha
  exact exAttrs_kept.2

/-- attributes with a warning, an empty sequence in the path, and a NaN among the numbers: what is read, and what is not. -/
example (a : Attributes) (ha : AttributesOk a) (hw : a.warnings = [.duplicate 1]) :
    attributesOf jsonEnv (attributesJson jsonEnv a) ≠ some a := by
  intro h
  have := ((c108_attributes_same _ jsonEnv_ok jsonEnv_float _ ha).mp h).warnings
  rw [hw] at this
  cases this
example : attrValOf jsonEnv (attrValJson jsonEnv (.asPath [.set [2], .seq []])) = some (.asPath [.set [2]]) := by
  rw [c108_value_partial _ jsonEnv_ok jsonEnv_float (.asPath [.set [2], .seq []]) trivial (by simp [valueFloats])]
  have hf : Flat [.set [2], .seq []] :=
    flat_append_seq (p := [.set [2]]) (flat_append_set (p := []) ⟨by simp, by rintro ⟨a, _, _, _, h⟩; cases a <;> cases h⟩ [2]) (by simp [NoLastSeq]) []
  simp [valueRead, pathRead, hf]
example : attrValOf jsonEnv (attrValJson jsonEnv (.extCommunities [.trafficRate 1 0x7FC00000])) = none :=
  c108_violation_floats _ jsonEnv_nan _ 0x7FC00000 (by simp [valueFloats, communityFloat]) (by unfold FiniteF32; decide)

/-- a truncated attribute is in the set of types of what was read, but not among the attributes: after JSON it is in neither. -/
theorem c108_violation_mask : ∃ a, parseAttributes ⟨.b32, false, none, none, none⟩ [0x40, 1, 2, 0] = .ok a ∧ a.hasAttr 1 = true ∧
    ∃ b, attributesOf jsonEnv (attributesJson jsonEnv a) = some b ∧ b.hasAttr 1 = false := by
  have h : ∃ a, parseAttributes ⟨.b32, false, none, none, none⟩ [0x40, 1, 2, 0] = .ok a ∧ a.hasAttr 1 = true ∧ a.inner = [] := by
    cases ha : parseAttributes ⟨.b32, false, none, none, none⟩ [0x40, 1, 2, 0] with
    | error e =>
      have : (match parseAttributes ⟨.b32, false, none, none, none⟩ [0x40, 1, 2, 0] with | .error _ => false | .ok _ => true) = true := by
        decide +kernel
      rw [ha] at this
      cases this
    | ok a =>
      have : (match parseAttributes ⟨.b32, false, none, none, none⟩ [0x40, 1, 2, 0] with
        | .error _ => false | .ok a => a.hasAttr 1 && a.inner.isEmpty) = true := by decide +kernel
      rw [ha] at this
      simp only [Bool.and_eq_true, List.isEmpty_iff] at this
      exact ⟨a, rfl, this⟩
  obtain ⟨a, h1, h2, h3⟩ := h
  refine ⟨a, h1, h2, _, (c108_attributes_partial _ jsonEnv_ok jsonEnv_float a (by intro x hx; rw [h3] at hx; cases hx)).1
    (by intro x hx; rw [h3] at hx; cases hx), ?_⟩
  simp only [attributesRead, h3]
  decide +kernel

end Verif.Props
