import Verif.Spec.Json
/-
Lemmas on JSON.
-/
namespace Verif
open Spec

theorem natBelow_nat {n b : Nat} (h : n < b) : (natJson n).natBelow b = some n := by
  show (if n < b then some n else none) = some n
  rw [if_pos h]

theorem u8_nat (x : UInt8) : (natJson x.toNat).u8 = some x := by
  simp [Json.u8, natBelow_nat x.toNat_lt]
theorem u16_nat (x : UInt16) : (natJson x.toNat).u16 = some x := by
  simp [Json.u16, natBelow_nat x.toNat_lt]
theorem u32_nat (x : UInt32) : (natJson x.toNat).u32 = some x := by
  simp [Json.u32, natBelow_nat x.toNat_lt]
theorem u32_asn (x : Asn) : (asnJson x).u32 = some x := u32_nat x

theorem mapM_some {f : β → Option α} {g : α → β} : ∀ {xs : List α}, (∀ x ∈ xs, f (g x) = some x) → (xs.map g).mapM f = some xs
  | [], _ => rfl
  | x :: xs, h => by
    have ih := mapM_some (f := f) (g := g) (xs := xs) fun y hy => h y (by simp [hy])
    simp [List.mapM_cons, h x (by simp), ih]

theorem list_map {f : Json → Option α} {g : α → Json} {xs : List α} (h : ∀ x ∈ xs, f (g x) = some x) :
    Json.list f (.arr (xs.map g)) = some xs := mapM_some h

theorem list_asns (xs : List Asn) : Json.list Json.u32 (.arr (xs.map asnJson)) = some xs := list_map fun x _ => u32_asn x

theorem list_bytes (bs : Bytes) : Json.list Json.u8 (bytesJson bs) = some bs := list_map fun x _ => u8_nat x

theorem octets_bytes {n : Nat} (v : Vector UInt8 n) : Json.octets n (bytesJson v.toList) = some v := by
  simp only [Json.octets, list_bytes]
  have : v.toList.length = n := by simp
  rw [dif_pos this]
  congr 1

theorem viaText_text {f : List Char → Option α} {t : List Char} : (textJson t).viaText f = f t := by
  simp [textJson, Json.viaText]

/-! entries -/

theorem filter_none {kvs : List (String × Json)} {k : String} (h : ∀ kv ∈ kvs, kv.1 ≠ k) : kvs.filter (fun kv => kv.1 == k) = [] := by
  simp only [List.filter_eq_nil_iff, beq_iff_eq]; exact h

theorem entry_lacks {kvs : List (String × Json)} {k : String} (h : LacksEntry kvs k) : Json.entry kvs k = some none := by
  simp only [Json.entry, filter_none h]

theorem entry_has {kvs : List (String × Json)} {k : String} {v : Json} (h : HasEntry kvs k v) : Json.entry kvs k = some (some v) := by
  obtain ⟨a, b, rfl, h1, h2⟩ := h
  simp only [Json.entry, List.filter_append, filter_none h1, List.nil_append, List.filter_cons, beq_self_eq_true, if_pos, filter_none h2]

theorem entry_cases {kvs : List (String × Json)} {k : String} :
    (Json.entry kvs k = some none ∧ LacksEntry kvs k) ∨ (∃ v, Json.entry kvs k = some (some v) ∧ HasEntry kvs k v) ∨
      Json.entry kvs k = none := by
  by_cases h : LacksEntry kvs k
  · exact .inl ⟨entry_lacks h, h⟩
  · right
    cases h2 : Json.entry kvs k with
    | none => exact .inr rfl
    | some o =>
      left
      cases o with
      | none =>
        exfalso
        unfold Json.entry at h2
        split at h2
        · rename_i he
          apply h
          intro kv hk e
          have := List.filter_eq_nil_iff.mp he kv hk
          simp [e] at this
        · simp at h2
        · simp at h2
      | some v =>
        refine ⟨v, rfl, ?_⟩
        unfold Json.entry at h2
        split at h2
        · simp at h2
        · rename_i kv he
          simp only [Option.some.injEq] at h2
          obtain ⟨a, b, e, ha, hk, hb⟩ := List.filter_eq_cons_iff.mp he
          have hb := List.filter_eq_nil_iff.mp hb
          refine ⟨a, b, ?_, fun x hx ex => ha x hx (by simp [ex]), fun x hx ex => hb x hx (by simp [ex])⟩
          rw [e]
          have : kv = (k, v) := by rw [← h2, ← eq_of_beq hk]
          rw [this]
        · simp at h2

theorem entry_eq_some {kvs : List (String × Json)} {k : String} {v : Json} : Json.entry kvs k = some (some v) ↔ HasEntry kvs k v := by
  refine ⟨fun h => ?_, entry_has⟩
  rcases entry_cases (kvs := kvs) (k := k) with ⟨h1, _⟩ | ⟨w, h1, h2⟩ | h1 <;> rw [h1] at h <;> simp at h
  rw [← h]; exact h2

theorem entry_eq_none {kvs : List (String × Json)} {k : String} : Json.entry kvs k = some none ↔ LacksEntry kvs k := by
  refine ⟨fun h => ?_, entry_lacks⟩
  rcases entry_cases (kvs := kvs) (k := k) with ⟨_, h1⟩ | ⟨w, h1, h2⟩ | h1
  · exact h1
  · rw [h1] at h; simp at h
  · rw [h1] at h; simp at h

theorem entry_cons {kvs : List (String × Json)} {k k' : String} {v : Json} (h : k ≠ k') : Json.entry ((k, v) :: kvs) k' = Json.entry kvs k' := by
  simp [Json.entry, List.filter_cons, h]

theorem entry_here {kvs : List (String × Json)} {k : String} {v : Json} (h : LacksEntry kvs k) :
    Json.entry ((k, v) :: kvs) k = some (some v) := entry_has ⟨[], kvs, rfl, by simp, h⟩

theorem fields_zip : ∀ {names : List String} {vals : List Json}, names.Nodup → names.length = vals.length →
    Json.fields names (.obj (names.zip vals)) = some (vals.map some) := by
  suffices ∀ (names : List String) (vals : List Json) (pre : List (String × Json)), (∀ k ∈ names, ∀ kv ∈ pre, kv.1 ≠ k) → names.Nodup → names.length = vals.length →
      names.mapM (Json.entry (pre ++ names.zip vals)) = some (vals.map some) from
    fun {names vals} hn hl => this names vals [] (by simp) hn hl
  intro names
  induction names with
  | nil => intro vals pre _ _ hl; cases vals with | nil => rfl | cons => simp at hl
  | cons k names ih =>
    intro vals pre hp hn hl
    cases vals with
    | nil => simp at hl
    | cons v vals =>
      simp only [List.nodup_cons] at hn
      have h1 : Json.entry (pre ++ (k :: names).zip (v :: vals)) k = some (some v) := by
        refine entry_has ⟨pre, names.zip vals, by simp, hp k (by simp), fun kv hk e => hn.1 ?_⟩
        obtain ⟨a, b⟩ := kv
        rw [← e]
        exact (List.of_mem_zip hk).1
      have h2 := ih vals (pre ++ [(k, v)]) (by
        intro k' hk' kv hkv
        rcases List.mem_append.mp hkv with hkv | hkv
        · exact hp k' (by simp [hk']) kv hkv
        · simp only [List.mem_singleton] at hkv
          subst hkv
          intro e
          have e : k = k' := e
          exact hn.1 (e ▸ hk')) hn.2 (by simpa using hl)
      rw [List.mapM_cons, h1]
      have h3 : pre ++ (k :: names).zip (v :: vals) = pre ++ [(k, v)] ++ names.zip vals := by simp
      rw [h3, h2]
      rfl

theorem opt_opt {f : Json → Option α} {g : α → Json} {o : Option α} (hn : ∀ x, g x ≠ .null) (h : ∀ x, o = some x → f (g x) = some x) :
    Json.opt f (some (optJson g o)) = some o := by
  cases o with
  | none => rfl
  | some x =>
    show Json.opt f (some (g x)) = _
    have := h x rfl
    have h2 := hn x
    cases hg : g x <;> rw [hg] at this h2 <;> simp_all [Json.opt]

/-! segments and paths -/

theorem segOfType_name (s : Seg) : segOfType (segTypeName s) s.asns = some s := by
  cases s <;> rfl

theorem segTypeName_kind (s : Seg) : segTypeName s = kindName s := by cases s <;> rfl

theorem number_nat (n : Nat) : number n = natJson n := rfl

theorem seg_verbose {s : Seg} {j : Json} (h : VerboseSeg s j) : segOfJson j = some s := by
  obtain ⟨kvs, rfl, h1, h2⟩ := h
  have e1 := entry_has h1
  have e2 := entry_has h2
  have e3 : Json.fields ["ty", "values"] (.obj kvs) = some [some (.str (kindName s)), some (.arr (s.asns.map fun a => number a.toNat))] := by
    simp only [Json.fields, List.mapM_cons, e1, e2, List.mapM_nil]; rfl
  have e4 := list_asns s.asns
  unfold segOfJson
  rw [e3]
  have e5 : Json.list Json.u32 (.arr (s.asns.map fun a => number a.toNat)) = some s.asns := e4
  have e6 := segOfType_name s
  rw [segTypeName_kind] at e6
  simp only [Option.bind_eq_bind, Option.bind_some, Json.req, Json.variant, e5, Json.isUnit, if_pos, e6]

theorem segJson_verbose (s : Seg) : VerboseSeg s (segJson s) := by
  refine ⟨_, rfl, ⟨[], _, by rw [segTypeName_kind]; rfl, by simp, by simp⟩, ⟨[("ty", .str (segTypeName s))], [], rfl, by simp, by simp⟩⟩

theorem item_verbose {s : Seg} {j : Json} (h : VerboseSeg s j) : pathItemOf j = some (.verbose s) := by
  have h1 := seg_verbose h
  obtain ⟨kvs, rfl, _⟩ := h
  simp only [pathItemOf, Json.u32, Json.natBelow, Json.list, h1, Option.map_none, Option.map_some]

theorem item_hop (a : Asn) : pathItemOf (asnJson a) = some (.hop a) := by
  simp only [pathItemOf, u32_asn]

theorem item_set (xs : List Asn) : pathItemOf (.arr (xs.map asnJson)) = some (.set xs) := by
  unfold pathItemOf
  rw [list_asns]
  rfl

/-- the items of a path in the flat form. -/
def segItems : Seg → List PathItem
  | .seq xs => xs.map .hop
  | s => [.set s.asns]

theorem segSimple_eq (s : Seg) : (segSimple s).mapM pathItemOf = some (segItems s) := by
  cases s with
  | seq xs =>
    simp only [segSimple, segItems]
    induction xs with
    | nil => rfl
    | cons x xs ih => simp [List.mapM_cons, item_hop, ih]
  | set xs => simp [segSimple, segItems, List.mapM_cons, Seg.asns, item_set]
  | confedSeq xs => simp [segSimple, segItems, List.mapM_cons, Seg.asns, item_set]
  | confedSet xs => simp [segSimple, segItems, List.mapM_cons, Seg.asns, item_set]

theorem path_simple (p : AsPath) : (p.flatMap segSimple).mapM pathItemOf = some (p.flatMap segItems) := by
  induction p with
  | nil => rfl
  | cons s p ih => simp [List.flatMap_cons, List.mapM_append, segSimple_eq, ih]

theorem push_hops {segs : List Seg} {ys : List Asn} (xs : List Asn) :
    (xs.map PathItem.hop).foldl pushItem (segs ++ [.seq ys]) = segs ++ [.seq (ys ++ xs)] := by
  induction xs generalizing ys with
  | nil => simp
  | cons x xs ih =>
    simp only [List.map_cons, List.foldl_cons]
    have : pushItem (segs ++ [.seq ys]) (.hop x) = segs ++ [.seq (ys ++ [x])] := by
      simp [pushItem]
    rw [this, ih]
    simp

/-- the last segment is not a sequence. -/
def NoLastSeq (segs : List Seg) : Prop := ∀ xs, segs.getLast? ≠ some (.seq xs)

theorem push_first {segs : List Seg} (h : NoLastSeq segs) (a : Asn) : pushItem segs (.hop a) = segs ++ [.seq [a]] := by
  show (match segs.getLast? with | some (.seq xs) => _ | _ => _) = _
  split
  · rename_i xs hx; exact absurd hx (h xs)
  · rfl

theorem simplified_flat : ∀ (p : AsPath) (b : Bool) (n : Nat), (simplifiedLen p b n).isSome = true ↔
    (∀ s ∈ p, ¬ IsConfed s) ∧ ¬ AdjacentSeqs p ∧ (b = true → ∀ xs r, p ≠ .seq xs :: r)
  | [], b, n => by
    simp only [simplifiedLen, Option.isSome_some, true_iff]
    exact ⟨by simp, fun ⟨a, _, _, _, h⟩ => by simp at h, by simp⟩
  | .seq xs :: r, true, n => by
    simp only [simplifiedLen, Option.isSome_none, Bool.false_eq_true, false_iff]
    rintro ⟨_, _, h⟩
    exact h trivial xs r rfl
  | .seq xs :: r, false, n => by
    rw [simplifiedLen, simplified_flat r true]
    constructor
    · rintro ⟨h1, h2, h3⟩
      refine ⟨?_, ?_, by simp⟩
      · intro s hs
        rcases List.mem_cons.mp hs with rfl | hs
        · simp [IsConfed]
        · exact h1 s hs
      · rintro ⟨a, us, vs, c, he⟩
        cases a with
        | nil =>
          simp only [List.nil_append, List.cons.injEq] at he
          exact h3 rfl vs c he.2
        | cons x a =>
          simp only [List.cons_append, List.cons.injEq] at he
          exact h2 ⟨a, us, vs, c, he.2⟩
    · rintro ⟨h1, h2, _⟩
      refine ⟨fun s hs => h1 s (by simp [hs]), ?_, ?_⟩
      · rintro ⟨a, us, vs, c, he⟩
        exact h2 ⟨.seq xs :: a, us, vs, c, by simp [he]⟩
      · rintro _ ys c rfl
        exact h2 ⟨[], xs, ys, c, rfl⟩
  | .set xs :: r, b, n => by
    rw [simplifiedLen, simplified_flat r false]
    constructor
    · rintro ⟨h1, h2, h3⟩
      refine ⟨?_, ?_, by simp⟩
      · intro s hs
        rcases List.mem_cons.mp hs with rfl | hs
        · simp [IsConfed]
        · exact h1 s hs
      · rintro ⟨a, us, vs, c, he⟩
        cases a with
        | nil => simp at he
        | cons x a =>
          simp only [List.cons_append, List.cons.injEq] at he
          exact h2 ⟨a, us, vs, c, he.2⟩
    · rintro ⟨h1, h2, _⟩
      refine ⟨fun s hs => h1 s (by simp [hs]), ?_, by simp⟩
      rintro ⟨a, us, vs, c, he⟩
      exact h2 ⟨.set xs :: a, us, vs, c, by simp [he]⟩
  | .confedSeq xs :: r, b, n => by
    simp only [simplifiedLen, Option.isSome_none, Bool.false_eq_true, false_iff]
    rintro ⟨h, _⟩
    exact h (.confedSeq xs) (by simp) trivial
  | .confedSet xs :: r, b, n => by
    simp only [simplifiedLen, Option.isSome_none, Bool.false_eq_true, false_iff]
    rintro ⟨h, _⟩
    exact h (.confedSet xs) (by simp) trivial

theorem flat_iff (p : AsPath) : (simplifiedLen p false 0).isSome = true ↔ Flat p := by
  rw [simplified_flat]; simp [Flat]

theorem flat_tail {s : Seg} {p : AsPath} (h : Flat (s :: p)) : Flat p :=
  ⟨fun t ht => h.1 t (by simp [ht]), fun ⟨a, us, vs, c, he⟩ => h.2 ⟨s :: a, us, vs, c, by simp [he]⟩⟩

/-- reading the items of a flat path after other segments. -/
theorem fold_flat : ∀ (p : AsPath) (segs : List Seg), Flat p → (NoLastSeq segs ∨ ∀ xs r, p ≠ .seq xs :: r) →
    (p.flatMap segItems).foldl pushItem segs = segs ++ p.filter (fun s => s ≠ .seq [])
  | [], segs, _, _ => by simp
  | .seq [] :: r, segs, h, h2 => by
    have hr : ∀ xs q, r ≠ .seq xs :: q := fun xs q e => h.2 ⟨[], [], xs, q, by simp [e]⟩
    have := fold_flat r segs (flat_tail h) (.inr hr)
    simpa [List.flatMap_cons, segItems] using this
  | .seq (x :: xs) :: r, segs, h, h2 => by
    have hr : ∀ ys q, r ≠ .seq ys :: q := fun ys q e => h.2 ⟨[], x :: xs, ys, q, by simp [e]⟩
    have hn : NoLastSeq segs := h2.resolve_right fun h => h (x :: xs) r rfl
    have := fold_flat r (segs ++ [.seq (x :: xs)]) (flat_tail h) (.inr hr)
    rw [List.flatMap_cons, List.foldl_append]
    have e : (segItems (.seq (x :: xs))).foldl pushItem segs = segs ++ [.seq (x :: xs)] := by
      simp only [segItems, List.map_cons, List.foldl_cons, push_first hn]
      rw [push_hops]; rfl
    rw [e, this]
    simp
  | .set xs :: r, segs, h, h2 => by
    have := fold_flat r (segs ++ [.set xs]) (flat_tail h) (.inl (by simp [NoLastSeq]))
    rw [List.flatMap_cons, List.foldl_append]
    have e : (segItems (.set xs)).foldl pushItem segs = segs ++ [.set xs] := rfl
    rw [e, this]
    simp
  | .confedSeq xs :: r, segs, h, h2 => absurd trivial (h.1 (.confedSeq xs) (by simp))
  | .confedSet xs :: r, segs, h, h2 => absurd trivial (h.1 (.confedSet xs) (by simp))

theorem fold_verbose (p : AsPath) (segs : List Seg) : (p.map PathItem.verbose).foldl pushItem segs = segs ++ p := by
  induction p generalizing segs with
  | nil => simp
  | cons s p ih => simp [ih, pushItem]

theorem asPath_flat {p : AsPath} (h : Flat p) : asPathOf (asPathJson p) = some (p.filter (fun s => s ≠ .seq [])) := by
  have h1 := (flat_iff p).mpr h
  unfold asPathJson
  cases hs : simplifiedLen p false 0 with
  | none => rw [hs] at h1; simp at h1
  | some n =>
    simp only [asPathOf, Json.list, path_simple, Option.map_some]
    rw [fold_flat p [] h (.inl (by simp [NoLastSeq]))]
    simp

theorem items_verbose : ∀ {p : AsPath} {js : List Json}, Pairwise2 VerboseSeg p js → js.mapM pathItemOf = some (p.map .verbose)
  | [], [], _ => rfl
  | s :: p, j :: js, h => by
    cases h with
    | cons h1 h2 => simp [List.mapM_cons, item_verbose h1, items_verbose h2]

theorem asPath_verbose {p : AsPath} {js : List Json} (h : Pairwise2 VerboseSeg p js) : asPathOf (.arr js) = some p := by
  simp only [asPathOf, Json.list, items_verbose h, Option.map_some, fold_verbose, List.nil_append]

theorem pairwise_segJson : ∀ p : AsPath, Pairwise2 VerboseSeg p (p.map segJson)
  | [] => .nil
  | s :: p => .cons (segJson_verbose s) (pairwise_segJson p)

theorem asPath_notFlat {p : AsPath} (h : ¬ Flat p) : asPathOf (asPathJson p) = some p := by
  have h1 := mt (flat_iff p).mp h
  unfold asPathJson
  cases hs : simplifiedLen p false 0 with
  | some n => rw [hs] at h1; simp at h1
  | none => exact asPath_verbose (pairwise_segJson p)

theorem asPath_kept {p : AsPath} (h : Flat p → ¬ HasEmptySeq p) : asPathOf (asPathJson p) = some p := by
  by_cases hf : Flat p
  · rw [asPath_flat hf]
    congr 1
    rw [List.filter_eq_self]
    intro s hs
    have := h hf
    simp only [decide_eq_true_eq]
    rintro rfl
    exact this hs
  · exact asPath_notFlat hf

/-! communities -/

theorem fields2 {k1 k2 : String} {v1 v2 : Json} (h : k1 ≠ k2) : Json.fields [k1, k2] (.obj [(k1, v1), (k2, v2)]) = some [some v1, some v2] :=
  fields_zip (names := [k1, k2]) (vals := [v1, v2]) (by simp [h]) rfl

theorem fields3 {k1 k2 k3 : String} {v1 v2 v3 : Json} (h : [k1, k2, k3].Nodup) :
    Json.fields [k1, k2, k3] (.obj [(k1, v1), (k2, v2), (k3, v3)]) = some [some v1, some v2, some v3] :=
  fields_zip (names := [k1, k2, k3]) (vals := [v1, v2, v3]) h rfl

theorem fields4 {k1 k2 k3 k4 : String} {v1 v2 v3 v4 : Json} (h : [k1, k2, k3, k4].Nodup) :
    Json.fields [k1, k2, k3, k4] (.obj [(k1, v1), (k2, v2), (k3, v3), (k4, v4)]) = some [some v1, some v2, some v3, some v4] :=
  fields_zip (names := [k1, k2, k3, k4]) (vals := [v1, v2, v3, v4]) h rfl

theorem asExt_kept {n : Nat} (f : UInt8 → Asn → Vector UInt8 n → ExtCommunity) (st : UInt8) (a : Asn) (l : Vector UInt8 n) :
    asExtOf n f (asExtJson st a l.toList) = some (f st a l) := by
  unfold asExtOf asExtJson
  rw [fields3 (by decide)]
  simp [Json.req, u8_nat, u32_asn, octets_bytes]

theorem v4Ext_kept {env : JsonEnv} (ok : JsonOk env) (f : UInt8 → V4 → Vector UInt8 2 → ExtCommunity) (st : UInt8) (a : V4) (l : Vector UInt8 2) :
    v4ExtOf env f (v4ExtJson st a l.toList) = some (f st a l) := by
  unfold v4ExtOf v4ExtJson
  rw [fields3 (by decide)]
  simp [Json.req, u8_nat, viaText_text, ok.v4, octets_bytes]

theorem opaqueExt_kept (f : UInt8 → Vector UInt8 6 → ExtCommunity) (st : UInt8) (v : Vector UInt8 6) :
    opaqueExtOf f (opaqueExtJson st v.toList) = some (f st v) := by
  unfold opaqueExtOf opaqueExtJson
  rw [fields2 (by decide)]
  simp [Json.req, u8_nat, octets_bytes]

theorem plain_kept (c : Community) : plainOfJson (plainJson c) = some c := by
  cases c with
  | custom a v => simp [plainOfJson, plainJson, Json.variant, u32_asn, u16_nat]
  | _ => rfl

theorem ext_not_plain (env : JsonEnv) (c : ExtCommunity) : plainOfJson (extJson env c) = none := by
  cases c <;> simp [plainOfJson, extJson, Json.variant, Json.isUnit, asExtJson, v4ExtJson, opaqueExtJson, bytesJson]

theorem ext_kept {env : JsonEnv} (ok : JsonOk env) (c : ExtCommunity)
    (hf : ∀ r, communityFloat (.extended c) = some r → env.f32Of (env.f32 r) = some r) : extOf env (extJson env c) = some c := by
  cases c with
  | trafficRate a r =>
    have := hf r rfl
    simp only [extOf, extJson, Json.variant, Option.bind_eq_bind, Option.bind_some, String.reduceEq, ↓reduceIte]
    rw [fields2 (by decide)]
    simp [Json.req, u16_nat, this]
  | linkBandwidth g b t =>
    have := hf b rfl
    simp only [extOf, extJson, Json.variant, Option.bind_eq_bind, Option.bind_some, String.reduceEq, ↓reduceIte]
    rw [fields3 (by decide)]
    simp [Json.req, u16_nat, this, Json.boolean]
  | trafficAction a t s =>
    simp only [extOf, extJson, Json.variant, Option.bind_eq_bind, Option.bind_some, String.reduceEq, ↓reduceIte]
    rw [fields3 (by decide)]
    simp [Json.req, u16_nat, Json.boolean]
  | trafficMarking a d =>
    simp only [extOf, extJson, Json.variant, Option.bind_eq_bind, Option.bind_some, String.reduceEq, ↓reduceIte]
    rw [fields2 (by decide)]
    simp [Json.req, u16_nat, u8_nat]
  | raw b =>
    simp only [extOf, extJson, Json.variant, Option.bind_eq_bind, Option.bind_some, String.reduceEq, ↓reduceIte, octets_bytes]
    rfl
  | _ =>
    simp only [extOf, extJson, Json.variant, Option.bind_eq_bind, Option.bind_some, String.reduceEq, ↓reduceIte,
      asExt_kept, v4Ext_kept ok, opaqueExt_kept]

theorem extType_kept (t : ExtType) : extTypeOf (extTypeJson t) = some t := by
  cases t with
  | unknown c => simp [extTypeOf, extTypeJson, Json.variant, Json.req, u8_nat]
  | _ => rfl

theorem ipv6Ext_kept {env : JsonEnv} (ok : JsonOk env) (c : Ipv6ExtCommunity) : ipv6ExtOf env (ipv6ExtJson env c) = some c := by
  unfold ipv6ExtOf ipv6ExtJson
  rw [fields4 (by decide)]
  simp [Json.req, u8_nat, viaText_text, ok.v6, octets_bytes, extType_kept]

theorem large_kept (c : LargeCommunity) : largeOfJson (largeJson c) = some c := by
  unfold largeOfJson largeJson
  rw [fields2 (by decide)]
  have : Json.list Json.u32 (.arr [natJson c.local1.toNat, natJson c.local2.toNat]) = some [c.local1, c.local2] :=
    list_map (g := fun x : UInt32 => natJson x.toNat) (xs := [c.local1, c.local2]) fun x _ => u32_nat x
  simp [Json.req, u32_nat, this]

theorem large_not_ipv6 (env : JsonEnv) (c : LargeCommunity) : ipv6ExtOf env (largeJson c) = none := by
  unfold ipv6ExtOf largeJson
  have : Json.fields ["community_type", "subtype", "global_admin", "local_admin"]
      (.obj [("global_admin", natJson c.globalAdmin.toNat), ("local_data", .arr [natJson c.local1.toNat, natJson c.local2.toNat])])
      = some [none, none, some (natJson c.globalAdmin.toNat), none] := by
    simp [Json.fields, List.mapM_cons, Json.entry]
  rw [this]
  rfl

theorem community_kept {env : JsonEnv} (ok : JsonOk env) (c : MetaCommunity)
    (hf : ∀ r, communityFloat c = some r → env.f32Of (env.f32 r) = some r) : communityOf env (communityJson env c) = some c := by
  cases c with
  | plain c => simp only [communityOf, communityJson, plain_kept]
  | extended c => simp only [communityOf, communityJson, ext_not_plain, ext_kept ok c hf]
  | ipv6Extended c =>
    have h1 : plainOfJson (ipv6ExtJson env c) = none := rfl
    have h2 : extOf env (ipv6ExtJson env c) = none := rfl
    simp only [communityOf, communityJson, h1, h2, ipv6Ext_kept ok]
  | large c =>
    have h1 : plainOfJson (largeJson c) = none := rfl
    have h2 : extOf env (largeJson c) = none := rfl
    simp only [communityOf, communityJson, h1, h2, large_not_ipv6, large_kept, Option.map_some]

/-! the rest of elements -/

theorem attrRaw_kept (a : AttrRaw) : attrRawOf (attrRawJson a) = some a := by
  unfold attrRawOf attrRawJson
  rw [fields2 (by decide)]
  simp [Json.req, u8_nat, bytesOf, list_bytes]

theorem prefix_kept {env : JsonEnv} (ok : JsonOk env) (p : NetworkPrefix) (h : p.prefix_.len.toNat ≤ p.prefix_.addr.maxLen) :
    prefixOf env (prefixJson env p) = some p := by
  obtain ⟨n, i⟩ := p
  cases i with
  | none => simp only [prefixOf, prefixJson, viaText_text, ok.net n h]
  | some i =>
    simp only [prefixOf, prefixJson]
    have e1 := ok.net n h
    have h1 : Json.entry [("prefix", textJson (n.text env.out)), ("path_id", natJson i.toNat)] "prefix" = some (some (textJson (n.text env.out))) :=
      entry_here (by simp [LacksEntry])
    have h2 : Json.entry [("prefix", textJson (n.text env.out)), ("path_id", natJson i.toNat)] "path_id" = some (some (natJson i.toNat)) := by
      rw [entry_cons (by decide)]; exact entry_here (by simp [LacksEntry])
    simp [h1, h2, Json.viaText, viaText_text, e1, u32_nat]
    simp [textJson, Json.viaText, e1]

theorem origin_kept (o : Origin) : originOf (originJson o) = some o := by cases o <;> rfl
theorem elemType_kept (t : ElemType) : elemTypeOf (elemTypeJson t) = some t := by cases t <;> rfl

theorem originJson_ne (o : Origin) : originJson o ≠ .null := by cases o <;> simp [originJson]
theorem asPathJson_ne (p : AsPath) : asPathJson p ≠ .null := by unfold asPathJson; split <;> simp
theorem textJson_ne (t : List Char) : textJson t ≠ .null := by simp [textJson]
theorem natJson_ne (n : Nat) : natJson n ≠ .null := by simp [natJson]

theorem elemKeys_nodup : elemKeys.Nodup := by decide
theorem routeKeys_nodup : routeKeys.Nodup := by decide

end Verif
