import Verif.Lemmas.AsPath
import Verif.Lemmas.AsPathRoutes
/-
C04 – C10: AS paths.
-/
namespace Verif.Props
open Spec

/-- an AS path with all four segment kinds. -/
def exPath : AsPath :=
  [.confedSeq [65001, 65002], .seq [3356, 3356, 174], .set [13335, 15169], .seq [64500], .confedSet [65010]]

/-! ### C04, C05 -/

/-- C04. Encoding and parsing are inverse to each other: parsing accepts exactly the encodings, and returns the same
segments with the same types and ASNs in the same order. -/
theorem c04_aspath_roundtrip (l : AsnLen) (p : AsPath) (bs : Bytes) :
    encodeAsPath l p = .ok bs ↔ parseAsPath l bs = .ok p := by
  constructor
  · intro h
    obtain ⟨h1, rfl⟩ := encodeAsPath_ok.mp h
    exact many_encode p fun s hs => ⟨segEnc_ne_nil l s, parseSeg_encode (h1 s hs)⟩
  · intro h
    obtain ⟨h1, h2⟩ := many_sound (enc := segEnc l) (P := SegFits l) (fun b s r h => parseSeg_ok h) h
    exact encodeAsPath_ok.mpr ⟨h2, h1⟩

example : encodeAsPath .b16 [.seq [1, 2], .set [65535]] = .ok [2, 2, 0, 1, 0, 2, 1, 1, 255, 255] := by decide +kernel

/-- C04. Parsing never panics. -/
theorem c04_aspath_no_panic (l : AsnLen) (bs : Bytes) : parseAsPath l bs ≠ .error .panic :=
  many_noPanic (parseSeg_noPanic l) (fun _ _ _ h => by rw [(parseSeg_ok h).1]; simp [segEnc]; omega) bs

/-- C05. Encoding succeeds exactly when every segment has at most 255 members and, for 2-byte encoding, every ASN is at
most 65535. With `c04_aspath_roundtrip`, whenever it succeeds the bytes carry every ASN exactly. -/
theorem c05_aspath_encode_total (l : AsnLen) (p : AsPath) :
    (∃ bs, encodeAsPath l p = .ok bs) ↔
      ∀ s ∈ p, s.asns.length ≤ 255 ∧ (l = .b16 → ∀ a ∈ s.asns, a.toNat ≤ 65535) := by
  constructor
  · rintro ⟨bs, h⟩
    exact (encodeAsPath_ok.mp h).1
  · intro h
    exact ⟨_, encodeAsPath_ok.mpr ⟨h, rfl⟩⟩

/-- C05. The bytes written, spelt out: per segment its type, its member count and the members in order. -/
theorem c05_aspath_bytes (l : AsnLen) (p : AsPath) (bs : Bytes) (h : encodeAsPath l p = .ok bs) :
    bs = p.flatMap fun s => s.code :: UInt8.ofNat s.asns.length :: s.asns.flatMap (encAsn l) :=
  (encodeAsPath_ok.mp h).2

example : encodeAsPath .b16 [.seq [70000]] = .error (.tooLarge 70000 65535) := by decide +kernel
example : encodeAsPath .b32 [.seq (List.replicate 256 1)] = .error (.tooLarge 256 255) := by decide +kernel

/-! ### C06 -/

/-- C06. AS4_PATH longer than AS_PATH is ignored. -/
theorem c06_as4_longer (aspath as4 : AsPath) (h : pathLen (atoms aspath) < pathLen (atoms as4)) :
    AsPath.mergeAs4 aspath as4 = some aspath := by
  unfold AsPath.mergeAs4
  rw [routeLen_eq_pathLen, routeLen_eq_pathLen, if_pos h]

/-- C06. Otherwise the merge does not panic, its hops are a leading part of the AS_PATH hops followed by all AS4_PATH
hops, its length is that of AS_PATH, and the leading part ends in a hop that counts (or is empty): exactly as many
hops are taken as needed. -/
theorem c06_as4_merge (aspath as4 : AsPath) (h : pathLen (atoms as4) ≤ pathLen (atoms aspath)) :
    ∃ m lead, AsPath.mergeAs4 aspath as4 = some m ∧ atoms m = lead ++ atoms as4 ∧ lead <+: atoms aspath ∧
      pathLen lead = pathLen (atoms aspath) - pathLen (atoms as4) ∧
      pathLen (atoms m) = pathLen (atoms aspath) ∧ (∀ a ∈ lead.getLast?, a.routeLen = 1) := by
  unfold AsPath.mergeAs4
  rw [routeLen_eq_pathLen, routeLen_eq_pathLen, if_neg (by omega)]
  obtain ⟨l, e, hp, hl, _, hlast⟩ := takeLeading_spec aspath (pathLen (atoms aspath) - pathLen (atoms as4)) (by omega)
  have hat : atoms (AsPath.coalesce (l ++ as4)) = atoms l ++ atoms as4 := by
    rw [coalesce_atoms]; simp [atoms]
  refine ⟨AsPath.coalesce (l ++ as4), atoms l, by rw [e]; rfl, hat, hp, hl, ?_, hlast⟩
  rw [hat, pathLen_append, hl]; omega

/-- C06. The merge never panics. -/
theorem c06_as4_no_panic (aspath as4 : AsPath) : (AsPath.mergeAs4 aspath as4).isSome = true := by
  by_cases h : pathLen (atoms aspath) < pathLen (atoms as4)
  · rw [c06_as4_longer _ _ h]; rfl
  · obtain ⟨m, l, e, _⟩ := c06_as4_merge aspath as4 (by omega)
    rw [e]; rfl

example : AsPath.mergeAs4 [.seq [3356, 23456, 23456]] [.seq [100000, 100001]] = some [.seq [3356, 100000, 100001]] := by
  decide +kernel

/-- Disagreement with RFC 6793 §4.2.3 ("a valid AS_CONFED_SEQUENCE … SHALL be prepended if it is either the leading path
segment or is adjacent to a path segment that is prepended"): a confederation segment adjacent to the prepended part is
lost, and so is a leading one when nothing is prepended. -/
theorem c06_confed_dropped :
    AsPath.mergeAs4 [.seq [1], .confedSeq [65001], .seq [23456]] [.seq [100000]] = some [.seq [1, 100000]] ∧
    AsPath.mergeAs4 [.confedSeq [65001], .seq [23456]] [.seq [100000]] = some [.seq [100000]] := by
  decide +kernel

/-! ### C07 -/

/-- C07. When route enumeration does not overflow it yields exactly the routes of the specification, in order. -/
theorem c07_routes (p : AsPath) (rs : List (List Asn)) (h : AsPath.iterRoutes p = .ok rs) :
    rs = routes p ∧ (∀ r, r ∈ rs ↔ IsRoute p r) ∧ rs.length = variations p ∧
      (AsPath.numRouteVariations p).map UInt64.toNat = .ok rs.length := by
  have hr := iterRoutes_ok h
  refine ⟨hr, by rw [hr]; exact mem_routes p, by rw [hr, routes_length], ?_⟩
  unfold AsPath.iterRoutes at h
  cases hn : AsPath.numRouteVariations p with
  | error e => rw [hn] at h; cases h
  | ok v =>
    rw [hr, routes_length]
    have := numVar_ok p 1 v hn
    simp at this
    simp [Except.map, this]

/-- C07. Enumeration succeeds whenever the number of routes fits in 64 bits and no set is empty. -/
theorem c07_routes_total (p : AsPath) (hs : ∀ s ∈ p, s ≠ .set []) (hv : variations p < 2 ^ 64) :
    AsPath.iterRoutes p = .ok (routes p) := by
  obtain ⟨v, hn⟩ := numVar_total p 1 hs (by simpa using hv)
  have hn : AsPath.numRouteVariations p = .ok v := hn
  have : ∃ rs, AsPath.iterRoutes p = .ok rs := by
    unfold AsPath.iterRoutes; rw [hn]; exact ⟨_, rfl⟩
  obtain ⟨rs, h⟩ := this
  rw [h, iterRoutes_ok h]

example : AsPath.iterRoutes exPath = .ok [[3356, 3356, 174, 13335, 64500], [3356, 3356, 174, 15169, 64500]] := by
  decide +kernel

/-- Disagreement: the 64-bit product overflows (a panic in a debug build, a wrapped count in a release build) for a path
with 64 two-member sets. -/
theorem c07_overflow : AsPath.numRouteVariations (List.replicate 64 (.set [1, 2])) = .error .panic := by
  decide +kernel

/-! ### C08 -/

/-- C08. Coalescing keeps the hops (hence the path length, the ASNs in order and all routes). -/
theorem c08_coalesce_preserves (p : AsPath) :
    atoms p.coalesce = atoms p ∧ p.coalesce.routeLen = p.routeLen ∧ routes p.coalesce = routes p := by
  refine ⟨coalesce_atoms p, ?_, ?_⟩
  · rw [routeLen_eq_pathLen, routeLen_eq_pathLen, coalesce_atoms]
  · rw [routes_atoms, routes_atoms, coalesce_atoms]

/-- C08. The result has no two mergeable neighbours and no empty sequence, except that a non-empty path made of empty
sequences only becomes one empty sequence. -/
theorem c08_coalesce_minimal (p : AsPath) :
    Minimal p.coalesce ∨ (atoms p = [] ∧ p ≠ [] ∧ (p.coalesce = [.seq []] ∨ p.coalesce = [.confedSeq []])) := by
  cases p with
  | nil => exact .inl trivial
  | cons s r =>
    rw [coalesce_cons]
    rcases coFold_minimal_or mergeLike_merge r s with h | ⟨e, h, he⟩
    · exact .inl h
    · refine .inr ⟨?_, by simp, ?_⟩
      · have := coalesce_atoms (s :: r)
        rw [coalesce_cons, h] at this
        rw [← this]
        simp [atoms, emptySeq_atoms he]
      · rw [h]
        cases e <;> simp [Seg.isEmptySeq] at he <;> simp [he]

/-- C08. Coalescing is idempotent. -/
theorem c08_coalesce_idempotent (p : AsPath) : p.coalesce.coalesce = p.coalesce := by
  cases p with
  | nil => rfl
  | cons s r =>
    rw [coalesce_cons]
    rcases coFold_minimal_or mergeLike_merge r s with h | ⟨e, h, he⟩
    · generalize coFold Seg.merge s r = q at *
      cases q with
      | nil => rfl
      | cons t u => rw [coalesce_cons, coFold_of_minimal u t h]
    · rw [h, coalesce_cons]; rfl

/-- C08. The coalesced form is determined by the hops: paths with the same (non-empty) hops coalesce to the same path. -/
theorem c08_coalesce_canonical (p q : AsPath) (h : atoms p = atoms q) (hne : atoms p ≠ []) :
    p.coalesce = q.coalesce := by
  have hp := (c08_coalesce_minimal p).resolve_right fun h => hne h.1
  have hq := (c08_coalesce_minimal q).resolve_right fun h' => hne (h.trans h'.1)
  exact minimal_unique hp hq (by rw [coalesce_atoms, coalesce_atoms, h])

example : AsPath.coalesce [.seq [1, 2], .seq [], .seq [3], .set [4], .confedSeq [], .seq [5], .seq [6]] =
    [.seq [1, 2, 3], .set [4], .seq [5, 6]] := by decide +kernel

/-! ### C09 -/

/-- C09. The hops after `dedup_coalesce` are the hops with sets normalised and immediate repetitions dropped. -/
theorem c09_dedup_routing (p : AsPath) : atoms p.dedupCoalesce = routing p := by
  cases p with
  | nil => rfl
  | cons s r =>
    rw [dedupCoalesce_cons, (coFold_dedup r s.dedup (dedup_idem s)).1, dedup_atoms, collapse_append_left]
    rfl

theorem mem_of_mem_collapse {l : List Atom} {a : Atom} : a ∈ collapse l ↔ a ∈ l := by
  fun_induction collapse l with
  | case1 => rfl
  | case2 => rfl
  | case3 a b r h ih => rw [ih]; simp [h.1]
  | case4 a b r h ih => simp only [List.mem_cons] at ih ⊢; rw [ih]

/-- the ASNs a hop mentions. -/
def atomAsns : Atom → List Asn
  | .asn a | .confed a => [a]
  | .set xs | .confedSet xs => xs

theorem contains_iff_atoms (p : AsPath) (x : Asn) : p.containsAsn x = true ↔ ∃ a ∈ atoms p, x ∈ atomAsns a := by
  simp only [AsPath.containsAsn, List.any_eq_true, List.contains_iff_mem, atoms, List.mem_flatMap]
  constructor
  · rintro ⟨s, hs, hx⟩
    cases s with
    | seq xs => exact ⟨.asn x, ⟨_, hs, List.mem_map.mpr ⟨x, hx, rfl⟩⟩, by simp [atomAsns]⟩
    | set xs => exact ⟨.set xs, ⟨_, hs, by simp [segAtoms]⟩, hx⟩
    | confedSeq xs => exact ⟨.confed x, ⟨_, hs, List.mem_map.mpr ⟨x, hx, rfl⟩⟩, by simp [atomAsns]⟩
    | confedSet xs => exact ⟨.confedSet xs, ⟨_, hs, by simp [segAtoms]⟩, hx⟩
  · rintro ⟨a, ⟨s, hs, ha⟩, hx⟩
    refine ⟨s, hs, ?_⟩
    cases s with
    | seq xs =>
      obtain ⟨y, hy, rfl⟩ := List.mem_map.mp ha
      simp [atomAsns] at hx; subst hx; exact hy
    | confedSeq xs =>
      obtain ⟨y, hy, rfl⟩ := List.mem_map.mp ha
      simp [atomAsns] at hx; subst hx; exact hy
    | set xs => simp [segAtoms] at ha; subst ha; exact hx
    | confedSet xs => simp [segAtoms] at ha; subst ha; exact hx

theorem normAtoms_asns (s : Seg) (x : Asn) : (∃ a ∈ normAtoms s, x ∈ atomAsns a) ↔ x ∈ s.asns := by
  cases s with
  | seq xs =>
    show _ ↔ x ∈ xs
    simp only [normAtoms, List.mem_map]
    constructor
    · rintro ⟨_, ⟨y, hy, rfl⟩, hx⟩; simp [atomAsns] at hx; subst hx; exact hy
    · intro h; exact ⟨_, ⟨x, h, rfl⟩, by simp [atomAsns]⟩
  | confedSeq xs =>
    show _ ↔ x ∈ xs
    simp only [normAtoms, List.mem_map]
    constructor
    · rintro ⟨_, ⟨y, hy, rfl⟩, hx⟩; simp [atomAsns] at hx; subst hx; exact hy
    · intro h; exact ⟨_, ⟨x, h, rfl⟩, by simp [atomAsns]⟩
  | set xs =>
    show _ ↔ x ∈ xs
    rw [← mem_usort xs x]
    simp only [normAtoms]
    split
    · rename_i a h; simp [atomAsns, h]
    · simp [atomAsns]
  | confedSet xs =>
    show _ ↔ x ∈ xs
    rw [← mem_usort xs x]
    simp only [normAtoms]
    split
    · rename_i a h; simp [atomAsns, h]
    · simp [atomAsns]

/-- C09. No ASN disappears and none is added. -/
theorem c09_dedup_members (p : AsPath) (x : Asn) : p.dedupCoalesce.containsAsn x = p.containsAsn x := by
  rw [Bool.eq_iff_iff, contains_iff_atoms, c09_dedup_routing]
  simp only [routing, mem_of_mem_collapse, List.mem_flatMap, AsPath.containsAsn, List.any_eq_true, List.contains_iff_mem]
  constructor
  · rintro ⟨a, ⟨s, hs, ha⟩, hx⟩
    exact ⟨s, hs, (normAtoms_asns s x).mp ⟨a, ha, hx⟩⟩
  · rintro ⟨s, hs, hx⟩
    obtain ⟨a, ha, hx⟩ := (normAtoms_asns s x).mpr hx
    exact ⟨a, ⟨s, hs, ha⟩, hx⟩

/-- C09. `dedup_coalesce` leaves no two mergeable neighbours (or one empty sequence). -/
theorem c09_dedup_minimal (p : AsPath) :
    Minimal p.dedupCoalesce ∨ (routing p = [] ∧ p ≠ [] ∧
      (p.dedupCoalesce = [.seq []] ∨ p.dedupCoalesce = [.confedSeq []])) := by
  cases p with
  | nil => exact .inl trivial
  | cons s r =>
    have hrout := c09_dedup_routing (s :: r)
    rw [dedupCoalesce_cons] at hrout ⊢
    rcases coFold_minimal_or mergeLike_dedup r s.dedup with h | ⟨e, h, he⟩
    · exact .inl h
    · refine .inr ⟨?_, by simp, ?_⟩
      · rw [← hrout, h]; simp [atoms, emptySeq_atoms he]
      · rw [h]
        cases e <;> simp [Seg.isEmptySeq] at he <;> simp [he]

/-- C09. `dedup_coalesce` is idempotent. -/
theorem c09_dedup_idempotent (p : AsPath) : p.dedupCoalesce.dedupCoalesce = p.dedupCoalesce := by
  have hfix := dedupCoalesce_fix_all p
  rcases c09_dedup_minimal p with h | ⟨_, _, h | h⟩
  · generalize p.dedupCoalesce = q at *
    cases q with
    | nil => rfl
    | cons t u =>
      rw [dedupCoalesce_cons, hfix t (by simp), coFold_dedup_fix u t h hfix]
  · rw [h]; decide
  · rw [h]; decide

theorem pathEq_of_fix {p q : AsPath} (hp : ∀ s ∈ p, s.dedup = s) (hq : ∀ s ∈ q, s.dedup = s) :
    p.eq q = true ↔ p = q := by
  induction p generalizing q with
  | nil => cases q <;> simp [AsPath.eq]
  | cons a p ih =>
    cases q with
    | nil => simp [AsPath.eq]
    | cons b q =>
      have ih := ih (q := q) (fun s hs => hp s (List.mem_cons_of_mem _ hs)) (fun s hs => hq s (List.mem_cons_of_mem _ hs))
      simp only [AsPath.eq, Bool.and_eq_true, List.cons.injEq, ih]
      constructor
      · rintro ⟨h1, h2⟩; exact ⟨segEq_fix (hp a (by simp)) (hq b (by simp)) h1, h2⟩
      · rintro ⟨rfl, h2⟩; exact ⟨segEq_refl a, h2⟩

/-- C09. `has_equivalent_routing` compares the deduplicated paths structurally. -/
theorem c09_equiv_iff (p q : AsPath) : p.hasEquivalentRouting q = true ↔ p.dedupCoalesce = q.dedupCoalesce :=
  pathEq_of_fix (dedupCoalesce_fix_all p) (dedupCoalesce_fix_all q)

/-- C09. `has_equivalent_routing` holds exactly for paths with the same hops up to prepending and set normalisation
(paths with at least one hop). -/
theorem c09_equiv_iff_routing (p q : AsPath) (hne : routing p ≠ []) :
    p.hasEquivalentRouting q = true ↔ routing p = routing q := by
  rw [c09_equiv_iff]
  constructor
  · intro h
    rw [← c09_dedup_routing, h, c09_dedup_routing]
  · intro h
    have hp := (c09_dedup_minimal p).resolve_right fun h => hne h.1
    have hq := (c09_dedup_minimal q).resolve_right fun h' => hne (h.trans h'.1)
    exact minimal_unique hp hq (by rw [c09_dedup_routing, c09_dedup_routing, h])

/-- C09. `has_equivalent_routing` is an equivalence relation. -/
theorem c09_equivalence :
    (∀ p, AsPath.hasEquivalentRouting p p = true) ∧
    (∀ p q, AsPath.hasEquivalentRouting p q = true → AsPath.hasEquivalentRouting q p = true) ∧
    (∀ p q r, AsPath.hasEquivalentRouting p q = true → AsPath.hasEquivalentRouting q r = true →
      AsPath.hasEquivalentRouting p r = true) := by
  simp only [c09_equiv_iff]
  exact ⟨fun _ => trivial, fun _ _ h => h.symm, fun _ _ _ h1 h2 => h1.trans h2⟩

/-- C09. Prepending (repeating an ASN next to itself, anywhere in the path) does not affect equivalence. -/
theorem c09_prepending (l r : AsPath) (x y : List Asn) (a : Asn) (n : Nat) :
    AsPath.hasEquivalentRouting (l ++ .seq (x ++ List.replicate (n + 1) a ++ y) :: r) (l ++ .seq (x ++ a :: y) :: r) = true := by
  have key : routing (l ++ .seq (x ++ List.replicate (n + 1) a ++ y) :: r) = routing (l ++ .seq (x ++ a :: y) :: r) := by
    simp only [routing, List.flatMap_append, List.flatMap_cons, normAtoms]
    rw [← collapse_append_right, ← collapse_append_left (List.map _ _)]
    rw [← collapse_append_right (l.flatMap normAtoms) ((x ++ a :: y).map _ ++ _),
      ← collapse_append_left ((x ++ a :: y).map _)]
    have : collapse (List.map Atom.asn (x ++ List.replicate (n + 1) a ++ y)) = collapse (List.map Atom.asn (x ++ a :: y)) := by
      simp only [List.map_append, List.append_assoc, List.map_cons]
      rw [← collapse_append_right, ← collapse_append_right _ (_ :: _)]
      congr 2
      induction n with
      | zero => simp
      | succ n ih =>
        rw [List.replicate_succ, List.replicate_succ, List.map_cons, List.map_cons, List.cons_append, List.cons_append,
          collapse_cons_eq rfl]
        rw [List.replicate_succ, List.map_cons, List.cons_append] at ih
        exact ih
    rw [this]
  refine (c09_equiv_iff_routing _ _ ?_).mpr key
  rw [key]
  apply collapse_ne_nil
  simp [normAtoms]

example : AsPath.hasEquivalentRouting [.seq [1, 1, 2], .seq [2, 3]] [.seq [1, 2, 3]] = true := by decide +kernel
example : AsPath.hasEquivalentRouting [.seq [1, 2, 1]] [.seq [1, 2]] = false := by decide +kernel

/-! ### C10 -/

/-- C10. What segment equality means: sequences compare in order, sets as multisets. -/
theorem c10_segment_eq (a b : Seg) : a.eq b = true ↔
    match a, b with
    | .seq x, .seq y => x = y
    | .confedSeq x, .confedSeq y => x = y
    | .set x, .set y => x.Perm y
    | .confedSet x, .confedSet y => x.Perm y
    | _, _ => False :=
  segEq_iff a b

/-- C10. Segment equality is an equivalence relation. -/
theorem c10_segment_equivalence :
    (∀ a : Seg, a.eq a = true) ∧ (∀ a b : Seg, a.eq b = true → b.eq a = true) ∧
    (∀ a b c : Seg, a.eq b = true → b.eq c = true → a.eq c = true) :=
  ⟨segEq_refl, fun _ _ => segEq_symm, fun _ _ _ => segEq_trans⟩

/-- C10. Path equality is an equivalence relation. -/
theorem c10_path_equivalence :
    (∀ p : AsPath, p.eq p = true) ∧ (∀ p q : AsPath, p.eq q = true → q.eq p = true) ∧
    (∀ p q r : AsPath, p.eq q = true → q.eq r = true → p.eq r = true) := by
  refine ⟨?_, ?_, ?_⟩
  · intro p
    induction p with
    | nil => rfl
    | cons a t ih => simp [AsPath.eq, segEq_refl, ih]
  · intro p
    induction p with
    | nil => intro q h; cases q <;> simp_all [AsPath.eq]
    | cons a t ih =>
      intro q h
      cases q with
      | nil => simp [AsPath.eq] at h
      | cons b u =>
        simp only [AsPath.eq, Bool.and_eq_true] at h ⊢
        exact ⟨segEq_symm h.1, ih u h.2⟩
  · intro p
    induction p with
    | nil => intro q r h1 h2; cases q <;> cases r <;> simp_all [AsPath.eq]
    | cons a t ih =>
      intro q r h1 h2
      cases q with
      | nil => simp [AsPath.eq] at h1
      | cons b u =>
        cases r with
        | nil => simp [AsPath.eq] at h2
        | cons c v =>
          simp only [AsPath.eq, Bool.and_eq_true] at h1 h2 ⊢
          exact ⟨segEq_trans h1.1 h2.1, ih u v h1.2 h2.2⟩

/-- C10. Equal segments and equal paths feed identical data to the hasher. -/
theorem c10_hash_compatible :
    (∀ a b : Seg, a.eq b = true → a.hashFeed = b.hashFeed) ∧
    (∀ p q : AsPath, p.eq q = true → p.hashFeed = q.hashFeed) := by
  refine ⟨fun _ _ => segEq_hash, ?_⟩
  have key : ∀ p q : AsPath, p.eq q = true → p.length = q.length ∧ p.flatMap Seg.hashFeed = q.flatMap Seg.hashFeed := by
    intro p
    induction p with
    | nil => intro q h; cases q <;> simp_all [AsPath.eq]
    | cons a t ih =>
      intro q h
      cases q with
      | nil => simp [AsPath.eq] at h
      | cons b u =>
        simp only [AsPath.eq, Bool.and_eq_true] at h
        obtain ⟨h1, h2⟩ := ih u h.2
        simp [h1, h2, segEq_hash h.1]
  intro p q h
  obtain ⟨h1, h2⟩ := key p q h
  simp only [AsPath.hashFeed, h1, h2]

example : (Seg.set [3, 1, 2]).eq (.set [1, 2, 3]) = true := by decide +kernel
example : (Seg.set [1, 1, 2]).eq (.set [1, 2, 2]) = false := by decide +kernel

end Verif.Props
