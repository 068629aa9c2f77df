import Verif.Props.AsPath
import Verif.Spec.AsPathAcc
/-
C55: the AS path accessors.
-/
namespace Verif.Props
open Spec

theorem segAtoms_ne_nil {s : Seg} (h : s ≠ .seq [] ∧ s ≠ .confedSeq []) : segAtoms s ≠ [] := by
  cases s with
  | seq xs => cases xs with
    | nil => exact absurd rfl h.1
    | cons => simp [segAtoms]
  | confedSeq xs => cases xs with
    | nil => exact absurd rfl h.2
    | cons => simp [segAtoms]
  | set xs => simp [segAtoms]
  | confedSet xs => simp [segAtoms]

theorem atoms_append_seg (p : AsPath) (s : Seg) : atoms (p ++ [s]) = atoms p ++ segAtoms s := by simp [atoms]

theorem atoms_last {p : AsPath} {s : Seg} (h : s ≠ .seq [] ∧ s ≠ .confedSeq []) :
    (atoms (p ++ [s])).getLast? = (segAtoms s).getLast? := by
  rw [atoms_append_seg, List.getLast?_append]
  cases e : (segAtoms s).getLast? with
  | none => exact absurd (List.getLast?_eq_none_iff.mp e) (segAtoms_ne_nil h)
  | some a => rfl

theorem list_nil_or_snoc (p : List α) : p = [] ∨ ∃ q s, p = q ++ [s] := by
  rcases List.eq_nil_or_concat p with h | ⟨q, s, h⟩
  · exact .inl h
  · exact .inr ⟨q, s, by simpa using h⟩

/-- C55. The origin of a path is its last hop, if that is one AS: a plain hop, or a set with one member. A path that ends
in a larger set, in a confederation hop, or is empty has none. -/
theorem c55_origin (p : AsPath) (hne : NoEmptySequence p) (x : Asn) :
    p.getOriginOpt = some x ↔ ∃ a, (atoms p).getLast? = some a ∧ hop a = some x := by
  rcases list_nil_or_snoc p with rfl | ⟨q, s, rfl⟩
  · simp [AsPath.getOriginOpt, atoms]
  have hs := hne s (by simp)
  rw [atoms_last hs]
  unfold AsPath.getOriginOpt
  rw [List.getLast?_concat]
  cases s with
  | seq xs =>
    simp only [segAtoms, List.getLast?_map]
    cases xs.getLast? <;> simp [hop]
  | confedSeq xs =>
    simp only [segAtoms, List.getLast?_map]
    cases xs.getLast? <;> simp [hop]
  | set xs => match xs with
    | [] => simp [segAtoms, hop]
    | [y] => simp [segAtoms, hop]
    | _ :: _ :: _ => simp [segAtoms, hop]
  | confedSet xs => simp [segAtoms, hop]

/-- C55. The origins are the members of the last hop, in order; none for a confederation hop. -/
theorem c55_origins (p : AsPath) (hne : NoEmptySequence p) :
    p.iterOrigins = match (atoms p).getLast? with
      | some (.asn a) => [a]
      | some (.set xs) => xs
      | _ => [] := by
  rcases list_nil_or_snoc p with rfl | ⟨q, s, rfl⟩
  · simp [AsPath.iterOrigins, atoms]
  have hs := hne s (by simp)
  rw [atoms_last hs]
  unfold AsPath.iterOrigins
  rw [List.getLast?_concat]
  cases s with
  | seq xs =>
    simp only [segAtoms, List.getLast?_map]
    cases xs.getLast? <;> simp
  | confedSeq xs =>
    simp only [segAtoms, List.getLast?_map]
    cases xs.getLast? <;> simp
  | set xs => simp [segAtoms]
  | confedSet xs => simp [segAtoms]

/-- C55. If there is a single origin, it is the only one of the origins. -/
theorem c55_origin_origins (p : AsPath) (x : Asn) : p.getOriginOpt = some x → p.iterOrigins = [x] := by
  unfold AsPath.getOriginOpt AsPath.iterOrigins
  cases p.getLast? with
  | none => simp
  | some s =>
    cases s with
    | seq xs => intro h; simp at h; simp [h]
    | set xs => match xs with
      | [] => simp
      | [y] => simp
      | _ :: _ :: _ => simp
    | confedSeq xs => simp
    | confedSet xs => simp

/-- C55. The collector is the first hop, under the same conditions. -/
theorem c55_collector (p : AsPath) (hne : NoEmptySequence p) (x : Asn) :
    p.getCollectorOpt = some x ↔ ∃ a, (atoms p).head? = some a ∧ hop a = some x := by
  cases p with
  | nil => simp [AsPath.getCollectorOpt, atoms]
  | cons s q =>
    have hs := hne s (by simp)
    have e : (atoms (s :: q)).head? = (segAtoms s).head? := by
      have h0 := segAtoms_ne_nil hs
      simp only [atoms, List.flatMap_cons]
      cases h : segAtoms s with
      | nil => exact absurd h h0
      | cons a t => simp
    rw [e]
    unfold AsPath.getCollectorOpt
    rw [List.head?_cons]
    cases s with
    | seq xs => cases xs <;> simp [segAtoms, hop]
    | confedSeq xs => cases xs <;> simp [segAtoms, hop]
    | set xs => match xs with
      | [] => simp [segAtoms, hop]
      | [y] => simp [segAtoms, hop]
      | _ :: _ :: _ => simp [segAtoms, hop]
    | confedSet xs => simp [segAtoms, hop]

theorem hops_append (x y : List Atom) (zs : List Asn) :
    hops (x ++ y) = some zs ↔ ∃ a b, hops x = some a ∧ hops y = some b ∧ zs = a ++ b := by
  induction x generalizing zs with
  | nil => simp [hops]
  | cons c x ih =>
    simp only [List.cons_append, hops]
    cases hop c with
    | none => simp
    | some v =>
      dsimp only
      constructor
      · intro h
        rw [Option.map_eq_some_iff] at h
        obtain ⟨w, h1, rfl⟩ := h
        obtain ⟨a, b, h2, h3, rfl⟩ := (ih _).mp h1
        exact ⟨v :: a, b, by rw [h2]; rfl, h3, rfl⟩
      · rintro ⟨a, b, h1, h2, rfl⟩
        rw [Option.map_eq_some_iff] at h1
        obtain ⟨w, h3, rfl⟩ := h1
        rw [(ih _).mpr ⟨w, b, h3, h2, rfl⟩]; rfl

theorem hops_asns (xs : List Asn) : hops (xs.map Atom.asn) = some xs := by
  induction xs with
  | nil => rfl
  | cons x xs ih => simp [hops, hop, ih]

/-- a segment's vector: its hops, squeezed if asked for. -/
theorem seg_toU32 (d : Bool) (s : Seg) (h : s ≠ .confedSeq []) :
    s.toU32VecOpt d = (hops (segAtoms s)).map (if d then squeeze else id) := by
  cases s with
  | seq xs =>
    simp only [Seg.toU32VecOpt, segAtoms, hops_asns]
    cases d
    · rfl
    · simp only [if_true, Option.map_some, Option.some.injEq]
      clear h
      induction xs with
      | nil => rfl
      | cons x xs ih =>
        cases xs with
        | nil => rfl
        | cons y ys => simp only [Seg.dedupAdj, squeeze, ih]
  | set xs => match xs with
    | [] => simp [Seg.toU32VecOpt, segAtoms, hops, hop]
    | [y] => cases d <;> simp [Seg.toU32VecOpt, segAtoms, hops, hop, squeeze]
    | _ :: _ :: _ => simp [Seg.toU32VecOpt, segAtoms, hops, hop]
  | confedSeq xs => cases xs with
    | nil => exact absurd rfl h
    | cons x xs => simp [Seg.toU32VecOpt, segAtoms, hops, hop]
  | confedSet xs => simp [Seg.toU32VecOpt, segAtoms, hops, hop]

theorem toU32Loop_spec (d : Bool) (p : List Seg) (hne : ∀ s ∈ p, s ≠ .confedSeq []) (acc out : List Asn) :
    AsPath.toU32Loop d p acc = some out ↔
      ∃ zs, AllHops p zs ∧ out = acc ++ (zs.flatMap fun z => ((if d then squeeze else id) z).reverse) := by
  induction p generalizing acc out with
  | nil =>
    simp only [AsPath.toU32Loop, Option.some.injEq]
    constructor
    · rintro rfl; exact ⟨[], .nil, by simp⟩
    · rintro ⟨zs, h, rfl⟩; cases h; simp
  | cons s p ih =>
    simp only [AsPath.toU32Loop]
    rw [seg_toU32 d s (hne s (by simp))]
    cases hs : hops (segAtoms s) with
    | none =>
      simp only [Option.map_none]
      constructor
      · intro h; cases h
      · rintro ⟨zs, h, _⟩
        cases h with
        | cons h1 h2 => rw [hs] at h1; cases h1
    | some v =>
      simp only [Option.map_some]
      rw [ih (fun s hs => hne s (by simp [hs]))]
      constructor
      · rintro ⟨zs, h, rfl⟩
        exact ⟨v :: zs, .cons hs h, by simp⟩
      · rintro ⟨zs, h, rfl⟩
        cases h with
        | cons h1 h2 =>
          rw [hs] at h1
          cases h1
          exact ⟨_, h2, by simp⟩

theorem _root_.Verif.Spec.AllHops.append {p q : List Seg} {x y : List (List Asn)} (h : AllHops p x) (h' : AllHops q y) :
    AllHops (p ++ q) (x ++ y) := by
  induction h with
  | nil => exact h'
  | cons h1 _ ih => exact .cons h1 ih

theorem _root_.Verif.Spec.AllHops.reverse {p : List Seg} {x : List (List Asn)} (h : AllHops p x) : AllHops p.reverse x.reverse := by
  induction h with
  | nil => exact .nil
  | cons h1 _ ih => rw [List.reverse_cons, List.reverse_cons]; exact ih.append (.cons h1 .nil)

theorem _root_.Verif.Spec.AllHops.hops {p : List Seg} {zs : List (List Asn)} (h : AllHops p zs) : Spec.hops (atoms p) = some zs.flatten := by
  induction h with
  | nil => rfl
  | cons h1 _ ih =>
    simp only [atoms, List.flatMap_cons, List.flatten_cons]
    exact (hops_append _ _ _).mpr ⟨_, _, h1, ih, rfl⟩

theorem _root_.Verif.Spec.AllHops.of_hops {p : List Seg} {v : List Asn} (h : Spec.hops (atoms p) = some v) : ∃ zs, AllHops p zs := by
  induction p generalizing v with
  | nil => exact ⟨[], .nil⟩
  | cons s p ih =>
    simp only [atoms, List.flatMap_cons] at h
    obtain ⟨a, b, h1, h2, _⟩ := (hops_append _ _ _).mp h
    obtain ⟨zs, hz⟩ := ih h2
    exact ⟨a :: zs, .cons h1 hz⟩

theorem toU32VecOpt_spec (d : Bool) (p : AsPath) (hne : NoEmptySequence p) (out : List Asn) :
    p.toU32VecOpt d = some out ↔
      out ≠ [] ∧ ∃ zs, AllHops p zs ∧ out = zs.flatMap fun z => (if d then squeeze else id) z := by
  unfold AsPath.toU32VecOpt
  have hne' : ∀ s ∈ p.reverse, s ≠ .confedSeq [] := fun s hs => (hne s (by simpa using hs)).2
  have key := toU32Loop_spec d p.reverse hne' []
  have rev : ∀ zs : List (List Asn), (zs.flatMap fun z => ((if d then squeeze else id) z).reverse).reverse =
      zs.reverse.flatMap fun z => (if d then squeeze else id) z := by
    intro zs
    induction zs with
    | nil => rfl
    | cons z zs ih => simp [ih]
  cases h : AsPath.toU32Loop d p.reverse [] with
  | none =>
    simp only [reduceCtorEq, false_iff, not_and, not_exists]
    intro _ zs hz
    exfalso
    have := (key _).mpr ⟨zs.reverse, hz.reverse, rfl⟩
    rw [h] at this; cases this
  | some path =>
    obtain ⟨zs, hz, e⟩ := (key path).mp h
    rw [List.nil_append] at e
    have hz' : AllHops p zs.reverse := by simpa using hz.reverse
    dsimp only
    constructor
    · intro ho
      by_cases hp : path.isEmpty = true
      · rw [if_pos hp] at ho; cases ho
      rw [if_neg hp] at ho
      cases ho
      refine ⟨by simpa using hp, zs.reverse, hz', ?_⟩
      rw [e, rev]
    · rintro ⟨ho, ws, hw, rfl⟩
      have e2 := (key _).mpr ⟨ws.reverse, hw.reverse, rfl⟩
      rw [h] at e2
      injection e2 with e2
      rw [List.nil_append] at e2
      have : path.reverse = ws.flatMap fun z => (if d then squeeze else id) z := by rw [e2, rev, List.reverse_reverse]
      rw [← this] at ho ⊢
      rw [if_neg (by simpa using ho)]

/-- C55. A path converts to a list of AS numbers exactly when every hop is one AS, and the list is those hops in order;
an empty path does not convert. -/
theorem c55_vec (p : AsPath) (hne : NoEmptySequence p) (out : List Asn) :
    p.toU32VecOpt false = some out ↔ out ≠ [] ∧ hops (atoms p) = some out := by
  rw [toU32VecOpt_spec false p hne]
  constructor
  · rintro ⟨h0, zs, hz, rfl⟩
    refine ⟨h0, ?_⟩
    rw [hz.hops]
    congr 1
    induction zs with
    | nil => rfl
    | cons z zs ih => simp
  · rintro ⟨h0, h⟩
    refine ⟨h0, ?_⟩
    obtain ⟨zs, hz⟩ := AllHops.of_hops h
    refine ⟨zs, hz, ?_⟩
    rw [hz.hops] at h
    cases h
    simp

/-- C55. With deduplication, repetitions are removed inside each segment (not across segments). -/
theorem c55_vec_dedup (p : AsPath) (hne : NoEmptySequence p) (out : List Asn) :
    p.toU32VecOpt true = some out ↔ out ≠ [] ∧ ∃ zs, AllHops p zs ∧ out = zs.flatMap squeeze :=
  toU32VecOpt_spec true p hne out

/-- C55. What squeezing is: no two neighbours are equal, and it is the list with repetitions put back by repeating
elements in place. -/
theorem c55_squeeze (xs : List Asn) :
    NoRepeat (squeeze xs) ∧ ∃ ns : List Nat, ns.length = (squeeze xs).length ∧ (∀ n ∈ ns, 0 < n) ∧
      xs = ((squeeze xs).zip ns).flatMap fun (a, n) => List.replicate n a := by
  induction xs with
  | nil => exact ⟨trivial, [], by simp [squeeze]⟩
  | cons x xs ih =>
    cases xs with
    | nil => exact ⟨trivial, [1], by simp [squeeze]⟩
    | cons y ys =>
      obtain ⟨h1, ns, h2, h3, h4⟩ := ih
      have hd : ∃ t, squeeze (y :: ys) = y :: t := by
        clear h1 h2 h3 h4 x
        induction ys generalizing y with
        | nil => exact ⟨[], rfl⟩
        | cons z zs ih =>
          simp only [squeeze]
          by_cases h : y = z
          · subst h; rw [if_pos rfl]; exact ih y
          · rw [if_neg h]; exact ⟨_, rfl⟩
      obtain ⟨t, ht⟩ := hd
      by_cases h : x = y
      · subst h
        simp only [squeeze, if_true]
        cases ns with
        | nil => rw [ht] at h2; simp at h2
        | cons n ns =>
          refine ⟨h1, (n + 1) :: ns, by simpa using h2, ?_, ?_⟩
          · intro k hk
            rcases List.mem_cons.mp hk with rfl | hk
            · omega
            · exact h3 k (by simp [hk])
          · rw [ht] at h4 ⊢
            simp only [List.zip_cons_cons, List.flatMap_cons] at h4 ⊢
            rw [List.replicate_succ, List.cons_append, ← h4]
      · simp only [squeeze, if_neg h]
        refine ⟨?_, 1 :: ns, by simpa using h2, ?_, ?_⟩
        · rw [ht] at h1 ⊢; exact ⟨h, h1⟩
        · intro k hk
          rcases List.mem_cons.mp hk with rfl | hk
          · omega
          · exact h3 k hk
        · simp only [List.zip_cons_cons, List.flatMap_cons, List.replicate_one, List.singleton_append]
          rw [← h4]

/-- C55. Two-octet AS numbers suffice exactly when every member of every segment fits. -/
theorem c55_required_len (p : AsPath) :
    p.requiredAsnLength = .b16 ↔ ∀ s ∈ p, ∀ a ∈ s.asns, a.toNat < 65536 := by
  unfold AsPath.requiredAsnLength
  have key : ∀ (f : AsnLen → AsnLen → AsnLen) (_ : ∀ a b, f a b = .b16 ↔ a = .b16 ∧ b = .b16) (l : List AsnLen)
      (i : AsnLen), l.foldl f i = .b16 ↔ i = .b16 ∧ ∀ x ∈ l, x = .b16 := by
    intro f hf l
    induction l with
    | nil => simp
    | cons x l ih =>
      intro i
      rw [List.foldl_cons, ih, hf]
      simp [and_assoc]
  rw [key _ (by intro a b; cases a <;> cases b <;> simp)]
  simp only [List.mem_map, List.mem_flatMap, true_and]
  constructor
  · intro h s hs a ha
    have := h _ ⟨a, ⟨s, hs, ha⟩, rfl⟩
    unfold asnRequiredLen at this
    by_cases h0 : a.toNat ≤ 65535
    · omega
    · rw [if_neg h0] at this; cases this
  · rintro h x ⟨a, ⟨s, hs, ha⟩, rfl⟩
    unfold asnRequiredLen
    rw [if_pos (by have := h s hs a ha; omega)]

/-- C55. The path length counts one for each plain hop and each set, nothing for confederation hops. -/
theorem c55_route_len (p : AsPath) : p.routeLen = pathLen (atoms p) := routeLen_eq_pathLen p

example : NoEmptySequence exPath ∧ exPath.getCollectorOpt = none ∧ exPath.iterOrigins = [] := by
  refine ⟨?_, by decide, by decide⟩
  intro s hs
  simp only [exPath, List.mem_cons, List.not_mem_nil, or_false] at hs
  rcases hs with rfl | rfl | rfl | rfl | rfl <;> simp

example : AsPath.toU32VecOpt [.seq [1, 1, 2], .set [3], .seq [3]] true = some [1, 2, 3, 3] ∧
    AsPath.getOriginOpt [.seq [1, 1, 2], .set [3]] = some 3 ∧ AsPath.getOriginOpt [.seq [1], .set [3, 4]] = none ∧
    AsPath.iterOrigins [.seq [1], .set [3, 4]] = [3, 4] := by decide

/-- C55, why empty sequences are excluded: an empty segment at the end (which the parser accepts) hides the origin. -/
theorem c55_empty_segment_hides_origin :
    ∃ p, parseAsPath .b32 [2, 1, 0, 0, 0, 7, 2, 0] = .ok p ∧ p.getOriginOpt = none ∧ (atoms p).getLast? = some (.asn 7) :=
  ⟨_, rfl, by decide +kernel, by decide +kernel⟩

end Verif.Props
