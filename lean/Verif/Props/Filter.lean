import Verif.Lemmas.Filter
import Verif.Props.FilterText
import Verif.Props.Elem
/-
C34, C35, C36: what filters mean.
-/
namespace Verif.Props
open Spec

/-! ### C35: prefix filters -/

/-- C35. For prefixes without host bits: the exact filter passes the prefix itself, the others pass what covers it, what it
covers, or both. -/
theorem c35_prefix_partial (m i : IpNet) (hm : Canonical m) (hi : Canonical i) (t : MatchType) :
    prefixMatch m i t = true ↔ PrefixPasses m i t := prefixMatch_iff hm hi t

/-- the prefix 10.0.0.0/8 and the like. -/
def exNet (a b c d len : UInt8) : IpNet := ⟨.v4 #v[a, b, c, d], len⟩

theorem exNet_canonical : Canonical (exNet 10 0 0 0 8) ∧ Canonical (exNet 10 128 0 0 9) := by
  unfold Canonical; decide +kernel
example : Canonical (exNet 10 0 0 0 8) ∧ Canonical (exNet 10 128 0 0 9) ∧
    PrefixPasses (exNet 10 0 0 0 8) (exNet 10 128 0 0 9) .sub ∧ ¬ PrefixPasses (exNet 10 0 0 0 8) (exNet 10 128 0 0 9) .super := by
  refine ⟨exNet_canonical.1, exNet_canonical.2, ?_, ?_⟩
  · rw [← c35_prefix_partial _ _ exNet_canonical.1 exNet_canonical.2]; decide +kernel
  · rw [← c35_prefix_partial _ _ exNet_canonical.1 exNet_canonical.2]; decide +kernel

/-- C35, with or without host bits: never across families; sub and super filters are each other's mirror image; the widest
filter passes what one of the two passes; every filter passes its own prefix. -/
theorem c35_laws (m i : IpNet) :
    (∀ t, prefixMatch m i t = true → m.addr.isV4 = i.addr.isV4) ∧
    prefixMatch m i .sub = prefixMatch i m .super ∧
    prefixMatch m i .superSub = (prefixMatch m i .super || prefixMatch m i .sub) ∧
    (∀ t, prefixMatch m m t = true) ∧
    (prefixMatch m i .exact = true ↔ m = i) := by
  refine ⟨fun t h => ?_, ?_, ?_, fun t => ?_, ?_⟩
  · rcases (prefixMatch_num m i t).1 h with rfl | h
    · rfl
    · exact h.1
  · rw [Bool.eq_iff_iff, prefixMatch_num, prefixMatch_num]
    simp only
    constructor
    · rintro (h | h)
      · exact .inl h.symm
      · exact .inr ⟨h.1.symm, h.2⟩
    · rintro (h | h)
      · exact .inl h.symm
      · exact .inr ⟨h.1.symm, h.2⟩
  · rw [Bool.eq_iff_iff, Bool.or_eq_true, prefixMatch_num, prefixMatch_num, prefixMatch_num]
    simp only
    constructor
    · rintro (h | ⟨h, h' | h'⟩)
      · exact .inl (.inl h)
      · exact .inl (.inr ⟨h, h'⟩)
      · exact .inr (.inr ⟨h, h'⟩)
    · rintro ((h | ⟨h, h'⟩) | (h | ⟨h, h'⟩))
      · exact .inl h
      · exact .inr ⟨h, .inl h'⟩
      · exact .inl h
      · exact .inr ⟨h, .inr h'⟩
  · exact (prefixMatch_num m m t).2 (.inl rfl)
  · rw [prefixMatch_num]; simp [eq_comm]

/-- C35 fails here: a route is read from the wire with the host bits it was sent with; then neither the exact filter for
that prefix nor the one for prefixes covering a part of it passes it, although the addresses are the same. -/
theorem c35_host_bits :
    (parseNlriList .ipv4 false [9, 10, 255] = .ok [⟨exNet 10 255 0 0 9, none⟩]) ∧
    Within (exNet 10 255 0 0 9) (exNet 10 128 0 0 9) ∧ Within (exNet 10 128 0 0 9) (exNet 10 255 0 0 9) ∧
    prefixMatch (exNet 10 128 0 0 9) (exNet 10 255 0 0 9) .exact = false ∧
    prefixMatch (exNet 10 128 0 0 9) (exNet 10 255 0 0 9) .super = false := by
  refine ⟨by decide +kernel, ?_, ?_, by decide +kernel, by decide +kernel⟩
  · rw [within_iff]; decide +kernel
  · rw [within_iff]; decide +kernel

/-! ### C34: elements -/

theorem has_iff (env : TextEnv) (e : BgpElem) (fd : Field) : (e.view env).has fd = true ↔ HasField e fd := by
  cases fd <;> simp [View.has, HasField, BgpElem.view, Option.isSome_iff_ne_none]

theorem matchView_full (env : TextEnv) (e : BgpElem) (f : Filter env.Rx)
    (h : ∀ m ∈ netsOf f, Canonical m ∧ Canonical e.prefix_.prefix_) :
    matchView env (e.view env) f = true ↔ Passes env e f := by
  induction f with
  | negated f ih =>
    have := ih h
    rw [matchView]
    simp only [BgpElem.view, Bool.not_true, Bool.false_and, Bool.false_eq_true, if_false, Bool.not_eq_true', Passes]
    rw [← this, Bool.not_eq_true]
    rfl
  | originAsn a =>
    simp only [matchView, BgpElem.view, Passes]
    cases e.originAsns <;> simp
  | originAsns as =>
    simp only [matchView, BgpElem.view, Passes]
    cases e.originAsns <;> simp
  | prefix_ m t =>
    obtain ⟨h1, h2⟩ := h m (by simp [netsOf])
    simp only [matchView, BgpElem.view, Passes, Bool.not_true, Bool.false_and, Bool.false_eq_true, if_false]
    exact prefixMatch_iff h1 h2 t
  | prefixes ms t =>
    simp only [matchView, BgpElem.view, Passes, Bool.not_true, Bool.false_and, Bool.false_eq_true, if_false, List.any_eq_true]
    constructor
    · rintro ⟨m, hm, hp⟩
      exact ⟨m, hm, (prefixMatch_iff (h m hm).1 (h m hm).2 t).1 hp⟩
    · rintro ⟨m, hm, hp⟩
      exact ⟨m, hm, (prefixMatch_iff (h m hm).1 (h m hm).2 t).2 hp⟩
  | peerIp a => simp [matchView, BgpElem.view, Passes]
  | peerIps as => simp [matchView, BgpElem.view, Passes]
  | peerAsn a => simp [matchView, BgpElem.view, Passes]
  | peerAsns as => simp [matchView, BgpElem.view, Passes]
  | type t => simp [matchView, BgpElem.view, Passes]
  | tsStart t => simp [matchView, BgpElem.view, Passes]
  | tsEnd t => simp [matchView, BgpElem.view, Passes]
  | asPath r =>
    simp only [matchView, BgpElem.view, Passes]
    cases e.asPath <;> simp
  | community r =>
    simp only [matchView, BgpElem.view, Passes]
    cases e.communities <;> simp
  | ipVersion v => cases v <;> simp [matchView, BgpElem.view, Passes]
  | present fd =>
    simp only [matchView, Passes]
    rw [← has_iff env]
    simp [BgpElem.view]
  | atomic b => simp [matchView, BgpElem.view, Passes]
  | _ => simp [matchView, BgpElem.view, Passes]

/-- C34. A filter passes an element exactly when the element has the property the filter names; all of several filters
must. (For prefix filters, host bits aside: C35.) -/
theorem c34_meaning (env : TextEnv) (e : BgpElem) (fs : List (Filter env.Rx))
    (h : ∀ f ∈ fs, ∀ m ∈ netsOf f, Canonical m ∧ Canonical e.prefix_.prefix_) :
    e.matchFilters env fs = true ↔ ∀ f ∈ fs, Passes env e f := by
  unfold BgpElem.matchFilters
  rw [List.all_eq_true]
  constructor
  · intro hm f hf
    exact (matchView_full env e f (h f hf)).1 (hm f hf)
  · intro hm f hf
    exact (matchView_full env e f (h f hf)).2 (hm f hf)

/-- C34, without any condition on prefixes: negation inverts, several filters are a conjunction in any order, repetition
changes nothing, the empty list passes everything, and a list filter is the disjunction of its members. -/
theorem c34_laws (env : TextEnv) (e : BgpElem) :
    (∀ f, e.matchFilter env (.negated f) = !e.matchFilter env f) ∧
    e.matchFilters env [] = true ∧
    (∀ fs gs, e.matchFilters env (fs ++ gs) = (e.matchFilters env fs && e.matchFilters env gs)) ∧
    (∀ fs gs, (∀ f, f ∈ fs ↔ f ∈ gs) → e.matchFilters env fs = e.matchFilters env gs) ∧
    (∀ as, e.matchFilter env (.originAsns as) = as.any fun a => e.matchFilter env (.originAsn a)) ∧
    (∀ as, e.matchFilter env (.peerAsns as) = as.any fun a => e.matchFilter env (.peerAsn a)) ∧
    (∀ as, e.matchFilter env (.peerIps as) = as.any fun a => e.matchFilter env (.peerIp a)) ∧
    (∀ ms t, e.matchFilter env (.prefixes ms t) = ms.any fun m => e.matchFilter env (.prefix_ m t)) := by
  refine ⟨fun f => ?_, rfl, fun fs gs => by simp [BgpElem.matchFilters], fun fs gs h => ?_, fun as => ?_, fun as => ?_,
    fun as => ?_, fun ms t => ?_⟩
  · show matchView env _ _ = _
    rw [matchView]
    simp [BgpElem.view, BgpElem.matchFilter]
  · unfold BgpElem.matchFilters
    rw [Bool.eq_iff_iff, List.all_eq_true, List.all_eq_true]
    simp only [h]
  · simp only [BgpElem.matchFilter, matchView, BgpElem.view]; rfl
  · simp only [BgpElem.matchFilter, matchView, BgpElem.view]; rfl
  · simp only [BgpElem.matchFilter, matchView, BgpElem.view]
    simp only [Bool.not_true, Bool.false_and, Bool.false_eq_true, if_false]
    rw [Bool.eq_iff_iff]; simp
  · simp only [BgpElem.matchFilter, matchView, BgpElem.view]; rfl

/-- C34 for a filter made from text with an exclamation mark: it passes exactly the elements its counterpart does not. -/
theorem c34_negated_text (env : TextEnv) (ty : String) (v : List Char) (f : Filter env.Rx) (e : BgpElem)
    (hm : multiValue.contains ty = false) (h : Filter.new env ty ('!' :: v) = .ok f) :
    ∃ g, Filter.new env ty v = .ok g ∧ e.matchFilter env f = !e.matchFilter env g := by
  have hd := (c60_denotes env ty _ f).1 h
  generalize hs : '!' :: v = s at hd
  have hl : ∀ t : MatchType, multiValue.contains ("prefixes" ++ matchSuffix t) = true := by
    intro t; cases t <;> decide
  cases hd with
  | plain _ h => subst hs; exact absurd rfl h
  | not h1 h2 _ =>
    cases hs
    exact ⟨_, (c60_denotes env ty v _).2 (.plain h1 h2), (c34_laws env e).1 _⟩
  | prefixes _ => rw [hl] at hm; cases hm
  | _ => exact absurd hm (by decide)

/-- an element for the examples. -/
def fltElem : BgpElem := { withdrawal 1700000000000000 (.v4 #v[192, 0, 2, 1]) 64500 ⟨exNet 10 128 0 0 9, none⟩ with
  asPath := some [.seq [64500, 13335]], originAsns := some [13335], otc := some 64500 }
example : (∀ f ∈ ([Filter.prefix_ (exNet 10 0 0 0 8) .sub, .negated (.originAsn 15169), .otc 64500, .present .otc] : List (Filter Unit)),
      ∀ m ∈ netsOf f, Canonical m ∧ Canonical fltElem.prefix_.prefix_) ∧
    fltElem.matchFilters exEnv [.prefix_ (exNet 10 0 0 0 8) .sub, .negated (.originAsn 15169), .otc 64500, .present .otc] = true := by
  refine ⟨?_, by decide +kernel⟩
  intro f hf m hm
  simp only [List.mem_cons, List.not_mem_nil, or_false] at hf
  rcases hf with rfl | rfl | rfl | rfl <;> simp [netsOf] at hm
  subst hm; exact exNet_canonical
example : multiValue.contains "peer_asn" = false ∧ Filter.new exEnv "peer_asn" "!64500".toList = .ok (.negated (.peerAsn 64500)) :=
  ⟨by decide, by rfl⟩

/-! ### C36: route elements -/

/-- C36. A filter that does not look at attributes gives the same answer on an element and on its route. -/
theorem c36_agrees (env : TextEnv) (e : BgpElem) (f : Filter env.Rx) (hf : ¬ NeedsElement f)
    (ho : e.originAsns = e.asPath.map AsPath.iterOrigins) :
    (routeOf e).matchFilter env f = e.matchFilter env f := by
  unfold RouteElem.matchFilter BgpElem.matchFilter
  have horig : ∀ a, ((routeOf e).view env).matchesOrigin a = (e.view env).matchesOrigin a := by
    intro a
    show (match e.asPath with | some p => p.iterOrigins.any (· == a) | none => false) =
      match e.originAsns with | some os => os.contains a | none => false
    rw [ho]
    cases e.asPath with
    | none => rfl
    | some p =>
      simp only [Option.map_some]
      rw [Bool.eq_iff_iff]
      simp
  induction f with
  | negated f ih =>
    have h1 := ih hf
    have hn : isElemOnly f = false := by
      cases f <;> first | rfl | exact absurd trivial hf
    rw [matchView, matchView, h1]
    simp only [Filter.inner, hn, Bool.and_false]
  | originAsn a => simp only [matchView, isElemOnly, Filter.inner, Bool.and_false, Bool.false_eq_true, if_false, horig]
  | originAsns as =>
    simp only [matchView, isElemOnly, Filter.inner, Bool.and_false, Bool.false_eq_true, if_false]
    congr 1; funext a; exact horig a
  | prefix_ m t => simp only [matchView, isElemOnly, Filter.inner, Bool.and_false]; rfl
  | prefixes ms t => simp only [matchView, isElemOnly, Filter.inner, Bool.and_false]; rfl
  | peerIp a => simp only [matchView, isElemOnly, Filter.inner, Bool.and_false]; rfl
  | peerIps as => simp only [matchView, isElemOnly, Filter.inner, Bool.and_false]; rfl
  | peerAsn a => simp only [matchView, isElemOnly, Filter.inner, Bool.and_false]; rfl
  | peerAsns as => simp only [matchView, isElemOnly, Filter.inner, Bool.and_false]; rfl
  | type t => simp only [matchView, isElemOnly, Filter.inner, Bool.and_false]; rfl
  | tsStart t => simp only [matchView, isElemOnly, Filter.inner, Bool.and_false]; rfl
  | tsEnd t => simp only [matchView, isElemOnly, Filter.inner, Bool.and_false]; rfl
  | asPath r => simp only [matchView, isElemOnly, Filter.inner, Bool.and_false]; rfl
  | ipVersion v => simp only [matchView, isElemOnly, Filter.inner, Bool.and_false]; rfl
  | _ => exact absurd trivial hf

/-- C36. A filter made from text that looks at attributes passes no route, negated or not. -/
theorem c36_fails_closed (env : TextEnv) (ty : String) (s : List Char) (f : Filter env.Rx) (h : Filter.new env ty s = .ok f)
    (hf : NeedsElement f) (e : RouteElem) : e.matchFilter env f = false := by
  have hd := c60_negated_once env ty s f h
  have hi : isElemOnly f.inner = true := by
    cases f with
    | negated g => cases g <;> first | rfl | exact absurd hf id | (simp [depth] at hd)
    | _ => first | rfl | exact absurd hf id
  show matchView env _ _ = _
  rw [matchView.eq_def]
  simp [RouteElem.view, hi]

/-- C36 does not hold for a filter built by hand that is negated twice: it passes every route, whatever its attributes. -/
theorem c36_double_negation (env : TextEnv) (e : RouteElem) (b : Bool) :
    e.matchFilter env (.negated (.negated (.atomic b))) = true := by
  simp [RouteElem.matchFilter, matchView, RouteElem.view, Filter.inner, isElemOnly]

example : ¬ NeedsElement (.negated (.originAsn 13335) : Filter Unit) ∧ fltElem.originAsns = fltElem.asPath.map AsPath.iterOrigins ∧
    (routeOf fltElem).matchFilter exEnv (.negated (.originAsn 15169)) = true :=
  ⟨by simp [NeedsElement], by decide +kernel, by decide +kernel⟩
example : Filter.new exEnv "otc" "!*".toList = .ok (.negated (.present .otc)) ∧ NeedsElement (.negated (.present .otc) : Filter Unit) :=
  ⟨by rfl, trivial⟩

end Verif.Props
