import Verif.Props.Elem
/-
C49: from elements back to attributes.
-/
namespace Verif
open Spec

theorem extend_inner : ∀ (xs : List Attribute) (a : Attributes), (a.extend xs).inner = a.inner ++ xs
  | [], a => by simp [Attributes.extend]
  | x :: xs, a => by
    show (Attributes.extend (a.addAttr x) xs).inner = _
    rw [extend_inner xs]
    simp [Attributes.addAttr]

theorem toAttributes_inner (e : BgpElem) : e.toAttributes.inner = e.values.map Attributes.ofValue := by
  rw [BgpElem.toAttributes, Attributes.extendValues, extend_inner]; rfl

theorem find_values (g : AttrVal → Option α) (vs : List AttrVal) :
    (vs.map Attributes.ofValue).findSome? (fun x => g x.value) = vs.findSome? g := by
  induction vs with
  | nil => rfl
  | cons v vs ih => simp [List.findSome?_cons, ih, Attributes.ofValue]

theorem find_push (g : AttrVal → Option α) (f : β → AttrVal) (o : Option β) :
    (pushSome f o).findSome? g = o.bind fun x => g (f x) := by cases o <;> simp [pushSome]

theorem find_pushList_none (g : AttrVal → Option α) (f : List β → AttrVal) (h : ∀ x, g (f x) = none) (l : List β) :
    (pushList f l).findSome? g = none := by cases l <;> simp [pushList, h]

theorem find_map_none (g : AttrVal → Option α) (f : β → AttrVal) (h : ∀ x, g (f x) = none) (l : List β) :
    (l.map f).findSome? g = none := by
  induction l with
  | nil => rfl
  | cons a l ih => simp [h]

theorem plain_map (cs : List MetaCommunity) : (plainOf cs).map .plain = ofKind .plain cs := by
  induction cs with
  | nil => rfl
  | cons c cs ih => cases c <;> simp_all [plainOf, ofKind, kindOf]

theorem extended_map (cs : List MetaCommunity) : (extendedOf cs).map .extended = ofKind .extended cs := by
  induction cs with
  | nil => rfl
  | cons c cs ih => cases c <;> simp_all [extendedOf, ofKind, kindOf]

theorem large_map (cs : List MetaCommunity) : (largeOf cs).map .large = ofKind .large cs := by
  induction cs with
  | nil => rfl
  | cons c cs ih => cases c <;> simp_all [largeOf, ofKind, kindOf]

theorem ipv6_map (cs : List MetaCommunity) : (ipv6ExtendedOf cs).map .ipv6Extended = ofKind .ipv6Extended cs := by
  induction cs with
  | nil => rfl
  | cons c cs ih => cases c <;> simp_all [ipv6ExtendedOf, ofKind, kindOf]

theorem aggrValues_eq (a : Option Asn) (i : Option V4) :
    aggrValues a i = pushSome (fun x : Asn × V4 => .aggregator x.1 x.2) (a.map fun a => (a, i.getD v4zero)) := by
  cases a <;> cases i <;> rfl

theorem rawValues_eq (f : AttrRaw → AttrVal) (o : Option (List AttrRaw)) : rawValues f o = (o.getD []).map f := by
  cases o <;> rfl

theorem values_announce (e : BgpElem) (h : e.type = .announce) : e.values =
    [.mpReach (Nlri.newReachable e.prefix_ e.nextHop)]
      ++ pushSome .nextHop e.nextHop ++ pushSome .asPath e.asPath ++ pushSome .origin e.origin
      ++ pushSome .localPref e.localPref ++ pushSome .med e.med ++ commValues e.communities
      ++ aggrValues e.aggrAsn e.aggrIp ++ pushSome .otc e.otc
      ++ rawValues (fun t => .unknown t.code t.bytes) e.unknown
      ++ rawValues (fun t => .deprecated t.code t.bytes) e.deprecated := by
  rw [BgpElem.values, if_neg (by rw [h]; decide)]

/-- reading the aggregator from the back is what the fold does. -/
theorem fold_aggregator : ∀ (as : List Attribute) (r : Relevant),
    (as.foldl (fun r x => r.step x.value) r).aggregator = (as.reverse.findSome? fun x => match x.value with
      | .aggregator n i => some (n, i)
      | .as4Aggregator n i => some (n, i)
      | _ => none).or r.aggregator
  | [], r => rfl
  | a :: as, r => by
    rw [List.foldl_cons, fold_aggregator as, List.reverse_cons, List.findSome?_append, Option.or_assoc]
    congr 1
    cases a with
    | mk f v => cases v <;> simp [Relevant.step]

theorem aggregator_eq (a : Attributes) : a.aggregator = (relRaw a.inner).aggregator := by
  rw [relRaw, fold_aggregator]
  exact Option.or_none.symm

theorem find_comm_none (g : AttrVal → Option α) (h1 : ∀ x, g (.communities x) = none) (h2 : ∀ x, g (.extCommunities x) = none)
    (h3 : ∀ x, g (.largeCommunities x) = none) (h4 : ∀ x, g (.ipv6ExtCommunities x) = none) (o) :
    (commValues o).findSome? g = none := by
  cases o with
  | none => rfl
  | some cs =>
    simp only [commValues, List.findSome?_append, find_pushList_none g _ h1, find_pushList_none g _ h2,
      find_pushList_none g _ h3, find_pushList_none g _ h4]
    rfl

theorem find_all (g : AttrVal → Option α) (e : BgpElem) (h : e.type = .announce)
    (h1 : ∀ x, g (.communities x) = none) (h2 : ∀ x, g (.extCommunities x) = none)
    (h3 : ∀ x, g (.largeCommunities x) = none) (h4 : ∀ x, g (.ipv6ExtCommunities x) = none)
    (h5 : ∀ c b, g (.unknown c b) = none) (h6 : ∀ c b, g (.deprecated c b) = none) :
    (e.toAttributes.inner).findSome? (fun x => g x.value) =
      (((((((g (.mpReach (Nlri.newReachable e.prefix_ e.nextHop))).or (e.nextHop.bind fun x => g (.nextHop x))).or
        (e.asPath.bind fun x => g (.asPath x))).or (e.origin.bind fun x => g (.origin x))).or
        (e.localPref.bind fun x => g (.localPref x))).or (e.med.bind fun x => g (.med x))).or
        (e.aggrAsn.bind fun x => g (.aggregator x (e.aggrIp.getD v4zero)))).or (e.otc.bind fun x => g (.otc x)) := by
  rw [toAttributes_inner, find_values, values_announce e h]
  simp only [List.findSome?_append, find_push, find_comm_none g h1 h2 h3 h4, aggrValues_eq, rawValues_eq]
  rw [find_map_none g _ (fun _ => h5 _ _), find_map_none g _ (fun _ => h6 _ _)]
  cases hg : g (.mpReach (Nlri.newReachable e.prefix_ e.nextHop)) <;> cases e.aggrAsn <;>
    simp [List.findSome?_cons, hg]

/-! ### folding over the parts -/

abbrev stepAll (vs : List AttrVal) (r : Relevant) : Relevant := vs.foldl Relevant.step r

theorem relRaw_values (vs : List AttrVal) : relRaw (vs.map Attributes.ofValue) = stepAll vs Relevant.init := by
  unfold relRaw
  rw [List.foldl_map]
  rfl

theorem step_comms (o : Option (List MetaCommunity)) (r : Relevant) :
    stepAll (commValues o) r = { r with communities := r.communities ++ grouped (o.getD []) } := by
  cases o with
  | none => simp [commValues, grouped, ofKind]
  | some cs =>
    have hp : ∀ {β : Type} (f : List β → AttrVal) (g : β → MetaCommunity) (l : List β) (r : Relevant),
        (∀ (r : Relevant) l, r.step (f l) = { r with communities := r.communities ++ l.map g }) →
        stepAll (pushList f l) r = { r with communities := r.communities ++ l.map g } := by
      intro β f g l r h
      cases l with
      | nil => simp [pushList]
      | cons a l => simp [pushList, h]
    simp only [commValues, stepAll, List.foldl_append]
    have e1 := hp .communities .plain (plainOf cs) r (fun _ _ => rfl)
    simp only [stepAll] at e1 hp
    rw [e1, hp .extCommunities .extended _ _ (fun _ _ => rfl), hp .largeCommunities .large _ _ (fun _ _ => rfl),
      hp .ipv6ExtCommunities .ipv6Extended _ _ (fun _ _ => rfl)]
    simp [plain_map, extended_map, large_map, ipv6_map, grouped]

theorem step_unknown (o : Option (List AttrRaw)) (r : Relevant) :
    stepAll (rawValues (fun t => .unknown t.code t.bytes) o) r = { r with unknown := r.unknown ++ o.getD [] } := by
  rw [rawValues_eq]
  generalize o.getD [] = l
  induction l generalizing r with
  | nil => simp
  | cons a l ih => simp [ih, Relevant.step]

theorem step_deprecated (o : Option (List AttrRaw)) (r : Relevant) :
    stepAll (rawValues (fun t => .deprecated t.code t.bytes) o) r = { r with deprecated := r.deprecated ++ o.getD [] } := by
  rw [rawValues_eq]
  generalize o.getD [] = l
  induction l generalizing r with
  | nil => simp
  | cons a l ih => simp [ih, Relevant.step]

theorem step_push_origin (o : Option Origin) (r : Relevant) : stepAll (pushSome .origin o) r = { r with origin := o.or r.origin } := by
  cases o <;> simp [pushSome, Relevant.step]
theorem step_push_nextHop (o : Option Ip) (r : Relevant) : stepAll (pushSome .nextHop o) r = { r with nextHop := o.or r.nextHop } := by
  cases o <;> simp [pushSome, Relevant.step]
theorem step_push_asPath (o : Option AsPath) (r : Relevant) : stepAll (pushSome .asPath o) r = { r with asPath := o.or r.asPath } := by
  cases o <;> simp [pushSome, Relevant.step]
theorem step_push_localPref (o : Option UInt32) (r : Relevant) : stepAll (pushSome .localPref o) r = { r with localPref := o.or r.localPref } := by
  cases o <;> simp [pushSome, Relevant.step]
theorem step_push_med (o : Option UInt32) (r : Relevant) : stepAll (pushSome .med o) r = { r with med := o.or r.med } := by
  cases o <;> simp [pushSome, Relevant.step]
theorem step_push_otc (o : Option Asn) (r : Relevant) : stepAll (pushSome .otc o) r = { r with otc := o.or r.otc } := by
  cases o <;> simp [pushSome, Relevant.step]
theorem step_aggr (a : Option Asn) (i : Option V4) (r : Relevant) : stepAll (aggrValues a i) r =
    { r with aggregator := (a.map fun a => (a, i.getD v4zero)).or r.aggregator } := by
  cases a <;> simp [aggrValues_eq, pushSome, Relevant.step]

theorem rel_values (e : BgpElem) (h : e.type = .announce) : relRaw e.toAttributes.inner =
    { asPath := e.asPath, as4Path := none, origin := e.origin, nextHop := e.nextHop,
      localPref := e.localPref.or (some 0), med := e.med.or (some 0), communities := grouped (e.communities.getD []),
      atomic := false, aggregator := e.aggrAsn.map fun a => (a, e.aggrIp.getD v4zero),
      announced := some (Nlri.newReachable e.prefix_ e.nextHop), withdrawn := none, otc := e.otc,
      unknown := e.unknown.getD [], deprecated := e.deprecated.getD [] } := by
  rw [toAttributes_inner, relRaw_values, values_announce e h]
  have ha : ∀ xs ys r, stepAll (xs ++ ys) r = stepAll ys (stepAll xs r) := fun xs ys r => List.foldl_append ..
  rw [ha, ha, ha, ha, ha, ha, ha, ha, ha, ha, step_push_nextHop, step_push_asPath, step_push_origin, step_push_localPref,
    step_push_med, step_comms, step_aggr, step_push_otc, step_unknown, step_deprecated]
  simp [Relevant.step, Relevant.init]

theorem ofKind_ofKind (k k' : CommunityKind) (cs : List MetaCommunity) :
    ofKind k (ofKind k' cs) = if k = k' then ofKind k cs else [] := by
  unfold ofKind
  rw [List.filter_filter]
  by_cases h : k = k'
  · subst h; simp
  · rw [if_neg h, List.filter_eq_nil_iff]
    intro c _ hc
    simp at hc
    exact h (hc.1.symm.trans hc.2)

theorem nonEmpty_eq (l : List α) : nonEmpty l = noneIfEmpty l := by cases l <;> rfl

end Verif

namespace Verif.Props
open Spec

/-- C49. The attributes made from an announcement, read back through the accessors, give its next hop, AS path, origin,
local preference, MED, aggregator, OTC and prefix, and its communities kind by kind. Missing from the full property:
communities of different kinds come out grouped (`c49_community_order`), an aggregator address without an AS number is
lost (`c49_aggregator_address_lost`), and, not a field the property lists, ATOMIC_AGGREGATE is lost
(`c49_atomic_lost`). -/
theorem c49_fields_partial (e : BgpElem) (h : e.type = .announce) :
    let a := e.toAttributes
    a.nextHop = e.nextHop ∧ a.asPath = e.asPath ∧ a.effectiveAsPath = e.asPath ∧
    First .origin a.inner e.origin ∧ a.localPref = e.localPref ∧ a.med = e.med ∧ a.otc = e.otc ∧
    a.aggregator = e.aggrAsn.map (fun n => (n, e.aggrIp.getD #v[0, 0, 0, 0])) ∧
    a.reachable = some ⟨if e.prefix_.prefix_.addr.isV4 then .ipv4 else .ipv6, .unicast, e.nextHop.map NextHop.ofIp, [e.prefix_], none, none, none⟩ ∧
    a.unreachable = none ∧
    (∀ k, ofKind k (a.inner.flatMap fun b => communitiesIn b.value) = ofKind k (e.communities.getD [])) := by
  intro a
  have hr := rel_values e h
  have hpath : a.asPath = e.asPath := (find_all (fun v => match v with | .asPath o => some o | _ => none) e h
      (fun _ => rfl) (fun _ => rfl) (fun _ => rfl) (fun _ => rfl) (fun _ _ => rfl) (fun _ _ => rfl)).trans (by simp)
  refine ⟨?_, hpath, ?_, ?_, ?_, ?_, ?_, ?_, ?_, ?_, ?_⟩
  · exact (find_all (fun v => match v with | .nextHop o => some o | _ => none) e h
      (fun _ => rfl) (fun _ => rfl) (fun _ => rfl) (fun _ => rfl) (fun _ _ => rfl) (fun _ _ => rfl)).trans (by simp)
  · have h4 : a.as4Path = none := (find_all (fun v => match v with | .as4Path o => some o | _ => none) e h
      (fun _ => rfl) (fun _ => rfl) (fun _ => rfl) (fun _ => rfl) (fun _ _ => rfl) (fun _ _ => rfl)).trans (by simp)
    rw [Attributes.effectiveAsPath, h4, hpath]
    cases e.asPath <;> rfl
  · have := first_of (mk := AttrVal.origin) (fun v => match v with | .origin o => some o | _ => none)
      (by intro v x; cases v <;> simp) a.inner
    rw [find_all (fun v => match v with | .origin o => some o | _ => none) e h
      (fun _ => rfl) (fun _ => rfl) (fun _ => rfl) (fun _ => rfl) (fun _ _ => rfl) (fun _ _ => rfl)] at this
    simpa using this
  · exact (find_all (fun v => match v with | .localPref o => some o | _ => none) e h
      (fun _ => rfl) (fun _ => rfl) (fun _ => rfl) (fun _ => rfl) (fun _ _ => rfl) (fun _ _ => rfl)).trans (by simp)
  · exact (find_all (fun v => match v with | .med o => some o | _ => none) e h
      (fun _ => rfl) (fun _ => rfl) (fun _ => rfl) (fun _ => rfl) (fun _ _ => rfl) (fun _ _ => rfl)).trans (by simp)
  · exact (find_all (fun v => match v with | .otc o => some o | _ => none) e h
      (fun _ => rfl) (fun _ => rfl) (fun _ => rfl) (fun _ => rfl) (fun _ _ => rfl) (fun _ _ => rfl)).trans (by simp)
  · rw [aggregator_eq, hr]; rfl
  · exact (find_all (fun v => match v with | .mpReach o => some o | _ => none) e h
      (fun _ => rfl) (fun _ => rfl) (fun _ => rfl) (fun _ => rfl) (fun _ _ => rfl) (fun _ _ => rfl)).trans (by simp [Nlri.newReachable, prefixAfi])
  · exact (find_all (fun v => match v with | .mpUnreach o => some o | _ => none) e h
      (fun _ => rfl) (fun _ => rfl) (fun _ => rfl) (fun _ => rfl) (fun _ _ => rfl) (fun _ _ => rfl)).trans (by simp)
  · intro k
    have hc := rel_communities a.inner
    rw [hr] at hc
    rw [← hc]
    show ofKind k (grouped _) = _
    have hf : ∀ xs ys, ofKind k (xs ++ ys) = ofKind k xs ++ ofKind k ys := fun xs ys => List.filter_append ..
    rw [grouped, hf, hf, hf, ofKind_ofKind, ofKind_ofKind, ofKind_ofKind, ofKind_ofKind]
    cases k <;> simp

/-- C49. A withdrawal becomes an MP_UNREACH_NLRI with its prefix, and nothing else. -/
theorem c49_withdrawal (e : BgpElem) (h : e.type = .withdraw) :
    e.toAttributes.inner.map (·.value) =
      [.mpUnreach ⟨if e.prefix_.prefix_.addr.isV4 then .ipv4 else .ipv6, .unicast, none, [e.prefix_], none, none, none⟩] := by
  rw [toAttributes_inner, BgpElem.values, if_pos h]
  rfl

/-- C49. An UPDATE made of the attributes of an element gives back that element: for an announcement, all its fields
except the session data, up to the order of the communities and the defaults (an absent local preference or MED comes
back as 0, an aggregator address is lost without its AS number, ATOMIC_AGGREGATE is lost, the origin AS numbers are those
of the path); for a withdrawal, the prefix. -/
theorem c49_round_trip_partial (e : BgpElem) (t : Nat) (ip : Ip) (asn : Asn) :
    (e.type = .announce → updateToElems ⟨[], e.toAttributes, []⟩ t ip asn =
      [{ e with time := t, peerIp := ip, peerAsn := asn, peerBgpId := none,
                originAsns := e.asPath.map AsPath.iterOrigins,
                localPref := some (e.localPref.getD 0), med := some (e.med.getD 0),
                communities := noneIfEmpty (grouped (e.communities.getD [])), atomic := false,
                aggrIp := e.aggrAsn.map fun _ => e.aggrIp.getD #v[0, 0, 0, 0],
                unknown := noneIfEmpty (e.unknown.getD []), deprecated := noneIfEmpty (e.deprecated.getD []) }]) ∧
    (e.type = .withdraw → updateToElems ⟨[], e.toAttributes, []⟩ t ip asn = [withdrawal t ip asn e.prefix_]) := by
  refine ⟨fun h => ?_, fun h => ?_⟩
  · have hr := rel_values e h
    have he : relevantAttributes e.toAttributes = relRaw e.toAttributes.inner := by
      rw [relevant_eq, hr]
      cases hn : e.nextHop with
      | none => simp [Nlri.newReachable]
      | some v => simp
    rw [updateToElems, UpdateIter.collect_eq]
    simp only [updateIter, he, hr]
    have hp : mergePaths e.asPath none = e.asPath := by cases e.asPath <;> rfl
    clear hr he
    obtain ⟨tm, ty, pi, pa, pb, px, nh, pt, os, og, lp, md, cs, at', aa, ai, ot, un, de⟩ := e
    cases h
    simp only [UpdateIter.left, Nlri.newReachable, UpdateIter.announce, nonEmpty_eq] at hp ⊢
    cases lp <;> cases md <;> cases aa <;> simp [hp] <;> rfl
  · have hi : e.toAttributes.inner = [Attributes.ofValue (.mpUnreach (Nlri.newUnreachable e.prefix_))] := by
      rw [toAttributes_inner, BgpElem.values, if_pos h]; rfl
    rw [updateToElems, UpdateIter.collect_eq]
    simp only [updateIter, relevant_eq, hi]
    rfl

/-- an element with communities of three kinds and an aggregator. -/
def exElem : BgpElem :=
  { time := 1, type := .announce, peerIp := .v4 #v[9, 9, 9, 9], peerAsn := 65000, peerBgpId := none, prefix_ := exPrefix 1,
    nextHop := some (.v4 #v[1, 1, 1, 1]), asPath := some [.seq [1, 2]], originAsns := some [2], origin := some .igp,
    localPref := some 100, med := none, communities := some [.large ⟨1, 2, 3⟩, .plain (.custom 1 2)], atomic := true,
    aggrAsn := none, aggrIp := some #v[5, 5, 5, 5], otc := some 7, unknown := some [⟨200, [1]⟩], deprecated := none }

example : exElem.type = .announce ∧ exElem.toAttributes.localPref = some 100 ∧ exElem.toAttributes.med = none ∧
    exElem.toAttributes.asPath = some [.seq [1, 2]] := by decide +kernel

/-- Findings for C49: ATOMIC_AGGREGATE is lost. -/
theorem c49_atomic_lost (e : BgpElem) : e.toAttributes.atomic = false := by
  rw [Attributes.atomic, List.any_eq_false]
  intro x hx
  have hv : x.value ≠ .atomic := by
    cases ht : e.type with
    | withdraw =>
      rw [toAttributes_inner, BgpElem.values, if_pos ht] at hx
      rcases List.mem_singleton.1 hx with rfl
      intro h; cases h
    | announce =>
      intro h
      have := (fold_atomic e.toAttributes.inner Relevant.init).2 (.inr ⟨x, hx, h⟩)
      have hr := rel_values e ht
      rw [show e.toAttributes.inner.foldl (fun r x => r.step x.value) Relevant.init = relRaw e.toAttributes.inner from rfl, hr] at this
      cases this
  cases hx : x.value <;> simp_all

/-- communities of different kinds change places. -/
theorem c49_community_order : ∃ e : BgpElem, e.type = .announce ∧
    (e.toAttributes.inner.flatMap fun b => communitiesIn b.value) ≠ e.communities.getD [] :=
  ⟨exElem, rfl, by decide +kernel⟩

/-- an aggregator address without an AS number is lost. -/
theorem c49_aggregator_address_lost : ∃ e : BgpElem, e.type = .announce ∧ e.aggrIp = some #v[5, 5, 5, 5] ∧
    e.toAttributes.aggregator = none :=
  ⟨exElem, rfl, rfl, by decide +kernel⟩

end Verif.Props
