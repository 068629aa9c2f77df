import Verif.Spec.Elem
import Verif.Props.AsPath
import Verif.Props.AttrSet
/-
Lemmas about elements.
-/
namespace Verif
open Spec

theorem fold_last (f : Relevant → Option α) (P : α → AttrVal → Prop)
    (h1 : ∀ (r : Relevant) v x, P x v → f (r.step v) = some x)
    (h2 : ∀ (r : Relevant) v, (∀ x, ¬ P x v) → f (r.step v) = f r) :
    ∀ (as : List Attribute) (r0 : Relevant),
      ∃ o, LastOf P as o ∧ f (as.foldl (fun r x => r.step x.value) r0) = o.or (f r0)
  | [], r0 => ⟨none, (by intro b hb; cases hb), rfl⟩
  | a :: as, r0 => by
    obtain ⟨o, ho, hf⟩ := fold_last f P h1 h2 as (r0.step a.value)
    rw [List.foldl_cons, hf]
    cases o with
    | some x =>
      obtain ⟨pre, b, post, rfl, hx, hp⟩ := ho
      exact ⟨some x, ⟨a :: pre, b, post, rfl, hx, hp⟩, rfl⟩
    | none =>
      by_cases hx : ∃ x, P x a.value
      · obtain ⟨x, hx⟩ := hx
        refine ⟨some x, ⟨[], a, as, rfl, hx, ho⟩, ?_⟩
        simpa using h1 r0 _ x hx
      · refine ⟨none, ?_, ?_⟩
        · intro b hb y hy
          rcases List.mem_cons.1 hb with rfl | hb
          · exact hx ⟨y, hy⟩
          · exact ho b hb y hy
        · simpa using h2 r0 _ (fun x h => hx ⟨x, h⟩)

theorem fold_list (f : Relevant → List α) (g : AttrVal → List α) (h : ∀ (r : Relevant) v, f (r.step v) = f r ++ g v) :
    ∀ (as : List Attribute) (r0 : Relevant),
      f (as.foldl (fun r x => r.step x.value) r0) = f r0 ++ as.flatMap fun b => g b.value
  | [], r0 => by simp
  | a :: as, r0 => by rw [List.foldl_cons, fold_list f g h as, h, List.flatMap_cons, List.append_assoc]

theorem fold_atomic : ∀ (as : List Attribute) (r0 : Relevant),
    (as.foldl (fun r x => r.step x.value) r0).atomic = true ↔ (r0.atomic = true ∨ ∃ b ∈ as, b.value = .atomic)
  | [], r0 => by simp
  | a :: as, r0 => by
    rw [List.foldl_cons, fold_atomic as]
    have : (r0.step a.value).atomic = true ↔ (r0.atomic = true ∨ a.value = .atomic) := by
      cases a.value <;> simp [Relevant.step]
    rw [this]
    simp [or_assoc]

theorem nonEmpty_spec (l : List α) : ListOrNone l (nonEmpty l) := by
  cases l with
  | nil => exact .inl ⟨rfl, rfl⟩
  | cons a l => exact .inr ⟨by simp, rfl⟩

/-- the fold without the next hop fallback. -/
def relRaw (as : List Attribute) : Relevant := as.foldl (fun r x => r.step x.value) Relevant.init

theorem relevant_eq (a : Attributes) : relevantAttributes a =
    { relRaw a.inner with nextHop := (relRaw a.inner).nextHop.or ((relRaw a.inner).announced.bind fun n => n.nextHop.map NextHop.addr) } := rfl

theorem rel_origin (as : List Attribute) : Last .origin as (relRaw as).origin := by
  obtain ⟨o, h, e⟩ := fold_last (·.origin) (fun x v => v = .origin x) (by rintro r v x rfl; rfl)
    (by intro r v h; cases v <;> first | rfl | exact absurd rfl (h _)) as Relevant.init
  have : (relRaw as).origin = o := by simpa [relRaw, Relevant.init] using e
  rw [this]; exact h

theorem rel_asPath (as : List Attribute) : Last .asPath as (relRaw as).asPath := by
  obtain ⟨o, h, e⟩ := fold_last (·.asPath) (fun x v => v = .asPath x) (by rintro r v x rfl; rfl)
    (by intro r v h; cases v <;> first | rfl | exact absurd rfl (h _)) as Relevant.init
  have : (relRaw as).asPath = o := by simpa [relRaw, Relevant.init] using e
  rw [this]; exact h

theorem rel_as4Path (as : List Attribute) : Last .as4Path as (relRaw as).as4Path := by
  obtain ⟨o, h, e⟩ := fold_last (·.as4Path) (fun x v => v = .as4Path x) (by rintro r v x rfl; rfl)
    (by intro r v h; cases v <;> first | rfl | exact absurd rfl (h _)) as Relevant.init
  have : (relRaw as).as4Path = o := by simpa [relRaw, Relevant.init] using e
  rw [this]; exact h

theorem rel_nextHop (as : List Attribute) : Last .nextHop as (relRaw as).nextHop := by
  obtain ⟨o, h, e⟩ := fold_last (·.nextHop) (fun x v => v = .nextHop x) (by rintro r v x rfl; rfl)
    (by intro r v h; cases v <;> first | rfl | exact absurd rfl (h _)) as Relevant.init
  have : (relRaw as).nextHop = o := by simpa [relRaw, Relevant.init] using e
  rw [this]; exact h

theorem rel_announced (as : List Attribute) : Last .mpReach as (relRaw as).announced := by
  obtain ⟨o, h, e⟩ := fold_last (·.announced) (fun x v => v = .mpReach x) (by rintro r v x rfl; rfl)
    (by intro r v h; cases v <;> first | rfl | exact absurd rfl (h _)) as Relevant.init
  have : (relRaw as).announced = o := by simpa [relRaw, Relevant.init] using e
  rw [this]; exact h

theorem rel_withdrawn (as : List Attribute) : Last .mpUnreach as (relRaw as).withdrawn := by
  obtain ⟨o, h, e⟩ := fold_last (·.withdrawn) (fun x v => v = .mpUnreach x) (by rintro r v x rfl; rfl)
    (by intro r v h; cases v <;> first | rfl | exact absurd rfl (h _)) as Relevant.init
  have : (relRaw as).withdrawn = o := by simpa [relRaw, Relevant.init] using e
  rw [this]; exact h

theorem rel_otc (as : List Attribute) : Last .otc as (relRaw as).otc := by
  obtain ⟨o, h, e⟩ := fold_last (·.otc) (fun x v => v = .otc x) (by rintro r v x rfl; rfl)
    (by intro r v h; cases v <;> first | rfl | exact absurd rfl (h _)) as Relevant.init
  have : (relRaw as).otc = o := by simpa [relRaw, Relevant.init] using e
  rw [this]; exact h

theorem rel_localPref (as : List Attribute) : ∃ v, Last .localPref as v ∧ (relRaw as).localPref = some (v.getD 0) := by
  obtain ⟨o, h, e⟩ := fold_last (·.localPref) (fun x v => v = .localPref x) (by rintro r v x rfl; rfl)
    (by intro r v h; cases v <;> first | rfl | exact absurd rfl (h _)) as Relevant.init
  refine ⟨o, h, ?_⟩
  rw [relRaw, e]; cases o <;> rfl

theorem rel_med (as : List Attribute) : ∃ v, Last .med as v ∧ (relRaw as).med = some (v.getD 0) := by
  obtain ⟨o, h, e⟩ := fold_last (·.med) (fun x v => v = .med x) (by rintro r v x rfl; rfl)
    (by intro r v h; cases v <;> first | rfl | exact absurd rfl (h _)) as Relevant.init
  refine ⟨o, h, ?_⟩
  rw [relRaw, e]; cases o <;> rfl

theorem rel_aggregator (as : List Attribute) : LastAggregator as (relRaw as).aggregator := by
  obtain ⟨o, h, e⟩ := fold_last (·.aggregator)
    (fun x v => v = .aggregator x.1 x.2 ∨ v = .as4Aggregator x.1 x.2) (by rintro r v x (rfl | rfl) <;> rfl)
    (by
      intro r v h
      cases v <;> first
        | rfl
        | exact absurd (.inl rfl) (h (_, _))
        | exact absurd (.inr rfl) (h (_, _))) as Relevant.init
  have : (relRaw as).aggregator = o := by simpa [relRaw, Relevant.init] using e
  rw [this]; exact h

theorem rel_communities (as : List Attribute) :
    (relRaw as).communities = as.flatMap fun b => communitiesIn b.value := by
  have := fold_list (·.communities) communitiesIn (by intro r v; cases v <;> simp [Relevant.step, communitiesIn])
    as Relevant.init
  simpa [relRaw, Relevant.init] using this

theorem rel_unknown (as : List Attribute) : (relRaw as).unknown = as.flatMap fun b => rawIn b.value := by
  have := fold_list (·.unknown) rawIn (by intro r v; cases v <;> simp [Relevant.step, rawIn]) as Relevant.init
  simpa [relRaw, Relevant.init] using this

theorem rel_deprecated (as : List Attribute) : (relRaw as).deprecated = as.flatMap fun b => deprecatedIn b.value := by
  have := fold_list (·.deprecated) deprecatedIn (by intro r v; cases v <;> simp [Relevant.step, deprecatedIn])
    as Relevant.init
  simpa [relRaw, Relevant.init] using this

theorem mergePaths_spec (p q : Option AsPath) : EffectivePath p q (mergePaths p q) := by
  cases p <;> cases q
  · exact .neither
  · exact .four _
  · exact .plain _
  · rename_i p q
    show EffectivePath (some p) (some q) (p.mergeAs4 q)
    have h := Props.c06_as4_no_panic p q
    cases hm : p.mergeAs4 q with
    | none => rw [hm] at h; exact absurd h (by simp)
    | some m => exact .both _ _ _ hm

theorem nextHopOf_eq (h : Option Ip) (mp : Option Nlri) :
    h.or (mp.bind fun n => n.nextHop.map NextHop.addr) = NextHopOf h mp := by
  cases h <;> cases mp <;> rfl

/-- an element whose fields are the relevant attributes. -/
theorem carries_of (as : List Attribute) (e : BgpElem) (ho : e.origin = (relRaw as).origin)
    (h1 : e.originAsns = e.asPath.map AsPath.iterOrigins)
    (h2 : e.nextHop = (relRaw as).nextHop.or ((relRaw as).announced.bind fun n => n.nextHop.map NextHop.addr))
    (h3 : e.localPref = (relRaw as).localPref) (h4 : e.med = (relRaw as).med)
    (h5 : e.communities = nonEmpty (relRaw as).communities) (h6 : e.atomic = (relRaw as).atomic)
    (h7 : e.aggrAsn = (relRaw as).aggregator.map (·.1)) (h8 : e.aggrIp = (relRaw as).aggregator.map (·.2))
    (h9 : e.otc = (relRaw as).otc) (h10 : e.unknown = nonEmpty (relRaw as).unknown)
    (h11 : e.deprecated = nonEmpty (relRaw as).deprecated) : Carries as e where
  origin := ho ▸ rel_origin as
  origins := h1
  nextHop := ⟨_, _, rel_nextHop as, rel_announced as, by rw [h2, nextHopOf_eq]⟩
  localPref := by rw [h3]; exact rel_localPref as
  med := by rw [h4]; exact rel_med as
  communities := by rw [h5, ← rel_communities]; exact nonEmpty_spec _
  atomic := by
    rw [h6]
    have := fold_atomic as Relevant.init
    exact this.trans ⟨fun h => h.resolve_left (by decide), .inr⟩
  aggregator := ⟨_, rel_aggregator as, h7, h8⟩
  otc := h9 ▸ rel_otc as
  unknown := by rw [h10, ← rel_unknown]; exact nonEmpty_spec _
  deprecated := by rw [h11, ← rel_deprecated]; exact nonEmpty_spec _

theorem ribEntry_announces (p : NetworkPrefix) (peer : Peer) (e : RibEntry) :
    Announces (e.time.toNat * 1000000) peer.ip peer.asn (some peer.bgpId) e.attributes.inner p
      (ribEntryToElem p peer e) where
  type := rfl
  time := rfl
  peerIp := rfl
  peerAsn := rfl
  peerId := rfl
  prefix_ := rfl
  path := ⟨_, _, rel_asPath _, rel_as4Path _, mergePaths_spec _ _⟩
  attrs := carries_of _ _ rfl rfl (by
    show (match (relRaw e.attributes.inner).nextHop.or ((relRaw e.attributes.inner).announced.bind fun n => n.nextHop.map NextHop.addr) with
      | some v => some v
      | none => (relRaw e.attributes.inner).announced.bind fun n => n.nextHop.map NextHop.addr) = _
    cases (relRaw e.attributes.inner).nextHop <;> cases (relRaw e.attributes.inner).announced.bind fun n => n.nextHop.map NextHop.addr <;> rfl)
    rfl rfl rfl rfl rfl rfl rfl rfl rfl

/-! ### the iterators -/

/-- what is left in an update iterator. -/
def UpdateIter.left (it : UpdateIter) : List BgpElem :=
  (if it.inWithdrawn then [] else it.announced.map it.announce) ++ it.withdrawn.map it.withdraw

theorem UpdateIter.left_next (it : UpdateIter) :
    (it.left = [] ∧ it.next.1 = none ∧ it.next.2.left = []) ∨
    (∃ e l, it.left = e :: l ∧ it.next.1 = some e ∧ it.next.2.left = l) := by
  obtain ⟨tm, pi, pa, pb, ot, pt, os, og, nh, lp, md, cs, at', aa, ai, un, de, ann, wd, ph⟩ := it
  cases ph
  · cases ann with
    | cons p ps => exact .inr ⟨_, _, rfl, rfl, rfl⟩
    | nil =>
      cases wd with
      | nil => exact .inl ⟨rfl, rfl, rfl⟩
      | cons p ps => exact .inr ⟨_, _, rfl, rfl, rfl⟩
  · cases wd with
    | nil => exact .inl ⟨rfl, rfl, rfl⟩
    | cons p ps => exact .inr ⟨_, _, rfl, rfl, rfl⟩

theorem UpdateIter.left_length (it : UpdateIter) : it.sizeHint = (it.left.length, it.left.length) := by
  unfold UpdateIter.sizeHint UpdateIter.left
  cases it.inWithdrawn <;> simp

theorem UpdateIter.take_eq : ∀ (n : Nat) (it : UpdateIter), it.take n = it.left.take n
  | 0, _ => by simp [UpdateIter.take]
  | n + 1, it => by
    rw [UpdateIter.take]
    rcases it.left_next with ⟨h, h1, h2⟩ | ⟨e, l, h, h1, h2⟩
    · generalize hn : it.next = x at h1 h2 ⊢
      obtain ⟨o, it'⟩ := x
      cases h1
      rw [h]; rfl
    · generalize hn : it.next = x at h1 h2 ⊢
      obtain ⟨o, it'⟩ := x
      cases h1
      rw [h]
      show e :: UpdateIter.take n it' = _
      rw [UpdateIter.take_eq n it', h2]; rfl

theorem UpdateIter.collect_eq (it : UpdateIter) : it.collect = it.left := by
  rw [UpdateIter.collect, UpdateIter.take_eq, UpdateIter.left_length]
  exact List.take_of_length_le (by simp)

/-- the RIB entries up to the first unknown peer. -/
def ribLeft (t : PeerIndexTable) (p : NetworkPrefix) : List RibEntry → List BgpElem
  | [] => []
  | e :: es =>
    match t.peer e.peerIndex with
    | some peer => ribEntryToElem p peer e :: ribLeft t p es
    | none => []

def RecordIter.left : RecordIter → List BgpElem
  | .empty => []
  | .tableDump e => e.toList
  | .batch ms => ms.map tableDumpToElem
  | .rib t p es => ribLeft t p es
  | .bgp4mp it => it.left

theorem RecordIter.left_next (it : RecordIter) :
    (it.left = [] ∧ it.next.1 = none ∧ it.next.2.left = []) ∨
    (∃ e l, it.left = e :: l ∧ it.next.1 = some e ∧ it.next.2.left = l) := by
  cases it with
  | empty => exact .inl ⟨rfl, rfl, rfl⟩
  | tableDump e =>
    cases e with
    | none => exact .inl ⟨rfl, rfl, rfl⟩
    | some e => exact .inr ⟨_, _, rfl, rfl, rfl⟩
  | batch ms =>
    cases ms with
    | nil => exact .inl ⟨rfl, rfl, rfl⟩
    | cons e => exact .inr ⟨_, _, rfl, rfl, rfl⟩
  | bgp4mp it => exact it.left_next
  | rib t p es =>
    cases es with
    | nil => exact .inl ⟨rfl, rfl, rfl⟩
    | cons e es =>
      cases h : t.peer e.peerIndex with
      | none => exact .inl (by simp [RecordIter.left, ribLeft, RecordIter.next, h])
      | some peer => exact .inr ⟨_, _, by simp [RecordIter.left, ribLeft, h]; exact ⟨rfl, rfl⟩, by simp [RecordIter.next, h], by
          simp [RecordIter.left, RecordIter.next, h]⟩

theorem RecordIter.take_eq : ∀ (n : Nat) (it : RecordIter), it.take n = it.left.take n
  | 0, _ => by simp [RecordIter.take]
  | n + 1, it => by
    rw [RecordIter.take]
    rcases it.left_next with ⟨h, h1, h2⟩ | ⟨e, l, h, h1, h2⟩
    · generalize hn : it.next = x at h1 h2 ⊢
      obtain ⟨o, it'⟩ := x
      cases h1
      rw [h]; rfl
    · generalize hn : it.next = x at h1 h2 ⊢
      obtain ⟨o, it'⟩ := x
      cases h1
      rw [h]
      show e :: RecordIter.take n it' = _
      rw [RecordIter.take_eq n it', h2]; rfl

theorem ribLeft_length (t : PeerIndexTable) (p : NetworkPrefix) : ∀ es, (ribLeft t p es).length ≤ es.length
  | [] => Nat.le_refl _
  | e :: es => by
    rw [ribLeft]
    cases t.peer e.peerIndex with
    | none => simp
    | some peer => simpa using ribLeft_length t p es

theorem RecordIter.left_le (it : RecordIter) : it.left.length ≤ it.sizeHint.2 := by
  cases it with
  | empty => exact Nat.le_refl _
  | tableDump e => cases e <;> simp [RecordIter.left, RecordIter.sizeHint]
  | batch ms => simp [RecordIter.left, RecordIter.sizeHint]
  | rib t p es => exact ribLeft_length t p es
  | bgp4mp it => simp [RecordIter.left, RecordIter.sizeHint, it.left_length]

theorem RecordIter.collect_eq (it : RecordIter) : it.collect = it.left := by
  rw [RecordIter.collect, RecordIter.take_eq]
  exact List.take_of_length_le (Nat.le_succ_of_le it.left_le)

theorem pairwise2_map (R : α → β → Prop) (f : α → β) (h : ∀ a, R a (f a)) : ∀ l, Pairwise2 R l (l.map f)
  | [] => .nil
  | a :: l => .cons (h a) (pairwise2_map R f h l)

end Verif
