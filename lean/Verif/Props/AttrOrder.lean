import Verif.Spec.AttrOrder
import Verif.Props.Elem
import Verif.Props.Bgp
/-
C102: the order of the attributes.
-/
namespace Verif.Props
open Spec

/-! ### lists without two of a kind -/

theorem allUnlike_perm {as as' : List Attribute} (hp : as.Perm as') (h : AllUnlike as) : AllUnlike as' :=
  (hp.pairwise_iff fun {_ _} h => ⟨Ne.symm h.1, fun g => h.2.2 g.symm, fun g => h.2.1 g.symm⟩).1 h

/-- at most one attribute says anything: its place does not matter. -/
theorem flatMap_one {g : Attribute → List β} {as as' : List Attribute} (hp : as.Perm as') (h : AllUnlike as)
    (hg : ∀ a b, g a ≠ [] → g b ≠ [] → ¬ UnlikeCodes (assignedCode a.value) (assignedCode b.value)) : as.flatMap g = as'.flatMap g := by
  induction hp with
  | nil => rfl
  | cons x _ ih => rw [List.flatMap_cons, List.flatMap_cons, ih (List.pairwise_cons.1 h).2]
  | swap x y l =>
    have hxy := (List.pairwise_cons.1 h).1 x (by simp)
    simp only [List.flatMap_cons]
    by_cases hx : g x = []
    · simp [hx]
    · by_cases hy : g y = []
      · simp [hy]
      · exact absurd hxy (hg y x hy hx)
  | trans h1 _ ih1 ih2 => rw [ih1 h, ih2 (allUnlike_perm h1 h)]

/-- the last attribute of a kind is the only one. -/
theorem lastOf_perm {P : α → AttrVal → Prop} {as as' : List Attribute} (hp : as.Perm as') (h : AllUnlike as)
    (hP : ∀ x y v w, P x v → P y w → ¬ UnlikeCodes (assignedCode v) (assignedCode w)) (hi : ∀ x y v, P x v → P y v → x = y)
    {o o' : Option α} (ho : LastOf P as o) (ho' : LastOf P as' o') : o = o' := by
  cases o with
  | none =>
    cases o' with
    | none => rfl
    | some y =>
      obtain ⟨pre, b, post, e, hy, _⟩ := ho'
      exact absurd hy (ho b (hp.mem_iff.2 (by rw [e]; simp)) y)
  | some x =>
    obtain ⟨pre, a, post, e, hx, _⟩ := ho
    cases o' with
    | none => exact absurd hx (ho' a (hp.mem_iff.1 (by rw [e]; simp)) x)
    | some y =>
      obtain ⟨pre', b, post', e', hy, _⟩ := ho'
      have hb : b ∈ as := hp.mem_iff.2 (by rw [e']; simp)
      rw [e] at hb
      have hpw : (pre ++ a :: post).Pairwise fun a b => UnlikeCodes (assignedCode a.value) (assignedCode b.value) := e ▸ h
      rw [List.pairwise_append, List.pairwise_cons] at hpw
      rcases List.mem_append.1 hb with hb | hb
      · exact absurd (hpw.2.2 b hb a (by simp)) (hP _ _ _ _ hy hx)
      · rcases List.mem_cons.1 hb with rfl | hb
        · exact congrArg some (hi _ _ _ hx hy)
        · exact absurd (hpw.2.1.1 b hb) (hP _ _ _ _ hx hy)

theorem last_perm {mk : α → AttrVal} {c : UInt8} (hc : ∀ x, assignedCode (mk x) = c) (hi : ∀ x y, mk x = mk y → x = y)
    {as as' : List Attribute} (hp : as.Perm as') (h : AllUnlike as) {o o' : Option α} (ho : Last mk as o) (ho' : Last mk as' o') : o = o' :=
  lastOf_perm hp h (by rintro x y v w rfl rfl ⟨g, _⟩; exact g ((hc x).trans (hc y).symm)) (by rintro x y v rfl g; exact hi _ _ g) ho ho'

/-! ### what the elements take from the attributes -/

structure SameRel (r r' : Relevant) : Prop where
  rest : { r with communities := [], unknown := [], deprecated := [] } = { r' with communities := [], unknown := [], deprecated := [] }
  communities : ∀ k, ofKind k r.communities = ofKind k r'.communities
  unknown : r.unknown.Perm r'.unknown
  deprecated : r.deprecated.Perm r'.deprecated

theorem ofKind_flatMap (k : CommunityKind) (as : List Attribute) (g : Attribute → List MetaCommunity) :
    ofKind k (as.flatMap g) = as.flatMap fun a => ofKind k (g a) := by
  unfold ofKind
  rw [List.filter_flatMap]

theorem kind_of_map {f : α → MetaCommunity} {l : List α} {k k' : CommunityKind} (hf : ∀ x, kindOf (f x) = k')
    (hne : ofKind k (l.map f) ≠ []) : k = k' := by
  obtain ⟨x, hx⟩ := List.exists_mem_of_ne_nil _ hne
  obtain ⟨h1, h2⟩ := List.mem_filter.1 hx
  obtain ⟨y, _, rfl⟩ := List.mem_map.1 h1
  have := of_decide_eq_true h2
  rw [hf] at this
  exact this.symm

def kindCode : CommunityKind → UInt8
  | .plain => 8
  | .extended => 16
  | .large => 32
  | .ipv6Extended => 25

theorem kind_code (k : CommunityKind) (a b : Attribute) (ha : ofKind k (communitiesIn a.value) ≠ [])
    (hb : ofKind k (communitiesIn b.value) ≠ []) : assignedCode a.value = assignedCode b.value := by
  have key : ∀ v, ofKind k (communitiesIn v) ≠ [] → assignedCode v = kindCode k := by
    intro v hv
    cases v with
    | communities cs => rw [kind_of_map (f := MetaCommunity.plain) (k' := .plain) (fun _ => rfl) hv]; rfl
    | extCommunities cs => rw [kind_of_map (f := MetaCommunity.extended) (k' := .extended) (fun _ => rfl) hv]; rfl
    | ipv6ExtCommunities cs => rw [kind_of_map (f := MetaCommunity.ipv6Extended) (k' := .ipv6Extended) (fun _ => rfl) hv]; rfl
    | largeCommunities cs => rw [kind_of_map (f := MetaCommunity.large) (k' := .large) (fun _ => rfl) hv]; rfl
    | _ => exact absurd rfl hv
  rw [key _ ha, key _ hb]

theorem relRaw_perm {as as' : List Attribute} (hp : as.Perm as') (h : AllUnlike as) : SameRel (relRaw as) (relRaw as') := by
  have e1 := last_perm (c := 1) (fun _ => rfl) (by intro x y h; cases h; rfl) hp h (rel_origin as) (rel_origin as')
  have e2 := last_perm (c := 2) (fun _ => rfl) (by intro x y h; cases h; rfl) hp h (rel_asPath as) (rel_asPath as')
  have e3 := last_perm (c := 17) (fun _ => rfl) (by intro x y h; cases h; rfl) hp h (rel_as4Path as) (rel_as4Path as')
  have e4 := last_perm (c := 3) (fun _ => rfl) (by intro x y h; cases h; rfl) hp h (rel_nextHop as) (rel_nextHop as')
  have e5 := last_perm (c := 14) (fun _ => rfl) (by intro x y h; cases h; rfl) hp h (rel_announced as) (rel_announced as')
  have e6 := last_perm (c := 15) (fun _ => rfl) (by intro x y h; cases h; rfl) hp h (rel_withdrawn as) (rel_withdrawn as')
  have e7 := last_perm (c := 35) (fun _ => rfl) (by intro x y h; cases h; rfl) hp h (rel_otc as) (rel_otc as')
  obtain ⟨l, hl, el⟩ := rel_localPref as
  obtain ⟨l', hl', el'⟩ := rel_localPref as'
  have e8 := last_perm (c := 5) (fun _ => rfl) (by intro x y h; cases h; rfl) hp h hl hl'
  obtain ⟨m, hm, em⟩ := rel_med as
  obtain ⟨m', hm', em'⟩ := rel_med as'
  have e9 := last_perm (c := 4) (fun _ => rfl) (by intro x y h; cases h; rfl) hp h hm hm'
  have e10 : (relRaw as).aggregator = (relRaw as').aggregator := by
    refine lastOf_perm hp h ?_ ?_ (rel_aggregator as) (rel_aggregator as')
    · rintro x y v w (rfl | rfl) (rfl | rfl) g
      · exact g.1 rfl
      · exact g.2.1 ⟨rfl, rfl⟩
      · exact g.2.2 ⟨rfl, rfl⟩
      · exact g.1 rfl
    · rintro ⟨x1, x2⟩ ⟨y1, y2⟩ v (rfl | rfl) (g | g) <;> cases g <;> rfl
  have e11 : (relRaw as).atomic = (relRaw as').atomic := by
    rw [Bool.eq_iff_iff]
    unfold relRaw
    rw [fold_atomic, fold_atomic]
    simp only [Relevant.init, hp.mem_iff]
  refine ⟨?_, ?_, ?_, ?_⟩
  · rw [← e8] at el'
    rw [← e9] at em'
    have e12 := el.trans el'.symm
    have e13 := em.trans em'.symm
    generalize relRaw as = r at *
    generalize relRaw as' = r' at *
    cases r; cases r'
    simp_all
  · intro k
    rw [rel_communities, rel_communities, ofKind_flatMap, ofKind_flatMap]
    exact flatMap_one hp h fun a b ha hb g => g.1 (kind_code k a b ha hb)
  · rw [rel_unknown, rel_unknown]
    exact hp.flatMap_right _
  · rw [rel_deprecated, rel_deprecated]
    exact hp.flatMap_right _

theorem relevant_perm {a a' : Attributes} (hp : a.inner.Perm a'.inner) (h : AllUnlike a.inner) :
    SameRel (relevantAttributes a) (relevantAttributes a') := by
  rw [relevant_eq, relevant_eq]
  obtain ⟨h1, h2, h3, h4⟩ := relRaw_perm hp h
  refine ⟨?_, h2, h3, h4⟩
  generalize relRaw a.inner = r at *
  generalize relRaw a'.inner = r' at *
  cases r; cases r'
  simp_all

theorem bothOr_perm {l l' : List α} (h : l.Perm l') : BothOr List.Perm (nonEmpty l) (nonEmpty l') := by
  unfold nonEmpty
  cases l with
  | nil => rw [← h.nil_eq]; exact .none
  | cons x l =>
    cases l' with
    | nil => exact absurd h.eq_nil (by simp)
    | cons y l' => exact .some h

theorem bothOr_kinds {l l' : List MetaCommunity} (h : ∀ k, ofKind k l = ofKind k l') :
    BothOr (fun l l' => ∀ k, ofKind k l = ofKind k l') (nonEmpty l) (nonEmpty l') := by
  unfold nonEmpty
  have hm : ∀ (l : List MetaCommunity) x, x ∈ l → x ∈ ofKind (kindOf x) l := fun l x hx => List.mem_filter.2 ⟨hx, by simp⟩
  cases l with
  | nil =>
    cases l' with
    | nil => exact .none
    | cons y l' => exact absurd ((h _).symm ▸ hm (y :: l') y (by simp)) (by simp [ofKind])
  | cons x l =>
    cases l' with
    | nil => exact absurd ((h _) ▸ hm (x :: l) x (by simp)) (by simp [ofKind])
    | cons y l' => exact .some h

/-! ### elements -/

/-- **C102** The element of a RIB entry does not depend on the order of the attributes. -/
theorem c102_rib_entry_partial (p : NetworkPrefix) (peer : Peer) (e e' : RibEntry) (ht : e.time = e'.time)
    (hp : e.attributes.inner.Perm e'.attributes.inner) (h : AllUnlike e.attributes.inner) :
    SameButOrder (ribEntryToElem p peer e) (ribEntryToElem p peer e') := by
  obtain ⟨h1, h2, h3, h4⟩ := relevant_perm hp h
  unfold ribEntryToElem
  rw [ht]
  generalize relevantAttributes e.attributes = r at *
  generalize relevantAttributes e'.attributes = r' at *
  refine ⟨?_, bothOr_kinds h2, bothOr_perm h3, bothOr_perm h4⟩
  cases r; cases r'
  simp_all

/-- **C102** Nor that of a TABLE_DUMP record. -/
theorem c102_table_dump_partial (m : TableDump) (a' : Attributes) (hp : m.attributes.inner.Perm a'.inner)
    (h : AllUnlike m.attributes.inner) :
    SameButOrder (tableDumpToElem m) (tableDumpToElem { m with attributes := a' }) := by
  obtain ⟨h1, h2, h3, h4⟩ := relevant_perm hp h
  unfold tableDumpToElem
  dsimp only
  generalize relevantAttributes m.attributes = r at *
  generalize relevantAttributes a' = r' at *
  refine ⟨?_, bothOr_kinds h2, bothOr_perm h3, bothOr_perm h4⟩
  cases r; cases r'
  simp_all

theorem pairwise2_append {R : α → β → Prop} {l₁ l₂ : List α} {m₁ m₂ : List β} (h1 : Pairwise2 R l₁ m₁) (h2 : Pairwise2 R l₂ m₂) :
    Pairwise2 R (l₁ ++ l₂) (m₁ ++ m₂) := by
  induction h1 with
  | nil => exact h2
  | cons h _ ih => exact .cons h ih

theorem pairwise2_maps {R : β → γ → Prop} {f : α → β} {g : α → γ} (h : ∀ a, R (f a) (g a)) (l : List α) :
    Pairwise2 R (l.map f) (l.map g) := by
  induction l with
  | nil => exact .nil
  | cons a l ih => exact .cons (h a) ih

/-- **C102** Nor those of an UPDATE: the same routes in the same order, and the same but for order in each. -/
theorem c102_update_partial (u u' : Update) (t : Nat) (ip : Ip) (asn : Asn) (hw : u.withdrawn = u'.withdrawn) (ha : u.announced = u'.announced)
    (hp : u.attributes.inner.Perm u'.attributes.inner) (h : AllUnlike u.attributes.inner) :
    Pairwise2 SameButOrder (updateToElems u t ip asn) (updateToElems u' t ip asn) := by
  obtain ⟨h1, h2, h3, h4⟩ := relevant_perm hp h
  rw [updateToElems, updateToElems, UpdateIter.collect_eq, UpdateIter.collect_eq]
  unfold updateIter UpdateIter.left
  rw [hw, ha]
  generalize relevantAttributes u.attributes = r at *
  generalize relevantAttributes u'.attributes = r' at *
  have e1 : r.announced = r'.announced := by cases r; cases r'; simp_all
  have e2 : r.withdrawn = r'.withdrawn := by cases r; cases r'; simp_all
  dsimp only
  rw [e1, e2]
  refine pairwise2_append (pairwise2_maps (fun p => ⟨?_, bothOr_kinds h2, bothOr_perm h3, bothOr_perm h4⟩) _)
    (pairwise2_maps (fun p => ⟨rfl, .none, .none, .none⟩) _)
  cases r; cases r'
  simp_all [UpdateIter.announce]

/-! ### octets -/

structure SameV (v v' : VState) : Prop where
  mask : ∀ c, maskHas v.mask c = maskHas v'.mask c
  warnings : v.warnings.Perm v'.warnings

theorem header_same {v v' : VState} (h : SameV v v') (c f : UInt8) (n : Nat) : SameV (v.header c f n) (v'.header c f n) := by
  refine ⟨fun d => ?_, ?_⟩
  · simp only [VState.header, maskHas_set, h.mask]
  · simp only [VState.header, h.mask]
    exact ((h.warnings.append_right _).append_right _).append_right _

theorem stepV_eq (cfg : AttrCfg) (w : Wire) : ∃ l, ∀ v, stepV cfg v w =
    ⟨v.warnings ++ (if maskHas v.mask w.code then [.duplicate w.code] else []) ++ l, maskSet v.mask w.code⟩ := by
  cases hv : (valueOf cfg w).2 with
  | false =>
    refine ⟨flagWarnings w.code w.flag ++ lengthWarnings w.code w.value.length, fun v => ?_⟩
    simp [stepV, hv, VState.header]
  | true =>
    refine ⟨flagWarnings w.code w.flag ++ lengthWarnings w.code w.value.length ++
      [if isPartial w.flag then .partial_ w.code else if w.code ∈ [1, 2, 3, 5] then .malformedList else .optional w.code], fun v => ?_⟩
    rw [stepV, if_pos hv]
    simp only [VState.parseError, VState.header, List.append_assoc]

theorem stepV_same (cfg : AttrCfg) {v v' : VState} (h : SameV v v') (w : Wire) : SameV (stepV cfg v w) (stepV cfg v' w) := by
  obtain ⟨l, hl⟩ := stepV_eq cfg w
  rw [hl v, hl v']
  refine ⟨fun d => ?_, ?_⟩
  · simp only [maskHas_set, h.mask]
  · simp only [h.mask]
    exact (h.warnings.append_right _).append_right _

theorem stepV_swap (cfg : AttrCfg) (v : VState) (a b : Wire) : SameV (stepV cfg (stepV cfg v a) b) (stepV cfg (stepV cfg v b) a) := by
  obtain ⟨l, hl⟩ := stepV_eq cfg a
  obtain ⟨m, hm⟩ := stepV_eq cfg b
  rw [hm, hl v, hl, hm v]
  refine ⟨fun d => ?_, ?_⟩
  · simp only [maskHas_set, ← Bool.or_assoc, Bool.or_comm (decide (a.code = d))]
  · simp only [maskHas_set, List.append_assoc]
    refine List.Perm.append_left _ ?_
    by_cases hc : a.code = b.code
    · rw [hc]
      simp only [decide_true, Bool.true_or, if_true]
      refine List.Perm.append_left _ (List.perm_append_comm.trans ?_)
      rw [← List.append_assoc]
      exact List.perm_append_comm.append_right l
    · have hc' : b.code ≠ a.code := Ne.symm hc
      simp only [hc, hc', decide_false, Bool.false_or]
      simp only [← List.append_assoc]
      rw [List.append_assoc]
      refine List.perm_append_comm.trans ?_
      simp only [List.append_assoc]
      exact .refl _

theorem sameV_refl (v : VState) : SameV v v := ⟨fun _ => rfl, .refl _⟩

theorem foldV_perm (cfg : AttrCfg) {ws ws' : List Wire} (hp : ws.Perm ws') : ∀ {v v'}, SameV v v' → SameV (ws.foldl (stepV cfg) v) (ws'.foldl (stepV cfg) v') := by
  induction hp with
  | nil => exact fun h => h
  | cons x _ ih => exact fun h => ih (stepV_same cfg h x)
  | swap x y l =>
    intro v v' h
    have key : ∀ (l : List Wire) {v v'}, SameV v v' → SameV (l.foldl (stepV cfg) v) (l.foldl (stepV cfg) v') := by
      intro l
      induction l with
      | nil => exact fun h => h
      | cons x l ih => exact fun h => ih (stepV_same cfg h x)
    refine key l ?_
    obtain ⟨g1, g2⟩ := stepV_swap cfg v y x
    obtain ⟨g3, g4⟩ := stepV_same cfg (stepV_same cfg h x) y
    exact ⟨fun c => (g1 c).trans (g3 c), g2.trans g4⟩
  | trans _ _ ih1 ih2 => 
    intro v v' h
    obtain ⟨g1, g2⟩ := ih1 (sameV_refl v)
    obtain ⟨g3, g4⟩ := ih2 h
    exact ⟨fun c => (g1 c).trans (g3 c), g2.trans g4⟩

/-- **C102** Attributes in another order, duplicates or not: the same attributes in that order, and the same warnings in some order. -/
theorem c102_parse (cfg : AttrCfg) (ws ws' : List Wire) (r : Bytes) (hw : ∀ w ∈ ws, w.ok) (hp : ws.Perm ws') (hr : Rest r) :
    ∃ a a', parseAttributes cfg (wireBytes ws ++ r) = .ok a ∧ parseAttributes cfg (wireBytes ws' ++ r) = .ok a' ∧
      a.inner.Perm a'.inner ∧ a.warnings.Perm a'.warnings ∧ (∀ c, a.hasAttr c = a'.hasAttr c) ∧
      a.inner.map (fun x => (x.flag, assignedCode x.value)) = ws.map fun w => (w.flag, w.code) := by
  refine ⟨_, _, parse_wires cfg ws hw hr, parse_wires cfg ws' (fun w h => hw w (hp.mem_iff.2 h)) hr, hp.map _, ?_⟩
  have h := foldV_perm cfg hp (sameV_refl VState.init)
  have h' : SameV (restV (ws.foldl (stepV cfg) VState.init) r) (restV (ws'.foldl (stepV cfg) VState.init) r) := by
    unfold restV
    split
    · exact h
    · split
      · exact header_same h _ _ _
      · exact h
  refine ⟨h'.warnings, h'.mask, ?_⟩
  have hc : ∀ v : AttrVal, v.code = assignedCode v := fun v => by cases v <;> rfl
  rw [List.map_map]
  refine List.map_congr_left fun w _ => ?_
  simp only [Function.comp, attrOf, ← hc, valueOf_code]

/-- **C102** UPDATE messages with the same attributes in another order have the same elements. -/
theorem c102_message_partial (addPath : Bool) (l : AsnLen) (t : Nat) (ip : Ip) (asn : Asn) (w n : Bytes) (ws ws' : List Wire) (r : Bytes)
    (hw : ∀ w ∈ ws, w.ok) (hp : ws.Perm ws') (hr : Rest r) (hu : ws.Pairwise fun a b => UnlikeCodes a.code b.code)
    (hwl : w.length < 65536) (hal : (wireBytes ws ++ r).length < 65536) :
    ∃ u u', parseUpdate addPath l (updateBytes w (wireBytes ws ++ r) n) = .ok u ∧
      parseUpdate addPath l (updateBytes w (wireBytes ws' ++ r) n) = .ok u' ∧
      Pairwise2 SameButOrder (updateToElems u t ip asn) (updateToElems u' t ip asn) ∧ u.attributes.warnings.Perm u'.attributes.warnings := by
  obtain ⟨a, a', h1, h2, h3, h4, h5, h6⟩ := c102_parse (updateCfg addPath l) ws ws' r hw hp hr
  have hlen : (wireBytes ws' ++ r).length = (wireBytes ws ++ r).length := by
    rw [List.length_append, List.length_append]
    congr 1
    exact (hp.flatMap_right _).length_eq.symm
  obtain ⟨u, m, g1, g2, g3, g4, g5, g6⟩ := c54_sections addPath l w _ n hwl hal a h1
  obtain ⟨u', m', k1, k2, k3, k4, k5, k6⟩ := c54_sections addPath l w _ n hwl (by omega) a' h2
  refine ⟨u, u', g1, k1, c102_update_partial u u' t ip asn (g2.trans k2.symm) (g3.trans k3.symm) (by rw [g4, k4]; exact h3) ?_, ?_⟩
  · rw [g4, AllUnlike]
    have e1 : a.inner.map (fun x => assignedCode x.value) = ws.map Wire.code := by
      have := congrArg (List.map Prod.snd) h6
      rw [List.map_map, List.map_map] at this
      exact this
    have : (a.inner.map fun x => assignedCode x.value).Pairwise UnlikeCodes := by
      rw [e1]
      exact List.pairwise_map.2 hu
    exact List.pairwise_map.1 this
  · have hm : m = m' := by
      rw [g6, k6]
      unfold Attributes.checkMandatory
      dsimp only
      rw [List.drop_left, List.drop_left, h5 14]
      have hmask : ∀ c, maskHas a.mask c = maskHas a'.mask c := h5
      unfold missingWarnings
      simp only [hmask]
    rw [g5, k5, hm]
    exact ((h4.append_right _).append_right _).append_right _

/-! ### attributes that are there twice -/

/-- AS_PATH, ORIGIN and a MED, and the same backwards. -/
example : ([⟨0x40, 1, [0]⟩, ⟨0x40, 2, [2, 1, 0, 0, 0, 7]⟩, ⟨0x80, 4, [0, 0, 0, 9]⟩, ⟨0xc0, 8, [0, 1, 0, 2]⟩] : List Wire).Perm
      [⟨0xc0, 8, [0, 1, 0, 2]⟩, ⟨0x80, 4, [0, 0, 0, 9]⟩, ⟨0x40, 2, [2, 1, 0, 0, 0, 7]⟩, ⟨0x40, 1, [0]⟩] ∧
    (∀ w ∈ ([⟨0x40, 1, [0]⟩, ⟨0x40, 2, [2, 1, 0, 0, 0, 7]⟩, ⟨0x80, 4, [0, 0, 0, 9]⟩, ⟨0xc0, 8, [0, 1, 0, 2]⟩] : List Wire), w.ok) ∧
    ([⟨0x40, 1, [0]⟩, ⟨0x40, 2, [2, 1, 0, 0, 0, 7]⟩, ⟨0x80, 4, [0, 0, 0, 9]⟩, ⟨0xc0, 8, [0, 1, 0, 2]⟩] : List Wire).Pairwise
      (fun a b => UnlikeCodes a.code b.code) ∧ Rest [] := by
  refine ⟨by decide, by decide, by decide, .inl (by decide)⟩

/-- the octets of the attributes, in an UPDATE with one route. -/
def c102Update (ws : List Wire) : Option Update :=
  (parseUpdate false .b16 (updateBytes [] (wireBytes ws) [8, 10])).toOption

/-- **C102** Not for AGGREGATOR and AS4_AGGREGATOR, although these are two attributes: the aggregator of the element is the later one. If
AGGREGATOR comes later, and that is where RFC 6793 speakers need not put it, the element has AS 23456 and not the real number. -/
theorem c102_aggregator_order :
    (c102Update [⟨0xc0, 7, [0x5b, 0xa0, 1, 1, 1, 1]⟩, ⟨0xc0, 18, [0, 1, 0, 0, 1, 1, 1, 1]⟩]).map
      (fun u => (updateToElems u 0 (.v4 #v[1, 2, 3, 4]) 7).map (·.aggrAsn)) = some [some 65536] ∧
    (c102Update [⟨0xc0, 18, [0, 1, 0, 0, 1, 1, 1, 1]⟩, ⟨0xc0, 7, [0x5b, 0xa0, 1, 1, 1, 1]⟩]).map
      (fun u => (updateToElems u 0 (.v4 #v[1, 2, 3, 4]) 7).map (·.aggrAsn)) = some [some 23456] := by
  decide +kernel

/-- **C102** RFC 6793 4.2.3: AS4_PATH and AS4_AGGREGATOR are ignored if the AGGREGATOR is not AS 23456. The element has both. -/
theorem c102_as4_not_ignored :
    (c102Update [⟨0x40, 2, [2, 1, 0, 9]⟩, ⟨0xc0, 7, [0, 5, 1, 1, 1, 1]⟩, ⟨0xc0, 17, [2, 1, 0, 1, 0, 0]⟩, ⟨0xc0, 18, [0, 1, 0, 0, 1, 1, 1, 1]⟩]).map
      (fun u => (updateToElems u 0 (.v4 #v[1, 2, 3, 4]) 7).map fun e => (e.aggrAsn, e.originAsns)) = some [(some 65536, some [65536])] := by
  decide +kernel

/-- **C102** Of an attribute that is there twice, elements have the last and `Attributes` the first; RFC 7606 keeps the first. -/
theorem c102_duplicates :
    (c102Update [⟨0x80, 4, [0, 0, 0, 1]⟩, ⟨0x80, 4, [0, 0, 0, 2]⟩]).map (fun u => (u.attributes.med,
      (updateToElems u 0 (.v4 #v[1, 2, 3, 4]) 7).map (·.med))) = some (some 1, [some 2]) := by
  decide +kernel

end Verif.Props
