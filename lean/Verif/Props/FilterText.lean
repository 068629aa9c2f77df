import Verif.Lemmas.FilterText
/-
C60: filters from text.
-/
namespace Verif.Props
open Spec

theorem single_ok (f : α → Filter Rx) (o : Option α) (g : Filter Rx) : single f o = .ok g ↔ ∃ v, o = some v ∧ g = f v := by
  cases o with
  | none => simp [single]
  | some v => simp [single, eq_comm]

theorem single_error (f : α → Filter Rx) (o : Option α) {e : Err} (h : single f o = .error e) : e = .filter := by
  cases o with
  | none => cases h; rfl
  | some v => cases h

theorem elemType_words {v : List Char} {t : ElemType} (h : parseElemType v = some t) : ∃ w ∈ typeWords t, v = w.toList := by
  unfold parseElemType at h
  split at h
  · next hw => cases h; rcases hw with rfl | rfl | rfl <;> exact ⟨_, by simp [typeWords], rfl⟩
  · split at h
    · next hw => cases h; rcases hw with rfl | rfl | rfl <;> exact ⟨_, by simp [typeWords], rfl⟩
    · cases h

theorem ipVersion_words {v : List Char} {t : Bool} (h : parseIpVersion v = some t) : ∃ w ∈ versionWords t, v = w.toList := by
  unfold parseIpVersion at h
  split at h
  · next hw => cases h; rcases hw with rfl | rfl | rfl <;> exact ⟨_, by simp [versionWords], rfl⟩
  · split at h
    · next hw => cases h; rcases hw with rfl | rfl | rfl <;> exact ⟨_, by simp [versionWords], rfl⟩
    · cases h

theorem atomic_words {v : List Char} {t : Bool} (h : parseAtomic v = some t) : ∃ w ∈ atomicWords t, v = w.toList := by
  unfold parseAtomic at h
  split at h
  · next hw => cases h; rcases hw with rfl | rfl | rfl <;> exact ⟨_, by simp [atomicWords], rfl⟩
  · split at h
    · next hw => cases h; rcases hw with rfl | rfl | rfl <;> exact ⟨_, by simp [atomicWords], rfl⟩
    · cases h

theorem origin_word {v : List Char} {o : Origin} (h : originWord v = some o) : v.map Char.toLower = (originName o).toList := by
  unfold originWord at h
  simp only at h
  split at h
  · next hw => cases h; exact hw
  · split at h
    · next hw => cases h; exact hw
    · split at h
      · next hw => cases h; exact hw
      · cases h

theorem ite_elim {c : Prop} [Decidable c] {a b x : α} (h : (if c then a else b) = x) : (c ∧ a = x) ∨ (¬ c ∧ b = x) := by
  by_cases hc : c
  · rw [if_pos hc] at h; exact .inl ⟨hc, h⟩
  · rw [if_neg hc] at h; exact .inr ⟨hc, h⟩

theorem base_value (env : TextEnv) (ty : String) (v : List Char) (f : Filter env.Rx)
    (h : Filter.newBase env ty v = .ok f) (hm : multiValue.contains ty = false)
    (hp : v = ['*'] → presentField ty = none) : Value env ty v f := by
  unfold Filter.newBase at h
  rcases ite_elim h with ⟨ht, h⟩ | ⟨_, h⟩
  · subst ty; obtain ⟨n, h1, rfl⟩ := (single_ok _ _ _).1 h; exact .originAsn _ _ ((parseU32_iff _ _).1 h1)
  rcases ite_elim h with ⟨ht, h⟩ | ⟨_, h⟩
  · subst ty; exact absurd hm (by decide)
  rcases ite_elim h with ⟨ht, h⟩ | ⟨_, h⟩
  · subst ty; obtain ⟨n, h1, rfl⟩ := (single_ok _ _ _).1 h; exact .prefix_ v n .exact h1
  rcases ite_elim h with ⟨ht, h⟩ | ⟨_, h⟩
  · subst ty; obtain ⟨n, h1, rfl⟩ := (single_ok _ _ _).1 h; exact .prefix_ v n .super h1
  rcases ite_elim h with ⟨ht, h⟩ | ⟨_, h⟩
  · subst ty; obtain ⟨n, h1, rfl⟩ := (single_ok _ _ _).1 h; exact .prefix_ v n .sub h1
  rcases ite_elim h with ⟨ht, h⟩ | ⟨_, h⟩
  · subst ty; obtain ⟨n, h1, rfl⟩ := (single_ok _ _ _).1 h; exact .prefix_ v n .superSub h1
  rcases ite_elim h with ⟨ht, h⟩ | ⟨_, h⟩
  · subst ty; exact absurd hm (by decide)
  rcases ite_elim h with ⟨ht, h⟩ | ⟨_, h⟩
  · subst ty; exact absurd hm (by decide)
  rcases ite_elim h with ⟨ht, h⟩ | ⟨_, h⟩
  · subst ty; exact absurd hm (by decide)
  rcases ite_elim h with ⟨ht, h⟩ | ⟨_, h⟩
  · subst ty; exact absurd hm (by decide)
  rcases ite_elim h with ⟨ht, h⟩ | ⟨_, h⟩
  · subst ty; obtain ⟨n, h1, rfl⟩ := (single_ok _ _ _).1 h; exact .peerIp _ _ h1
  rcases ite_elim h with ⟨ht, h⟩ | ⟨_, h⟩
  · subst ty; exact absurd hm (by decide)
  rcases ite_elim h with ⟨ht, h⟩ | ⟨_, h⟩
  · subst ty; obtain ⟨n, h1, rfl⟩ := (single_ok _ _ _).1 h; exact .peerAsn _ _ ((parseU32_iff _ _).1 h1)
  rcases ite_elim h with ⟨ht, h⟩ | ⟨_, h⟩
  · subst ty; exact absurd hm (by decide)
  rcases ite_elim h with ⟨ht, h⟩ | ⟨_, h⟩
  · subst ty; obtain ⟨n, h1, rfl⟩ := (single_ok _ _ _).1 h
    obtain ⟨w, hw, rfl⟩ := elemType_words h1
    exact .type _ _ hw
  rcases ite_elim h with ⟨ht, h⟩ | ⟨_, h⟩
  · obtain ⟨n, h1, rfl⟩ := (single_ok _ _ _).1 h
    obtain ⟨m, h2, rfl⟩ := Option.map_eq_some_iff.1 h1
    exact .tsStart _ _ _ (by simpa using ht) h2
  rcases ite_elim h with ⟨ht, h⟩ | ⟨_, h⟩
  · obtain ⟨n, h1, rfl⟩ := (single_ok _ _ _).1 h
    obtain ⟨m, h2, rfl⟩ := Option.map_eq_some_iff.1 h1
    exact .tsEnd _ _ _ (by simpa using ht) h2
  rcases ite_elim h with ⟨ht, h⟩ | ⟨_, h⟩
  · subst ty; obtain ⟨n, h1, rfl⟩ := (single_ok _ _ _).1 h; exact .asPath _ _ h1
  rcases ite_elim h with ⟨ht, h⟩ | ⟨_, h⟩
  · subst ty; obtain ⟨n, h1, rfl⟩ := (single_ok _ _ _).1 h; exact .community _ _ h1
  rcases ite_elim h with ⟨ht, h⟩ | ⟨_, h⟩
  · obtain ⟨n, h1, rfl⟩ := (single_ok _ _ _).1 h
    obtain ⟨w, hw, rfl⟩ := ipVersion_words h1
    exact .ipVersion _ _ _ (by simpa using ht) hw
  rcases ite_elim h with ⟨ht, h⟩ | ⟨_, h⟩
  · subst ty; obtain ⟨n, h1, rfl⟩ := (single_ok _ _ _).1 h; exact .otc _ _ ((parseU32_iff _ _).1 h1)
  rcases ite_elim h with ⟨ht, h⟩ | ⟨_, h⟩
  · subst ty; obtain ⟨n, h1, rfl⟩ := (single_ok _ _ _).1 h
    exact .nextHop _ _ (fun h => absurd (hp h) (by decide)) h1
  rcases ite_elim h with ⟨ht, h⟩ | ⟨_, h⟩
  · subst ty; obtain ⟨n, h1, rfl⟩ := (single_ok _ _ _).1 h; exact .origin _ _ (origin_word h1)
  rcases ite_elim h with ⟨ht, h⟩ | ⟨_, h⟩
  · subst ty; obtain ⟨n, h1, rfl⟩ := (single_ok _ _ _).1 h; exact .localPref _ _ ((parseU32_iff _ _).1 h1)
  rcases ite_elim h with ⟨ht, h⟩ | ⟨_, h⟩
  · subst ty; obtain ⟨n, h1, rfl⟩ := (single_ok _ _ _).1 h; exact .med _ _ ((parseU32_iff _ _).1 h1)
  rcases ite_elim h with ⟨ht, h⟩ | ⟨_, h⟩
  · subst ty; obtain ⟨n, h1, rfl⟩ := (single_ok _ _ _).1 h
    obtain ⟨w, hw, rfl⟩ := atomic_words h1
    exact .atomic _ _ hw
  rcases ite_elim h with ⟨ht, h⟩ | ⟨_, h⟩
  · subst ty; obtain ⟨n, h1, rfl⟩ := (single_ok _ _ _).1 h; exact .aggrAsn _ _ ((parseU32_iff _ _).1 h1)
  rcases ite_elim h with ⟨ht, h⟩ | ⟨_, h⟩
  · subst ty; obtain ⟨n, h1, rfl⟩ := (single_ok _ _ _).1 h
    exact .aggrIp _ _ (fun h => absurd (hp h) (by decide)) h1
  rcases ite_elim h with ⟨ht, h⟩ | ⟨_, h⟩
  · subst ty; obtain ⟨n, h1, rfl⟩ := (single_ok _ _ _).1 h
    exact .peerBgpId _ _ (fun h => absurd (hp h) (by decide)) h1
  cases h

theorem value_not_list {env : TextEnv} {ty : String} {v : List Char} {f : Filter env.Rx} (h : Value env ty v f) :
    multiValue.contains ty = false := by
  cases h with
  | present fd => cases fd <;> decide
  | prefix_ v p t => cases t <;> decide
  | tsStart _ _ _ ht => simp at ht; rcases ht with rfl | rfl <;> decide
  | tsEnd _ _ _ ht => simp at ht; rcases ht with rfl | rfl <;> decide
  | ipVersion _ _ _ ht => simp at ht; rcases ht with rfl | rfl <;> decide
  | _ => decide

theorem star_not_decimal {n : UInt32} : ¬ Decimal ['*'] n := by
  rw [← parseU32_iff]
  have : parseU32 ['*'] = none := by decide
  rw [this]; simp

theorem value_star {env : TextEnv} {ty : String} {f : Filter env.Rx} (h : Value env ty ['*'] f) (fd : Field)
    (hf : presentField ty = some fd) : f = .present fd := by
  generalize hv : ['*'] = v at h
  cases h with
  | present fd' => cases fd' <;> cases fd <;> simp_all [presentField, fieldName]
  | otc _ _ h => subst hv; exact absurd h star_not_decimal
  | nextHop _ _ h => exact absurd hv.symm h
  | origin _ o h => subst hv; cases o <;> exact absurd h (by decide)
  | localPref _ _ h => subst hv; exact absurd h star_not_decimal
  | med _ _ h => subst hv; exact absurd h star_not_decimal
  | aggrAsn _ _ h => subst hv; exact absurd h star_not_decimal
  | aggrIp _ _ h => exact absurd hv.symm h
  | peerBgpId _ _ h => exact absurd hv.symm h
  | prefix_ _ _ t => cases t <;> exact absurd hf (by simp [presentField, matchSuffix])
  | tsStart _ _ _ ht => simp at ht; rcases ht with rfl | rfl <;> exact absurd hf (by simp [presentField])
  | tsEnd _ _ _ ht => simp at ht; rcases ht with rfl | rfl <;> exact absurd hf (by simp [presentField])
  | ipVersion _ _ _ ht => simp at ht; rcases ht with rfl | rfl <;> exact absurd hf (by simp [presentField])
  | _ => exact absurd hf (by simp [presentField])

theorem presentField_name (fd : Field) : presentField (fieldName fd) = some fd := by cases fd <;> decide

/-- what `new_base` does with a value that stands for a filter other than a presence test. -/
theorem value_base {env : TextEnv} {ty : String} {v : List Char} {f : Filter env.Rx} (h : Value env ty v f)
    (hp : ∀ fd, f ≠ .present fd) : Filter.newBase env ty v = .ok f := by
  cases h with
  | present fd => exact absurd rfl (hp fd)
  | originAsn v n h => simp [Filter.newBase, (parseU32_iff v n).2 h, single]
  | prefix_ v p t h => cases t <;> simp [Filter.newBase, matchSuffix, h, single]
  | peerIp v a h => simp [Filter.newBase, h, single]
  | peerAsn v n h => simp [Filter.newBase, (parseU32_iff v n).2 h, single]
  | type v t h => cases t <;> simp [typeWords] at h <;> rcases h with rfl | rfl | rfl <;> rfl
  | tsStart ty v t ht h =>
    simp at ht; rcases ht with rfl | rfl <;> simp [Filter.newBase, h, single, TextEnv.micros]
  | tsEnd ty v t ht h =>
    simp at ht; rcases ht with rfl | rfl <;> simp [Filter.newBase, h, single, TextEnv.micros]
  | asPath v r h => simp [Filter.newBase, h, single]
  | community v r h => simp [Filter.newBase, h, single]
  | ipVersion ty v b ht h =>
    simp at ht
    rcases ht with rfl | rfl <;> cases b <;> simp [versionWords] at h <;> rcases h with rfl | rfl | rfl <;> rfl
  | otc v n h => simp [Filter.newBase, (parseU32_iff v n).2 h, single]
  | nextHop v a _ h => simp [Filter.newBase, h, single]
  | origin v o h =>
    have : originWord v = some o := by
      unfold originWord
      simp only [h]
      cases o <;> rfl
    simp [Filter.newBase, this, single]
  | localPref v n h => simp [Filter.newBase, (parseU32_iff v n).2 h, single]
  | med v n h => simp [Filter.newBase, (parseU32_iff v n).2 h, single]
  | atomic v b h => cases b <;> simp [atomicWords] at h <;> rcases h with rfl | rfl | rfl <;> rfl
  | aggrAsn v n h => simp [Filter.newBase, (parseU32_iff v n).2 h, single]
  | aggrIp v a _ h => simp [Filter.newBase, h, single]
  | peerBgpId v a _ h => simp [Filter.newBase, h, single]

theorem newSingle_iff (env : TextEnv) (ty : String) (neg : Bool) (v : List Char) (f : Filter env.Rx)
    (hm : multiValue.contains ty = false) :
    Filter.newSingle env ty neg v = .ok f ↔
      (∃ g, Value env ty v g ∧ f = negateIf neg g) ∧ (neg = true → ty ∉ timeFilters) := by
  have hn : ∀ g : Filter env.Rx, negIf neg g = negateIf neg g := by intro g; cases neg <;> rfl
  unfold Filter.newSingle
  by_cases ht : (neg && timeFilters.contains ty) = true
  · rw [if_pos ht]
    simp only [Bool.and_eq_true, List.contains_iff_mem] at ht
    simp only [reduceCtorEq, false_iff, not_and]
    intro _ h
    exact absurd ht.2 (h ht.1)
  · rw [if_neg ht]
    have ht' : neg = true → ty ∉ timeFilters := by
      intro h1 h2; exact ht (by simp [h1, h2])
    rw [and_iff_left ht']
    cases hs : (if v = ['*'] then presentField ty else none) with
    | some fd =>
      split at hs
      · next hv =>
        subst hv
        simp only [Except.ok.injEq, hn]
        constructor
        · rintro rfl
          refine ⟨_, ?_, rfl⟩
          have : ty = fieldName fd := by
            unfold presentField at hs
            repeat' split at hs
            all_goals first | (cases hs; done) | (cases hs; assumption)
          subst this
          exact .present fd
        · rintro ⟨g, h1, rfl⟩
          rw [value_star h1 fd hs]
      · cases hs
    | none =>
      simp only
      constructor
      · intro h
        cases hb : Filter.newBase env ty v with
        | error e => rw [hb] at h; cases h
        | ok g =>
          rw [hb] at h
          simp only [Except.ok.injEq, hn] at h
          refine ⟨g, base_value env ty v g hb hm ?_, h.symm⟩
          intro hv
          rw [if_pos hv] at hs; exact hs
      · rintro ⟨g, h1, rfl⟩
        rw [value_base h1 ?_]
        · simp only [hn]
        · rintro fd rfl
          generalize hg : Filter.present fd = g at h1
          cases h1 with
          | present fd' => rw [if_pos rfl, presentField_name] at hs; cases hs
          | _ => cases hg

theorem multi_ok (f : List α → Filter Rx) (x : Except Err (List α × Bool)) (g : Filter Rx) :
    multi f x = .ok g ↔ ∃ vs neg, x = .ok (vs, neg) ∧ g = negateIf neg (f vs) := by
  cases x with
  | error e => simp [multi]
  | ok p =>
    obtain ⟨vs, neg⟩ := p
    simp only [multi, Except.ok.injEq, Prod.mk.injEq]
    constructor
    · rintro rfl; exact ⟨vs, neg, ⟨rfl, rfl⟩, by cases neg <;> rfl⟩
    · rintro ⟨vs', neg', ⟨rfl, rfl⟩, rfl⟩; cases neg <;> rfl

theorem multi_error (f : List α → Filter Rx) (one : List Char → Option α) (s : List Char) {e : Err}
    (h : multi f (parseList one s) = .error e) : e = .filter := by
  cases hp : parseList one s with
  | error e' => rw [hp] at h; cases h; exact parseList_error _ _ hp
  | ok p => rw [hp] at h; cases h

theorem newList_iff (env : TextEnv) (ty : String) (s : List Char) (f : Filter env.Rx) (hm : multiValue.contains ty = true) :
    Filter.newBase env ty s = .ok f ↔ Denotes env ty s f := by
  constructor
  · intro h
    simp only [multiValue, List.contains_iff_mem, List.mem_cons, List.not_mem_nil, or_false] at hm
    rcases hm with rfl | rfl | rfl | rfl | rfl | rfl | rfl
    · obtain ⟨vs, neg, h1, rfl⟩ := (multi_ok _ _ _).1 h
      exact .originAsns ((parseList_ok_iff _ _ parseU32_iff _ _ _).1 h1)
    · obtain ⟨vs, neg, h1, rfl⟩ := (multi_ok _ _ _).1 h
      exact .prefixes (t := .exact) ((parseList_ok_iff _ _ (fun _ _ => Iff.rfl) _ _ _).1 h1)
    · obtain ⟨vs, neg, h1, rfl⟩ := (multi_ok _ _ _).1 h
      exact .prefixes (t := .super) ((parseList_ok_iff _ _ (fun _ _ => Iff.rfl) _ _ _).1 h1)
    · obtain ⟨vs, neg, h1, rfl⟩ := (multi_ok _ _ _).1 h
      exact .prefixes (t := .sub) ((parseList_ok_iff _ _ (fun _ _ => Iff.rfl) _ _ _).1 h1)
    · obtain ⟨vs, neg, h1, rfl⟩ := (multi_ok _ _ _).1 h
      exact .prefixes (t := .superSub) ((parseList_ok_iff _ _ (fun _ _ => Iff.rfl) _ _ _).1 h1)
    · obtain ⟨vs, neg, h1, rfl⟩ := (multi_ok _ _ _).1 h
      exact .peerIps ((parseList_ok_iff _ _ (fun _ _ => Iff.rfl) _ _ _).1 h1)
    · obtain ⟨vs, neg, h1, rfl⟩ := (multi_ok _ _ _).1 h
      exact .peerAsns ((parseList_ok_iff _ _ parseU32_iff _ _ _).1 h1)
  · intro h
    cases h with
    | plain h _ => rw [value_not_list h] at hm; cases hm
    | not h _ _ => rw [value_not_list h] at hm; cases hm
    | originAsns h => exact (multi_ok _ _ _).2 ⟨_, _, (parseList_ok_iff _ _ parseU32_iff _ _ _).2 h, rfl⟩
    | peerAsns h => exact (multi_ok _ _ _).2 ⟨_, _, (parseList_ok_iff _ _ parseU32_iff _ _ _).2 h, rfl⟩
    | peerIps h => exact (multi_ok _ _ _).2 ⟨_, _, (parseList_ok_iff _ _ (fun _ _ => Iff.rfl) _ _ _).2 h, rfl⟩
    | @prefixes _ _ _ t h =>
      cases t <;> exact (multi_ok _ _ _).2 ⟨_, _, (parseList_ok_iff _ _ (fun _ _ => Iff.rfl) _ _ _).2 h, rfl⟩

/-- C60. A filter is made from a name and a value exactly when they denote one, and it is that one. -/
theorem c60_denotes (env : TextEnv) (ty : String) (s : List Char) (f : Filter env.Rx) :
    Filter.new env ty s = .ok f ↔ Denotes env ty s f := by
  unfold Filter.new
  by_cases hm : multiValue.contains ty = true
  · rw [if_pos hm]; exact newList_iff env ty s f hm
  · rw [if_neg hm]
    have hm' : multiValue.contains ty = false := by simpa using hm
    have hl : ∀ t : MatchType, multiValue.contains ("prefixes" ++ matchSuffix t) = true := by
      intro t; cases t <;> decide
    split
    · next r =>
      simp only [reduceCtorEq, false_iff]
      intro h
      generalize hs : '!' :: '!' :: r = s at h
      cases h with
      | plain _ h => subst hs; exact h rfl
      | not _ h _ =>
        simp only [List.cons.injEq, true_and] at hs
        subst hs; exact h rfl
      | prefixes h => exact hm (hl _)
      | _ => exact hm (by decide)
    · next r hr =>
      rw [newSingle_iff env ty true r f hm']
      have hh : r.head? ≠ some '!' := by
        intro h
        cases r with
        | nil => cases h
        | cons c cs => cases h; exact hr cs rfl
      constructor
      · rintro ⟨⟨g, h1, rfl⟩, h2⟩
        exact .not h1 hh (h2 rfl)
      · intro h
        generalize hs : '!' :: r = s at h
        cases h with
        | plain _ h => subst hs; exact absurd rfl h
        | not h1 _ h2 => cases hs; exact ⟨⟨_, h1, rfl⟩, fun _ => h2⟩
        | prefixes h => exact absurd (hl _) hm
        | _ => exact absurd (by decide) hm
    · next h1 h2 =>
      rw [newSingle_iff env ty false s f hm']
      have hh : s.head? ≠ some '!' := by
        intro h
        cases s with
        | nil => cases h
        | cons c cs => cases h; exact h2 cs rfl
      constructor
      · rintro ⟨⟨g, h1, rfl⟩, _⟩
        exact .plain h1 hh
      · intro h
        cases h with
        | plain h _ => exact ⟨⟨_, h, rfl⟩, by simp⟩
        | not h _ _ => exact absurd rfl hh
        | prefixes h => exact absurd (hl _) hm
        | _ => exact absurd (by decide) hm

/-- C60. Anything else is refused with a filter error. -/
theorem c60_errors (env : TextEnv) (ty : String) (s : List Char) (h : ∀ f, ¬ Denotes env ty s f) :
    Filter.new env ty s = .error .filter := by
  cases hn : Filter.new env ty s with
  | ok f => exact absurd ((c60_denotes env ty s f).1 hn) (h f)
  | error e =>
    suffices he : e = .filter by rw [he]
    have base : ∀ v e, Filter.newBase env ty v = .error e → e = .filter := by
      intro v e h
      unfold Filter.newBase at h
      iterate 29
        rcases ite_elim h with ⟨_, h⟩ | ⟨_, h⟩
        · first | exact single_error _ _ h | exact multi_error _ _ _ h
      cases h; rfl
    have sing : ∀ neg v e, Filter.newSingle env ty neg v = .error e → e = .filter := by
      intro neg v e h
      unfold Filter.newSingle at h
      rcases ite_elim h with ⟨_, h⟩ | ⟨_, h⟩
      · cases h; rfl
      · cases hs : (if v = ['*'] then presentField ty else none) with
        | some fd => rw [hs] at h; cases h
        | none =>
          rw [hs] at h
          simp only at h
          cases hb : Filter.newBase env ty v with
          | error e' => rw [hb] at h; cases h; exact base _ _ hb
          | ok g => rw [hb] at h; cases h
    unfold Filter.new at hn
    rcases ite_elim hn with ⟨_, h⟩ | ⟨_, h⟩
    · exact base _ _ h
    · split at h
      · cases h; rfl
      · exact sing _ _ _ h
      · exact sing _ _ _ h

/-- C60. No filter made from text is negated twice. -/
theorem c60_negated_once (env : TextEnv) (ty : String) (s : List Char) (f : Filter env.Rx)
    (h : Filter.new env ty s = .ok f) : depth f ≤ 1 := by
  have hd := (c60_denotes env ty s f).1 h
  have hv : ∀ {ty v f}, Value env ty v f → depth f = 0 := by
    intro ty v f h; cases h <;> rfl
  cases hd with
  | plain hn _ => rw [hv hn]; omega
  | not hn _ _ => show depth _ + 1 ≤ 1; rw [hv hn]; omega
  | @originAsns _ neg _ _ => cases neg <;> simp [negateIf, depth]
  | @peerAsns _ neg _ _ => cases neg <;> simp [negateIf, depth]
  | @peerIps _ neg _ _ => cases neg <;> simp [negateIf, depth]
  | @prefixes _ neg _ _ _ => cases neg <;> simp [negateIf, depth]

/-- a small environment for examples: no regular expressions but the empty one, no addresses, times in seconds. -/
def exEnv : TextEnv where
  Rx := Unit
  compile s := if s = [] then some () else none
  isMatch _ _ := true
  pathText _ := []
  commText _ := []
  ipNet _ := none
  ipAddr _ := none
  ipv4 _ := none
  seconds s := (parseU32 s).map fun n => (n.toNat : Int)

example : Denotes exEnv "origin_asns" "!13335, !15169,,".toList (.negated (.originAsns [13335, 15169])) := by
  refine .originAsns (neg := true) ⟨by simp, ["13335".toList, "15169".toList], .cons ?_ (.cons ?_ .nil), fun _ => ?_, by simp⟩
  · exact (parseU32_iff _ _).1 (by decide +kernel)
  · exact (parseU32_iff _ _).1 (by decide +kernel)
  · rw [items_iff]; decide +kernel
example : Denotes exEnv "otc" "!*".toList (.negated (.present .otc)) := .not (.present .otc) (by decide) (by decide)
example : Denotes exEnv "start_ts" "1700000000".toList (.tsStart 1700000000000000) :=
  .plain (.tsStart _ _ 1700000000 (by simp) (by decide +kernel)) (by decide)
example : ∀ f, ¬ Denotes exEnv "peer_asns" "1,!2".toList f := by
  intro f
  rw [← c60_denotes]
  have : ∃ e, Filter.new exEnv "peer_asns" "1,!2".toList = .error e := ⟨.filter, rfl⟩
  obtain ⟨e, h⟩ := this
  rw [h]; simp

end Verif.Props
