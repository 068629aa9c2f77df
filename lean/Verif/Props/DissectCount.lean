import Verif.Props.DissectLabels
/-
C110: every node of a dissected attribute value has exactly one label in the list of labels, whether or not the parser
accepts the value.
-/
namespace Verif.Props
open Spec

/-- the two descriptions of a loop, over positions and over octets, take the same rounds. -/
def SameRounds (d : Bytes) (step : Nat → Option (Option (Node × Nat))) (l : Nat → Bytes → Option (List Char × Bytes)) : Prop :=
  ∀ pos i, (step pos = some none → l i (d.drop pos) = none) ∧
    ∀ n p, step pos = some (some (n, p)) → ∃ t, l i (d.drop pos) = some (t, d.drop p)

theorem rounds_labels {d : Bytes} {step : Nat → Option (Option (Node × Nat))} {l : Nat → Bytes → Option (List Char × Bytes)}
    (h : SameRounds d step l) : ∀ (fuel pos i : Nat) (ns : List Node), rounds step fuel pos = some ns →
    (labels l fuel i (d.drop pos)).length = ns.length
  | 0, _, _, _, hr => by cases hr
  | fuel + 1, pos, i, ns, hr => by
    rw [rounds] at hr
    rw [labels]
    cases hs : step pos with
    | none => rw [hs] at hr; cases hr
    | some o =>
      rw [hs] at hr
      cases o with
      | none => cases hr; rw [(h pos i).1 hs]; rfl
      | some v =>
        obtain ⟨n, p⟩ := v
        obtain ⟨t, ht⟩ := (h pos i).2 n p hs
        rw [ht]
        simp only [Option.map_eq_some_iff] at hr
        obtain ⟨ms, hm, rfl⟩ := hr
        simp only [List.length_cons]
        rw [rounds_labels h fuel p (i + 1) ms hm]

theorem loop_count {d : Bytes} {step : Nat → Option (Option (Node × Nat))} {l : Nat → Bytes → Option (List Char × Bytes)}
    (h : SameRounds d step l) {ns : List Node} (hr : rounds step (d.length + 1) 0 = some ns) :
    (loopLabels l d).length = ns.length := rounds_labels h _ 0 1 ns hr

theorem mkNode_node {f : String} {o l : Nat} {c : List Node} {n : Node} (h : mkNode f o l c = some n) : n = .mk f o l c := by
  unfold mkNode at h
  split at h
  · cases h; rfl
  · cases h

/-- entries of a fixed size. -/
def FixedSize (size : Nat) (l : Nat → Bytes → Option (List Char × Bytes)) : Prop :=
  ∀ i s, (s.length < size → l i s = none) ∧ (size ≤ s.length → ∃ t, l i s = some (t, s.drop size))

theorem entry_rounds {f : String} {size : Nat} {d : Bytes} {base : Nat} {l : Nat → Bytes → Option (List Char × Bytes)}
    (h0 : 0 < size) (h : FixedSize size l) : SameRounds d (entryStep f size d base) l := by
  intro pos i
  obtain ⟨h1, h2⟩ := h i (d.drop pos)
  rw [List.length_drop] at h1 h2
  unfold entryStep
  split
  · rename_i hp
    cases hs : subslice d pos (pos + size) with
    | none => exact ⟨fun k => (by cases k), fun n p k => (by cases k)⟩
    | some b =>
      cases hn : mkNode f (base + pos) size [] with
      | none => exact ⟨fun k => (by cases k), fun n p k => (by cases k)⟩
      | some n =>
        refine ⟨fun k => (by cases k), fun n p k => ?_⟩
        cases k
        obtain ⟨t, ht⟩ := h2 (by omega)
        exact ⟨t, by rw [ht, List.drop_drop]⟩
  · refine ⟨fun _ => h1 (by omega), fun n p k => (by cases k)⟩

theorem community_size : FixedSize 4 communityLabelStep := by
  intro i s
  rcases s with _ | ⟨a, _ | ⟨b, _ | ⟨c, _ | ⟨d, r⟩⟩⟩⟩
  iterate 4 exact ⟨fun _ => rfl, fun h => by simp at h⟩
  exact ⟨fun h => by simp at h; omega, fun _ => ⟨_, rfl⟩⟩

theorem cluster_size : FixedSize 4 clusterLabelStep := by
  intro i s
  rcases s with _ | ⟨a, _ | ⟨b, _ | ⟨c, _ | ⟨d, r⟩⟩⟩⟩
  iterate 4 exact ⟨fun _ => rfl, fun h => by simp at h⟩
  exact ⟨fun h => by simp at h; omega, fun _ => ⟨_, rfl⟩⟩

theorem ext_size : FixedSize 8 extLabelStep := by
  intro i s
  rcases s with _ | ⟨a, _ | ⟨b, _ | ⟨c, _ | ⟨d, _ | ⟨e, _ | ⟨f, _ | ⟨g, _ | ⟨k, r⟩⟩⟩⟩⟩⟩⟩⟩
  iterate 8 exact ⟨fun _ => rfl, fun h => by simp at h⟩
  exact ⟨fun h => by simp at h; omega, fun _ => ⟨_, rfl⟩⟩

theorem large_size : FixedSize 12 largeLabelStep := by
  intro i s
  rcases s with _ | ⟨a, _ | ⟨b, _ | ⟨c, _ | ⟨d, _ | ⟨e, _ | ⟨f, _ | ⟨g, _ | ⟨k, _ | ⟨m, _ | ⟨n, _ | ⟨o, _ | ⟨p, r⟩⟩⟩⟩⟩⟩⟩⟩⟩⟩⟩⟩
  iterate 12 exact ⟨fun _ => rfl, fun h => by simp at h⟩
  exact ⟨fun h => by simp at h; omega, fun _ => ⟨_, rfl⟩⟩

theorem ipv6Ext_size : FixedSize 20 ipv6ExtLabelStep := by
  intro i s
  unfold ipv6ExtLabelStep
  exact ⟨fun h => if_pos h, fun h => ⟨_, if_neg (by omega)⟩⟩

theorem getElem_drop (d : Bytes) (pos k : Nat) : d[pos + k]? = (d.drop pos)[k]? := by rw [List.getElem?_drop]

theorem seg_rounds (n : Nat) (d : Bytes) (base : Nat) : SameRounds d (segStep n d base) (segLabelStep n) := by
  intro pos i
  unfold segStep
  have hl := List.length_drop (i := pos) (l := d)
  have g0 := getElem_drop d pos 0
  have g1 := getElem_drop d pos 1
  have gd : ∀ k, d.drop (pos + k) = (d.drop pos).drop k := fun k => by rw [List.drop_drop]
  generalize d.drop pos = s at *
  rw [Nat.add_zero] at g0
  rw [g0, g1]
  rcases s with _ | ⟨a, _ | ⟨c, r⟩⟩
  · rw [if_neg (by simp at hl; omega)]
    exact ⟨fun _ => rfl, fun n p k => by cases k⟩
  · rw [if_neg (by simp at hl; omega)]
    exact ⟨fun _ => rfl, fun n p k => by cases k⟩
  · simp only [List.length_cons] at hl
    rw [if_pos (by omega)]
    simp only [List.getElem?_cons_zero, List.getElem?_cons_succ, segLabelStep]
    show ((if d.length < pos + (2 + c.toNat * n) then some none else _) = _ → _) ∧ ∀ n' p,
      (if d.length < pos + (2 + c.toNat * n) then some none else _) = _ → _
    by_cases hb : d.length < pos + (2 + c.toNat * n)
    · rw [if_pos hb, if_pos (by omega)]
      exact ⟨fun _ => rfl, fun n p k => by cases k⟩
    · rw [if_neg hb, if_neg (by omega)]
      cases hn : mkNode "bgp.attr.as_path.segment" (base + pos) (2 + c.toNat * n) [] with
      | none => exact ⟨fun k => (by cases k), fun n p k => (by cases k)⟩
      | some m =>
        refine ⟨fun k => (by cases k), fun n p k => ?_⟩
        cases k
        rw [gd, Nat.add_comm 2]
        exact ⟨_, rfl⟩

theorem aigp_rounds (d : Bytes) (base : Nat) : SameRounds d (aigpStep d base) aigpLabelStep := by
  intro pos i
  unfold aigpStep getU16
  have hl := List.length_drop (i := pos) (l := d)
  have g0 := getElem_drop d pos 0
  have g1 := getElem_drop d pos 1
  have g2 := getElem_drop d pos 2
  have gd : ∀ k, d.drop (pos + k) = (d.drop pos).drop k := fun k => by rw [List.drop_drop]
  generalize d.drop pos = s at *
  rw [Nat.add_zero] at g0
  rw [g0, g1, Nat.add_assoc pos 1 1, g2]
  rcases s with _ | ⟨a, _ | ⟨b, _ | ⟨c, r⟩⟩⟩
  iterate 3
    · rw [if_neg (by simp at hl; omega)]
      exact ⟨fun _ => rfl, fun n p k => by cases k⟩
  · have hl' : (a :: b :: c :: r).length = d.length - pos := hl
    simp only [List.length_cons] at hl
    rw [if_pos (by omega)]
    simp only [List.getElem?_cons_zero, List.getElem?_cons_succ, aigpLabelStep, hl']
    show ((if (u16of b c).toNat < 3 ∨ d.length < pos + (u16of b c).toNat then some none else _) = _ → _) ∧ ∀ n' p,
      (if (u16of b c).toNat < 3 ∨ d.length < pos + (u16of b c).toNat then some none else _) = _ → _
    by_cases hb : (u16of b c).toNat < 3 ∨ d.length < pos + (u16of b c).toNat
    · rw [if_pos hb, if_pos (by omega)]
      exact ⟨fun _ => rfl, fun n p k => by cases k⟩
    · rw [if_neg hb, if_neg (by omega)]
      simp only [Option.getD_some]
      cases hn : mkNode "bgp.attr.aigp.entry" (base + pos) (u16of b c).toNat [] with
      | none => exact ⟨fun k => (by cases k), fun n p k => (by cases k)⟩
      | some m =>
        refine ⟨fun k => (by cases k), fun n p k => ?_⟩
        cases k
        rw [gd]
        exact ⟨_, rfl⟩

theorem nlri_rounds (env : ShowEnv) (v4 ap : Bool) (d : Bytes) (base : Nat) :
    SameRounds d (nlriStep d base ap) (nlriLabelStep env v4 ap) := by
  intro start i
  unfold nlriStep nlriLabelStep
  have hl := List.length_drop (i := start) (l := d)
  have gd : ∀ k, d.drop (start + k) = (d.drop start).drop k := fun k => by rw [List.drop_drop]
  have gp : ∀ k, d[start + k]? = ((d.drop start).drop k).head? := fun k => by rw [List.drop_drop, List.head?_drop]
  have g0 := gp 0
  generalize d.drop start = s at *
  rw [Nat.add_zero, List.drop_zero] at g0
  rcases s with _ | ⟨x, s⟩
  · rw [if_neg (by simp at hl; omega)]
    exact ⟨fun _ => rfl, fun n p k => by cases k⟩
  · have hl' : (x :: s).length = d.length - start := hl
    simp only [List.length_cons] at hl
    rw [if_pos (by omega)]
    dsimp only
    by_cases h5 : ap = true ∧ d.length < start + 5
    · rw [if_pos h5, if_pos (by rw [hl']; exact ⟨h5.1, by omega⟩)]
      exact ⟨fun _ => rfl, fun n p k => by cases k⟩
    · have h6 : ¬ (ap = true ∧ (x :: s).length < 5) := by rw [hl']; intro h; exact h5 ⟨h.1, by omega⟩
      rw [if_neg h5, if_neg h6]
      have body : ∀ (pos : Nat) (t : Bytes), d[pos]? = t.head? → t.length = d.length - pos →
          (∀ k, d.drop (pos + k) = t.drop k) → start ≤ pos → ∀ (X : Option (Option (Node × Nat)))
          (Y : Option (List Char × Bytes)),
          X = (match d[pos]? with
            | none => some none
            | some plen =>
              let octets := (plen.toNat + 7) / 8
              let pos := pos + 1
              if d.length < pos + octets then some none
              else do
                let _ ← subslice d pos (pos + octets)
                let len ← usub (pos + octets) start
                let n ← mkNode "bgp.nlri.prefix" (base + start) len []
                return some (n, pos + octets)) →
          Y = (match t with
            | [] => none
            | plen :: r =>
              let octets := (plen.toNat + 7) / 8
              if r.length < octets then none else some (prefixLabel env v4 plen (r.take octets), r.drop octets)) →
          (X = some none → Y = none) ∧ ∀ n p, X = some (some (n, p)) → ∃ t, Y = some (t, d.drop p) := by
        intro pos t e1 e2 e3 e4 X Y hX hY
        subst hX hY
        rw [e1]
        rcases t with _ | ⟨plen, r⟩
        · exact ⟨fun _ => rfl, fun n p k => by cases k⟩
        · simp only [List.head?_cons]
          simp only [List.length_cons] at e2
          by_cases hb : d.length < pos + 1 + (plen.toNat + 7) / 8
          · rw [if_pos hb, if_pos (by omega)]
            exact ⟨fun _ => rfl, fun n p k => by cases k⟩
          · rw [if_neg hb, if_neg (by omega)]
            cases subslice d (pos + 1) (pos + 1 + (plen.toNat + 7) / 8) with
            | none => exact ⟨fun k => (by cases k), fun n p k => (by cases k)⟩
            | some b =>
              cases hu : usub (pos + 1 + (plen.toNat + 7) / 8) start with
              | none => exact ⟨fun k => (by cases k), fun n p k => (by cases k)⟩
              | some len =>
                cases hm : mkNode "bgp.nlri.prefix" (base + start) len [] with
                | none =>
                  refine ⟨fun k => ?_, fun n p k => ?_⟩ <;>
                  · simp [hm, hu] at k
                | some m =>
                  refine ⟨fun k => ?_, fun n p k => ?_⟩
                  · simp [hm, hu] at k
                  · simp [hm, hu] at k
                    obtain ⟨_, rfl⟩ := k
                    rw [Nat.add_assoc pos 1, e3, Nat.add_comm 1]
                    exact ⟨_, rfl⟩
      cases ap with
      | true =>
        refine body (start + 4) ((x :: s).drop 4) (gp 4) ?_ ?_ (by omega) _ _ rfl rfl
        · rw [List.length_drop, hl']; omega
        · intro k; rw [Nat.add_assoc, gd, List.drop_drop]
      | false => exact body start (x :: s) g0 hl' gd (Nat.le_refl _) _ _ rfl rfl

/-- **C110** an NLRI section has one label per node. -/
theorem c110_nlri_count (env : ShowEnv) (v4 ap : Bool) (d : Bytes) (base : Nat) (ns : List Node)
    (h : dissectNlri d base ap = some ns) : (nlriLabels env v4 ap d).length = ns.length :=
  loop_count (nlri_rounds env v4 ap d base) h

theorem one_node {f : String} {o l : Nat} {ns : List Node} (h : (mkNode f o l []).map ([·]) = some ns) : ns.length = 1 := by
  simp only [Option.map_eq_some_iff] at h
  obtain ⟨n, _, rfl⟩ := h
  rfl

theorem v4Labels_count (name : String) (d : Bytes) : (v4Labels name d).length = if 4 ≤ d.length then 1 else 0 := by
  rcases d with _ | ⟨a, _ | ⟨b, _ | ⟨c, _ | ⟨e, r⟩⟩⟩⟩ <;> simp [v4Labels]

theorem u32Labels_count (name : String) (d : Bytes) : (u32Labels name d).length = if 4 ≤ d.length then 1 else 0 := by
  rcases d with _ | ⟨a, _ | ⟨b, _ | ⟨c, _ | ⟨e, r⟩⟩⟩⟩ <;> simp [u32Labels]

theorem optional_node {f : String} {o l : Nat} {ns : List Node} {m : Nat} (hm : m = if 4 ≤ k then 1 else 0)
    (h : (if 4 ≤ k then (mkNode f o l []).map ([·]) else some []) = some ns) : m = ns.length := by
  subst hm
  split at h
  · rename_i hk; rw [if_pos hk, one_node h]
  · rename_i hk; cases h; rw [if_neg hk]; rfl

theorem subslice_tail {d : Bytes} {a : Nat} {s : Bytes} (h : subslice d a d.length = some s) : s = d.drop a := by
  unfold subslice at h
  split at h
  · cases h; rw [List.take_length]
  · cases h

theorem pushIf_length {c : Prop} [Decidable c] {n : Option Node} {ns : List Node} (h : pushIf c n = some ns) :
    ns.length = if c then 1 else 0 := by
  unfold pushIf at h
  split at h
  · rename_i hc
    simp only [Option.map_eq_some_iff] at h
    obtain ⟨n, _, rfl⟩ := h
    rw [if_pos hc]; rfl
  · rename_i hc; cases h; rw [if_neg hc]; rfl

theorem mpUnreach_count (env : ShowEnv) (ap : Bool) (d : Bytes) (base : Nat) (ns : List Node)
    (h : dissectMpUnreach d base ap = some ns) : (mpUnreachLabels env ap d).length = ns.length := by
  unfold dissectMpUnreach at h
  rcases d with _ | ⟨a, _ | ⟨b, _ | ⟨c, r⟩⟩⟩
  iterate 3
    · rw [if_neg (by simp)] at h; cases h; rfl
  · rw [if_pos (by simp)] at h
    simp only [Option.bind_eq_bind, Option.bind_eq_some_iff] at h
    obtain ⟨n1, _, x, _, n2, _, s, hs, ms, hm, h⟩ := h
    cases h
    have := subslice_tail hs
    subst this
    unfold mpUnreachLabels
    simp only [List.length_append, List.length_cons, List.length_nil]
    rw [c110_nlri_count env _ ap _ _ ms hm]

theorem mpReach_count (env : ShowEnv) (ap : Bool) (d : Bytes) (base : Nat) (ns : List Node)
    (h : dissectMpReach d base ap = some ns) : (mpReachLabels env ap d).length = ns.length := by
  unfold dissectMpReach at h
  rcases d with _ | ⟨a, _ | ⟨b, _ | ⟨c, _ | ⟨n, r⟩⟩⟩⟩
  iterate 4
    · rw [if_neg (by simp)] at h; cases h; rfl
  · rw [if_pos (by simp)] at h
    simp only [Option.bind_eq_bind, Option.bind_eq_some_iff] at h
    obtain ⟨n1, _, x, _, n2, _, y, hy, n3, _, h⟩ := h
    have e : y = n := by simpa using hy.symm
    subst e
    unfold mpReachLabels
    dsimp only
    have hlen : (a :: b :: c :: y :: r).length = r.length + 4 := rfl
    rw [hlen] at h
    by_cases ht : 0 < y.toNat ∧ r.length < y.toNat
    · rw [if_pos ⟨ht.1, by omega⟩] at h
      simp only [Option.bind_eq_some_iff] at h
      obtain ⟨l, _, nh, _, h⟩ := h
      cases h
      rw [if_pos ht]
      rfl
    · rw [if_neg (fun k => ht ⟨k.1, by omega⟩)] at h
      rw [if_neg ht]
      simp only [Option.bind_eq_some_iff] at h
      obtain ⟨nh, h1, res, h2, ms, h3, h⟩ := h
      cases h
      have p1 := pushIf_length h1
      have p2 := pushIf_length h2
      have hnh : (if 0 < y.toNat then [lit "Next hop (" ++ decText y.toNat ++ lit " bytes)"] else []).length = nh.length := by
        rw [p1]; split <;> rfl
      cases hr : r.drop y.toNat with
      | nil =>
        have hz := congrArg List.length hr
        rw [List.length_drop, List.length_nil] at hz
        rw [if_neg (by omega)] at p2
        have hq : ¬ 4 + y.toNat < r.length + 4 := by omega
        simp only [if_neg hq] at h3
        cases h3
        simp only [List.length_append, hnh, p2, List.length_cons, List.length_nil]
        rfl
      | cons x t =>
        have hz := congrArg List.length hr
        rw [List.length_drop, List.length_cons] at hz
        rw [if_pos (by omega)] at p2
        have hq : 4 + y.toNat < r.length + 4 := by omega
        simp only [if_pos hq] at h3
        have hd : (a :: b :: c :: y :: r).drop (4 + y.toNat + 1) = t := by
          have e1 : 4 + y.toNat + 1 = (y.toNat + 1) + 1 + 1 + 1 + 1 := by omega
          rw [e1]
          simp only [List.drop_succ_cons]
          rw [← List.drop_drop, hr]; rfl
        have hc : (nlriLabels env ((u16of a b).toNat == 1) ap t).length = ms.length := by
          split at h3
          · simp only [Option.bind_eq_some_iff] at h3
            obtain ⟨s, hs, h3⟩ := h3
            rw [← hlen] at hs
            have := subslice_tail hs
            rw [hd] at this
            subst this
            exact c110_nlri_count env _ ap _ _ ms h3
          · cases h3
            have : t = [] := List.eq_nil_of_length_eq_zero (by omega)
            subst this
            rfl
        simp only [List.length_append, hnh, p2, hc, List.length_cons, List.length_nil]

/-- **C110** Every attribute value, readable or not, is dissected into as many nodes as there are labels. -/
theorem c110_count (env : ShowEnv) (code : UInt8) (d : Bytes) (base n : Nat) (ap : Bool) (ns : List Node)
    (h : dissectAttrValue code d base n ap = some ns) : (attrLabels env code d n ap).length = ns.length := by
  unfold dissectAttrValue at h
  unfold attrLabels
  by_cases e1 : code = 1
  · rw [if_pos e1] at h ⊢
    cases d with
    | nil => cases h; rfl
    | cons a d => exact (one_node h).symm
  rw [if_neg e1] at h ⊢
  by_cases e2 : code = 2
  · rw [if_pos e2] at h ⊢; exact loop_count (seg_rounds n d base) h
  rw [if_neg e2] at h ⊢
  by_cases e17 : code = 17
  · rw [if_pos e17] at h ⊢; exact loop_count (seg_rounds 4 d base) h
  rw [if_neg e17] at h ⊢
  by_cases e3 : code = 3
  · rw [if_pos e3] at h ⊢; exact optional_node (v4Labels_count _ d) h
  rw [if_neg e3] at h ⊢
  have hu : hasU32 d 0 = decide (4 ≤ d.length) := by rw [hasU32, Nat.zero_add]
  simp only [hu, decide_eq_true_eq] at h
  by_cases e4 : code = 4
  · rw [if_pos (Or.inl e4)] at h; rw [if_pos e4]; exact optional_node (u32Labels_count _ d) h
  rw [if_neg e4]
  by_cases e5 : code = 5
  · rw [if_pos (Or.inr (Or.inl e5))] at h; rw [if_pos e5]; exact optional_node (u32Labels_count _ d) h
  rw [if_neg e5]
  by_cases e35 : code = 35
  · rw [if_pos (Or.inr (Or.inr e35))] at h; rw [if_pos e35]; exact optional_node (u32Labels_count _ d) h
  rw [if_neg e35]
  rw [if_neg (by simp [e4, e5, e35])] at h
  by_cases e7 : code = 7 ∨ code = 18
  · rw [if_pos e7] at h ⊢
    unfold aggregatorLabels
    split at h
    · rename_i hd
      rw [if_pos hd]
      simp only [Option.bind_eq_bind, Option.bind_eq_some_iff] at h
      obtain ⟨m, _, a, _, s, _, i, _, h⟩ := h
      cases h
      rfl
    · rename_i hd
      cases h
      rw [if_neg hd]; rfl
  rw [if_neg e7] at h ⊢
  by_cases e8 : code = 8
  · rw [if_pos e8] at h ⊢; exact loop_count (entry_rounds (by decide) community_size) h
  rw [if_neg e8] at h ⊢
  by_cases e9 : code = 9
  · rw [if_pos e9] at h ⊢; exact optional_node (v4Labels_count _ d) h
  rw [if_neg e9] at h ⊢
  by_cases e10 : code = 10
  · rw [if_pos e10] at h ⊢; exact loop_count (entry_rounds (by decide) cluster_size) h
  rw [if_neg e10] at h ⊢
  by_cases e14 : code = 14
  · rw [if_pos e14] at h ⊢; exact mpReach_count env ap d base ns h
  rw [if_neg e14] at h ⊢
  by_cases e15 : code = 15
  · rw [if_pos e15] at h ⊢; exact mpUnreach_count env ap d base ns h
  rw [if_neg e15] at h ⊢
  by_cases e16 : code = 16
  · rw [if_pos e16] at h ⊢; exact loop_count (entry_rounds (by decide) ext_size) h
  rw [if_neg e16] at h ⊢
  by_cases e25 : code = 25
  · rw [if_pos e25] at h ⊢; exact loop_count (entry_rounds (by decide) ipv6Ext_size) h
  rw [if_neg e25] at h ⊢
  by_cases e26 : code = 26
  · rw [if_pos e26] at h ⊢; exact loop_count (aigp_rounds d base) h
  rw [if_neg e26] at h ⊢
  by_cases e32 : code = 32
  · rw [if_pos e32] at h ⊢; exact loop_count (entry_rounds (by decide) large_size) h
  rw [if_neg e32] at h ⊢
  cases h; rfl

/-- the hypothesis is met, here by a value that the parser refuses: nodes for the first three fields and for a next hop of
which one octet of four is there. -/
example : ∃ ns, dissectAttrValue 14 [0, 1, 1, 4, 192] 30 4 false = some ns ∧ ns.length = 4 := ⟨_, rfl, rfl⟩

end Verif.Props
