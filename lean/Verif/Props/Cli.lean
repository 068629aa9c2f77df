import Verif.Lemmas.Cli
import Verif.Props.Filter
import Verif.Props.Display
/-
C84: the filter options of the command line tool.
-/
namespace Verif.Props
open Spec

theorem mem_listKeys (ty : String) : ty ∈ listKeys ↔ multiValue.contains ty = true := by
  simp only [listKeys, multiValue, List.contains_eq_mem, List.mem_cons, List.not_mem_nil, or_false, decide_eq_true_eq]
  constructor
  · rintro (h | h | h | h | h | h | h) <;> simp [h]
  · rintro (h | h | h | h | h | h | h) <;> simp [h]

theorem decimal_bang (p : List Char) (n : UInt32) (h : Decimal p n) : p ≠ [] ∧ p.head? ≠ some '!' := by
  obtain ⟨ds, h1, h2, _⟩ := h
  cases ds with
  | nil => exact absurd rfl h1
  | cons d ds =>
    have hd : digitChar d ≠ '!' := (by decide : ∀ d : Fin 10, digitChar d ≠ '!') d
    rcases h2 with rfl | rfl
    · exact ⟨by simp, by simpa using hd⟩
    · exact ⟨by simp, by simp⟩

theorem value_depth {env : TextEnv} {ty : String} {v : List Char} {f : Filter env.Rx} (h : Value env ty v f) : depth f = 0 := by
  cases h <;> rfl

/-- what the value made for `!=` stands for. -/
theorem denotes_negated {env : TextEnv} {sh : ShowEnv} (ok : ReadsBack env sh) (k v : List Char) (hb : OnlyBlanks v)
    (f : Filter env.Rx) :
    Denotes env (String.ofList k) (exprValue true k v) f ↔
      ∃ g, Denotes env (String.ofList k) v g ∧ depth g = 0 ∧ String.ofList k ∉ ["ts_start", "start_ts", "ts_end", "end_ts"] ∧
        (String.ofList k ∈ listKeys → NoEmptyItem v) ∧ f = .negated g := by
  have hl : ∀ t : MatchType, multiValue.contains ("prefixes" ++ matchSuffix t) = true := by
    intro t; cases t <;> decide
  rw [exprValue, if_pos rfl]
  by_cases hm : multiValue.contains (String.ofList k) = true
  · rw [if_pos hm, mem_listKeys]
    have ht : String.ofList k ∉ ["ts_start", "start_ts", "ts_end", "end_ts"] := by
      intro h
      generalize String.ofList k = ty at hm h
      simp only [List.mem_cons, List.not_mem_nil, or_false] at h
      rcases h with rfl | rfl | rfl | rfl <;> exact absurd hm (by decide)
    generalize String.ofList k = ty at hm ht ⊢
    have hip : ∀ (p : List Char) (a : Ip), env.ipAddr p = some a → p ≠ [] ∧ p.head? ≠ some '!' := by
      intro p a h
      refine ⟨?_, ?_⟩ <;> intro hp
      · rw [ok.ipBang p (.inl hp)] at h; cases h
      · rw [ok.ipBang p (.inr hp)] at h; cases h
    have hnet : ∀ (p : List Char) (a : IpNet), env.ipNet p = some a → p ≠ [] ∧ p.head? ≠ some '!' := by
      intro p a h
      refine ⟨?_, ?_⟩ <;> intro hp
      · rw [ok.netBang p (.inl hp)] at h; cases h
      · rw [ok.netBang p (.inr hp)] at h; cases h
    constructor
    · intro h
      generalize hx : joinSep [','] ((splitComma v).map fun v => '!' :: trimText v) = x at h
      cases h with
      | plain h => rw [value_not_list h] at hm; cases hm
      | not h => rw [value_not_list h] at hm; cases hm
      | originAsns h =>
        subst hx
        obtain ⟨rfl, h1, h2⟩ := (valueList_bang decimal_bang hb _ _).1 h
        exact ⟨_, .originAsns h1, rfl, ht, fun _ => h2, rfl⟩
      | peerAsns h =>
        subst hx
        obtain ⟨rfl, h1, h2⟩ := (valueList_bang decimal_bang hb _ _).1 h
        exact ⟨_, .peerAsns h1, rfl, ht, fun _ => h2, rfl⟩
      | peerIps h =>
        subst hx
        obtain ⟨rfl, h1, h2⟩ := (valueList_bang hip hb _ _).1 h
        exact ⟨_, .peerIps h1, rfl, ht, fun _ => h2, rfl⟩
      | prefixes h =>
        subst hx
        obtain ⟨rfl, h1, h2⟩ := (valueList_bang hnet hb _ _).1 h
        exact ⟨_, .prefixes h1, rfl, ht, fun _ => h2, rfl⟩
    · rintro ⟨g, h1, h2, _, h4, rfl⟩
      have hn := h4 hm
      cases h1 with
      | plain h => rw [value_not_list h] at hm; cases hm
      | not h => rw [value_not_list h] at hm; cases hm
      | @originAsns _ neg _ h =>
        cases neg with
        | true => simp [negateIf, depth] at h2
        | false => exact .originAsns (neg := true) ((valueList_bang decimal_bang hb _ _).2 ⟨rfl, h, hn⟩)
      | @peerAsns _ neg _ h =>
        cases neg with
        | true => simp [negateIf, depth] at h2
        | false => exact .peerAsns (neg := true) ((valueList_bang decimal_bang hb _ _).2 ⟨rfl, h, hn⟩)
      | @peerIps _ neg _ h =>
        cases neg with
        | true => simp [negateIf, depth] at h2
        | false => exact .peerIps (neg := true) ((valueList_bang hip hb _ _).2 ⟨rfl, h, hn⟩)
      | @prefixes _ neg _ _ h =>
        cases neg with
        | true => simp [negateIf, depth] at h2
        | false => exact .prefixes (neg := true) ((valueList_bang hnet hb _ _).2 ⟨rfl, h, hn⟩)
  · rw [if_neg hm, mem_listKeys]
    generalize String.ofList k = ty at hm ⊢
    constructor
    · intro h
      generalize hx : '!' :: v = x at h
      cases h with
      | plain _ h => subst hx; exact absurd rfl h
      | not h1 h2 h3 =>
        cases hx
        exact ⟨_, .plain h1 h2, value_depth h1, h3, fun h => absurd h hm, rfl⟩
      | prefixes h => exact absurd (hl _) hm
      | _ => exact absurd (by decide) hm
    · rintro ⟨g, h1, h2, h3, _, rfl⟩
      cases h1 with
      | plain h g => exact .not h g h3
      | not h => simp [depth] at h2
      | prefixes h => exact absurd (hl _) hm
      | _ => exact absurd (by decide) hm

/-- a key and a value of an expression have only blanks if the expression has. -/
theorem expr_blanks {s : List Char} {neg : Bool} {k v : List Char} (h : Expr s neg k v) (hs : OnlyBlanks s) : OnlyBlanks v := by
  intro c hc hw
  refine hs c ?_ hw
  cases h with
  | eq _ _ _ h => obtain ⟨l, r, rfl, _⟩ := h; simp [hc]
  | ne _ _ h => obtain ⟨l, r, rfl, _⟩ := h; simp [hc]

/-- C84. An expression `key=value` or `key!=value` is accepted exactly when it stands for a filter, and then gives that
filter: with `!=`, the negation of the one with `=`. -/
theorem c84_expression (env : TextEnv) (sh : ShowEnv) (ok : ReadsBack env sh) (s : List Char) (hs : OnlyBlanks s)
    (fs : List (Filter env.Rx)) :
    (∀ f, ExprDenotes env s f → addExprs env [s] fs = .ok (fs ++ [f])) ∧
    ((∀ f, ¬ ExprDenotes env s f) → addExprs env [s] fs = .error .exit) := by
  have key : ∀ f, ExprDenotes env s f ↔ ∃ k x, parseExpr s = .ok (k, x) ∧ Filter.new env (String.ofList k) x = .ok f := by
    intro f
    constructor
    · rintro (⟨h1, h2⟩ | ⟨h1, h2, h3, h4, h5⟩)
      · exact ⟨_, _, (parseExpr_ok _ _ _).2 ⟨false, _, h1, rfl⟩, (c60_denotes _ _ _ _).2 h2⟩
      · exact ⟨_, _, (parseExpr_ok _ _ _).2 ⟨true, _, h1, rfl⟩,
          (c60_denotes _ _ _ _).2 ((denotes_negated ok _ _ (expr_blanks h1 hs) _).2 ⟨_, h2, h3, h4, h5, rfl⟩)⟩
    · rintro ⟨k, x, h1, h2⟩
      obtain ⟨neg, v, h3, rfl⟩ := (parseExpr_ok _ _ _).1 h1
      rw [c60_denotes] at h2
      cases neg with
      | false => exact .eq h3 h2
      | true =>
        obtain ⟨g, g1, g2, g3, g4, rfl⟩ := (denotes_negated ok _ _ (expr_blanks h3 hs) _).1 h2
        exact .ne h3 g1 g2 g3 g4
  refine ⟨fun f h => ?_, fun h => ?_⟩
  · obtain ⟨k, x, h1, h2⟩ := (key f).1 h
    simp only [addExprs, h1, h2]
  · simp only [addExprs]
    cases hp : parseExpr s with
    | error e => rfl
    | ok p =>
      obtain ⟨k, x⟩ := p
      simp only
      cases hf : Filter.new env (String.ofList k) x with
      | error e => rfl
      | ok f => exact absurd ((key f).2 ⟨k, x, hp, hf⟩) (h f)

/-- C84. What an expression with `!=` lets through is exactly what the same expression with `=` does not. -/
theorem c84_complement (env : TextEnv) (sh : ShowEnv) (ok : ReadsBack env sh) (k v : List Char)
    (hk : ¬ ['!', '='] <:+: k ++ '=' :: v) (hk' : '=' ∉ k) (hb : OnlyBlanks (k ++ v)) (f : Filter env.Rx)
    (h : addExprs env [k ++ '!' :: '=' :: v] [] = .ok [f]) :
    ∃ g, addExprs env [k ++ '=' :: v] [] = .ok [g] ∧ ∀ e : BgpElem, e.matchFilter env f = !e.matchFilter env g := by
  have hb1 : OnlyBlanks (k ++ '!' :: '=' :: v) := by
    intro c hc hw
    simp only [List.mem_append, List.mem_cons] at hc
    rcases hc with hc | rfl | rfl | hc
    · exact hb c (by simp [hc]) hw
    · exact absurd hw (by simp [White])
    · exact absurd hw (by simp [White])
    · exact hb c (by simp [hc]) hw
  have hb2 : OnlyBlanks (k ++ '=' :: v) := by
    intro c hc hw
    simp only [List.mem_append, List.mem_cons] at hc
    rcases hc with hc | rfl | hc
    · exact hb c (by simp [hc]) hw
    · exact absurd hw (by simp [White])
    · exact hb c (by simp [hc]) hw
  obtain ⟨h1, h2⟩ := c84_expression env sh ok _ hb1 []
  have hd : ExprDenotes env (k ++ '!' :: '=' :: v) f := by
    apply Classical.byContradiction
    intro hn
    by_cases he : ∃ f', ExprDenotes env (k ++ '!' :: '=' :: v) f'
    · obtain ⟨f', hf'⟩ := he
      rw [h1 f' hf'] at h
      cases h
      exact hn hf'
    · rw [h2 fun f' hf' => he ⟨f', hf'⟩] at h
      cases h
  have hik : ¬ ['!', '='] <:+: k := fun hi => hk (by
    obtain ⟨x, y, hxy⟩ := hi
    exact ⟨x, y ++ '=' :: v, by rw [← hxy]; simp⟩)
  generalize hs : k ++ '!' :: '=' :: v = s at hd
  cases hd with
  | eq he =>
    cases he with
    | eq g1 => exact absurd ⟨k, v, by rw [← hs]; simp⟩ g1
  | @ne k' v' g he h3 h4 h5 h6 =>
    cases he with
    | @ne a b _ _ g1 g2 g3 =>
      have e1 := (findNe_some (k ++ '!' :: '=' :: v) k v).2 ⟨rfl, hik⟩
      rw [hs, (findNe_some _ a b).2 ⟨rfl, g1⟩] at e1
      cases e1
      refine ⟨g, (c84_expression env sh ok _ hb2 []).1 g (.eq (.eq hk hk' g2 g3) h3), fun e => (c34_laws env e).1 g⟩

/-! ### the options -/

theorem denotes_unique {env : TextEnv} {ty : String} {v : List Char} {f g : Filter env.Rx} (hf : Denotes env ty v f)
    (hg : Denotes env ty v g) : f = g := by
  rw [← c60_denotes] at hf hg
  rw [hf] at hg
  exact Except.ok.inj hg

theorem exprDenotes_unique {env : TextEnv} {sh : ShowEnv} (ok : ReadsBack env sh) {s : List Char} (hs : OnlyBlanks s)
    {f g : Filter env.Rx} (hf : ExprDenotes env s f) (hg : ExprDenotes env s g) : f = g := by
  have h1 := (c84_expression env sh ok s hs []).1 f hf
  rw [(c84_expression env sh ok s hs []).1 g hg] at h1
  cases h1; rfl

/-- filters that stand for what is asked, one for one. -/
theorem addNamed_cases (env : TextEnv) (l : List (String × List Char)) : ∀ fs,
    (∃ gs, addNamed env l fs = .ok (fs ++ gs) ∧ Pairwise2 (fun p f => Denotes env p.1 p.2 f) l gs) ∨
    (addNamed env l fs = .error .panic ∧ ∃ p ∈ l, ∀ f, ¬ Denotes env p.1 p.2 f) := by
  induction l with
  | nil => intro fs; exact .inl ⟨[], by simp [addNamed], .nil⟩
  | cons p l ih =>
    intro fs
    obtain ⟨ty, v⟩ := p
    simp only [addNamed]
    cases hf : Filter.new env ty v with
    | error e =>
      refine .inr ⟨rfl, (ty, v), by simp, fun f hd => ?_⟩
      rw [(c60_denotes env ty v f).2 hd] at hf; cases hf
    | ok f =>
      simp only
      rcases ih (fs ++ [f]) with ⟨gs, h1, h2⟩ | ⟨h1, p, hp, h2⟩
      · exact .inl ⟨f :: gs, by rw [h1]; simp, .cons ((c60_denotes env ty v f).1 hf) h2⟩
      · exact .inr ⟨h1, p, List.mem_cons_of_mem _ hp, h2⟩

theorem addExprs_cases {env : TextEnv} {sh : ShowEnv} (ok : ReadsBack env sh) (l : List (List Char))
    (hl : ∀ s ∈ l, OnlyBlanks s) : ∀ fs,
    (∃ gs, addExprs env l fs = .ok (fs ++ gs) ∧ Pairwise2 (fun s f => ExprDenotes env s f) l gs) ∨
    (addExprs env l fs = .error .exit ∧ ∃ s ∈ l, ∀ f, ¬ ExprDenotes env s f) := by
  induction l with
  | nil => intro fs; exact .inl ⟨[], by simp [addExprs], .nil⟩
  | cons s l ih =>
    intro fs
    have ih := ih (fun x hx => hl x (List.mem_cons_of_mem _ hx))
    obtain ⟨c1, c2⟩ := c84_expression env sh ok s (hl s (by simp)) fs
    by_cases he : ∃ f, ExprDenotes env s f
    · obtain ⟨f, hf⟩ := he
      have := c1 f hf
      have hstep : addExprs env (s :: l) fs = addExprs env l (fs ++ [f]) := by
        simp only [addExprs] at this ⊢
        cases hp : parseExpr s with
        | error e => rw [hp] at this; cases this
        | ok p =>
          rw [hp] at this
          simp only at this ⊢
          cases hn : Filter.new env (String.ofList p.1) p.2 with
          | error e => rw [hn] at this; cases this
          | ok g =>
            rw [hn] at this
            simp only [Except.ok.injEq, List.append_cancel_left_eq, List.cons.injEq, and_true] at this
            rw [this]
      rw [hstep]
      rcases ih (fs ++ [f]) with ⟨gs, h1, h2⟩ | ⟨h1, p, hp, h2⟩
      · exact .inl ⟨f :: gs, by rw [h1]; simp, .cons hf h2⟩
      · exact .inr ⟨h1, p, List.mem_cons_of_mem _ hp, h2⟩
    · have hn : ∀ f, ¬ ExprDenotes env s f := fun f hf => he ⟨f, hf⟩
      refine .inr ⟨?_, s, by simp, hn⟩
      have := c2 hn
      simp only [addExprs] at this ⊢
      cases hp : parseExpr s with
      | error e => rfl
      | ok p =>
        rw [hp] at this
        simp only at this ⊢
        cases hf : Filter.new env (String.ofList p.1) p.2 with
        | error e => rfl
        | ok g => rw [hf] at this; cases this

/-- all filters pass exactly when each request has one that passes. -/
theorem all_pass {R : α → β → Prop} {P : β → Prop} (hu : ∀ a b b', R a b → R a b' → b = b') {as : List α} {bs : List β}
    (h : Pairwise2 R as bs) : (∀ b ∈ bs, P b) ↔ ∀ a ∈ as, ∃ b, R a b ∧ P b := by
  induction h with
  | nil => simp
  | @cons a b as bs h _ ih =>
    simp only [List.forall_mem_cons, ih]
    refine and_congr ⟨fun hp => ⟨b, h, hp⟩, ?_⟩ Iff.rfl
    rintro ⟨b', h', hp⟩
    rw [hu a b b' h h']; exact hp

theorem denotes_iff {env : TextEnv} {ty : String} {v : List Char} {f : Filter env.Rx} (h : Denotes env ty v f) (P : Filter env.Rx → Prop) :
    (∃ g, Denotes env ty v g ∧ P g) ↔ P f :=
  ⟨fun ⟨_, hg, hp⟩ => denotes_unique h hg ▸ hp, fun hp => ⟨f, h, hp⟩⟩

theorem decimal_dec (n : UInt32) : Decimal (decText n.toNat) n := by
  obtain ⟨ds, h1, h2, h3⟩ := numeral_decimal (numeral_dec n.toNat)
  exact ⟨ds, h1, .inl h2, h3⟩

theorem denotes_origin (env : TextEnv) (a : UInt32) : Denotes env "origin_asn" (decText a.toNat) (.originAsn a) :=
  .plain (.originAsn _ _ (decimal_dec a)) (decimal_bang _ _ (decimal_dec a)).2

theorem denotes_peerAsn (env : TextEnv) (a : UInt32) : Denotes env "peer_asn" (decText a.toNat) (.peerAsn a) :=
  .plain (.peerAsn _ _ (decimal_dec a)) (decimal_bang _ _ (decimal_dec a)).2

theorem denotes_prefix {env : TextEnv} {sh : ShowEnv} (ok : ReadsBack env sh) (p : IpNet) (a b : Bool) :
    Denotes env (prefixOption a b) (p.text sh) (.prefix_ p (scope a b)) := by
  have h : env.ipNet (p.text sh) = some p := ok.net p
  have hb : (p.text sh).head? ≠ some '!' := by
    intro hh
    rw [ok.netBang _ (.inr hh)] at h; cases h
  have : prefixOption a b = "prefix" ++ matchSuffix (scope a b) := by cases a <;> cases b <;> decide
  rw [this]
  exact .plain (.prefix_ _ _ _ h) hb

theorem denotes_peerIps {env : TextEnv} {sh : ShowEnv} (ok : ReadsBack env sh) (as : List Ip) (hne : as ≠ []) :
    Denotes env "peer_ips" (joinSep [','] (as.map fun a => a.text sh)) (.peerIps as) := by
  have hip : ∀ a : Ip, env.ipAddr (a.text sh) = some a := ok.ip
  have hns : ∀ a : Ip, noSpaces (a.text sh) = a.text sh := by
    intro a
    rw [noSpaces, List.filter_eq_self]
    intro c hc
    simp only [ne_eq, decide_eq_true_eq]
    rintro rfl
    exact not_mem_ip ok.shows (by decide) (by decide) (by decide) a hc
  refine .peerIps (neg := false) ⟨hne, as.map fun a => a.text sh, ?_, fun h => (nomatch h), fun _ => ⟨?_, ?_⟩⟩
  · clear hne
    induction as with
    | nil => exact .nil
    | cons a as ih => exact .cons (hip a) ih
  · rw [items_iff, noSpaces_join, joinSep_intercalate, splitComma_unique]
    · rw [List.map_map, List.filter_eq_self.2]
      · refine List.map_congr_left fun a _ => (hns a).symm
      · intro p hp
        obtain ⟨a, _, rfl⟩ := List.mem_map.1 hp
        show decide (noSpaces (a.text sh) ≠ []) = true
        rw [hns]
        simpa using ip_ne ok.shows a
    · simpa using hne
    · intro p hp
      rw [List.map_map] at hp
      obtain ⟨a, _, rfl⟩ := List.mem_map.1 hp
      show ',' ∉ noSpaces (a.text sh)
      rw [hns]
      exact not_mem_ip ok.shows (by decide) (by decide) (by decide) a
  · intro b hb hh
    obtain ⟨a, _, rfl⟩ := List.mem_map.1 hb
    have := hip a
    rw [ok.ipBang _ (.inr hh)] at this
    cases this

theorem new_start (env : TextEnv) (v : List Char) (h : v.head? ≠ some '!') :
    Filter.new env "start_ts" v = single .tsStart (env.micros v) ∧ Filter.new env "end_ts" v = single .tsEnd (env.micros v) := by
  unfold Filter.new
  rw [if_neg (by decide), if_neg (by decide)]
  split
  · exact absurd rfl h
  · exact absurd rfl h
  · have e1 : (if v = ['*'] then presentField "start_ts" else none) = none := by split <;> rfl
    have e2 : (if v = ['*'] then presentField "end_ts" else none) = none := by split <;> rfl
    unfold Filter.newSingle
    rw [e1, e2]
    simp only [Bool.false_and, Bool.false_eq_true, if_false]
    constructor
    · have : Filter.newBase env "start_ts" v = single .tsStart (env.micros v) := by simp [Filter.newBase]
      rw [this]
      cases env.micros v <;> rfl
    · have : Filter.newBase env "end_ts" v = single .tsEnd (env.micros v) := by simp [Filter.newBase]
      rw [this]
      cases env.micros v <;> rfl

theorem denotes_start (env : TextEnv) (v : List Char) (h : v.head? ≠ some '!') (f : Filter env.Rx) :
    (Denotes env "start_ts" v f ↔ ∃ t, env.seconds v = some t ∧ f = .tsStart (t * 1000000)) ∧
    (Denotes env "end_ts" v f ↔ ∃ t, env.seconds v = some t ∧ f = .tsEnd (t * 1000000)) := by
  rw [← c60_denotes, ← c60_denotes, (new_start env v h).1, (new_start env v h).2, TextEnv.micros]
  cases env.seconds v with
  | none => simp [single]
  | some t => simp [single, eq_comm]

theorem denotes_version (env : TextEnv) : Denotes env "ip_version" (lit "ipv4") (.ipVersion true) ∧
    Denotes env "ip_version" (lit "ipv6") (.ipVersion false) :=
  ⟨.plain (.ipVersion "ip_version" "ipv4" true (by simp) (by simp [versionWords])) (by decide),
    .plain (.ipVersion "ip_version" "ipv6" false (by simp) (by simp [versionWords])) (by decide)⟩

/-- the requests of the options, as a list of memberships. -/
theorem mem_named (sh : ShowEnv) (o : FilterOpts) (p : String × List Char) : p ∈ o.named sh ↔
    (∃ v, o.asPath = some v ∧ p = ("as_path", v)) ∨ (∃ v, o.community = some v ∧ p = ("community", v)) ∨
    (∃ v, o.originAsn = some v ∧ p = ("origin_asn", decText v.toNat)) ∨
    (∃ v, o.prefix_ = some v ∧ p = (prefixOption o.includeSuper o.includeSub, v.text sh)) ∨
    (o.peerIp ≠ [] ∧ p = ("peer_ips", joinSep [','] (o.peerIp.map fun a => a.text sh))) ∨
    (∃ v, o.peerAsn = some v ∧ p = ("peer_asn", decText v.toNat)) ∨ (∃ v, o.elemType = some v ∧ p = ("type", v)) ∨
    (∃ v, o.startTs = some v ∧ p = ("start_ts", v)) ∨ (∃ v, o.endTs = some v ∧ p = ("end_ts", v)) := by
  have hm : ∀ {α : Type} (ty : String) (f : α → List Char) (o : Option α), p ∈ asked ty f o ↔ ∃ v, o = some v ∧ p = (ty, f v) := by
    intro α ty f o
    cases o <;> simp [asked]
  unfold FilterOpts.named
  simp only [List.mem_append, hm, or_assoc, id]
  have : p ∈ (if o.peerIp.isEmpty = true then [] else [("peer_ips", joinSep [','] (o.peerIp.map fun a => a.text sh))]) ↔
      (o.peerIp ≠ [] ∧ p = ("peer_ips", joinSep [','] (o.peerIp.map fun a => a.text sh))) := by
    cases o.peerIp <;> simp
  rw [this]

/-- C84. The filters made from the options let an element through exactly when it is one the options ask for. -/
theorem c84_selects (env : TextEnv) (sh : ShowEnv) (ok : ReadsBack env sh) (o : FilterOpts) (ht : TimeTexts o)
    (hs : ∀ s ∈ o.filters, OnlyBlanks s) (fs : List (Filter env.Rx)) (h : o.all env sh = .ok fs) (e : BgpElem)
    (hc : ∀ f ∈ fs, ∀ m ∈ netsOf f, Canonical m ∧ Canonical e.prefix_.prefix_) :
    e.matchFilters env fs = true ↔ OptionsPass env o e := by
  rw [c34_meaning env e fs hc]
  unfold FilterOpts.all at h
  rcases (addNamed_cases env (o.named sh) []).symm with ⟨h1, _⟩ | ⟨gs, h1, h2⟩
  · rw [h1] at h; cases h
  rw [h1] at h
  simp only [List.nil_append] at h
  rcases (addExprs_cases ok o.filters hs gs).symm with ⟨h3, _⟩ | ⟨es, h3, h4⟩
  · rw [h3] at h; cases h
  rw [h3] at h
  simp only at h
  have hv : ∃ vs, fs = gs ++ es ++ vs ∧
      ((∀ f ∈ vs, Passes env e f) ↔ (o.ipv4Only = true → e.prefix_.prefix_.addr.isV4 = true) ∧
        (o.ipv6Only = true → e.prefix_.prefix_.addr.isV4 = false)) := by
    obtain ⟨d4, d6⟩ := denotes_version env
    have n4 := (c60_denotes _ _ _ _).2 d4
    have n6 := (c60_denotes _ _ _ _).2 d6
    unfold addVersion at h
    cases h4' : o.ipv4Only <;> cases h6' : o.ipv6Only <;> rw [h4', h6'] at h
    · cases h; exact ⟨[], by simp, by simp⟩
    · simp only [addNamed, n6] at h
      cases h; exact ⟨[.ipVersion false], rfl, by simp [Passes]⟩
    · simp only [addNamed, n4] at h
      cases h; exact ⟨[.ipVersion true], rfl, by simp [Passes]⟩
    · cases h
  obtain ⟨vs, rfl, hv⟩ := hv
  have hg := all_pass (R := fun (p : String × List Char) f => Denotes env p.1 p.2 f) (P := Passes env e) (fun a b b' => denotes_unique) h2
  have he : (∀ f ∈ es, Passes env e f) ↔ ∀ s ∈ o.filters, ∃ f, ExprDenotes env s f ∧ Passes env e f := by
    clear h3 h hc hv
    generalize o.filters = l at hs h4
    induction h4 with
    | nil => simp
    | @cons a b as bs hab _ ih =>
      simp only [List.forall_mem_cons, ih fun x hx => hs x (List.mem_cons_of_mem _ hx)]
      refine and_congr ⟨fun hp => ⟨b, hab, hp⟩, ?_⟩ Iff.rfl
      rintro ⟨b', h', hp⟩
      rw [exprDenotes_unique ok (hs a (by simp)) hab h']; exact hp
  have split : (∀ f ∈ gs ++ es ++ vs, Passes env e f) ↔
      (∀ f ∈ gs, Passes env e f) ∧ (∀ f ∈ es, Passes env e f) ∧ (∀ f ∈ vs, Passes env e f) := by
    simp only [List.mem_append, or_imp, forall_and, and_assoc]
  rw [split, hg, he, hv]
  simp only [mem_named]
  constructor
  · rintro ⟨a1, a2, a3, a4⟩
    refine ⟨fun v hv => a1 ("as_path", v) (.inl ⟨v, hv, rfl⟩), fun v hv => a1 ("community", v) (.inr (.inl ⟨v, hv, rfl⟩)), ?_, ?_, ?_, ?_,
      fun v hv => a1 ("type", v) (.inr (.inr (.inr (.inr (.inr (.inr (.inl ⟨v, hv, rfl⟩))))))), ?_, ?_, a2, a3, a4⟩
    · intro a ha
      exact (denotes_iff (denotes_origin env a) (Passes env e)).1 (a1 _ (.inr (.inr (.inl ⟨a, ha, rfl⟩))))
    · intro p hp
      exact (denotes_iff (denotes_prefix ok p _ _) (Passes env e)).1 (a1 _ (.inr (.inr (.inr (.inl ⟨p, hp, rfl⟩)))))
    · intro hne
      exact (denotes_iff (denotes_peerIps ok _ hne) (Passes env e)).1 (a1 _ (.inr (.inr (.inr (.inr (.inl ⟨hne, rfl⟩))))))
    · intro a ha
      exact (denotes_iff (denotes_peerAsn env a) (Passes env e)).1
        (a1 _ (.inr (.inr (.inr (.inr (.inr (.inl ⟨a, ha, rfl⟩)))))))
    · intro v hv
      obtain ⟨f, hf, hp⟩ := a1 ("start_ts", v) (.inr (.inr (.inr (.inr (.inr (.inr (.inr (.inl ⟨v, hv, rfl⟩))))))))
      obtain ⟨t, h1, rfl⟩ := (denotes_start env v (ht v (.inl hv)) f).1.1 hf
      exact ⟨t, h1, hp⟩
    · intro v hv
      obtain ⟨f, hf, hp⟩ := a1 ("end_ts", v) (.inr (.inr (.inr (.inr (.inr (.inr (.inr (.inr ⟨v, hv, rfl⟩))))))))
      obtain ⟨t, h1, rfl⟩ := (denotes_start env v (ht v (.inr hv)) f).2.1 hf
      exact ⟨t, h1, hp⟩
  · intro hp
    refine ⟨?_, hp.expr, hp.v4, hp.v6⟩
    rintro p (⟨v, hv, rfl⟩ | ⟨v, hv, rfl⟩ | ⟨v, hv, rfl⟩ | ⟨v, hv, rfl⟩ | ⟨hv, rfl⟩ | ⟨v, hv, rfl⟩ | ⟨v, hv, rfl⟩ | ⟨v, hv, rfl⟩ |
      ⟨v, hv, rfl⟩)
    · exact hp.asPath v hv
    · exact hp.community v hv
    · exact ⟨_, denotes_origin env v, hp.origin v hv⟩
    · exact ⟨_, denotes_prefix ok v _ _, hp.pfx v hv⟩
    · exact ⟨_, denotes_peerIps ok _ hv, hp.peerIp hv⟩
    · exact ⟨_, denotes_peerAsn env v, hp.peerAsn v hv⟩
    · exact hp.type v hv
    · obtain ⟨t, h1, h2⟩ := hp.start v hv
      exact ⟨_, (denotes_start env v (ht v (.inl hv)) _).1.2 ⟨t, h1, rfl⟩, h2⟩
    · obtain ⟨t, h1, h2⟩ := hp.stop v hv
      exact ⟨_, (denotes_start env v (ht v (.inr hv)) _).2.2 ⟨t, h1, rfl⟩, h2⟩

/-- C84. When the tool stops before reading: with a panic exactly when there is no filter for the value of an option, and
otherwise with an error message exactly when an expression stands for no filter, or both IP versions are asked for. -/
theorem c84_stops (env : TextEnv) (sh : ShowEnv) (ok : ReadsBack env sh) (o : FilterOpts) (ht : TimeTexts o)
    (hs : ∀ s ∈ o.filters, OnlyBlanks s) :
    (o.all env sh = .error .panic ↔ BadOption env o) ∧
    (o.all env sh = .error .exit ↔ ¬ BadOption env o ∧
      ((∃ s ∈ o.filters, ∀ f, ¬ ExprDenotes env s f) ∨ (o.ipv4Only = true ∧ o.ipv6Only = true))) := by
  have hbad : BadOption env o ↔ ∃ p ∈ o.named sh, ∀ f, ¬ Denotes env p.1 p.2 f := by
    constructor
    · rintro (⟨v, hv, h⟩ | ⟨v, hv, h⟩ | ⟨v, hv, h⟩ | ⟨v, hv, h⟩)
      · exact ⟨("as_path", v), (mem_named _ _ _).2 (.inl ⟨v, hv, rfl⟩), h⟩
      · exact ⟨("community", v), (mem_named _ _ _).2 (.inr (.inl ⟨v, hv, rfl⟩)), h⟩
      · exact ⟨("type", v), (mem_named _ _ _).2 (.inr (.inr (.inr (.inr (.inr (.inr (.inl ⟨v, hv, rfl⟩))))))), h⟩
      · rcases hv with hv | hv
        · refine ⟨("start_ts", v), (mem_named _ _ _).2 (.inr (.inr (.inr (.inr (.inr (.inr (.inr (.inl ⟨v, hv, rfl⟩)))))))), ?_⟩
          intro f hf
          obtain ⟨t, h1, _⟩ := (denotes_start env v (ht v (.inl hv)) f).1.1 hf
          rw [h] at h1; cases h1
        · refine ⟨("end_ts", v), (mem_named _ _ _).2 (.inr (.inr (.inr (.inr (.inr (.inr (.inr (.inr ⟨v, hv, rfl⟩)))))))), ?_⟩
          intro f hf
          obtain ⟨t, h1, _⟩ := (denotes_start env v (ht v (.inr hv)) f).2.1 hf
          rw [h] at h1; cases h1
    · rintro ⟨p, hp, h⟩
      rcases (mem_named _ _ _).1 hp with (⟨v, hv, rfl⟩ | ⟨v, hv, rfl⟩ | ⟨v, hv, rfl⟩ | ⟨v, hv, rfl⟩ | ⟨hv, rfl⟩ | ⟨v, hv, rfl⟩ | ⟨v, hv, rfl⟩ |
        ⟨v, hv, rfl⟩ | ⟨v, hv, rfl⟩)
      · exact .inl ⟨v, hv, h⟩
      · exact .inr (.inl ⟨v, hv, h⟩)
      · exact absurd (denotes_origin env v) (h _)
      · exact absurd (denotes_prefix ok v _ _) (h _)
      · exact absurd (denotes_peerIps ok _ hv) (h _)
      · exact absurd (denotes_peerAsn env v) (h _)
      · exact .inr (.inr (.inl ⟨v, hv, h⟩))
      · refine .inr (.inr (.inr ⟨v, .inl hv, ?_⟩))
        cases hx : env.seconds v with
        | none => rfl
        | some t => exact absurd ((denotes_start env v (ht v (.inl hv)) _).1.2 ⟨t, hx, rfl⟩) (h _)
      · refine .inr (.inr (.inr ⟨v, .inr hv, ?_⟩))
        cases hx : env.seconds v with
        | none => rfl
        | some t => exact absurd ((denotes_start env v (ht v (.inr hv)) _).2.2 ⟨t, hx, rfl⟩) (h _)
  rw [hbad]
  have excl : ∀ {α β : Type} {R : α → β → Prop} {as : List α} {bs : List β}, Pairwise2 R as bs → ¬ ∃ a ∈ as, ∀ b, ¬ R a b := by
    intro α β R as bs h
    induction h with
    | nil => simp
    | cons h _ ih =>
      rintro ⟨x, hx, hn⟩
      rcases List.mem_cons.1 hx with rfl | hx
      · exact hn _ h
      · exact ih ⟨x, hx, hn⟩
  unfold FilterOpts.all
  rcases addNamed_cases env (o.named sh) [] with ⟨gs, h1, h2⟩ | ⟨h1, hb⟩
  · have hno := excl h2
    rw [h1]
    simp only [List.nil_append]
    rcases addExprs_cases ok o.filters hs gs with ⟨es, h3, h4⟩ | ⟨h3, he⟩
    · have hno' := excl h4
      rw [h3]
      simp only
      obtain ⟨d4, d6⟩ := denotes_version env
      have n4 := (c60_denotes _ _ _ _).2 d4
      have n6 := (c60_denotes _ _ _ _).2 d6
      unfold addVersion
      cases h4' : o.ipv4Only <;> cases h6' : o.ipv6Only <;> simp only [addNamed, n4, n6] <;>
        (refine ⟨⟨fun h => ?_, fun h => absurd h hno⟩, ⟨fun h => ?_, ?_⟩⟩)
      all_goals first
        | (cases h; done)
        | (rintro ⟨_, hx | ⟨hx, hy⟩⟩
           · exact absurd hx hno'
           · first | (cases hx; done) | (cases hy; done) | rfl)
        | exact ⟨hno, .inr ⟨trivial, trivial⟩⟩
        | exact fun _ => trivial
    · rw [h3]
      refine ⟨⟨fun h => (nomatch h), fun h => absurd h hno⟩, ⟨fun _ => ⟨hno, .inl he⟩, fun _ => rfl⟩⟩
  · rw [h1]
    exact ⟨⟨fun _ => hb, fun _ => rfl⟩, ⟨fun h => (nomatch h), fun h => absurd hb h.1⟩⟩

/-! ### the assumptions can be met, and examples -/

open Classical in
/-- an environment that reads what `showEnv` prints, and nothing else. -/
noncomputable def backEnv : TextEnv := { exEnv with
  ipNet := fun t => if h : ∃ n : IpNet, n.text showEnv = t then some h.choose else none
  ipAddr := fun t => if h : ∃ a : Ip, a.text showEnv = t then some h.choose else none }

theorem ip_head {sh : ShowEnv} (ok : ShowOk sh) (a : Ip) (r : List Char) : ∃ c t, a.text sh ++ r = c :: t ∧ c ≠ '!' := by
  cases ht : a.text sh with
  | nil => exact absurd ht (ip_ne ok a)
  | cons c t =>
    refine ⟨c, t ++ r, rfl, ?_⟩
    rintro rfl
    exact not_mem_ip (c := '!') ok (by decide) (by decide) (by decide) a (by rw [ht]; simp)

open Classical in
theorem backEnv_ok : ReadsBack backEnv showEnv where
  shows := showEnv_ok
  net n := by
    have h : ∃ m : IpNet, m.text showEnv = n.text showEnv := ⟨n, rfl⟩
    show (if h : _ then _ else _) = _
    rw [dif_pos h]
    exact congrArg some (netText_inj showEnv_ok h.choose_spec)
  ip a := by
    have h : ∃ b : Ip, b.text showEnv = a.text showEnv := ⟨a, rfl⟩
    show (if h : _ then _ else _) = _
    rw [dif_pos h]
    exact congrArg some (ipText_inj showEnv_ok h.choose_spec)
  netBang t ht := by
    show (if h : _ then _ else _) = _
    rw [dif_neg]
    rintro ⟨n, rfl⟩
    obtain ⟨c, r, h1, h2⟩ := ip_head showEnv_ok n.addr (['/'] ++ decText n.len.toNat)
    have : n.text showEnv = c :: r := by rw [← h1]; simp [IpNet.text]
    rw [this] at ht
    rcases ht with ht | ht
    · cases ht
    · cases ht; exact h2 rfl
  ipBang t ht := by
    show (if h : _ then _ else _) = _
    rw [dif_neg]
    rintro ⟨n, rfl⟩
    obtain ⟨c, r, h1, h2⟩ := ip_head showEnv_ok n []
    rw [List.append_nil] at h1
    rw [h1] at ht
    rcases ht with ht | ht
    · cases ht
    · cases ht; exact h2 rfl

/-- the hypotheses of `c84_selects`. -/
example : ∃ fs, FilterOpts.all backEnv showEnv
      { originAsn := some 13335, peerIp := [.v4 #v[192, 0, 2, 1]], ipv4Only := true, filters := ["peer_asns != 1, 2".toList] } = .ok fs := by
  cases h : FilterOpts.all backEnv showEnv
      { originAsn := some 13335, peerIp := [.v4 #v[192, 0, 2, 1]], ipv4Only := true, filters := ["peer_asns != 1, 2".toList] } with
  | ok fs => exact ⟨fs, rfl⟩
  | error e =>
    have hb : ∀ s ∈ ["peer_asns != 1, 2".toList], OnlyBlanks s := by
      intro s hs
      simp only [List.mem_singleton] at hs
      subst hs
      simp [OnlyBlanks, White]
    obtain ⟨h1, h2⟩ := c84_stops backEnv showEnv backEnv_ok
      { originAsn := some 13335, peerIp := [.v4 #v[192, 0, 2, 1]], ipv4Only := true, filters := ["peer_asns != 1, 2".toList] }
      (by rintro v (h | h) <;> cases h) hb
    cases e with
    | panic =>
      rcases h1.1 h with ⟨v, hv, _⟩ | ⟨v, hv, _⟩ | ⟨v, hv, _⟩ | ⟨v, hv | hv, _⟩ <;> cases hv
    | exit =>
      obtain ⟨_, ⟨s, hs, hn⟩ | ⟨_, h6⟩⟩ := h2.1 h
      · simp only [List.mem_singleton] at hs
        subst hs
        exfalso
        have hx : addExprs backEnv ["peer_asns != 1, 2".toList] [] = .ok [.negated (.peerAsns [1, 2])] := by rfl
        rw [(c84_expression backEnv showEnv backEnv_ok _ (hb _ (by simp)) []).2 hn] at hx
        cases hx
      · cases h6

/-- C84 fails here: a list that is accepted with `=` is refused with `!=` when it ends with a comma. -/
theorem c84_violation_empty_item :
    addExprs exEnv ["origin_asns=13335,".toList] [] = .ok [.originAsns [13335]] ∧
    addExprs exEnv ["origin_asns!=13335,".toList] [] = .error .exit := ⟨by rfl, by rfl⟩

/-- C84 fails here: a list with a tabulator is accepted with `!=` and refused with `=`. -/
theorem c84_violation_tab :
    addExprs exEnv ["origin_asns!=1,\t2".toList] [] = .ok [.negated (.originAsns [1, 2])] ∧
    addExprs exEnv ["origin_asns=1,\t2".toList] [] = .error .exit := ⟨by rfl, by rfl⟩

/-- C84 fails here: a mistyped value of `--elem-type` is a panic, while the same mistake in a filter expression is an
error message. -/
theorem c84_violation_panic :
    FilterOpts.all exEnv showEnv { elemType := some "x".toList } = .error .panic ∧
    FilterOpts.all exEnv showEnv { filters := ["type=x".toList] } = .error .exit := ⟨by rfl, by rfl⟩

end Verif.Props
