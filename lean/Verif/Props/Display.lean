import Verif.Lemmas.DisplayComm
import Verif.Lemmas.FilterText
import Verif.Spec.Display
/-
C75: the text lines of elements. C76: what such a line tells. C77: AS numbers in text. C78: the order of elements.
-/
namespace Verif.Props
open Spec

/-! ### an environment that meets the assumptions -/

/-- addresses in hexadecimal with a colon after each octet, times in microseconds, and numbers by their bits. -/
def showEnv : ShowEnv where
  v6 a := joinSep [':'] (a.toList.map fun b => hexText [b])
  time := decText
  f32 n := decText n.toNat

theorem hex1_no_colon {a : V6} : ∀ x ∈ a.toList.map (fun b => hexText [b]), ':' ∉ x := by
  intro x hx
  obtain ⟨b, _, rfl⟩ := List.mem_map.mp hx
  exact not_mem_hex (by decide) _

theorem v6_list_ne {a : V6} : a.toList.map (fun b => hexText [b]) ≠ [] := by
  intro h
  have := congrArg List.length h
  simp at this

theorem showEnv_ok : ShowOk showEnv where
  v6_chars a c h := by
    rcases mem_join h with h | ⟨x, hx, h⟩
    · exact .inr (.inr (by simpa using h))
    · obtain ⟨b, _, rfl⟩ := List.mem_map.mp hx
      exact .inl (hexText_alnum h)
  v6_colons a := by
    have := fields_count (fields_join v6_list_ne (hex1_no_colon (a := a)))
    simp only [List.length_map, Vector.length_toList] at this
    show 2 ≤ (joinSep [':'] (a.toList.map fun b => hexText [b])).count ':'
    omega
  v6_inj a b h := by
    have h1 := join_inj v6_list_ne v6_list_ne hex1_no_colon hex1_no_colon h
    refine Vector.toList_inj.mp (mapText_inj_of ?_ h1)
    intro x y e
    have := hexText_inj e
    simpa using this
  time_chars t c h := .inl (digit_alnum (decText_digit h))
  f32_chars x c h := .inl (digit_alnum (decText_digit h))

/-! ### C75 -/

/-- the separators of lines do not occur in the fields. -/
structure LineChar (ch : Char) : Prop where
  is : ch = '|' ∨ ch = '\n'

theorem LineChar.alnum {ch : Char} (h : LineChar ch) : ch.isAlphanum = false := by rcases h.is with h | h <;> rw [h] <;> decide
theorem LineChar.digit {ch : Char} (h : LineChar ch) : ch.isDigit = false := by rcases h.is with h | h <;> rw [h] <;> decide
theorem LineChar.ne {ch : Char} (h : LineChar ch) : ch ≠ '.' ∧ ch ≠ ':' ∧ ch ≠ '/' ∧ ch ≠ '-' ∧ ch ≠ '{' ∧ ch ≠ '}' ∧ ch ≠ ',' ∧ ch ≠ ' ' := by
  rcases h.is with h | h <;> rw [h] <;> decide

theorem LineChar.optText {ch : Char} {f : α → List Char} (h : ∀ x, ch ∉ f x) : ∀ o, ch ∉ optText f o
  | none => by simp [Verif.optText]
  | some x => h x

theorem LineChar.optList {ch : Char} (hc : LineChar ch) {f : α → List Char} (h : ∀ x, ch ∉ f x) : ∀ o, ch ∉ optListText f o
  | none => by simp [optListText]
  | some xs => by
    intro m
    rcases mem_join m with m | ⟨x, hx, m⟩
    · exact hc.ne.2.2.2.2.2.2.2 (by simpa using m)
    · obtain ⟨y, _, rfl⟩ := List.mem_map.mp hx
      exact h y m

theorem LineChar.time {ch : Char} (hc : LineChar ch) {env : ShowEnv} (ok : ShowOk env) (t : Nat) : ch ∉ env.time t := by
  intro m
  rcases ok.time_chars t ch m with m | m | m
  · rw [hc.alnum] at m; cases m
  · exact hc.ne.1 m
  · exact hc.ne.2.2.2.1 m

theorem LineChar.v4 {ch : Char} (hc : LineChar ch) (a : V4) : ch ∉ v4Text a := by
  intro m
  rcases v4_chars m with m | m
  · rw [hc.digit] at m; cases m
  · exact hc.ne.1 m

theorem LineChar.path {ch : Char} (hc : LineChar ch) (p : AsPath) : ch ∉ asPathText p := by
  intro m
  obtain ⟨_, _, _, _, h1, h2, h3, h4⟩ := hc.ne
  rcases path_chars m with m | m | m | m | m
  · rw [hc.digit] at m; cases m
  all_goals contradiction

theorem LineChar.type {ch : Char} (hc : LineChar ch) (t : ElemType) : ch ∉ typeText t := by
  rcases hc.is with h | h <;> rw [h] <;> cases t <;> decide
theorem LineChar.origin {ch : Char} (hc : LineChar ch) (o : Origin) : ch ∉ originName o := by
  rcases hc.is with h | h <;> rw [h] <;> cases o <;> decide
theorem LineChar.bool {ch : Char} (hc : LineChar ch) (b : Bool) : ch ∉ boolText b := by
  rcases hc.is with h | h <;> rw [h] <;> cases b <;> decide

/-- the fields of the three kinds of lines. -/
def elemFields (env : ShowEnv) (e : BgpElem) : List (List Char) :=
  [typeText e.type, env.time e.time, e.peerIp.text env, asnText e.peerAsn, e.prefix_.text env, optText asPathText e.asPath,
    optText originName e.origin, optText (Ip.text env) e.nextHop, optText (fun n => decText n.toNat) e.localPref,
    optText (fun n => decText n.toNat) e.med, optListText (communityText env) e.communities, boolText e.atomic,
    optText asnText e.aggrAsn, optText v4Text e.aggrIp]
def psvFields (env : ShowEnv) (e : BgpElem) : List (List Char) :=
  [typeText e.type, env.time e.time, e.peerIp.text env, asnText e.peerAsn, e.prefix_.text env, optText asPathText e.asPath,
    optListText asnText e.originAsns, optText originName e.origin, optText (Ip.text env) e.nextHop,
    optText (fun n => decText n.toNat) e.localPref, optText (fun n => decText n.toNat) e.med,
    optListText (communityText env) e.communities, boolText e.atomic, optText asnText e.aggrAsn, optText v4Text e.aggrIp,
    optText asnText e.otc]
def routeFields (env : ShowEnv) (e : RouteElem) : List (List Char) :=
  [typeText e.type, env.time e.time, e.peerIp.text env, asnText e.peerAsn, e.prefix_.text env, optText asPathText e.asPath]

theorem psvFields_clean {env : ShowEnv} (ok : ShowOk env) {ch : Char} (hc : LineChar ch) (e : BgpElem) : ∀ f ∈ psvFields env e, ch ∉ f := by
  have hd : ∀ n, ch ∉ decText n := not_mem_dec hc.digit
  have ha : ∀ a, ch ∉ asnText a := fun a => hd _
  have hi : ∀ a, ch ∉ Ip.text env a := not_mem_ip ok hc.alnum hc.ne.1 hc.ne.2.1
  have hn : ∀ n, ch ∉ IpNet.text env n := not_mem_net ok hc.alnum hc.ne.1 hc.ne.2.1 hc.ne.2.2.1
  simp only [psvFields, List.mem_cons, List.not_mem_nil, or_false, forall_eq_or_imp, forall_eq]
  exact ⟨hc.type _, hc.time ok _, hi _, ha _, hn _, LineChar.optText hc.path _, hc.optList ha _, LineChar.optText hc.origin _, LineChar.optText hi _,
    LineChar.optText (fun _ => hd _) _, LineChar.optText (fun _ => hd _) _, hc.optList (community_not_mem ok hc.is) _, hc.bool _, LineChar.optText ha _,
    LineChar.optText hc.v4 _, LineChar.optText ha _⟩

theorem elemFields_clean {env : ShowEnv} (ok : ShowOk env) {ch : Char} (hc : LineChar ch) (e : BgpElem) : ∀ f ∈ elemFields env e, ch ∉ f := by
  intro f hf
  refine psvFields_clean ok hc e f ?_
  simp only [elemFields, psvFields, List.mem_cons, List.not_mem_nil, or_false] at hf ⊢
  rcases hf with h | h | h | h | h | h | h | h | h | h | h | h | h | h <;> simp [h]

theorem routeFields_clean {env : ShowEnv} (ok : ShowOk env) {ch : Char} (hc : LineChar ch) (e : RouteElem) : ∀ f ∈ routeFields env e, ch ∉ f := by
  have hd : ∀ n, ch ∉ decText n := not_mem_dec hc.digit
  have ha : ∀ a, ch ∉ asnText a := fun a => hd _
  have hi : ∀ a, ch ∉ Ip.text env a := not_mem_ip ok hc.alnum hc.ne.1 hc.ne.2.1
  have hn : ∀ n, ch ∉ IpNet.text env n := not_mem_net ok hc.alnum hc.ne.1 hc.ne.2.1 hc.ne.2.2.1
  simp only [routeFields, List.mem_cons, List.not_mem_nil, or_false, forall_eq_or_imp, forall_eq]
  exact ⟨hc.type _, hc.time ok _, hi _, ha _, hn _, LineChar.optText hc.path _⟩

theorem no_newline {fs : List (List Char)} (h : ∀ f ∈ fs, '\n' ∉ f) : '\n' ∉ joinSep ['|'] fs := by
  intro m
  rcases mem_join m with m | ⟨f, hf, m⟩
  · revert m; decide
  · exact h f hf m

section columns
variable (env : ShowEnv) (e : BgpElem)
theorem col_type : Shows env e "type" (typeText e.type) := by
  cases h : e.type
  · exact .announce h
  · exact .withdraw h
theorem col_peerIp : Shows env e "peer_ip" (e.peerIp.text env) := .peerIp (ip_shows env _)
theorem col_peerAsn : Shows env e "peer_asn" (asnText e.peerAsn) := .peerAsn (numeral_dec _)
theorem col_prefix : Shows env e "prefix" (e.prefix_.text env) := .pfx (net_shows env _)
theorem col_path : Shows env e "as_path" (optText asPathText e.asPath) := by
  cases h : e.asPath with
  | none => exact .noPath h
  | some p => exact .path h (path_shows p)
theorem col_origins : Shows env e "origin_asns" (optListText asnText e.originAsns) := by
  cases h : e.originAsns with
  | none => exact .noOrigins h
  | some p => exact .origins h (listed_join fun x _ => numeral_dec _)
theorem col_origin : Shows env e "origin" (optText originName e.origin) := by
  cases h : e.origin with
  | none => exact .noOrigin h
  | some o =>
    cases o
    · exact .igp h
    · exact .egp h
    · exact .incomplete h
theorem col_nextHop : Shows env e "next_hop" (optText (Ip.text env) e.nextHop) := by
  cases h : e.nextHop with
  | none => exact .noNextHop h
  | some a => exact .nextHop h (ip_shows env a)
theorem col_localPref : Shows env e "local_pref" (optText (fun n => decText n.toNat) e.localPref) := by
  cases h : e.localPref with
  | none => exact .noLocalPref h
  | some n => exact .localPref h (numeral_dec _)
theorem col_med : Shows env e "med" (optText (fun n => decText n.toNat) e.med) := by
  cases h : e.med with
  | none => exact .noMed h
  | some n => exact .med h (numeral_dec _)
theorem col_communities : Shows env e "communities" (optListText (communityText env) e.communities) := by
  cases h : e.communities with
  | none => exact .noCommunities h
  | some cs => exact .communities h (listed_join fun c _ => community_shows env c)
theorem col_atomic : Shows env e "atomic" (boolText e.atomic) := by
  cases h : e.atomic
  · exact .notAtomic h
  · exact .atomic h
theorem col_aggrAsn : Shows env e "aggr_asn" (optText asnText e.aggrAsn) := by
  cases h : e.aggrAsn with
  | none => exact .noAggrAsn h
  | some a => exact .aggrAsn h (numeral_dec _)
theorem col_aggrIp : Shows env e "aggr_ip" (optText v4Text e.aggrIp) := by
  cases h : e.aggrIp with
  | none => exact .noAggrIp h
  | some a => exact .aggrIp h (shows_v4 a)
theorem col_otc : Shows env e "only_to_customer" (optText asnText e.otc) := by
  cases h : e.otc with
  | none => exact .noOtc h
  | some a => exact .otc h (numeral_dec _)
end columns

/-- **C75** The line of an element has these fourteen columns, the field of each showing the element's value, and is one line. -/
theorem c75_line (env : ShowEnv) (ok : ShowOk env) (e : BgpElem) :
    Line env e ["type", "timestamp", "peer_ip", "peer_asn", "prefix", "as_path", "origin", "next_hop", "local_pref", "med", "communities",
      "atomic", "aggr_asn", "aggr_ip"] (e.text env) :=
  ⟨elemFields env e, fields_join (by simp [elemFields]) (elemFields_clean ok ⟨.inl rfl⟩ e),
    .cons (col_type env e) (.cons .time (.cons (col_peerIp env e) (.cons (col_peerAsn env e) (.cons (col_prefix env e) (.cons (col_path env e)
      (.cons (col_origin env e) (.cons (col_nextHop env e) (.cons (col_localPref env e) (.cons (col_med env e) (.cons (col_communities env e)
      (.cons (col_atomic env e) (.cons (col_aggrAsn env e) (.cons (col_aggrIp env e) .nil))))))))))))),
    no_newline (elemFields_clean ok ⟨.inr rfl⟩ e)⟩

/-- **C75** The header is a line of column names, and under each of them the line of values has a field that shows the element's value. -/
theorem c75_psv (env : ShowEnv) (ok : ShowOk env) (e : BgpElem) :
    ∃ columns : List String, Fields '|' psvHeader (columns.map String.toList) ∧ Line env e columns (e.psv env) := by
  refine ⟨["type", "timestamp", "peer_ip", "peer_asn", "prefix", "as_path", "origin_asns", "origin", "next_hop", "local_pref",
    "med", "communities", "atomic", "aggr_asn", "aggr_ip", "only_to_customer"], ?_, ?_⟩
  · exact fields_join (by simp) (by decide)
  · exact ⟨psvFields env e, fields_join (by simp [psvFields]) (psvFields_clean ok ⟨.inl rfl⟩ e),
      .cons (col_type env e) (.cons .time (.cons (col_peerIp env e) (.cons (col_peerAsn env e) (.cons (col_prefix env e) (.cons (col_path env e)
        (.cons (col_origins env e) (.cons (col_origin env e) (.cons (col_nextHop env e) (.cons (col_localPref env e) (.cons (col_med env e)
        (.cons (col_communities env e) (.cons (col_atomic env e) (.cons (col_aggrAsn env e) (.cons (col_aggrIp env e)
        (.cons (col_otc env e) .nil))))))))))))))),
      no_newline (psvFields_clean ok ⟨.inr rfl⟩ e)⟩

/-- **C75** The line of a route element has the first six of these columns, with the values of the element it stands for. -/
theorem c75_route (env : ShowEnv) (ok : ShowOk env) (e : BgpElem) :
    Line env e ["type", "timestamp", "peer_ip", "peer_asn", "prefix", "as_path"] ((routeOf e).text env) :=
  ⟨routeFields env (routeOf e), fields_join (by simp [routeFields]) (routeFields_clean ok ⟨.inl rfl⟩ _),
    .cons (col_type env e) (.cons .time (.cons (col_peerIp env e) (.cons (col_peerAsn env e) (.cons (col_prefix env e) (.cons (col_path env e) .nil))))),
    no_newline (routeFields_clean ok ⟨.inr rfl⟩ _)⟩

/-- the line of a route element begins the line of every element with the same values. -/
theorem c75_route_elem (env : ShowEnv) (e : BgpElem) : ∃ rest, e.text env = (routeOf e).text env ++ '|' :: rest :=
  ⟨_, by simp [BgpElem.text, RouteElem.text, joinSep, routeOf]; rfl⟩

/-- **C75** A single origin is given if and only if there is exactly one. -/
theorem c75_origin (e : BgpElem) (a : UInt32) : e.originAsnOpt = some a ↔ e.originAsns = some [a] := by
  unfold BgpElem.originAsnOpt
  cases h : e.originAsns with
  | none => simp
  | some xs =>
    match xs with
    | [] => simp
    | [x] => simp
    | x :: y :: r => simp

/-! ### C76 -/

theorem opt_inj {f : α → List Char} (h0 : ∀ x, f x ≠ []) (hf : ∀ x y, f x = f y → x = y) : ∀ {o o' : Option α}, optText f o = optText f o' → o = o'
  | none, none, _ => rfl
  | none, some y, h => absurd h.symm (h0 y)
  | some x, none, h => absurd h (h0 x)
  | some x, some y, h => congrArg some (hf x y h)

theorem path_none (o : Option AsPath) : optText asPathText o = asPathText (o.getD []) := by cases o <;> rfl
theorem list_none (f : α → List Char) (o : Option (List α)) : optListText f o = joinSep [' '] ((o.getD []).map f) := by cases o <;> rfl

theorem typeText_inj {t t' : ElemType} (h : typeText t = typeText t') : t = t' := by
  revert h; cases t <;> cases t' <;> decide
theorem boolText_inj {t t' : Bool} (h : boolText t = boolText t') : t = t' := by
  revert h; cases t <;> cases t' <;> decide
theorem originName_inj (t t' : Origin) (h : originName t = originName t') : t = t' := by
  revert h; cases t <;> cases t' <;> decide
theorem ip_ne {env : ShowEnv} (ok : ShowOk env) (a : Ip) : a.text env ≠ [] := by
  cases a with
  | v4 a =>
    intro h
    have e := fields_count (fields_join (sep := '.') (xs := a.toList.map fun b => decText b.toNat) (by simpa using v4_ne)
      (not_mem_map_dec (f := UInt8.toNat) (by decide)))
    rw [show joinSep ['.'] (a.toList.map fun b => decText b.toNat) = [] from h] at e
    simp at e
  | v6 a =>
    intro h
    have := v6_colon ok a
    rw [show env.v6 a = [] from h] at this
    cases this
theorem v4Text_ne (a : V4) : v4Text a ≠ [] := fun h => ip_ne showEnv_ok (.v4 a) h
theorem originName_ne (o : Origin) : originName o ≠ [] := by cases o <;> decide

/-- **C76** Two elements have the same line if and only if they are the same but for what `SameShown` lists. -/
theorem c76_line_partial (env : ShowEnv) (ok : ShowOk env) (e e' : BgpElem) : e.text env = e'.text env ↔ SameShown env e e' := by
  constructor
  · intro h
    have h1 := join_inj (sep := '|') (xs := elemFields env e) (ys := elemFields env e') (by simp [elemFields]) (by simp [elemFields])
      (elemFields_clean ok ⟨.inl rfl⟩ e) (elemFields_clean ok ⟨.inl rfl⟩ e') h
    simp only [elemFields, List.cons.injEq, and_true] at h1
    obtain ⟨f1, f2, f3, f4, f5, f6, f7, f8, f9, f10, f11, f12, f13, f14⟩ := h1
    have hn : ∀ x y : UInt32, decText x.toNat = decText y.toNat → x = y := fun x y h => UInt32.toNat_inj.mp (decText_inj h)
    exact ⟨typeText_inj f1, f2, ipText_inj ok f3, (asn_eq_iff _ _).mp f4, netText_inj ok f5,
      (asPathText_iff _ _).mp (by rw [← path_none, ← path_none]; exact f6), opt_inj originName_ne originName_inj f7,
      opt_inj (ip_ne ok) (fun _ _ => ipText_inj ok) f8, opt_inj (fun _ => decText_ne_nil _) hn f9, opt_inj (fun _ => decText_ne_nil _) hn f10,
      commList_same ok (by rw [← list_none, ← list_none]; exact f11), boolText_inj f12,
      opt_inj (fun _ => decText_ne_nil _) (fun _ _ => (asn_eq_iff _ _).mp) f13, opt_inj v4Text_ne (fun _ _ => v4Text_inj) f14⟩
  · intro h
    have h6 : optText asPathText e.asPath = optText asPathText e'.asPath := by rw [path_none, path_none]; exact (asPathText_iff _ _).mpr h.path
    have h11 : optListText (communityText env) e.communities = optListText (communityText env) e'.communities := by
      rw [list_none, list_none, same_commList h.communities]
    simp only [BgpElem.text, NetworkPrefix.text, h.type, h.time, h.peerIp, h.peerAsn, h.pfx, h6, h.origin, h.nextHop, h.localPref, h.med, h11,
      h.atomic, h.aggrAsn, h.aggrIp]

/-- **C76** Two elements have the same PSV line if and only if they are the same but for what `SameShownFull` lists. -/
theorem c76_psv_partial (env : ShowEnv) (ok : ShowOk env) (e e' : BgpElem) : e.psv env = e'.psv env ↔ SameShownFull env e e' := by
  constructor
  · intro h
    have h1 := join_inj (sep := '|') (xs := psvFields env e) (ys := psvFields env e') (by simp [psvFields]) (by simp [psvFields])
      (psvFields_clean ok ⟨.inl rfl⟩ e) (psvFields_clean ok ⟨.inl rfl⟩ e') h
    simp only [psvFields, List.cons.injEq, and_true] at h1
    obtain ⟨f1, f2, f3, f4, f5, f6, f6', f7, f8, f9, f10, f11, f12, f13, f14, f15⟩ := h1
    have hn : ∀ x y : UInt32, decText x.toNat = decText y.toNat → x = y := fun x y h => UInt32.toNat_inj.mp (decText_inj h)
    exact ⟨⟨typeText_inj f1, f2, ipText_inj ok f3, (asn_eq_iff _ _).mp f4, netText_inj ok f5,
      (asPathText_iff _ _).mp (by rw [← path_none, ← path_none]; exact f6), opt_inj originName_ne originName_inj f7,
      opt_inj (ip_ne ok) (fun _ _ => ipText_inj ok) f8, opt_inj (fun _ => decText_ne_nil _) hn f9, opt_inj (fun _ => decText_ne_nil _) hn f10,
      commList_same ok (by rw [← list_none, ← list_none]; exact f11), boolText_inj f12,
      opt_inj (fun _ => decText_ne_nil _) (fun _ _ => (asn_eq_iff _ _).mp) f13, opt_inj v4Text_ne (fun _ _ => v4Text_inj) f14⟩,
      asns_inj (sep := ' ') (by decide) (by rw [← list_none, ← list_none]; exact f6'),
      opt_inj (fun _ => decText_ne_nil _) (fun _ _ => (asn_eq_iff _ _).mp) f15⟩
  · intro h
    have h6 : optText asPathText e.asPath = optText asPathText e'.asPath := by rw [path_none, path_none]; exact (asPathText_iff _ _).mpr h.path
    have h6' : optListText asnText e.originAsns = optListText asnText e'.originAsns := by rw [list_none, list_none, h.origins]
    have h11 : optListText (communityText env) e.communities = optListText (communityText env) e'.communities := by
      rw [list_none, list_none, same_commList h.communities]
    simp only [BgpElem.psv, NetworkPrefix.text, h.type, h.time, h.peerIp, h.peerAsn, h.pfx, h6, h6', h.origin, h.nextHop, h.localPref, h.med, h11,
      h.atomic, h.aggrAsn, h.aggrIp, h.otc]

/-- **C76** The same of the lines of route elements. -/
theorem c76_route_partial (env : ShowEnv) (ok : ShowOk env) (e e' : RouteElem) : e.text env = e'.text env ↔ SameShownRoute env e e' := by
  constructor
  · intro h
    have h1 := join_inj (sep := '|') (xs := routeFields env e) (ys := routeFields env e') (by simp [routeFields]) (by simp [routeFields])
      (routeFields_clean ok ⟨.inl rfl⟩ e) (routeFields_clean ok ⟨.inl rfl⟩ e') h
    simp only [routeFields, List.cons.injEq, and_true] at h1
    obtain ⟨f1, f2, f3, f4, f5, f6⟩ := h1
    exact ⟨typeText_inj f1, f2, ipText_inj ok f3, (asn_eq_iff _ _).mp f4, netText_inj ok f5,
      (asPathText_iff _ _).mp (by rw [← path_none, ← path_none]; exact f6)⟩
  · intro h
    have h6 : optText asPathText e.asPath = optText asPathText e'.asPath := by rw [path_none, path_none]; exact (asPathText_iff _ _).mpr h.path
    simp only [RouteElem.text, NetworkPrefix.text, h.type, h.time, h.peerIp, h.peerAsn, h.pfx, h6]

theorem segWords_seq {xs : List Asn} (h : xs ≠ []) : segWords (.seq xs) = xs.map .hop := by simp [segWords, h]

/-- a plain path that does not begin with a sequence does not begin with an AS number in text. -/
theorem canonical_words : ∀ {p q : AsPath}, PlainPath p → PlainPath q → p.flatMap segWords = q.flatMap segWords → p = q
  | [], [], _, _, _ => rfl
  | [], s :: q, _, _, h => by
    simp only [List.flatMap_nil, List.flatMap_cons, List.nil_eq, List.append_eq_nil_iff] at h
    exact absurd h.1 (segWords_ne s)
  | s :: p, [], _, _, h => by
    simp only [List.flatMap_nil, List.flatMap_cons, List.append_eq_nil_iff] at h
    exact absurd h.1 (segWords_ne s)
  | .set xs :: p, .set ys :: q, hp, hq, h => by
    simp only [List.flatMap_cons, segWords, List.cons_append, List.nil_append, List.cons.injEq, PathWord.set.injEq] at h
    have cp : PlainPath p := by cases p with
      | nil => trivial
      | cons s r => exact hp
    have cq : PlainPath q := by cases q with
      | nil => trivial
      | cons s r => exact hq
    rw [h.1, canonical_words cp cq h.2]
  | .seq xs :: p, .set ys :: q, hp, hq, h => by
    have hx : xs ≠ [] := by
      match p, hp with
      | [], hp => exact hp
      | .set _ :: _, hp => exact hp.1
    cases xs with
    | nil => exact absurd rfl hx
    | cons x xs => simp [segWords] at h
  | .set xs :: p, .seq ys :: q, hp, hq, h => by
    have hx : ys ≠ [] := by
      match q, hq with
      | [], hp => exact hp
      | .set _ :: _, hp => exact hp.1
    cases ys with
    | nil => exact absurd rfl hx
    | cons x xs => simp [segWords] at h
  | .seq xs :: p, .seq ys :: q, hp, hq, h => by
    have hx : xs ≠ [] ∧ PlainPath p ∧ ∀ a r, p.flatMap segWords ≠ .hop a :: r := by
      match p, hp with
      | [], hp => exact ⟨hp, trivial, by simp⟩
      | .set _ :: _, hp => exact ⟨hp.1, hp.2, by simp [segWords]⟩
    have hy : ys ≠ [] ∧ PlainPath q ∧ ∀ a r, q.flatMap segWords ≠ .hop a :: r := by
      match q, hq with
      | [], hp => exact ⟨hp, trivial, by simp⟩
      | .set _ :: _, hp => exact ⟨hp.1, hp.2, by simp [segWords]⟩
    simp only [List.flatMap_cons, segWords_seq hx.1, segWords_seq hy.1] at h
    have key : ∀ (xs ys : List Asn) (P Q : List PathWord), (∀ a r, P ≠ .hop a :: r) → (∀ a r, Q ≠ .hop a :: r) →
        xs.map PathWord.hop ++ P = ys.map .hop ++ Q → xs = ys ∧ P = Q := by
      intro xs
      induction xs with
      | nil =>
        intro ys P Q hP hQ h
        cases ys with
        | nil => exact ⟨rfl, h⟩
        | cons y ys => exact absurd h (hP y _)
      | cons x xs ih =>
        intro ys P Q hP hQ h
        cases ys with
        | nil => exact absurd h.symm (hQ x _)
        | cons y ys =>
          simp only [List.map_cons, List.cons_append, List.cons.injEq, PathWord.hop.injEq] at h
          have := ih ys P Q hP hQ h.2
          exact ⟨by rw [h.1, this.1], this.2⟩
    have := key xs ys _ _ hx.2.2 hy.2.2 h
    rw [this.1, canonical_words hx.2.1 hy.2.1 this.2]
  | .confedSeq _ :: p, _, hp, _, _ => by cases p <;> exact hp.elim
  | .confedSet _ :: p, _, hp, _, _ => by cases p <;> exact hp.elim
  | .seq _ :: _, .confedSeq _ :: q, _, hq, _ => by cases q <;> exact hq.elim
  | .seq _ :: _, .confedSet _ :: q, _, hq, _ => by cases q <;> exact hq.elim
  | .set _ :: _, .confedSeq _ :: q, _, hq, _ => by cases q <;> exact hq.elim
  | .set _ :: _, .confedSet _ :: q, _, hq, _ => by cases q <;> exact hq.elim
termination_by p => p.length

/-- **C76** The text of a path tells the path among the paths without confederation segments and needless splits. -/
theorem c76_path (p q : AsPath) (hp : PlainPath p) (hq : PlainPath q) : asPathText p = asPathText q ↔ p = q := by
  refine ⟨fun h => ?_, fun h => h ▸ rfl⟩
  have hw := (asPathText_iff p q).mp h
  have key : ∀ s r, PlainPath (s :: r) → (s :: r).flatMap segWords ≠ [.gap] := by
    intro s r hc
    match s, r, hc with
    | .seq (x :: xs), [], _ => simp [segWords]
    | .seq (x :: xs), .set _ :: _, _ => simp [segWords]
    | .set _, [], _ => simp [segWords]
    | .set _, _ :: _, _ => simp [segWords]
    | .seq [], [], hc => exact absurd rfl hc
    | .seq [], .set _ :: _, hc => exact absurd rfl hc.1
  cases p with
  | nil =>
    cases q with
    | nil => rfl
    | cons s r => simp only [pathWords, if_true, reduceCtorEq, if_false] at hw; exact absurd hw.symm (key s r hq)
  | cons s r =>
    cases q with
    | nil => simp only [pathWords, if_true, reduceCtorEq, if_false] at hw; exact absurd hw (key s r hp)
    | cons s' r' =>
      simp only [pathWords, reduceCtorEq, if_false] at hw
      exact canonical_words hp hq hw

/-! ### C77 -/

theorem decimal_digits {s : List Char} {a : UInt32} (h : Decimal s a) : ∀ r, s ≠ 'A' :: r := by
  obtain ⟨ds, hne, h | h, _⟩ := h
  · intro r e
    cases ds with
    | nil => exact absurd rfl hne
    | cons d ds =>
      rw [h, List.map_cons, List.cons.injEq] at e
      have : ∀ d : Fin 10, digitChar d ≠ 'A' := by decide
      exact this d e.1
  · intro r e
    rw [h, List.cons.injEq] at e
    exact absurd e.1 (by decide)

/-- **C77** Exactly the decimal numbers below 2^32, alone or after `AS`, are read, as that number. -/
theorem c77_parse (s : List Char) (a : Asn) : asnParse s = some a ↔ AsnWord s a := by
  unfold asnParse AsnWord
  split
  · rename_i r
    rw [parseU32_iff]
    constructor
    · intro h; exact .inr ⟨r, rfl, h⟩
    · rintro (h | ⟨r', e, h⟩)
      · exact absurd rfl (decimal_digits h _)
      · simp only [List.cons.injEq, true_and] at e; rw [e]; exact h
  · rename_i hne
    rw [parseU32_iff]
    constructor
    · intro h; exact .inl h
    · rintro (h | ⟨r', e, h⟩)
      · exact h
      · exact absurd e (hne r')

theorem numeral_decimal {t : List Char} {n : Nat} (h : Numeral t n) : ∃ ds : List (Fin 10), ds ≠ [] ∧ t = ds.map digitChar ∧
    n = ds.foldl (fun a d => a * 10 + d.val) 0 := by
  induction h with
  | digit d => exact ⟨[d], by simp, rfl, by simp⟩
  | @more t n d _ _ ih =>
    obtain ⟨ds, h1, h2, h3⟩ := ih
    exact ⟨ds ++ [d], by simp, by simp [h2], by simp [List.foldl_append, ← h3]; omega⟩

/-- **C77** What is written for an AS number is read as that number, with `AS` before it and without. -/
theorem c77_roundtrip (a : Asn) : asnParse (asnText a) = some a ∧ asnParse ('A' :: 'S' :: asnText a) = some a := by
  have h : Decimal (asnText a) a := by
    obtain ⟨ds, h1, h2, h3⟩ := numeral_decimal (numeral_dec a.toNat)
    exact ⟨ds, h1, .inl h2, h3⟩
  exact ⟨(c77_parse _ _).mpr (.inl h), (c77_parse _ _).mpr (.inr ⟨_, rfl, h⟩)⟩

/-- a text stands for one number at most. -/
theorem c77_unique (s : List Char) (a b : Asn) (ha : AsnWord s a) (hb : AsnWord s b) : a = b := by
  rw [← c77_parse] at ha hb
  rw [ha] at hb
  exact Option.some.inj hb

/-! ### C78 -/

theorem octets_foldl (bs : Bytes) (n : Nat) : bs.foldl (fun n b => n * 256 + b.toNat) n = n * 256 ^ bs.length + octetsNat bs := by
  induction bs generalizing n with
  | nil => simp [octetsNat]
  | cons b bs ih =>
    unfold octetsNat
    rw [List.foldl_cons, ih, List.foldl_cons, ih, List.length_cons, Nat.pow_succ]
    simp only [Nat.zero_mul, Nat.zero_add, Nat.add_mul, Nat.mul_assoc, Nat.mul_comm 256, Nat.add_assoc]

theorem octets_cons (b : UInt8) (bs : Bytes) : octetsNat (b :: bs) = b.toNat * 256 ^ bs.length + octetsNat bs := by
  show (b :: bs).foldl _ 0 = _
  rw [List.foldl_cons, octets_foldl]
  simp

theorem octets_lt (bs : Bytes) : octetsNat bs < 256 ^ bs.length := by
  induction bs with
  | nil => simp [octetsNat]
  | cons b bs ih =>
    rw [octets_cons, List.length_cons, Nat.pow_succ]
    have := UInt8.toNat_lt b
    calc b.toNat * 256 ^ bs.length + octetsNat bs < b.toNat * 256 ^ bs.length + 256 ^ bs.length := by omega
      _ = (b.toNat + 1) * 256 ^ bs.length := by rw [Nat.add_mul, Nat.one_mul]
      _ ≤ 256 * 256 ^ bs.length := Nat.mul_le_mul_right _ (by omega)
      _ = _ := Nat.mul_comm _ _

theorem cmpOctets_compare : ∀ (a b : Bytes), a.length = b.length → cmpOctets a b = compare (octetsNat a) (octetsNat b)
  | [], [], _ => rfl
  | a :: as, b :: bs, h => by
    have hl : as.length = bs.length := by simpa using h
    rw [octets_cons, octets_cons, cmpOctets, hl]
    have h1 := octets_lt as
    have h2 := octets_lt bs
    rw [hl] at h1
    have key : ∀ x y u v m : Nat, x < y → u < m → x * m + u < y * m + v := by
      intro x y u v m hxy hu
      calc x * m + u < x * m + m := by omega
        _ = (x + 1) * m := by rw [Nat.add_mul, Nat.one_mul]
        _ ≤ y * m := Nat.mul_le_mul_right _ hxy
        _ ≤ _ := by omega
    split
    · rename_i hlt
      exact (Nat.compare_eq_lt.mpr (key _ _ _ _ _ (UInt8.lt_iff_toNat_lt.mp hlt) h1)).symm
    · split
      · rename_i hlt
        exact (Nat.compare_eq_gt.mpr (key _ _ _ _ _ (UInt8.lt_iff_toNat_lt.mp hlt) h2)).symm
      · rename_i n1 n2
        have e : a.toNat = b.toNat := by
          rw [UInt8.lt_iff_toNat_lt] at n1 n2; omega
        rw [cmpOctets_compare as bs hl, e]
        rcases Nat.lt_trichotomy (octetsNat as) (octetsNat bs) with h | h | h
        · rw [Nat.compare_eq_lt.mpr h, Nat.compare_eq_lt.mpr (by omega)]
        · rw [Nat.compare_eq_eq.mpr h, Nat.compare_eq_eq.mpr (by omega)]
        · rw [Nat.compare_eq_gt.mpr h, Nat.compare_eq_gt.mpr (by omega)]

theorem octets_inj : ∀ {a b : Bytes}, a.length = b.length → octetsNat a = octetsNat b → a = b
  | [], [], _, _ => rfl
  | a :: as, b :: bs, h, e => by
    have hl : as.length = bs.length := by simpa using h
    rw [octets_cons, octets_cons, hl] at e
    have h1 := octets_lt as
    have h2 := octets_lt bs
    rw [hl] at h1
    have hd : ∀ x u m : Nat, u < m → (x * m + u) / m = x ∧ (x * m + u) % m = u := by
      intro x u m hu
      rw [Nat.mul_comm]
      exact ⟨by rw [Nat.mul_add_div (by omega), Nat.div_eq_of_lt hu, Nat.add_zero], by rw [Nat.mul_add_mod, Nat.mod_eq_of_lt hu]⟩
    have e1 := hd a.toNat _ _ h1
    have e2 := hd b.toNat _ _ h2
    rw [e] at e1
    have ea : a.toNat = b.toNat := by rw [← e1.1, e2.1]
    have eo : octetsNat as = octetsNat bs := by rw [← e1.2, e2.2]
    rw [UInt8.toNat_inj.mp ea, octets_inj hl eo]

theorem ip_cmp (a b : Ip) : (a.cmp b = .lt ↔ IpBefore a b) ∧ (a.cmp b = .gt ↔ IpBefore b a) ∧ (a.cmp b = .eq ↔ a = b) := by
  cases a with
  | v4 a =>
    cases b with
    | v4 b =>
      simp only [Ip.cmp]
      rw [cmpOctets_compare _ _ (by simp), Nat.compare_eq_lt, Nat.compare_eq_gt, Nat.compare_eq_eq]
      refine ⟨⟨.v4, fun h => by cases h; assumption⟩, ⟨.v4, fun h => by cases h; assumption⟩, ?_, fun h => by cases h; rfl⟩
      intro h
      rw [Vector.toList_inj.mp (octets_inj (by simp) h)]
    | v6 b => exact ⟨⟨fun _ => .mixed, fun _ => rfl⟩, ⟨fun h => (by cases h), fun h => (by cases h)⟩, ⟨fun h => (by cases h), fun h => (by cases h)⟩⟩
  | v6 a =>
    cases b with
    | v4 b => exact ⟨⟨fun h => (by cases h), fun h => (by cases h)⟩, ⟨fun _ => .mixed, fun _ => rfl⟩, ⟨fun h => (by cases h), fun h => (by cases h)⟩⟩
    | v6 b =>
      simp only [Ip.cmp]
      rw [cmpOctets_compare _ _ (by simp), Nat.compare_eq_lt, Nat.compare_eq_gt, Nat.compare_eq_eq]
      refine ⟨⟨.v6, fun h => by cases h; assumption⟩, ⟨.v6, fun h => by cases h; assumption⟩, ?_, fun h => by cases h; rfl⟩
      intro h
      rw [Vector.toList_inj.mp (octets_inj (by simp) h)]

theorem cmp_time (t t' : Nat) (p p' : Ip) :
    ((cmpTime t t').then (p.cmp p') = .lt ↔ Before t p t' p') ∧ ((cmpTime t t').then (p.cmp p') = .gt ↔ Before t' p' t p) ∧
    ((cmpTime t t').then (p.cmp p') = .eq ↔ t = t' ∧ p = p') := by
  have h := ip_cmp p p'
  unfold cmpTime Before
  rcases Nat.lt_trichotomy t t' with ht | ht | ht
  · have h1 : ¬ t' < t := by omega
    have h2 : t ≠ t' := by omega
    simp [ht, h1, h2, h2.symm]
  · subst ht
    simp [h.1, h.2.1, h.2.2]
  · have h1 : ¬ t < t' := by omega
    have h2 : t ≠ t' := by omega
    simp [ht, h1, h2, h2.symm]

/-- **C78** Elements compare by time, then by the address of the peer; two that agree on both compare as equal. -/
theorem c78_order_partial (a b : BgpElem) :
    (a.cmp b = .lt ↔ Before a.time a.peerIp b.time b.peerIp) ∧ (a.cmp b = .gt ↔ Before b.time b.peerIp a.time a.peerIp) ∧
    (a.cmp b = .eq ↔ a.time = b.time ∧ a.peerIp = b.peerIp) := cmp_time _ _ _ _

/-- **C78** Route elements compare as the elements they come from. -/
theorem c78_route_partial (a b : BgpElem) : (routeOf a).cmp (routeOf b) = a.cmp b := rfl

theorem ipBefore_trans {a b c : Ip} (h : IpBefore a b) (g : IpBefore b c) : IpBefore a c := by
  cases h with
  | v4 h => cases g with
    | v4 g => exact .v4 (by omega)
    | mixed => exact .mixed
  | v6 h => cases g with
    | v6 g => exact .v6 (by omega)
  | mixed => cases g with
    | v6 g => exact .mixed

/-- **C78** Of three elements the order is transitive, and of two it is the opposite when they are exchanged: they can be sorted. -/
theorem c78_sortable (a b c : BgpElem) :
    (a.cmp b = .gt ↔ b.cmp a = .lt) ∧ (a.cmp b = .eq ↔ b.cmp a = .eq) ∧ (a.cmp b ≠ .gt → b.cmp c ≠ .gt → a.cmp c ≠ .gt) := by
  have hab := c78_order_partial a b
  have hba := c78_order_partial b a
  have hac := c78_order_partial a c
  have hbc := c78_order_partial b c
  refine ⟨by rw [hab.2.1, hba.1], by rw [hab.2.2, hba.2.2]; exact ⟨fun h => ⟨h.1.symm, h.2.symm⟩, fun h => ⟨h.1.symm, h.2.symm⟩⟩, ?_⟩
  intro h1 h2 h3
  have e1 : a.cmp b = .lt ∨ a.cmp b = .eq := by cases h : a.cmp b <;> simp_all
  have e2 : b.cmp c = .lt ∨ b.cmp c = .eq := by cases h : b.cmp c <;> simp_all
  rw [hab.1, hab.2.2] at e1
  rw [hbc.1, hbc.2.2] at e2
  rw [hac.2.1] at h3
  have irr : ∀ x, ¬ IpBefore x x := by
    intro x h
    cases x with
    | v4 a => cases h; omega
    | v6 a => cases h; omega
  have asymm : ∀ {x y z}, (IpBefore x y ∨ x = y) → (IpBefore y z ∨ y = z) → IpBefore z x → False := by
    rintro x y z (h | rfl) (g | rfl) k
    · exact irr _ (ipBefore_trans (ipBefore_trans h g) k)
    · exact irr _ (ipBefore_trans h k)
    · exact irr _ (ipBefore_trans g k)
    · exact irr _ k
  unfold Before at e1 e2 h3
  rcases e1 with (e1 | ⟨t1, p1⟩) | ⟨t1, p1⟩ <;> rcases e2 with (e2 | ⟨t2, p2⟩) | ⟨t2, p2⟩ <;> rcases h3 with h3 | ⟨t3, p3⟩ <;> try omega
  · exact asymm (.inl p1) (.inl p2) p3
  · exact asymm (.inl p1) (.inr p2) p3
  · exact asymm (.inr p1) (.inl p2) p3
  · exact asymm (.inr p1) (.inr p2) p3

/-! ### examples, and what a line does not tell -/

/-- an announcement with a sequence, a set and communities of several kinds. -/
def exShown : BgpElem :=
  { time := 1700000000500000, type := .announce, peerIp := .v4 #v[192, 0, 2, 1], peerAsn := 64496, peerBgpId := none,
    prefix_ := ⟨⟨.v4 #v[198, 51, 100, 0], 24⟩, none⟩, nextHop := some (.v4 #v[192, 0, 2, 254]), asPath := some [.seq [64496, 64497], .set [1, 2]],
    originAsns := some [1, 2], origin := some .igp, localPref := some 100, med := none,
    communities := some [.plain (.custom 64496 7), .plain .noExport, .extended (.trafficRate 1 0)],
    atomic := false, aggrAsn := none, aggrIp := none, otc := some 64500, unknown := none, deprecated := none }

example : String.ofList (exShown.text showEnv) =
    "A|1700000000500000|192.0.2.1|64496|198.51.100.0/24|64496 64497 {1,2}|IGP|192.0.2.254|100||64496:7 no-export rate:0 bytes/sec (AS 1)|false||" := by
  decide +kernel
example : String.ofList (exShown.psv showEnv) =
    "A|1700000000500000|192.0.2.1|64496|198.51.100.0/24|64496 64497 {1,2}|1 2|IGP|192.0.2.254|100||64496:7 no-export rate:0 bytes/sec (AS 1)|false|||64500" := by
  decide +kernel
example : String.ofList ((routeOf exShown).text showEnv) = "A|1700000000500000|192.0.2.1|64496|198.51.100.0/24|64496 64497 {1,2}" := by decide +kernel
example : Line showEnv exShown ["type", "timestamp", "peer_ip", "peer_asn", "prefix", "as_path", "origin", "next_hop", "local_pref", "med", "communities",
      "atomic", "aggr_asn", "aggr_ip"] (exShown.text showEnv) := c75_line showEnv showEnv_ok exShown
/-- every route element stands for some element. -/
example (r : RouteElem) : ∃ e : BgpElem, routeOf e = r :=
  ⟨{ exShown with time := r.time, type := r.type, peerIp := r.peerIp, peerAsn := r.peerAsn, prefix_ := r.prefix_, asPath := r.asPath }, rfl⟩
example : exShown.originAsnOpt = none := by decide
example : { exShown with originAsns := some [7] }.originAsnOpt = some 7 := by decide
/-- the line changes with a field. -/
example : exShown.text showEnv ≠ { exShown with med := some 0 }.text showEnv := by
  rw [ne_eq, c76_line_partial showEnv showEnv_ok]
  intro h
  exact absurd h.med (by decide)
example : PlainPath [.seq [64496, 64497], .set [1, 2]] := ⟨by decide, trivial⟩
example : PlainPath [.set [1], .set [2], .seq [3]] := by simp [PlainPath]
example : AsnWord "AS64496".toList 64496 := by rw [← c77_parse]; decide
example : AsnWord "0064496".toList 64496 := by rw [← c77_parse]; decide
example : asnParse "as64496".toList = none := by decide
example : asnParse "ASAS1".toList = none := by decide
example : asnParse "AS".toList = none := by decide
example : asnParse "4294967296".toList = none := by decide
example : Before 5 (.v4 #v[10, 0, 0, 1]) 5 (.v4 #v[10, 0, 1, 0]) := .inr ⟨rfl, .v4 (by decide)⟩
example : Before 5 (.v6 (Vector.replicate 16 0)) 6 (.v4 #v[10, 0, 1, 0]) := .inl (by decide)

/-- **C76 does not hold in full**: path identifiers are not shown. -/
theorem c76_violation_path_id : ∃ e e' : BgpElem, e ≠ e' ∧ ∀ env, e.text env = e'.text env ∧ e.psv env = e'.psv env :=
  ⟨exShown, { exShown with prefix_ := ⟨exShown.prefix_.prefix_, some 7⟩ }, by decide, fun _ => ⟨rfl, rfl⟩⟩

/-- **C76 does not hold in full**: members of a confederation are shown like other AS numbers, and two segments like one. -/
theorem c76_violation_path : asPathText [.seq [1, 2]] = asPathText [.confedSeq [1], .seq [2]] ∧ asPathText [.set [1]] = asPathText [.confedSet [1]] := by
  decide

/-- **C76 does not hold in full**: the kind of a redirect is not shown. -/
theorem c76_violation_redirect : ∃ c c' : MetaCommunity, c ≠ c' ∧ ∀ env, communityText env c = communityText env c' :=
  ⟨.extended (.redirect 8 1 #v[0, 0, 0, 1]), .extended (.redirect 9 1 #v[0, 0, 0, 1]), by decide, fun _ => rfl⟩

/-- **C76 does not hold in full**: an absent path, a path without segments and one with an empty sequence are shown alike, and so are an
absent and an empty list of communities. -/
theorem c76_violation_empty (env : ShowEnv) (e : BgpElem) :
    { e with asPath := none }.text env = { e with asPath := some [] }.text env ∧
    { e with asPath := none }.text env = { e with asPath := some [.seq []] }.text env ∧
    { e with communities := none }.text env = { e with communities := some [] }.text env := ⟨rfl, rfl, rfl⟩

/-- **C78 does not hold in full**: two different elements compare as equal. -/
theorem c78_violation : ∃ e e' : BgpElem, e ≠ e' ∧ e.cmp e' = .eq := ⟨exShown, { exShown with type := .withdraw }, by decide, by decide⟩

end Verif.Props
