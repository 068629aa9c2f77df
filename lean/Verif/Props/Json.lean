import Verif.Lemmas.Json
import Verif.Props.Display
/-
**C79, C80**: JSON of AS paths and of elements.
-/
namespace Verif.Props
open Spec

/-! ### paths -/

/-- **C79** A path without confederation segments and adjacent sequences is written as the list of its AS numbers and sets. -/
theorem c79_flat_form (p : AsPath) (h : Flat p) : asPathJson p = .arr ((pathEntries p).map pathEntryJson) := by
  have h1 := (flat_iff p).mpr h
  unfold asPathJson
  cases hs : simplifiedLen p false 0 with
  | none => rw [hs] at h1; simp at h1
  | some n =>
    simp only [Json.arr.injEq]
    clear hs h1 n
    induction p with
    | nil => rfl
    | cons s p ih =>
      have ih := ih (flat_tail h)
      simp only [pathEntries, List.flatMap_cons, List.map_append] at ih ⊢
      rw [ih]
      congr 1
      cases s with
      | seq xs => simp only [segSimple, List.map_map]; rfl
      | set xs => rfl
      | confedSeq xs => exact absurd trivial (h.1 (.confedSeq xs) (by simp))
      | confedSet xs => exact absurd trivial (h.1 (.confedSet xs) (by simp))

/-- **C79** Any other path is written as the list of its segments, each with its kind and its AS numbers. -/
theorem c79_verbose_form (p : AsPath) (h : ¬ Flat p) : ∃ js, asPathJson p = .arr js ∧ Pairwise2 VerboseSeg p js := by
  have h1 := mt (flat_iff p).mp h
  unfold asPathJson
  cases hs : simplifiedLen p false 0 with
  | some n => rw [hs] at h1; simp at h1
  | none => exact ⟨_, rfl, pairwise_segJson p⟩

/-- **C79** A list of segments in the verbose form, with the entries of each in any order, is read as the path of these segments. -/
theorem c79_read_verbose (p : AsPath) (js : List Json) (h : Pairwise2 VerboseSeg p js) : asPathOf (.arr js) = some p := asPath_verbose h

theorem pathEntries_append (p q : AsPath) : pathEntries (p ++ q) = pathEntries p ++ pathEntries q := by
  simp [pathEntries]

theorem flat_append_set {p : AsPath} (h : Flat p) (xs : List Asn) : Flat (p ++ [.set xs]) := by
  refine ⟨fun s hs => ?_, ?_⟩
  · rcases List.mem_append.mp hs with hs | hs
    · exact h.1 s hs
    · simp only [List.mem_singleton] at hs; subst hs; simp [IsConfed]
  · rintro ⟨a, us, vs, c, he⟩
    rcases List.eq_nil_or_concat c with rfl | ⟨c, x, rfl⟩
    · have := congrArg List.getLast? he
      simp at this
    · have he : p ++ [.set xs] = (a ++ .seq us :: .seq vs :: c) ++ [x] := by simpa using he
      exact h.2 ⟨a, us, vs, c, (List.append_inj' he rfl).1⟩

theorem flat_append_seq {p : AsPath} (h : Flat p) (hl : NoLastSeq p) (xs : List Asn) : Flat (p ++ [.seq xs]) := by
  refine ⟨fun s hs => ?_, ?_⟩
  · rcases List.mem_append.mp hs with hs | hs
    · exact h.1 s hs
    · simp only [List.mem_singleton] at hs; subst hs; simp [IsConfed]
  · rintro ⟨a, us, vs, c, he⟩
    rcases List.eq_nil_or_concat c with rfl | ⟨c, x, rfl⟩
    · have he : p ++ [.seq xs] = (a ++ [.seq us]) ++ [.seq vs] := by simpa using he
      have := (List.append_inj' he rfl).1
      exact hl us (by rw [this]; simp)
    · have he : p ++ [.seq xs] = (a ++ .seq us :: .seq vs :: c) ++ [x] := by simpa using he
      exact h.2 ⟨a, us, vs, c, (List.append_inj' he rfl).1⟩

theorem flat_replace_seq {p : AsPath} {xs : List Asn} (h : Flat (p ++ [.seq xs])) (ys : List Asn) : Flat (p ++ [.seq ys]) := by
  have hp : Flat p := by
    refine ⟨fun s hs => h.1 s (by simp [hs]), ?_⟩
    rintro ⟨a, us, vs, c, rfl⟩
    exact h.2 ⟨a, us, vs, c ++ [.seq xs], by simp⟩
  refine flat_append_seq hp (fun us hu => ?_) ys
  obtain ⟨q, rfl⟩ := List.getLast?_eq_some_iff.mp hu
  exact h.2 ⟨q, us, xs, [], by simp⟩

/-- the item of an entry. -/
def entryItem : PathEntry → PathItem
  | .hop a => .hop a
  | .set xs => .set xs

theorem push_inv {p : AsPath} (hf : Flat p) (he : ¬ HasEmptySeq p) (i : PathEntry) :
    Flat (pushItem p (entryItem i)) ∧ ¬ HasEmptySeq (pushItem p (entryItem i)) ∧ pathEntries (pushItem p (entryItem i)) = pathEntries p ++ [i] := by
  cases i with
  | set xs =>
    refine ⟨flat_append_set hf xs, ?_, by simp [entryItem, pushItem, pathEntries]⟩
    simpa [HasEmptySeq, entryItem, pushItem] using he
  | hop a =>
    by_cases hl : NoLastSeq p
    · simp only [entryItem, push_first hl]
      refine ⟨flat_append_seq hf hl [a], ?_, by simp [pathEntries]⟩
      simpa [HasEmptySeq] using he
    · simp only [NoLastSeq, Classical.not_forall, Classical.not_not] at hl
      obtain ⟨xs, hx⟩ := hl
      obtain ⟨q, rfl⟩ := List.getLast?_eq_some_iff.mp hx
      have e : pushItem (q ++ [.seq xs]) (.hop a) = q ++ [.seq (xs ++ [a])] := by simp [pushItem]
      simp only [entryItem, e]
      refine ⟨flat_replace_seq hf _, ?_, by simp [pathEntries]⟩
      simp only [HasEmptySeq, List.mem_append, List.mem_singleton, not_or] at he ⊢
      exact ⟨he.1, by simp⟩

theorem fold_inv : ∀ (is : List PathEntry) (p : AsPath), Flat p → ¬ HasEmptySeq p →
    Flat ((is.map entryItem).foldl pushItem p) ∧ ¬ HasEmptySeq ((is.map entryItem).foldl pushItem p) ∧
      pathEntries ((is.map entryItem).foldl pushItem p) = pathEntries p ++ is
  | [], p, hf, he => by simp [hf, he]
  | i :: is, p, hf, he => by
    obtain ⟨h1, h2, h3⟩ := push_inv hf he i
    obtain ⟨g1, g2, g3⟩ := fold_inv is _ h1 h2
    exact ⟨g1, g2, by simp only [List.map_cons, List.foldl_cons, g3, h3, List.append_assoc, List.singleton_append]⟩

theorem items_entries : ∀ is : List PathEntry, (is.map pathEntryJson).mapM pathItemOf = some (is.map entryItem)
  | [] => rfl
  | i :: is => by
    have h : pathItemOf (pathEntryJson i) = some (entryItem i) := by
      cases i with
      | hop a => exact item_hop a
      | set xs => exact item_set xs
    simp [List.mapM_cons, h, items_entries is]

/-- **C79** A list of AS numbers and sets is read as a path with exactly these entries, with each run of AS numbers in one sequence. -/
theorem c79_read_flat (is : List PathEntry) :
    ∃ p, asPathOf (.arr (is.map pathEntryJson)) = some p ∧ pathEntries p = is ∧ Flat p ∧ ¬ HasEmptySeq p := by
  have hf : Flat [] := ⟨by simp, fun ⟨a, _, _, _, h⟩ => by simp at h⟩
  obtain ⟨h1, h2, h3⟩ := fold_inv is [] hf (by simp [HasEmptySeq])
  exact ⟨_, by simp only [asPathOf, Json.list, items_entries, Option.map_some], by simpa [pathEntries] using h3, h1, h2⟩

/-- **C79** What is written of a path is read as the same path, if the path needs the verbose form or has no empty sequence.
Partial: the code claims no restriction; see `c79_lost`. -/
theorem c79_roundtrip_partial (p : AsPath) (h : Flat p → ¬ HasEmptySeq p) : asPathOf (asPathJson p) = some p := asPath_kept h

/-- **C79** violated otherwise: the empty sequences are lost, and nothing else. -/
theorem c79_lost (p : AsPath) (h : Flat p) (he : HasEmptySeq p) :
    asPathOf (asPathJson p) = some (p.filter fun s => s ≠ .seq []) ∧ asPathOf (asPathJson p) ≠ some p := by
  have h1 := asPath_flat h
  refine ⟨h1, fun h2 => ?_⟩
  rw [h1, Option.some.injEq, List.filter_eq_self] at h2
  simpa using h2 _ he

/-- **C79** Paths that are kept and have the same document are the same. -/
theorem c79_unique (p q : AsPath) (hp : Flat p → ¬ HasEmptySeq p) (hq : Flat q → ¬ HasEmptySeq q) (h : asPathJson p = asPathJson q) : p = q := by
  have h1 := asPath_kept hp
  rw [h, asPath_kept hq, Option.some.injEq] at h1
  exact h1.symm

example : Flat [.seq [64496, 64497], .set [1, 2], .seq [3]] := (flat_iff _).mp (by decide)
example : ¬ Flat [.seq [1], .seq [2]] := mt (flat_iff _).mpr (by decide)
example : ¬ Flat [.confedSeq [], .seq []] := mt (flat_iff _).mpr (by decide)
example : asPathOf (asPathJson [.confedSeq [], .seq []]) = some [.confedSeq [], .seq []] := by rfl
example : asPathJson [.seq [64496, 64497], .set [1, 2], .seq [3]] = .arr [.int 64496, .int 64497, .arr [.int 1, .int 2], .int 3] := by rfl
/-- the violation: a path of one empty sequence is read as the empty path. -/
example : asPathOf (asPathJson [.seq []]) = some [] := by rfl
example : asPathOf (asPathJson [.set [], .seq [], .set [1]]) = some [.set [], .set [1]] := by rfl
/-- a mixed document, as the code allows: the number is appended to the verbose sequence. -/
example : asPathOf (.arr [segJson (.seq [1]), .int 2]) = some [.seq [1, 2]] := by rfl
example : asPathOf (.arr [.int (-1)]) = none := by rfl
example : asPathOf (.arr [.int 4294967296]) = none := by rfl

/-! ### elements -/

/-- **C80** What is written of an element is read as the same element, if its path and its floating point numbers are kept.
Partial: see `c80_violation_rate` and `c79_lost`. -/
theorem c80_elem_partial (env : JsonEnv) (ok : JsonOk env) (e : BgpElem) (hn : e.prefix_.prefix_.len.toNat ≤ e.prefix_.prefix_.addr.maxLen)
    (hp : PathKept e.asPath) (hf : FloatsKept env e) : elemOf env (elemJson env e) = some e := by
  unfold elemOf elemJson
  rw [fields_zip elemKeys_nodup rfl]
  simp only [List.map_cons, List.map_nil, Option.bind_eq_bind, Option.bind_some, Json.req, ok.time, elemType_kept, viaText_text, ok.ip, u32_asn,
    prefix_kept ok _ hn, Json.boolean]
  rw [opt_opt (fun x => textJson_ne _) (fun x _ => by rw [viaText_text, ok.v4]),
    opt_opt (fun x => textJson_ne _) (fun x _ => by rw [viaText_text, ok.ip]),
    opt_opt asPathJson_ne (fun p h => asPath_kept (hp p h)),
    opt_opt (fun x => by simp) (fun x _ => list_asns x),
    opt_opt originJson_ne (fun x _ => origin_kept x),
    opt_opt (fun x => natJson_ne _) (fun x _ => u32_nat x),
    opt_opt (fun x => natJson_ne _) (fun x _ => u32_nat x),
    opt_opt (fun x => by simp) (fun cs hcs => list_map fun c hc => community_kept ok c (hf cs hcs c hc)),
    opt_opt (g := asnJson) (fun x => natJson_ne _) (fun x _ => u32_asn x),
    opt_opt (fun x => textJson_ne _) (fun x _ => by rw [viaText_text, ok.v4]),
    opt_opt (g := asnJson) (fun x => natJson_ne _) (fun x _ => u32_asn x),
    opt_opt (fun x => by simp) (fun x _ => list_map fun a _ => attrRaw_kept a),
    opt_opt (fun x => by simp) (fun x _ => list_map fun a _ => attrRaw_kept a)]
  rfl

/-- **C80** The same for route elements. -/
theorem c80_route_partial (env : JsonEnv) (ok : JsonOk env) (e : RouteElem) (hn : e.prefix_.prefix_.len.toNat ≤ e.prefix_.prefix_.addr.maxLen)
    (hp : PathKept e.asPath) : routeOfJson env (routeJson env e) = some e := by
  unfold routeOfJson routeJson
  rw [fields_zip routeKeys_nodup rfl]
  simp only [List.map_cons, List.map_nil, Option.bind_eq_bind, Option.bind_some, Json.req, ok.time, elemType_kept, viaText_text, ok.ip, u32_asn,
    prefix_kept ok _ hn]
  rw [opt_opt asPathJson_ne (fun p h => asPath_kept (hp p h))]
  rfl

/-- **C80** The keys of the document may come in any order, and other keys are ignored. -/
theorem c80_order (env : JsonEnv) (kvs kvs' : List (String × Json))
    (h : ∀ k ∈ elemKeys, kvs.filter (fun kv => kv.1 == k) = kvs'.filter (fun kv => kv.1 == k)) :
    elemOf env (.obj kvs) = elemOf env (.obj kvs') := by
  have : Json.fields elemKeys (.obj kvs) = Json.fields elemKeys (.obj kvs') := by
    simp only [Json.fields]
    generalize elemKeys = ks at h
    induction ks with
    | nil => rfl
    | cons k ks ih =>
      have e : Json.entry kvs k = Json.entry kvs' k := by simp only [Json.entry, h k (by simp)]
      simp only [List.mapM_cons, e, ih fun k hk => h k (by simp [hk])]
  unfold elemOf
  rw [this]

/-- **C80** The document has one entry for each field, with null for what is absent. -/
theorem c80_document (env : JsonEnv) (e : BgpElem) : ∃ kvs, elemJson env e = .obj kvs ∧ kvs.map (·.1) = elemKeys ∧
    ("timestamp", env.time e.time) ∈ kvs ∧ ("type", .str (if e.type = .announce then "ANNOUNCE" else "WITHDRAW")) ∈ kvs ∧
    ("peer_ip", .str (String.ofList (e.peerIp.text env.out))) ∈ kvs ∧ ("peer_asn", number e.peerAsn.toNat) ∈ kvs ∧
    ("peer_bgp_id", orNull (fun a => .str (String.ofList (v4Text a))) e.peerBgpId) ∈ kvs ∧
    ("next_hop", orNull (fun a => .str (String.ofList (a.text env.out))) e.nextHop) ∈ kvs ∧
    ("as_path", orNull asPathJson e.asPath) ∈ kvs ∧
    ("origin_asns", orNull (fun xs => .arr (xs.map fun a => number a.toNat)) e.originAsns) ∈ kvs ∧
    ("origin", orNull (fun o => .str (String.ofList (originName o))) e.origin) ∈ kvs ∧
    ("local_pref", orNull (fun n => number n.toNat) e.localPref) ∈ kvs ∧ ("med", orNull (fun n => number n.toNat) e.med) ∈ kvs ∧
    ("atomic", .bool e.atomic) ∈ kvs ∧ ("aggr_asn", orNull (fun n => number n.toNat) e.aggrAsn) ∈ kvs ∧
    ("aggr_ip", orNull (fun a => .str (String.ofList (v4Text a))) e.aggrIp) ∈ kvs ∧
    ("only_to_customer", orNull (fun n => number n.toNat) e.otc) ∈ kvs := by
  have h1 : elemTypeJson e.type = .str (if e.type = .announce then "ANNOUNCE" else "WITHDRAW") := by cases e.type <;> rfl
  have h2 : ∀ {α : Type} (f : α → Json) (o : Option α), optJson f o = orNull f o := by
    intro α f o; cases o <;> rfl
  have h3 : originJson = fun o => .str (String.ofList (originName o)) := by
    funext o; cases o <;> rfl
  refine ⟨_, rfl, rfl, ?_⟩
  simp only [elemKeys, List.zip_cons_cons, List.zip_nil_right, h1, h2, h3]
  have h4 : asnJson = fun a : Asn => number a.toNat := rfl
  have h5 : natJson = number := rfl
  simp only [h4, h5, textJson]
  simp

theorem ext_float_lost {env : JsonEnv} (nn : NullForNaN env) {c : MetaCommunity} {r : UInt32} (hc : communityFloat c = some r) (hr : ¬ FiniteF32 r) :
    communityOf env (communityJson env c) = none := by
  have hw := nn.write r hr
  have hd := nn.read
  unfold communityFloat at hc
  split at hc
  · rename_i a r'
    simp only [Option.some.injEq] at hc
    subst hc
    simp only [communityOf, communityJson, ext_not_plain]
    have h1 : extOf env (extJson env (.trafficRate a r')) = none := by
      simp only [extOf, extJson, Json.variant, Option.bind_eq_bind, Option.bind_some, String.reduceEq, ↓reduceIte]
      rw [fields2 (by decide)]
      simp [Json.req, u16_nat, hw, hd]
    rw [h1]
    rfl
  · rename_i a r' t
    simp only [Option.some.injEq] at hc
    subst hc
    simp only [communityOf, communityJson, ext_not_plain]
    have h1 : extOf env (extJson env (.linkBandwidth a r' t)) = none := by
      simp only [extOf, extJson, Json.variant, Option.bind_eq_bind, Option.bind_some, String.reduceEq, ↓reduceIte]
      rw [fields3 (by decide)]
      simp [Json.req, u16_nat, hw, hd]
    rw [h1]
    rfl
  · simp at hc

theorem mapM_none {f : α → Option β} {xs : List α} {x : α} (hx : x ∈ xs) (h : f x = none) : xs.mapM f = none := by
  induction xs with
  | nil => simp at hx
  | cons y ys ih =>
    rw [List.mapM_cons]
    rcases List.mem_cons.mp hx with rfl | hx
    · simp [h]
    · simp [ih hx]

/-- **C80** violated: the document of an element with a community whose floating point number is infinite or NaN is not read at all. -/
theorem c80_violation_rate (env : JsonEnv) (nn : NullForNaN env) (e : BgpElem) (cs : List MetaCommunity) (c : MetaCommunity) (r : UInt32)
    (he : e.communities = some cs) (hc : c ∈ cs) (hr : communityFloat c = some r) (hi : ¬ FiniteF32 r) : elemOf env (elemJson env e) = none := by
  unfold elemOf elemJson
  rw [fields_zip elemKeys_nodup rfl]
  have h : Json.opt (Json.list (communityOf env)) (some (optJson (fun cs => .arr (cs.map (communityJson env))) e.communities)) = none := by
    rw [he]
    show Option.map _ (List.mapM _ _) = none
    rw [mapM_none (List.mem_map_of_mem hc) (ext_float_lost nn hr hi)]
    rfl
  simp only [List.map_cons, List.map_nil, Option.bind_eq_bind, Option.bind_some, h, Option.bind_none]
  simp

/-! ### the assumptions can be met -/

open Classical in
/-- the inverse of an injective function. -/
noncomputable def invOf (f : α → β) (y : β) : Option α := if h : ∃ x, f x = y then some h.choose else none

theorem invOf_eq {f : α → β} (hf : ∀ x y, f x = f y → x = y) (x : α) : invOf f (f x) = some x := by
  unfold invOf
  rw [dif_pos ⟨x, rfl⟩]
  congr 1
  apply hf
  exact (⟨x, rfl⟩ : ∃ y, f y = f x).choose_spec

/-- an environment. -/
noncomputable def jsonEnv : JsonEnv where
  out := showEnv
  ip := invOf (Ip.text showEnv)
  v4 := invOf v4Text
  v6 := invOf showEnv.v6
  net := invOf (IpNet.text showEnv)
  time t := .int t
  timeOf
    | .int (.ofNat n) => some n
    | _ => none
  f32 r := if r &&& 0x7F800000 = 0x7F800000 then .null else .int r.toNat
  f32Of j := j.u32

theorem jsonEnv_ok : JsonOk jsonEnv where
  ip := invOf_eq fun _ _ h => ipText_inj showEnv_ok h
  v4 := invOf_eq fun _ _ h => v4Text_inj h
  v6 := invOf_eq showEnv_ok.v6_inj
  net n _ := invOf_eq (fun _ _ h => netText_inj showEnv_ok h) n
  time _ := rfl

theorem jsonEnv_nan : NullForNaN jsonEnv where
  write r h := by simp only [FiniteF32, ne_eq, Classical.not_not] at h; simp [jsonEnv, h]
  read := rfl

theorem jsonEnv_f32 (r : UInt32) (h : FiniteF32 r) : jsonEnv.f32Of (jsonEnv.f32 r) = some r := by
  simp only [FiniteF32] at h
  simp only [jsonEnv, if_neg h]
  exact u32_nat r

example : elemOf jsonEnv (elemJson jsonEnv exShown) = some exShown := by
  refine c80_elem_partial _ jsonEnv_ok _ (by decide) ?_ ?_
  · intro q hq _
    simp only [exShown, Option.some.injEq] at hq
    subst hq
    simp [HasEmptySeq]
  · intro cs hcs c hc r hr
    simp only [exShown, Option.some.injEq] at hcs
    subst hcs
    simp only [List.mem_cons, List.not_mem_nil, or_false] at hc
    rcases hc with rfl | rfl | rfl <;> simp [communityFloat] at hr
    subst hr
    exact jsonEnv_f32 0 (by unfold FiniteF32; decide)

/-- a traffic rate of NaN. -/
example : elemOf jsonEnv (elemJson jsonEnv { exShown with communities := some [.extended (.trafficRate 1 0x7FC00000)] }) = none :=
  c80_violation_rate _ jsonEnv_nan _ [.extended (.trafficRate 1 0x7FC00000)] (.extended (.trafficRate 1 0x7FC00000)) 0x7FC00000 rfl (by simp) rfl (by unfold FiniteF32; decide)

end Verif.Props
