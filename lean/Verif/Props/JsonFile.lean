import Verif.Spec.JsonFile
import Verif.Props.JsonText
import Verif.Props.JsonRead
import Verif.Props.Concat
/-
C109. The JSON of whatever was read from a file.
-/
namespace Verif.Props
open Spec

/-! ### elements -/

theorem opt_as {f : Json → Option α} {g : β → Json} {h : β → α} {o : Option β} (hn : ∀ x, g x ≠ .null)
    (hx : ∀ x, f (g x) = some (h x)) : Json.opt f (some (optJson g o)) = some (o.map h) := by
  cases o with
  | none => rfl
  | some x =>
    show Json.opt f (some (g x)) = _
    have := hx x
    have h2 := hn x
    cases hg : g x <;> rw [hg] at this h2 <;> simp_all [Json.opt]

/-- **C109** What is written of an element is read as the element, but for the empty sequences of a flat path, if its numbers are
finite; else it is not read at all. -/
theorem c109_elem (env : JsonEnv) (ok : JsonOk env) (fok : FloatOk env) (e : BgpElem) (hn : NetOk e.prefix_.prefix_) :
    elemOf env (elemJson env e) = readAgain e := by
  unfold readAgain
  split
  · rename_i hf
    have hk : FloatsKept env e := fun cs hcs c hc r hr => fok.finite r (hf cs hcs c hc r hr)
    unfold elemOf elemJson
    rw [fields_zip elemKeys_nodup rfl]
    simp only [List.map_cons, List.map_nil, Option.bind_eq_bind, Option.bind_some, Json.req, ok.time, elemType_kept, viaText_text, ok.ip,
      u32_asn, prefix_kept ok _ hn, Json.boolean]
    rw [opt_opt (fun x => textJson_ne _) (fun x _ => by rw [viaText_text, ok.v4]),
      opt_opt (fun x => textJson_ne _) (fun x _ => by rw [viaText_text, ok.ip]),
      opt_as asPathJson_ne path_read,
      opt_opt (fun x => by simp) (fun x _ => list_asns x),
      opt_opt originJson_ne (fun x _ => origin_kept x),
      opt_opt (fun x => natJson_ne _) (fun x _ => u32_nat x),
      opt_opt (fun x => natJson_ne _) (fun x _ => u32_nat x),
      opt_opt (fun x => by simp) (fun cs hcs => list_map fun c hc => community_kept ok c (hk cs hcs c hc)),
      opt_opt (g := asnJson) (fun x => natJson_ne _) (fun x _ => u32_asn x),
      opt_opt (fun x => textJson_ne _) (fun x _ => by rw [viaText_text, ok.v4]),
      opt_opt (g := asnJson) (fun x => natJson_ne _) (fun x _ => u32_asn x),
      opt_opt (fun x => by simp) (fun x _ => list_map fun a _ => attrRaw_kept a),
      opt_opt (fun x => by simp) (fun x _ => list_map fun a _ => attrRaw_kept a)]
    rfl
  · rename_i hf
    simp only [ElemFinite, Classical.not_forall] at hf
    obtain ⟨cs, hcs, c, hc, r, hr, hi⟩ := hf
    exact c80_violation_rate env fok.toNullForNaN e cs c r hcs hc hr hi

/-- **C109** The same for route elements, which have no communities. -/
theorem c109_route (env : JsonEnv) (ok : JsonOk env) (e : RouteElem) (hn : NetOk e.prefix_.prefix_) :
    routeOfJson env (routeJson env e) = some (routeRead e) := by
  unfold routeOfJson routeJson
  rw [fields_zip routeKeys_nodup rfl]
  simp only [List.map_cons, List.map_nil, Option.bind_eq_bind, Option.bind_some, Json.req, ok.time, elemType_kept, viaText_text, ok.ip, u32_asn,
    prefix_kept ok _ hn]
  rw [opt_as asPathJson_ne path_read]
  rfl

theorem pathRead_same (p : AsPath) : pathRead p = p ↔ (Flat p → ¬ HasEmptySeq p) := by
  have := c108_path (.asPath p)
  simpa [valueRead, valuePath, PathKept] using this

theorem mapPath_same (o : Option AsPath) : o.map pathRead = o ↔ PathKept o := by
  cases o with
  | none => simp [PathKept]
  | some p => simp [PathKept, pathRead_same]

/-- **C109** An element is read as itself exactly if its path is kept (C79) and its numbers are finite, and a route element exactly
if its path is kept. -/
theorem c109_same (env : JsonEnv) (ok : JsonOk env) (fok : FloatOk env) (e : BgpElem) (hn : NetOk e.prefix_.prefix_) (x : RouteElem)
    (hx : NetOk x.prefix_.prefix_) :
    (elemOf env (elemJson env e) = some e ↔ PathKept e.asPath ∧ ElemFinite e) ∧
    (routeOfJson env (routeJson env x) = some x ↔ PathKept x.asPath) := by
  rw [c109_elem env ok fok e hn, c109_route env ok x hx, ← mapPath_same, ← mapPath_same]
  constructor
  · unfold readAgain
    obtain ⟨_, _, _, _, _, _, _, p, _⟩ := e
    split
    · rename_i h
      simp [elemRead, h]
    · rename_i h
      simp [h]
  · cases x
    simp [routeRead]

/-! ### what was read -/

theorem updateToElems_prefix {u : Update} {t : Nat} {ip : Ip} {asn : Asn} {e : BgpElem} (hu : UpdateTyped u)
    (he : e ∈ updateToElems u t ip asn) : NetOk e.prefix_.prefix_ := by
  have hmp : ∀ n, (relevantAttributes u.attributes).announced = some n ∨ (relevantAttributes u.attributes).withdrawn = some n →
      ∀ p ∈ n.prefixes, NetOk p.prefix_ := by
    have key : ∀ (as : List Attribute) (r : Relevant), (∀ x ∈ as, ValueOk x.value) →
        (∀ n, r.announced = some n ∨ r.withdrawn = some n → ∀ p ∈ n.prefixes, NetOk p.prefix_) →
        ∀ n, (as.foldl (fun r x => r.step x.value) r).announced = some n ∨ (as.foldl (fun r x => r.step x.value) r).withdrawn = some n →
          ∀ p ∈ n.prefixes, NetOk p.prefix_ := by
      intro as
      induction as with
      | nil => intro r _ h; exact h
      | cons a as ih =>
        intro r ha h
        refine ih _ (fun x hx => ha x (by simp [hx])) ?_
        have hv := ha a (by simp)
        show ∀ n, (r.step a.value).announced = some n ∨ (r.step a.value).withdrawn = some n → ∀ p ∈ n.prefixes, NetOk p.prefix_
        revert hv
        cases hav : a.value with
        | mpReach m =>
          intro hv n hn
          rcases hn with hn | hn
          · cases hn; exact hv.prefixes
          · exact h n (.inr hn)
        | mpUnreach m =>
          intro hv n hn
          rcases hn with hn | hn
          · exact h n (.inl hn)
          · cases hn; exact hv.prefixes
        | _ => intro _; exact h
    exact key u.attributes.inner Relevant.init hu.attributes (by intro n h; rcases h with h | h <;> cases h)
  rw [updateToElems, UpdateIter.collect_eq, UpdateIter.left] at he
  have hb : (updateIter u t ip asn).inWithdrawn = false := rfl
  rw [hb] at he
  rcases List.mem_append.mp he with he | he
  · obtain ⟨p, hp, rfl⟩ := List.mem_map.mp (by simpa using he)
    show NetOk p.prefix_
    rcases List.mem_append.mp (show p ∈ u.announced ++ _ from hp) with hp | hp
    · exact hu.announced p hp
    · split at hp
      · rename_i n hn; exact hmp n (.inl hn) p hp
      · cases hp
  · obtain ⟨p, hp, rfl⟩ := List.mem_map.mp he
    show NetOk p.prefix_
    rcases List.mem_append.mp (show p ∈ u.withdrawn ++ _ from hp) with hp | hp
    · exact hu.withdrawn p hp
    · split at hp
      · rename_i n hn; exact hmp n (.inr hn) p hp
      · cases hp

theorem elemsOfUpdate_prefix {table : Option PeerIndexTable} {u : MrtUpdate} {e : BgpElem} (hu : MrtUpdateTyped u)
    (he : e ∈ elemsOfUpdate table u) : NetOk e.prefix_.prefix_ := by
  cases u with
  | bgp4mp t ip asn u => exact updateToElems_prefix hu he
  | legacy t ip asn li la u => exact updateToElems_prefix hu he
  | tableDump m => cases List.mem_singleton.mp he; exact hu.1
  | rib t y s p es =>
    cases table with
    | none => cases he
    | some tb =>
      have : ∀ es : List RibEntry, e ∈ ribElems tb p es → e.prefix_ = p := by
        intro es
        induction es with
        | nil => intro h; cases h
        | cons x es ih =>
          intro h
          rw [ribElems] at h
          split at h
          · rcases List.mem_cons.mp h with rfl | h
            · rfl
            · exact ih h
          · cases h
      rw [this es he]
      exact hu.1

/-- **C109** The elements of a record that was read, whatever was read before: the prefix is a prefix. -/
theorem c109_read_record (hist : List MrtRecord) (r : MrtRecord) (hr : WasRead r) (e : BgpElem) (he : e ∈ elemsAfter hist r) :
    NetOk e.prefix_.prefix_ := by
  obtain ⟨table, ht⟩ : ∃ table, LastTable hist table := by
    rcases after_table hist Elementor.new with ⟨h1, _⟩ | ⟨t, h1, _⟩
    · exact ⟨_, h1⟩
    · exact ⟨_, h1⟩
  rw [c69_elements hist table ht r] at he
  obtain ⟨u, hu, he⟩ := List.mem_flatMap.mp he
  exact elemsOfUpdate_prefix (c108_read_record r hr u hu) he

theorem elemsFrom_read (rs : List MrtRecord) (hr : ∀ r ∈ rs, WasRead r) (e : BgpElem) : ∀ hist, e ∈ elemsFrom hist rs → NetOk e.prefix_.prefix_ := by
  induction rs with
  | nil => intro hist h; cases h
  | cons r rs ih =>
    intro hist h
    rw [elemsFrom] at h
    rcases List.mem_append.mp h with h | h
    · exact c109_read_record hist r (hr r (by simp)) e h
    · exact ih (fun x hx => hr x (by simp [hx])) _ h

/-- **C109** So are those of the element iterator, with any filters, over any reader. -/
theorem c109_iterator_prefix (env : TextEnv) (fs : List (Filter env.Rx)) (cd : Bool) (pol : Pol) (s : Src) (n : Nat) (e : BgpElem)
    (he : e ∈ (forLoop (elemNext env fs cd pol) n (ElemIter.new s)).1) : NetOk e.prefix_.prefix_ := by
  rw [(c37_elems env fs cd pol pol s _ (Nat.lt_succ_self _) n).1] at he
  exact elemsFrom_read _ (fun r hr => (c106_iterators keepAll () cd pol s _ r).2 (Nat.lt_succ_self _) hr) e []
    ((List.mem_filter.mp (List.mem_of_mem_take he)).1)

/-- **C109** Every element of the iterator, written as JSON, is read as `readAgain` says; as itself exactly if its path is kept and
its numbers are finite. -/
theorem c109_iterator (env : JsonEnv) (ok : JsonOk env) (fok : FloatOk env) (tenv : TextEnv) (fs : List (Filter tenv.Rx)) (cd : Bool)
    (pol : Pol) (s : Src) (n : Nat) (e : BgpElem) (he : e ∈ (forLoop (elemNext tenv fs cd pol) n (ElemIter.new s)).1) :
    elemOf env (elemJson env e) = readAgain e ∧ (elemOf env (elemJson env e) = some e ↔ PathKept e.asPath ∧ ElemFinite e) := by
  have hn := c109_iterator_prefix tenv fs cd pol s n e he
  exact ⟨c109_elem env ok fok e hn, (c109_same env ok fok e hn ⟨0, .announce, .v4 #v[0, 0, 0, 0], 0, e.prefix_, none⟩ hn).1⟩

/-! ### texts -/

theorem proper_zip {ks : List String} {vs : List Json} (hv : ∀ v ∈ vs, Proper v) (hk : ks.Nodup) : Proper (.obj (ks.zip vs)) := by
  refine proper_obj (fun kv hkv => hv _ (List.of_mem_zip hkv).2) (hk.sublist ?_)
  clear hv hk
  induction ks generalizing vs with
  | nil => simp
  | cons k ks ih =>
    cases vs with
    | nil => simp
    | cons v vs => simpa using ih

theorem proper_all_nil : ∀ v ∈ ([] : List Json), Proper v := fun _ h => nomatch h
theorem proper_all {v : Json} {vs : List Json} (h : Proper v) (hs : ∀ v ∈ vs, Proper v) : ∀ x ∈ v :: vs, Proper x :=
  List.forall_mem_cons.2 ⟨h, hs⟩
theorem proper_arr {vs : List Json} (h : ∀ v ∈ vs, Proper v) : Proper (.arr vs) := by
  simp only [Proper]
  exact (properItems_iff vs).2 h
theorem proper_list {f : α → Json} {xs : List α} (h : ∀ x ∈ xs, Proper (f x)) : Proper (.arr (xs.map f)) := by
  refine proper_arr fun v hv => ?_
  obtain ⟨y, hy, rfl⟩ := List.mem_map.1 hv
  exact h y hy
theorem proper_bool (b : Bool) : Proper (.bool b) := by simp only [Proper]
theorem proper_u64 (n : UInt64) : Proper (natJson n.toNat) := proper_nat n.toNat_lt
theorem proper_enum [BEq α] (t : List (α × String)) (x : α) : Proper (enumJson t x) := proper_str _
theorem proper_tag (k : String) {v : Json} (h : Proper v) : Proper (tagJson k v) := proper_one k h

theorem proper_tlv8 (t : Tlv8) : Proper (tlv8Json t) := proper_zip (proper_all (proper_u8 _) (proper_all (proper_bytes _) proper_all_nil)) (by decide)
theorem proper_tlv16 (t : Tlv16) : Proper (tlv16Json t) := proper_zip (proper_all (proper_u16 _) (proper_all (proper_bytes _) proper_all_nil)) (by decide)
theorem proper_subTlv (t : Tlv8) : Proper (subTlvJson t) := proper_zip (proper_all (proper_enum _ _) (proper_all (proper_bytes _) proper_all_nil)) (by decide)
theorem proper_aigp (t : AigpTlv) : Proper (aigpTlvJson t) :=
  proper_zip (proper_all (proper_u8 _) (proper_all (proper_u16 _) (proper_all (proper_bytes _) proper_all_nil))) (by decide)
theorem proper_tunnel (t : TunnelTlv) : Proper (tunnelTlvJson t) :=
  proper_zip (proper_all (proper_enum _ _) (proper_all (proper_map proper_subTlv _) proper_all_nil)) (by decide)
theorem proper_listJson (k : String) {f : α → Json} (h : ∀ x, Proper (f x)) (xs : List α) : Proper (listJson k f xs) :=
  proper_zip (proper_all (proper_map h xs) proper_all_nil) (by simp)

theorem proper_mapJson {table : List (UInt16 × String)} {codes : List UInt16} (ht : NamesOk table codes) {m : List (UInt16 × Bytes)}
    (h : LsMapOk codes m) : Proper (mapJson table m) := by
  refine proper_obj ?_ ?_
  · intro kv hkv
    obtain ⟨e, -, rfl⟩ := List.mem_map.1 hkv
    exact proper_bytes _
  · have h1 := List.pairwise_map.1 h.1
    rw [List.map_map]
    refine List.pairwise_map.2 (h1.imp_of_mem fun {a b} ha hb hab => fun he => hab ?_)
    have h2 := ht _ (h.2 a ha)
    have h3 := ht _ (h.2 b hb)
    simp only [Function.comp_apply] at he
    rw [he, h3] at h2
    exact (Option.some.inj h2).symm

theorem proper_lsAttr {a : LsAttr} (h : ValueOk (.linkState a)) : Proper (lsAttrJson a) := by
  obtain ⟨h1, h2, h3⟩ := h
  exact proper_zip (proper_all (proper_mapJson (by decide +kernel) h1) (proper_all (proper_mapJson (by decide +kernel) h2)
    (proper_all (proper_mapJson (by decide +kernel) h3) (proper_all (proper_map proper_tlv16 _) proper_all_nil)))) (by decide)

theorem proper_nodeDesc (d : NodeDesc) : Proper (nodeDescJson d) :=
  proper_zip (proper_all (proper_optJson (fun _ => proper_u32 _) _) (proper_all (proper_optJson (fun _ => proper_u32 _) _)
    (proper_all (proper_optJson (fun _ => proper_u32 _) _) (proper_all (proper_optJson proper_bytes _)
      (proper_all (proper_map proper_tlv16 _) proper_all_nil))))) (by decide)

theorem proper_linkDesc (env : JsonEnv) (d : LinkDesc) : Proper (linkDescJson env d) :=
  proper_zip (proper_all (proper_optJson (fun _ => proper_arr (proper_all (proper_u32 _) (proper_all (proper_u32 _) proper_all_nil))) _)
    (proper_all (proper_optJson (fun _ => proper_text _) _) (proper_all (proper_optJson (fun _ => proper_text _) _)
      (proper_all (proper_optJson (fun _ => proper_text _) _) (proper_all (proper_optJson (fun _ => proper_text _) _)
        (proper_all (proper_optJson (fun _ => proper_u16 _) _) (proper_all (proper_map proper_tlv16 _) proper_all_nil))))))) (by decide)

theorem proper_prefixDesc (env : JsonEnv) (d : PrefixDesc) : Proper (prefixDescJson env d) :=
  proper_zip (proper_all (proper_optJson (fun _ => proper_u16 _) _) (proper_all (proper_optJson (fun _ => proper_u8 _) _)
    (proper_all (proper_optJson (proper_prefix env) _) (proper_all (proper_map proper_tlv16 _) proper_all_nil)))) (by decide)

theorem proper_lsNlri (env : JsonEnv) (n : LsNlri) : Proper (lsNlriJson env n) :=
  proper_zip (proper_all (proper_enum _ _) (proper_all (proper_enum _ _) (proper_all (proper_u64 _) (proper_all (proper_nodeDesc _)
    (proper_all (proper_optJson proper_nodeDesc _) (proper_all (proper_optJson (proper_linkDesc env) _)
      (proper_all (proper_optJson (proper_prefixDesc env) _) proper_all_nil))))))) (by decide)

theorem proper_numOp (o : NumOp) : Proper (numOpJson o) :=
  proper_zip (proper_all (proper_bool _) (proper_all (proper_bool _) (proper_all (proper_u8 _) (proper_all (proper_bool _)
    (proper_all (proper_bool _) (proper_all (proper_bool _) (proper_all (proper_u64 _) proper_all_nil))))))) (by decide)

theorem proper_bitOp (o : BitOp) : Proper (bitOpJson o) :=
  proper_zip (proper_all (proper_bool _) (proper_all (proper_bool _) (proper_all (proper_u8 _) (proper_all (proper_bool _)
    (proper_all (proper_bool _) (proper_all (proper_u64 _) proper_all_nil)))))) (by decide)

theorem proper_fsComp (env : JsonEnv) (c : FsComp) : Proper (fsCompJson env c) := by
  have ho : ∀ o p, Proper (offsetJson env o p) := fun o p =>
    proper_zip (proper_all (proper_u8 _) (proper_all (proper_prefix env p) proper_all_nil)) (by decide)
  cases c with
  | dstPrefix p => exact proper_tag _ (proper_prefix env p)
  | srcPrefix p => exact proper_tag _ (proper_prefix env p)
  | numeric k ops => exact proper_tag _ (proper_map proper_numOp ops)
  | bitmask k ops => exact proper_tag _ (proper_map proper_bitOp ops)
  | dstPrefix6 o p => exact proper_tag _ (ho o p)
  | srcPrefix6 o p => exact proper_tag _ (ho o p)

theorem proper_labeled (env : JsonEnv) (p : LabeledPrefix) : Proper (labeledJson env p) :=
  proper_zip (proper_all (proper_text _) (proper_all (proper_map (fun _ => proper_u32 _) _)
    (proper_all (proper_optJson (fun _ => proper_u32 _) _) proper_all_nil))) (by decide)

theorem proper_nextHop (env : JsonEnv) (h : NextHop) : Proper (nextHopJson env h) := by
  cases h with
  | v4 a => exact proper_tag _ (proper_text _)
  | v6 a => exact proper_tag _ (proper_text _)
  | v6ll a b => exact proper_tag _ (proper_arr (proper_all (proper_text _) (proper_all (proper_text _) proper_all_nil)))
  | vpn6 r a => exact proper_tag _ (proper_arr (proper_all (proper_bytes _) (proper_all (proper_text _) proper_all_nil)))
  | vpn6ll r a s b =>
    exact proper_tag _ (proper_arr (proper_all (proper_bytes _) (proper_all (proper_text _) (proper_all (proper_bytes _)
      (proper_all (proper_text _) proper_all_nil)))))

theorem proper_nlri (env : JsonEnv) (n : Nlri) : Proper (nlriJson env n) :=
  proper_zip (proper_all (proper_enum _ _) (proper_all (proper_enum _ _) (proper_all (proper_optJson (proper_nextHop env) _)
    (proper_all (proper_map (proper_prefix env) _) (proper_all (proper_optJson (fun _ => proper_map (proper_labeled env) _) _)
      (proper_all (proper_optJson (fun _ => proper_map (proper_lsNlri env) _) _)
        (proper_all (proper_optJson (fun _ => proper_map (proper_listJson _ (proper_fsComp env)) _) _) proper_all_nil))))))) (by decide)

theorem proper_te (env : JsonEnv) (nok : NumbersOk env) (t : TrafficEng) : Proper (teJson env t) :=
  proper_zip (proper_all (proper_u8 _) (proper_all (proper_u8 _) (proper_all (proper_u16 _)
    (proper_all (proper_map (fun r => (nok.f32 r).1) _) (proper_all (proper_bytes _) proper_all_nil))))) (by decide)

theorem proper_bfd (b : Bfd) : Proper (bfdJson b) :=
  proper_zip (proper_all (proper_u8 _) (proper_all (proper_u32 _) (proper_all (proper_map proper_tlv8 _) proper_all_nil))) (by decide)

theorem proper_attrVal (env : JsonEnv) (nok : NumbersOk env) (v : AttrVal) (h : ValueOk v) : Proper (attrValJson env v) := by
  have hg : ∀ a i, Proper (aggrJson a i) := fun a i =>
    proper_zip (proper_all (proper_asn _) (proper_all (proper_text _) proper_all_nil)) (by decide)
  cases v with
  | origin o => exact proper_tag _ (proper_origin o)
  | asPath p => exact proper_tag _ (proper_path p)
  | as4Path p => exact proper_tag _ (proper_path p)
  | nextHop a => exact proper_tag _ (proper_text _)
  | med v => exact proper_tag _ (proper_u32 v)
  | localPref v => exact proper_tag _ (proper_u32 v)
  | otc a => exact proper_tag _ (proper_asn a)
  | atomic => exact proper_str _
  | aggregator a i => exact proper_tag _ (hg a i)
  | as4Aggregator a i => exact proper_tag _ (hg a i)
  | communities cs => exact proper_tag _ (proper_map (fun c => proper_community env nok (.plain c)) cs)
  | extCommunities cs => exact proper_tag _ (proper_map (fun c => proper_community env nok (.extended c)) cs)
  | ipv6ExtCommunities cs => exact proper_tag _ (proper_map (fun c => proper_community env nok (.ipv6Extended c)) cs)
  | largeCommunities cs => exact proper_tag _ (proper_map (fun c => proper_community env nok (.large c)) cs)
  | originatorId i => exact proper_tag _ (proper_text _)
  | clusters cs => exact proper_tag _ (proper_map (fun c => proper_u32 c) cs)
  | mpReach n => exact proper_tag _ (proper_nlri env n)
  | mpUnreach n => exact proper_tag _ (proper_nlri env n)
  | linkState a => exact proper_tag _ (proper_lsAttr h)
  | tunnel ts => exact proper_tag _ (proper_listJson _ proper_tunnel ts)
  | trafficEng t => exact proper_tag _ (proper_te env nok t)
  | bfd b => exact proper_tag _ (proper_bfd b)
  | prefixSid ts => exact proper_tag _ (proper_listJson _ proper_tlv8 ts)
  | bier ts => exact proper_tag _ (proper_listJson _ proper_tlv16 ts)
  | sfp ts => exact proper_tag _ (proper_listJson _ proper_tlv8 ts)
  | development b => exact proper_tag _ (proper_bytes b)
  | raw c b => exact proper_tag _ (proper_attrRaw _)
  | deprecated c b => exact proper_tag _ (proper_attrRaw _)
  | unknown c b => exact proper_tag _ (proper_attrRaw _)
  | aigp ts => exact proper_tag _ (proper_listJson _ proper_aigp ts)
  | attrSet _ _ => exact h.elim

theorem proper_attributes (env : JsonEnv) (nok : NumbersOk env) (a : Attributes) (h : AttributesOk a) : Proper (attributesJson env a) :=
  proper_list fun x hx => proper_zip (proper_all (proper_attrVal env nok _ (h x hx)) (proper_all (proper_text _) proper_all_nil)) (by decide)

theorem proper_update (env : JsonEnv) (nok : NumbersOk env) (u : Update) (h : UpdateTyped u) : Proper (updateJson env u) :=
  proper_zip (proper_all (proper_map (proper_prefix env) _) (proper_all (proper_attributes env nok _ h.attributes)
    (proper_all (proper_map (proper_prefix env) _) proper_all_nil))) (by decide)

theorem proper_mrtUpdate (env : JsonEnv) (nok : NumbersOk env) (m : MrtUpdate) (h : MrtUpdateTyped m) : Proper (mrtUpdateJson env m) := by
  cases m with
  | bgp4mp t i n u =>
    exact proper_tag _ (proper_zip (proper_all (nok.time t).1 (proper_all (proper_text _) (proper_all (proper_asn _)
      (proper_all (proper_update env nok u h) proper_all_nil)))) (by decide))
  | legacy t i n li ln u =>
    exact proper_tag _ (proper_zip (proper_all (nok.time t).1 (proper_all (proper_text _) (proper_all (proper_asn _)
      (proper_all (proper_text _) (proper_all (proper_asn _) (proper_all (proper_update env nok u h) proper_all_nil)))))) (by decide))
  | rib t y s p es =>
    refine proper_tag _ (proper_zip (proper_all (nok.time t).1 (proper_all (proper_enum _ _) (proper_all (proper_u32 _)
      (proper_all (proper_prefix env p) (proper_all (proper_list fun e he => ?_) proper_all_nil))))) (by decide))
    exact proper_zip (proper_all (proper_u16 _) (proper_all (proper_u32 _) (proper_all (proper_optJson (fun _ => proper_u32 _) _)
      (proper_all (proper_attributes env nok _ (h.2 e he)) proper_all_nil)))) (by decide)
  | tableDump m =>
    exact proper_tag _ (proper_zip (proper_all (proper_u16 _) (proper_all (proper_u16 _) (proper_all (proper_prefix env _)
      (proper_all (proper_u8 _) (proper_all (proper_u64 _) (proper_all (proper_text _) (proper_all (proper_asn _)
        (proper_all (proper_attributes env nok _ h.2) proper_all_nil)))))))) (by decide))

variable {wr : Rat → List Char} {rd : List Char → Option Rat}

/-- **C109** The three JSON texts of an element: by `to_string`, and those of the command. -/
theorem c109_texts (rok : RealText wr rd) (env : JsonEnv) (ok : JsonOk env) (nok : NumbersOk env) (fok : FloatOk env) (e : BgpElem)
    (hn : NetOk e.prefix_.prefix_) :
    (readJson rd (jsonText wr (elemJson env e))).bind (elemOf env) = readAgain e ∧
    (readJson rd (elemJsonText wr env e)).bind (elemOf env) = readAgain e ∧
    (readJson rd (elemJsonPretty wr env e)).bind (elemOf env) = readAgain e := by
  have hd := proper_elem env nok e
  have h0 := c109_elem env ok fok e hn
  rw [jsonText, elemJsonText, elemJsonPretty, c98_text rok _ _ hd, (c98_value rok _ hd).1, (c98_value rok _ hd).2.1]
  simp only [Option.bind_some, stable_elem env nok _ hd, h0, and_self]

/-- **C109** The JSON text of an announcement, compact or pretty: read, it is the announcement, but for what C108 says is lost, if its
numbers are finite; else it is not read. -/
theorem c109_announcement (rok : RealText wr rd) (env : JsonEnv) (ok : JsonOk env) (nok : NumbersOk env) (fok : FloatOk env) (m : MrtUpdate)
    (hm : MrtUpdateTyped m) (st : JsonStyle) :
    ((∀ a ∈ mrtAttributeLists m, FloatsFinite a) →
      (readJson rd (writeJson wr st 0 (mrtUpdateJson env m))).bind (mrtUpdateOf env) = some (onMrtUpdate attributesRead m)) ∧
    (¬ (∀ a ∈ mrtAttributeLists m, FloatsFinite a) →
      (readJson rd (writeJson wr st 0 (mrtUpdateJson env m))).bind (mrtUpdateOf env) = none) ∧
    ((readJson rd (writeJson wr st 0 (mrtUpdateJson env m))).bind (mrtUpdateOf env) = some m ↔ ∀ a ∈ mrtAttributeLists m, AttrsKept a) := by
  rw [c98_text rok st _ (proper_mrtUpdate env nok m hm), Option.bind_some]
  obtain ⟨h1, h2⟩ := c108_announcement_partial env ok fok m hm
  exact ⟨h1, h2, c108_announcement_same env ok fok m hm⟩

/-- **C109** So for every announcement of a record that was read. -/
theorem c109_read_announcements (rok : RealText wr rd) (env : JsonEnv) (ok : JsonOk env) (nok : NumbersOk env) (fok : FloatOk env)
    (r : MrtRecord) (hr : WasRead r) (m : MrtUpdate) (hm : m ∈ updatesOf r) (st : JsonStyle) :
    (readJson rd (writeJson wr st 0 (mrtUpdateJson env m))).bind (mrtUpdateOf env) = some m ↔ ∀ a ∈ mrtAttributeLists m, AttrsKept a :=
  (c109_announcement rok env ok nok fok m (c108_read_record r hr m hm) st).2.2

theorem map_lines {f : List Char → Option α} {g : β → List Char} {h : β → Option α} (es : List β) (hg : ∀ e, '\n' ∉ g e)
    (hf : ∀ e ∈ es, f (g e) = h e) : (textLines (linesText (es.map g))).map f = es.map h := by
  rw [textLines_lines _ (fun l hl => by obtain ⟨e, -, rfl⟩ := List.mem_map.1 hl; exact hg e), List.map_map]
  exact List.map_congr_left fun e he => hf e he

theorem lines_again (rok : RealText wr rd) (env : JsonEnv) (ok : JsonOk env) (nok : NumbersOk env) (fok : FloatOk env) (sh : ShowEnv)
    (oe : OutEnv) (ho : oe.elemJson = elemJsonText wr env) (es : List BgpElem) (h : ∀ e ∈ es, NetOk e.prefix_.prefix_) :
    (textLines (linesText (elemLines sh oe .json es))).map (fun l => (readJson rd l).bind (elemOf env)) = es.map readAgain := by
  have h0 : elemLines sh oe .json es = es.map (elemJsonText wr env) := by
    simp only [elemLines, reduceCtorEq, false_and, if_false, List.nil_append]
    refine List.map_congr_left fun e _ => ?_
    rw [elemLine, ho]
  have h1 : ∀ e, '\n' ∉ elemJsonText wr env e := fun e => (c98_one_line rok (elemJson env e)).2
  have h2 : ∀ e ∈ es, (readJson rd (elemJsonText wr env e)).bind (elemOf env) = readAgain e :=
    fun e he => (c109_texts rok env ok nok fok e (h e he)).2.1
  rw [h0]
  generalize elemJsonText wr env = g at h1 h2
  exact map_lines es h1 h2

/-- **C109** What the command writes for a file in the JSON format, cut into lines and each line read as JSON, is the list of the
elements of the file that pass the filters, each as `readAgain` says: all of them, or those before a write was refused. -/
theorem c109_command (rok : RealText wr rd) (env : JsonEnv) (ok : JsonOk env) (nok : NumbersOk env) (fok : FloatOk env)
    (tenv : TextEnv) (sh : ShowEnv) (oe : OutEnv) (hoe : oe.elemJson = elemJsonText wr env) (w : Nat → WriteRes) (pol pol' : Pol)
    (fo : FilterOpts) (o : CliOpts) (s : Src) (fs : List (Filter tenv.Rx)) (hfs : fo.all tenv sh = .ok fs)
    (ho : o.hex = false ∧ o.counting = false ∧ o.records = false ∧ o.out = .json ∧ o.recover = false)
    (m n : Nat) (hm : (toks s.evs).length < m) :
    let wanted := (elemsFrom [] (forLoop (defaultIter keepAll false pol') m ((), s)).1).filter fun e => e.matchFilters tenv fs
    wanted.length < n →
    ∃ r, cliMain tenv sh oe w pol n fo o s = .ok r ∧
      ∃ k ≤ wanted.length, (∀ i < k, w i = .ok) ∧ (k = wanted.length ∨ w k ≠ .ok) ∧
        (textLines (stdoutOf r)).map (fun l => (readJson rd l).bind (elemOf env)) = (wanted.take k).map readAgain := by
  intro wanted hn
  obtain ⟨r, h1, h2⟩ := c85_main_elements tenv sh oe w pol pol' fo o s fs hfs
    ⟨ho.1, ho.2.1, ho.2.2.1, by rw [ho.2.2.2.1]; decide, ho.2.2.2.2⟩ m n hm hn
  refine ⟨r, h1, ?_⟩
  rw [ho.2.2.2.1] at h2
  have hk : ∀ k, ∀ e ∈ wanted.take k, NetOk e.prefix_.prefix_ := fun k e he =>
    elemsFrom_read _ (fun r hr => (c106_iterators keepAll () false pol' s _ r).2 hm hr) e [] ((List.mem_filter.mp (List.mem_of_mem_take he)).1)
  rcases h2 with ⟨h1, h2, -⟩ | ⟨k, h1, h2, h3, h4, -⟩
  · exact ⟨_, Nat.le_refl _, h1, .inl rfl, by rw [h2, lines_again rok env ok nok fok sh oe hoe _ (hk _)]⟩
  · refine ⟨k, Nat.le_of_lt h1, h2, .inr ?_, by rw [h3, lines_again rok env ok nok fok sh oe hoe _ (hk _)]⟩
    rcases h4 with ⟨h4, -⟩ | ⟨h4, -⟩ <;> rw [h4] <;> decide

/-! ### examples -/

theorem textEnv_float : FloatOk textEnv := { write := jsonEnv_nan.write, read := jsonEnv_nan.read, finite := jsonEnv_f32 }

/-- a path in the flat form with an empty sequence, which is lost. -/
example : elemOf jsonEnv (elemJson jsonEnv { exShown with asPath := some [.set [2], .seq []] }) = some { exShown with asPath := some [.set [2]] } := by
  rw [c109_elem jsonEnv jsonEnv_ok jsonEnv_float _ (by unfold NetOk; decide), readAgain, if_pos, elemRead]
  · have hf : Flat [.set [2], .seq []] :=
      flat_append_seq (p := [.set [2]]) (flat_append_set (p := []) ⟨by simp, by rintro ⟨a, _, _, _, h⟩; cases a <;> cases h⟩ [2]) (by simp [NoLastSeq]) []
    simp [pathRead, hf]
  · intro cs hcs c hc r hr
    simp only [exShown, Option.some.injEq] at hcs
    subst hcs
    simp only [List.mem_cons, List.not_mem_nil, or_false] at hc
    rcases hc with rfl | rfl | rfl <;> simp [communityFloat] at hr
    subst hr
    unfold FiniteF32
    decide

/-- a file with a peer table and a RIB record: its one element is written, and read back from its three texts. -/
example (env : TextEnv) : ∃ wr rd e, (forLoop (elemNext env [] false (fun n _ => n)) 9 (ElemIter.new (c101Src (c101Table.bytes ++ c101Rib.bytes)))).1 = [e] ∧
    e.peerAsn = 7 ∧ ∀ t, t = jsonText wr (elemJson textEnv e) ∨ t = elemJsonText wr textEnv e ∨ t = elemJsonPretty wr textEnv e →
      (readJson rd t).bind (elemOf textEnv) = readAgain e := by
  have h := (c101_not_independent env).2.2.1
  have hp := c109_iterator_prefix env [] false (fun n _ => n) (c101Src (c101Table.bytes ++ c101Rib.bytes)) 9
  revert h hp
  generalize (forLoop (elemNext env [] false (fun n _ => n)) 9 (ElemIter.new (c101Src (c101Table.bytes ++ c101Rib.bytes)))).1 = l
  intro h hp
  obtain ⟨wr, rd, ok⟩ := realText_met
  obtain ⟨e, rfl, he⟩ := List.map_eq_singleton_iff.mp h
  have := c109_texts ok textEnv textEnv_ok textEnv_numbers textEnv_float e (hp e (by simp))
  refine ⟨wr, rd, e, rfl, he, ?_⟩
  intro t ht
  refine ht.elim (fun h => h ▸ this.1) fun ht => ht.elim (fun h => h ▸ this.2.1) fun h => h ▸ this.2.2

end Verif.Props
