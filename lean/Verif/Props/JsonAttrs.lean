import Verif.Lemmas.JsonAttrs
import Verif.Props.Json
/-
**C108**: JSON of path attributes, UPDATE messages, RIB entries and announcements.
-/
namespace Verif.Props
open Spec

/-! ### values -/

theorem list_as {f : Json → Option α} {g : β → Json} {h : β → α} {xs : List β} (hx : ∀ x ∈ xs, f (g x) = some (h x)) :
    Json.list f (.arr (xs.map g)) = some (xs.map h) := by
  show (xs.map g).mapM f = _
  induction xs with
  | nil => rfl
  | cons x xs ih => simp [List.mapM_cons, hx x (by simp), ih fun y hy => hx y (by simp [hy])]

theorem list_lost {f : Json → Option α} {g : β → Json} {xs : List β} {x : β} (hx : x ∈ xs) (h : f (g x) = none) :
    Json.list f (.arr (xs.map g)) = none := mapM_none (List.mem_map_of_mem hx) h

theorem path_read (p : AsPath) : asPathOf (asPathJson p) = some (pathRead p) := by
  unfold pathRead
  split
  · rename_i h
    exact asPath_flat h
  · rename_i h
    exact asPath_kept fun hf => absurd hf h

theorem ext_lost {env : JsonEnv} (nn : NullForNaN env) {c : ExtCommunity} {r : UInt32} (hc : communityFloat (.extended c) = some r)
    (hr : ¬ FiniteF32 r) : extOf env (extJson env c) = none := by
  have := ext_float_lost nn hc hr
  cases h : extOf env (extJson env c) with
  | none => rfl
  | some c' => simp [communityOf, communityJson, ext_not_plain, h] at this

set_option maxHeartbeats 2000000 in
/-- **C108** A value whose numbers are finite is read as it was written, but for the sequences without AS numbers of a path in the
flat form (C79). -/
theorem c108_value_partial (env : JsonEnv) (ok : JsonOk env) (fok : FloatOk env) (v : AttrVal) (hv : ValueOk v)
    (hf : ∀ r ∈ valueFloats v, FiniteF32 r) : attrValOf env (attrValJson env v) = some (valueRead v) := by
  cases v with
  | origin o => simp [attrValOf, attrValJson, valueRead, tagJson, Json.variant, origin_kept]
  | asPath p => simp [attrValOf, attrValJson, valueRead, tagJson, Json.variant, path_read]
  | as4Path p => simp [attrValOf, attrValJson, valueRead, tagJson, Json.variant, path_read]
  | nextHop a => simp [attrValOf, attrValJson, valueRead, tagJson, Json.variant, viaText_text, ok.ip]
  | med n => simp [attrValOf, attrValJson, valueRead, tagJson, Json.variant, u32_nat]
  | localPref n => simp [attrValOf, attrValJson, valueRead, tagJson, Json.variant, u32_nat]
  | otc n => simp [attrValOf, attrValJson, valueRead, tagJson, Json.variant, u32_asn]
  | atomic => simp [attrValOf, attrValJson, valueRead, Json.variant, Json.isUnit]
  | aggregator a i => simp [attrValOf, attrValJson, valueRead, tagJson, Json.variant, aggr_kept ok]
  | as4Aggregator a i => simp [attrValOf, attrValJson, valueRead, tagJson, Json.variant, aggr_kept ok]
  | communities cs =>
    simp [attrValOf, attrValJson, valueRead, tagJson, Json.variant, list_map (f := plainOfJson) fun c _ => plain_kept c]
  | extCommunities cs =>
    have := list_map (f := extOf env) (g := extJson env) (xs := cs) fun c hc => ext_kept ok c fun r hr =>
      fok.finite r (hf r (List.mem_filterMap.mpr ⟨c, hc, hr⟩))
    simp [attrValOf, attrValJson, valueRead, tagJson, Json.variant, this]
  | ipv6ExtCommunities cs =>
    simp [attrValOf, attrValJson, valueRead, tagJson, Json.variant, list_map (f := ipv6ExtOf env) fun c _ => ipv6Ext_kept ok c]
  | largeCommunities cs =>
    simp [attrValOf, attrValJson, valueRead, tagJson, Json.variant, list_map (f := largeOfJson) fun c _ => large_kept c]
  | originatorId i => simp [attrValOf, attrValJson, valueRead, tagJson, Json.variant, viaText_text, ok.v4]
  | clusters cs =>
    simp [attrValOf, attrValJson, valueRead, tagJson, Json.variant, list_map (f := Json.u32) fun (n : UInt32) _ => u32_nat n]
  | mpReach n => simp [attrValOf, attrValJson, valueRead, tagJson, Json.variant, nlri_kept ok n hv]
  | mpUnreach n => simp [attrValOf, attrValJson, valueRead, tagJson, Json.variant, nlri_kept ok n hv]
  | linkState a => simp [attrValOf, attrValJson, valueRead, tagJson, Json.variant, lsAttr_kept hv]
  | tunnel ts =>
    simp [attrValOf, attrValJson, valueRead, tagJson, Json.variant,
      listOf_kept (f := tunnelTlvOf) "tunnel_tlvs" fun t ht => tunnelTlv_kept t (hv t ht).1 (hv t ht).2]
  | trafficEng t => simp [attrValOf, attrValJson, valueRead, tagJson, Json.variant, te_kept t fun r hr => fok.finite r (hf r hr)]
  | bfd b => simp [attrValOf, attrValJson, valueRead, tagJson, Json.variant, bfd_kept]
  | prefixSid ts =>
    simp [attrValOf, attrValJson, valueRead, tagJson, Json.variant, listOf_kept (f := tlv8Of) "tlvs" fun t _ => tlv8_kept t]
  | bier ts =>
    simp [attrValOf, attrValJson, valueRead, tagJson, Json.variant, listOf_kept (f := tlv16Of) "tlvs" fun t _ => tlv16_kept t]
  | sfp ts =>
    simp [attrValOf, attrValJson, valueRead, tagJson, Json.variant, listOf_kept (f := tlv8Of) "tlvs" fun t _ => tlv8_kept t]
  | development b => simp [attrValOf, attrValJson, valueRead, tagJson, Json.variant, bytesOf, list_bytes]
  | raw c b => simp [attrValOf, attrValJson, valueRead, tagJson, Json.variant, attrRaw_kept]
  | deprecated c b => simp [attrValOf, attrValJson, valueRead, tagJson, Json.variant, attrRaw_kept]
  | unknown c b => simp [attrValOf, attrValJson, valueRead, tagJson, Json.variant, attrRaw_kept]
  | aigp ts =>
    simp [attrValOf, attrValJson, valueRead, tagJson, Json.variant, listOf_kept (f := aigpTlvOf) "tlvs" fun t _ => aigpTlv_kept t]
  | attrSet o p => exact hv.elim

/-- **C108** The document of a value with a number that is infinite or NaN is not read at all. -/
theorem c108_violation_floats (env : JsonEnv) (nn : NullForNaN env) (v : AttrVal) (r : UInt32) (hr : r ∈ valueFloats v)
    (hi : ¬ FiniteF32 r) : attrValOf env (attrValJson env v) = none := by
  cases v with
  | extCommunities cs =>
    obtain ⟨c, hc, h⟩ := List.mem_filterMap.mp hr
    have := list_lost (f := extOf env) (g := extJson env) hc (ext_lost nn h hi)
    simp [attrValOf, attrValJson, tagJson, Json.variant, this]
  | trafficEng t =>
    have h1 : Json.list env.f32Of (.arr (t.bandwidth.toList.map env.f32)) = none :=
      list_lost hr (by rw [nn.write r hi, nn.read])
    have h2 : teOf env (teJson env t) = none := by
      unfold teOf teJson
      rw [fields_zip (by decide) rfl]
      simp [Json.req, u8_nat, u16_nat, floats8Of, h1]
    simp [attrValOf, attrValJson, tagJson, Json.variant, h2]
  | _ => simp [valueFloats] at hr

/-- **C108** The value that is read is the one that was written exactly if its path is kept (C79). -/
theorem c108_path (v : AttrVal) : valueRead v = v ↔ PathKept (valuePath v) := by
  have hp : ∀ p : AsPath, pathRead p = p ↔ (Flat p → ¬ HasEmptySeq p) := by
    intro p
    unfold pathRead
    by_cases h : Flat p
    · rw [if_pos h, List.filter_eq_self]
      simp only [h, forall_const, HasEmptySeq]
      constructor
      · intro hs he; simpa using hs _ he
      · intro he s hs; simp only [decide_eq_true_eq, ne_eq]; intro e; exact he (e ▸ hs)
    · simp [h]
  cases v with
  | asPath p => simp [valueRead, valuePath, PathKept, hp]
  | as4Path p => simp [valueRead, valuePath, PathKept, hp]
  | _ => simp [valueRead, valuePath, PathKept]

/-! ### attributes and messages -/

theorem valueRead_code (v : AttrVal) : (valueRead v).code = v.code := by cases v <;> rfl

theorem mask_read (xs : List Attribute) :
    Attributes.computeMask (xs.map fun x => { x with value := valueRead x.value }) = Attributes.computeMask xs := by
  unfold Attributes.computeMask
  rw [List.foldl_map]
  simp only [valueRead_code]

theorem attribute_read {env : JsonEnv} (ok : JsonOk env) (fok : FloatOk env) (x : Attribute) (hv : ValueOk x.value)
    (hf : ∀ r ∈ valueFloats x.value, FiniteF32 r) : attributeOf env (attributeJson env x) = some { x with value := valueRead x.value } := by
  unfold attributeOf attributeJson
  rw [fields_zip (by decide) rfl]
  simp [Json.req, viaText_text, flags_kept, c108_value_partial env ok fok x.value hv hf]

theorem attribute_lost {env : JsonEnv} (nn : NullForNaN env) (x : Attribute) {r : UInt32} (hr : r ∈ valueFloats x.value) (hi : ¬ FiniteF32 r) :
    attributeOf env (attributeJson env x) = none := by
  unfold attributeOf attributeJson
  rw [fields_zip (by decide) rfl]
  simp [Json.req, viaText_text, flags_kept, c108_violation_floats env nn x.value r hr hi]

/-- **C108** A list of attributes is read as the same attributes in the same order with the same flags and the same set of types,
without the warnings of the parser and the lost parts of paths. -/
theorem c108_attributes_partial (env : JsonEnv) (ok : JsonOk env) (fok : FloatOk env) (a : Attributes) (ha : AttributesOk a) :
    (FloatsFinite a → attributesOf env (attributesJson env a) = some (attributesRead a)) ∧
    (¬ FloatsFinite a → attributesOf env (attributesJson env a) = none) := by
  constructor
  · intro hf
    have := list_as (f := attributeOf env) (g := attributeJson env) (h := fun x => { x with value := valueRead x.value }) (xs := a.inner)
      fun x hx => attribute_read ok fok x (ha x hx) (hf x hx)
    simp only [attributesOf, attributesJson, this, Option.map_some, attributesRead, mask_read]
  · intro hf
    simp only [FloatsFinite, Classical.not_forall] at hf
    obtain ⟨x, hx, r, hr, hi⟩ := hf
    have := list_lost (f := attributeOf env) (g := attributeJson env) hx (attribute_lost fok.toNullForNaN x hr hi)
    simp only [attributesOf, attributesJson, this, Option.map_none]

/-- **C108** An UPDATE message is read as the same prefixes, and attributes as above. -/
theorem c108_update_partial (env : JsonEnv) (ok : JsonOk env) (fok : FloatOk env) (m : Update) (hm : UpdateTyped m) :
    (FloatsFinite m.attributes → updateOf env (updateJson env m) = some (onUpdate attributesRead m)) ∧
    (¬ FloatsFinite m.attributes → updateOf env (updateJson env m) = none) := by
  have h := c108_attributes_partial env ok fok m.attributes hm.attributes
  unfold updateOf updateJson
  rw [fields_zip (by decide) rfl]
  constructor
  · intro hf
    simp [Json.req, prefixes_kept ok hm.withdrawn, prefixes_kept ok hm.announced, h.1 hf, onUpdate]
  · intro hf
    simp [Json.req, prefixes_kept ok hm.withdrawn, h.2 hf]

/-- **C108** The same for a RIB entry. -/
theorem c108_rib_entry_partial (env : JsonEnv) (ok : JsonOk env) (fok : FloatOk env) (e : RibEntry) (he : AttributesOk e.attributes) :
    (FloatsFinite e.attributes → ribEntryOf env (ribEntryJson env e) = some (onRibEntry attributesRead e)) ∧
    (¬ FloatsFinite e.attributes → ribEntryOf env (ribEntryJson env e) = none) := by
  have h := c108_attributes_partial env ok fok e.attributes he
  unfold ribEntryOf ribEntryJson
  rw [fields_zip (by decide) rfl]
  constructor
  · intro hf
    simp [Json.req, u16_nat, u32_nat, u32_opt, h.1 hf, onRibEntry]
  · intro hf
    simp [Json.req, u16_nat, u32_nat, u32_opt, h.2 hf]

/-- **C108** The same for each kind of announcement. -/
theorem c108_announcement_partial (env : JsonEnv) (ok : JsonOk env) (fok : FloatOk env) (m : MrtUpdate) (hm : MrtUpdateTyped m) :
    ((∀ a ∈ mrtAttributeLists m, FloatsFinite a) → mrtUpdateOf env (mrtUpdateJson env m) = some (onMrtUpdate attributesRead m)) ∧
    (¬ (∀ a ∈ mrtAttributeLists m, FloatsFinite a) → mrtUpdateOf env (mrtUpdateJson env m) = none) := by
  cases m with
  | bgp4mp t i n u =>
    have h := c108_update_partial env ok fok u hm
    simp only [mrtAttributeLists, List.mem_singleton, forall_eq, mrtUpdateOf, mrtUpdateJson, tagJson, Json.variant, Option.bind_eq_bind,
      Option.bind_some, ↓reduceIte]
    rw [fields_zip (by decide) rfl]
    constructor <;> intro hf
    · simp [Json.req, ok.time, viaText_text, ok.ip, u32_asn, h.1 hf, onMrtUpdate]
    · simp [Json.req, ok.time, viaText_text, ok.ip, u32_asn, h.2 hf]
  | legacy t i n li ln u =>
    have h := c108_update_partial env ok fok u hm
    simp only [mrtAttributeLists, List.mem_singleton, forall_eq, mrtUpdateOf, mrtUpdateJson, tagJson, Json.variant, Option.bind_eq_bind,
      Option.bind_some, String.reduceEq, ↓reduceIte]
    rw [fields_zip (by decide) rfl]
    constructor <;> intro hf
    · simp [Json.req, ok.time, viaText_text, ok.ip, u32_asn, h.1 hf, onMrtUpdate]
    · simp [Json.req, ok.time, viaText_text, ok.ip, u32_asn, h.2 hf]
  | rib t y s p es =>
    simp only [mrtAttributeLists, mrtUpdateOf, mrtUpdateJson, tagJson, Json.variant, Option.bind_eq_bind,
      Option.bind_some, String.reduceEq, ↓reduceIte]
    rw [fields_zip (by decide) rfl]
    constructor <;> intro hf
    · have := list_as (f := ribEntryOf env) (g := ribEntryJson env) (h := onRibEntry attributesRead) (xs := es) fun e he =>
        (c108_rib_entry_partial env ok fok e (hm.2 e he)).1 (hf _ (List.mem_map_of_mem he))
      simp [Json.req, ok.time, v2_kept, u32_nat, prefix_kept ok p hm.1, this, onMrtUpdate]
    · simp only [List.mem_map, forall_exists_index, and_imp, forall_apply_eq_imp_iff₂, Classical.not_forall] at hf
      obtain ⟨e, he, hf⟩ := hf
      have := list_lost (f := ribEntryOf env) (g := ribEntryJson env) he ((c108_rib_entry_partial env ok fok e (hm.2 e he)).2 hf)
      simp [Json.req, ok.time, v2_kept, u32_nat, prefix_kept ok p hm.1, this]
  | tableDump d =>
    have h := c108_attributes_partial env ok fok d.attributes hm.2
    simp only [mrtAttributeLists, List.mem_singleton, forall_eq, mrtUpdateOf, mrtUpdateJson, tagJson, Json.variant, Option.bind_eq_bind,
      Option.bind_some, String.reduceEq, ↓reduceIte, tableDumpOf, tableDumpJson]
    rw [fields_zip (by decide) rfl]
    constructor <;> intro hf
    · simp [Json.req, viaText_text, ok.ip, u32_asn, u16_nat, u8_nat, u64_nat, prefix_kept ok _ hm.1, h.1 hf, onMrtUpdate]
    · simp [Json.req, viaText_text, ok.ip, u32_asn, u16_nat, u8_nat, u64_nat, prefix_kept ok _ hm.1, h.2 hf]

/-! ### when nothing is lost -/

theorem attributesRead_same (a : Attributes) : attributesRead a = a ↔
    a.warnings = [] ∧ a.mask = Attributes.computeMask a.inner ∧ ∀ x ∈ a.inner, PathKept (valuePath x.value) := by
  obtain ⟨inner, ws, mask⟩ := a
  have hm : inner.map (fun x => { x with value := valueRead x.value }) = inner ↔ ∀ x ∈ inner, PathKept (valuePath x.value) := by
    induction inner with
    | nil => simp
    | cons x xs ih =>
      simp only [List.map_cons, List.cons.injEq, ih, List.mem_cons, forall_eq_or_imp]
      obtain ⟨f, v⟩ := x
      simp [c108_path]
  simp only [attributesRead, Attributes.mk.injEq, hm]
  constructor
  · rintro ⟨h1, h2, h3⟩; exact ⟨h2.symm, h3.symm, h1⟩
  · rintro ⟨h1, h2, h3⟩; exact ⟨h3, h1.symm, h2.symm⟩

theorem attrsKept_iff (a : Attributes) : AttrsKept a ↔ FloatsFinite a ∧ attributesRead a = a := by
  rw [attributesRead_same]
  exact ⟨fun ⟨h1, h2, h3, h4⟩ => ⟨h1, h2, h3, h4⟩, fun ⟨h1, h2, h3, h4⟩ => ⟨h1, h2, h3, h4⟩⟩

/-- **C108** A list of attributes is read as itself exactly if JSON keeps it. -/
theorem c108_attributes_same (env : JsonEnv) (ok : JsonOk env) (fok : FloatOk env) (a : Attributes) (ha : AttributesOk a) :
    attributesOf env (attributesJson env a) = some a ↔ AttrsKept a := by
  obtain ⟨h1, h2⟩ := c108_attributes_partial env ok fok a ha
  rw [attrsKept_iff]
  by_cases hf : FloatsFinite a
  · rw [h1 hf]; simp [hf]
  · rw [h2 hf]; simp [hf]

/-- **C108** An announcement is read as itself exactly if JSON keeps its attributes. -/
theorem c108_announcement_same (env : JsonEnv) (ok : JsonOk env) (fok : FloatOk env) (m : MrtUpdate) (hm : MrtUpdateTyped m) :
    mrtUpdateOf env (mrtUpdateJson env m) = some m ↔ ∀ a ∈ mrtAttributeLists m, AttrsKept a := by
  obtain ⟨h1, h2⟩ := c108_announcement_partial env ok fok m hm
  have hs : onMrtUpdate attributesRead m = m ↔ ∀ a ∈ mrtAttributeLists m, attributesRead a = a := by
    cases m with
    | bgp4mp t i n u => obtain ⟨w, a, p⟩ := u; simp [onMrtUpdate, mrtAttributeLists, onUpdate]
    | legacy t i n li ln u => obtain ⟨w, a, p⟩ := u; simp [onMrtUpdate, mrtAttributeLists, onUpdate]
    | tableDump d => cases d; simp [onMrtUpdate, mrtAttributeLists]
    | rib t y s p es =>
      simp only [onMrtUpdate, mrtAttributeLists, MrtUpdate.rib.injEq, true_and, List.mem_map, forall_exists_index, and_imp,
        forall_apply_eq_imp_iff₂]
      clear hm h1 h2
      induction es with
      | nil => simp
      | cons e es ih =>
        simp only [List.map_cons, List.cons.injEq, ih, List.mem_cons, forall_eq_or_imp]
        obtain ⟨i, t, q, a⟩ := e
        simp [onRibEntry]
  have hk : (∀ a ∈ mrtAttributeLists m, AttrsKept a) ↔
      (∀ a ∈ mrtAttributeLists m, FloatsFinite a) ∧ ∀ a ∈ mrtAttributeLists m, attributesRead a = a := by
    simp only [attrsKept_iff]
    exact ⟨fun h => ⟨fun a ha => (h a ha).1, fun a ha => (h a ha).2⟩, fun h a ha => ⟨h.1 a ha, h.2 a ha⟩⟩
  rw [hk]
  by_cases hf : ∀ a ∈ mrtAttributeLists m, FloatsFinite a
  · rw [h1 hf, Option.some.injEq, hs]; exact ⟨fun h => ⟨hf, h⟩, fun h => h.2⟩
  · rw [h2 hf]; simp [hf]

/-- **C108** The warnings of the parser are not in the document. -/
theorem c108_violation_warnings (env : JsonEnv) (a b : Attributes) (h : attributesOf env (attributesJson env a) = some b) :
    b.warnings = [] ∧ b.mask = Attributes.computeMask b.inner ∧
      ∀ w, attributesJson env { a with warnings := w } = attributesJson env a := by
  unfold attributesOf at h
  obtain ⟨inner, _, rfl⟩ := Option.map_eq_some_iff.mp h
  exact ⟨rfl, rfl, fun _ => rfl⟩

/-! ### documents -/

/-- **C108** A value is written under the name of its variant. -/
theorem c108_name (env : JsonEnv) (v : AttrVal) : IsVariant (attrValJson env v) (valueName v) := by
  cases v <;> first | exact .inr ⟨_, rfl⟩ | exact .inl rfl

/-- **C108** The flags are written as the names of those set, and the other bits in hexadecimal, with " | " between them. -/
theorem c108_flags (f : UInt8) : String.ofList (flagsText f) = " | ".intercalate (flagWords f ++ flagRest f) := by
  have hd : ∀ n : Fin 256, String.ofList (flagsText (UInt8.ofNat n.val)) =
      " | ".intercalate (flagWords (UInt8.ofNat n.val) ++ flagRest (UInt8.ofNat n.val)) := by decide +kernel
  have := hd ⟨f.toNat, f.toNat_lt⟩
  simpa using this

/-- **C108** The documents of attributes, UPDATE messages, RIB entries and announcements. -/
theorem c108_documents (env : JsonEnv) :
    (∀ a, attributesJson env a = .arr (a.inner.map fun x =>
      .obj [("value", attrValJson env x.value), ("flag", .str (" | ".intercalate (flagWords x.flag ++ flagRest x.flag)))])) ∧
    (∀ m, updateJson env m = .obj [("withdrawn_prefixes", .arr (m.withdrawn.map (prefixJson env))),
      ("attributes", attributesJson env m.attributes), ("announced_prefixes", .arr (m.announced.map (prefixJson env)))]) ∧
    (∀ e, ribEntryJson env e = .obj [("peer_index", .int e.peerIndex.toNat), ("originated_time", .int e.time.toNat),
      ("path_id", (e.pathId.map fun i => .int i.toNat).getD .null), ("attributes", attributesJson env e.attributes)]) ∧
    (∀ t i n m, mrtUpdateJson env (.bgp4mp t i n m) = .obj [("Bgp4MpUpdate", .obj [("timestamp", env.time t),
      ("peer_ip", textJson (i.text env.out)), ("peer_asn", .int n.toNat), ("message", updateJson env m)])]) ∧
    (∀ t i n li ln m, mrtUpdateJson env (.legacy t i n li ln m) = .obj [("LegacyBgpUpdate", .obj [("timestamp", env.time t),
      ("peer_ip", textJson (i.text env.out)), ("peer_asn", .int n.toNat), ("local_ip", textJson (li.text env.out)),
      ("local_asn", .int ln.toNat), ("message", updateJson env m)])]) ∧
    (∀ t y s p es, mrtUpdateJson env (.rib t y s p es) = .obj [("TableDumpV2Entry", .obj [("timestamp", env.time t),
      ("rib_type", .str (ribWord y)), ("sequence_number", .int s.toNat), ("prefix", prefixJson env p),
      ("rib_entries", .arr (es.map (ribEntryJson env)))])]) ∧
    (∀ m, mrtUpdateJson env (.tableDump m) = .obj [("TableDumpMessage", .obj [("view_number", .int m.view.toNat),
      ("sequence_number", .int m.seq.toNat), ("prefix", prefixJson env m.prefix_), ("status", .int m.status.toNat),
      ("originated_time", .int m.time.toNat), ("peer_ip", textJson (m.peerIp.text env.out)), ("peer_asn", .int m.peerAsn.toNat),
      ("attributes", attributesJson env m.attributes)])]) := by
  refine ⟨fun a => ?_, fun m => rfl, fun e => ?_, fun t i n m => rfl, fun t i n li ln m => rfl, fun t y s p es => by cases y <;> rfl, fun m => rfl⟩
  · have : attributeJson env = fun x =>
        .obj [("value", attrValJson env x.value), ("flag", .str (" | ".intercalate (flagWords x.flag ++ flagRest x.flag)))] := by
      funext x
      simp only [attributeJson, textJson, c108_flags, List.zip_cons_cons, List.zip_nil_left]
    rw [attributesJson, this]
  · obtain ⟨i, t, q, a⟩ := e
    cases q <;> rfl

/-- **C108** The documents of multiprotocol reachability: the keys, in order. -/
theorem c108_nlri_document (env : JsonEnv) (n : Nlri) : nlriJson env n = .obj [("afi", .str (afiWord n.afi)),
    ("safi", .str (safiWord n.safi)),
    ("next_hop", (n.nextHop.map (nextHopJson env)).getD .null), ("prefixes", .arr (n.prefixes.map (prefixJson env))),
    ("labeled_prefixes", (n.labeled.map fun ps => .arr (ps.map fun p => .obj [("prefix", textJson (p.prefix_.text env.out)),
      ("labels", .arr (p.labels.map fun l => .int l.toNat)), ("path_id", (p.pathId.map fun i => .int i.toNat).getD .null)])).getD .null),
    ("link_state_nlris", (n.linkState.map fun ps => .arr (ps.map (lsNlriJson env))).getD .null),
    ("flowspec_nlris", (n.flowspec.map fun fs => .arr (fs.map fun f =>
      .obj [("components", .arr (f.map (fsCompJson env)))])).getD .null)] := by
  have ho : ∀ {α : Type} (f : α → Json) (x : Option α), optJson f x = (x.map f).getD .null := by intro α f x; cases x <;> rfl
  have ha : enumJson afiNames n.afi = .str (afiWord n.afi) := by cases n.afi <;> rfl
  have hs : enumJson safiNames n.safi = .str (safiWord n.safi) := by cases n.safi <;> rfl
  have hl : labeledJson env = fun p => .obj [("prefix", textJson (p.prefix_.text env.out)),
      ("labels", .arr (p.labels.map fun l => .int l.toNat)), ("path_id", (p.pathId.map fun i => .int i.toNat).getD .null)] := by
    funext p
    simp only [labeledJson, ho]
    rfl
  unfold nlriJson
  simp only [ho, ha, hs, hl]
  rfl

/-! ### labels -/

/-- **C108** A label is a number below 2^20; another number is not read. -/
theorem c108_label (n : Nat) : labelOf (.int n) = if n < 2 ^ 20 then some (UInt32.ofNat n) else none := by
  unfold labelOf
  have h : Json.u32 (.int n) = if n < 4294967296 then some (UInt32.ofNat n) else none := by
    show ((if n < 4294967296 then some n else none).map UInt32.ofNat : Option UInt32) = _
    split <;> rfl
  rw [h]
  by_cases h1 : n < 4294967296
  · rw [if_pos h1]
    simp only [Option.bind_some, Label.tryNew]
    have h2 : (UInt32.ofNat n > 0x000FFFFF) ↔ ¬ n < 2 ^ 20 := by
      rw [GT.gt, UInt32.lt_iff_toNat_lt, UInt32.toNat_ofNat_of_lt' (by simpa using h1)]
      simp; omega
    by_cases h3 : n < 2 ^ 20
    · rw [if_pos h3, if_neg (by rw [h2]; simpa using h3)]
    · rw [if_neg h3, if_pos (h2.mpr h3)]
  · rw [if_neg h1, if_neg (by omega)]
    rfl

/-- **C108** A labelled prefix without labels, which `try_new` refuses, is read. -/
theorem c108_violation_labels (env : JsonEnv) (ok : JsonOk env) (p : IpNet) (hp : NetOk p) (i : Option UInt32) :
    LabeledPrefix.tryNew p [] i = none ∧ ∃ j, labeledOfJson env j = some ⟨p, [], i⟩ :=
  ⟨rfl, labeledJson env ⟨p, [], i⟩, labeled_kept ok _ hp (by simp)⟩

theorem mapM_count (f : α → Option β) : ∀ (js : List α) (xs : List β), js.mapM f = some xs → js.length = xs.length
  | [], xs, h => by cases h; rfl
  | j :: js, xs, h => by
    rw [List.mapM_cons] at h
    cases hj : f j with
    | none => rw [hj] at h; cases h
    | some y =>
      rw [hj] at h
      cases hm : js.mapM f with
      | none => rw [hm] at h; cases h
      | some ys =>
        rw [hm] at h
        cases h
        rw [List.length_cons, List.length_cons, mapM_count f js ys hm]

/-- **C108** The bandwidths of a traffic engineering descriptor are read from a list of exactly eight numbers. -/
theorem c108_bandwidths (env : JsonEnv) (js : List Json) (v : Vector UInt32 8) (h : floats8Of env (.arr js) = some v) :
    js.length = 8 ∧ js.mapM env.f32Of = some v.toList := by
  unfold floats8Of at h
  simp only [Json.list] at h
  cases hm : js.mapM env.f32Of with
  | none => rw [hm] at h; cases h
  | some xs =>
    rw [hm] at h
    dsimp only at h
    split at h
    · rename_i hl
      cases h
      have := mapM_count _ js xs hm
      exact ⟨by omega, rfl⟩
    · cases h

end Verif.Props
