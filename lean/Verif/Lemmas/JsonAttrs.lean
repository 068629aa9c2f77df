import Verif.Lemmas.Json
import Verif.Spec.JsonAttrs
/-
Lemmas on the JSON of path attributes and messages.
-/
namespace Verif
open Spec

/-! helpers -/

theorem u64_nat (x : UInt64) : (natJson x.toNat).u64 = some x := by
  simp [Json.u64, natBelow_nat x.toNat_lt]

theorem enum_kept [BEq α] {table : List (α × String)} {x : α}
    (h : (table.find? fun e => e.2 == (((table.find? fun e => e.1 == x).map (·.2)).getD "")).map (·.1) = some x) :
    enumOf table (enumJson table x) = some x := by
  unfold enumOf enumJson Json.variant
  simp only [Option.bind_eq_bind, Option.bind_some, Json.isUnit]
  exact h

theorem enum_ne [BEq α] {table : List (α × String)} {x : α} : enumJson table x ≠ .null := by simp [enumJson]

theorem afi_kept (a : Afi) : enumOf afiNames (enumJson afiNames a) = some a := enum_kept (by cases a <;> decide +kernel)
theorem safi_kept (a : Safi) : enumOf safiNames (enumJson safiNames a) = some a := enum_kept (by cases a <;> decide +kernel)
theorem v2_kept (a : V2Type) : enumOf v2Names (enumJson v2Names a) = some a := enum_kept (by cases a <;> decide +kernel)

theorem nlriType_kept {t : UInt16} (h : t.toNat ≤ 7) : enumOf nlriTypeNames (enumJson nlriTypeNames t) = some t := by
  refine enum_kept ?_
  have hd : ∀ n : Fin 8, (nlriTypeNames.find? fun e => e.2 == (((nlriTypeNames.find? fun e => e.1 == UInt16.ofNat n.val).map (·.2)).getD "")).map (·.1) =
      some (UInt16.ofNat n.val) := by decide +kernel
  have := hd ⟨t.toNat, by omega⟩
  simpa using this

theorem protocol_kept {t : UInt8} (h : t.toNat ≤ 9) : enumOf protocolNames (enumJson protocolNames t) = some t := by
  refine enum_kept ?_
  have hd : ∀ n : Fin 10, (protocolNames.find? fun e => e.2 == (((protocolNames.find? fun e => e.1 == UInt8.ofNat n.val).map (·.2)).getD "")).map (·.1) =
      some (UInt8.ofNat n.val) := by decide +kernel
  have := hd ⟨t.toNat, by omega⟩
  simpa using this

theorem tunnel_kept {t : UInt16} (h : t.toNat ≤ 22) : enumOf tunnelNames (enumJson tunnelNames t) = some t := by
  refine enum_kept ?_
  have hd : ∀ n : Fin 23, (tunnelNames.find? fun e => e.2 == (((tunnelNames.find? fun e => e.1 == UInt16.ofNat n.val).map (·.2)).getD "")).map (·.1) =
      some (UInt16.ofNat n.val) := by decide +kernel
  have := hd ⟨t.toNat, by omega⟩
  simpa using this

theorem subTlv_type_kept {t : UInt8} (h : t.toNat ≤ 20 ∨ t = 128 ∨ t = 129) : enumOf subTlvNames (enumJson subTlvNames t) = some t := by
  refine enum_kept ?_
  rcases h with h | rfl | rfl
  · have hd : ∀ n : Fin 21, (subTlvNames.find? fun e => e.2 == (((subTlvNames.find? fun e => e.1 == UInt8.ofNat n.val).map (·.2)).getD "")).map (·.1) =
        some (UInt8.ofNat n.val) := by decide +kernel
    have := hd ⟨t.toNat, by omega⟩
    simpa using this
  · decide +kernel
  · decide +kernel

theorem u32_opt (o : Option UInt32) : Json.opt Json.u32 (some (optJson (fun n : UInt32 => natJson n.toNat) o)) = some o :=
  opt_opt (fun x => by simp [natJson]) fun x _ => u32_nat x
theorem u16_opt (o : Option UInt16) : Json.opt Json.u16 (some (optJson (fun n : UInt16 => natJson n.toNat) o)) = some o :=
  opt_opt (fun x => by simp [natJson]) fun x _ => u16_nat x
theorem u8_opt (o : Option UInt8) : Json.opt Json.u8 (some (optJson (fun n : UInt8 => natJson n.toNat) o)) = some o :=
  opt_opt (fun x => by simp [natJson]) fun x _ => u8_nat x
theorem v4_opt {env : JsonEnv} (ok : JsonOk env) (o : Option V4) :
    Json.opt (Json.viaText env.v4) (some (optJson (fun a => textJson (v4Text a)) o)) = some o :=
  opt_opt (fun x => by simp [textJson]) fun x _ => by rw [viaText_text, ok.v4]
theorem v6_opt {env : JsonEnv} (ok : JsonOk env) (o : Option V6) :
    Json.opt (Json.viaText env.v6) (some (optJson (fun a => textJson (env.out.v6 a)) o)) = some o :=
  opt_opt (fun x => by simp [textJson]) fun x _ => by rw [viaText_text, ok.v6]
theorem bytes_opt (o : Option Bytes) : Json.opt bytesOf (some (optJson bytesJson o)) = some o :=
  opt_opt (fun x => by simp [bytesJson]) fun x _ => list_bytes x

theorem list_opt {f : Json → Option α} {g : α → Json} {o : Option (List α)} (h : ∀ xs, o = some xs → ∀ x ∈ xs, f (g x) = some x) :
    Json.opt (Json.list f) (some (optJson (fun xs => .arr (xs.map g)) o)) = some o :=
  opt_opt (fun x => by simp) fun xs hx => list_map (h xs hx)

theorem prefix_opt {env : JsonEnv} (ok : JsonOk env) {o : Option NetworkPrefix} (h : ∀ p, o = some p → NetOk p.prefix_) :
    Json.opt (prefixOf env) (some (optJson (prefixJson env) o)) = some o :=
  opt_opt (fun x => by unfold prefixJson; split <;> simp [textJson]) fun x hx => prefix_kept ok x (h x hx)

theorem prefixes_kept {env : JsonEnv} (ok : JsonOk env) {ps : List NetworkPrefix} (h : ∀ p ∈ ps, NetOk p.prefix_) :
    Json.list (prefixOf env) (.arr (ps.map (prefixJson env))) = some ps := list_map fun p hp => prefix_kept ok p (h p hp)

/-! flags -/

theorem flags_kept (f : UInt8) : flagsOfText (flagsText f) = some f := by
  have hd : ∀ n : Fin 256, flagsOfText (flagsText (UInt8.ofNat n.val)) = some (UInt8.ofNat n.val) := by decide +kernel
  have := hd ⟨f.toNat, f.toNat_lt⟩
  simpa using this

/-! TLVs -/

theorem tlv8_kept (t : Tlv8) : tlv8Of (tlv8Json t) = some t := by
  unfold tlv8Of tlv8Json
  rw [fields_zip (by decide) rfl]
  simp [Json.req, u8_nat, bytesOf, list_bytes]

theorem tlv16_kept (t : Tlv16) : tlv16Of (tlv16Json t) = some t := by
  unfold tlv16Of tlv16Json
  rw [fields_zip (by decide) rfl]
  simp [Json.req, u16_nat, bytesOf, list_bytes]

theorem tlv16s_kept (ts : List Tlv16) : Json.list tlv16Of (.arr (ts.map tlv16Json)) = some ts := list_map fun t _ => tlv16_kept t

theorem aigpTlv_kept (t : AigpTlv) : aigpTlvOf (aigpTlvJson t) = some t := by
  unfold aigpTlvOf aigpTlvJson
  rw [fields_zip (by decide) rfl]
  simp [Json.req, u8_nat, u16_nat, bytesOf, list_bytes]

theorem subTlv_kept (t : Tlv8) (h : t.type.toNat ≤ 20 ∨ t.type = 128 ∨ t.type = 129) : subTlvOf (subTlvJson t) = some t := by
  unfold subTlvOf subTlvJson
  rw [fields_zip (by decide) rfl]
  simp [Json.req, subTlv_type_kept h, bytesOf, list_bytes]

theorem tunnelTlv_kept (t : TunnelTlv) (h : t.type.toNat ≤ 22) (hs : ∀ s ∈ t.subs, s.type.toNat ≤ 20 ∨ s.type = 128 ∨ s.type = 129) :
    tunnelTlvOf (tunnelTlvJson t) = some t := by
  unfold tunnelTlvOf tunnelTlvJson
  rw [fields_zip (by decide) rfl]
  simp [Json.req, tunnel_kept h, list_map (f := subTlvOf) fun s hx => subTlv_kept s (hs s hx)]

theorem listOf_kept {f : Json → Option α} {g : α → Json} (key : String) {xs : List α} (h : ∀ x ∈ xs, f (g x) = some x) :
    listOf key f (listJson key g xs) = some xs := by
  unfold listOf listJson
  rw [fields_zip (by simp) rfl]
  simp [Json.req, list_map h]

/-! link state -/

theorem mapInsert_new {k : UInt16} {v : Bytes} : ∀ {m : List (UInt16 × Bytes)}, k ∉ m.map (·.1) → mapInsert k v m = m ++ [(k, v)]
  | [], _ => rfl
  | (k', v') :: r, h => by
    simp only [List.map_cons, List.mem_cons, not_or] at h
    rw [mapInsert, if_neg (fun e => h.1 e.symm), mapInsert_new h.2]
    rfl

/-- the names of the codes are read as the codes. -/
def NamesOk (table : List (UInt16 × String)) (codes : List UInt16) : Prop :=
  ∀ k ∈ codes, (table.find? fun t => t.2 == (((table.find? fun t => t.1 == k).map (·.2)).getD "")).map (·.1) = some k

instance (table codes) : Decidable (NamesOk table codes) := by unfold NamesOk; infer_instance

theorem map_fold {table : List (UInt16 × String)} {codes : List UInt16} (ht : NamesOk table codes) :
    ∀ (m pre : List (UInt16 × Bytes)), ((pre ++ m).map (·.1)).Nodup → (∀ e ∈ m, e.1 ∈ codes) →
    (m.map fun e => (((table.find? fun t => t.1 == e.1).map (·.2)).getD "", bytesJson e.2)).foldlM (fun m kv => do
      let k ← (table.find? fun t => t.2 == kv.1).map (·.1)
      let v ← bytesOf kv.2
      return mapInsert k v m) pre = some (pre ++ m)
  | [], pre, _, _ => by simp
  | (k, v) :: m, pre, hn, hc => by
    have h1 := ht k (hc (k, v) (by simp))
    have hnew : k ∉ pre.map (·.1) := by
      intro hk
      simp only [List.map_append, List.map_cons, List.nodup_append] at hn
      exact hn.2.2 k hk k (by simp) rfl
    have ih := map_fold ht m (pre ++ [(k, v)]) (by simpa using hn) fun e he => hc e (by simp [he])
    rw [List.map_cons, List.foldlM_cons]
    simp only [h1, bytesOf, list_bytes, Option.bind_eq_bind, Option.bind_some, Option.pure_def, mapInsert_new hnew]
    simp only [bytesOf, Option.bind_eq_bind, Option.pure_def] at ih
    rw [ih]
    simp

theorem map_kept {table : List (UInt16 × String)} {codes : List UInt16} (ht : NamesOk table codes) {m : List (UInt16 × Bytes)}
    (h : LsMapOk codes m) : mapOf table (mapJson table m) = some m := by
  have := map_fold ht m [] (by simpa using h.1) h.2
  simpa [mapOf, mapJson] using this

theorem lsAttr_kept {a : LsAttr} (h : ValueOk (.linkState a)) : lsAttrOf (lsAttrJson a) = some a := by
  obtain ⟨h1, h2, h3⟩ := h
  unfold lsAttrOf lsAttrJson
  rw [fields_zip (by decide) rfl]
  simp [Json.req, map_kept (table := nodeAttrNames) (by decide +kernel) h1, map_kept (table := linkAttrNames) (by decide +kernel) h2,
    map_kept (table := prefixAttrNames) (by decide +kernel) h3, tlv16s_kept]

theorem nodeDesc_kept (d : NodeDesc) : nodeDescOf (nodeDescJson d) = some d := by
  unfold nodeDescOf nodeDescJson
  rw [fields_zip (by decide) rfl]
  simp [Json.req, u32_opt, bytes_opt, tlv16s_kept]

theorem linkDesc_kept {env : JsonEnv} (ok : JsonOk env) (d : LinkDesc) : linkDescOf env (linkDescJson env d) = some d := by
  unfold linkDescOf linkDescJson
  rw [fields_zip (by decide) rfl]
  have h1 : Json.opt (pairOf Json.u32 Json.u32) (some (optJson (fun p : UInt32 × UInt32 => Json.arr [natJson p.1.toNat, natJson p.2.toNat]) d.ids)) =
      some d.ids := opt_opt (fun x => by simp) fun x _ => by simp [pairOf, u32_nat]
  simp [Json.req, h1, v4_opt ok, v6_opt ok, u16_opt, tlv16s_kept]

theorem prefixDesc_kept {env : JsonEnv} (ok : JsonOk env) (d : PrefixDesc) (h : ∀ p, d.reach = some p → NetOk p.prefix_) :
    prefixDescOf env (prefixDescJson env d) = some d := by
  unfold prefixDescOf prefixDescJson
  rw [fields_zip (by decide) rfl]
  simp [Json.req, u16_opt, u8_opt, prefix_opt ok h, tlv16s_kept]

theorem lsNlri_kept {env : JsonEnv} (ok : JsonOk env) (n : LsNlri) (h : LsNlriOk n) : lsNlriOf env (lsNlriJson env n) = some n := by
  obtain ⟨h1, h2, h3⟩ := h
  unfold lsNlriOf lsNlriJson
  rw [fields_zip (by decide) rfl]
  have k1 : Json.opt nodeDescOf (some (optJson nodeDescJson n.remote)) = some n.remote :=
    opt_opt (fun x => by simp [nodeDescJson]) fun x _ => nodeDesc_kept x
  have k2 : Json.opt (linkDescOf env) (some (optJson (linkDescJson env) n.link)) = some n.link :=
    opt_opt (fun x => by simp [linkDescJson]) fun x _ => linkDesc_kept ok x
  have k3 : Json.opt (prefixDescOf env) (some (optJson (prefixDescJson env) n.pfx)) = some n.pfx :=
    opt_opt (fun x => by simp [prefixDescJson]) fun x hx => prefixDesc_kept ok x (h3 x hx)
  simp [Json.req, nlriType_kept h1, protocol_kept h2, u64_nat, nodeDesc_kept, k1, k2, k3]

/-! flow specifications -/

theorem numOp_kept (o : NumOp) : numOpOf (numOpJson o) = some o := by
  unfold numOpOf numOpJson
  rw [fields_zip (by decide) rfl]
  simp [Json.req, Json.boolean, u8_nat, u64_nat]

theorem bitOp_kept (o : BitOp) : bitOpOf (bitOpJson o) = some o := by
  unfold bitOpOf bitOpJson
  rw [fields_zip (by decide) rfl]
  simp [Json.req, Json.boolean, u8_nat, u64_nat]

theorem offset_kept {env : JsonEnv} (ok : JsonOk env) (f : UInt8 → NetworkPrefix → FsComp) (o : UInt8) (p : NetworkPrefix)
    (h : NetOk p.prefix_) : offsetOf env f (offsetJson env o p) = some (f o p) := by
  unfold offsetOf offsetJson
  rw [fields_zip (by decide) rfl]
  simp [Json.req, u8_nat, prefix_kept ok p h]

theorem fsComp_kept {env : JsonEnv} (ok : JsonOk env) (c : FsComp) (h : FsNetOk c) : fsCompOf env (fsCompJson env c) = some c := by
  cases c with
  | dstPrefix p =>
    simp [fsCompOf, fsCompJson, tagJson, Json.variant, prefix_kept ok p h]
  | srcPrefix p =>
    simp [fsCompOf, fsCompJson, tagJson, Json.variant, prefix_kept ok p h]
  | numeric k ops =>
    have := list_map (f := numOpOf) (g := numOpJson) (xs := ops) fun x _ => numOp_kept x
    cases k <;> simp [fsCompOf, fsCompJson, tagJson, Json.variant, FsKindNum.jsonName, this]
  | bitmask k ops =>
    have := list_map (f := bitOpOf) (g := bitOpJson) (xs := ops) fun x _ => bitOp_kept x
    cases k <;> simp [fsCompOf, fsCompJson, tagJson, Json.variant, FsKindBit.jsonName, this]
  | dstPrefix6 o p =>
    simp [fsCompOf, fsCompJson, tagJson, Json.variant, offset_kept ok _ o p h]
  | srcPrefix6 o p =>
    simp [fsCompOf, fsCompJson, tagJson, Json.variant, offset_kept ok _ o p h]

/-! multiprotocol NLRI -/

theorem label_kept (l : Label) (h : l.toNat < 2 ^ 20) : labelOf (natJson l.toNat) = some l := by
  have : ¬ l > 0x000FFFFF := by
    intro hl
    have := UInt32.lt_iff_toNat_lt.mp hl
    simp at this
    omega
  simp [labelOf, u32_nat, Label.tryNew, this]

theorem labeled_kept {env : JsonEnv} (ok : JsonOk env) (p : LabeledPrefix) (h : NetOk p.prefix_) (hl : ∀ l ∈ p.labels, l.toNat < 2 ^ 20) :
    labeledOfJson env (labeledJson env p) = some p := by
  unfold labeledOfJson labeledJson
  rw [fields_zip (by decide) rfl]
  have h1 := list_map (f := labelOf) (g := fun l : Label => natJson l.toNat) (xs := p.labels) fun l hx => label_kept l (hl l hx)
  simp [Json.req, viaText_text, ok.net _ h, h1, u32_opt]

theorem nextHop_kept {env : JsonEnv} (ok : JsonOk env) (a : NextHop) : nextHopOf env (nextHopJson env a) = some a := by
  cases a <;> simp [nextHopOf, nextHopJson, tagJson, Json.variant, viaText_text, ok.v4, ok.v6, octets_bytes]

theorem nlri_kept {env : JsonEnv} (ok : JsonOk env) (n : Nlri) (h : NlriOk n) : nlriOf env (nlriJson env n) = some n := by
  unfold nlriOf nlriJson
  rw [fields_zip (by decide) rfl]
  have h1 : Json.opt (nextHopOf env) (some (optJson (nextHopJson env) n.nextHop)) = some n.nextHop :=
    opt_opt (fun x => by cases x <;> simp [nextHopJson, tagJson]) fun x _ => nextHop_kept ok x
  have h2 := list_opt (f := labeledOfJson env) (g := labeledJson env) (o := n.labeled) fun ps hp p hx =>
    labeled_kept ok p (h.labeled ps hp p hx).1 (h.labeled ps hp p hx).2
  have h3 := list_opt (f := lsNlriOf env) (g := lsNlriJson env) (o := n.linkState) fun ps hp p hx => lsNlri_kept ok p (h.linkState ps hp p hx)
  have h4 := list_opt (f := listOf "components" (fsCompOf env)) (g := listJson "components" (fsCompJson env)) (o := n.flowspec) fun fs hf f hx =>
    listOf_kept "components" fun c hc => fsComp_kept ok c (h.flowspec fs hf f hx c hc)
  simp [Json.req, afi_kept, safi_kept, h1, h2, h3, h4, prefixes_kept ok h.prefixes]

/-! attributes -/

theorem floats8_kept {env : JsonEnv} {v : Vector UInt32 8} (h : ∀ r ∈ v.toList, env.f32Of (env.f32 r) = some r) :
    floats8Of env (.arr (v.toList.map env.f32)) = some v := by
  simp only [floats8Of, list_map h]
  have : v.toList.length = 8 := by simp
  rw [dif_pos this]
  congr 1

theorem te_kept {env : JsonEnv} (t : TrafficEng) (h : ∀ r ∈ t.bandwidth.toList, env.f32Of (env.f32 r) = some r) :
    teOf env (teJson env t) = some t := by
  unfold teOf teJson
  rw [fields_zip (by decide) rfl]
  simp [Json.req, u8_nat, u16_nat, floats8_kept h, bytesOf, list_bytes]

theorem bfd_kept (b : Bfd) : bfdOf (bfdJson b) = some b := by
  unfold bfdOf bfdJson
  rw [fields_zip (by decide) rfl]
  simp [Json.req, u8_nat, u32_nat, list_map (f := tlv8Of) fun t _ => tlv8_kept t]

theorem aggr_kept {env : JsonEnv} (ok : JsonOk env) (f : Asn → V4 → AttrVal) (a : Asn) (i : V4) : aggrOf env f (aggrJson a i) = some (f a i) := by
  unfold aggrOf aggrJson
  rw [fields_zip (by decide) rfl]
  simp [Json.req, u32_asn, viaText_text, ok.v4]

end Verif
