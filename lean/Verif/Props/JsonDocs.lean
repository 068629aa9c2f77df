import Verif.Spec.JsonDocs
import Verif.Props.JsonRead
/-
C108. The JSON documents of the values of attributes.
-/
namespace Verif.Props
open Spec

theorem word_table [BEq α] [LawfulBEq α] (nat : α → Nat) (word : Nat → String) (table : List (α × String))
    (hin : ∀ e ∈ table, word (nat e.1) = e.2) (hout : ∀ n, (∀ e ∈ table, nat e.1 ≠ n) → word n = "") (hi : ∀ a b, nat a = nat b → a = b)
    (x : α) : ((table.find? fun e => e.1 == x).map (·.2)).getD "" = word (nat x) := by
  cases h : table.find? fun e => e.1 == x with
  | none =>
    refine (hout _ fun e he hn => ?_).symm
    have := List.find?_eq_none.mp h e he
    exact this (beq_iff_eq.mpr (hi _ _ hn))
  | some e =>
    have h1 := List.mem_of_find?_eq_some h
    have h2 := List.find?_some h
    rw [← beq_iff_eq.mp h2, hin e h1]
    rfl

theorem u16_word (word : Nat → String) (table : List (UInt16 × String)) (hin : ∀ e ∈ table, word e.1.toNat = e.2)
    (hout : ∀ n, word n = "" ∨ n ∈ table.map (·.1.toNat)) (x : UInt16) :
    ((table.find? fun e => e.1 == x).map (·.2)).getD "" = word x.toNat :=
  word_table UInt16.toNat word table hin
    (fun n hn => (hout n).resolve_right fun h => by
      obtain ⟨e, he, rfl⟩ := List.mem_map.mp h
      exact hn e he rfl) (fun _ _ => UInt16.toNat_inj.mp) x

theorem u8_word (word : Nat → String) (table : List (UInt8 × String)) (hin : ∀ e ∈ table, word e.1.toNat = e.2)
    (hout : ∀ n, word n = "" ∨ n ∈ table.map (·.1.toNat)) (x : UInt8) :
    ((table.find? fun e => e.1 == x).map (·.2)).getD "" = word x.toNat :=
  word_table UInt8.toNat word table hin
    (fun n hn => (hout n).resolve_right fun h => by
      obtain ⟨e, he, rfl⟩ := List.mem_map.mp h
      exact hn e he rfl) (fun _ _ => UInt8.toNat_inj.mp) x

theorem lsType_word (x : UInt16) : enumJson nlriTypeNames x = .str (lsTypeWord x.toNat) :=
  congrArg Json.str (u16_word _ _ (by decide) (by intro n; unfold lsTypeWord; split <;> first | exact .inl rfl | exact .inr (by decide)) x)
theorem lsProtocol_word (x : UInt8) : enumJson protocolNames x = .str (lsProtocolWord x.toNat) :=
  congrArg Json.str (u8_word _ _ (by decide) (by intro n; unfold lsProtocolWord; split <;> first | exact .inl rfl | exact .inr (by decide)) x)
theorem tunnel_word (x : UInt16) : enumJson tunnelNames x = .str (tunnelWord x.toNat) :=
  congrArg Json.str (u16_word _ _ (by decide) (by intro n; unfold tunnelWord; split <;> first | exact .inl rfl | exact .inr (by decide)) x)
theorem subTlv_word (x : UInt8) : enumJson subTlvNames x = .str (subTlvWord x.toNat) :=
  congrArg Json.str (u8_word _ _ (by decide) (by intro n; unfold subTlvWord; split <;> first | exact .inl rfl | exact .inr (by decide)) x)
theorem nodeAttr_word (m : List (UInt16 × Bytes)) : mapJson nodeAttrNames m = attrMapDoc nodeAttrWord m :=
  congrArg Json.obj (List.map_congr_left fun e _ => congrArg (fun w => (w, bytesJson e.2))
    (u16_word _ _ (by decide) (by intro n; unfold nodeAttrWord; split <;> first | exact .inl rfl | exact .inr (by decide)) e.1))
theorem linkAttr_word (m : List (UInt16 × Bytes)) : mapJson linkAttrNames m = attrMapDoc linkAttrWord m :=
  congrArg Json.obj (List.map_congr_left fun e _ => congrArg (fun w => (w, bytesJson e.2))
    (u16_word _ _ (by decide) (by intro n; unfold linkAttrWord; split <;> first | exact .inl rfl | exact .inr (by decide)) e.1))
theorem prefixAttr_word (m : List (UInt16 × Bytes)) : mapJson prefixAttrNames m = attrMapDoc prefixAttrWord m :=
  congrArg Json.obj (List.map_congr_left fun e _ => congrArg (fun w => (w, bytesJson e.2))
    (u16_word _ _ (by decide) (by intro n; unfold prefixAttrWord; split <;> first | exact .inl rfl | exact .inr (by decide)) e.1))

theorem optDoc_eq (f : α → Json) (x : Option α) : optJson f x = optDoc f x := by cases x <;> rfl

/-- **C108** The document of a value: its content, written out, under its name; ATOMIC_AGGREGATE is only its name. ATTR_SET, which
no parser makes, is not covered. -/
theorem c108_value_document (env : JsonEnv) (v : AttrVal) (hv : ∀ o p, v ≠ .attrSet o p) :
    attrValJson env v = match v with
      | .atomic => .str "AtomicAggregate"
      | _ => .obj [(valueName v, valueContent env v)] := by
  cases v with
  | linkState a =>
    show tagJson _ (lsAttrJson a) = _
    rw [lsAttrJson, nodeAttr_word, linkAttr_word, prefixAttr_word]
    rfl
  | tunnel ts =>
    have : tunnelTlvJson = fun t : TunnelTlv => .obj [("tunnel_type", .str (tunnelWord t.type.toNat)),
      ("sub_tlvs", .arr (t.subs.map fun s =>
        .obj [("sub_tlv_type", .str (subTlvWord s.type.toNat)), ("value", octetsDoc s.value)]))] := by
      have hs : subTlvJson = fun s : Tlv8 => .obj [("sub_tlv_type", .str (subTlvWord s.type.toNat)), ("value", octetsDoc s.value)] := by
        funext s; rw [subTlvJson, subTlv_word]; rfl
      funext t
      rw [tunnelTlvJson, tunnel_word, hs]
      rfl
    show tagJson _ (listJson _ tunnelTlvJson ts) = _
    rw [this]
    rfl
  | attrSet o p => exact absurd rfl (hv o p)
  | _ => rfl

/-- **C108** The documents of next hops. -/
theorem c108_next_hop_document (env : JsonEnv) (h : NextHop) : nextHopJson env h = nextHopDoc env h := by cases h <;> rfl

/-- **C108** The documents of link-state NLRI. -/
theorem c108_link_state_document (env : JsonEnv) (n : LsNlri) : lsNlriJson env n = lsNlriDoc env n := by
  have h1 : nodeDescJson = nodeDescDoc := by funext d; simp only [nodeDescJson, optDoc_eq]; rfl
  have h2 : linkDescJson env = linkDescDoc env := by funext d; simp only [linkDescJson, optDoc_eq]; rfl
  have h3 : prefixDescJson env = prefixDescDoc env := by funext d; simp only [prefixDescJson, optDoc_eq]; rfl
  rw [lsNlriJson, lsType_word, lsProtocol_word, h1, h2, h3]
  simp only [optDoc_eq]
  rfl

/-- **C108** The documents of the components of flow specifications. -/
theorem c108_flowspec_document (env : JsonEnv) (c : FsComp) : fsCompJson env c = fsCompDoc env c := by
  cases c with
  | numeric k ops => cases k <;> rfl
  | bitmask k ops => cases k <;> rfl
  | _ => rfl

/-- a tunnel of type VXLAN with a colour. -/
example (env : JsonEnv) : attrValJson env (.tunnel [⟨8, [⟨4, [0, 1]⟩]⟩]) =
    .obj [("TunnelEncapsulation", .obj [("tunnel_tlvs", .arr [.obj [("tunnel_type", .str "Vxlan"),
      ("sub_tlvs", .arr [.obj [("sub_tlv_type", .str "Color"), ("value", .arr [.int 0, .int 1])]])]])])] := by
  rw [c108_value_document env _ (by intros; simp)]
  rfl

end Verif.Props
