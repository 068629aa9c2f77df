import Verif.Lemmas.DissectTree
import Verif.Lemmas.Diagnostic
import Verif.Lemmas.MrtMsgs
import Verif.Spec.Attr
/-
Which nodes of a tree `find` and `find_all` select: the attributes and the sections of an UPDATE.
-/
namespace Verif
open Spec

/-! ### names -/

theorem u8_every {P : UInt8 → Prop} (h : ∀ i : Fin 256, P (UInt8.ofNat i.val)) (c : UInt8) : P c := by
  have := h ⟨c.toNat, c.toNat_lt⟩
  simpa using this

/-- the number behind "bgp.attr." -/
def nameCode (s : String) : Nat := (s.toList.drop 9).foldl (fun n c => 10 * n + (c.toNat - 48)) 0
/-- a digit at the place where attribute names have their number -/
def nameDigit (s : String) : Bool := ((s.toList.drop 9).head?.getD 'x').isDigit

theorem attrName_code (c : UInt8) : nameCode (attrName c) = c.toNat ∧ nameDigit (attrName c) = true := by
  revert c
  exact u8_every (by decide +kernel)

theorem attrName_inj {c d : UInt8} (h : attrName c = attrName d) : c = d := by
  have := (attrName_code c).1
  rw [h, (attrName_code d).1] at this
  exact (UInt8.toNat_inj.mp this).symm

/-- all field names of the trees of records with an UPDATE or ROUTE-REFRESH or without a BGP4MP message, apart from
attributes, the sections of an UPDATE and the ROUTE-REFRESH body -/
def plainFields : List String :=
  ["mrt", "mrt.header", "mrt.header.timestamp", "mrt.header.type", "mrt.header.subtype", "mrt.header.length",
   "mrt.header.microsecond", "mrt.body", "mrt.bgp4mp", "mrt.bgp4mp.peer_asn", "mrt.bgp4mp.local_asn",
   "mrt.bgp4mp.interface_index", "mrt.bgp4mp.afi", "mrt.bgp4mp.peer_ip", "mrt.bgp4mp.local_ip",
   "bgp", "bgp.truncated", "bgp.trailing", "bgp.header", "bgp.header.marker", "bgp.header.length", "bgp.header.type",
   "bgp.update", "bgp.update.withdrawn_routes.length", "bgp.update.path_attributes.length", "bgp.nlri.prefix",
   "bgp.attr.flags", "bgp.attr.type", "bgp.attr.length", "bgp.attr.value",
   "bgp.attr.as_path.segment", "bgp.attr.communities.entry", "bgp.attr.cluster_list.entry", "bgp.attr.ext_communities.entry",
   "bgp.attr.ipv6_ext_communities.entry", "bgp.attr.large_communities.entry", "bgp.attr.aigp.entry", "bgp.attr.origin",
   "bgp.attr.next_hop", "bgp.attr.u32", "bgp.attr.originator_id", "bgp.attr.aggregator.asn", "bgp.attr.aggregator.id",
   "bgp.attr.mp_reach.afi", "bgp.attr.mp_reach.safi", "bgp.attr.mp_reach.next_hop_length", "bgp.attr.mp_reach.next_hop",
   "bgp.attr.mp_reach.reserved", "bgp.attr.mp_unreach.afi", "bgp.attr.mp_unreach.safi",
   "bgp.route_refresh.afi", "bgp.route_refresh.subtype", "bgp.route_refresh.safi", "bgp.route_refresh.data"]

theorem plain_noDigit : ∀ f ∈ plainFields, nameDigit f = false := by decide +kernel

def sWithdrawn : String := "bgp.update.withdrawn_routes"
def sAttributes : String := "bgp.update.path_attributes"
def sNlri : String := "bgp.update.nlri"
def sRefresh : String := "bgp.route_refresh"

theorem sections_noDigit : ∀ f ∈ [sWithdrawn, sAttributes, sNlri, sRefresh], nameDigit f = false := by decide +kernel
theorem sections_notPlain : ∀ f ∈ [sWithdrawn, sAttributes, sNlri, sRefresh], f ∉ plainFields := by decide +kernel
theorem sections_nodup : [sWithdrawn, sAttributes, sNlri, sRefresh].Nodup := by decide +kernel

theorem attrName_notPlain (c : UInt8) : attrName c ∉ plainFields := by
  intro h
  have := plain_noDigit _ h
  rw [(attrName_code c).2] at this
  cases this

theorem attrName_notSection (c : UInt8) : attrName c ∉ [sWithdrawn, sAttributes, sNlri, sRefresh] := by
  intro h
  have := sections_noDigit _ h
  rw [(attrName_code c).2] at this
  cases this

/-! ### the nodes with a name -/

mutual
def Part.fields : Part → List String
  | .gap _ => []
  | .group f ps => f :: partsFields ps
  | .msg h _ body _ => ["bgp", "bgp.truncated", "bgp.trailing"] ++ partsFields h ++ partsFields body
def partsFields : List Part → List String
  | [] => []
  | p :: ps => Part.fields p ++ partsFields ps
end

/-- the nodes of these parts with the name `x`, in tree order. -/
def sel (x : String) (base : Nat) (ps : List Part) : List Node := (nodesOfList (partsNodes base ps)).filter (·.field == x)

@[simp] theorem nodesOfList_append : ∀ as bs, nodesOfList (as ++ bs) = nodesOfList as ++ nodesOfList bs
  | [], _ => rfl
  | a :: as, bs => by simp [nodesOfList, nodesOfList_append as bs]

@[simp] theorem nodesOfList_nil : nodesOfList [] = [] := rfl
theorem nodesOfList_singleton (n : Node) : nodesOfList [n] = nodesOf n := by simp [nodesOfList]
theorem nodesOf_mk (f : String) (o l : Nat) (cs : List Node) : nodesOf (.mk f o l cs) = .mk f o l cs :: nodesOfList cs := by
  simp [nodesOf]

theorem field_mk (f : String) (o l : Nat) (cs : List Node) : (Node.mk f o l cs).field = f := rfl

@[simp] theorem sel_nil (x base) : sel x base [] = [] := rfl
theorem sel_append (x base ps qs) : sel x base (ps ++ qs) = sel x base ps ++ sel x (base + (partsBytes ps).length) qs := by
  simp [sel]
theorem sel_cons (x base) (p : Part) (ps) : sel x base (p :: ps) = sel x base [p] ++ sel x (base + p.bytes.length) ps := by
  have := sel_append x base [p] ps
  simpa using this
theorem sel_gap (x base b) : sel x base [.gap b] = [] := by simp [sel]
theorem sel_group (x base f ps) : sel x base [.group f ps] =
    (if f = x then [.mk f base (partsBytes ps).length (partsNodes base ps)] else []) ++ sel x base ps := by
  simp only [sel, partsNodes_cons, partsNodes_nil, group_nodes, List.append_nil, nodesOfList_singleton, nodesOf_mk,
    List.filter_cons, field_mk, beq_iff_eq]
  split <;> simp
theorem sel_msg (x base h cut body extra) (hx : x ∉ ["bgp", "bgp.truncated", "bgp.trailing"]) :
    sel x base [.msg h cut body extra] = sel x base h ++ sel x (base + (partsBytes h).length) body := by
  have h1 : ¬ "bgp" = x := by rintro rfl; simp at hx
  have h2 : ¬ "bgp.truncated" = x := by rintro rfl; simp at hx
  have h3 : ¬ "bgp.trailing" = x := by rintro rfl; simp at hx
  have ht : ∀ (c : Prop) [Decidable c] (f : String) (o l : Nat), ¬ f = x →
      (nodesOfList (if c then [] else [.mk f o l []])).filter (·.field == x) = [] := by
    intro c _ f o l hf
    split
    · rfl
    · simp [nodesOfList_singleton, nodesOf_mk, field_mk, hf]
  have hc : (nodesOfList (if cut = true then [.mk "bgp.truncated" (base + ((partsBytes h).length + (partsBytes body).length)) 0 []]
      else [])).filter (·.field == x) = [] := by
    split
    · simp [nodesOfList_singleton, nodesOf_mk, field_mk, h2]
    · rfl
  show (nodesOfList (Part.nodes base (.msg h cut body extra) ++ partsNodes _ [])).filter _ = _
  simp only [Part.nodes, partsNodes_nil, List.append_nil, nodesOfList_singleton, nodesOf_mk, List.filter_cons, field_mk,
    nodesOfList_append, List.filter_append, beq_iff_eq]
  rw [if_neg h1, hc, ht _ _ _ _ h3]
  simp [sel]

mutual
theorem part_fields : ∀ (p : Part) (base : Nat) (n : Node), n ∈ nodesOfList (p.nodes base) → n.field ∈ Part.fields p
  | .gap _, _, n => by simp
  | .group f ps, base, n => by
    simp only [group_nodes, nodesOfList_singleton, nodesOf_mk, List.mem_cons, Part.fields]
    rintro (rfl | h)
    · exact .inl rfl
    · exact .inr (parts_fields ps base n h)
  | .msg h cut body extra, base, n => by
    simp only [Part.nodes, nodesOfList_singleton, nodesOf_mk, List.mem_cons, Part.fields, nodesOfList_append, List.mem_append]
    rintro (rfl | ((h1 | h1) | h1) | h1)
    · simp [Node.field]
    · exact .inl (.inr (parts_fields h _ n h1))
    · split at h1
      · simp only [nodesOfList_singleton, nodesOf_mk, nodesOfList_nil, List.mem_singleton] at h1
        subst h1
        simp [Node.field]
      · simp at h1
    · exact .inr (parts_fields body _ n h1)
    · split at h1
      · simp at h1
      · simp only [nodesOfList_singleton, nodesOf_mk, nodesOfList_nil, List.mem_singleton] at h1
        subst h1
        simp [Node.field]
theorem parts_fields : ∀ (ps : List Part) (base : Nat) (n : Node), n ∈ nodesOfList (partsNodes base ps) → n.field ∈ partsFields ps
  | [], _, n => by simp
  | p :: ps, base, n => by
    simp only [partsNodes_cons, nodesOfList_append, List.mem_append, partsFields]
    rintro (h | h)
    · exact .inl (part_fields p base n h)
    · exact .inr (parts_fields ps _ n h)
end

/-- parts without attributes and sections -/
def Plain (ps : List Part) : Prop := ∀ f ∈ partsFields ps, f ∈ plainFields

theorem sel_plain {x : String} {ps : List Part} (hp : Plain ps) (hx : x ∉ plainFields) (base : Nat) : sel x base ps = [] := by
  unfold sel
  rw [List.filter_eq_nil_iff]
  intro n hn
  simp only [beq_iff_eq]
  rintro rfl
  exact hx (hp _ (parts_fields ps base n hn))

theorem Plain.nil : Plain [] := by intro f hf; simp [partsFields] at hf
theorem Plain.cons {p : Part} {ps : List Part} (h1 : Plain [p]) (h2 : Plain ps) : Plain (p :: ps) := by
  intro f hf
  simp only [partsFields, List.mem_append] at hf
  rcases hf with hf | hf
  · exact h1 f (by simpa [partsFields] using hf)
  · exact h2 f hf
theorem Plain.append {ps qs : List Part} (h1 : Plain ps) (h2 : Plain qs) : Plain (ps ++ qs) := by
  induction ps with
  | nil => exact h2
  | cons p ps ih =>
    refine .cons (fun f hf => h1 f ?_) (ih (fun f hf => h1 f ?_))
    · simp only [partsFields, List.append_nil, List.mem_append] at hf ⊢; exact .inl hf
    · simp only [partsFields, List.mem_append]; exact .inr hf
theorem Plain.gap (b : Bytes) : Plain [.gap b] := by intro f hf; simp [partsFields, Part.fields] at hf
theorem Plain.leaf {f : String} (b : Bytes) (h : f ∈ plainFields) : Plain [leaf f b] := by
  intro x hx; simp [partsFields, Part.fields, Spec.leaf] at hx; subst hx; exact h
theorem Plain.group {f : String} {ps : List Part} (h : f ∈ plainFields) (hp : Plain ps) : Plain [.group f ps] := by
  intro x hx
  simp only [partsFields, Part.fields, List.append_nil, List.mem_cons] at hx
  rcases hx with rfl | hx
  · exact h
  · exact hp x hx
theorem Plain.shown {f : String} (b : Bytes) (h : f ∈ plainFields) : Plain (shown f b) := by
  unfold Spec.shown; split
  · exact .nil
  · exact .leaf b h
theorem Plain.items {ps : List Part} (h : ∀ e ∈ ps, Plain [e]) : Plain ps := by
  induction ps with
  | nil => exact .nil
  | cons p ps ih => exact .cons (h p (by simp)) (ih (fun e he => h e (by simp [he])))
theorem Plain.walked {Item : Part → Prop} (h : ∀ e, Item e → Plain [e]) {ps : List Part} (hw : Walked Item ps) : Plain ps := by
  obtain ⟨items, rest, rfl, hi, _⟩ := hw
  exact .append (.items fun e he => h e (hi e he)) (.gap rest)

theorem plain_nlri {ap : Bool} {ps : List Part} (hw : Walked (PrefixItem ap) ps) : Plain ps :=
  .walked (by rintro e ⟨_, _, _, _, _, rfl⟩; exact .leaf _ (by decide +kernel)) hw
theorem plain_segments {k : Nat} {ps : List Part} (hw : Walked (SegmentItem k) ps) : Plain ps :=
  .walked (by rintro e ⟨_, _, _, _, rfl⟩; exact .leaf _ (by decide +kernel)) hw
theorem plain_entries {f : String} {k : Nat} {ps : List Part} (hf : f ∈ plainFields) (hw : Walked (EntryItem f k) ps) : Plain ps :=
  .walked (by rintro e ⟨_, _, rfl⟩; exact .leaf _ hf) hw
theorem plain_aigp {ps : List Part} (hw : Walked AigpItem ps) : Plain ps :=
  .walked (by rintro e ⟨_, _, _, rfl⟩; exact .leaf _ (by decide +kernel)) hw
theorem plain_four {f : String} {ps : List Part} (hf : f ∈ plainFields) (h : FourOctets f ps) : Plain ps := by
  obtain ⟨v, rfl⟩ := h
  split
  · exact .leaf _ hf
  · exact .gap _
theorem plain_aggregator {ps : List Part} (h : AggregatorParts ps) : Plain ps := by
  rcases h with ⟨v, _, rfl⟩ | ⟨a, b, _, _, rfl⟩
  · exact .gap _
  · exact .cons (.leaf _ (by decide +kernel)) (.leaf _ (by decide +kernel))
theorem plain_origin {ps : List Part} (h : OriginParts ps) : Plain ps := by
  rcases h with rfl | ⟨v, rest, rfl⟩
  · exact .nil
  · exact .cons (.leaf _ (by decide +kernel)) (.gap _)
theorem plain_mpReach {ap : Bool} {ps : List Part} (h : MpReachParts ap ps) : Plain ps := by
  have h1 : "bgp.attr.mp_reach.afi" ∈ plainFields := by decide +kernel
  have h2 : "bgp.attr.mp_reach.safi" ∈ plainFields := by decide +kernel
  have h3 : "bgp.attr.mp_reach.next_hop_length" ∈ plainFields := by decide +kernel
  have h4 : "bgp.attr.mp_reach.next_hop" ∈ plainFields := by decide +kernel
  have h5 : "bgp.attr.mp_reach.reserved" ∈ plainFields := by decide +kernel
  cases h with
  | short v _ => exact .gap _
  | cutNextHop afi safi n v _ _ => exact .cons (.leaf _ h1) (.cons (.leaf _ h2) (.cons (.leaf _ h3) (.leaf _ h4)))
  | noNlri afi safi n nh _ _ => exact .append (.cons (.leaf _ h1) (.cons (.leaf _ h2) (.leaf _ h3))) (.shown _ h4)
  | full afi safi n nh rs ps _ _ hw =>
    exact .append (.append (.cons (.leaf _ h1) (.cons (.leaf _ h2) (.leaf _ h3))) (.shown _ h4)) (.cons (.leaf _ h5) (plain_nlri hw))
theorem plain_mpUnreach {ap : Bool} {ps : List Part} (h : MpUnreachParts ap ps) : Plain ps := by
  cases h with
  | short v _ => exact .gap _
  | full afi safi ps _ hw => exact .cons (.leaf _ (by decide +kernel)) (.cons (.leaf _ (by decide +kernel)) (plain_nlri hw))

theorem plain_attrValue {k : Nat} {ap : Bool} {c : UInt8} {ps : List Part} (h : AttrValueParts k ap c ps) : Plain ps := by
  unfold AttrValueParts at h
  split at h
  all_goals first
    | exact plain_origin h
    | exact plain_segments h
    | exact plain_four (by decide +kernel) h
    | exact plain_aggregator h
    | exact plain_entries (by decide +kernel) h
    | exact plain_aigp h
    | exact plain_mpReach h
    | exact plain_mpUnreach h
    | (obtain ⟨v, rfl⟩ := h; exact .gap _)

theorem plain_refresh {ps : List Part} (h : RefreshParts ps) : Plain ps := by
  cases h with
  | short b _ => exact .gap _
  | full afi sub safi b _ =>
    exact .append (.cons (.leaf _ (by decide +kernel)) (.cons (.leaf _ (by decide +kernel)) (.leaf _ (by decide +kernel))))
      (.shown _ (by decide +kernel))

end Verif
