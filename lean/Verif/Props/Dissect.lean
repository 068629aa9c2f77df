import Verif.Lemmas.DissectTree
/-
C53: dissection trees.

A description (`Spec/Dissect.lean`) of a message says which named fields follow each other; it fixes the bytes and the
tree. The theorems: every byte string has a description; whatever is described, the dissector returns the tree of the
description; the trees are nested, apart from the bytes after the end of a BGP message.
-/
namespace Verif.Props
open Spec

/-- The width of an AS number in octets. -/
def octetsOf : AsnLen → Nat
  | .b16 => 2
  | .b32 => 4

theorem octetsOf_eq (l : AsnLen) : l.octets = octetsOf l := by cases l <;> rfl

/-- C53: `dissect_bgp_message` on the bytes of a described BGP message returns the tree of the description: the same
fields, at the offsets and with the lengths that the description gives them. -/
theorem c53_bgp_tree (l : AsnLen) (addPath : Bool) (p : Part) (h : BgpPart (octetsOf l) addPath p)
    (hlen : p.bytes.length < 4294967296) :
    ∃ t, dissectBgpMessage p.bytes l addPath = some t ∧ p.nodes 0 = [t] := by
  rw [← octetsOf_eq] at h
  have := dissectBgpBase_part h 0 (by omega)
  unfold dissectBgpMessage
  cases hn : dissectBgpBase p.bytes 0 l addPath with
  | none => rw [hn] at this; cases this
  | some t =>
    rw [hn] at this
    simp at this
    exact ⟨t, rfl, this.symm⟩

/-- A description: an UPDATE with one withdrawn route (10.0.0.0/8), an ORIGIN attribute and one announced route. -/
def exampleUpdate : Part :=
  .msg (headerParts (List.replicate 16 0xFF) 31 2) false
    [.group "bgp.update" (leaf "bgp.update.withdrawn_routes.length" (n16 2)
      :: (section' "bgp.update.withdrawn_routes" [leaf "bgp.nlri.prefix" [8, 10], .gap []]
      ++ leaf "bgp.update.path_attributes.length" (n16 4)
      :: (section' "bgp.update.path_attributes" [.group (attrName 1) [leaf "bgp.attr.flags" [0x40], leaf "bgp.attr.type" [1],
            leaf "bgp.attr.length" [1], .group "bgp.attr.value" [leaf "bgp.attr.origin" [0], .gap []]], .gap []]
        ++ section' "bgp.update.nlri" [leaf "bgp.nlri.prefix" [8, 11], .gap []])))] []

example : BgpPart (octetsOf .b32) false exampleUpdate := by
  have hp : ∀ x : UInt8, Walked (PrefixItem false) [leaf "bgp.nlri.prefix" [8, x], .gap []] := by
    intro x
    refine ⟨[leaf "bgp.nlri.prefix" [8, x]], [], rfl, ?_, ?_⟩
    · simp only [List.mem_singleton, forall_eq]
      exact ⟨[], 8, [x], rfl, rfl, rfl⟩
    · rintro e t ⟨_, _, _, _, _, rfl⟩; simp
  have ha : AttrListParts 4 false [.group (attrName 1) [leaf "bgp.attr.flags" [0x40], leaf "bgp.attr.type" [1],
      leaf "bgp.attr.length" [1], .group "bgp.attr.value" [leaf "bgp.attr.origin" [0], .gap []]], .gap []] := by
    refine ⟨[_], _, rfl, ?_, .rest [] (by intros; simp)⟩
    simp only [List.mem_singleton, forall_eq]
    exact ⟨0x40, 1, [1], _, ⟨by decide, rfl⟩, Or.inr ⟨0, [], rfl⟩, rfl⟩
  exact .whole _ 31 2 _ [] rfl (by decide)
    (.update _ (.full _ _ (by decide) (hp 10) (.full _ _ (by decide) ha (hp 11)))) rfl

example : exampleUpdate.bytes = List.replicate 16 0xFF ++ [0, 31, 2, 0, 2, 8, 10, 0, 4, 0x40, 1, 1, 0, 8, 11] := rfl
example : dissectBgpMessage exampleUpdate.bytes .b32 false = some (.mk "bgp" 0 31 [
    .mk "bgp.header" 0 19 [.mk "bgp.header.marker" 0 16 [], .mk "bgp.header.length" 16 2 [], .mk "bgp.header.type" 18 1 []],
    .mk "bgp.update" 19 12 [.mk "bgp.update.withdrawn_routes.length" 19 2 [],
      .mk "bgp.update.withdrawn_routes" 21 2 [.mk "bgp.nlri.prefix" 21 2 []],
      .mk "bgp.update.path_attributes.length" 23 2 [],
      .mk "bgp.update.path_attributes" 25 4 [.mk "bgp.attr.1" 25 4 [.mk "bgp.attr.flags" 25 1 [], .mk "bgp.attr.type" 26 1 [],
        .mk "bgp.attr.length" 27 1 [], .mk "bgp.attr.value" 28 1 [.mk "bgp.attr.origin" 28 1 []]]],
      .mk "bgp.update.nlri" 29 2 [.mk "bgp.nlri.prefix" 29 2 []]]]) := by rfl

/-- C53: every byte string is described. -/
theorem c53_bgp_described (l : AsnLen) (addPath : Bool) (d : Bytes) : ∃ p, BgpPart (octetsOf l) addPath p ∧ p.bytes = d := by
  rw [← octetsOf_eq]; exact bgp_exists l addPath d

/-- C53: `dissect_mrt_bytes` on the bytes of a described MRT record returns the tree of the description. -/
theorem c53_mrt_tree (ps : List Part) (h : MrtParts ps) (hlen : (partsBytes ps).length < 4294967296) :
    dissectMrtBytes (partsBytes ps) = some (.mk "mrt" 0 (partsBytes ps).length (partsNodes 0 ps)) := by
  have := dissectMrtBytes_parts h hlen
  cases hn : dissectMrtBytes (partsBytes ps) with
  | none => rw [hn] at this; cases this
  | some t => rw [hn] at this; simp at this; rw [this]

/-- C53: every byte string is described. -/
theorem c53_mrt_described (d : Bytes) : ∃ ps, MrtParts ps ∧ partsBytes ps = d := mrt_exists d

/-- C53: dissecting bytes never panics, whatever they are (up to 4 GiB, where offsets no longer fit `u32`). -/
theorem c53_no_panic (d : Bytes) (hlen : d.length < 4294967296) :
    (∀ l addPath, ∃ t, dissectBgpMessage d l addPath = some t) ∧ ∃ t, dissectMrtBytes d = some t := by
  constructor
  · intro l addPath
    obtain ⟨p, hp, rfl⟩ := c53_bgp_described l addPath d
    obtain ⟨t, ht, _⟩ := c53_bgp_tree l addPath p hp hlen
    exact ⟨t, ht⟩
  · obtain ⟨ps, hp, rfl⟩ := c53_mrt_described d
    exact ⟨_, c53_mrt_tree ps hp hlen⟩

/-- What C53 claims of a tree for `size` bytes: every node lies in the input and inside its parent, and no two children of
a node share a byte. -/
def Nested (size : Nat) (t : Node) : Prop :=
  ∀ n, InTree t n → n.offset + n.length ≤ size ∧ (∀ c ∈ n.children, Inside c n) ∧ n.children.Pairwise Apart

/-- The same, but a node `bgp.trailing` follows the bytes of its parent, a BGP message. -/
def NestedExceptTrailing (size : Nat) (t : Node) : Prop :=
  ∀ n, InTree t n → n.offset + n.length ≤ size ∧ (∀ c ∈ n.children, Inside c n ∨ After c n) ∧ n.children.Pairwise Apart

/-- C53, partial: the claim that every node is inside its parent fails for `bgp.trailing` (`c53_trailing_outside`); every
other node is inside its parent, every node is inside the input, and siblings have no byte in common. -/
theorem c53_nested_partial (d : Bytes) (hlen : d.length < 4294967296) :
    (∀ l addPath t, dissectBgpMessage d l addPath = some t → NestedExceptTrailing d.length t) ∧
    ∀ t, dissectMrtBytes d = some t → NestedExceptTrailing d.length t := by
  constructor
  · intro l addPath t ht
    obtain ⟨p, hp, rfl⟩ := c53_bgp_described l addPath d
    obtain ⟨t', ht', hn⟩ := c53_bgp_tree l addPath p hp hlen
    rw [ht] at ht'
    cases ht'
    intro n hw
    have := (part_good p 0).1 t (by rw [hn]; simp) n hw
    exact ⟨by omega, this.2.2⟩
  · intro t ht
    obtain ⟨ps, hp, rfl⟩ := c53_mrt_described d
    rw [c53_mrt_tree ps hp hlen] at ht
    cases ht
    intro n hw
    have := (part_good (.group "mrt" ps) 0).1 _ (by simp) n hw
    exact ⟨by simpa using this.2.1, this.2.2⟩

/-- C53: a tree without a `bgp.trailing` node is nested as claimed. -/
theorem c53_nested_without_trailing (d : Bytes) (hlen : d.length < 4294967296) (t : Node)
    (ht : (∃ l addPath, dissectBgpMessage d l addPath = some t) ∨ dissectMrtBytes d = some t)
    (hno : t.find "bgp.trailing" = none) : Nested d.length t := by
  have hn : NestedExceptTrailing d.length t := by
    rcases ht with ⟨l, addPath, ht⟩ | ht
    · exact (c53_nested_partial d hlen).1 l addPath t ht
    · exact (c53_nested_partial d hlen).2 t ht
  intro n hw
  refine ⟨(hn n hw).1, ?_, (hn n hw).2.2⟩
  intro c hc
  rcases (hn n hw).2.1 c hc with h | h
  · exact h
  · exfalso
    rw [find_find?, List.find?_eq_none] at hno
    have := hno c ((mem_nodesOf t c).2 (.child n c hw hc))
    simp [h.2.1] at this

/-- C53: the tree of a BGP message is nested as claimed if the length in its header is at least the number of bytes
given (or if there is no complete header). -/
theorem c53_declared_length (d : Bytes) (l : AsnLen) (addPath : Bool) (hlen : d.length < 4294967296)
    (hdecl : d.length < 19 ∨ ∃ n, getU16 d 16 = some n ∧ d.length ≤ n) (t : Node)
    (ht : dissectBgpMessage d l addPath = some t) : Nested d.length t := by
  obtain ⟨p, hp, rfl⟩ := c53_bgp_described l addPath d
  obtain ⟨t', ht', hn⟩ := c53_bgp_tree l addPath p hp hlen
  rw [ht] at ht'
  cases ht'
  have hs : StrictTree t := by
    cases hp with
    | short b hb =>
      refine part_strict _ 0 ?_ t (by rw [hn]; simp)
      simp
    | whole m n ty body extra hm hn' hbody hl =>
      rw [msg_bytes, headerParts_bytes] at hdecl
      have hx : extra = [] := by
        apply List.length_eq_zero_iff.1
        rcases hdecl with h | ⟨k, hk, hle⟩
        · simp at h; omega
        · rw [List.append_assoc, ← Nat.add_zero 16, ← hm, getU16_pre, List.append_assoc, getU16_n16 hn'] at hk
          cases hk
          simp at hle
          omega
      subst hx
      exact msg_strict hbody 0 t (by rw [hn]; simp)
    | cut m n ty body hm hn' hbody hl => exact msg_strict hbody 0 t (by rw [hn]; simp)
  intro n hw
  have h1 := (part_good p 0).1 t (by rw [hn]; simp) n hw
  exact ⟨by omega, hs n hw, h1.2.2.2⟩

/-- The negation of C53 in general: a KEEPALIVE of 19 bytes followed by one more byte. The root covers the 19 bytes of the
message; its child `bgp.trailing` covers the byte after them. -/
theorem c53_trailing_outside : ∃ d t c, dissectBgpMessage d .b32 false = some t ∧ c ∈ t.children ∧ ¬ Inside c t :=
  ⟨List.replicate 16 0xFF ++ [0, 19, 4, 0],
    .mk "bgp" 0 19 [.mk "bgp.header" 0 19 [.mk "bgp.header.marker" 0 16 [], .mk "bgp.header.length" 16 2 [],
      .mk "bgp.header.type" 18 1 []], .mk "bgp.trailing" 19 1 []],
    .mk "bgp.trailing" 19 1 [], rfl, by simp [Node.children], fun h => absurd h.2 (by decide)⟩

/-- C53: `find_all` returns the nodes with the field, a node before its descendants and these before its next sibling;
`find` returns the first of them. -/
theorem c53_find (t : Node) (field : String) :
    (∀ n, n ∈ t.findAll field ↔ InTree t n ∧ n.field = field) ∧
    t.findAll field = (nodesOf t).filter (·.field == field) ∧
    t.find field = (t.findAll field).head? := by
  refine ⟨?_, findAll_filter field t, ?_⟩
  · intro n
    rw [findAll_filter, List.mem_filter, mem_nodesOf]
    simp
  · rw [find_find?, findAll_filter, List.head?_filter]

/-- C53: what the dissector of a raw MRT record is given: its header and its body. -/
theorem c53_record (r : Raw) (hlen : (r.headerBytes ++ r.body).length < 4294967296) :
    ∃ ps, MrtParts ps ∧ partsBytes ps = r.headerBytes ++ r.body ∧
      dissectMrtRecord r = some (.mk "mrt" 0 (r.headerBytes ++ r.body).length (partsNodes 0 ps)) := by
  obtain ⟨ps, hp, hb⟩ := c53_mrt_described (r.headerBytes ++ r.body)
  refine ⟨ps, hp, hb, ?_⟩
  unfold dissectMrtRecord
  rw [← hb] at hlen ⊢
  exact c53_mrt_tree ps hp hlen

end Verif.Props
