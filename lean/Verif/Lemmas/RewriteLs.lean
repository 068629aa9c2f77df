import Verif.Lemmas.Rewrite
/-
The link-state attribute, read and written.
-/
namespace Verif
open Spec

def mapSize (m : List (UInt16 × Bytes)) : Nat := (m.map fun p => 4 + p.2.length).sum
def tlvSize (ts : List Tlv16) : Nat := (ts.map fun t => 4 + t.value.length).sum

theorem mapInsert_mem {k : UInt16} {v : Bytes} : ∀ {m : List (UInt16 × Bytes)} {p : UInt16 × Bytes},
    p ∈ mapInsert k v m → p = (k, v) ∨ p ∈ m
  | [], p, h => by simp [mapInsert] at h; exact .inl h
  | (k', v') :: m, p, h => by
    simp only [mapInsert] at h
    split at h
    · rcases List.mem_cons.mp h with h | h
      · exact .inl h
      · exact .inr (by simp [h])
    · rcases List.mem_cons.mp h with h | h
      · exact .inr (by simp [h])
      · rcases mapInsert_mem h with h | h
        · exact .inl h
        · exact .inr (by simp [h])

theorem mapInsert_nodup {k : UInt16} {v : Bytes} : ∀ {m : List (UInt16 × Bytes)}, (m.map Prod.fst).Nodup →
    ((mapInsert k v m).map Prod.fst).Nodup
  | [], _ => by simp [mapInsert]
  | (k', v') :: m, h => by
    simp only [mapInsert]
    simp only [List.map_cons, List.nodup_cons] at h
    split
    · rename_i e
      subst e
      simpa using h
    · rename_i e
      simp only [List.map_cons, List.nodup_cons]
      refine ⟨?_, mapInsert_nodup h.2⟩
      intro hm
      obtain ⟨p, hp, he⟩ := List.mem_map.mp hm
      rcases mapInsert_mem hp with rfl | hp
      · exact e he.symm
      · exact h.1 (List.mem_map.mpr ⟨p, hp, he⟩)

theorem mapInsert_size (k : UInt16) (v : Bytes) : ∀ m : List (UInt16 × Bytes),
    mapSize (mapInsert k v m) ≤ mapSize m + (4 + v.length)
  | [] => by simp [mapInsert, mapSize]
  | (k', v') :: m => by
    have ih := mapInsert_size k v m
    simp only [mapInsert]
    split
    · simp [mapSize]; omega
    · simp [mapSize] at ih ⊢; omega

/-- what a link-state attribute under construction satisfies. -/
structure LsBuilt (a : LsAttr) (n : Nat) : Prop where
  ok : LsAttrOk a
  vals : (∀ p ∈ a.node ++ a.link ++ a.pfx, p.2.length ≤ 65535) ∧ ∀ t ∈ a.unknown, t.value.length ≤ 65535
  size : mapSize a.node + mapSize a.link + mapSize a.pfx + tlvSize a.unknown ≤ n

theorem LsBuilt.add {a : LsAttr} {n : Nat} (h : LsBuilt a n) {t : Tlv16} (ht : t.value.length ≤ 65535) :
    LsBuilt (a.add t) (n + (4 + t.value.length)) := by
  obtain ⟨⟨h1, h2, h3, h4⟩, ⟨h5, h5'⟩, h6⟩ := h
  by_cases c1 : LsNodeCode t.type
  · rw [lsAdd_node a t c1]
    refine ⟨⟨⟨mapInsert_nodup h1.1, fun p hp => ?_⟩, h2, h3, h4⟩, ⟨fun p hp => ?_, h5'⟩, ?_⟩
    · rcases mapInsert_mem hp with rfl | hp
      · exact c1
      · exact h1.2 p hp
    · simp only [List.mem_append] at hp h5
      rcases hp with (hp | hp) | hp
      · rcases mapInsert_mem hp with rfl | hp
        · exact ht
        · exact h5 p (.inl (.inl hp))
      · exact h5 p (.inl (.inr hp))
      · exact h5 p (.inr hp)
    · have := mapInsert_size t.type t.value a.node
      simp only; omega
  · by_cases c2 : LsLinkCode t.type
    · rw [lsAdd_link a t c2]
      refine ⟨⟨h1, ⟨mapInsert_nodup h2.1, fun p hp => ?_⟩, h3, h4⟩, ⟨fun p hp => ?_, h5'⟩, ?_⟩
      · rcases mapInsert_mem hp with rfl | hp
        · exact c2
        · exact h2.2 p hp
      · simp only [List.mem_append] at hp h5
        rcases hp with (hp | hp) | hp
        · exact h5 p (.inl (.inl hp))
        · rcases mapInsert_mem hp with rfl | hp
          · exact ht
          · exact h5 p (.inl (.inr hp))
        · exact h5 p (.inr hp)
      · have := mapInsert_size t.type t.value a.link
        simp only; omega
    · by_cases c3 : LsPrefixCode t.type
      · rw [lsAdd_pfx a t c3]
        refine ⟨⟨h1, h2, ⟨mapInsert_nodup h3.1, fun p hp => ?_⟩, h4⟩, ⟨fun p hp => ?_, h5'⟩, ?_⟩
        · rcases mapInsert_mem hp with rfl | hp
          · exact c3
          · exact h3.2 p hp
        · simp only [List.mem_append] at hp h5
          rcases hp with (hp | hp) | hp
          · exact h5 p (.inl (.inl hp))
          · exact h5 p (.inl (.inr hp))
          · rcases mapInsert_mem hp with rfl | hp
            · exact ht
            · exact h5 p (.inr hp)
        · have := mapInsert_size t.type t.value a.pfx
          simp only; omega
      · rw [lsAdd_unknown a t c1 c2 c3]
        refine ⟨⟨h1, h2, h3, fun x hx => ?_⟩, ⟨h5, fun x hx => ?_⟩, ?_⟩
        · rcases List.mem_append.mp hx with hx | hx
          · exact h4 x hx
          · simp at hx; subst hx; exact ⟨c1, c2, c3⟩
        · rcases List.mem_append.mp hx with hx | hx
          · exact h5' x hx
          · simp at hx; subst hx; exact ht
        · simp [tlvSize] at h6 ⊢; omega

theorem LsBuilt.fold : ∀ (ts : List Tlv16) {a : LsAttr} {n : Nat}, LsBuilt a n → (∀ t ∈ ts, t.value.length ≤ 65535) →
    LsBuilt (ts.foldl LsAttr.add a) (n + tlvSize ts)
  | [], _, _, h, _ => h
  | t :: ts, a, n, h, ht => by
    have := LsBuilt.fold ts (h.add (ht t (by simp))) fun x hx => ht x (by simp [hx])
    simp only [tlvSize, List.map_cons, List.sum_cons, List.foldl_cons] at this ⊢
    rwa [Nat.add_assoc] at this

theorem encAll_tlv16 : ∀ ts : List Tlv16, (∀ t ∈ ts, t.value.length ≤ 65535) →
    ∃ b, encAll encTlv16 ts = .ok b ∧ b.length = tlvSize ts
  | [], _ => ⟨[], rfl, rfl⟩
  | t :: ts, h => by
    obtain ⟨c, hc, hl⟩ := encAll_tlv16 ts fun x hx => h x (by simp [hx])
    refine ⟨_, encAll_cons_ok.mpr ⟨_, c, encTlv16_len (h t (by simp)), hc, rfl⟩, ?_⟩
    simp [tlvSize] at hl ⊢; omega

theorem rdLsTlv_back {s r : Bytes} {t : Tlv16} (h : rdLsTlv s = .ok (t, r)) :
    t.value.length ≤ 65535 ∧ 4 + t.value.length + r.length = s.length := by
  unfold rdLsTlv at h
  rw [Rd.bind_eq_ok] at h; obtain ⟨ty, s1, h1, h⟩ := h
  rw [Rd.bind_eq_ok] at h; obtain ⟨l, s2, h2, h⟩ := h
  rw [Rd.bind_eq_ok] at h; obtain ⟨v, s3, h3, h⟩ := h
  cases h
  obtain ⟨rfl, hv⟩ := rdN_ok h3
  have := l.toNat_lt
  rw [rdU16_ok h1, rdU16_ok h2]
  refine ⟨by simp only; omega, ?_⟩
  simp; omega

theorem parseLsAttr_back {s : Bytes} {a : LsAttr} (h : parseLsAttr s = .ok a) :
    LsAttrOk a ∧ ∃ b, encodeLsAttr a = .ok b ∧ b.length ≤ s.length := by
  unfold parseLsAttr at h
  cases hw : whileGe 4 rdLsTlv s with
  | error e => rw [hw] at h; cases h
  | ok ts =>
    rw [hw] at h
    cases h
    have hall : ∀ t ∈ ts, t.value.length ≤ 65535 :=
      whileGe_all (P := fun t : Tlv16 => t.value.length ≤ 65535) (fun _ _ _ h => (rdLsTlv_back h).1) hw
    have hsz : tlvSize ts ≤ s.length := by
      obtain ⟨b, hb, hl⟩ := encAll_tlv16 ts hall
      obtain ⟨c, hc, hcl⟩ := encAll_of_whileGe (f := encTlv16) (Q := fun _ => True) (fun s a r h _ => by
        obtain ⟨h1, h2⟩ := rdLsTlv_back h
        refine ⟨_, encTlv16_len h1, ?_⟩
        simp; omega) hw (fun _ _ => trivial)
      rw [hb] at hc; cases hc; omega
    have hb := LsBuilt.fold ts (a := ⟨[], [], [], []⟩) (n := 0)
      ⟨⟨by simp, by simp, by simp, by simp⟩, by simp, by simp [mapSize, tlvSize]⟩ hall
    generalize List.foldl LsAttr.add _ ts = a at hb
    refine ⟨hb.ok, ?_⟩
    obtain ⟨b, he, hl⟩ := encAll_tlv16 ((a.node ++ a.link ++ a.pfx).map (fun p => ⟨p.1, p.2⟩) ++ a.unknown) (by
      intro t ht
      rcases List.mem_append.mp ht with ht | ht
      · obtain ⟨p, hp, rfl⟩ := List.mem_map.mp ht
        exact hb.vals.1 p hp
      · exact hb.vals.2 t ht)
    refine ⟨b, he, ?_⟩
    have := hb.size
    rw [hl]
    simp only [tlvSize, mapSize, List.map_append, List.map_map, List.sum_append, Function.comp_def] at this hsz ⊢
    omega

end Verif
