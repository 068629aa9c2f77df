import Verif.Props.DissectUpdate
import Verif.Spec.DissectAttrs
/-
C110 for attribute lists.
-/
namespace Verif.Props
open Spec

theorem attrTreeHead_append {f c : UInt8} {len : Nat} (h : LenFits f len) (t : Bytes) :
    attrTreeHead (headBytes f c len ++ t) = some (f, c, len, t) := by
  have e := isExtended_eq f
  unfold isExtended at e
  unfold LenFits at h
  unfold headBytes attrTreeHead
  by_cases he : ExtendedLength f
  · rw [if_pos he] at h ⊢
    rw [decide_eq_true he] at e
    have k : (u16of (UInt8.ofNat (len / 256)) (UInt8.ofNat (len % 256))).toNat = len := by
      have := n16_number h
      rwa [show UInt8.ofNat (len % 256) = UInt8.ofNat len from by apply UInt8.toNat_inj.mp; simp]
    simp only [List.cons_append, List.nil_append, e, if_true, k]
  · rw [if_neg he] at h ⊢
    rw [decide_eq_false he] at e
    have k : (UInt8.ofNat len).toNat = len := by simp; omega
    simp only [List.cons_append, List.nil_append, e, Bool.false_eq_true, if_false, k]

theorem attrTreeHead_short {r : Bytes} (h : r.length < 3) : attrTreeHead r = none := by
  rcases r with _ | ⟨a, _ | ⟨b, _ | ⟨c, r⟩⟩⟩
  · rfl
  · rfl
  · rfl
  · simp at h; omega

theorem attrTreeHead_broken {r : Bytes} (h : BrokenRest r) : attrTreeHead r = none := by
  obtain ⟨f, c, a, he, rfl⟩ := h
  have e := isExtended_eq f
  unfold isExtended at e
  rw [decide_eq_true he] at e
  simp only [attrTreeHead, e, if_true]

theorem title_eq (c : UInt8) : attrTitle c = titleOf c := by
  have : ∀ n : Fin 256, attrTitle (UInt8.ofNat n.val) = titleOf (UInt8.ofNat n.val) := by decide +kernel
  have h := this ⟨c.toNat, c.toNat_lt⟩
  simpa using h

theorem hexOf_hex2 (b : UInt8) : hex2 b = hexOf b := rfl

/-- **C110** A list of attributes is shown as the attributes that the parser reads from it, in order, whatever follows
the last of them: a header whose length exceeds what is left is shown as cut short, fewer octets are not shown. -/
theorem c110_attributes (env : ShowEnv) (cfg : AttrCfg) (hc : cfg.afi = none ∧ cfg.safi = none ∧ cfg.prefixes = none)
    (ws : List Wire) (hw : ∀ w ∈ ws, w.ok) (r : Bytes) :
    ∀ fuel, (wireBytes ws ++ r).length < fuel → ∃ ts end', attrTreesLoop env cfg.asnLen.octets cfg.addPath fuel (wireBytes ws ++ r) = ts ++ end' ∧
      ts.length = ws.length ∧ (∀ (i : Nat) (w : Wire) (t : AttrTree), ws[i]? = some w → ts[i]? = some t → TreeShows env cfg w t) ∧
      (r.length < 3 ∨ BrokenRest r → end' = []) ∧
      ∀ flag code len there, LenFits flag len → r = headBytes flag code len ++ there → there.length < len →
        ∃ t, end' = [t] ∧ CutShows flag code len there.length t := by
  induction ws with
  | nil =>
    intro fuel hf
    obtain ⟨fuel, rfl⟩ : ∃ k, fuel = k + 1 := ⟨fuel - 1, by omega⟩
    refine ⟨[], _, rfl, rfl, fun i w t h => by simp at h, fun h => ?_, fun f c len t hl e ht => ?_⟩
    · show attrTreesLoop env cfg.asnLen.octets cfg.addPath (fuel + 1) r = []
      rw [attrTreesLoop]
      rcases h with h | h
      · rw [attrTreeHead_short h]
      · rw [attrTreeHead_broken h]
    · show ∃ t', attrTreesLoop env cfg.asnLen.octets cfg.addPath (fuel + 1) r = [t'] ∧ _
      rw [attrTreesLoop, e, attrTreeHead_append hl]
      dsimp only
      rw [if_pos ht]
      rw [title_eq]
      exact ⟨_, rfl, rfl, rfl, rfl⟩
  | cons w ws ih =>
    intro fuel hf
    obtain ⟨fuel, rfl⟩ : ∃ k, fuel = k + 1 := ⟨fuel - 1, by omega⟩
    have hb : wireBytes (w :: ws) ++ r = headBytes w.flag w.code w.value.length ++ (w.value ++ (wireBytes ws ++ r)) := by
      simp [wireBytes, Wire.bytes]
    have hl := headBytes_length w.flag w.code w.value.length
    rw [hb] at hf ⊢
    simp only [List.length_append] at hf
    obtain ⟨ts, end', h1, h2, h3, h4, h5⟩ := ih (fun x hx => hw x (by simp [hx])) fuel (by simp only [List.length_append]; omega)
    rw [attrTreesLoop, attrTreeHead_append (hw w (by simp))]
    dsimp only
    rw [if_neg (by simp), List.take_left, List.drop_left, h1, title_eq]
    refine ⟨_ :: ts, end', rfl, by rw [List.length_cons, List.length_cons, h2], ?_, h4, h5⟩
    intro i x t hi ht
    cases i with
    | zero =>
      cases hi
      cases ht
      exact ⟨rfl, rfl, fun v ls hv hs => c110_value_partial env cfg _ _ v ls hc hv hs⟩
    | succ i => exact h3 i x t hi ht

/-- **C110** For every attribute section that the parser accepts: one tree per attribute, in order, each showing it. -/
theorem c110_attributes_read (env : ShowEnv) (ap : Bool) (l : AsnLen) (s : Bytes) (as : Attributes)
    (h : parseAttributes (updateCfg ap l) s = .ok as) :
    ∃ ws r ts end', (∀ w ∈ ws, w.ok) ∧ s = wireBytes ws ++ r ∧ as.inner.length = ws.length ∧
      attrTrees env l.octets ap s = ts ++ end' ∧ ts.length = ws.length ∧ end'.length ≤ 1 ∧
      ∀ (i : Nat) (w : Wire) (t : AttrTree), ws[i]? = some w → ts[i]? = some t → TreeShows env (updateCfg ap l) w t := by
  obtain ⟨ws, r, hw, rfl, hr | hr⟩ := attr_cut s.length s (Nat.le_refl _)
  · obtain ⟨ts, end', h1, h2, h3, h4, h5⟩ := c110_attributes env (updateCfg ap l) ⟨rfl, rfl, rfl⟩ ws hw r
      ((wireBytes ws ++ r).length + 1) (by omega)
    rw [parse_wires _ ws hw hr] at h
    cases h
    refine ⟨ws, r, ts, end', hw, rfl, by simp, h1, h2, ?_, h3⟩
    rcases hr with hr | ⟨f, c, len, t, hl, e, ht⟩
    · rw [h4 (.inl hr)]; exact Nat.zero_le _
    · obtain ⟨x, hx, _⟩ := h5 f c len t hl e ht
      rw [hx]; exact Nat.le_refl _
  · rw [parse_broken _ ws hw hr] at h
    cases h

/-- the hypotheses are met: ORIGIN, then a MED of which two octets are there. -/
example (env : ShowEnv) : (∃ as, parseAttributes (updateCfg false .b32) [64, 1, 1, 0, 128, 4, 4, 0, 1] = .ok as ∧ as.inner.length = 1) ∧
    (attrTrees env 4 false [64, 1, 1, 0, 128, 4, 4, 0, 1]).map AttrTree.head =
      ["ORIGIN (type 1), 1 bytes".toList, "MULTI_EXIT_DISC (type 4) — truncated (2 of 4 value bytes)".toList] :=
  ⟨⟨_, rfl, rfl⟩, rfl⟩

end Verif.Props
