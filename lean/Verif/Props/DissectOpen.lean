import Verif.Props.DissectMessages
import Verif.Model.DissectOpen
import Verif.Spec.DissectOpen
/-
C110 for the optional parameters of an OPEN.
-/
namespace Verif.Props
open Spec

theorem n16_of_octets (a b : UInt8) : n16 (u16of a b).toNat = [a, b] := by rw [← be16_n16, be16_u16of]

theorem capTitle_name (c : UInt8) : capTitle c = (capName c.toNat).toList := by
  have h : ∀ n, n < 256 → capTitle (UInt8.ofNat n) = (capName (UInt8.ofNat n).toNat).toList := by decide +kernel
  have := h c.toNat c.toNat_lt
  rwa [UInt8.ofNat_toNat] at this

theorem capability_octets {s r : Bytes} {c : Capability} (h : rdCapability s = .ok (c, r)) :
    ∃ (n : UInt8) (v : Bytes), s = c.ty :: n :: (v ++ r) ∧ v.length = n.toNat := by
  unfold rdCapability at h
  rw [Rd.bind_eq_ok] at h; obtain ⟨code, t1, k1, h⟩ := h
  rw [Rd.bind_eq_ok] at h; obtain ⟨len, t2, k2, h⟩ := h
  rw [Rd.bind_eq_ok] at h; obtain ⟨d, t3, k3, h⟩ := h
  rw [Rd.bind_eq_ok] at h; obtain ⟨v, t4, k4, h⟩ := h
  have e1 := rdU8_ok k1
  have e2 := rdU8_ok k2
  obtain ⟨e3, e3l⟩ := rdN_ok k3
  have e4 : t4 = t3 := by
    cases hv : capValue code d with
    | error e => rw [hv] at k4; cases k4
    | ok x => rw [hv] at k4; cases k4; rfl
  cases h
  subst e1 e2 e3 e4
  exact ⟨len, d, rfl, e3l⟩

theorem capTrees_shown : ∀ (fuel : Nat) (s : Bytes) (cs : List Capability) (k : Nat), whileGeFuel 2 rdCapability fuel s = .ok cs →
    s.length < k → EachShown CapShows cs (capTreesLoop k s) s := by
  have short : ∀ (s : Bytes) (k : Nat), s.length < 2 → EachShown CapShows [] (capTreesLoop k s) s := by
    intro s k hs
    have e : capTreesLoop k s = [] := by
      rcases s with _ | ⟨a, _ | ⟨b, s⟩⟩
      · cases k <;> rfl
      · cases k <;> rfl
      · simp at hs; omega
    rw [e]; exact .nil hs
  intro fuel
  induction fuel with
  | zero =>
    intro s cs k h hk
    simp only [whileGeFuel] at h
    split at h
    · cases h; exact short s k ‹_›
    · cases h
  | succ fuel ih =>
    intro s cs k h hk
    simp only [whileGeFuel] at h
    split at h
    · cases h; exact short s k ‹_›
    · cases h1 : rdCapability s with
      | error e => rw [h1] at h; cases h
      | ok x =>
        obtain ⟨c, r⟩ := x
        rw [h1] at h
        dsimp only at h
        cases h2 : whileGeFuel 2 rdCapability fuel r with
        | error e => rw [h2] at h; cases h
        | ok as =>
          rw [h2] at h
          cases h
          obtain ⟨n, v, rfl, hv⟩ := capability_octets h1
          cases k with
          | zero => simp at hk
          | succ k =>
            have hq : ¬ (v ++ r).length < n.toNat := by rw [List.length_append]; omega
            have hd : (v ++ r).drop n.toNat = r := List.drop_left' hv
            simp only [capTreesLoop, if_neg hq, hd]
            have := ih r as k h2 (by simp at hk; omega)
            refine EachShown.cons (o := c.ty :: n :: v) ⟨?_, v, ?_, ?_, ?_⟩ this
            · unfold capShown; rw [capTitle_name]; rfl
            · rw [hv]; exact n.toNat_lt
            · rw [hv]; simp
            · unfold capFieldsShown; rw [capTitle_name, hv]; rfl

theorem param_octets {ext : Bool} {ty : UInt8} {s r : Bytes} {p : OptParam} (h : rdOpenParam ext ty s = .ok (p, r)) :
    p.type = ty ∧ ∃ v : Bytes, v.length < (if ext then 65536 else 256) ∧ s = paramLength ext v.length ++ (v ++ r) ∧
      ((ty = 2 ∧ ∃ cs, p.value = .caps cs ∧ whileGe 2 rdCapability v = .ok cs) ∨ (ty ≠ 2 ∧ p.value = .raw v)) := by
  unfold rdOpenParam at h
  rw [Rd.bind_eq_ok] at h; obtain ⟨len, t1, k1, h⟩ := h
  have e1 : len < (if ext then 65536 else 256) ∧ s = paramLength ext len ++ t1 := by
    cases ext with
    | true =>
      simp only [if_true] at k1
      rw [Rd.bind_eq_ok] at k1; obtain ⟨l, t2, k2, k1⟩ := k1
      cases k1
      obtain ⟨a, b, e, rfl⟩ := rdU16_bytes k2
      refine ⟨(u16of a b).toNat_lt, ?_⟩
      rw [e]
      show _ = n16 (u16of a b).toNat ++ t1
      rw [n16_of_octets]
      rfl
    | false =>
      simp only [Bool.false_eq_true, if_false] at k1
      rw [Rd.bind_eq_ok] at k1; obtain ⟨l, t2, k2, k1⟩ := k1
      cases k1
      have e := rdU8_ok k2
      refine ⟨l.toNat_lt, ?_⟩
      rw [e]
      simp [paramLength]
  obtain ⟨hlt, rfl⟩ := e1
  by_cases ht : ty = 2
  · rw [if_pos ht] at h
    rw [Rd.bind_eq_ok] at h; obtain ⟨_, t2, k2, h⟩ := h
    rw [Rd.bind_eq_ok] at h; obtain ⟨d, t3, k3, h⟩ := h
    rw [Rd.bind_eq_ok] at h; obtain ⟨cs, t4, k4, h⟩ := h
    have e2 : t2 = t1 := by
      simp only [needN] at k2
      split at k2 <;> cases k2
      rfl
    obtain ⟨e3, e3l⟩ := splitTo_ok k3
    cases hw : whileGe 2 rdCapability d with
    | error e => rw [hw] at k4; cases k4
    | ok x =>
      rw [hw] at k4
      cases k4
      cases h
      subst e2 e3 e3l
      exact ⟨rfl, d, hlt, rfl, .inl ⟨ht, _, rfl, hw⟩⟩
  · rw [if_neg ht] at h
    rw [Rd.bind_eq_ok] at h; obtain ⟨b, t2, k2, h⟩ := h
    obtain ⟨e3, e3l⟩ := rdN_ok k2
    cases h
    subst e3 e3l
    exact ⟨rfl, b, hlt, rfl, .inr ⟨ht, rfl⟩⟩

theorem paramTreeHead_octets (ext : Bool) (ty : UInt8) (n : Nat) (r : Bytes) (h : n < (if ext then 65536 else 256)) :
    paramTreeHead ext (ty :: (paramLength ext n ++ r)) = some (ty, n, r) := by
  cases ext with
  | true =>
    simp only [if_true] at h
    show some (ty, (u16of _ _).toNat, r) = _
    rw [n16_number h]
  | false =>
    simp only [Bool.false_eq_true, if_false] at h
    show some (ty, (UInt8.ofNat n).toNat, r) = _
    rw [UInt8.toNat_ofNat_of_lt' h]

/-- one parameter that the parser reads, and the loop from there on. -/
theorem paramTrees_cons {ext : Bool} {ty : UInt8} {s r : Bytes} {p : OptParam} {k : Nat} {ps : List OptParam}
    (h : rdOpenParam ext ty s = .ok (p, r)) (ih : EachShown (ParamShows ext) ps (paramTreesLoop ext k r) r) :
    EachShown (ParamShows ext) (p :: ps) (paramTreesLoop ext (k + 1) (ty :: s)) (ty :: s) := by
  obtain ⟨rfl, v, hlt, rfl, hv⟩ := param_octets h
  have hq : ¬ (v ++ r).length < v.length := by rw [List.length_append]; omega
  have hd : (v ++ r).drop v.length = r := List.drop_left' rfl
  have ht : (v ++ r).take v.length = v := List.take_left' rfl
  have e : p.type :: (paramLength ext v.length ++ (v ++ r)) = ([p.type] ++ paramLength ext v.length ++ v) ++ r := by simp
  simp only [paramTreesLoop]
  rw [paramTreeHead_octets ext _ _ _ hlt]
  simp only [if_neg hq, hd, ht]
  rw [e]
  refine EachShown.cons ⟨v, hlt, rfl, rfl, ?_⟩ ih
  rcases hv with ⟨h2, cs, hc, hw⟩ | ⟨h2, hc⟩
  · rw [hc]
    simp only [if_pos h2]
    exact ⟨h2, rfl, capTrees_shown _ v cs _ hw (Nat.lt_succ_self _)⟩
  · rw [hc]
    simp only [if_neg h2]
    refine ⟨h2, ?_, ?_, ?_⟩ <;> first | trivial | rfl

theorem paramTrees_short (ext : Bool) (s : Bytes) (k : Nat) (hs : s.length < 2) :
    EachShown (ParamShows ext) [] (paramTreesLoop ext k s) s := by
  have e : paramTreesLoop ext k s = [] := by
    rcases s with _ | ⟨a, _ | ⟨b, s⟩⟩
    · cases k <;> rfl
    · cases k <;> rfl
    · simp at hs; omega
  rw [e]; exact .nil hs

theorem param_shorter {ext : Bool} {ty : UInt8} {s r : Bytes} {p : OptParam} (h : rdOpenParam ext ty s = .ok (p, r)) :
    r.length ≤ s.length := by
  obtain ⟨_, v, _, rfl, _⟩ := param_octets h
  simp only [List.length_append]; omega

theorem paramTrees_shown (ext : Bool) : ∀ (fuel : Nat) (s : Bytes) (ps : List OptParam) (k : Nat),
    whileGeFuel 2 (rdNextParam ext) fuel s = .ok ps → s.length < k →
    EachShown (ParamShows ext) ps (paramTreesLoop ext k s) s := by
  intro fuel
  induction fuel with
  | zero =>
    intro s cs k h hk
    simp only [whileGeFuel] at h
    split at h
    · cases h; exact paramTrees_short ext s k ‹_›
    · cases h
  | succ fuel ih =>
    intro s cs k h hk
    simp only [whileGeFuel] at h
    split at h
    · cases h; exact paramTrees_short ext s k ‹_›
    · cases h1 : rdNextParam ext s with
      | error e => rw [h1] at h; cases h
      | ok x =>
        obtain ⟨p, r⟩ := x
        rw [h1] at h
        dsimp only at h
        cases h2 : whileGeFuel 2 (rdNextParam ext) fuel r with
        | error e => rw [h2] at h; cases h
        | ok as =>
          rw [h2] at h
          cases h
          unfold rdNextParam at h1
          rw [Rd.bind_eq_ok] at h1; obtain ⟨ty, t, k1, h1⟩ := h1
          have e := rdU8_ok k1
          subst e
          cases k with
          | zero => simp at hk
          | succ k =>
            have := param_shorter h1
            exact paramTrees_cons h1 (ih r as k h2 (by simp at hk; omega))

theorem openParams_shown (o : UInt8) (s : Bytes) (ext : Bool) (ps : List OptParam) (h : parseOpenParams o s = .ok (ext, ps)) :
    (ext = false ∧ (openParamTrees o s).1 = none ∧ EachShown (ParamShows false) ps (openParamTrees o s).2 s) ∨
    (ext = true ∧ ∃ (n : Nat) (r : Bytes), n < 65536 ∧ s = [255] ++ n16 n ++ r ∧
      (openParamTrees o s).1 = some ("Extended optional parameters length: ".toList ++ num n ++ " (RFC 9072)".toList) ∧
      ((n = 0 ∧ ps = [] ∧ (openParamTrees o s).2 = []) ∨
        (n ≠ 0 ∧ EachShown (ParamShows true) ps (openParamTrees o s).2 r))) := by
  unfold parseOpenParams at h
  split at h
  · cases h
    rename_i hs
    refine .inl ⟨rfl, ?_⟩
    rcases s with _ | ⟨a, _ | ⟨b, s⟩⟩
    · exact ⟨rfl, .nil (by simp)⟩
    · exact ⟨rfl, .nil (by simp)⟩
    · simp at hs; omega
  · rename_i hs
    rcases s with _ | ⟨ty, _ | ⟨a, s⟩⟩
    · simp at hs
    · simp at hs
    · have e0 : rdU8 (ty :: a :: s) = .ok (ty, a :: s) := rfl
      rw [e0] at h
      dsimp only at h
      by_cases hb : o = 0 ∧ ty = 255
      · rw [if_pos hb] at h; cases h
      · rw [if_neg hb] at h
        by_cases hx : o ≠ 0 ∧ ty = 255
        · rw [if_pos hx] at h
          refine .inr ?_
          cases h1 : rdU16 (a :: s) with
          | error e => rw [h1] at h; cases h
          | ok x =>
            obtain ⟨el, r⟩ := x
            rw [h1] at h
            dsimp only at h
            obtain ⟨b, c, e, rfl⟩ := rdU16_bytes h1
            cases e
            have hx' : ty = 255 ∧ o ≠ 0 := ⟨hx.2, hx.1⟩
            have et : openParamTrees o (ty :: a :: c :: r) =
                (some (lit "Extended optional parameters length: " ++ decText (u16of a c).toNat ++ lit " (RFC 9072)"),
                  if u16of a c = 0 then [] else paramTreesLoop true (r.length + 1) r) := by
              simp only [openParamTrees, if_pos hx']
            rw [et]
            by_cases h0 : u16of a c = 0
            · rw [if_pos h0] at h
              cases h
              refine ⟨rfl, (u16of a c).toNat, r, (u16of a c).toNat_lt, ?_, rfl, .inl ⟨?_, rfl, if_pos h0⟩⟩
              · rw [n16_of_octets, hx.2]; rfl
              · rw [h0]; rfl
            · rw [if_neg h0] at h
              cases h2 : rdU8 r with
              | error e => rw [h2] at h; cases h
              | ok x =>
                obtain ⟨ty2, r2⟩ := x
                rw [h2] at h
                dsimp only at h
                cases h3 : rdOpenParam true ty2 r2 with
                | error e => rw [h3] at h; cases h
                | ok x =>
                  obtain ⟨p, r3⟩ := x
                  rw [h3] at h
                  dsimp only at h
                  cases h4 : whileGe 2 (rdNextParam true) r3 with
                  | error e => rw [h4] at h; cases h
                  | ok qs =>
                    rw [h4] at h
                    cases h
                    have e2 := rdU8_ok h2
                    refine ⟨rfl, (u16of a c).toNat, r, (u16of a c).toNat_lt, ?_, rfl, .inr ⟨?_, ?_⟩⟩
                    · rw [n16_of_octets, hx.2]; rfl
                    · intro hz; exact h0 (UInt16.toNat_inj.mp hz)
                    · simp only [if_neg h0]
                      subst e2
                      have := param_shorter h3
                      exact paramTrees_cons h3 (paramTrees_shown true _ _ _ _ h4 (by simp; omega))
        · rw [if_neg hx] at h
          refine .inl ?_
          cases h3 : rdOpenParam false ty (a :: s) with
          | error e => rw [h3] at h; cases h
          | ok x =>
            obtain ⟨p, r3⟩ := x
            rw [h3] at h
            dsimp only at h
            cases h4 : whileGe 2 (rdNextParam false) r3 with
            | error e => rw [h4] at h; cases h
            | ok qs =>
              rw [h4] at h
              cases h
              have hx' : ¬ (ty = 255 ∧ o ≠ 0) := fun q => hx ⟨q.2, q.1⟩
              have et : openParamTrees o (ty :: a :: s) = (none, paramTreesLoop false ((ty :: a :: s).length + 1) (ty :: a :: s)) := by
                simp only [openParamTrees, if_neg hx']
              rw [et]
              have := param_shorter h3
              exact ⟨rfl, rfl, paramTrees_cons h3 (paramTrees_shown false _ _ _ _ h4 (by simp at this ⊢; omega))⟩

/-- **C110** The optional parameters of an OPEN that the parser reads are shown one by one, in order, each with its type and
the length of its octets, and capabilities one by one with their code and name. The format is shown as extended exactly
when the parser reads it so. -/
theorem c110_open_params (s : Bytes) (m : Open) (h : parseOpen s = .ok m) :
    (m.extended = false ∧ (openTrees s).1 = none ∧ EachShown (ParamShows false) m.params (openTrees s).2 (s.drop 10)) ∨
    (m.extended = true ∧ ∃ (n : Nat) (r : Bytes), n < 65536 ∧ s.drop 10 = [255] ++ n16 n ++ r ∧
      (openTrees s).1 = some ("Extended optional parameters length: ".toList ++ num n ++ " (RFC 9072)".toList) ∧
      ((n = 0 ∧ m.params = [] ∧ (openTrees s).2 = []) ∨
        (n ≠ 0 ∧ EachShown (ParamShows true) m.params (openTrees s).2 r))) := by
  unfold parseOpen at h
  cases h1 : rdOpenHead s with
  | error e => rw [h1] at h; cases h
  | ok x =>
    obtain ⟨⟨v, asn, hold, id, o⟩, r⟩ := x
    rw [h1] at h
    dsimp only at h
    cases h2 : parseOpenParams o r with
    | error e => rw [h2] at h; cases h
    | ok y =>
      obtain ⟨ext, ps⟩ := y
      rw [h2] at h
      cases h
      unfold rdOpenHead at h1
      rw [Rd.bind_eq_ok] at h1; obtain ⟨_, t0, k0, h1⟩ := h1
      rw [Rd.bind_eq_ok] at h1; obtain ⟨v', t1, k1, h1⟩ := h1
      rw [Rd.bind_eq_ok] at h1; obtain ⟨asn', t2, k2, h1⟩ := h1
      rw [Rd.bind_eq_ok] at h1; obtain ⟨hold', t3, k3, h1⟩ := h1
      rw [Rd.bind_eq_ok] at h1; obtain ⟨id', t4, k4, h1⟩ := h1
      rw [Rd.bind_eq_ok] at h1; obtain ⟨o', t5, k5, h1⟩ := h1
      cases h1
      have e0 : t0 = s := by
        simp only [needN] at k0
        split at k0 <;> cases k0
        rfl
      have e1 := rdU8_ok k1
      obtain ⟨a, b, e2, ea⟩ := rdU16_bytes k2
      obtain ⟨c, d, e3, eh⟩ := rdU16_bytes k3
      have e4 := rdVec_ok k4
      have e5 := rdU8_ok k5
      obtain ⟨p, q, u, w, hl⟩ := vec4_list id
      rw [hl] at e4
      subst e0 e5 e4 e3 e2 e1 ea eh
      exact openParams_shown o r ext ps h2

/-- **C110** An OPEN too short for its fixed fields, readable or not, has one label per node. -/
theorem c110_open_short_count (d : Bytes) (base : Nat) (n : Node) (hd : d.length < 10) (h : dissectOpen d base = some n) :
    n.children.length = (openLabels d).length := by
  unfold dissectOpen dissectOpenFields at h
  simp only [Option.bind_eq_bind, Option.bind_eq_some_iff, if_pos hd] at h
  obtain ⟨c, h1, h2⟩ := h
  rw [mkNode_node h2]
  show c.length = _
  rw [pushIf_length h1]
  rcases d with _ | ⟨a0, _ | ⟨a1, _ | ⟨a2, _ | ⟨a3, _ | ⟨a4, _ | ⟨a5, _ | ⟨a6, _ | ⟨a7, _ | ⟨a8, _ | ⟨a9, r⟩⟩⟩⟩⟩⟩⟩⟩⟩⟩
  all_goals first
    | (exfalso; simp only [List.length_cons] at hd; omega)
    | simp [openLabels]

/-- the hypotheses are met: two octets. -/
example : ∃ n, dissectOpen [4, 0] 19 = some n ∧ n.children.length = 1 := ⟨_, rfl, rfl⟩
/-- the hypotheses are met: the capability for AS numbers of four octets, and an unknown parameter after it. -/
example : ∃ m, parseOpen [4, 0, 1, 0, 180, 10, 0, 0, 1, 11, 2, 6, 65, 4, 0, 0, 0, 1, 9, 1, 7] = .ok m ∧ m.params.length = 2 ∧
    m.extended = false := ⟨_, rfl, rfl, rfl⟩
/-- the hypotheses are met: the extended format. -/
example : ∃ m, parseOpen [4, 0, 1, 0, 180, 10, 0, 0, 1, 255, 255, 0, 5, 2, 0, 2, 2, 0] = .ok m ∧ m.params.length = 1 ∧
    m.extended = true := ⟨_, rfl, rfl, rfl⟩

end Verif.Props
