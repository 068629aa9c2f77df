import Verif.Lemmas.Rewrite
import Verif.Props.Bgp
/-
An OPEN message that was read can be written unless it has a parameter of type 255.
-/
namespace Verif
open Spec

theorem blocks_length {P : α → Bytes → Prop} {k : Nat} (hP : ∀ a b, P a b → b.length = k) {xs : List α} {b : Bytes}
    (h : Blocks P xs b) : b.length = k * xs.length := by
  induction h with
  | nil => rfl
  | cons h1 _ ih => rw [List.length_append, hP _ _ h1, ih, List.length_cons, Nat.mul_add]; omega

theorem capBytes_ok {c : UInt8} {b : Bytes} {v : CapVal} (h : CapBytes c b v) : CapOk c v := by
  cases h with
  | gracefulRestart st rs t h1 h2 h3 => exact ⟨rfl, by rw [UInt16.toNat_ofNat']; omega⟩
  | _ => exact rfl

def capLen : CapVal → Nat
  | .multiprotocol .. => 4
  | .routeRefresh => 0
  | .extNextHop es => 6 * es.length
  | .extMessage => 0
  | .role _ => 1
  | .gracefulRestart _ _ fs => 2 + 4 * fs.length
  | .fourOctetAs _ => 4
  | .addPath fs => 4 * fs.length
  | .raw b => b.length

theorem capBytes_length {c : UInt8} {b : Bytes} {v : CapVal} (h : CapBytes c b v) : b.length = capLen v := by
  have e1 : ∀ e b, EnhBytes e b → b.length = 6 := by rintro e b ⟨x, rfl⟩; simp [n16]
  have e2 : ∀ e b, GrBytes e b → b.length = 4 := by rintro e b ⟨x, rfl, _⟩; simp [n16]
  have e3 : ∀ e b, ApBytes e b → b.length = 4 := by rintro e b rfl; simp [n16]
  cases h with
  | multiprotocol => rfl
  | routeRefresh => rfl
  | extNextHop h => exact blocks_length e1 h
  | extMessage => rfl
  | role => rfl
  | gracefulRestart st rs t h1 h2 h3 => rw [List.length_append, blocks_length e2 h3]; rfl
  | fourOctetAs => rfl
  | addPath h => exact blocks_length e3 h

theorem capVal_back {c : UInt8} {d : Bytes} {v : CapVal} (h : capValue c d = .ok v) :
    CapOk c v ∧ (encCapVal v).length = d.length := by
  rcases (Props.c45_decoded_iff c d v).mp h with h | ⟨rfl, hn⟩
  · have hok := capBytes_ok h
    have hr : ∀ b, v ≠ .raw b := by rintro b rfl; cases h
    exact ⟨hok, (capBytes_length (Props.c45_encoded_layout c v hok hr)).trans (capBytes_length h).symm⟩
  · exact ⟨hn, rfl⟩

theorem rdCapability_back {s r : Bytes} {c : Capability} (h : rdCapability s = .ok (c, r)) :
    CapOk c.ty c.value ∧ ∃ b, encCapability c = .ok b ∧ b.length + r.length ≤ s.length := by
  unfold rdCapability at h
  rw [Rd.bind_eq_ok] at h; obtain ⟨code, s1, h1, h⟩ := h
  rw [Rd.bind_eq_ok] at h; obtain ⟨len, s2, h2, h⟩ := h
  rw [Rd.bind_eq_ok] at h; obtain ⟨d, s3, h3, h⟩ := h
  rw [Rd.bind_eq_ok] at h; obtain ⟨v, s4, h4, h⟩ := h
  obtain ⟨h5, rfl⟩ := lift_inv h4
  clear h4
  cases h
  obtain ⟨g1, g2⟩ := capVal_back h5
  obtain ⟨e3, e4⟩ := rdN_ok h3
  have hl := len.toNat_lt
  have hle : (encCapVal v).length ≤ 255 := by omega
  refine ⟨g1, _, by unfold encCapability; rw [u8Len_ok.mpr ⟨hle, rfl⟩], ?_⟩
  rw [rdU8_ok h1, rdU8_ok h2, e3]
  simp; omega

theorem needN_inv {n : Nat} {s r : Bytes} {u : Unit} (h : needN n s = .ok (u, r)) : r = s := by
  change (if s.length < n then _ else _) = _ at h
  by_cases hlt : s.length < n
  · rw [if_pos hlt] at h; cases h
  · rw [if_neg hlt] at h; cases h; rfl

/-- what encoding needs of a parameter value. -/
theorem rdOpenParam_back {ext : Bool} {ty : UInt8} {s r : Bytes} {p : OptParam} (h : rdOpenParam ext ty s = .ok (p, r)) :
    ParamOk p ∧ p.type = ty ∧ ∃ b, encParamValue p.value = .ok b ∧ 1 + b.length + r.length ≤ s.length := by
  unfold rdOpenParam at h
  rw [Rd.bind_eq_ok] at h; obtain ⟨len, s1, h1, h⟩ := h
  have hs : 1 + s1.length ≤ s.length := by
    cases ext with
    | true =>
      simp only [if_true] at h1
      rw [Rd.bind_eq_ok] at h1; obtain ⟨x, s0, h0, h1⟩ := h1
      cases h1
      rw [rdU16_ok h0]; simp [be16]; omega
    | false =>
      simp only [Bool.false_eq_true, if_false] at h1
      rw [Rd.bind_eq_ok] at h1; obtain ⟨x, s0, h0, h1⟩ := h1
      cases h1
      rw [rdU8_ok h0]; simp; omega
  by_cases h2 : ty = 2
  · rw [if_pos h2] at h
    rw [Rd.bind_eq_ok] at h; obtain ⟨u, s2, hn, h⟩ := h
    rw [Rd.bind_eq_ok] at h; obtain ⟨d, s3, hd, h⟩ := h
    rw [Rd.bind_eq_ok] at h; obtain ⟨cs, s4, hc, h⟩ := h
    obtain ⟨hc', rfl⟩ := lift_inv hc
    cases h
    have hn' : s2 = s1 := needN_inv hn
    subst hn'
    obtain ⟨e1, e2⟩ := splitTo_ok hd
    obtain ⟨bs, hb, hl⟩ := encAll_of_whileGe (Q := fun _ => True) (fun s a r h _ => (rdCapability_back h).2) hc' (fun _ _ => trivial)
    refine ⟨⟨h2, whileGe_all (fun _ _ _ h => (rdCapability_back h).1) hc'⟩, rfl, bs, hb, ?_⟩
    rw [e1, List.length_append] at hs
    omega
  · rw [if_neg h2] at h
    rw [Rd.bind_eq_ok] at h; obtain ⟨d, s3, hd, h⟩ := h
    cases h
    obtain ⟨e1, e2⟩ := rdN_ok hd
    refine ⟨h2, rfl, d, rfl, ?_⟩
    rw [e1, List.length_append] at hs
    omega

theorem rdNextParam_back {ext : Bool} {s r : Bytes} {p : OptParam} (h : rdNextParam ext s = .ok (p, r)) :
    ParamOk p ∧ ∃ b, encParamValue p.value = .ok b ∧ 2 + b.length + r.length ≤ s.length := by
  unfold rdNextParam at h
  rw [Rd.bind_eq_ok] at h; obtain ⟨ty, s1, h1, h⟩ := h
  obtain ⟨g1, _, b, g2, g3⟩ := rdOpenParam_back h
  exact ⟨g1, b, g2, by rw [rdU8_ok h1, List.length_cons]; omega⟩

/-- the parameters of a message: their values encode, within the input. -/
def ParamsFit (ps : List OptParam) (n : Nat) : Prop :=
  (∀ p ∈ ps, ParamOk p) ∧ ((∀ p ∈ ps, p.type ≠ 255) → ∃ qs, collectOk encParam ps = .ok qs ∧ qs.length = ps.length ∧
    2 * qs.length + (qs.map fun q => q.2.length).sum ≤ n)

theorem ParamsFit.nil (n : Nat) : ParamsFit [] n := ⟨by simp, fun _ => ⟨[], rfl, rfl, by simp⟩⟩

theorem ParamsFit.cons {p : OptParam} {ps : List OptParam} {b : Bytes} {n m : Nat} (hp : ParamOk p)
    (hb : encParamValue p.value = .ok b) (h : ParamsFit ps n) (hm : 2 + b.length + n ≤ m) : ParamsFit (p :: ps) m := by
  refine ⟨fun x hx => ?_, fun h255 => ?_⟩
  · rcases List.mem_cons.mp hx with rfl | hx
    · exact hp
    · exact h.1 x hx
  · obtain ⟨qs, h1, h2, h3⟩ := h.2 (fun x hx => h255 x (by simp [hx]))
    refine ⟨(p.type, b) :: qs, ?_, by simp [h2], by simp; omega⟩
    have he : encParam p = .ok (p.type, b) := by unfold encParam; rw [if_neg (h255 p (by simp)), hb]
    unfold collectOk
    rw [he, h1]

theorem nextParams_fit {ext : Bool} : ∀ (fuel : Nat) (s : Bytes) (ps : List OptParam),
    whileGeFuel 2 (rdNextParam ext) fuel s = .ok ps → ParamsFit ps s.length := by
  intro fuel
  induction fuel with
  | zero =>
    intro s ps h
    unfold whileGeFuel at h
    split at h
    · cases h; exact .nil _
    · cases h
  | succ fuel ih =>
    intro s ps h
    unfold whileGeFuel at h
    split at h
    · cases h; exact .nil _
    · cases h1 : rdNextParam ext s with
      | error e => rw [h1] at h; cases h
      | ok v =>
        obtain ⟨p, r⟩ := v
        rw [h1] at h
        simp only at h
        cases h2 : whileGeFuel 2 (rdNextParam ext) fuel r with
        | error e => rw [h2] at h; cases h
        | ok qs =>
          rw [h2] at h
          cases h
          obtain ⟨g1, b, g2, g3⟩ := rdNextParam_back h1
          exact .cons g1 g2 (ih _ _ h2) g3

theorem parseOpenParams_fit {o : UInt8} {s : Bytes} {ext : Bool} {ps : List OptParam} (h : parseOpenParams o s = .ok (ext, ps)) :
    ParamsFit ps s.length := by
  unfold parseOpenParams at h
  by_cases hs : s.length < 2
  · rw [if_pos hs] at h; cases h; exact .nil _
  rw [if_neg hs] at h
  cases h1 : rdU8 s with
  | error e => rw [h1] at h; cases h
  | ok v =>
    obtain ⟨ty, r⟩ := v
    rw [h1] at h
    have e1 := rdU8_ok h1
    have le1 : s.length = 1 + r.length := by rw [e1, List.length_cons]; omega
    simp only at h
    have tail : ∀ {ext0 : Bool} {ty : UInt8} {r : Bytes}, 1 + r.length ≤ s.length → (match rdOpenParam ext0 ty r with
        | .error e => .error e
        | .ok (p, r) =>
          match whileGe 2 (rdNextParam ext0) r with
          | .error e => .error e
          | .ok ps => .ok (ext0, p :: ps) : Except Err (Bool × List OptParam)) = .ok (ext, ps) → ParamsFit ps s.length := by
      intro ext0 ty r hr h
      cases h2 : rdOpenParam ext0 ty r with
      | error e => rw [h2] at h; cases h
      | ok v =>
        obtain ⟨p, r'⟩ := v
        rw [h2] at h
        simp only at h
        cases h3 : whileGe 2 (rdNextParam ext0) r' with
        | error e => rw [h3] at h; cases h
        | ok qs =>
          rw [h3] at h
          cases h
          obtain ⟨g1, _, b, g2, g3⟩ := rdOpenParam_back h2
          exact .cons g1 g2 (nextParams_fit _ _ _ h3) (by omega)
    by_cases c1 : o = 0 ∧ ty = 255
    · rw [if_pos c1] at h; cases h
    rw [if_neg c1] at h
    by_cases c2 : o ≠ 0 ∧ ty = 255
    · rw [if_pos c2] at h
      cases h2 : rdU16 r with
      | error e => rw [h2] at h; cases h
      | ok v =>
        obtain ⟨el, r2⟩ := v
        rw [h2] at h
        have e2 := rdU16_ok h2
        have le2 : r.length = 2 + r2.length := by rw [e2, List.length_append]; simp [be16]
        simp only at h
        by_cases c3 : el = 0
        · rw [if_pos c3] at h; cases h; exact .nil _
        rw [if_neg c3] at h
        cases h3 : rdU8 r2 with
        | error e => rw [h3] at h; cases h
        | ok v =>
          obtain ⟨ty2, r3⟩ := v
          rw [h3] at h
          have e3 := rdU8_ok h3
          have le3 : r2.length = 1 + r3.length := by rw [e3, List.length_cons]; omega
          exact tail (ext0 := true) (by omega) h
    · rw [if_neg c2] at h
      exact tail (ext0 := false) (by omega) h

/-- an OPEN message that was read: it is well formed, and it can be written unless it has a parameter of type 255. -/
theorem parseOpen_back {s : Bytes} {m : Open} (h : parseOpen s = .ok m) :
    OpenOk m ∧ (s.length ≤ 4077 → (∀ p ∈ m.params, p.type ≠ 255) → ∃ b, encodeOpen m = .ok b) := by
  unfold parseOpen at h
  cases h1 : rdOpenHead s with
  | error e => rw [h1] at h; cases h
  | ok v =>
    obtain ⟨⟨ver, asn, hold, id, o⟩, r⟩ := v
    rw [h1] at h
    simp only at h
    have hr : r.length ≤ s.length := by
      unfold rdOpenHead at h1
      rw [Rd.bind_eq_ok] at h1; obtain ⟨x1, s1, k1, h1⟩ := h1
      rw [Rd.bind_eq_ok] at h1; obtain ⟨x2, s2, k2, h1⟩ := h1
      rw [Rd.bind_eq_ok] at h1; obtain ⟨x3, s3, k3, h1⟩ := h1
      rw [Rd.bind_eq_ok] at h1; obtain ⟨x4, s4, k4, h1⟩ := h1
      rw [Rd.bind_eq_ok] at h1; obtain ⟨x5, s5, k5, h1⟩ := h1
      rw [Rd.bind_eq_ok] at h1; obtain ⟨x6, s6, k6, h1⟩ := h1
      cases h1
      have hn : s1 = s := needN_inv k1
      rw [← hn, rdU8_ok k2, rdU16_ok k3, rdU16_ok k4, rdVec_ok k5, rdU8_ok k6]
      simp; omega
    cases h2 : parseOpenParams o r with
    | error e => rw [h2] at h; cases h
    | ok v =>
      obtain ⟨ext, ps⟩ := v
      rw [h2] at h
      cases h
      obtain ⟨g1, g2⟩ := parseOpenParams_fit h2
      refine ⟨⟨?_, g1⟩, fun hs h255 => ?_⟩
      · simp only [UInt16.toNat_toUInt32]; exact asn.toNat_lt
      · obtain ⟨qs, k1, k2, k3⟩ := g2 h255
        unfold encodeOpen
        simp only [k1]
        by_cases he : (ext || decide (2 * qs.length + (qs.map fun p => p.2.length).sum > 255)) = true
        · rw [if_pos he]
          rw [if_pos he]
          have : checkMax (3 * qs.length + (qs.map fun p => p.2.length).sum) 65535 = .ok (3 * qs.length + (qs.map fun p => p.2.length).sum) :=
            checkMax_ok.mpr ⟨by omega, rfl⟩
          rw [this]
          exact ⟨_, rfl⟩
        · rw [if_neg he]; exact ⟨_, rfl⟩

end Verif
