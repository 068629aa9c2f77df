import Verif.Lemmas.Net
import Verif.Model.AsPath
/-
Helper lemmas: AS_PATH wire format.
-/
set_option linter.unusedSimpArgs false
set_option linter.unusedVariables false
namespace Verif

/-- a segment that fits the wire format. -/
def SegFits (l : AsnLen) (s : Seg) : Prop :=
  s.asns.length ≤ 255 ∧ (l = .b16 → ∀ a ∈ s.asns, a.toNat ≤ 65535)

def segEnc (l : AsnLen) (s : Seg) : Bytes :=
  s.code :: UInt8.ofNat s.asns.length :: s.asns.flatMap (encAsn l)

theorem checkMax_ok {a m n : Nat} : checkMax a m = .ok n ↔ a ≤ m ∧ n = a := by
  unfold checkMax
  split
  · simp; omega
  · simp; omega

theorem writeAsns_ok {l : AsnLen} : ∀ {as : List Asn} {bs : Bytes},
    writeAsns l as = .ok bs ↔ (l = .b16 → ∀ a ∈ as, a.toNat ≤ 65535) ∧ bs = as.flatMap (encAsn l) := by
  intro as
  induction as with
  | nil => intro bs; simp [writeAsns]
  | cons a as ih =>
    intro bs
    cases l with
    | b32 =>
      simp only [writeAsns]
      cases h : writeAsns .b32 as with
      | error e =>
        have := fun bs => (ih (bs := bs)).symm
        simp [h] at this
      | ok r =>
        obtain ⟨_, hr⟩ := ih.mp h
        simp only [hr, bind, Except.bind, pure, Except.pure]
        simp [encAsn]; exact eq_comm
    | b16 =>
      simp only [writeAsns]
      by_cases hm : a.toNat ≤ 65535
      · have hc : checkMax a.toNat 65535 = .ok a.toNat := checkMax_ok.mpr ⟨hm, rfl⟩
        simp only [hc, bind, Except.bind, pure, Except.pure]
        cases h : writeAsns .b16 as with
        | error e =>
          have := fun bs => (ih (bs := bs)).symm
          simp [h] at this
          simp
          intro _ h2
          obtain ⟨x, hx, hx'⟩ := this
          have := h2 x hx
          omega
        | ok r =>
          obtain ⟨h1, hr⟩ := ih.mp h
          have h1 := h1 rfl
          simp only [hr]
          simp [encAsn]
          constructor
          · intro h; exact ⟨⟨hm, h1⟩, h.symm⟩
          · intro h; exact h.2.symm
      · have hc : checkMax a.toNat 65535 = .error (.tooLarge a.toNat 65535) := by
          simp [checkMax]; omega
        simp only [hc, bind, Except.bind, pure, Except.pure]
        simp
        intro h; exact absurd h hm

theorem encodeAsPath_ok {l : AsnLen} : ∀ {p : AsPath} {bs : Bytes},
    encodeAsPath l p = .ok bs ↔ (∀ s ∈ p, SegFits l s) ∧ bs = p.flatMap (segEnc l) := by
  intro p
  induction p with
  | nil => intro bs; simp [encodeAsPath]
  | cons s r ih =>
    intro bs
    simp only [encodeAsPath]
    by_cases hm : s.asns.length ≤ 255
    · have hc : checkMax s.asns.length 255 = .ok s.asns.length := checkMax_ok.mpr ⟨hm, rfl⟩
      simp only [hc, bind, Except.bind, pure, Except.pure]
      cases hw : writeAsns l s.asns with
      | error e =>
        have := fun bs => (writeAsns_ok (l := l) (as := s.asns) (bs := bs)).symm
        simp [hw] at this
        simp
        intro hf
        have := hf.2 this.1
        obtain ⟨_, x, hx, hx'⟩ := ‹l = AsnLen.b16 ∧ ∃ x, x ∈ s.asns ∧ 65535 < x.toNat›
        have := this x hx
        omega
      | ok body =>
        obtain ⟨hb1, hb2⟩ := writeAsns_ok.mp hw
        cases hr : encodeAsPath l r with
        | error e =>
          have := fun bs => (ih (bs := bs)).symm
          simp [hr] at this
          obtain ⟨x, hx, hx'⟩ := this
          simp
          intro _ h2
          exact absurd (h2 x hx) hx'
        | ok rest =>
          obtain ⟨hr1, hr2⟩ := ih.mp hr
          simp only [hb2, hr2]
          simp [segEnc]
          constructor
          · intro h; exact ⟨⟨⟨hm, hb1⟩, hr1⟩, h.symm⟩
          · intro h; exact h.2.symm
    · have hc : checkMax s.asns.length 255 = .error (.tooLarge s.asns.length 255) := by
        simp [checkMax]; omega
      simp only [hc, bind, Except.bind]
      simp
      intro h; exact absurd h.1 hm

theorem rdAsnsLoop_encode {l : AsnLen} : ∀ (as : List Asn) (r : Bytes),
    (l = .b16 → ∀ a ∈ as, a.toNat ≤ 65535) →
    rdAsnsLoop l as.length (as.flatMap (encAsn l) ++ r) = .ok (as, r) := by
  intro as
  induction as with
  | nil => intro r _; rfl
  | cons a as ih =>
    intro r h
    simp only [List.length_cons, rdAsnsLoop, List.flatMap_cons, List.append_assoc]
    rw [Rd.bind_ok (rdAsn_enc l a _ (fun hl => by have := h hl a (by simp); omega))]
    rw [Rd.bind_ok (ih r (fun hl x hx => h hl x (by simp [hx])))]
    rfl

theorem length_flatMap_encAsn (l : AsnLen) (as : List Asn) :
    (as.flatMap (encAsn l)).length = as.length * l.bytes := by
  induction as with
  | nil => simp
  | cons a as ih => simp [ih, Nat.add_mul]; omega

theorem rdAsns_encode {l : AsnLen} (as : List Asn) (r : Bytes)
    (h : l = .b16 → ∀ a ∈ as, a.toNat ≤ 65535) :
    rdAsns l as.length (as.flatMap (encAsn l) ++ r) = .ok (as, r) := by
  have hn : needN (as.length * l.bytes) (as.flatMap (encAsn l) ++ r) = .ok ((), as.flatMap (encAsn l) ++ r) := by
    simp [needN, ← length_flatMap_encAsn]
  simp only [rdAsns]
  rw [Rd.bind_ok hn]
  exact rdAsnsLoop_encode as r h

theorem rdAsn_ok {l : AsnLen} {s r : Bytes} {a : Asn} (h : rdAsn l s = .ok (a, r)) :
    s = encAsn l a ++ r ∧ (l = .b16 → a.toNat ≤ 65535) := by
  cases l with
  | b32 => exact ⟨rdU32_ok h, by simp⟩
  | b16 =>
    simp only [rdAsn] at h
    rw [Rd.bind_eq_ok] at h
    obtain ⟨v, t, h1, h2⟩ := h
    cases h2
    have hv := v.toNat_lt
    refine ⟨?_, ?_⟩
    · rw [rdU16_ok h1]
      simp [encAsn]
    · intro _; simp; omega

theorem rdAsnsLoop_ok {l : AsnLen} : ∀ {n : Nat} {s r : Bytes} {as : List Asn}, rdAsnsLoop l n s = .ok (as, r) →
    s = as.flatMap (encAsn l) ++ r ∧ as.length = n ∧ (l = .b16 → ∀ a ∈ as, a.toNat ≤ 65535) := by
  intro n
  induction n with
  | zero => intro s r as h; cases h; simp
  | succ n ih =>
    intro s r as h
    simp only [rdAsnsLoop] at h
    rw [Rd.bind_eq_ok] at h; obtain ⟨a, t, h1, h⟩ := h
    rw [Rd.bind_eq_ok] at h; obtain ⟨as', t', h2, h⟩ := h
    cases h
    obtain ⟨ha, ha'⟩ := rdAsn_ok h1
    obtain ⟨hs, hl, hb⟩ := ih h2
    refine ⟨by rw [ha, hs]; simp, by simp [hl], ?_⟩
    intro hl x hx
    rcases List.mem_cons.mp hx with rfl | hx
    · exact ha' hl
    · exact hb hl x hx

theorem rdAsns_ok {l : AsnLen} {n : Nat} {s r : Bytes} {as : List Asn} (h : rdAsns l n s = .ok (as, r)) :
    s = as.flatMap (encAsn l) ++ r ∧ as.length = n ∧ (l = .b16 → ∀ a ∈ as, a.toNat ≤ 65535) := by
  simp only [rdAsns] at h
  rw [Rd.bind_eq_ok] at h; obtain ⟨u, t, h1, h⟩ := h
  have : t = s := by
    simp only [needN] at h1; split at h1 <;> cases h1; rfl
  subst this
  exact rdAsnsLoop_ok h

theorem parseSeg_encode {l : AsnLen} {s : Seg} (h : SegFits l s) (r : Bytes) :
    parseSeg l (segEnc l s ++ r) = .ok (s, r) := by
  obtain ⟨h1, h2⟩ := h
  have hl : (UInt8.ofNat s.asns.length).toNat = s.asns.length := by simp; omega
  have hlen := length_flatMap_encAsn l s.asns
  simp only [parseSeg, segEnc, List.cons_append]
  rw [Rd.bind_ok (rdU8_cons _ _), Rd.bind_ok (rdU8_cons _ _), Rd.bind_ok (Rd.remaining_apply _), hl]
  rw [if_neg (by simp [hlen]), Rd.bind_ok (rdAsns_encode _ r h2)]
  cases s <;> simp [Seg.code, Seg.asns]

theorem parseSeg_ok {l : AsnLen} {b r : Bytes} {s : Seg} (h : parseSeg l b = .ok (s, r)) :
    b = segEnc l s ++ r ∧ SegFits l s := by
  simp only [parseSeg] at h
  rw [Rd.bind_eq_ok] at h; obtain ⟨ty, t1, h1, h⟩ := h
  rw [Rd.bind_eq_ok] at h; obtain ⟨ct, t2, h2, h⟩ := h
  rw [Rd.bind_eq_ok] at h; obtain ⟨rem, t3, h3, h⟩ := h
  split at h
  · simp at h
  rw [Rd.bind_eq_ok] at h; obtain ⟨as, t4, h4, h⟩ := h
  have h1 := rdU8_ok h1
  have h2 := rdU8_ok h2
  simp at h3
  obtain ⟨-, h3⟩ := h3
  subst h3
  obtain ⟨ha, hl, hb⟩ := rdAsns_ok h4
  have hct := ct.toNat_lt
  have key : ∀ s' : Seg, s'.asns = as → s'.code = ty → t4 = r → b = segEnc l s' ++ r ∧ SegFits l s' := by
    intro s' hs hc ht
    refine ⟨?_, ?_, ?_⟩
    · rw [h1, h2, ha, ht]
      simp only [segEnc, hs, hc, hl]
      simp
    · rw [hs]; omega
    · rw [hs]; exact hb
  split at h
  · cases h; exact key _ rfl (by simp [Seg.code, *]) rfl
  split at h
  · cases h; exact key _ rfl (by simp [Seg.code, *]) rfl
  split at h
  · cases h; exact key _ rfl (by simp [Seg.code, *]) rfl
  split at h
  · cases h; exact key _ rfl (by simp [Seg.code, *]) rfl
  · simp at h

theorem parseSeg_noPanic (l : AsnLen) : NoPanic (parseSeg l) := by
  unfold parseSeg
  refine .bind .rdU8 fun ty => .bind .rdU8 fun ct => .bind .remaining fun rem => .ite (fun _ => .fail (by simp))
    fun _ => .bind (.rdAsns _ _) fun as => ?_
  exact .ite (fun _ => .pure _) fun _ => .ite (fun _ => .pure _) fun _ => .ite (fun _ => .pure _) fun _ =>
    .ite (fun _ => .pure _) fun _ => .fail (by simp)

theorem segEnc_ne_nil (l : AsnLen) (s : Seg) : segEnc l s ≠ [] := by simp [segEnc]

end Verif
