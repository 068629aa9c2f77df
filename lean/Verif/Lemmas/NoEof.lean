import Verif.Lemmas.MrtNoPanic
/-
No body parser reports `EofExpected`, the error that ends an iteration. The lemmas follow those about panics, one by one.
-/
namespace Verif
open Spec

/-- The parser never reaches a Rust panic, on any input. -/
def NoEof (p : Rd α) : Prop := ∀ s, p s ≠ .error .eofExpected

namespace NoEof
theorem pure (a : α) : NoEof (Pure.pure a : Rd α) := by intro s h; cases h

theorem fail {e : Err} (h : e ≠ .eofExpected) : NoEof (Rd.fail e : Rd α) := by
  intro s h'; simp at h'; exact h h'

theorem lift {x : Except Err α} (h : x ≠ .error .eofExpected) : NoEof (Rd.lift x) := by
  intro s h'
  cases x with
  | ok a => simp at h'
  | error e => simp at h'; subst h'; exact h rfl

theorem bind {p : Rd α} {f : α → Rd β} (hp : NoEof p) (hf : ∀ a, NoEof (f a)) : NoEof (p >>= f) := by
  intro s h
  rcases Rd.bind_eq_error.mp h with h | ⟨a, t, _, h⟩
  · exact hp s h
  · exact hf a t h

theorem ite {c : Prop} [Decidable c] {p q : Rd α} (hp : c → NoEof p) (hq : ¬ c → NoEof q) :
    NoEof (if c then p else q) := by
  by_cases h : c
  · simpa [h] using hp h
  · simpa [h] using hq h

theorem remaining : NoEof Rd.remaining := by intro s h; cases h

theorem peek : NoEof Rd.peek := by intro s h; cases h

theorem needN (n : Nat) : NoEof (needN n) := by
  intro s h; simp only [Verif.needN] at h; split at h <;> cases h

theorem rdU8 : NoEof rdU8 := by intro s h; cases s <;> cases h

theorem rdU16 : NoEof rdU16 := by intro s h; simp only [Verif.rdU16] at h; split at h <;> cases h

theorem rdU32 : NoEof rdU32 := by intro s h; simp only [Verif.rdU32] at h; split at h <;> cases h

theorem rdU64 : NoEof rdU64 :=
  bind (needN 8) fun _ => bind rdU32 fun _ => bind rdU32 fun _ => pure _

theorem rdN (n : Nat) : NoEof (rdN n) := by
  intro s h; simp only [Verif.rdN] at h; split at h <;> cases h

theorem rdVec (n : Nat) : NoEof (rdVec n) := by
  intro s h; simp only [Verif.rdVec] at h; split at h <;> cases h

theorem runOn {p : Rd α} (hp : NoEof p) (buf : Bytes) : p.runOn buf ≠ .error .eofExpected := by
  intro h
  simp only [Rd.runOn] at h
  split at h
  · cases h
  · rename_i e he
    cases h
    exact hp buf he

end NoEof

theorem manyFuel_noEof {p : Rd α} (hp : NoEof p)
    (hc : ∀ s a r, p s = .ok (a, r) → r.length < s.length) :
    ∀ (fuel : Nat) (s : Bytes), s.length ≤ fuel → manyFuel p fuel s ≠ .error .eofExpected := by
  intro fuel
  induction fuel with
  | zero =>
    intro s hs hm
    cases s with
    | nil => simp [manyFuel] at hm
    | cons b bs => simp at hs
  | succ fuel ih =>
    intro s hs hm
    cases s with
    | nil => simp [manyFuel] at hm
    | cons b bs =>
      simp only [manyFuel] at hm
      cases h1 : p (b :: bs) with
      | error e =>
        rw [h1] at hm
        have : e = .eofExpected := by injection hm
        subst this
        exact hp _ h1
      | ok v =>
        obtain ⟨a, r⟩ := v
        rw [h1] at hm
        simp only at hm
        have hl := hc _ _ _ h1
        cases h2 : manyFuel p fuel r with
        | error e =>
          rw [h2] at hm
          have : e = .eofExpected := by injection hm
          subst this
          exact ih r (by simp at hs hl; omega) h2
        | ok as' => rw [h2] at hm; cases hm

theorem many_noEof {p : Rd α} (hp : NoEof p)
    (hc : ∀ s a r, p s = .ok (a, r) → r.length < s.length) (s : Bytes) : many p s ≠ .error .eofExpected :=
  manyFuel_noEof hp hc _ _ (Nat.le_refl _)

theorem many_noEof' {p : Rd α} {n : Nat} (hp : NoEof p) (hn : 0 < n) (hc : Consumes n p) (s : Bytes) :
    many p s ≠ .error .eofExpected :=
  many_noEof hp (fun s a r h => by have := hc _ _ _ h; omega) s

theorem NoEof.rdAsn (l : AsnLen) : NoEof (rdAsn l) := by
  cases l
  · exact .bind .rdU16 fun _ => .pure _
  · exact .rdU32

theorem NoEof.rdAsnsLoop (l : AsnLen) (n : Nat) : NoEof (rdAsnsLoop l n) := by
  induction n with
  | zero => exact .pure _
  | succ n ih => exact .bind (.rdAsn l) fun _ => .bind ih fun _ => .pure _

theorem NoEof.rdAsns (l : AsnLen) (n : Nat) : NoEof (rdAsns l n) :=
  .bind (.needN _) fun _ => .rdAsnsLoop l n

theorem NoEof.rdAfi : NoEof rdAfi := by
  refine .bind .rdU16 fun x => ?_
  cases Afi.ofU16? x
  · exact .fail (by simp)
  · exact .pure _

theorem NoEof.rdSafi : NoEof rdSafi := by
  refine .bind .rdU8 fun x => ?_
  cases Safi.ofU8? x
  · exact .fail (by simp)
  · exact .pure _

theorem NoEof.rdAddr (a : Afi) : NoEof (rdAddr a) := by
  intro s h
  cases a
  · simp only [Verif.rdAddr] at h; split at h <;> cases h
  · simp only [Verif.rdAddr] at h; split at h <;> cases h
  · cases h

theorem tryParsePrefix_noEof (afi : Afi) (ap : Bool) : NoEof (tryParsePrefix afi ap) := by
  unfold tryParsePrefix
  refine .bind ?_ fun pid => .bind .rdU8 fun bl => .ite (fun _ => .fail (by simp)) fun hbl => .bind ?_ fun a => ?_
  · cases ap
    · exact .pure _
    · exact .bind .rdU32 fun _ => .pure _
  · cases afi
    · exact .ite (fun _ => .fail (by simp)) fun _ => .bind (.rdN _) fun _ => .pure _
    · exact .ite (fun _ => .fail (by simp)) fun _ => .bind (.rdN _) fun _ => .pure _
    · have h0 : byteLen bl = 0 := by
        simp [Afi.maxBits] at hbl
        simp [byteLen, hbl]
      refine .bind ?_ fun _ => .pure _
      intro s h
      simp [advance, h0] at h
  · cases IpNet.new? a bl
    · exact .fail (by simp)
    · exact .pure _

theorem nlriLoop_noEof {afi : Afi} {ap : Bool} :
    ∀ (fuel : Nat) (cur heur : Bool) (s : Bytes), s.length ≤ fuel → nlriLoop afi ap fuel cur heur s ≠ .error .eofExpected := by
  intro fuel
  induction fuel with
  | zero =>
    intro cur heur s hs h
    cases s with
    | nil => simp [nlriLoop] at h
    | cons b bs => simp at hs
  | succ fuel ih =>
    intro cur heur s hs h
    cases s with
    | nil => simp [nlriLoop] at h
    | cons b bs =>
      simp only [nlriLoop] at h
      generalize (cur || (!cur && (b == 0))) = cur' at h
      generalize (heur || (!cur && (b == 0))) = heur' at h
      have key : ∀ c p r, tryParsePrefix afi c (b :: bs) = .ok (p, r) → r.length ≤ fuel := by
        intro c p r h1
        obtain ⟨_, hs'⟩ := tryParsePrefix_sound h1
        have := congrArg List.length hs'
        have hp := encode_length_pos p
        simp at this hs
        omega
      cases h1 : tryParsePrefix afi cur' (b :: bs) with
      | ok v =>
        obtain ⟨p, r⟩ := v
        rw [h1] at h
        simp only at h
        cases h2 : nlriLoop afi ap fuel cur' heur' r with
        | error e =>
          rw [h2] at h
          have : e = .eofExpected := by injection h
          subst this
          exact ih _ _ _ (key _ _ _ h1) h2
        | ok ps' => rw [h2] at h; cases h
      | error e =>
        rw [h1] at h
        simp only at h
        have he : e ≠ .eofExpected := by
          intro he; subst he; exact tryParsePrefix_noEof _ _ _ h1
        cases heur' with
        | false => simp at h; exact he h
        | true =>
          simp only [if_true] at h
          cases h3 : tryParsePrefix afi ap (b :: bs) with
          | error e' =>
            rw [h3] at h
            have : e' = .eofExpected := by injection h
            subst this
            exact tryParsePrefix_noEof _ _ _ h3
          | ok v =>
            obtain ⟨p, r⟩ := v
            rw [h3] at h
            simp only at h
            cases h2 : nlriLoop afi ap fuel ap false r with
            | error e =>
              rw [h2] at h
              have : e = .eofExpected := by injection h
              subst this
              exact ih _ _ _ (key _ _ _ h3) h2
            | ok ps' => rw [h2] at h; cases h

theorem parseSeg_noEof (l : AsnLen) : NoEof (parseSeg l) := by
  unfold parseSeg
  refine .bind .rdU8 fun ty => .bind .rdU8 fun ct => .bind .remaining fun rem => .ite (fun _ => .fail (by simp))
    fun _ => .bind (.rdAsns _ _) fun as => ?_
  exact .ite (fun _ => .pure _) fun _ => .ite (fun _ => .pure _) fun _ => .ite (fun _ => .pure _) fun _ =>
    .ite (fun _ => .pure _) fun _ => .fail (by simp)

theorem rdCommunity_noEof : NoEof rdCommunity :=
  .bind .rdU32 fun _ => .ite (fun _ => .pure _) fun _ => .ite (fun _ => .pure _) fun _ =>
    .ite (fun _ => .pure _) fun _ => .pure _

theorem rdLarge_noEof : NoEof rdLarge :=
  .bind .rdU32 fun _ => .bind .rdU32 fun _ => .bind .rdU32 fun _ => .pure _

theorem rdExt_noEof : NoEof rdExt := by
  refine .bind .rdU8 fun t => ?_
  cases ExtType.ofU8 t with
  | twoOctetAs =>
    exact .bind .rdU8 fun _ => .ite (fun _ => .bind .rdU16 fun _ => .bind .rdU32 fun _ => .pure _)
      (fun _ => .bind .rdU16 fun _ => .bind (.rdVec 4) fun _ => .pure _)
  | ntTwoOctetAs =>
    exact .bind .rdU8 fun _ => .ite
      (fun _ => .bind .rdU16 fun _ => .bind .rdU32 fun _ => .pure _) fun _ => .ite
      (fun _ => .bind .rdU16 fun _ => .bind .rdU32 fun _ => .pure _) fun _ => .ite
      (fun _ => .bind .rdU16 fun _ => .bind .rdU32 fun _ => .pure _) fun _ => .ite
      (fun _ => .bind .rdU16 fun _ => .bind (.rdVec 4) fun _ => .pure _) fun _ => .ite
      (fun _ => .bind .rdU16 fun _ => .bind .rdU8 fun _ => .bind .rdU8 fun _ =>
        .bind .rdU16 fun _ => .pure _) fun _ =>
      .bind .rdU16 fun _ => .bind (.rdVec 4) fun _ => .pure _
  | ipv4Addr => exact .bind .rdU8 fun _ => .bind (.rdVec 4) fun _ => .bind (.rdVec 2) fun _ => .pure _
  | ntIpv4Addr => exact .bind .rdU8 fun _ => .bind (.rdVec 4) fun _ => .bind (.rdVec 2) fun _ => .pure _
  | fourOctetAs => exact .bind .rdU8 fun _ => .bind .rdU32 fun _ => .bind (.rdVec 2) fun _ => .pure _
  | ntFourOctetAs => exact .bind .rdU8 fun _ => .bind .rdU32 fun _ => .bind (.rdVec 2) fun _ => .pure _
  | opaq => exact .bind .rdU8 fun _ => .bind (.rdVec 6) fun _ => .pure _
  | ntOpaque => exact .bind .rdU8 fun _ => .bind (.rdVec 6) fun _ => .pure _
  | unknown c => exact .bind (.rdVec 7) fun _ => .pure _

theorem rdIpv6Ext_noEof : NoEof rdIpv6Ext :=
  .bind .rdU8 fun _ => .bind .rdU8 fun _ => .bind (.rdVec 16) fun _ =>
    .bind .rdU8 fun _ => .bind .rdU8 fun _ => .pure _

theorem orErr_noEof {p : Rd α} {e : Err} (h : e ≠ .eofExpected) : NoEof (p.orErr e) := by
  intro s hs
  simp only [Rd.orErr] at hs
  split at hs
  · cases hs
  · cases hs; exact h rfl

theorem rdLabel_noEof : NoEof rdLabel := .bind (orErr_noEof (by simp)) fun _ => .pure _

theorem rdLabels_noEof {maxL : Nat} {peer : Option UInt8} :
    ∀ (fuel n : Nat), n ≤ maxL → maxL < n + fuel → NoEof (rdLabels maxL peer fuel n) := by
  intro fuel
  induction fuel with
  | zero =>
    intro n h1 h2 s hs
    omega
  | succ fuel ih =>
    intro n h1 h
    unfold rdLabels
    refine .ite (fun _ => .fail (by simp)) fun hlt => .ite (fun _ => .fail (by simp)) fun _ =>
      .bind rdLabel_noEof fun ⟨l, b⟩ => .ite (fun _ => .pure _) fun _ => .bind (ih (n + 1) (by omega) (by omega)) fun _ => .pure _

theorem rdLabelStack_noEof (cfg : LabelCfg) : NoEof (rdLabelStack cfg) := by
  unfold rdLabelStack
  cases cfg.mode
  · exact .bind rdLabel_noEof fun _ => .pure _
  · exact rdLabels_noEof _ _ (by omega) (by omega)

theorem labeledTail_noEof (afi : Afi) (bits : UInt8) (used : Nat) (rest : Bytes) :
    labeledTail afi bits used rest ≠ .error .eofExpected := by
  simp only [labeledTail]
  intro h
  split at h
  · cases h
  split at h
  · cases h
  split at h
  · cases h
  split at h
  · cases h
  split at h
  · rename_i e he
    cases h
    cases afi <;> simp only [maskedPrefix] at he
    · split at he <;> cases he
    · split at he <;> cases he
    · cases he
  split at h <;> cases h

theorem labeledHead_noEof (ap : Bool) : NoEof (labeledHead ap) := by
  unfold labeledHead
  refine .bind ?_ fun _ => .bind (orErr_noEof (by simp)) fun _ => .ite (fun _ => .fail (by simp)) fun _ =>
    .bind (orErr_noEof (by simp)) fun _ => .pure _
  cases ap
  · exact .pure _
  · exact .bind (orErr_noEof (by simp)) fun _ => .pure _

theorem rdLabeled_noEof (afi : Afi) (cfg : LabelCfg) : NoEof (rdLabeled afi cfg) := by
  refine .bind (labeledHead_noEof _) fun ⟨pid, bits, view⟩ => ?_
  simp only
  cases h : rdLabelStack cfg view with
  | error e => exact .fail (by rintro rfl; exact rdLabelStack_noEof cfg view h)
  | ok v =>
    obtain ⟨ls, rest⟩ := v
    simp only
    cases h2 : labeledTail afi bits (ls.length * 24) rest with
    | error e => exact .fail (by rintro rfl; exact labeledTail_noEof _ _ _ _ h2)
    | ok p => exact .pure _

theorem rdLabeledWithdrawal_noEof (afi : Afi) (ap : Bool) : NoEof (rdLabeledWithdrawal afi ap) := by
  refine .bind (labeledHead_noEof _) fun ⟨pid, bits, view⟩ => ?_
  simp only
  cases h : (rdN 3).orErr .truncatedLabeledNlri view with
  | error e => exact .fail (by rintro rfl; exact orErr_noEof (by simp) view h)
  | ok v =>
    obtain ⟨ls, rest⟩ := v
    simp only
    cases h2 : labeledTail afi bits 24 rest with
    | error e => exact .fail (by rintro rfl; exact labeledTail_noEof _ _ _ _ h2)
    | ok p => exact .pure _

/-- C46. No community parser panics (including the debug assertion on the number of communities). -/
theorem c46_no_eof (s : Bytes) :
    parseCommunities s ≠ .error .eofExpected ∧ parseLargeCommunities s ≠ .error .eofExpected ∧
    parseExtCommunities s ≠ .error .eofExpected ∧ parseIpv6ExtCommunities s ≠ .error .eofExpected := by
  refine ⟨many_noEof' rdCommunity_noEof (by decide) rdCommunity_consumes s, ?_, ?_, ?_⟩
  · rw [parseLargeCommunities, assertCount_many rdLarge_consumes (by decide)]
    exact many_noEof' rdLarge_noEof (by decide) rdLarge_consumes s
  · rw [parseExtCommunities, assertCount_many rdExt_consumes (by decide)]
    exact many_noEof' rdExt_noEof (by decide) rdExt_consumes s
  · rw [parseIpv6ExtCommunities, assertCount_many rdIpv6Ext_consumes (by decide)]
    exact many_noEof' rdIpv6Ext_noEof (by decide) rdIpv6Ext_consumes s

/-- C04. Parsing never panics. -/
theorem c04_aspath_no_eof (l : AsnLen) (bs : Bytes) : parseAsPath l bs ≠ .error .eofExpected :=
  many_noEof (parseSeg_noEof l) (fun _ _ _ h => by rw [(parseSeg_ok h).1]; simp [segEnc]; omega) bs

theorem whileGeFuel_noEof {p : Rd α} {n : Nat} (hp : NoEof p) (hc : ∀ s a r, p s = .ok (a, r) → r.length < s.length) :
    ∀ (fuel : Nat) (s : Bytes), 0 < n → s.length ≤ fuel → whileGeFuel n p fuel s ≠ .error .eofExpected := by
  intro fuel
  induction fuel with
  | zero =>
    intro s hn hs h
    simp only [whileGeFuel] at h
    rw [if_pos (by omega)] at h; cases h
  | succ fuel ih =>
    intro s hn hs h
    simp only [whileGeFuel] at h
    split at h
    · cases h
    · cases h1 : p s with
      | error e =>
        rw [h1] at h
        have : e = .eofExpected := by injection h
        subst this; exact hp _ h1
      | ok v =>
        obtain ⟨a, r⟩ := v
        rw [h1] at h
        simp only at h
        have hl := hc _ _ _ h1
        cases h2 : whileGeFuel n p fuel r with
        | error e =>
          rw [h2] at h
          have : e = .eofExpected := by injection h
          subst this
          exact ih r hn (by omega) h2
        | ok as' => rw [h2] at h; cases h

theorem whileGe_noEof {p : Rd α} {n : Nat} (hn : 0 < n) (hp : NoEof p)
    (hc : ∀ s a r, p s = .ok (a, r) → r.length < s.length) (s : Bytes) : whileGe n p s ≠ .error .eofExpected :=
  whileGeFuel_noEof hp hc _ _ hn (Nat.le_refl _)

structure SafeEof (n : Nat) (p : Rd α) : Prop where
  noEof : NoEof p
  prog : ∀ s a r, p s = .ok (a, r) → r.length + n ≤ s.length

namespace SafeEof
theorem of {p : Rd α} {n : Nat} (h : NoEof p) (c : Consumes n p) : SafeEof n p :=
  ⟨h, fun s a r e => by have := c s a r e; omega⟩

theorem pure (a : α) : SafeEof 0 (Pure.pure a : Rd α) := .of (.pure a) (.pure a)

theorem fail {e : Err} (h : e ≠ .eofExpected) (n : Nat) : SafeEof n (Rd.fail e : Rd α) := .of (.fail h) (.fail e n)

theorem rdU8 : SafeEof 1 rdU8 := .of .rdU8 .rdU8

theorem rdU16 : SafeEof 2 rdU16 := .of .rdU16 .rdU16

theorem rdU32 : SafeEof 4 rdU32 := .of .rdU32 .rdU32

theorem rdN (n : Nat) : SafeEof n (rdN n) := .of (.rdN n) (.rdN n)

theorem rdVec (n : Nat) : SafeEof n (rdVec n) := .of (.rdVec n) (.rdVec n)

theorem remaining : SafeEof 0 Rd.remaining := ⟨.remaining, by intro s a r h; cases h; simp⟩

theorem peek : SafeEof 0 Rd.peek := ⟨.peek, by intro s a r h; cases h; simp⟩

theorem needN (n : Nat) : SafeEof 0 (needN n) :=
  ⟨.needN n, by intro s a r h; simp only [Verif.needN] at h; split at h <;> cases h; simp⟩

theorem rdU64 : SafeEof 8 rdU64 :=
  ⟨.rdU64, by
    intro s a r h
    unfold Verif.rdU64 at h
    rw [Rd.bind_eq_ok] at h; obtain ⟨_, t, h1, h⟩ := h
    rw [Rd.bind_eq_ok] at h; obtain ⟨_, t', h2, h⟩ := h
    rw [Rd.bind_eq_ok] at h; obtain ⟨_, t'', h3, h⟩ := h
    cases h
    have := (needN 8).prog _ _ _ h1
    have := rdU32.prog _ _ _ h2
    have := rdU32.prog _ _ _ h3
    omega⟩

theorem lift {x : Except Err α} (h : x ≠ .error .eofExpected) : SafeEof 0 (Rd.lift x) :=
  ⟨.lift h, by intro s a r e; cases x <;> simp at e; rw [e.2]; simp⟩

theorem bind {p : Rd α} {f : α → Rd β} {n m : Nat} (hp : SafeEof n p) (hf : ∀ a, SafeEof m (f a)) : SafeEof (n + m) (p >>= f) :=
  ⟨.bind hp.noEof fun a => (hf a).noEof, by
    intro s b r h
    rw [Rd.bind_eq_ok] at h; obtain ⟨a, t, h1, h⟩ := h
    have := hp.prog _ _ _ h1
    have := (hf a).prog _ _ _ h
    omega⟩

theorem ite {c : Prop} [Decidable c] {n : Nat} {p q : Rd α} (hp : c → SafeEof n p) (hq : ¬ c → SafeEof n q) :
    SafeEof n (if c then p else q) := by
  by_cases h : c
  · simpa [h] using hp h
  · simpa [h] using hq h

theorem weaken {p : Rd α} {n m : Nat} (h : SafeEof n p) (hm : m ≤ n) : SafeEof m p :=
  ⟨h.noEof, fun s a r e => by have := h.prog s a r e; omega⟩

theorem many {p : Rd α} {n : Nat} (h : SafeEof n p) (hn : 0 < n) (s : Bytes) : many p s ≠ .error .eofExpected :=
  many_noEof h.noEof (fun s a r e => by have := h.prog s a r e; omega) s

theorem whileGe {p : Rd α} {n k : Nat} (h : SafeEof n p) (hn : 0 < n) (hk : 0 < k) (s : Bytes) :
    whileGe k p s ≠ .error .eofExpected :=
  whileGe_noEof hk h.noEof (fun s a r e => by have := h.prog s a r e; omega) s

/-- `if remaining < n then fail else split_to n`. -/
theorem guardedSplit {e : Err} (he : e ≠ .eofExpected) (n k : Nat) {f : Bytes → Rd β} (hf : ∀ a, SafeEof k (f a)) :
    SafeEof k (do let rem ← Rd.remaining; if rem < n then Rd.fail e else do let v ← splitTo n; f v) := by
  constructor
  · intro s h
    rw [Rd.bind_ok (Rd.remaining_apply s)] at h
    by_cases hn : s.length < n
    · simp only [hn, if_true] at h; cases h; exact he rfl
    · simp only [hn, if_false] at h
      have hs : splitTo n s = .ok (s.take n, s.drop n) := by simp [splitTo, hn]
      rw [Rd.bind_ok hs] at h
      exact (hf _).noEof _ h
  · intro s a r h
    rw [Rd.bind_ok (Rd.remaining_apply s)] at h
    by_cases hn : s.length < n
    · simp only [hn, if_true] at h; cases h
    · simp only [hn, if_false] at h
      have hs : splitTo n s = .ok (s.take n, s.drop n) := by simp [splitTo, hn]
      rw [Rd.bind_ok hs] at h
      have := (hf _).prog _ _ _ h
      simp at this; omega

end SafeEof

theorem mapOk_noEof {f : α → β} {x : Except Err α} (h : x ≠ .error .eofExpected) : mapOk f x ≠ .error .eofExpected := by
  cases x with
  | ok a => simp [mapOk]
  | error e => intro h'; simp [mapOk] at h'; exact h (by rw [h'])

theorem parseOrigin_noEof (s : Bytes) : parseOrigin s ≠ .error .eofExpected := by
  unfold parseOrigin
  cases s with
  | nil => simp
  | cons a s => simp only [rdU8_cons]; repeat' split <;> try simp

theorem parseNextHop_noEof (afi : Option Afi) (s : Bytes) : parseNextHop afi s ≠ .error .eofExpected :=
  (NoEof.rdAddr _).runOn s

theorem parseU32Attr_noEof (s : Bytes) : parseU32Attr s ≠ .error .eofExpected := NoEof.rdU32.runOn s

theorem parseAggregator_noEof (s : Bytes) : parseAggregator s ≠ .error .eofExpected := by
  unfold parseAggregator
  split
  · exact NoEof.runOn (.bind (.rdAsn _) fun _ => .bind (.rdVec 4) fun _ => .pure _) s
  · split
    · exact NoEof.runOn (.bind (.rdAsn _) fun _ => .bind (.rdVec 4) fun _ => .pure _) s
    · simp

theorem parseOriginatorId_noEof (s : Bytes) : parseOriginatorId s ≠ .error .eofExpected := by
  unfold parseOriginatorId
  split
  · simp
  · exact (NoEof.rdVec 4).runOn s

theorem parseClusters_noEof (s : Bytes) : parseClusters s ≠ .error .eofExpected := SafeEof.rdU32.many (by decide) s

theorem parseTrafficEng_noEof (s : Bytes) : parseTrafficEng s ≠ .error .eofExpected := by
  unfold parseTrafficEng
  split
  · simp
  · refine NoEof.runOn ?_ s
    repeat' first | exact .pure _ | refine .bind .rdU8 fun _ => ?_ | refine .bind .rdU16 fun _ => ?_ | refine .bind .rdU32 fun _ => ?_ | refine .bind .peek fun _ => ?_

theorem rdTlv8Ext_safeEof : SafeEof 3 rdTlv8Ext := by
  unfold rdTlv8Ext
  refine SafeEof.weaken (n := 0 + 3) (.bind .remaining fun rem => .ite (fun _ => .fail (by simp) 3) fun _ => ?_) (by omega)
  refine SafeEof.weaken (n := 1 + (2 + 0)) (.bind .rdU8 fun t => .bind .rdU16 fun l => ?_) (by omega)
  exact SafeEof.guardedSplit (by simp) _ _ fun v => .pure _

theorem rdTlv8_safeEof : SafeEof 2 rdTlv8 := by
  unfold rdTlv8
  refine SafeEof.weaken (n := 0 + 2) (.bind .remaining fun rem => .ite (fun _ => .fail (by simp) 2) fun _ => ?_) (by omega)
  refine SafeEof.weaken (n := 1 + (1 + 0)) (.bind .rdU8 fun t => .bind .rdU8 fun l => ?_) (by omega)
  exact SafeEof.guardedSplit (by simp) _ _ fun v => .pure _

theorem rdTlv16_safeEof : SafeEof 4 rdTlv16 := by
  unfold rdTlv16
  refine SafeEof.weaken (n := 0 + 4) (.bind .remaining fun rem => .ite (fun _ => .fail (by simp) 4) fun _ => ?_) (by omega)
  refine SafeEof.weaken (n := 2 + (2 + 0)) (.bind .rdU16 fun t => .bind .rdU16 fun l => ?_) (by omega)
  exact SafeEof.guardedSplit (by simp) _ _ fun v => .pure _

theorem rdAigp_safeEof : SafeEof 3 rdAigp := by
  unfold rdAigp
  refine SafeEof.weaken (n := 0 + 3) (.bind .remaining fun rem => .ite (fun _ => .fail (by simp) 3) fun _ => ?_) (by omega)
  refine SafeEof.weaken (n := 1 + (2 + 0)) (.bind .rdU8 fun t => .bind .rdU16 fun l =>
    .ite (fun _ => .fail (by simp) 0) fun _ => ?_) (by omega)
  exact SafeEof.guardedSplit (by simp) _ _ fun v => .pure _

theorem parseTlv8Ext_noEof (s : Bytes) : parseTlv8Ext s ≠ .error .eofExpected := rdTlv8Ext_safeEof.many (by decide) s

theorem parseBier_noEof (s : Bytes) : parseBier s ≠ .error .eofExpected := rdTlv16_safeEof.many (by decide) s

theorem parseBfd_noEof (s : Bytes) : parseBfd s ≠ .error .eofExpected := by
  unfold parseBfd
  split
  · simp
  · have hp : NoEof (do let m ← rdU8; let d ← rdU32; pure (m, d) : Rd (UInt8 × UInt32)) :=
      .bind .rdU8 fun _ => .bind .rdU32 fun _ => .pure _
    split
    · rename_i e he
      intro h
      have : e = .eofExpected := by injection h
      subst this; exact hp _ he
    · rename_i m d r hr
      split
      · rename_i e he
        intro h
        have : e = .eofExpected := by injection h
        subst this
        exact rdTlv8_safeEof.many (by decide) _ he
      · simp

theorem parseAigp_noEof (s : Bytes) : parseAigp s ≠ .error .eofExpected := rdAigp_safeEof.many (by decide) s

theorem rdSubTlv_safeEof : SafeEof 1 rdSubTlv := by
  unfold rdSubTlv
  refine SafeEof.weaken (n := 0 + 1) (.bind .remaining fun rem => .ite (fun _ => .fail (by simp) 1) fun _ => ?_) (by omega)
  refine SafeEof.weaken (n := 1 + (0 + 0)) (.bind .rdU8 fun t => .bind (.ite (fun _ => ?_) fun _ => ?_) fun l => ?_) (by omega)
  · exact SafeEof.weaken (.bind .rdU8 fun _ => .pure _) (Nat.zero_le _)
  · exact SafeEof.weaken (.bind .rdU16 fun _ => .pure _) (Nat.zero_le _)
  · exact SafeEof.weaken (.bind (.rdN _) fun _ => .pure _) (Nat.zero_le _)

theorem rdTunnelTlv_safeEof : SafeEof 4 rdTunnelTlv := by
  unfold rdTunnelTlv
  refine SafeEof.weaken (n := 2 + (2 + (0 + (0 + 0)))) (.bind .rdU16 fun t => .bind .rdU16 fun l =>
    .bind (.weaken (.rdN _) (Nat.zero_le _)) fun d => .bind (.lift (rdSubTlv_safeEof.many (by decide) d)) fun _ => .pure _) (by omega)

theorem parseTunnel_noEof (s : Bytes) : parseTunnel s ≠ .error .eofExpected := rdTunnelTlv_safeEof.whileGe (by decide) (by decide) s

theorem rdLsTlv_safeEof : SafeEof 4 rdLsTlv :=
  SafeEof.weaken (n := 2 + (2 + (0 + 0))) (.bind .rdU16 fun _ => .bind .rdU16 fun _ =>
    .bind (.weaken (.rdN _) (Nat.zero_le _)) fun _ => .pure _) (by omega)

theorem parseLsAttr_noEof (s : Bytes) : parseLsAttr s ≠ .error .eofExpected := by
  unfold parseLsAttr
  split
  · simp
  · rename_i e he
    intro h
    have : e = .eofExpected := by injection h
    subst this
    exact rdLsTlv_safeEof.whileGe (by decide) (by decide) s he

theorem rdDescBlock_safeEof : SafeEof 0 rdDescBlock := by
  unfold rdDescBlock
  refine .bind .remaining fun rem => .ite (fun _ => .pure _) fun _ => ?_
  exact .weaken (n := 2 + (0 + 0)) (.bind .rdU16 fun _ => .bind (.weaken (.rdN _) (Nat.zero_le _)) fun _ => .pure _) (Nat.zero_le _)

theorem rdNodeDesc_safeEof : SafeEof 0 rdNodeDesc := .bind rdDescBlock_safeEof fun _ => .pure _

theorem rdLinkDesc_safeEof : SafeEof 0 rdLinkDesc := .bind rdDescBlock_safeEof fun _ => .pure _

theorem rdPrefixDesc_safeEof : SafeEof 0 rdPrefixDesc := .bind rdDescBlock_safeEof fun _ => .pure _

theorem rdLsNlri_safeEof (t : UInt16) : SafeEof 0 (rdLsNlri t) := by
  unfold rdLsNlri
  refine .bind .remaining fun rem => .ite (fun _ => .fail (by simp) 0) fun _ => ?_
  refine .weaken (n := 1 + (8 + (0 + 0))) (.bind .rdU8 fun _ => .bind .rdU64 fun _ => .bind rdNodeDesc_safeEof fun _ => ?_)
    (Nat.zero_le _)
  refine .ite (fun _ => ?_) fun _ => .ite (fun _ => ?_) fun _ => .pure _
  · exact .bind rdNodeDesc_safeEof fun _ => .bind rdLinkDesc_safeEof fun _ => .pure _
  · exact .bind rdPrefixDesc_safeEof fun _ => .pure _

theorem rdLsEntry_safeEof : SafeEof 4 rdLsEntry :=
  SafeEof.weaken (n := 2 + (2 + (0 + 0))) (.bind .rdU16 fun t => .bind .rdU16 fun _ =>
    .bind (.weaken (.rdN _) (Nat.zero_le _)) fun d => .lift ((rdLsNlri_safeEof t).noEof.runOn d)) (by omega)

theorem parseLsNlri_noEof (s : Bytes) : parseLsNlri s ≠ .error .eofExpected := rdLsEntry_safeEof.whileGe (by decide) (by decide) s

theorem parseMpNextHop_noEof (s : Bytes) : parseMpNextHop s ≠ .error .eofExpected := by
  unfold parseMpNextHop
  repeat' split
  all_goals first
    | simp; done
    | exact NoEof.runOn (.bind (.rdVec _) fun _ => .pure _) s
    | exact NoEof.runOn (.bind (.rdVec _) fun _ => .bind (.rdVec _) fun _ => .pure _) s
    | exact NoEof.runOn (.bind (.rdVec _) fun _ => .bind (.rdVec _) fun _ => .bind (.rdVec _) fun _ =>
        .bind (.rdVec _) fun _ => .pure _) s

theorem rdNlriHead_noEof (afi : Option Afi) (safi : Option Safi) (z reach : Bool) : NoEof (rdNlriHead afi safi z reach) := by
  unfold rdNlriHead
  refine .bind ?_ fun a => .bind ?_ fun f => .ite (fun _ => ?_) fun _ => .pure _
  · cases afi
    · exact .rdAfi
    · exact .ite (fun _ => .rdAfi) fun _ => .pure _
  · cases safi
    · exact .rdSafi
    · exact .ite (fun _ => .rdSafi) fun _ => .pure _
  · exact .bind .rdU8 fun _ => .bind (.rdN _) fun d => .bind (.lift (parseMpNextHop_noEof d)) fun _ => .pure _

theorem rdReserved_noEof (reach : Bool) : NoEof (rdReserved reach) :=
  .ite (fun _ => .bind .rdU8 fun _ => .pure _) fun _ => .pure _

theorem parseNlriBody_noEof (afi : Afi) (safi : Safi) (nh : Option NextHop) (pfx : Option (List NetworkPrefix))
    (z reach ap : Bool) (s : Bytes) : parseNlriBody afi safi nh pfx z reach ap s ≠ .error .eofExpected := by
  unfold parseNlriBody
  repeat' split
  all_goals first
    | (intro h; cases h; done)
    | (rename_i e he; intro h; injection h with h; subst h; exact rdReserved_noEof _ _ he)
    | (rename_i e he; intro h; injection h with h; subst h; exact parseLsNlri_noEof _ he)
    | (rename_i e he; intro h; injection h with h; subst h
       exact many_noEof (rdLabeled_noEof afi _) (fun _ _ _ h => rdLabeled_progress h) _ he)
    | (rename_i e he; intro h; injection h with h; subst h
       exact many_noEof (rdLabeledWithdrawal_noEof afi ap) (fun _ _ _ h => rdLabeledWithdrawal_progress h) s he)
    | (rename_i e he; intro h; injection h with h; subst h; exact nlriLoop_noEof _ _ _ _ (Nat.le_refl _) he)

theorem parseNlri_noEof (afi : Option Afi) (safi : Option Safi) (pfx : Option (List NetworkPrefix)) (reach ap : Bool)
    (s : Bytes) : parseNlri afi safi pfx reach ap s ≠ .error .eofExpected := by
  unfold parseNlri
  simp only
  split
  · rename_i e he; intro h; injection h with h; subst h; exact rdNlriHead_noEof _ _ _ _ _ he
  · exact parseNlriBody_noEof _ _ _ _ _ _ _ _

theorem ite_noEof {c : Prop} [Decidable c] {x y : Except Err α} {e : Err} (hx : x ≠ .error e) (hy : y ≠ .error e) :
    (if c then x else y) ≠ .error e := by
  split <;> assumption

theorem parseAttrVal_noEof (cfg : AttrCfg) (code : UInt8) (d : Bytes) : parseAttrVal cfg code d ≠ .error .eofExpected := by
  have hc := c46_no_eof d
  unfold parseAttrVal
  repeat' (refine ite_noEof ?_ ?_)
  all_goals first
    | exact mapOk_noEof (parseOrigin_noEof _)
    | exact mapOk_noEof (c04_aspath_no_eof _ _)
    | exact mapOk_noEof (parseNextHop_noEof _ _)
    | exact mapOk_noEof (parseU32Attr_noEof _)
    | exact mapOk_noEof (parseAggregator_noEof _)
    | exact mapOk_noEof (parseOriginatorId_noEof _)
    | exact mapOk_noEof (parseClusters_noEof _)
    | exact mapOk_noEof (parseNlri_noEof _ _ _ _ _ _)
    | exact mapOk_noEof hc.1
    | exact mapOk_noEof hc.2.1
    | exact mapOk_noEof hc.2.2.1
    | exact mapOk_noEof hc.2.2.2
    | exact mapOk_noEof (parseAigp_noEof _)
    | exact mapOk_noEof (parseTunnel_noEof _)
    | exact mapOk_noEof (parseTrafficEng_noEof _)
    | exact mapOk_noEof (parseLsAttr_noEof _)
    | exact mapOk_noEof (parseTlv8Ext_noEof _)
    | exact mapOk_noEof (parseBfd_noEof _)
    | exact mapOk_noEof (parseBier_noEof _)
    | (intro h; cases h; done)

theorem noEof_safiOr (x : UInt8) : NoEof (safiOr x) := by
  unfold safiOr
  split
  · exact .pure _
  · exact .fail (by decide)

theorem noEof_rdEnhEntry : NoEof rdEnhEntry :=
  .bind .rdAfi fun _ => .bind .rdU16 fun _ => .bind (noEof_safiOr _) fun _ =>
    .bind .rdAfi fun _ => .pure _

theorem noEof_rdGrFamily : NoEof rdGrFamily :=
  .bind .rdAfi fun _ => .bind .rdU8 fun _ => .bind (noEof_safiOr _) fun _ => .bind .rdU8 fun _ => .pure _

theorem noEof_rdApFamily : NoEof rdApFamily := by
  refine .bind .rdAfi fun _ => .bind .rdU8 fun _ => .bind (noEof_safiOr _) fun _ => .bind .rdU8 fun m => ?_
  split
  · exact .pure _
  · exact .fail (by decide)

theorem exact_whileGe_noEof {p : Rd α} {R : α → Bytes → Prop} {n : Nat} (hn : 0 < n) (h : Exact p R)
    (hl : ∀ a c, R a c → c.length = n) (hp : NoEof p) (s : Bytes) : whileGe n p s ≠ .error .eofExpected :=
  whileGe_noEof hn hp (fun s a r h' => by
    obtain ⟨c, rfl, hr⟩ := (h _ _ _).mp h'
    have := hl _ _ hr
    simp; omega) s

theorem capOr_noEof {f : α → CapVal} {d : Bytes} {x : Except Err α} (h : x ≠ .error .eofExpected) :
    capOr f d x ≠ .error .eofExpected := by
  intro h'
  cases x with
  | ok a => cases h'
  | error e => cases e <;> simp_all [capOr]

theorem parseExtNextHop_noEof (d : Bytes) : parseExtNextHop d ≠ .error .eofExpected := by
  unfold parseExtNextHop
  split
  · simp
  · exact exact_whileGe_noEof (by omega) exact_rdEnhEntry EnhBytes_length noEof_rdEnhEntry d

theorem parseAddPathCap_noEof (d : Bytes) : parseAddPathCap d ≠ .error .eofExpected := by
  unfold parseAddPathCap
  split
  · simp
  · exact exact_whileGe_noEof (by omega) exact_rdApFamily ApBytes_length noEof_rdApFamily d

theorem parseMultiprotocol_noEof (d : Bytes) : parseMultiprotocol d ≠ .error .eofExpected := by
  unfold parseMultiprotocol
  split
  · split
    · simp
    · split <;> simp
  · simp

theorem parseFourOctetAs_noEof (d : Bytes) : parseFourOctetAs d ≠ .error .eofExpected := by
  unfold parseFourOctetAs
  split <;> simp

theorem parseEmptyCap_noEof (d : Bytes) : parseEmptyCap d ≠ .error .eofExpected := by
  unfold parseEmptyCap
  split <;> simp

theorem parseRoleCap_noEof (d : Bytes) : parseRoleCap d ≠ .error .eofExpected := by
  unfold parseRoleCap
  split
  · simp
  · cases h : rdU8 d with
    | error e => intro h'; cases h'; exact NoEof.rdU8 _ h
    | ok v =>
      obtain ⟨x, r⟩ := v
      dsimp only
      split <;> simp

theorem parseGracefulRestart_noEof (d : Bytes) : parseGracefulRestart d ≠ .error .eofExpected := by
  unfold parseGracefulRestart
  split
  · simp
  · cases h : rdU16 d with
    | error e => intro h'; cases h'; exact NoEof.rdU16 _ h
    | ok v =>
      obtain ⟨x, r⟩ := v
      dsimp only
      split
      · simp
      · cases h3 : whileGe 4 rdGrFamily r with
        | error e =>
          intro h'; cases h'
          exact exact_whileGe_noEof (by omega) exact_rdGrFamily GrBytes_length noEof_rdGrFamily r h3
        | ok v => simp

theorem capValue_noEof (code : UInt8) (d : Bytes) : capValue code d ≠ .error .eofExpected := by
  unfold capValue
  refine ite_noEof (capOr_noEof (parseMultiprotocol_noEof d)) ?_
  refine ite_noEof (capOr_noEof (parseEmptyCap_noEof d)) ?_
  refine ite_noEof (capOr_noEof (parseExtNextHop_noEof d)) ?_
  refine ite_noEof (capOr_noEof (parseGracefulRestart_noEof d)) ?_
  refine ite_noEof (capOr_noEof (parseFourOctetAs_noEof d)) ?_
  refine ite_noEof (capOr_noEof (parseAddPathCap_noEof d)) ?_
  refine ite_noEof (capOr_noEof (parseRoleCap_noEof d)) ?_
  refine ite_noEof (capOr_noEof (parseEmptyCap_noEof d)) ?_
  simp

theorem safeEof_needSplit (n : Nat) {k : Nat} {f : Bytes → Rd β} (hf : ∀ a, SafeEof k (f a)) :
    SafeEof k (needN n >>= fun _ => splitTo n >>= f) := by
  constructor
  · intro s h
    by_cases hn : s.length < n
    · rw [Rd.bind_error (show needN n s = .error .truncated by simp [needN, hn])] at h; cases h
    · rw [Rd.bind_ok (show needN n s = .ok ((), s) by simp [needN, hn]),
        Rd.bind_ok (show splitTo n s = .ok (s.take n, s.drop n) by simp [splitTo, hn])] at h
      exact (hf _).noEof _ h
  · intro s a r h
    by_cases hn : s.length < n
    · rw [Rd.bind_error (show needN n s = .error .truncated by simp [needN, hn])] at h; cases h
    · rw [Rd.bind_ok (show needN n s = .ok ((), s) by simp [needN, hn]),
        Rd.bind_ok (show splitTo n s = .ok (s.take n, s.drop n) by simp [splitTo, hn])] at h
      have := (hf _).prog _ _ _ h
      simp at this; omega

theorem safeEof_rdCapability : SafeEof 2 rdCapability :=
  .bind .rdU8 fun _ => .bind .rdU8 fun _ => .bind ((SafeEof.rdN _).weaken (Nat.zero_le _)) fun _ =>
    .bind (.lift (capValue_noEof _ _)) fun _ => .pure _

theorem safeEof_rdOpenParam (ext : Bool) (ty : UInt8) : SafeEof 1 (rdOpenParam ext ty) := by
  refine SafeEof.bind (n := 1) (m := 0) ?_ fun len => .ite (fun _ => ?_) fun _ => ?_
  · refine .ite (fun _ => ?_) fun _ => ?_
    · exact (SafeEof.bind (n := 2) (m := 0) .rdU16 fun _ => .pure _).weaken (by omega)
    · exact SafeEof.bind (n := 1) (m := 0) .rdU8 fun _ => .pure _
  · exact safeEof_needSplit _ fun d => .bind (n := 0) (.lift (safeEof_rdCapability.whileGe (by omega) (by omega) d)) fun _ => .pure _
  · exact .bind (n := 0) ((SafeEof.rdN _).weaken (Nat.zero_le _)) fun _ => .pure _

theorem safeEof_rdNextParam (ext : Bool) : SafeEof 2 (rdNextParam ext) :=
  .bind (n := 1) .rdU8 fun _ => safeEof_rdOpenParam ext _

theorem parseOpenParams_noEof (o : UInt8) (s : Bytes) : parseOpenParams o s ≠ .error .eofExpected := by
  unfold parseOpenParams
  refine ite_noEof (by simp) ?_
  cases h1 : rdU8 s with
  | error e => intro h; cases h; exact NoEof.rdU8 _ h1
  | ok v =>
    obtain ⟨ty, r⟩ := v
    dsimp only
    refine ite_noEof (by simp) (ite_noEof ?_ ?_)
    · cases h2 : rdU16 r with
      | error e => intro h; cases h; exact NoEof.rdU16 _ h2
      | ok v =>
        obtain ⟨x, r2⟩ := v
        dsimp only
        refine ite_noEof (by simp) ?_
        cases h3 : rdU8 r2 with
        | error e => intro h; cases h; exact NoEof.rdU8 _ h3
        | ok v =>
          obtain ⟨ty2, r3⟩ := v
          dsimp only
          cases h4 : rdOpenParam true ty2 r3 with
          | error e => intro h; cases h; exact (safeEof_rdOpenParam _ _).noEof _ h4
          | ok v =>
            obtain ⟨p, r4⟩ := v
            dsimp only
            cases h5 : whileGe 2 (rdNextParam true) r4 with
            | error e => intro h; cases h; exact (safeEof_rdNextParam _).whileGe (by omega) (by omega) _ h5
            | ok ps => simp
    · cases h4 : rdOpenParam false ty r with
      | error e => intro h; cases h; exact (safeEof_rdOpenParam _ _).noEof _ h4
      | ok v =>
        obtain ⟨p, r4⟩ := v
        dsimp only
        cases h5 : whileGe 2 (rdNextParam false) r4 with
        | error e => intro h; cases h; exact (safeEof_rdNextParam _).whileGe (by omega) (by omega) _ h5
        | ok ps => simp

theorem parseOpen_noEof (s : Bytes) : parseOpen s ≠ .error .eofExpected := by
  unfold parseOpen
  have hh : NoEof rdOpenHead :=
    .bind (.needN _) fun _ => .bind .rdU8 fun _ => .bind .rdU16 fun _ => .bind .rdU16 fun _ => .bind (.rdVec _) fun _ =>
      .bind .rdU8 fun _ => .pure _
  cases h1 : rdOpenHead s with
  | error e => intro h; cases h; exact hh _ h1
  | ok v =>
    obtain ⟨⟨a, b, c, d, e⟩, r⟩ := v
    dsimp only
    cases h2 : parseOpenParams e r with
    | error e => intro h; cases h; exact parseOpenParams_noEof _ _ h2
    | ok v => simp

theorem parseNotification_noEof (s : Bytes) : parseNotification s ≠ .error .eofExpected :=
  NoEof.runOn (.bind .rdU8 fun _ => .bind .rdU8 fun _ => .bind .remaining fun _ => .bind (.rdN _) fun _ => .pure _) s

theorem parseRouteRefresh_noEof (s : Bytes) : parseRouteRefresh s ≠ .error .eofExpected := by
  refine NoEof.runOn (.bind (.needN _) fun _ => .bind .rdU16 fun _ => .bind .rdU8 fun _ => .bind .rdU8 fun _ => ?_) s
  intro t h
  rw [Rd.bind_ok (Rd.remaining_apply t),
    Rd.bind_ok (show splitTo t.length t = .ok (t, []) by simpa using splitTo_append t [])] at h
  cases h

theorem noEof_rdSection : NoEof rdSection := by
  refine .bind .rdU16 fun n => ?_
  have := (safeEof_needSplit (k := 0) n.toNat fun a => SafeEof.pure a).noEof
  intro s h
  refine this s ?_
  rw [Rd.bind_eq_error] at h
  rcases h with h | ⟨a, t, h1, h⟩
  · rw [Rd.bind_error h]
  · rw [Rd.bind_ok h1, Rd.bind_error h]

theorem readNlri_noEof (afi : Afi) (ap : Bool) (s : Bytes) : readNlri afi ap s ≠ .error .eofExpected := by
  have h := nlriLoop_noEof (afi := afi) (ap := ap) s.length ap false s (Nat.le_refl _)
  unfold readNlri
  split
  · simp
  · exact ite_noEof (by simp) h
  · exact h

theorem parseAttributes_noEof (cfg : AttrCfg) (s : Bytes) : parseAttributes cfg s ≠ .error .eofExpected := by
  obtain ⟨ws, r, hw, rfl, hr | hr⟩ := attr_cut s.length s (Nat.le_refl _)
  · rw [parse_wires cfg ws hw hr]; intro h; cases h
  · rw [parse_broken cfg ws hw hr]; intro h; cases h

theorem parseUpdate_noEof (ap : Bool) (l : AsnLen) (s : Bytes) : parseUpdate ap l s ≠ .error .eofExpected := by
  unfold parseUpdate
  cases h1 : rdSection s with
  | error e => intro h; cases h; exact noEof_rdSection _ h1
  | ok v =>
    obtain ⟨w, r⟩ := v
    dsimp only
    rw [nlriOrWarn_eq]
    dsimp only
    cases h2 : rdSection r with
    | error e => intro h; cases h; exact noEof_rdSection _ h2
    | ok v =>
      obtain ⟨a, n⟩ := v
      dsimp only
      cases h3 : parseAttributes ⟨l, ap, none, none, none⟩ a with
      | error e => intro h; cases h; exact parseAttributes_noEof _ _ h3
      | ok as =>
        dsimp only
        rw [nlriOrWarn_eq]
        simp

theorem parseBody_noEof (ap : Bool) (l : AsnLen) (t : MsgType) (d : Bytes) : parseBody ap l t d ≠ .error .eofExpected := by
  unfold parseBody
  cases t with
  | «open» => exact mapOk_noEof (parseOpen_noEof d)
  | update => exact mapOk_noEof (parseUpdate_noEof ap l d)
  | notification => exact mapOk_noEof (parseNotification_noEof d)
  | keepAlive => simp
  | routeRefresh => exact mapOk_noEof (parseRouteRefresh_noEof d)

theorem parseBgpMessage_noEof (ap : Bool) (l : AsnLen) : NoEof (parseBgpMessage ap l) := by
  refine .bind .remaining fun total => .bind (.needN _) fun _ => .bind ?_ fun _ => .bind .rdU16 fun len =>
    .ite (fun _ => .fail (by decide)) fun _ => .bind .rdU8 fun ty => ?_
  · intro s h
    unfold rdMarker at h
    rw [Rd.bind_eq_error] at h
    rcases h with h | ⟨_, t, h1, h⟩
    · exact NoEof.needN _ _ h
    · simp only [needN] at h1
      split at h1
      · cases h1
      · cases h1
        rename_i hn
        simp [advance, hn] at h
  · split
    · exact .fail (by decide)
    · exact .ite (fun _ => .fail (by decide)) fun _ =>
        (safeEof_needSplit (k := 0) _ fun d => .lift (parseBody_noEof ap l _ d)).noEof

theorem NoEof.rdTimes {p : Rd α} (h : NoEof p) (n : Nat) : NoEof (rdTimes p n) := by
  induction n with
  | zero => exact .pure _
  | succ n ih => exact .bind h fun _ => .bind ih fun _ => .pure _

theorem NoEof.needSplit (n : Nat) {f : Bytes → Rd β} (hf : ∀ a, NoEof (f a)) :
    NoEof (Verif.needN n >>= fun _ => splitTo n >>= f) := by
  intro s h
  rw [Rd.bind_eq_error] at h
  rcases h with h | ⟨_, t, h1, h⟩
  · exact NoEof.needN _ _ h
  · simp only [Verif.needN] at h1
    split at h1
    · cases h1
    rename_i hn
    cases h1
    rw [Rd.bind_eq_error] at h
    rcases h with h | ⟨a, t', h2, h⟩
    · simp [splitTo, hn] at h
    · exact hf _ _ h

theorem Rd.runOn_noEof {p : Rd α} (h : NoEof p) (s : Bytes) : p.runOn s ≠ .error .eofExpected := NoEof.runOn h s

theorem noEof_rdRibEntry (ap : Bool) (afi : Afi) (safi : Safi) (p : NetworkPrefix) :
    NoEof (rdRibEntry ap afi safi p) := by
  refine .bind .remaining fun rem => .ite (fun _ => .fail (by decide)) fun _ => .bind .rdU16 fun _ => .bind .rdU32 fun _ =>
    .bind (.ite (fun _ => .bind .rdU32 fun _ => .pure _) fun _ => .pure _) fun _ => .bind .rdU16 fun _ =>
    .needSplit _ fun d => .bind (.lift (parseAttributes_noEof _ d)) fun _ => .pure _

theorem ribLoop_noEof {p : Rd RibEntry} (hp : NoEof p) : ∀ (n : Nat) (s : Bytes), ribLoop p n s ≠ .error .eofExpected := by
  intro n
  induction n with
  | zero => intro s h; cases h
  | succ n ih =>
    intro s h
    cases hps : p s with
    | error e =>
      cases e <;> simp [ribLoop, hps] at h
    | ok v =>
      simp only [ribLoop, hps] at h
      cases hl : ribLoop p n v.2 with
      | error x => rw [hl] at h; cases h; exact ih _ hl
      | ok es => rw [hl] at h; cases h

theorem parseRibAfi_noEof (t : V2Type) (s : Bytes) : parseRibAfi t s ≠ .error .eofExpected := by
  unfold parseRibAfi
  cases t.family with
  | none => simp
  | some v =>
    obtain ⟨afi, safi⟩ := v
    exact NoEof.runOn (.bind .rdU32 fun _ => .bind (tryParsePrefix_noEof _ _) fun _ => .bind .rdU16 fun _ =>
      .bind .peek fun _ => .bind (.lift (ribLoop_noEof (noEof_rdRibEntry _ _ _ _) _ _)) fun _ => .pure _) s

theorem noEof_rdTableDumpEntry (v4 : Bool) (view seq : UInt16) : NoEof (rdTableDumpEntry v4 view seq) := by
  refine .bind (.bind (.ite (fun _ => .bind (.rdVec _) fun _ => .pure _) fun _ => .bind (.rdVec _) fun _ => .pure _) fun _ =>
    .bind .rdU8 fun _ => ?_) fun _ => .bind .rdU8 fun _ =>
    .bind .rdU32 fun _ => .bind (.rdAddr _) fun _ => .bind .rdU16 fun _ => .bind .rdU16 fun _ => .needSplit _ fun d =>
    .bind (.lift (parseAttributes_noEof _ d)) fun _ => .pure _
  split
  · exact .pure _
  · exact .fail (by decide)

theorem parseTableDumps_noEof (subtype : UInt16) (s : Bytes) : parseTableDumps subtype s ≠ .error .eofExpected := by
  unfold parseTableDumps
  split
  · exact NoEof.runOn (.bind .rdU16 fun view => .bind .rdU16 fun seq => .bind .peek fun rest => .bind
      (.lift (many_noEof (noEof_rdTableDumpEntry _ _ _)
        (fun s a r h => (exact_rdTableDumpEntry _ view seq).consumes_pos (fun _ _ h => DumpEntryBytes_ne h) s a r h) rest))
      fun ms => .ite (fun _ => .fail (by decide)) fun _ => .pure _) s
  · simp

theorem validMpAfi_noEof (afi : Afi) : validMpAfi afi ≠ .error .eofExpected := by cases afi <;> simp [validMpAfi]

theorem NoEof.rdState : NoEof rdState := by
  refine .bind .rdU16 fun x => ?_
  split
  · exact .pure _
  · exact .fail (by decide)

theorem parseMpMessage_noEof (ap : Bool) (l : AsnLen) (t : MpType) (s : Bytes) :
    parseMpMessage ap l t s ≠ .error .eofExpected :=
  NoEof.runOn (.bind (.rdAsn _) fun _ => .bind (.rdAsn _) fun _ => .ite
    (fun _ => .bind (parseBgpMessage_noEof _ _) fun _ => .pure _)
    fun _ => .bind .rdU16 fun _ => .bind .rdAfi fun _ => .bind (.lift (validMpAfi_noEof _)) fun _ =>
      .bind (.rdAddr _) fun _ => .bind (.rdAddr _) fun _ => .bind .remaining fun _ => .ite (fun _ => .fail (by decide))
      fun _ => .bind (parseBgpMessage_noEof _ _) fun _ => .pure _) s

theorem parseMpStateChange_noEof (l : AsnLen) (t : MpType) (s : Bytes) : parseMpStateChange l t s ≠ .error .eofExpected :=
  NoEof.runOn (.bind (.rdAsn _) fun _ => .bind (.rdAsn _) fun _ => .ite
    (fun _ => .bind .rdState fun _ => .bind .rdState fun _ => .pure _)
    fun _ => .bind .rdU16 fun _ => .bind .rdAfi fun _ => .bind (.lift (validMpAfi_noEof _)) fun _ =>
      .bind (.rdAddr _) fun _ => .bind (.rdAddr _) fun _ => .bind .rdState fun _ => .bind .rdState fun _ => .pure _) s

theorem parseBgp4Mp_noEof (subtype : UInt16) (s : Bytes) : parseBgp4Mp subtype s ≠ .error .eofExpected := by
  unfold parseBgp4Mp
  cases MpType.ofU16? subtype with
  | none => simp
  | some t =>
    cases t
    all_goals first
      | exact mapOk_noEof (parseMpMessage_noEof _ _ _ _)
      | exact mapOk_noEof (parseMpStateChange_noEof _ _ _)

theorem parseLegacyPayload_noEof (subtype : UInt16) (d : Bytes) : parseLegacyPayload subtype d ≠ .error .eofExpected := by
  unfold parseLegacyPayload
  split
  · exact mapOk_noEof (parseUpdate_noEof _ _ d)
  split
  · exact mapOk_noEof (parseOpen_noEof d)
  split
  · exact mapOk_noEof (parseNotification_noEof d)
  split <;> simp

theorem parseLegacyBgp_noEof (subtype : UInt16) (s : Bytes) : parseLegacyBgp subtype s ≠ .error .eofExpected := by
  unfold parseLegacyBgp
  split
  · exact NoEof.runOn (.bind .rdU16 fun _ => .bind (.rdVec _) fun _ => .bind .rdU16 fun _ => .bind (.rdVec _) fun _ =>
      .bind .peek fun _ => .bind (.lift (parseLegacyPayload_noEof _ _)) fun _ => .pure _) s
  split
  · exact NoEof.runOn (.bind .rdU16 fun _ => .bind (.rdVec _) fun _ => .bind .rdState fun _ => .bind .rdState fun _ =>
      .bind .remaining fun _ => .ite (fun _ => .fail (by decide)) fun _ => .pure _) s
  · simp

theorem rdPeer_noEof : NoEof rdPeer :=
  .bind .rdU8 fun _ => .bind (.rdVec 4) fun _ => .bind (.rdAddr _) fun _ => .bind (.rdAsn _) fun _ => .pure _

theorem parsePeerIndexTable_noEof : NoEof parsePeerIndexTable :=
  .bind (.rdVec 4) fun _ => .bind .rdU16 fun _ => .bind (.rdN _) fun _ => .bind .rdU16 fun _ =>
    .bind (.rdTimes rdPeer_noEof _) fun _ => .pure _

theorem rdV4_noEof : NoEof rdV4 := .rdVec 4

theorem rdGeoPeer_noEof : NoEof rdGeoPeer :=
  .bind .rdU8 fun _ => .bind rdV4_noEof fun _ =>
    .bind (.ite (fun _ => .bind (.rdVec 16) fun _ => .pure _) fun _ => .bind rdV4_noEof fun _ => .pure _) fun _ =>
      .bind (.rdAsn _) fun _ => .bind .rdU32 fun _ => .bind .rdU32 fun _ => .pure _

theorem parseGeoPeerTable_noEof : NoEof parseGeoPeerTable :=
  .bind rdV4_noEof fun _ => .bind .rdU16 fun _ => .bind (.rdN _) fun _ => .bind .rdU32 fun _ => .bind .rdU32 fun _ =>
    .bind .rdU16 fun _ => .bind (.rdTimes rdGeoPeer_noEof _) fun _ => .pure _

theorem parseTableDumpV2_noEof (subtype : UInt16) (s : Bytes) : parseTableDumpV2 subtype s ≠ .error .eofExpected := by
  unfold parseTableDumpV2
  split
  · simp
  · exact mapOk_noEof (NoEof.runOn parsePeerIndexTable_noEof s)
  · simp
  · simp
  · exact mapOk_noEof (NoEof.runOn parseGeoPeerTable_noEof s)
  · exact mapOk_noEof (parseRibAfi_noEof _ _)

theorem parseMrtBody_noEof (t : EntryType) (subtype : UInt16) (d : Bytes) : parseMrtBody t subtype d ≠ .error .eofExpected := by
  unfold parseMrtBody
  split
  · have := parseTableDumps_noEof subtype d
    split
    · next heq => rw [heq] at this; simpa using this
    · simp
    · simp
  · exact mapOk_noEof (parseTableDumpV2_noEof _ _)
  · exact mapOk_noEof (parseBgp4Mp_noEof _ _)
  · exact mapOk_noEof (parseBgp4Mp_noEof _ _)
  · exact mapOk_noEof (parseLegacyBgp_noEof _ _)
  · simp

theorem rawParse_noEof (r : Raw) : r.parse ≠ .error .eofExpected := mapOk_noEof (parseMrtBody_noEof _ _ _)

end Verif
