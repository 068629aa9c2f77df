import Verif.Lemmas.RecoveryCand
/-
Chains, scanning, confirmation, and one step of the recovering iterator.
-/
namespace Verif
open Spec

/-! ### chains -/

/-- `n` plausible records of a family at the start of the bytes. -/
def ChainRest (f : StreamFamily) (n : Nat) (d : Bytes) : Prop :=
  ∃ rs c t, rs.length = n ∧ Blocks (fun r b => Frame r b ∧ ∃ e, PlausibleAs f e r) rs c ∧ d = c ++ t

theorem ChainRest.zero (f : StreamFamily) (d : Bytes) : ChainRest f 0 d := ⟨[], [], d, rfl, .nil, rfl⟩

theorem ChainRest.succ_iff {f : StreamFamily} {n : Nat} {d : Bytes} :
    ChainRest f (n + 1) d ↔ ∃ r b t e, d = b ++ t ∧ Frame r b ∧ PlausibleAs f e r ∧ ChainRest f n t := by
  constructor
  · rintro ⟨rs, c, t, h1, h2, rfl⟩
    cases h2 with
    | nil => cases h1
    | @cons r rs b c hr hrs =>
      obtain ⟨hf, e, he⟩ := hr
      exact ⟨r, b, c ++ t, e, by simp, hf, he, rs, c, t, by simpa using h1, hrs, rfl⟩
  · rintro ⟨r, b, t, e, rfl, hf, he, rs, c, t', h1, h2, rfl⟩
    exact ⟨r :: rs, b ++ c, t', by simp [h1], .cons ⟨hf, e, he⟩ h2, by simp⟩

theorem chainAt_succ_iff {n : Nat} {ev : Evidence} {d : Bytes} :
    ChainAt (n + 1) ev d ↔ ∃ f r b t, d = b ++ t ∧ Frame r b ∧ PlausibleAs f ev r ∧ ChainRest f n t := by
  constructor
  · rintro ⟨c, t, rfl, f, rs, h1, h2, r, h3, h4⟩
    cases h2 with
    | nil => cases h1
    | @cons r' rs b c hr hrs =>
      cases h3
      exact ⟨f, r, b, c ++ t, by simp, hr.1, h4, rs, c, t, by simpa using h1, hrs, rfl⟩
  · rintro ⟨f, r, b, t, rfl, hf, he, rs, c, t', h1, h2, rfl⟩
    exact ⟨b ++ c, t', by simp, f, r :: rs, by simp [h1], .cons ⟨hf, ev, he⟩ h2, r, rfl, he⟩

/-- a chain starts with an anchor. -/
theorem chainAt_anchor {n : Nat} {ev : Evidence} {d : Bytes} (h : ChainAt (n + 1) ev d) :
    12 ≤ d.length ∧ ∃ a b t, d.drop 4 = a :: b :: t ∧ isAnchor a b = true := by
  obtain ⟨f, r, b, t, rfl, hf, hp, _⟩ := chainAt_succ_iff.mp h
  refine ⟨by have := Frame_length hf; simp; omega, ?_⟩
  have ht := (plausible_type hp).2.1
  obtain ⟨hb, _, rfl, _⟩ := hf
  have key : ∃ t', r.headerBytes = n32 r.header.time.toNat ++ (n16 (entryNum r.header.type) ++ t') := by
    unfold HeaderBytes at hb
    split at hb
    · exact ⟨_, by rw [hb.2]; simp only [List.append_assoc]; rfl⟩
    · exact ⟨_, by rw [hb.2.2]; simp only [List.append_assoc]; rfl⟩
  obtain ⟨t', ht'⟩ := key
  rw [ht']
  rcases ht with ht | ht | ht <;> rw [ht] <;> exact ⟨_, _, _, rfl, by decide⟩

theorem readCandidate_step [LReader ρ] {A : Bytes} {base : Nat} {pure : Prop} {w : Replay ρ} (h : WInv A base pure w) (pol : Pol) :
    WInv A base pure (readCandidate pol w).2 ∧ match readCandidate pol w with
      | (.error e, _) => e ≠ .panic ∧ ¬ pure
      | (.ok none, _) => pure → ∀ f e r b t, A.drop w.cursor = b ++ t → Frame r b → ¬ PlausibleAs f e r
      | (.ok (some (f, e)), w') => ∃ r b, Frame r b ∧ PlausibleAs f e r ∧ A.drop w.cursor = b ++ A.drop w'.cursor ∧
          w'.cursor = w.cursor + b.length := by
  have h1 := readCandidate_inv (WInv A base pure) (fun w n hn hw => hw.read w n hn) pol w h
  refine ⟨h1, ?_⟩
  obtain ⟨w', g1, g2, g3⟩ := readCandidate_eqG pol w
  rw [g1] at h1 ⊢
  simp only at h1
  generalize hc : candT (stk w) (del w) = x at g2 ⊢
  obtain ⟨x, t⟩ := x
  simp only at g2 ⊢
  cases x with
  | error e =>
    simp only
    refine ⟨?_, fun hp => ?_⟩
    · rintro rfl
      unfold candT at hc
      split at hc
      · next e _ _ =>
        cases hn : isNonEofIo e <;> simp [hn] at hc
      · split at hc
        · simp at hc
        · split at hc
          · simp at hc
          · split at hc
            · simp at hc
            · split at hc
              · simp at hc
              · split at hc <;> simp at hc
    · obtain ⟨k1, k2⟩ := h.pureT hp
      rw [k1, k2] at hc
      obtain ⟨x, t, k3⟩ := candT_file (A.drop w.cursor)
      rw [k3] at hc
      simp at hc
  | ok v =>
    cases v with
    | none =>
      simp only
      intro hp f e r b t' hd hf hpl
      obtain ⟨k1, k2⟩ := h.pureT hp
      rw [k1, k2, hd, byteToks_append, candT_complete none hf hpl] at hc
      simp at hc
    | some v =>
      obtain ⟨f, e⟩ := v
      simp only
      obtain ⟨r, b, hf, hp, hd⟩ := candT_some hc
      rw [← g2] at hd
      exact ⟨r, b, hf, hp, h.moved h1 hd⟩

theorem chainLoop_ok [LReader ρ] {A : Bytes} {base : Nat} {pure : Prop} (pol : Pol) (n : Nat) : ∀ (f0 : StreamFamily) (e0 : Evidence)
    (w : Replay ρ), WInv A base pure w →
    WInv A base pure (chainLoop pol n (some (f0, e0)) w).2 ∧ match chainLoop pol n (some (f0, e0)) w with
      | (.error e, _) => e ≠ .panic ∧ ¬ pure
      | (.ok none, _) => pure → ¬ ChainRest f0 n (A.drop w.cursor)
      | (.ok (some x), w') => x = (f0, e0) ∧ ChainRest f0 n (A.drop w.cursor) ∧ w.cursor ≤ w'.cursor := by
  induction n with
  | zero => intro f0 e0 w h; exact ⟨h, rfl, .zero _ _, Nat.le_refl _⟩
  | succ n ih =>
    intro f0 e0 w h
    obtain ⟨h1, h2⟩ := readCandidate_step h pol
    simp only [chainLoop]
    generalize readCandidate pol w = x at h1 h2 ⊢
    obtain ⟨x, w1⟩ := x
    simp only at h1
    cases x with
    | error e => exact ⟨h1, h2⟩
    | ok v =>
      cases v with
      | none =>
        simp only at h2 ⊢
        have hm := h1.moveTo w.cursor
        rw [show w.position = base + w.cursor by rw [Replay.position, h.base]]
        generalize w1.moveTo (base + w.cursor) = y at hm ⊢
        obtain ⟨y, w2⟩ := y
        obtain ⟨m1, m2⟩ := hm
        cases y with
        | error e => exact ⟨m1, m2⟩
        | ok v =>
          refine ⟨m1, fun hp hc => ?_⟩
          obtain ⟨r, b, t, e, k1, k2, k3, _⟩ := ChainRest.succ_iff.mp hc
          exact h2 hp f0 e r b t k1 k2 k3
      | some v =>
        obtain ⟨f, e⟩ := v
        simp only at h2 ⊢
        obtain ⟨r, b, k1, k2, k3, k4⟩ := h2
        by_cases hf : f0 = f
        · subst hf
          rw [if_neg (by simp)]
          obtain ⟨i1, i2⟩ := ih f0 e0 w1 h1
          refine ⟨i1, ?_⟩
          generalize chainLoop pol n (some (f0, e0)) w1 = y at i2 ⊢
          obtain ⟨y, w2⟩ := y
          cases y with
          | error e => exact i2
          | ok v =>
            cases v with
            | none =>
              intro hp hc
              obtain ⟨r', b', t', e', j1, j2, j3, j4⟩ := ChainRest.succ_iff.mp hc
              -- the frame at the cursor is unique
              have u1 := candT_complete none (t' := byteToks t') j2 j3
              have u2 := candT_complete none (t' := byteToks (A.drop w1.cursor)) k1 k2
              rw [← byteToks_append, ← j1] at u1
              rw [← byteToks_append, ← k3, u1] at u2
              simp only [Prod.mk.injEq] at u2
              have : t' = A.drop w1.cursor := by
                have := congrArg dataOf u2.2
                rwa [dataOf_byteToks, dataOf_byteToks] at this
              rw [this] at j4
              exact i2 hp j4
            | some v =>
              obtain ⟨i2, i3, i4⟩ := i2
              exact ⟨i2, ChainRest.succ_iff.mpr ⟨r, b, _, e, k3, k1, k2, i3⟩, by omega⟩
        · rw [if_pos hf]
          refine ⟨h1, fun hp hc => ?_⟩
          obtain ⟨r', b', t', e', j1, j2, j3, j4⟩ := ChainRest.succ_iff.mp hc
          have u1 := candT_complete none (t' := byteToks t') j2 j3
          have u2 := candT_complete none (t' := byteToks (A.drop w1.cursor)) k1 k2
          rw [← byteToks_append, ← j1] at u1
          rw [← byteToks_append, ← k3, u1] at u2
          simp only [Prod.mk.injEq, Except.ok.injEq, Option.some.injEq] at u2
          exact hf u2.1.1

theorem chainLoop_start [LReader ρ] {A : Bytes} {base : Nat} {pure : Prop} (pol : Pol) (n : Nat)
    (w : Replay ρ) (h : WInv A base pure w) :
    WInv A base pure (chainLoop pol (n + 1) none w).2 ∧ match chainLoop pol (n + 1) none w with
      | (.error e, _) => e ≠ .panic ∧ ¬ pure
      | (.ok none, _) => pure → ∀ ev, ¬ ChainAt (n + 1) ev (A.drop w.cursor)
      | (.ok (some x), w') => ChainAt (n + 1) x.2 (A.drop w.cursor) ∧ w.cursor ≤ w'.cursor := by
  obtain ⟨h1, h2⟩ := readCandidate_step h pol
  simp only [chainLoop]
  generalize readCandidate pol w = x at h1 h2 ⊢
  obtain ⟨x, w1⟩ := x
  simp only at h1
  cases x with
  | error e => exact ⟨h1, h2⟩
  | ok v =>
    cases v with
    | none =>
      simp only at h2 ⊢
      have hm := h1.moveTo w.cursor
      rw [show w.position = base + w.cursor by rw [Replay.position, h.base]]
      generalize w1.moveTo (base + w.cursor) = y at hm ⊢
      obtain ⟨y, w2⟩ := y
      obtain ⟨m1, m2⟩ := hm
      cases y with
      | error e => exact ⟨m1, m2⟩
      | ok v =>
        refine ⟨m1, fun hp ev hc => ?_⟩
        obtain ⟨f, r, b, t, k1, k2, k3, _⟩ := chainAt_succ_iff.mp hc
        exact h2 hp f ev r b t k1 k2 k3
    | some v =>
      obtain ⟨f, e⟩ := v
      simp only at h2 ⊢
      obtain ⟨r, b, k1, k2, k3, k4⟩ := h2
      obtain ⟨i1, i2⟩ := chainLoop_ok pol n f e w1 h1
      refine ⟨i1, ?_⟩
      generalize chainLoop pol n (some (f, e)) w1 = y at i2 ⊢
      obtain ⟨y, w2⟩ := y
      cases y with
      | error e => exact i2
      | ok v =>
        cases v with
        | none =>
          intro hp ev hc
          obtain ⟨f', r', b', t', j1, j2, j3, j4⟩ := chainAt_succ_iff.mp hc
          have u1 := candT_complete none (t' := byteToks t') j2 j3
          have u2 := candT_complete none (t' := byteToks (A.drop w1.cursor)) k1 k2
          rw [← byteToks_append, ← j1] at u1
          rw [← byteToks_append, ← k3, u1] at u2
          simp only [Prod.mk.injEq, Except.ok.injEq, Option.some.injEq] at u2
          have : t' = A.drop w1.cursor := by
            have := congrArg dataOf u2.2
            rwa [dataOf_byteToks, dataOf_byteToks] at this
          rw [this, u2.1.1] at j4
          exact i2 hp j4
        | some v =>
          obtain ⟨i2, i3, i4⟩ := i2
          subst i2
          exact ⟨chainAt_succ_iff.mpr ⟨f, r, b, _, k3, k1, k2, i3⟩, by omega⟩

theorem validateChain_ok [LReader ρ] {A : Bytes} {base : Nat} {pure : Prop} (pol : Pol) (n j : Nat)
    (w : Replay ρ) (h : WInv A base pure w) :
    WInv A base pure (validateChain pol w (base + j) (n + 1)).2 ∧ match validateChain pol w (base + j) (n + 1) with
      | (.error e, _) => e ≠ .panic ∧ ¬ pure
      | (.ok none, _) => pure → ∀ ev, ¬ ChainAt (n + 1) ev (A.drop j)
      | (.ok (some ev), w') => ChainAt (n + 1) ev (A.drop j) ∧ j ≤ w'.cursor := by
  have hm := h.moveTo j
  unfold validateChain
  generalize w.moveTo (base + j) = y at hm ⊢
  obtain ⟨y, w1⟩ := y
  obtain ⟨m1, m2⟩ := hm
  cases y with
  | error e => exact ⟨m1, m2⟩
  | ok v =>
    cases v with
    | false =>
      refine ⟨m1, fun hp ev hc => ?_⟩
      have := (chainAt_anchor hc).1
      rw [List.length_drop, ← m2.2 hp] at this
      have := m2.1
      omega
    | true =>
      simp only at m1 m2 ⊢
      obtain ⟨c1, c2⟩ := chainLoop_start pol n w1 m1
      generalize chainLoop pol (n + 1) none w1 = y at c1 c2 ⊢
      obtain ⟨y, w2⟩ := y
      rw [m2] at c2
      cases y with
      | error e => exact ⟨c1, c2⟩
      | ok v => cases v <;> exact ⟨c1, c2⟩

theorem findRecovery_ok [LReader ρ] {A : Bytes} {base : Nat} {pure : Prop} (pol : Pol) (n : Nat) (todo : Nat) : ∀ (distance : Nat)
    (w : Replay ρ), WInv A base pure w →
    WInv A base pure (findRecovery pol base (n + 1) todo distance w).2 ∧ match findRecovery pol base (n + 1) todo distance w with
      | (.error e, _) => e ≠ .panic ∧ ¬ pure
      | (.ok (.found off ev m), w') => ∃ j, off = base + j ∧ m = n + 1 ∧ distance ≤ j ∧ j < distance + todo ∧ j ≤ w'.data.length ∧
          ChainAt (n + 1) ev (A.drop j) ∧ (pure → ∀ i, distance ≤ i → i < j → ∀ ev', ¬ ChainAt (n + 1) ev' (A.drop i))
      | (.ok (.endOfStream off), w') => off = base + w'.data.length ∧ w'.data.length < distance + todo + 5 ∧ 1 ≤ todo ∧ (pure → w'.data = A) ∧
          (pure → ∀ i, distance ≤ i → i < distance + todo → ∀ ev', ¬ ChainAt (n + 1) ev' (A.drop i))
      | (.ok .exhausted, _) =>
          (pure → ∀ i, distance ≤ i → i < distance + todo → ∀ ev', ¬ ChainAt (n + 1) ev' (A.drop i)) ∧
          (1 ≤ todo → distance + todo + 5 ≤ A.length) := by
  induction todo with
  | zero => intro distance w h; exact ⟨h, fun _ i h1 h2 => by omega, fun h => by omega⟩
  | succ todo ih =>
    intro distance w h
    have hp := h.peek (distance + 4)
    rw [findRecovery, show base + distance + 4 = base + (distance + 4) by omega]
    generalize w.peekTwoAt (base + (distance + 4)) = x at hp ⊢
    obtain ⟨x, w1⟩ := x
    obtain ⟨p1, p2⟩ := hp
    have next : (pure → ∀ ev, ¬ ChainAt (n + 1) ev (A.drop distance)) → (∃ a b t, A.drop (distance + 4) = a :: b :: t) →
        ∀ w1 : Replay ρ, WInv A base pure w1 →
        WInv A base pure (findRecovery pol base (n + 1) todo (distance + 1) w1).2 ∧ match findRecovery pol base (n + 1) todo (distance + 1) w1 with
      | (.error e, _) => e ≠ .panic ∧ ¬ pure
      | (.ok (.found off ev m), w') => ∃ j, off = base + j ∧ m = n + 1 ∧ distance ≤ j ∧ j < distance + (todo + 1) ∧ j ≤ w'.data.length ∧
          ChainAt (n + 1) ev (A.drop j) ∧ (pure → ∀ i, distance ≤ i → i < j → ∀ ev', ¬ ChainAt (n + 1) ev' (A.drop i))
      | (.ok (.endOfStream off), w') => off = base + w'.data.length ∧ w'.data.length < distance + (todo + 1) + 5 ∧ 1 ≤ todo + 1 ∧ (pure → w'.data = A) ∧
          (pure → ∀ i, distance ≤ i → i < distance + (todo + 1) → ∀ ev', ¬ ChainAt (n + 1) ev' (A.drop i))
      | (.ok .exhausted, _) =>
          (pure → ∀ i, distance ≤ i → i < distance + (todo + 1) → ∀ ev', ¬ ChainAt (n + 1) ev' (A.drop i)) ∧
          (1 ≤ todo + 1 → distance + (todo + 1) + 5 ≤ A.length) := by
      rintro hno ⟨a, b, t, ht⟩ w1 h1
      obtain ⟨i1, i2⟩ := ih (distance + 1) w1 h1
      refine ⟨i1, ?_⟩
      generalize findRecovery pol base (n + 1) todo (distance + 1) w1 = y at i2 ⊢
      obtain ⟨y, w2⟩ := y
      have ext : ∀ m, (pure → ∀ i, distance + 1 ≤ i → i < m → ∀ ev', ¬ ChainAt (n + 1) ev' (A.drop i)) →
          pure → ∀ i, distance ≤ i → i < m → ∀ ev', ¬ ChainAt (n + 1) ev' (A.drop i) := by
        intro m hm hp i hi1 hi2 ev'
        by_cases hi : i = distance
        · rw [hi]; exact hno hp ev'
        · exact hm hp i (by omega) hi2 ev'
      match y, i2 with
      | .error e, i2 => exact i2
      | .ok (.found off ev m), ⟨j, k1, k2, k3, k4, k5, k6, k7⟩ =>
        exact ⟨j, k1, k2, by omega, by omega, k5, k6, ext _ k7⟩
      | .ok (.endOfStream off), ⟨k1, k2, k3, k4, k5⟩ =>
        refine ⟨k1, by omega, by omega, k4, ext _ ?_⟩
        rw [show distance + (todo + 1) = distance + 1 + todo by omega]; exact k5
      | .ok .exhausted, ⟨k1, k2⟩ =>
        refine ⟨ext _ ?_, fun _ => ?_⟩
        · rw [show distance + (todo + 1) = distance + 1 + todo by omega]; exact k1
        · have := congrArg List.length ht
          simp only [List.length_drop, List.length_cons] at this
          by_cases h0 : 1 ≤ todo
          · have := k2 h0; omega
          · omega
    match x, p2 with
    | .error e, p2 => exact ⟨p1, p2⟩
    | .ok none, p2 =>
      refine ⟨p1, ?_, by have := p2.1; omega, by omega, p2.2, fun hp i hi1 hi2 ev' hc => ?_⟩
      · rw [Replay.bufferedEnd, p1.base]
      · have := (chainAt_anchor hc).1
        rw [List.length_drop, ← p2.2 hp] at this
        have := p2.1
        omega
    | .ok (some (a, b)), ⟨t, ht⟩ =>
      simp only
      cases ha : isAnchor a b with
      | false =>
        rw [if_neg (by simp)]
        refine next (fun hp ev hc => ?_) ⟨a, b, t, ht⟩ w1 p1
        obtain ⟨_, a', b', t', k1, k2⟩ := chainAt_anchor hc
        rw [List.drop_drop, ht] at k1
        cases k1
        rw [ha] at k2
        cases k2
      | true =>
        rw [if_pos rfl]
        obtain ⟨v1, v2⟩ := validateChain_ok pol n distance w1 p1
        generalize validateChain pol w1 (base + distance) (n + 1) = y at v1 v2 ⊢
        obtain ⟨y, w2⟩ := y
        match y, v2 with
        | .error e, v2 => exact ⟨v1, v2⟩
        | .ok none, v2 => exact next v2 ⟨a, b, t, ht⟩ w2 v1
        | .ok (some ev), ⟨v2, v3⟩ =>
          exact ⟨v1, distance, rfl, rfl, Nat.le_refl _, by omega, Nat.le_trans v3 v1.cursor, v2, fun _ i h1 h2 => by omega⟩

/-! ### the complaints about a file -/

theorem chunkT_header {k : Option Bool} {t t' : List Tok} {er : ChunkErr} {h : Header} (hc : chunkT k t = (.error er, t'))
    (hh : er.header = some h) : ∃ hb t'', HeaderBytes h hb ∧ t = byteToks hb ++ t'' := by
  unfold chunkT at hc
  cases hx : headerT k t with
  | mk cap x =>
    obtain ⟨x, t1⟩ := x
    rw [hx] at hc
    cases x with
    | error e =>
      simp only at hc
      split at hc <;> (cases hc; cases hh)
    | ok v =>
      obtain ⟨hd, hb⟩ := v
      obtain ⟨rfl, h1, h2⟩ := headerT_ok hx
      have key : er.header = some hd := by
        simp only at hc
        split at hc
        · cases hc; rfl
        · split at hc
          · cases hc; rfl
          · split at hc
            · cases hc; rfl
            · split at hc
              · split at hc
                · cases hc; rfl
                · split at hc
                  · cases hc; rfl
                  · cases hc
              · cases hc
      rw [key] at hh
      cases hh
      exact ⟨cap, t1, h1, h2⟩

/-- behind a complete header no error is of the kind for missing headers. -/
theorem chunkT_eof_header {k : Option Bool} {h : Header} {hb t : Bytes} {er : ChunkErr} {t' : List Tok} (hh : HeaderBytes h hb)
    (hc : chunkT k (byteToks (hb ++ t)) = (.error er, t')) : er.error ≠ .eof := by
  unfold chunkT at hc
  rw [byteToks_append, headerT_complete k hh] at hc
  simp only at hc
  have hbody : ∀ b, bodyErr (.failed b) ≠ .eof := by intro b; cases b <;> simp [bodyErr]
  split at hc
  · cases hc; simp
  · split at hc
    · cases hc; exact hbody _
    · split at hc
      · cases hc; simp
      · split at hc
        · split at hc
          · cases hc; exact hbody _
          · split at hc
            · cases hc; simp
            · cases hc
        · cases hc

/-- What raw reading says about the bytes of a file. -/
theorem chunkT_file {d : Bytes} {er : ChunkErr} {t' : List Tok} (h : chunkT none (byteToks d) = (.error er, t')) :
    (er.error = .eofExpected ∧ d = []) ∨
    (er.error ≠ .eofExpected ∧ er.error ≠ .io ∧ ∃ taken, er.bytes = some taken ∧ NoRecord d er.error taken) := by
  have nf : ∀ r b t, d = b ++ t → ¬ Frame r b := by
    rintro r b t rfl hf
    rw [byteToks_append, chunkT_complete none hf] at h
    cases h
  have ns : er.error = .eof ∨ er.error = .ioEof → ∀ b t, d = b ++ t → ¬ Skippable b := by
    rintro he b t rfl (hs | ⟨hd, hs1, hs2⟩)
    · rw [byteToks_append, chunkT_bad none _ hs] at h
      cases h
      simp at he
    · rw [byteToks_append, chunkT_long none _ hs1 hs2] at h
      cases h
      simp at he
  rcases chunkT_error h with ⟨b, h1, h2, h3, h4⟩ | ⟨b, e, st, h1, h2, h3, h4⟩
  · right
    obtain ⟨rest, h2, _⟩ := byteToks_split h2
    rcases h4 with ⟨h4, h5⟩ | ⟨h4, h5⟩
    · exact ⟨by simp [h4], by simp [h4], b, h1, nf, .inl ⟨h4, h5, rest, h2⟩⟩
    · exact ⟨by simp [h4], by simp [h4], b, h1, nf, .inr (.inl ⟨h4, h5, rest, h2⟩)⟩
  · have hst : st = .short := ends_none h2 h3
    obtain ⟨rfl, _⟩ := byteToks_ends h2 h3
    subst hst
    rcases h4 with ⟨h4, _, h5, _⟩ | ⟨h4, h5, h6, h7, _⟩ | ⟨h4, h5, h6, h7⟩
    · exact .inl ⟨h4, h5⟩
    · right
      have h4 : er.error = .eof := h4
      exact ⟨by simp [h4], by simp [h4], d, h5, nf, .inr (.inr (.inl ⟨h4, rfl, ns (.inl h4), h6 rfl, h7,
        fun hd hb t hh he => chunkT_eof_header hh (he ▸ h) h4⟩))⟩
    · right
      have h4 : er.error = .ioEof := h4
      obtain ⟨hd, hh⟩ := Option.isSome_iff_exists.mp h7
      obtain ⟨hb, t'', k1, k2⟩ := chunkT_header h hh
      obtain ⟨rest, k2, _⟩ := byteToks_split k2
      exact ⟨by simp [h4], by simp [h4], d, h5, nf, .inr (.inr (.inr ⟨h4, rfl, ns (.inr h4), hd, hb, rest, k1, k2⟩))⟩

/-! ### confirming -/

theorem nextRecord_step [LReader ρ] {A : Bytes} {base : Nat} {pure : Prop} {w : Replay ρ} (h : WInv A base pure w) (pol : Pol) :
    WInv A base pure (nextRecord pol w).2 ∧ match nextRecord pol w with
      | (.ok m, w') => ∃ b, Intact m b ∧ A.drop w.cursor = b ++ A.drop w'.cursor ∧ w'.cursor = w.cursor + b.length
      | (.error e, _) => pure →
          e.error = .eofExpected ∧ A.drop w.cursor = [] ∨
          (∃ taken, e.error ≠ .eofExpected ∧ e.error ≠ .io ∧ NoRecord (A.drop w.cursor) e.error taken) ∨
          ∃ b t, A.drop w.cursor = b ++ t ∧ Damaged e.error b := by
  have h1 := nextRecord_inv (WInv A base pure) (fun w n hn hw => hw.read w n hn) pol w h
  refine ⟨h1, ?_⟩
  obtain ⟨w', g1, g2, g3⟩ := nextRecord_eqG pol w
  rw [g1] at h1 ⊢
  simp only at h1
  generalize hc : nextT (stk w) (del w) = x at g2 ⊢
  obtain ⟨x, t⟩ := x
  simp only at g2 ⊢
  cases x with
  | ok m =>
    simp only
    obtain ⟨pre, k1, raw, k2, k3, k4⟩ := nextT_took hc
    rw [k3, ← g2] at k1
    exact ⟨raw.bytes, ⟨raw, k2, k4⟩, h.moved h1 k1⟩
  | error e =>
    simp only
    intro hp
    obtain ⟨k1, k2⟩ := h.pureT hp
    rw [k1, k2] at hc
    unfold nextT at hc
    cases hx : chunkT none (byteToks (A.drop w.cursor)) with
    | mk x t1 =>
      rw [hx] at hc
      cases x with
      | error er =>
        cases hc
        rcases chunkT_file hx with h | ⟨h1, h2, taken, _, h3⟩
        · exact .inl h
        · exact .inr (.inl ⟨taken, h1, h2, h3⟩)
      | ok raw =>
        simp only at hc
        obtain ⟨hf, hd⟩ := chunkT_ok hx
        obtain ⟨rest, hd', _⟩ := byteToks_split hd
        cases hpa : raw.parse with
        | ok m => rw [hpa] at hc; cases hc
        | error e' =>
          rw [hpa] at hc
          cases hc
          exact .inr (.inr ⟨_, rest, hd', raw, hf, hpa⟩)

theorem confirmLoop_ok [LReader ρ] {A : Bytes} {base : Nat} {pure : Prop} (pol : Pol) (todo : Nat) : ∀ (confirmed : Nat)
    (w : Replay ρ), WInv A base pure w →
    WInv A base pure (confirmLoop pol todo confirmed w).2 ∧ match confirmLoop pol todo confirmed w with
      | (.ok (some k), w') => w.cursor ≤ w'.cursor ∧ confirmed ≤ k ∧ k ≤ confirmed + todo ∧
          (∃ ms c t, A.drop w.cursor = c ++ t ∧ Blocks Intact ms c ∧ k = confirmed + ms.length) ∧
          (pure → Aligned todo (A.drop w.cursor) (k - confirmed))
      | (.ok none, _) => pure → Misaligned todo (A.drop w.cursor)
      | (.error e, _) => e = .io false ∧ (pure → FalseIo todo (A.drop w.cursor)) := by
  induction todo with
  | zero =>
    intro confirmed w h
    refine ⟨h, Nat.le_refl _, Nat.le_refl _, Nat.le_refl _, ⟨[], [], _, rfl, .nil, rfl⟩, fun _ => ?_⟩
    rw [Nat.sub_self]
    exact ⟨[], [], _, rfl, .nil, rfl, .inl rfl⟩
  | succ todo ih =>
    intro confirmed w h
    obtain ⟨h1, h2⟩ := nextRecord_step h pol
    simp only [confirmLoop]
    have hcur : ∀ e w1, nextRecord pol w = (.error e, w1) → w.cursor ≤ w1.cursor := by
      intro e w1 hx
      obtain ⟨w', g1, g2, g3⟩ := nextRecord_eqG pol w
      rw [hx] at g1
      simp only [Prod.mk.injEq] at g1
      obtain ⟨g1, rfl⟩ := g1
      obtain ⟨pre, k1, _⟩ := nextT_took (k := stk w) (t := del w) (x := (nextT (stk w) (del w)).1) (t' := (nextT (stk w) (del w)).2) rfl
      rw [← g2] at k1
      have h1 : WInv A base pure w1 := by rw [hx] at h1; exact h1
      have e1 := h.rest
      have e2 := h1.rest
      rw [k1, dataOf_append, e2] at e1
      have := congrArg List.length e1
      have a := h.cursor_le
      have b := h1.cursor_le
      simp only [List.length_append, List.length_drop] at this
      omega
    generalize nextRecord pol w = x at h1 h2 hcur ⊢
    obtain ⟨x, w1⟩ := x
    cases x with
    | ok m =>
      simp only at h1 h2 ⊢
      obtain ⟨b, k1, k2, k3⟩ := h2
      obtain ⟨i1, i2⟩ := ih (confirmed + 1) w1 h1
      refine ⟨i1, ?_⟩
      generalize confirmLoop pol todo (confirmed + 1) w1 = y at i2 ⊢
      obtain ⟨y, w2⟩ := y
      match y, i2 with
      | .error e, ⟨i2, i3⟩ =>
        refine ⟨i2, fun hp => ?_⟩
        obtain ⟨ms, c, b', t, j1, j2, j3, j4⟩ := i3 hp
        exact ⟨m :: ms, b ++ c, b', t, by rw [k2, j1]; simp, .cons k1 j2, by simp; omega, j4⟩
      | .ok none, i2 =>
        intro hp
        obtain ⟨ms, c, t, j1, j2, j3, j4⟩ := i2 hp
        exact ⟨m :: ms, b ++ c, t, by rw [k2, j1]; simp, .cons k1 j2, by simp; omega, j4⟩
      | .ok (some k), ⟨i2, i3, i4, ⟨ms, c, t, j1, j2, j3⟩, i5⟩ =>
        refine ⟨by omega, by omega, by omega, ⟨m :: ms, b ++ c, t, by rw [k2, j1]; simp, .cons k1 j2, by simp; omega⟩, fun hp => ?_⟩
        obtain ⟨ms, c, t, j1, j2, j3, j4⟩ := i5 hp
        refine ⟨m :: ms, b ++ c, t, by rw [k2, j1]; simp, .cons k1 j2, by simp; omega, ?_⟩
        rcases j4 with j4 | ⟨j4, j5⟩
        · exact .inl (by omega)
        · exact .inr ⟨by omega, j5⟩
    | error e =>
      have hcur := hcur e w1 rfl
      simp only at h1 h2 ⊢
      by_cases he : e.error = .eofExpected
      · rw [if_pos he]
        refine ⟨h1, hcur, Nat.le_refl _, by omega, ⟨[], [], _, rfl, .nil, rfl⟩, fun hp => ?_⟩
        rw [Nat.sub_self]
        refine ⟨[], [], _, rfl, .nil, rfl, .inr ⟨by omega, ?_⟩⟩
        rcases h2 hp with ⟨_, h2⟩ | ⟨_, h3, _⟩ | ⟨b, t, h3, h4⟩
        · exact .inl h2
        · exact absurd he h3
        · exact .inr ⟨b, t, h3, by rw [he] at h4; exact h4⟩
      · rw [if_neg he]
        by_cases hi : e.error = .io
        · rw [if_pos (by simp [isNonEofIo, hi])]
          refine ⟨h1, rfl, fun hp => ?_⟩
          rcases h2 hp with ⟨h2, _⟩ | ⟨_, _, h3, _⟩ | ⟨b, t, h3, h4⟩
          · exact absurd h2 he
          · exact absurd hi h3
          · exact ⟨[], [], b, t, h3, .nil, by simp, by rw [hi] at h4; exact h4⟩
        · rw [if_neg (by simp [isNonEofIo, hi])]
          refine ⟨h1, fun hp => ?_⟩
          refine ⟨[], [], _, rfl, .nil, by simp, ?_⟩
          rcases h2 hp with ⟨h2, _⟩ | ⟨taken, _, _, h3⟩ | ⟨b, t, h3, h4⟩
          · exact absurd h2 he
          · exact .inl ⟨_, taken, h3⟩
          · exact .inr ⟨_, b, t, h3, h4, hi, he⟩

theorem confirmAligned_ok [LReader ρ] {A : Bytes} {base : Nat} {pure : Prop} (pol : Pol) (n j : Nat) (w : Replay ρ)
    (h : WInv A base pure w) (hj : j ≤ A.length) :
    WInv A base pure (confirmAligned pol w (base + j) n).2 ∧ match confirmAligned pol w (base + j) n with
      | (.ok (some k), w') => j ≤ w'.cursor ∧ k ≤ n ∧
          (∃ ms c t, A.drop j = c ++ t ∧ Blocks Intact ms c ∧ k = ms.length) ∧ (pure → Aligned n (A.drop j) k)
      | (.ok none, _) => pure → Misaligned n (A.drop j)
      | (.error e, _) => e ≠ .panic ∧ (pure → e = .io false ∧ FalseIo n (A.drop j)) := by
  have hm := h.moveTo j
  unfold confirmAligned
  generalize w.moveTo (base + j) = y at hm ⊢
  obtain ⟨y, w1⟩ := y
  obtain ⟨m1, m2⟩ := hm
  cases y with
  | error e => exact ⟨m1, m2.1, fun hp => absurd hp m2.2⟩
  | ok v =>
    cases v with
    | false =>
      refine ⟨m1, fun hp => ?_⟩
      have h1 := m2.1
      rw [m2.2 hp] at h1
      omega
    | true =>
      simp only at m1 m2 ⊢
      obtain ⟨c1, c2⟩ := confirmLoop_ok pol n 0 w1 m1
      generalize confirmLoop pol n 0 w1 = y at c1 c2 ⊢
      obtain ⟨y, w2⟩ := y
      rw [m2] at c2
      refine ⟨c1, ?_⟩
      match y, c2 with
      | .error e, ⟨c2, c3⟩ => exact ⟨by simp [c2], fun hp => ⟨c2, c3 hp⟩⟩
      | .ok none, c2 => exact c2
      | .ok (some k), ⟨c2, _, c3, ⟨ms, c, t, j1, j2, j3⟩, c4⟩ =>
        exact ⟨c2, by omega, ⟨ms, c, t, j1, j2, by omega⟩, c4⟩

/-! ### one step of the recovering iterator -/

/-- one round of `recoveringLoop` without the filter. -/
def recStep (cfg : RecoveryConfig) (pol : Pol) (st : Recovering σ) : Option (Except RecoveryError (Event MrtRecord)) × Recovering σ :=
  match chunk pol st.reader with
  | (.error e, r) =>
    if e.error = .eofExpected then (none, { st with reader := r, finished := true })
    else if isNonEofIo e.error then (some (.error ⟨st.reader.offset, 0, e⟩), { st with reader := r, finished := true })
    else
      (some (recover cfg pol { st with reader := r } st.reader.offset none e).1, (recover cfg pol { st with reader := r } st.reader.offset none e).2)
  | (.ok raw, r) =>
    match raw.parse with
    | .ok rec => (some (.ok (.item rec)), { st with reader := r })
    | .error e =>
      (some (recover cfg pol { st with reader := r } st.reader.offset (some r.offset) ⟨e, some raw.bytes⟩).1,
        (recover cfg pol { st with reader := r } st.reader.offset (some r.offset) ⟨e, some raw.bytes⟩).2)

theorem recover_ne_item (cfg : RecoveryConfig) (pol : Pol) (st : Recovering σ) (start : Nat) (stop : Option Nat) (e : RecErr) (m : MrtRecord) :
    (recover cfg pol st start stop e).1 ≠ .ok (.item m) := by
  have hs : ∀ w, (recoverScan cfg pol st start e w).1 ≠ .ok (.item m) := by
    intro w
    unfold recoverScan
    split <;> simp
  unfold recover
  simp only
  split
  · simp
  · split
    · exact hs _
    · split
      · simp
      · exact hs _
      · simp

theorem recoveringLoop_step (f : Keep σ) (cfg : RecoveryConfig) (pol : Pol) (fuel : Nat) (st : Recovering σ) :
    recoveringLoop f cfg pol (fuel + 1) st = match recStep cfg pol st with
      | (some (.ok (.item m)), st') =>
        if (f.step st'.filter m).1 = true then (some (.ok (.item m)), { st' with filter := (f.step st'.filter m).2 })
        else recoveringLoop f cfg pol fuel { st' with filter := (f.step st'.filter m).2 }
      | x => x := by
  rw [recoveringLoop, recStep]
  generalize chunk pol st.reader = x
  obtain ⟨x, r⟩ := x
  cases x with
  | error e =>
    simp only
    split
    · rfl
    · split
      · rfl
      · have := recover_ne_item cfg pol { st with reader := r } st.reader.offset none e
        generalize recover cfg pol { st with reader := r } st.reader.offset none e = y at this ⊢
        obtain ⟨y, s⟩ := y
        match y, this with
        | .error e, _ => rfl
        | .ok (.gap g), _ => rfl
        | .ok (.item m), this => exact absurd rfl (this m)
  | ok raw =>
    simp only
    cases raw.parse with
    | ok m =>
      simp only
      generalize f.step st.filter m = y
      obtain ⟨b, q⟩ := y
      cases b <;> simp
    | error e =>
      simp only
      have := recover_ne_item cfg pol { st with reader := r } st.reader.offset (some r.offset) ⟨e, some raw.bytes⟩
      generalize recover cfg pol { st with reader := r } st.reader.offset (some r.offset) ⟨e, some raw.bytes⟩ = y at this ⊢
      obtain ⟨y, s⟩ := y
      match y, this with
      | .error e, _ => rfl
      | .ok (.gap g), _ => rfl
      | .ok (.item m), this => exact absurd rfl (this m)

/-- offset and bytes of a carry-over reader stay together. -/
theorem carry_total [LReader ρ] (K : Nat) (c : Carry ρ) (n : Nat) (hn : 1 ≤ n) (h : c.offset + (dataOf (del c)).length = K) :
    (Reader.read c n).2.offset + (dataOf (del (Reader.read c n).2)).length = K := by
  have a : dataOf (del c) = (match (Reader.read c n).1 with | .got c => c | _ => []) ++ dataOf (del (Reader.read c n).2) :=
    read_data c n hn
  have b : (Reader.read c n).2.offset = c.offset + (match (Reader.read c n).1 with | .got c => c | _ => []).length := by
    obtain ⟨i, carry, o⟩ := c
    show (Carry.read ⟨i, carry, o⟩ n).2.offset = o + (match (Carry.read ⟨i, carry, o⟩ n).1 with | .got c => c | _ => []).length
    cases carry with
    | nil =>
      simp only [Carry.read]
      generalize Reader.read i n = x
      obtain ⟨x, i'⟩ := x
      cases x <;> rfl
    | cons b bs => rfl
  rw [a, List.length_append] at h
  omega

/-- The reader of the next round: where it is, what it delivers. -/
structure Next (st st' : Recovering σ) (o' : Nat) (d' : Bytes) : Prop where
  offset : st'.reader.offset = o'
  data : dataOf (del st'.reader) = d'
  filter : st'.filter = st.filter
  text : st'.text = st.text
  finished : st'.finished = st.finished
  file : FileLike st.reader → FileLike st'.reader
  size : (del st'.reader).length < (del st.reader).length

/-- a gap in a file. -/
def FileGap (cfg : RecoveryConfig) (g : Gap) (o : Nat) (d b d' : Bytes) : Prop :=
  (∃ e k, Damaged e b ∧ Aligned (required cfg) d' k ∧ g = ⟨o, o + b.length, e, .alignedRecordChain, k⟩) ∨
  (∃ e j ev, Stuck (required cfg) d e ∧ 1 ≤ j ∧ j ≤ cfg.maxScan ∧ b.length = j ∧ ChainAt (required cfg) ev (d.drop j) ∧
    (∀ i, 1 ≤ i → i < j → ∀ ev', ¬ ChainAt (required cfg) ev' (d.drop i)) ∧ g = ⟨o, o + j, e.error, ev, required cfg⟩) ∨
  (∃ e, Stuck (required cfg) d e ∧ (∀ i, 1 ≤ i → i ≤ cfg.maxScan → ∀ ev', ¬ ChainAt (required cfg) ev' (d.drop i)) ∧
    1 ≤ cfg.maxScan ∧ d.length ≤ cfg.maxScan + 5 ∧ d' = [] ∧ g = ⟨o, o + d.length, e.error, .endOfStream, 0⟩)

/-- the last error for a file. -/
def FileFailure (cfg : RecoveryConfig) (x : RecoveryError) (o : Nat) (d : Bytes) : Prop :=
  (∃ e b d', d = b ++ d' ∧ Damaged e b ∧ FalseIo (required cfg) d' ∧ x = ⟨o, 0, ⟨.io, none⟩⟩) ∨
  (∃ e, Stuck (required cfg) d e ∧ (∀ i, 1 ≤ i → i ≤ cfg.maxScan → ∀ ev', ¬ ChainAt (required cfg) ev' (d.drop i)) ∧
    (cfg.maxScan = 0 ∨ cfg.maxScan + 5 < d.length) ∧ x = ⟨o, cfg.maxScan, e⟩)

/-- What one recovery does. `st0` is the state before the chunk was read. -/
def RecoverOk (cfg : RecoveryConfig) (st0 : Recovering σ) (o : Nat) (d : Bytes) (e : RecErr)
    (x : Except RecoveryError (Event MrtRecord) × Recovering σ) : Prop :=
  match x with
  | (.ok (.item _), _) => False
  | (.ok (.gap g), st') => ∃ b d', d = b ++ d' ∧ b ≠ [] ∧ g.start = o ∧ g.stop = o + b.length ∧ g.cause = e.error ∧ GapFits cfg g b d' ∧
      Next st0 st' (o + b.length) d' ∧ (FileLike st0.reader → FileGap cfg g o d b d')
  | (.error y, st') => (y.offset = o ∧ y.scanned ≤ d.length) ∧ (y.error.error = .panic → e.error = .panic) ∧ st'.finished = true ∧ st'.filter = st0.filter ∧
      (FileLike st0.reader → FileFailure cfg y o d)

theorem required_succ (cfg : RecoveryConfig) : ∃ n, required cfg = n + 1 := ⟨required cfg - 1, by unfold required; omega⟩

theorem scanErr_panic {x : ScanErr} (h : x ≠ .panic) : (scanErr x).error ≠ .panic := by
  cases x with
  | interrupted => simp [scanErr]
  | io k => cases k <;> simp [scanErr]
  | panic => exact absurd rfl h

theorem chainAt_evidence {n : Nat} {ev : Evidence} {d : Bytes} (h : ChainAt (n + 1) ev d) : ev ≠ .alignedRecordChain ∧ ev ≠ .endOfStream := by
  obtain ⟨f, r, b, t, _, _, hp, _⟩ := chainAt_succ_iff.mp h
  obtain ⟨_, hp⟩ := hp
  constructor <;> rintro rfl <;> cases f <;> simp at hp

/-- resuming from the window. -/
theorem resume_next {st0 st : Recovering σ} {A : Bytes} {o : Nat} {w : Replay (Carry Src)} (hw : WInv A o (FileLike st0.reader) w)
    (hf : st.filter = st0.filter) (ht : st.text = st0.text) (hfin : st.finished = st0.finished)
    (hA : dataOf (del st0.reader) = A) (j : Nat) (hj1 : 1 ≤ j) (hj : j ≤ w.data.length)
    (hsz : w.data.length + (del w.inner).length ≤ (del st0.reader).length) :
    Next st0 { st with reader := w.inner.resumeWith (w.leftover (o + j)) (o + j) } (o + j) (A.drop j) := by
  have hl : w.leftover (o + j) = w.data.drop j := by
    unfold Replay.leftover
    rw [hw.base]
    congr 1
    omega
  have hdel : del (w.inner.resumeWith (w.leftover (o + j)) (o + j)) = byteToks (w.data.drop j) ++ del w.inner := by
    rw [hl, del_carry, del_carry, Carry.resumeWith]
    simp [byteToks]
  refine ⟨rfl, ?_, hf, ht, hfin, fun h => ?_, ?_⟩
  · simp only
    rw [hdel, dataOf_append, dataOf_byteToks, ← hw.all, List.drop_append_of_le_length hj]
  · have hfile := hw.file h
    refine ⟨?_, hfile.2.1, hfile.2.2⟩
    simp only
    rw [hdel]
    exact hfile.1.append
  · simp only
    rw [hdel, List.length_append, byteToks_length, List.length_drop]
    omega

theorem takeDrop (A : Bytes) {j : Nat} (h : j ≤ A.length) : A = A.take j ++ A.drop j ∧ (A.take j).length = j :=
  ⟨(List.take_append_drop j A).symm, by rw [List.length_take]; omega⟩

/-- what is in the window is at most what was to come; it is not empty. -/
def WSize (N : Nat) (w : Replay (Carry Src)) : Prop := w.data.length + (del w.inner).length ≤ N ∧ 1 ≤ w.data.length

theorem read_size [LReader ρ] (s : ρ) (n : Nat) (hn : 1 ≤ n) :
    (match (Reader.read s n).1 with | .got c => c | _ => []).length + (del (Reader.read s n).2).length ≤ (del s).length := by
  have a := LReader.read_ok s n hn
  generalize Reader.read s n = x at a ⊢
  obtain ⟨x, s'⟩ := x
  obtain ⟨a1, a2⟩ := a
  cases x with
  | got c => rw [a2.2.2.1]; simp [byteToks]
  | zero => rcases a2 with a2 | ⟨a2, a3, _⟩ <;> simp_all
  | interrupted => rw [a2.1]; simp
  | failed k => rcases a2 with a2 | ⟨a2, a3, _⟩ <;> simp_all

theorem WSize.read {N : Nat} (w : Replay (Carry Src)) (n : Nat) (hn : 1 ≤ n) (h : WSize N w) : WSize N (Reader.read w n).2 := by
  obtain ⟨i, data, cursor, b⟩ := w
  show WSize N (Replay.read ⟨i, data, cursor, b⟩ n).2
  simp only [Replay.read]
  unfold WSize at h ⊢
  cases hd : data.drop cursor with
  | nil =>
    have a := read_size i n hn
    simp only at h ⊢
    generalize Reader.read i n = x at a ⊢
    obtain ⟨x, i'⟩ := x
    cases x <;> simp only [List.length_append, List.length_nil] at a ⊢ <;> omega
  | cons x bs => exact h

theorem WSize.fill {N : Nat} (target fuel : Nat) : ∀ w : Replay (Carry Src), WSize N w → WSize N (w.fill target fuel).2 := by
  induction fuel with
  | zero => intro w h; exact h
  | succ fuel ih =>
    intro w h
    rw [Replay.fill]
    by_cases hl : w.data.length < target
    · rw [if_pos hl]
      have a := read_size w.inner (min (target - w.data.length) 8192) (by omega)
      unfold WSize at h
      generalize Reader.read w.inner (min (target - w.data.length) 8192) = x at a ⊢
      obtain ⟨x, i'⟩ := x
      cases x with
      | got c =>
        simp only at a ⊢
        refine ih _ ?_
        unfold WSize
        simp only [List.length_append]
        omega
      | _ =>
        simp only [List.length_nil] at a ⊢
        unfold WSize
        simp only
        omega
    · rw [if_neg hl]; exact h

theorem WSize.moveTo {N : Nat} (w : Replay (Carry Src)) (j : Nat) (h : WSize N w) : WSize N (w.moveTo j).2 := by
  unfold Replay.moveTo
  split
  · exact h
  · exact WSize.fill _ _ w h

theorem WSize.peek {N : Nat} (w : Replay (Carry Src)) (j : Nat) (h : WSize N w) : WSize N (w.peekTwoAt j).2 := by
  have := WSize.moveTo w (j + 2) h
  unfold Replay.peekTwoAt
  generalize w.moveTo (j + 2) = x at this ⊢
  obtain ⟨x, w'⟩ := x
  match x with
  | .error e => exact this
  | .ok false => exact this
  | .ok true => simp only; split <;> exact this

theorem WSize.chainLoop {N : Nat} (pol : Pol) (n : Nat) : ∀ (x : Option (StreamFamily × Evidence)) (w : Replay (Carry Src)), WSize N w →
    WSize N (Verif.chainLoop pol n x w).2 := by
  induction n with
  | zero => intro x w h; exact h
  | succ n ih =>
    intro x w h
    have h1 := readCandidate_inv (WSize N) (fun w n hn hw => hw.read w n hn) pol w h
    rw [Verif.chainLoop]
    generalize readCandidate pol w = y at h1 ⊢
    obtain ⟨y, w1⟩ := y
    match y with
    | .error e => exact h1
    | .ok none =>
      have h2 := WSize.moveTo w1 w.position h1
      simp only
      generalize w1.moveTo w.position = z at h2 ⊢
      obtain ⟨z, w2⟩ := z
      cases z <;> exact h2
    | .ok (some (f, e)) =>
      simp only at h1 ⊢
      cases x with
      | none => exact ih _ _ h1
      | some v =>
        simp only
        split
        · exact h1
        · exact ih _ _ h1

theorem WSize.find {N : Nat} (pol : Pol) (start req : Nat) (todo : Nat) : ∀ (dist : Nat) (w : Replay (Carry Src)), WSize N w →
    WSize N (findRecovery pol start req todo dist w).2 := by
  induction todo with
  | zero => intro x w h; exact h
  | succ n ih =>
    intro dist w h
    have h1 := WSize.peek w (start + dist + 4) h
    rw [findRecovery]
    generalize w.peekTwoAt (start + dist + 4) = y at h1 ⊢
    obtain ⟨y, w1⟩ := y
    match y with
    | .error e => exact h1
    | .ok none => exact h1
    | .ok (some (a, b)) =>
      simp only at h1 ⊢
      split
      · have h2 : WSize N (validateChain pol w1 (start + dist) req).2 := by
          have := WSize.moveTo w1 (start + dist) h1
          unfold validateChain
          generalize w1.moveTo (start + dist) = z at this ⊢
          obtain ⟨z, w2⟩ := z
          match z with
          | .error e => exact this
          | .ok false => exact this
          | .ok true =>
            have h3 := WSize.chainLoop pol req none w2 this
            simp only
            generalize Verif.chainLoop pol req none w2 = u at h3 ⊢
            obtain ⟨u, w3⟩ := u
            cases u <;> exact h3
        generalize validateChain pol w1 (start + dist) req = z at h2 ⊢
        obtain ⟨z, w2⟩ := z
        match z with
        | .error e => exact h2
        | .ok none => exact ih _ _ h2
        | .ok (some ev) => exact h2
      · exact ih _ _ h1

theorem WSize.confirmLoop {N : Nat} (pol : Pol) (todo : Nat) : ∀ (k : Nat) (w : Replay (Carry Src)), WSize N w →
    WSize N (Verif.confirmLoop pol todo k w).2 := by
  induction todo with
  | zero => intro x w h; exact h
  | succ n ih =>
    intro k w h
    have h1 := nextRecord_inv (WSize N) (fun w n hn hw => hw.read w n hn) pol w h
    rw [Verif.confirmLoop]
    generalize nextRecord pol w = y at h1 ⊢
    obtain ⟨y, w1⟩ := y
    cases y with
    | ok m => exact ih _ _ h1
    | error e =>
      simp only
      split
      · exact h1
      · split <;> exact h1

theorem WSize.confirm {N : Nat} (pol : Pol) (j n : Nat) (w : Replay (Carry Src)) (h : WSize N w) : WSize N (confirmAligned pol w j n).2 := by
  have := WSize.moveTo w j h
  unfold confirmAligned
  generalize w.moveTo j = z at this ⊢
  obtain ⟨z, w2⟩ := z
  match z with
  | .error e => exact this
  | .ok false => exact this
  | .ok true => exact WSize.confirmLoop pol n 0 w2 this

theorem recoverScan_ok (cfg : RecoveryConfig) (pol : Pol) {st0 st : Recovering σ} {A : Bytes} {o : Nat} {e : RecErr} {w : Replay (Carry Src)}
    (hw : WInv A o (FileLike st0.reader) w) (hs : WSize (del st0.reader).length w)
    (hf : st.filter = st0.filter) (ht : st.text = st0.text) (hfin : st.finished = st0.finished)
    (hA : dataOf (del st0.reader) = A) (hstuck : FileLike st0.reader → Stuck (required cfg) A e) :
    RecoverOk cfg st0 o A e (recoverScan cfg pol st o e w) := by
  obtain ⟨n, hn⟩ := required_succ cfg
  have hn' : max cfg.confirmations.toNat 1 = n + 1 := hn
  obtain ⟨f1, f2⟩ := findRecovery_ok pol n cfg.maxScan 1 w hw
  have f3 := WSize.find pol o (n + 1) cfg.maxScan 1 w hs
  have f4 := f3.2
  have f3 := f3.1
  unfold recoverScan
  rw [hn']
  generalize findRecovery pol o (n + 1) cfg.maxScan 1 w = x at f1 f2 f3 f4 ⊢
  obtain ⟨x, w'⟩ := x
  simp only at f1 f3 f4
  match x, f2 with
  | .error x, ⟨k1, k2⟩ =>
    have hc := f1.cursor
    have hb := f1.base
    have ha := congrArg List.length f1.all
    rw [List.length_append] at ha
    refine ⟨⟨rfl, ?_⟩, fun h => absurd h (scanErr_panic k1), rfl, hf, fun hp => absurd hp k2⟩
    show w'.base + w'.cursor - o ≤ _
    omega
  | .ok .exhausted, ⟨k1, k2⟩ =>
    refine ⟨⟨rfl, show cfg.maxScan ≤ _ by
      rcases Nat.eq_zero_or_pos cfg.maxScan with h0 | h0
      · omega
      · have := k2 h0; omega⟩, fun h => h, rfl, hf, fun hp => .inr ⟨e, hstuck hp, ?_, ?_, rfl⟩⟩
    · rw [hn]; exact fun i h1 h2 => k1 hp i h1 (by omega)
    · by_cases h0 : cfg.maxScan = 0
      · exact .inl h0
      · have := k2 (by omega)
        exact .inr (by omega)
  | .ok (.endOfStream off), ⟨k1, k2, k3, k4, k5⟩ =>
    subst k1
    have hle : w'.data.length ≤ A.length := by rw [← f1.all]; simp
    obtain ⟨t1, t2⟩ := takeDrop A hle
    refine ⟨A.take w'.data.length, A.drop w'.data.length, t1, ?_, rfl, by rw [t2], rfl, ⟨rfl, by rw [t2]; omega⟩, ?_, fun hp => .inr (.inr ⟨e, hstuck hp, ?_, k3, ?_, ?_, ?_⟩)⟩
    · intro h; rw [h] at t2; simp at t2; omega
    · rw [t2]
      exact resume_next f1 hf ht hfin hA _ f4 (Nat.le_refl _) f3
    · rw [hn]; exact fun i h1 h2 => k5 hp i h1 (by omega)
    · rw [← k4 hp]; omega
    · rw [k4 hp]; simp
    · rw [← k4 hp]
  | .ok (.found off ev m), ⟨j, hoff, hm, k1, k2, k3, k4, k5⟩ =>
    subst hoff hm
    have hle : j ≤ A.length := by rw [← f1.all]; simp; omega
    obtain ⟨t1, t2⟩ := takeDrop A hle
    refine ⟨A.take j, A.drop j, t1, ?_, rfl, by rw [t2], rfl, ?_, ?_, fun hp => .inr (.inl ⟨e, j, ev, hstuck hp, k1, by omega, t2, ?_, ?_, ?_⟩)⟩
    · intro h; rw [h] at t2; simp at t2; omega
    · have hev := chainAt_evidence k4
      unfold GapFits
      rw [hn, t2]
      cases ev <;> first | exact absurd rfl hev.1 | exact absurd rfl hev.2 | exact ⟨by omega, rfl, k4⟩
    · rw [t2]
      exact resume_next f1 hf ht hfin hA _ k1 k3 f3
    · rw [hn]; exact k4
    · rw [hn]; exact k5 hp
    · rw [hn]

/-- what raw reading leaves behind. -/
structure Left (r0 r : Carry Src) (c : Bytes) : Prop where
  offset : r0.offset + c.length = r.offset
  data : c ++ dataOf (del r) = dataOf (del r0)
  file : FileLike r0 → FileLike r
  size : c.length + (del r).length ≤ (del r0).length

theorem Left.window {r0 r : Carry Src} {c : Bytes} (h : Left r0 r c) (hne : c ≠ []) :
    WInv (dataOf (del r0)) r0.offset (FileLike r0) (⟨r, c, 0, r0.offset⟩ : Replay (Carry Src)) ∧
      WSize (del r0).length (⟨r, c, 0, r0.offset⟩ : Replay (Carry Src)) := by
  refine ⟨⟨rfl, Nat.zero_le _, h.data, h.file⟩, h.size, ?_⟩
  cases c with
  | nil => exact absurd rfl hne
  | cons _ _ => simp

theorem recover_none (cfg : RecoveryConfig) (pol : Pol) {st0 : Recovering σ} {r : Carry Src} {c : Bytes} {e : RecErr}
    (hl : Left st0.reader r c) (hne : c ≠ []) (he : e.bytes = some c)
    (hstuck : FileLike st0.reader → Stuck (required cfg) (dataOf (del st0.reader)) e) :
    RecoverOk cfg st0 st0.reader.offset (dataOf (del st0.reader)) e (recover cfg pol { st0 with reader := r } st0.reader.offset none e) := by
  obtain ⟨w1, w2⟩ := hl.window hne
  unfold recover
  simp only [he, Option.getD_some]
  rw [if_neg (by simp [hl.offset])]
  exact recoverScan_ok cfg pol w1 w2 rfl rfl rfl rfl hstuck

theorem recover_some (cfg : RecoveryConfig) (pol : Pol) {st0 : Recovering σ} {r : Carry Src} {c : Bytes} {e : RecErr}
    (hl : Left st0.reader r c) (hne : c ≠ []) (he : e.bytes = some c) (hdam : Damaged e.error c) :
    RecoverOk cfg st0 st0.reader.offset (dataOf (del st0.reader)) e
      (recover cfg pol { st0 with reader := r } st0.reader.offset (some r.offset) e) := by
  obtain ⟨w1, w2⟩ := hl.window hne
  have hstop : r.offset = st0.reader.offset + c.length := hl.offset.symm
  have hA : dataOf (del st0.reader) = c ++ dataOf (del r) := hl.data.symm
  have hdrop : (dataOf (del st0.reader)).drop c.length = dataOf (del r) := by rw [hA]; simp
  unfold recover
  simp only [he, Option.getD_some]
  rw [if_neg (by simp [hl.offset])]
  obtain ⟨c1, c2⟩ := confirmAligned_ok pol (required cfg) c.length _ w1 (by rw [hA]; simp)
  have c3 := WSize.confirm pol (st0.reader.offset + c.length) (required cfg) _ w2
  rw [hstop, show max cfg.confirmations.toNat 1 = required cfg from rfl]
  generalize confirmAligned pol (⟨r, c, 0, st0.reader.offset⟩ : Replay (Carry Src)) (st0.reader.offset + c.length) (required cfg) = x at c1 c2 c3 ⊢
  obtain ⟨x, w'⟩ := x
  simp only at c1 c3
  rw [hdrop] at c2
  match x, c2 with
  | .error x, ⟨k1, k2⟩ =>
    refine ⟨⟨rfl, Nat.zero_le _⟩, fun h => absurd h (scanErr_panic k1), rfl, rfl, fun hp => ?_⟩
    obtain ⟨k2, k3⟩ := k2 hp
    subst k2
    exact .inl ⟨e.error, c, _, hA, hdam, k3, rfl⟩
  | .ok none, k1 =>
    refine recoverScan_ok cfg pol c1 c3 rfl rfl rfl rfl fun hp => ?_
    exact .inr ⟨c, _, hA, hdam, he, k1 hp⟩
  | .ok (some k), ⟨k1, k2, ⟨ms, cs, t, k3, k4, k5⟩, k6⟩ =>
    have hc : 1 ≤ c.length := w2.2
    refine ⟨c, dataOf (del r), hA, hne, rfl, rfl, rfl, ?_, ?_, fun hp => .inl ⟨e.error, k, hdam, k6 hp, rfl⟩⟩
    · exact ⟨hdam, k2, ms, cs, t, k3, k4, k5.symm⟩
    · have := resume_next (st := { st0 with reader := r }) c1 rfl rfl rfl rfl c.length hc (Nat.le_trans k1 c1.cursor) c3.1
      rw [hdrop] at this
      exact this

theorem Left.of_chunk (pol : Pol) (r0 r : Carry Src) (x : Except RecErr Raw) (h : chunk pol r0 = (x, r)) (c : Bytes)
    (pre : List Tok) (h1 : del r0 = pre ++ del r) (h2 : dataOf pre = c) : Left r0 r c := by
  have hd : c ++ dataOf (del r) = dataOf (del r0) := by rw [h1, dataOf_append, h2]
  have ho : r.offset + (dataOf (del r)).length = r0.offset + (dataOf (del r0)).length := by
    have := chunk_inv (fun c : Carry Src => c.offset + (dataOf (del c)).length = r0.offset + (dataOf (del r0)).length)
      (fun s n hn hs => carry_total _ s n hn hs) pol r0 rfl
    rw [h] at this
    exact this
  refine ⟨?_, hd, fun hf => ?_, ?_⟩
  · rw [← hd, List.length_append] at ho
    omega
  · have := chunk_inv (fun c : Carry Src => FileLike c) (fun s n hn hs => (hs.read n hn).1) pol r0 hf
    rw [h] at this
    exact this
  · rw [h1, ← h2, List.length_append]
    have : ∀ p : List Tok, (dataOf p).length ≤ p.length := by
      intro p
      induction p with
      | nil => simp [dataOf]
      | cons a p ih => cases a <;> simp [dataOf] <;> omega
    have := this pre
    omega

/-- One round of the recovering iterator. -/
theorem recStep_ok (cfg : RecoveryConfig) (pol : Pol) (st : Recovering σ) :
    match recStep cfg pol st with
    | (none, st') => st'.finished = true ∧ st'.filter = st.filter ∧ (FileLike st.reader → dataOf (del st.reader) = [])
    | (some (.ok (.item m)), st') => ∃ b d', dataOf (del st.reader) = b ++ d' ∧ Intact m b ∧ Next st st' (st.reader.offset + b.length) d'
    | (some (.ok (.gap g)), st') => ∃ b d', dataOf (del st.reader) = b ++ d' ∧ b ≠ [] ∧ g.start = st.reader.offset ∧
        g.stop = st.reader.offset + b.length ∧ GapFits cfg g b d' ∧ Next st st' (st.reader.offset + b.length) d' ∧
        (FileLike st.reader → FileGap cfg g st.reader.offset (dataOf (del st.reader)) b d')
    | (some (.error y), st') => (y.offset = st.reader.offset ∧ y.scanned ≤ (dataOf (del st.reader)).length) ∧
        (y.error.error = .panic → ∃ raw : Raw, raw.parse = .error .panic) ∧ st'.finished = true ∧ st'.filter = st.filter ∧
        (FileLike st.reader → FileFailure cfg y st.reader.offset (dataOf (del st.reader))) := by
  obtain ⟨r, h1, h2, h3⟩ := chunk_eqG pol st.reader
  generalize hc : chunkT (stk st.reader) (del st.reader) = x at h1 h2
  obtain ⟨x, t⟩ := x
  obtain ⟨pre, hp1, hp2⟩ := chunkT_took hc
  simp only at h1 h2
  rw [← h2] at hp1
  unfold recStep
  have pure : FileLike st.reader → chunkT none (byteToks (dataOf (del st.reader))) = (x, t) := by
    intro hf
    rw [hf.2.1] at hc
    rw [← hc]
    congr 1
    exact hf.1.symm
  cases x with
  | error er =>
    simp only at hp2 h1
    rw [h1]
    simp only
    obtain ⟨hp2, hp3, hp4⟩ := hp2
    have hl := Left.of_chunk pol _ _ _ h1 _ pre hp1 hp2
    by_cases he : er.toRec.error = .eofExpected
    · rw [if_pos he]
      refine ⟨rfl, rfl, fun hf => ?_⟩
      rcases chunkT_file (pure hf) with ⟨_, h⟩ | ⟨h, _⟩
      · exact h
      · exact absurd he h
    · rw [if_neg he]
      have hnp : er.toRec.error ≠ .panic := by
        show er.error ≠ .panic
        rcases chunkT_error hc with ⟨b, _, _, _, h | h⟩ | ⟨b, e, st', _, _, _, h | h | h⟩
        · rw [h.1]; simp
        · rw [h.1]; simp
        · rw [h.1]; simp
        · rw [h.1]; cases st' with
          | failed k => cases k <;> simp [stopErr]
          | _ => simp [stopErr]
        · rw [h.1]; cases st' with
          | failed k => cases k <;> simp [bodyErr]
          | _ => simp [bodyErr]
      by_cases hi : er.toRec.error = .io
      · rw [if_pos (by simp [isNonEofIo, hi])]
        refine ⟨⟨rfl, Nat.zero_le _⟩, fun h => absurd h hnp, rfl, rfl, fun hf => ?_⟩
        rcases chunkT_file (pure hf) with ⟨h, _⟩ | ⟨_, h, _⟩
        · exact absurd h he
        · exact absurd hi h
      · rw [if_neg (by simp [isNonEofIo, hi])]
        obtain ⟨c, hb⟩ := Option.ne_none_iff_exists'.mp (fun h => he (hp3.mp h))
        have hne : c ≠ [] := by
          rintro rfl
          rcases chunkT_error hc with ⟨b, h, _, h', _⟩ | ⟨b, e, st', h, _, _, h' | h' | h'⟩
          · rw [hb] at h; cases h; simp at h'
          · exact absurd h'.1 he
          · rw [hb] at h'
            obtain ⟨k1, k2, k3, _⟩ := h'
            cases k2
            by_cases hst : stopErr st' = .eof
            · exact k3 hst rfl
            · cases st' with
              | full => simp [stopErr] at hst
              | short => simp [stopErr] at hst
              | failed k => cases k <;> simp [stopErr] at hst k1 <;> exact hi k1
          · rw [hb] at h'
            obtain ⟨k1, k2, k3, _⟩ := h'
            cases k2
            simp at k3
        rw [hb, Option.getD_some] at hl
        have := recover_none cfg pol (e := er.toRec) hl hne hb (fun hf => by
          rcases chunkT_file (pure hf) with ⟨h, _⟩ | ⟨_, _, taken, h4, h5⟩
          · exact absurd h he
          · exact .inl ⟨taken, h5, h4⟩)
        generalize recover cfg pol { st with reader := r } st.reader.offset none er.toRec = y at this ⊢
        obtain ⟨y, st'⟩ := y
        match y, this with
        | .ok (.item m), h => exact h.elim
        | .ok (.gap g), ⟨b, d', k1, k2, k3, k4, _, k5, k6, k7⟩ => exact ⟨b, d', k1, k2, k3, k4, k5, k6, k7⟩
        | .error z, ⟨k1, k2, k3, k4, k5⟩ => exact ⟨k1, fun h => absurd (k2 h) hnp, k3, k4, k5⟩
  | ok raw =>
    simp only at hp2 h1
    rw [h1]
    simp only
    obtain ⟨rfl, hf⟩ := hp2
    have hl := Left.of_chunk pol _ _ _ h1 _ _ hp1 (dataOf_byteToks _)
    have hlen := Frame_length hf
    cases hpa : raw.parse with
    | ok m =>
      simp only
      refine ⟨raw.bytes, dataOf (del r), hl.data.symm, ⟨raw, hf, hpa⟩, hl.offset.symm, rfl, rfl, rfl, rfl, hl.file, ?_⟩
      have := hl.size
      show (del r).length < _
      omega
    | error e =>
      simp only
      have := recover_some cfg pol (e := ⟨e, some raw.bytes⟩) hl (by intro h; rw [h] at hlen; simp at hlen) rfl ⟨raw, hf, hpa⟩
      generalize recover cfg pol { st with reader := r } st.reader.offset (some r.offset) ⟨e, some raw.bytes⟩ = y at this ⊢
      obtain ⟨y, st'⟩ := y
      match y, this with
      | .ok (.item m), h => exact h.elim
      | .ok (.gap g), ⟨b, d', k1, k2, k3, k4, _, k5, k6, k7⟩ => exact ⟨b, d', k1, k2, k3, k4, k5, k6, k7⟩
      | .error z, ⟨k1, k2, k3, k4, k5⟩ =>
        refine ⟨k1, fun h => ⟨raw, ?_⟩, k3, k4, k5⟩
        rw [hpa]; exact congrArg _ (k2 h)

end Verif
