import Verif.Lemmas.Capability
/-
BGP messages.
-/
namespace Verif
open Spec

theorem n16_ofNat {n : Nat} (h : n < 65536) : be16 (UInt16.ofNat n) = n16 n := by
  rw [be16_n16, toNat_u16len (by omega)]

theorem rdU16_n16 {n : Nat} (h : n < 65536) (s : Bytes) : rdU16 (n16 n ++ s) = .ok (UInt16.ofNat n, s) := by
  rw [← n16_ofNat h, rdU16_be16]

/-! ### OPEN -/

theorem rdCapability_enc {c : Capability} {b : Bytes} (hc : CapOk c.ty c.value) (h : encCapability c = .ok b) :
    2 ≤ b.length ∧ ∀ r, rdCapability (b ++ r) = .ok (c, r) := by
  unfold encCapability at h
  cases h1 : u8Len (encCapVal c.value) with
  | error e => rw [h1] at h; cases h
  | ok x =>
    rw [h1] at h
    cases h
    obtain ⟨hl, rfl⟩ := u8Len_ok.mp h1
    refine ⟨by simp, fun r => ?_⟩
    unfold rdCapability
    rw [List.cons_append, List.cons_append, Rd.bind_ok (rdU8_cons _ _), Rd.bind_ok (rdU8_cons _ _),
      Rd.bind_ok (rdN_append' (toNat_u8len hl).symm r), capValue_encCapVal hc]
    rfl

theorem collectOk_cons_ok {f : α → Except EncErr β} {x : α} {xs : List α} {bs : List β} :
    collectOk f (x :: xs) = .ok bs ↔ ∃ b c, f x = .ok b ∧ collectOk f xs = .ok c ∧ bs = b :: c := by
  simp only [collectOk]
  cases h1 : f x with
  | error e => simp
  | ok b =>
    cases h2 : collectOk f xs with
    | error e => simp
    | ok c =>
      simp only [Except.ok.injEq]
      constructor
      · intro h; exact ⟨b, c, rfl, rfl, h.symm⟩
      · rintro ⟨_, _, rfl, rfl, rfl⟩; rfl

def lenField (ext : Bool) (n : Nat) : Bytes := if ext then be16 (UInt16.ofNat n) else [UInt8.ofNat n]

theorem rdOpenParam_enc {ext : Bool} {p : OptParam} {q : UInt8 × Bytes} (hp : ParamOk p) (h : encParam p = .ok q)
    (hl : q.2.length ≤ if ext then 65535 else 255) (r : Bytes) :
    q.1 = p.type ∧ q.1 ≠ 255 ∧ rdOpenParam ext q.1 ((lenField ext q.2.length ++ q.2) ++ r) = .ok (p, r) := by
  unfold encParam at h
  by_cases h255 : p.type = 255
  · rw [if_pos h255] at h; cases h
  rw [if_neg h255] at h
  cases h1 : encParamValue p.value with
  | error e => rw [h1] at h; cases h
  | ok b =>
    rw [h1] at h
    cases h
    refine ⟨rfl, h255, ?_⟩
    dsimp only at hl ⊢
    have hlen : (if ext then do let l ← rdU16; pure l.toNat else do let l ← rdU8; pure l.toNat : Rd Nat)
        ((lenField ext b.length ++ b) ++ r) = .ok (b.length, b ++ r) := by
      cases ext with
      | true =>
        simp only [if_true] at hl
        simp only [if_true, lenField]
        rw [List.append_assoc, Rd.bind_ok (rdU16_be16 _ _), toNat_u16len hl]; rfl
      | false =>
        simp only [Bool.false_eq_true, if_false] at hl
        simp only [Bool.false_eq_true, if_false, lenField]
        rw [Rd.bind_ok (show rdU8 _ = .ok (_, _) from rfl), toNat_u8len hl]; rfl
    unfold rdOpenParam
    rw [Rd.bind_ok hlen]
    obtain ⟨ty, v⟩ := p
    cases v with
    | caps cs =>
      obtain ⟨ht, hcs⟩ := hp
      dsimp only at ht hcs h255 ⊢
      subst ht
      rw [if_pos rfl]
      have h2 : needN b.length (b ++ r) = .ok ((), b ++ r) := by simp [needN]
      rw [Rd.bind_ok h2, Rd.bind_ok (splitTo_append b r)]
      have h3 : whileGe 2 rdCapability b = .ok cs :=
        whileGe_encAll (by decide) h1 fun c hc x hx => rdCapability_enc (hcs c hc) hx
      rw [h3]; rfl
    | raw x =>
      have ht : ty ≠ 2 := hp
      cases h1
      dsimp only
      rw [if_neg ht, Rd.bind_ok (rdN_append b r)]
      rfl

theorem rdNextParam_enc {ext : Bool} {p : OptParam} {q : UInt8 × Bytes} (hp : ParamOk p) (h : encParam p = .ok q)
    (hl : q.2.length ≤ if ext then 65535 else 255) (r : Bytes) :
    rdNextParam ext (paramBytes ext q ++ r) = .ok (p, r) := by
  unfold rdNextParam paramBytes
  rw [List.cons_append, Rd.bind_ok (rdU8_cons _ _)]
  exact (rdOpenParam_enc hp h hl r).2.2

theorem whileGe_params {ext : Bool} {ps : List OptParam} {qs : List (UInt8 × Bytes)} (hp : ∀ p ∈ ps, ParamOk p)
    (h : collectOk encParam ps = .ok qs) (hl : ∀ q ∈ qs, q.2.length ≤ if ext then 65535 else 255) :
    whileGe 2 (rdNextParam ext) (qs.flatMap (paramBytes ext)) = .ok ps := by
  have henc : ∀ (ps : List OptParam) (qs : List (UInt8 × Bytes)), collectOk encParam ps = .ok qs →
      encAll (fun p => match encParam p with | .ok q => .ok (paramBytes ext q) | .error e => .error e) ps =
        .ok (qs.flatMap (paramBytes ext)) ∧ ∀ p ∈ ps, ∃ q ∈ qs, encParam p = .ok q := by
    intro ps
    induction ps with
    | nil => intro qs h; cases h; exact ⟨rfl, by simp⟩
    | cons p ps ih =>
      intro qs h
      obtain ⟨b, c, h1, h2, rfl⟩ := collectOk_cons_ok.mp h
      obtain ⟨i1, i2⟩ := ih c h2
      refine ⟨encAll_cons_ok.mpr ⟨_, _, by rw [h1], i1, by rw [List.flatMap_cons]⟩, ?_⟩
      intro x hx
      rcases List.mem_cons.mp hx with rfl | hx
      · exact ⟨b, by simp, h1⟩
      · obtain ⟨q, hq, e⟩ := i2 x hx
        exact ⟨q, by simp [hq], e⟩
  obtain ⟨h1, h2⟩ := henc ps qs h
  refine whileGe_encAll (by decide) h1 fun p hpm b hb => ?_
  obtain ⟨q, hq, he⟩ := h2 p hpm
  simp only [he, Except.ok.injEq] at hb
  subst hb
  refine ⟨?_, rdNextParam_enc (hp p hpm) he (hl q hq)⟩
  unfold paramBytes
  cases ext <;> simp <;> omega

theorem sum_ge {qs : List (UInt8 × Bytes)} {q : UInt8 × Bytes} (h : q ∈ qs) :
    q.2.length ≤ (qs.map fun p => p.2.length).sum := by
  induction qs with
  | nil => cases h
  | cons x xs ih =>
    rw [List.map_cons, List.sum_cons]
    rcases List.mem_cons.mp h with rfl | h
    · omega
    · have := ih h; omega

theorem flatMap_paramBytes_length (ext : Bool) (qs : List (UInt8 × Bytes)) :
    (qs.flatMap (paramBytes ext)).length = (if ext then 3 else 2) * qs.length + (qs.map fun p => p.2.length).sum := by
  induction qs with
  | nil => simp
  | cons q qs ih =>
    rw [List.flatMap_cons, List.length_append, ih, List.map_cons, List.sum_cons, List.length_cons]
    cases ext <;> simp [paramBytes] <;> omega

theorem parseOpenParams_short {ps : List OptParam} {qs : List (UInt8 × Bytes)} (optLen : UInt8)
    (hp : ∀ p ∈ ps, ParamOk p) (h : collectOk encParam ps = .ok qs) (hl : ∀ q ∈ qs, q.2.length ≤ 255) :
    parseOpenParams optLen (qs.flatMap (paramBytes false)) = .ok (false, ps) := by
  cases ps with
  | nil => cases h; rfl
  | cons p ps =>
    have hloop := whileGe_params (ext := false) hp h (by simpa using hl)
    obtain ⟨q, c, h1, h2, rfl⟩ := collectOk_cons_ok.mp h
    obtain ⟨e1, e2, e3⟩ := rdOpenParam_enc (ext := false) (hp p (by simp)) h1 (by simpa using hl q (by simp))
      (c.flatMap (paramBytes false))
    have hrest := whileGe_params (ext := false) (fun x hx => hp x (by simp [hx])) h2
      (fun x hx => by simpa using hl x (by simp [hx]))
    rw [List.flatMap_cons]
    have hb : paramBytes false q ++ c.flatMap (paramBytes false) =
        q.1 :: ((lenField false q.2.length ++ q.2) ++ c.flatMap (paramBytes false)) := rfl
    rw [hb]
    unfold parseOpenParams
    rw [if_neg (by simp [lenField]), rdU8_cons]
    dsimp only
    rw [if_neg (fun hx => e2 hx.2), if_neg (fun hx => e2 hx.2), e3]
    dsimp only
    rw [hrest]

theorem parseOpenParams_ext {ps : List OptParam} {qs : List (UInt8 × Bytes)} (optLen : UInt8) (ho : optLen ≠ 0)
    (hp : ∀ p ∈ ps, ParamOk p) (h : collectOk encParam ps = .ok qs)
    (hsum : 3 * qs.length + (qs.map fun p => p.2.length).sum ≤ 65535) :
    parseOpenParams optLen ((255 :: be16 (UInt16.ofNat (3 * qs.length + (qs.map fun p => p.2.length).sum))) ++
      qs.flatMap (paramBytes true)) = .ok (true, ps) := by
  have hl : ∀ q ∈ qs, q.2.length ≤ if true then 65535 else 255 := by
    intro q hq; have := sum_ge hq; simp only [if_true]; omega
  unfold parseOpenParams
  rw [if_neg (by simp; omega), List.cons_append, rdU8_cons]
  dsimp only
  rw [if_neg (fun hx => ho hx.1), if_pos ⟨ho, rfl⟩, rdU16_be16]
  dsimp only
  cases ps with
  | nil => cases h; rfl
  | cons p ps =>
    obtain ⟨q, c, h1, h2, rfl⟩ := collectOk_cons_ok.mp h
    obtain ⟨e1, e2, e3⟩ := rdOpenParam_enc (ext := true) (hp p (by simp)) h1 (hl q (by simp))
      (c.flatMap (paramBytes true))
    have hrest := whileGe_params (ext := true) (fun x hx => hp x (by simp [hx])) h2 (fun x hx => hl x (by simp [hx]))
    have hne : UInt16.ofNat (3 * (q :: c).length + ((q :: c).map fun p => p.2.length).sum) ≠ 0 := by
      intro h0
      have := congrArg UInt16.toNat h0
      rw [toNat_u16len hsum] at this
      simp at this
    rw [if_neg hne, List.flatMap_cons]
    have hb : paramBytes true q ++ c.flatMap (paramBytes true) =
        q.1 :: ((lenField true q.2.length ++ q.2) ++ c.flatMap (paramBytes true)) := rfl
    rw [hb, rdU8_cons]
    dsimp only
    rw [e3]
    dsimp only
    rw [hrest]

theorem rdOpenHead_append (m : Open) (o : UInt8) (s : Bytes) :
    rdOpenHead (openHead m o ++ s) = .ok ((m.version, m.asn.toUInt16, m.holdTime, m.bgpId, o), s) := by
  unfold rdOpenHead openHead
  have h0 : ∀ t : Bytes, needN 10 (m.version :: (be16 m.asn.toUInt16 ++ (be16 m.holdTime ++ (m.bgpId.toList ++ [o]))) ++ t) =
      .ok ((), m.version :: (be16 m.asn.toUInt16 ++ (be16 m.holdTime ++ (m.bgpId.toList ++ [o]))) ++ t) := by
    intro t; simp [needN]; omega
  rw [Rd.bind_ok (h0 s), List.cons_append, Rd.bind_ok (rdU8_cons _ _), List.append_assoc,
    Rd.bind_ok (rdU16_be16 _ _), List.append_assoc, Rd.bind_ok (rdU16_be16 _ _), List.append_assoc,
    Rd.bind_ok (rdVec_append _ _)]
  rfl

theorem openHead_length (m : Open) (o : UInt8) : (openHead m o).length = 10 := by
  simp [openHead]

/-- the two shapes of an encoded OPEN. -/
theorem encodeOpen_ok {m : Open} {b : Bytes} (h : encodeOpen m = .ok b) :
    ∃ qs, collectOk encParam m.params = .ok qs ∧
      let sum := (qs.map fun p => p.2.length).sum
      ((m.extended = false ∧ 2 * qs.length + sum ≤ 255 ∧
          b = openHead m (UInt8.ofNat (2 * qs.length + sum)) ++ qs.flatMap (paramBytes false)) ∨
        ((m.extended = true ∨ 255 < 2 * qs.length + sum) ∧ 3 * qs.length + sum ≤ 65535 ∧
          b = openHead m 255 ++ ((255 :: be16 (UInt16.ofNat (3 * qs.length + sum))) ++ qs.flatMap (paramBytes true)))) := by
  unfold encodeOpen at h
  cases h1 : collectOk encParam m.params with
  | error e => rw [h1] at h; cases h
  | ok qs =>
    rw [h1] at h
    refine ⟨qs, rfl, ?_⟩
    dsimp only at h ⊢
    generalize (qs.map fun p => p.2.length).sum = sum at h ⊢
    by_cases he : (m.extended || decide (2 * qs.length + sum > 255)) = true
    · simp only [he, if_true] at h
      right
      have h2 : m.extended = true ∨ 255 < 2 * qs.length + sum := by simpa using he
      unfold checkMax at h
      by_cases h3 : 3 * qs.length + sum > 65535
      · rw [if_pos h3] at h; cases h
      · rw [if_neg h3] at h
        cases h
        exact ⟨h2, by omega, by rw [List.append_assoc]⟩
    · simp only [he, if_false] at h
      left
      simp only [Bool.or_eq_true, decide_eq_true_eq, not_or, Bool.not_eq_true] at he
      cases h
      exact ⟨he.1, by omega, by simp [he.1]⟩

theorem asn_low {a : Asn} (h : a.toNat < 65536) : a.toUInt16.toUInt32 = a := toUInt32_toUInt16 (by omega)

theorem parseOpen_encode {m : Open} {b : Bytes} (hm : OpenOk m) (h : encodeOpen m = .ok b) :
    parseOpen b = .ok { m with extended := m.extended || decide (265 < b.length) } := by
  obtain ⟨qs, h1, h2⟩ := encodeOpen_ok h
  dsimp only at h2
  rcases h2 with ⟨he, hs, rfl⟩ | ⟨he, hs, rfl⟩
  · have hl : ∀ q ∈ qs, q.2.length ≤ 255 := fun q hq => by have := sum_ge hq; omega
    have hlen : ¬ 265 < (openHead m (UInt8.ofNat (2 * qs.length + (qs.map fun p => p.2.length).sum)) ++
        qs.flatMap (paramBytes false)).length := by
      rw [List.length_append, openHead_length, flatMap_paramBytes_length]; simp only [Bool.false_eq_true, if_false]; omega
    unfold parseOpen
    rw [rdOpenHead_append]
    dsimp only
    rw [parseOpenParams_short _ hm.2 h1 hl]
    dsimp only
    rw [asn_low hm.1, decide_eq_false hlen, he]
    cases m; simp_all
  · have hflag : (m.extended || decide (265 < (openHead m 255 ++ (255 :: be16 (UInt16.ofNat (3 * qs.length +
        (qs.map fun p => p.2.length).sum)) ++ qs.flatMap (paramBytes true))).length)) = true := by
      rw [List.length_append, List.length_append, openHead_length, flatMap_paramBytes_length]
      simp only [if_true, List.length_cons, length_be16, Bool.or_eq_true, decide_eq_true_eq]
      rcases he with he | he
      · exact .inl he
      · right; omega
    rw [hflag]
    unfold parseOpen
    rw [rdOpenHead_append]
    dsimp only
    rw [parseOpenParams_ext 255 (by decide) hm.2 h1 hs]
    dsimp only
    rw [asn_low hm.1]

/-! ### no panic: OPEN -/

theorem safe_needSplit (n : Nat) {k : Nat} {f : Bytes → Rd β} (hf : ∀ a, Safe k (f a)) :
    Safe k (needN n >>= fun _ => splitTo n >>= f) := by
  constructor
  · intro s h
    by_cases hn : s.length < n
    · rw [Rd.bind_error (show needN n s = .error .truncated by simp [needN, hn])] at h; cases h
    · rw [Rd.bind_ok (show needN n s = .ok ((), s) by simp [needN, hn]),
        Rd.bind_ok (show splitTo n s = .ok (s.take n, s.drop n) by simp [splitTo, hn])] at h
      exact (hf _).noPanic _ h
  · intro s a r h
    by_cases hn : s.length < n
    · rw [Rd.bind_error (show needN n s = .error .truncated by simp [needN, hn])] at h; cases h
    · rw [Rd.bind_ok (show needN n s = .ok ((), s) by simp [needN, hn]),
        Rd.bind_ok (show splitTo n s = .ok (s.take n, s.drop n) by simp [splitTo, hn])] at h
      have := (hf _).prog _ _ _ h
      simp at this; omega

theorem safe_rdCapability : Safe 2 rdCapability :=
  .bind .rdU8 fun _ => .bind .rdU8 fun _ => .bind ((Safe.rdN _).weaken (Nat.zero_le _)) fun _ =>
    .bind (.lift (capValue_noPanic _ _)) fun _ => .pure _

theorem safe_rdOpenParam (ext : Bool) (ty : UInt8) : Safe 1 (rdOpenParam ext ty) := by
  refine Safe.bind (n := 1) (m := 0) ?_ fun len => .ite (fun _ => ?_) fun _ => ?_
  · refine .ite (fun _ => ?_) fun _ => ?_
    · exact (Safe.bind (n := 2) (m := 0) .rdU16 fun _ => .pure _).weaken (by omega)
    · exact Safe.bind (n := 1) (m := 0) .rdU8 fun _ => .pure _
  · exact safe_needSplit _ fun d => .bind (n := 0) (.lift (safe_rdCapability.whileGe (by omega) (by omega) d)) fun _ => .pure _
  · exact .bind (n := 0) ((Safe.rdN _).weaken (Nat.zero_le _)) fun _ => .pure _

theorem safe_rdNextParam (ext : Bool) : Safe 2 (rdNextParam ext) :=
  .bind (n := 1) .rdU8 fun _ => safe_rdOpenParam ext _

theorem parseOpenParams_noPanic (o : UInt8) (s : Bytes) : parseOpenParams o s ≠ .error .panic := by
  unfold parseOpenParams
  refine ite_noPanic (by simp) ?_
  cases h1 : rdU8 s with
  | error e => intro h; cases h; exact NoPanic.rdU8 _ h1
  | ok v =>
    obtain ⟨ty, r⟩ := v
    dsimp only
    refine ite_noPanic (by simp) (ite_noPanic ?_ ?_)
    · cases h2 : rdU16 r with
      | error e => intro h; cases h; exact NoPanic.rdU16 _ h2
      | ok v =>
        obtain ⟨x, r2⟩ := v
        dsimp only
        refine ite_noPanic (by simp) ?_
        cases h3 : rdU8 r2 with
        | error e => intro h; cases h; exact NoPanic.rdU8 _ h3
        | ok v =>
          obtain ⟨ty2, r3⟩ := v
          dsimp only
          cases h4 : rdOpenParam true ty2 r3 with
          | error e => intro h; cases h; exact (safe_rdOpenParam _ _).noPanic _ h4
          | ok v =>
            obtain ⟨p, r4⟩ := v
            dsimp only
            cases h5 : whileGe 2 (rdNextParam true) r4 with
            | error e => intro h; cases h; exact (safe_rdNextParam _).whileGe (by omega) (by omega) _ h5
            | ok ps => simp
    · cases h4 : rdOpenParam false ty r with
      | error e => intro h; cases h; exact (safe_rdOpenParam _ _).noPanic _ h4
      | ok v =>
        obtain ⟨p, r4⟩ := v
        dsimp only
        cases h5 : whileGe 2 (rdNextParam false) r4 with
        | error e => intro h; cases h; exact (safe_rdNextParam _).whileGe (by omega) (by omega) _ h5
        | ok ps => simp

theorem parseOpen_noPanic (s : Bytes) : parseOpen s ≠ .error .panic := by
  unfold parseOpen
  have hh : NoPanic rdOpenHead :=
    .bind (.needN _) fun _ => .bind .rdU8 fun _ => .bind .rdU16 fun _ => .bind .rdU16 fun _ => .bind (.rdVec _) fun _ =>
      .bind .rdU8 fun _ => .pure _
  cases h1 : rdOpenHead s with
  | error e => intro h; cases h; exact hh _ h1
  | ok v =>
    obtain ⟨⟨a, b, c, d, e⟩, r⟩ := v
    dsimp only
    cases h2 : parseOpenParams e r with
    | error e => intro h; cases h; exact parseOpenParams_noPanic _ _ h2
    | ok v => simp

/-! ### NOTIFICATION, ROUTE-REFRESH -/

theorem parseNotification_cons (c s : UInt8) (d : Bytes) : parseNotification (c :: s :: d) = .ok ⟨BgpError.new c s, d⟩ := by
  unfold parseNotification
  apply Rd.runOn_ok (r := [])
  rw [Rd.bind_ok (rdU8_cons _ _), Rd.bind_ok (rdU8_cons _ _), Rd.bind_ok (Rd.remaining_apply _),
    Rd.bind_ok (show rdN d.length d = .ok (d, []) by simpa using rdN_append d [])]
  rfl

theorem parseNotification_noPanic (s : Bytes) : parseNotification s ≠ .error .panic :=
  NoPanic.runOn (.bind .rdU8 fun _ => .bind .rdU8 fun _ => .bind .remaining fun _ => .bind (.rdN _) fun _ => .pure _) s

theorem parseRouteRefresh_bytes (m : RouteRefresh) : parseRouteRefresh (encodeRouteRefresh m) = .ok m := by
  unfold parseRouteRefresh encodeRouteRefresh
  apply Rd.runOn_ok (r := [])
  have h0 : needN 4 (be16 m.afi ++ (m.subtype :: m.safi :: m.data)) = .ok ((), be16 m.afi ++ (m.subtype :: m.safi :: m.data)) := by
    simp [needN]; omega
  rw [Rd.bind_ok h0, Rd.bind_ok (rdU16_be16 _ _), Rd.bind_ok (rdU8_cons _ _), Rd.bind_ok (rdU8_cons _ _),
    Rd.bind_ok (Rd.remaining_apply _),
    Rd.bind_ok (show splitTo m.data.length m.data = .ok (m.data, []) by simpa using splitTo_append m.data [])]
  rfl

theorem parseRouteRefresh_noPanic (s : Bytes) : parseRouteRefresh s ≠ .error .panic := by
  refine NoPanic.runOn (.bind (.needN _) fun _ => .bind .rdU16 fun _ => .bind .rdU8 fun _ => .bind .rdU8 fun _ => ?_) s
  intro t h
  rw [Rd.bind_ok (Rd.remaining_apply t),
    Rd.bind_ok (show splitTo t.length t = .ok (t, []) by simpa using splitTo_append t [])] at h
  cases h

/-! ### UPDATE -/

theorem exact_rdSection : Exact rdSection (fun a c => c = n16 a.length ++ a ∧ a.length < 65536) := by
  intro s a r
  constructor
  · intro h
    unfold rdSection at h
    rw [Rd.bind_eq_ok] at h; obtain ⟨n, t, h1, h⟩ := h
    rw [Rd.bind_eq_ok] at h; obtain ⟨u, t2, h2, h⟩ := h
    by_cases hn : t.length < n.toNat
    · simp [needN, hn] at h2
    · simp only [needN, hn, if_false, Except.ok.injEq, Prod.mk.injEq, true_and] at h2
      subst h2
      simp only [splitTo, hn, if_false, Except.ok.injEq, Prod.mk.injEq] at h
      obtain ⟨rfl, rfl⟩ := h
      have hl : (t.take n.toNat).length = n.toNat := by simp; omega
      refine ⟨n16 (t.take n.toNat).length ++ t.take n.toNat, ?_, rfl, ?_⟩
      · rw [rdU16_ok h1, hl, be16_n16]; simp
      · rw [hl]; exact n.toNat_lt
  · rintro ⟨c, rfl, rfl, hl⟩
    unfold rdSection
    rw [List.append_assoc, Rd.bind_ok (rdU16_n16 hl _), toNat_u16len (by omega),
      Rd.bind_ok (show needN a.length (a ++ r) = .ok ((), a ++ r) by simp [needN]), splitTo_append]

theorem noPanic_rdSection : NoPanic rdSection := by
  refine .bind .rdU16 fun n => ?_
  have := (safe_needSplit (k := 0) n.toNat fun a => Safe.pure a).noPanic
  intro s h
  refine this s ?_
  rw [Rd.bind_eq_error] at h
  rcases h with h | ⟨a, t, h1, h⟩
  · rw [Rd.bind_error h]
  · rw [Rd.bind_ok h1, Rd.bind_error h]

theorem parseNlriList_nil (afi : Afi) (ap : Bool) : parseNlriList afi ap [] = .ok [] :=
  nlriLoop_encode (afi := afi) (ap := ap) [] _ (Nat.le_refl _) (by simp)

/-- the single-octet special case of `read_nlri` changes no result. -/
theorem readNlri_ok (afi : Afi) (ap : Bool) (s : Bytes) (ps : List NetworkPrefix) :
    readNlri afi ap s = .ok ps ↔ parseNlriList afi ap s = .ok ps := by
  unfold readNlri
  match s with
  | [] => rw [parseNlriList_nil]
  | [b] =>
    by_cases hb : b = 0
    · simp [hb]
    · simp only [hb, ne_eq, not_false_iff, if_true]
      constructor
      · intro h; cases h
      · intro h
        exfalso
        obtain ⟨h1, h2⟩ := nlriLoop_sound _ _ _ _ _ (fun h => h) h
        cases ps with
        | nil => simp [encodeNlri] at h1
        | cons p ps =>
          have hoct : 4 ≤ p.prefix_.addr.octets.length := by
            cases p.prefix_.addr <;> simp [Ip.octets]
          simp only [encodeNlri, List.flatMap_cons, NetworkPrefix.encode] at h1
          cases hid : p.pathId with
          | some i =>
            rw [hid] at h1
            have hl := congrArg List.length h1
            simp [encPathId] at hl
            omega
          | none =>
            rw [hid] at h1
            simp only [encPathId, List.nil_append, List.cons_append, List.cons.injEq] at h1
            obtain ⟨hlen, h1⟩ := h1
            have hl := congrArg List.length h1
            have : 1 ≤ byteLen p.prefix_.len := by
              have : p.prefix_.len.toNat ≠ 0 := by
                intro h0
                exact hb (hlen ▸ UInt8.toNat_inj.mp (by simpa using h0))
              unfold byteLen; omega
            rw [List.length_append, List.length_take, List.length_nil] at hl
            omega
  | _ :: _ :: _ => exact Iff.rfl

theorem readNlri_noPanic (afi : Afi) (ap : Bool) (s : Bytes) : readNlri afi ap s ≠ .error .panic := by
  have h := nlriLoop_noPanic (afi := afi) (ap := ap) s.length ap false s (Nat.le_refl _)
  unfold readNlri
  split
  · simp
  · exact ite_noPanic (by simp) h
  · exact h

theorem nlriOrWarn_eq (w ap : Bool) (s : Bytes) :
    nlriOrWarn w ap s = .ok (fieldPrefixes ap s, fieldWarnings w ap s) := by
  unfold nlriOrWarn fieldPrefixes fieldWarnings
  cases h : readNlri .ipv4 ap s with
  | ok ps => rw [(readNlri_ok _ _ _ _).mp h]
  | error e =>
    have h1 : ∃ e', parseNlriList .ipv4 ap s = .error e' := by
      cases h2 : parseNlriList .ipv4 ap s with
      | ok ps => rw [(readNlri_ok _ _ _ _).mpr h2] at h; cases h
      | error e' => exact ⟨e', rfl⟩
    obtain ⟨e', h1⟩ := h1
    rw [h1]
    cases e <;> first | rfl | exact absurd h (readNlri_noPanic _ _ _)

/-- the attribute set of an UPDATE after the checks. -/
def checked (as : Attributes) (ap : Bool) (w n : Bytes) : Attributes :=
  { as with warnings := as.warnings ++ missingWarnings as.mask (!n.isEmpty || as.hasAttr 14) (!n.isEmpty) ++
      fieldWarnings true ap w ++ fieldWarnings false ap n }

theorem foldl_addWarning (ws : List Warning) (a : Attributes) :
    ws.foldl Attributes.addWarning a = { a with warnings := a.warnings ++ ws } := by
  induction ws generalizing a with
  | nil => simp
  | cons w ws ih => rw [List.foldl_cons, ih]; simp [Attributes.addWarning]

theorem parseUpdate_sections (ap : Bool) (l : AsnLen) (w a n : Bytes) (hw : w.length < 65536) (ha : a.length < 65536) :
    parseUpdate ap l (updateBytes w a n) = match parseAttributes (updateCfg ap l) a with
      | .error e => .error e
      | .ok as => .ok ⟨fieldPrefixes ap w, checked as ap w n, fieldPrefixes ap n⟩ := by
  have h1 : rdSection (updateBytes w a n) = .ok (w, n16 a.length ++ a ++ n) :=
    (exact_rdSection _ _ _).mpr ⟨n16 w.length ++ w, by simp [updateBytes], rfl, hw⟩
  have h2 : rdSection (n16 a.length ++ a ++ n) = .ok (a, n) :=
    (exact_rdSection _ _ _).mpr ⟨n16 a.length ++ a, rfl, rfl, ha⟩
  unfold parseUpdate
  rw [h1]
  dsimp only
  rw [nlriOrWarn_eq]
  dsimp only
  rw [h2]
  dsimp only
  rw [show (⟨l, ap, none, none, none⟩ : AttrCfg) = updateCfg ap l from rfl]
  cases parseAttributes (updateCfg ap l) a with
  | error e => rfl
  | ok as =>
    dsimp only
    rw [nlriOrWarn_eq]
    dsimp only
    rw [foldl_addWarning, foldl_addWarning]
    rfl

/-- an UPDATE that is parsed has the layout. -/
theorem parseUpdate_layout {ap : Bool} {l : AsnLen} {s : Bytes} {u : Update} (h : parseUpdate ap l s = .ok u) :
    ∃ w a n, s = updateBytes w a n ∧ w.length < 65536 ∧ a.length < 65536 := by
  unfold parseUpdate at h
  cases h1 : rdSection s with
  | error e => rw [h1] at h; cases h
  | ok v =>
    obtain ⟨w, r⟩ := v
    rw [h1] at h
    dsimp only at h
    rw [nlriOrWarn_eq] at h
    dsimp only at h
    cases h2 : rdSection r with
    | error e => rw [h2] at h; cases h
    | ok v =>
      obtain ⟨a, n⟩ := v
      obtain ⟨c, rfl, rfl, hw⟩ := (exact_rdSection _ _ _).mp h1
      obtain ⟨c', rfl, rfl, ha⟩ := (exact_rdSection _ _ _).mp h2
      exact ⟨w, a, n, by simp [updateBytes], hw, ha⟩

theorem parseAttributes_noPanic (cfg : AttrCfg) (s : Bytes) : parseAttributes cfg s ≠ .error .panic := by
  obtain ⟨ws, r, hw, rfl, hr | hr⟩ := attr_cut s.length s (Nat.le_refl _)
  · rw [parse_wires cfg ws hw hr]; intro h; cases h
  · rw [parse_broken cfg ws hw hr]; intro h; cases h

theorem parseUpdate_noPanic (ap : Bool) (l : AsnLen) (s : Bytes) : parseUpdate ap l s ≠ .error .panic := by
  unfold parseUpdate
  cases h1 : rdSection s with
  | error e => intro h; cases h; exact noPanic_rdSection _ h1
  | ok v =>
    obtain ⟨w, r⟩ := v
    dsimp only
    rw [nlriOrWarn_eq]
    dsimp only
    cases h2 : rdSection r with
    | error e => intro h; cases h; exact noPanic_rdSection _ h2
    | ok v =>
      obtain ⟨a, n⟩ := v
      dsimp only
      cases h3 : parseAttributes ⟨l, ap, none, none, none⟩ a with
      | error e => intro h; cases h; exact parseAttributes_noPanic _ _ h3
      | ok as =>
        dsimp only
        rw [nlriOrWarn_eq]
        simp

theorem encodeUpdate_ok {l : AsnLen} {u : Update} {b : Bytes} (h : encodeUpdate l u = .ok b) :
    ∃ a, encodeAttributes l u.attributes.inner = .ok a ∧ (encodeNlri u.withdrawn).length < 65536 ∧ a.length < 65536 ∧
      b = updateBytes (encodeNlri u.withdrawn) a (encodeNlri u.announced) := by
  unfold encodeUpdate at h
  cases h1 : u16Len (encodeNlri u.withdrawn) with
  | error e => rw [h1] at h; cases h
  | ok w =>
    rw [h1] at h
    dsimp only at h
    cases h2 : encodeAttributes l u.attributes.inner with
    | error e => rw [h2] at h; cases h
    | ok ab =>
      rw [h2] at h
      dsimp only at h
      cases h3 : u16Len ab with
      | error e => rw [h3] at h; cases h
      | ok a =>
        rw [h3] at h
        cases h
        obtain ⟨hl1, rfl⟩ := u16Len_ok.mp h1
        obtain ⟨hl3, rfl⟩ := u16Len_ok.mp h3
        refine ⟨ab, rfl, by omega, by omega, ?_⟩
        rw [n16_ofNat (by omega), n16_ofNat (by omega)]
        simp [updateBytes]

/-! ### the message header -/

theorem msgType_ofU8_num (t : MsgType) : MsgType.ofU8? (UInt8.ofNat (msgNum t)) = some t := by cases t <;> rfl

/-- the body of a message with a consistent length. -/
theorem parseBgpMessage_bytes (ap : Bool) (l : AsnLen) (marker body rest : Bytes) (ty : UInt8) (hm : marker.length = 16)
    (hb : 19 + body.length < 65536) :
    parseBgpMessage ap l (messageBytes marker (19 + body.length) ty body ++ rest) =
      match MsgType.ofU8? ty with
      | none => .error .parse
      | some t =>
        if (t = .open ∨ t = .keepAlive) ∧ 19 + body.length > 4096 then .error .parse
        else match parseBody ap l t body with
          | .ok m => .ok (m, rest)
          | .error e => .error e := by
  have hlen : (UInt16.ofNat (19 + body.length)).toNat = 19 + body.length := toNat_u16len (by omega)
  have e0 : messageBytes marker (19 + body.length) ty body ++ rest =
      marker ++ (n16 (19 + body.length) ++ (ty :: (body ++ rest))) := by simp [messageBytes]
  have hs : (marker ++ (n16 (19 + body.length) ++ (ty :: (body ++ rest)))).length = 19 + body.length + rest.length := by
    simp [n16, hm]; omega
  have hmk : rdMarker (marker ++ (n16 (19 + body.length) ++ (ty :: (body ++ rest)))) =
      .ok ((), n16 (19 + body.length) ++ (ty :: (body ++ rest))) := by
    unfold rdMarker
    rw [Rd.bind_ok (show needN 16 (marker ++ (n16 (19 + body.length) ++ (ty :: (body ++ rest)))) = .ok ((), _) by
      simp only [needN]; rw [if_neg (by omega)])]
    simp only [advance]
    rw [if_neg (by omega)]
    congr 2
    rw [← hm]; simp
  unfold parseBgpMessage
  rw [e0, Rd.bind_ok (Rd.remaining_apply _), hs,
    Rd.bind_ok (show needN 19 (marker ++ (n16 (19 + body.length) ++ (ty :: (body ++ rest)))) = .ok ((), _) by
      simp only [needN]; rw [if_neg (by omega)]),
    Rd.bind_ok hmk, Rd.bind_ok (rdU16_n16 hb _), hlen]
  rw [if_neg (by omega)]
  rw [if_neg (by omega)]
  rw [Rd.bind_ok (rdU8_cons _ _)]
  cases MsgType.ofU8? ty with
  | none => rfl
  | some t =>
    dsimp only
    by_cases hc : (t = .open ∨ t = .keepAlive) ∧ 19 + body.length > 4096
    · rw [if_pos hc, if_pos hc]; rfl
    · rw [if_neg hc, if_neg hc]
      have : 19 + body.length - 19 = body.length := by omega
      rw [this, Rd.bind_ok (show needN body.length (body ++ rest) = .ok ((), body ++ rest) by simp [needN]),
        Rd.bind_ok (splitTo_append _ _)]
      cases parseBody ap l t body <;> rfl

theorem parseBody_noPanic (ap : Bool) (l : AsnLen) (t : MsgType) (d : Bytes) : parseBody ap l t d ≠ .error .panic := by
  unfold parseBody
  cases t with
  | «open» => exact mapOk_noPanic (parseOpen_noPanic d)
  | update => exact mapOk_noPanic (parseUpdate_noPanic ap l d)
  | notification => exact mapOk_noPanic (parseNotification_noPanic d)
  | keepAlive => simp
  | routeRefresh => exact mapOk_noPanic (parseRouteRefresh_noPanic d)

theorem parseBgpMessage_noPanic (ap : Bool) (l : AsnLen) : NoPanic (parseBgpMessage ap l) := by
  refine .bind .remaining fun total => .bind (.needN _) fun _ => .bind ?_ fun _ => .bind .rdU16 fun len =>
    .ite (fun _ => .fail (by decide)) fun _ => .bind .rdU8 fun ty => ?_
  · intro s h
    unfold rdMarker at h
    rw [Rd.bind_eq_error] at h
    rcases h with h | ⟨_, t, h1, h⟩
    · exact NoPanic.needN _ _ h
    · simp only [needN] at h1
      split at h1
      · cases h1
      · cases h1
        rename_i hn
        simp [advance, hn] at h
  · split
    · exact .fail (by decide)
    · exact .ite (fun _ => .fail (by decide)) fun _ =>
        (safe_needSplit (k := 0) _ fun d => .lift (parseBody_noPanic ap l _ d)).noPanic

/-- exactly which inputs are accepted, with what result. -/
theorem parseBgpMessage_iff (ap : Bool) (l : AsnLen) (s : Bytes) (m : BgpMessage) (r : Bytes) :
    parseBgpMessage ap l s = .ok (m, r) ↔
      ∃ (marker : Bytes) (len : Nat) (ty : UInt8) (rest : Bytes) (t : MsgType), marker.length = 16 ∧ 19 ≤ len ∧ len < 65536 ∧
        s = marker ++ n16 len ++ [ty] ++ rest ∧ MsgType.ofU8? ty = some t ∧
        ¬ ((t = .open ∨ t = .keepAlive) ∧ len > 4096) ∧
        parseBody ap l t (rest.take (len - 19)) = .ok m ∧ r = rest.drop (len - 19) := by
  constructor
  · intro h
    unfold parseBgpMessage at h
    rw [Rd.bind_ok (Rd.remaining_apply s)] at h
    rw [Rd.bind_eq_ok] at h; obtain ⟨_, t1, h1, h⟩ := h
    simp only [needN] at h1
    split at h1
    · cases h1
    rename_i h19
    cases h1
    rw [Rd.bind_eq_ok] at h; obtain ⟨_, t2, h2, h⟩ := h
    have h2' : t2 = s.drop 16 := by
      unfold rdMarker at h2
      rw [Rd.bind_ok (show needN 16 s = .ok ((), s) by simp only [needN]; rw [if_neg (by omega)])] at h2
      simp only [advance] at h2
      rw [if_neg (by omega)] at h2
      cases h2; rfl
    rw [Rd.bind_eq_ok] at h; obtain ⟨len, t3, h3, h⟩ := h
    have hl := len.toNat_lt
    by_cases hlen : ¬ (19 ≤ len.toNat ∧ len.toNat ≤ 65535)
    · rw [if_pos hlen] at h; cases h
    rw [if_neg hlen] at h
    have h19' : 19 ≤ len.toNat := by omega
    rw [Rd.bind_eq_ok] at h; obtain ⟨ty, rest, h4, h⟩ := h
    have e : s = s.take 16 ++ n16 len.toNat ++ [ty] ++ rest := by
      conv => lhs; rw [← List.take_append_drop 16 s, ← h2', rdU16_ok h3, rdU8_ok h4, be16_n16]
      simp
    have hrest : s.length = 19 + rest.length := by
      have := congrArg List.length e
      simp [n16] at this; omega
    cases ht : MsgType.ofU8? ty with
    | none => rw [ht] at h; cases h
    | some t =>
      rw [ht] at h
      dsimp only at h
      by_cases hc : (t = .open ∨ t = .keepAlive) ∧ len.toNat > 4096
      · rw [if_pos hc] at h; cases h
      rw [if_neg hc] at h
      have htake : rest.take (if len.toNat > s.length then s.length - 19 else len.toNat - 19) = rest.take (len.toNat - 19) := by
        split
        · rw [List.take_of_length_le (by omega), List.take_of_length_le (by omega)]
        · rfl
      have hdrop : rest.drop (if len.toNat > s.length then s.length - 19 else len.toNat - 19) = rest.drop (len.toNat - 19) := by
        split
        · rw [List.drop_of_length_le (by omega), List.drop_of_length_le (by omega)]
        · rfl
      generalize (if len.toNat > s.length then s.length - 19 else len.toNat - 19) = k at h htake hdrop
      rw [Rd.bind_eq_ok] at h; obtain ⟨_, t5, h5, h⟩ := h
      simp only [needN] at h5
      split at h5
      · cases h5
      rename_i hn
      cases h5
      rw [Rd.bind_eq_ok] at h; obtain ⟨d, t6, h6, h⟩ := h
      simp only [splitTo, hn, if_false] at h6
      cases h6
      rw [htake, hdrop] at h
      refine ⟨s.take 16, len.toNat, ty, rest, t, by simp; omega, h19', hl, e, ht, hc, ?_, ?_⟩
      · cases hb : parseBody ap l t (rest.take (len.toNat - 19)) with
        | error e => rw [hb] at h; cases h
        | ok x => rw [hb] at h; cases h; rfl
      · cases hb : parseBody ap l t (rest.take (len.toNat - 19)) with
        | error e => rw [hb] at h; cases h
        | ok x => rw [hb] at h; cases h; rfl
  · rintro ⟨marker, len, ty, rest, t, hm, h19, hl, rfl, ht, hc, hb, rfl⟩
    have hlen : (UInt16.ofNat len).toNat = len := toNat_u16len (by omega)
    have e0 : marker ++ n16 len ++ [ty] ++ rest = marker ++ (n16 len ++ (ty :: rest)) := by simp
    have hs : (marker ++ (n16 len ++ (ty :: rest))).length = 19 + rest.length := by
      simp [n16, hm]; omega
    have hmk : rdMarker (marker ++ (n16 len ++ (ty :: rest))) = .ok ((), n16 len ++ (ty :: rest)) := by
      unfold rdMarker
      rw [Rd.bind_ok (show needN 16 (marker ++ (n16 len ++ (ty :: rest))) = .ok ((), _) by
        simp only [needN]; rw [if_neg (by omega)])]
      simp only [advance]
      rw [if_neg (by omega)]
      congr 2
      rw [← hm]; simp
    unfold parseBgpMessage
    rw [e0, Rd.bind_ok (Rd.remaining_apply _), hs,
      Rd.bind_ok (show needN 19 (marker ++ (n16 len ++ (ty :: rest))) = .ok ((), _) by
        simp only [needN]; rw [if_neg (by omega)]),
      Rd.bind_ok hmk, Rd.bind_ok (rdU16_n16 hl _), hlen, if_neg (by omega), Rd.bind_ok (rdU8_cons _ _), ht]
    dsimp only
    rw [if_neg hc]
    have htake : rest.take (if len > 19 + rest.length then 19 + rest.length - 19 else len - 19) = rest.take (len - 19) := by
      split
      · rw [List.take_of_length_le (by omega), List.take_of_length_le (by omega)]
      · rfl
    have hdrop : rest.drop (if len > 19 + rest.length then 19 + rest.length - 19 else len - 19) = rest.drop (len - 19) := by
      split
      · rw [List.drop_of_length_le (by omega), List.drop_of_length_le (by omega)]
      · rfl
    have hle : (if len > 19 + rest.length then 19 + rest.length - 19 else len - 19) ≤ rest.length := by
      split <;> omega
    rw [← htake] at hb
    rw [← hdrop]
    generalize (if len > 19 + rest.length then 19 + rest.length - 19 else len - 19) = k at hb hle ⊢
    rw [Rd.bind_ok (show needN k rest = .ok ((), rest) by simp only [needN]; rw [if_neg (by omega)]),
      Rd.bind_ok (show splitTo k rest = .ok (rest.take k, rest.drop k) by simp only [splitTo]; rw [if_neg (by omega)]), hb]
    rfl

end Verif
