import Verif.Lemmas.AttrLs
/-
Multiprotocol NLRI attributes: round trip and panic freedom.
-/
namespace Verif
open Spec

theorem length_nextHop (nh : NextHop) : nh.bytes.length = match nh with
    | .v4 _ => 4 | .v6 _ => 16 | .v6ll .. => 32 | .vpn6 .. => 24 | .vpn6ll .. => 48 := by
  cases nh <;> simp [NextHop.bytes]

theorem parseMpNextHop_enc (nh : NextHop) : parseMpNextHop nh.bytes = .ok (some nh) := by
  have hl := length_nextHop nh
  unfold parseMpNextHop
  cases nh with
  | v4 a =>
    simp only [hl]
    rw [if_neg (by decide), if_pos trivial]
    refine runOn_append fun r => ?_
    rw [NextHop.bytes, Rd.bind_ok (rdV4_append a r)]; rfl
  | v6 a =>
    simp only [hl]
    rw [if_neg (by decide), if_neg (by decide), if_pos trivial]
    refine runOn_append fun r => ?_
    rw [NextHop.bytes, Rd.bind_ok (rdV6_append a r)]; rfl
  | v6ll a b =>
    simp only [hl]
    rw [if_neg (by decide), if_neg (by decide), if_neg (by decide), if_neg (by decide), if_pos trivial]
    refine runOn_append fun r => ?_
    rw [NextHop.bytes, List.append_assoc, Rd.bind_ok (rdV6_append a _), Rd.bind_ok (rdV6_append b _)]; rfl
  | vpn6 rd a =>
    simp only [hl]
    rw [if_neg (by decide), if_neg (by decide), if_neg (by decide), if_pos trivial]
    refine runOn_append fun r => ?_
    rw [NextHop.bytes, List.append_assoc, Rd.bind_ok (rdVec_append rd _), Rd.bind_ok (rdV6_append a _)]; rfl
  | vpn6ll r1 a r2 b =>
    simp only [hl]
    rw [if_neg (by decide), if_neg (by decide), if_neg (by decide), if_neg (by decide), if_neg (by decide), if_pos trivial]
    refine runOn_append fun r => ?_
    simp only [NextHop.bytes, List.append_assoc]
    rw [Rd.bind_ok (rdVec_append r1 _), Rd.bind_ok (rdV6_append a _), Rd.bind_ok (rdVec_append r2 _),
      Rd.bind_ok (rdV6_append b _)]
    rfl

theorem parseMpNextHop_noPanic (s : Bytes) : parseMpNextHop s ≠ .error .panic := by
  unfold parseMpNextHop
  repeat' split
  all_goals first
    | simp; done
    | exact NoPanic.runOn (.bind (.rdVec _) fun _ => .pure _) s
    | exact NoPanic.runOn (.bind (.rdVec _) fun _ => .bind (.rdVec _) fun _ => .pure _) s
    | exact NoPanic.runOn (.bind (.rdVec _) fun _ => .bind (.rdVec _) fun _ => .bind (.rdVec _) fun _ =>
        .bind (.rdVec _) fun _ => .pure _) s

theorem afi_first_zero {a : Afi} (h : a ≠ .linkState) (s : Bytes) : (be16 a.toU16 ++ s).head? = some 0 := by
  cases a
  · rfl
  · rfl
  · exact absurd rfl h

/-- the head of an encoded NLRI, reachable. -/
theorem rdNlriHead_reach (afi : Option Afi) (safi : Option Safi) (a : Afi) (f : Safi) (nh : NextHop) (r : Bytes) :
    rdNlriHead afi safi true true (be16 a.toU16 ++ (f.toU8 :: (UInt8.ofNat nh.bytes.length :: (nh.bytes ++ r)))) =
      .ok ((a, f, some nh), r) := by
  unfold rdNlriHead
  have h1 : rdAfiOr afi true = rdAfi := by
    cases afi <;> rfl
  have h2 : rdSafiOr safi true = rdSafi := by
    cases safi <;> rfl
  have hl : nh.bytes.length ≤ 255 := by rw [length_nextHop]; cases nh <;> simp
  rw [h1, h2, Rd.bind_ok (rdAfi_enc _ _), Rd.bind_ok (rdSafi_enc _ _)]
  simp only [if_true]
  rw [Rd.bind_ok (rdU8_cons _ _), toNat_u8len hl, Rd.bind_ok (rdN_append _ _), parseMpNextHop_enc,
    Rd.bind_ok (Rd.lift_ok _ _)]
  rfl

theorem rdNlriHead_unreach (afi : Option Afi) (safi : Option Safi) (a : Afi) (f : Safi) (r : Bytes) :
    rdNlriHead afi safi true false (be16 a.toU16 ++ (f.toU8 :: r)) = .ok ((a, f, none), r) := by
  unfold rdNlriHead
  have h1 : rdAfiOr afi true = rdAfi := by
    cases afi <;> rfl
  have h2 : rdSafiOr safi true = rdSafi := by
    cases safi <;> rfl
  rw [h1, h2, Rd.bind_ok (rdAfi_enc _ _), Rd.bind_ok (rdSafi_enc _ _)]
  simp

theorem encNlriLabeled_ok {afi : Afi} {ap ap' : Bool} {p : LabeledPrefix} (h : LabeledOk afi ⟨ap, .multi, 16, none⟩ p)
    (hap : p.pathId.isSome = true → ap' = true) :
    encNlriLabeled ap' p = .ok (encPathId p.pathId ++ [UInt8.ofNat (p.labels.length * 24 + p.prefix_.len.toNat)] ++
      encLabels p.labels ++ netOctets p.prefix_) := by
  obtain ⟨pf, ls, pid⟩ := p
  have hne := h.nonempty
  have hfit := h.fits
  simp only at hne hfit hap
  have hp : ¬ (pid.isSome = true ∧ ap' = false) := by
    rintro ⟨h1, h2⟩; rw [hap h1] at h2; cases h2
  unfold encNlriLabeled encodeLabeled
  simp only
  rw [if_neg hne, if_neg hp, if_neg (by omega)]
  cases ls with
  | nil => exact absurd rfl hne
  | cons l ls =>
    cases ls with
    | nil => simp [encLabels]
    | cons l2 ls => simp

theorem encAll_eq_flatMap {f : α → Except EncErr Bytes} {g : α → Bytes} :
    ∀ (xs : List α), (∀ x ∈ xs, f x = .ok (g x)) → encAll f xs = .ok (xs.flatMap g)
  | [], _ => rfl
  | x :: xs, h => by
    simp only [encAll, h x (by simp), encAll_eq_flatMap xs fun y hy => h y (by simp [hy]), List.flatMap_cons]

theorem parseMp_body_plain {n : Nlri} {ap reach : Bool} {pfx : Option (List NetworkPrefix)} (hm : n.safi ≠ .mplsLabel)
    (hok : MpNlriOk reach ap n) :
    parseNlriBody n.afi n.safi n.nextHop pfx true reach ap ((if reach then [0] else []) ++ encodeNlri n.prefixes) = .ok n := by
  obtain ⟨h1, h2, h3, h4, h5, h6⟩ := hok
  obtain ⟨h7, h8⟩ := h5 hm
  unfold parseNlriBody
  rw [if_neg (fun h => h2 h.1), if_neg hm]
  have hl : parseNlriList n.afi ap (encodeNlri n.prefixes) = .ok n.prefixes := nlriLoop_encode n.prefixes _ (Nat.le_refl _) h8
  have hr : rdReserved reach ((if reach then [0] else []) ++ encodeNlri n.prefixes) = .ok ((), encodeNlri n.prefixes) := by
    cases reach <;> simp [rdReserved, Rd.bind_apply]
  obtain ⟨afi, safi, nh, ps, lab, ls, fs⟩ := n
  simp only at h3 h4 h7
  subst h3 h4 h7
  cases pfx <;> simp only [hr, hl]

theorem parseMpNlri_enc (cfg : AttrCfg) {n : Nlri} {reach : Bool} {ap' : Bool}
    (hap : ∀ p ∈ n.labeled.getD [], p.pathId.isSome = true → ap' = true)
    (hok : MpNlriOk reach cfg.addPath n) {b : Bytes} (h : encodeMpNlri n reach ap' = .ok b) :
    parseNlri cfg.afi cfg.safi cfg.prefixes reach cfg.addPath b = .ok n := by
  have hok' := hok
  obtain ⟨h1, h2, h3, h4, h5, h6⟩ := hok
  unfold encodeMpNlri at h
  -- the head
  have hhead : ∀ rest, ∀ nhb, encNextHop n.nextHop = .ok nhb →
      b = be16 n.afi.toU16 ++ [n.safi.toU8] ++ nhb ++ (if reach then [0] else []) ++ rest →
      (b.head? == some 0) = true ∧ rdNlriHead cfg.afi cfg.safi true reach b =
        .ok ((n.afi, n.safi, n.nextHop), (if reach then [0] else []) ++ rest) := by
    intro rest nhb hnhb hb
    subst hb
    constructor
    · simp only [List.append_assoc]; rw [afi_first_zero h2]; rfl
    · cases hn : n.nextHop with
      | none =>
        rw [hn] at hnhb h1
        cases hnhb
        have : reach = false := by simpa using h1.symm
        subst this
        simp only [List.append_assoc, List.nil_append, List.cons_append]
        rw [rdNlriHead_unreach]
      | some nh =>
        rw [hn] at hnhb h1
        have : reach = true := by simpa using h1.symm
        subst this
        obtain ⟨hl, rfl⟩ := u8Len_ok.mp hnhb
        simp only [List.append_assoc, List.nil_append, List.cons_append]
        rw [rdNlriHead_reach]
  cases hnh : encNextHop n.nextHop with
  | error e => simp only [hnh] at h; cases h
  | ok nhb =>
    simp only [hnh] at h
    by_cases hm : n.safi = .mplsLabel
    · simp only [hm, if_true] at h
      obtain ⟨hp0, hlab⟩ := h6 hm
      cases hen : encAll (encNlriLabeled ap') (n.labeled.getD []) with
      | error e => simp only [hen] at h; cases h
      | ok c =>
        simp only [hen] at h
        injection h with h
        obtain ⟨hz, hh⟩ := hhead c nhb hnh (by rw [hm]; exact h.symm)
        unfold parseNlri
        simp only [hz, hh]
        unfold parseNlriBody
        rw [if_neg (fun h => h2 h.1), if_pos hm]
        cases reach with
        | false =>
          simp only [Bool.false_eq_true, if_false] at hlab ⊢
          rw [hlab] at hen
          cases hen
          have : parseLabeledWithdrawals n.afi cfg.addPath [] = .ok [] := rfl
          simp only [List.append_nil, this]
          obtain ⟨afi, safi, nh, ps, lab, ls, fs⟩ := n
          simp only at h3 h4 hp0 hlab
          subst h3 h4 hp0 hlab; rfl
        | true =>
          simp only [if_true] at hlab ⊢
          obtain ⟨ls, hls, hlo⟩ := hlab
          rw [hls] at hen hap
          simp only [Option.getD_some] at hen hap
          rw [encAll_eq_flatMap ls fun x hx => encNlriLabeled_ok (hlo x hx) (hap x hx)] at hen
          injection hen with hen
          have hpar : parseLabeledNlri n.afi (nlriLabelCfg cfg.addPath) c = .ok ls := by
            rw [← hen]
            exact many_encode ls fun p hp => ⟨by simp, fun s => rdLabeled_enc (hlo p hp) s⟩
          have hr : rdReserved true ([0] ++ c) = .ok ((), c) := rfl
          simp only [hr, hpar]
          obtain ⟨afi, safi, nh, ps, lab, lsn, fs⟩ := n
          simp only at h3 h4 hp0 hls
          subst h3 h4 hp0 hls; rfl
    · simp only [hm, if_false, h2, h4, Option.getD_none, encAll, List.append_nil] at h
      injection h with h
      obtain ⟨hz, hh⟩ := hhead (encodeNlri n.prefixes) nhb hnh h.symm
      unfold parseNlri
      simp only [hz, hh]
      exact parseMp_body_plain hm hok'

/-! panic freedom -/

theorem rdNlriHead_noPanic (afi : Option Afi) (safi : Option Safi) (z reach : Bool) : NoPanic (rdNlriHead afi safi z reach) := by
  unfold rdNlriHead
  refine .bind ?_ fun a => .bind ?_ fun f => .ite (fun _ => ?_) fun _ => .pure _
  · cases afi
    · exact .rdAfi
    · exact .ite (fun _ => .rdAfi) fun _ => .pure _
  · cases safi
    · exact .rdSafi
    · exact .ite (fun _ => .rdSafi) fun _ => .pure _
  · exact .bind .rdU8 fun _ => .bind (.rdN _) fun d => .bind (.lift (parseMpNextHop_noPanic d)) fun _ => .pure _

theorem rdReserved_noPanic (reach : Bool) : NoPanic (rdReserved reach) :=
  .ite (fun _ => .bind .rdU8 fun _ => .pure _) fun _ => .pure _

theorem parseNlriBody_noPanic (afi : Afi) (safi : Safi) (nh : Option NextHop) (pfx : Option (List NetworkPrefix))
    (z reach ap : Bool) (s : Bytes) : parseNlriBody afi safi nh pfx z reach ap s ≠ .error .panic := by
  unfold parseNlriBody
  repeat' split
  all_goals first
    | (intro h; cases h; done)
    | (rename_i e he; intro h; injection h with h; subst h; exact rdReserved_noPanic _ _ he)
    | (rename_i e he; intro h; injection h with h; subst h; exact parseLsNlri_noPanic _ he)
    | (rename_i e he; intro h; injection h with h; subst h
       exact many_noPanic (rdLabeled_noPanic afi _) (fun _ _ _ h => rdLabeled_progress h) _ he)
    | (rename_i e he; intro h; injection h with h; subst h
       exact many_noPanic (rdLabeledWithdrawal_noPanic afi ap) (fun _ _ _ h => rdLabeledWithdrawal_progress h) s he)
    | (rename_i e he; intro h; injection h with h; subst h; exact nlriLoop_noPanic _ _ _ _ (Nat.le_refl _) he)

theorem parseNlri_noPanic (afi : Option Afi) (safi : Option Safi) (pfx : Option (List NetworkPrefix)) (reach ap : Bool)
    (s : Bytes) : parseNlri afi safi pfx reach ap s ≠ .error .panic := by
  unfold parseNlri
  simp only
  split
  · rename_i e he; intro h; injection h with h; subst h; exact rdNlriHead_noPanic _ _ _ _ _ he
  · exact parseNlriBody_noPanic _ _ _ _ _ _ _ _

end Verif
