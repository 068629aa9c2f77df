import Verif.Lemmas.Display
/-
The text of communities.
-/
namespace Verif
open Spec

/-! ### what is written -/

theorem parts_colons {fs : List (List Char → Prop)} {ts : List (List Char)} (h : Pairwise2 (fun f t => f t) fs ts) : Parts fs (colons ts) := by
  unfold Parts colons
  induction h with
  | nil => exact .nil
  | @cons f t fs ts h1 h2 ih =>
    cases h2 with
    | nil => exact .last h1
    | cons h3 h4 =>
      simp only [joinSep, List.append_assoc, List.cons_append, List.nil_append] at ih ⊢
      exact .more h1 ih

theorem ext_shows (env : ShowEnv) (c : ExtCommunity) : ShowsExt env c (extText env c) := by
  cases c with
  | twoOctetAs st a l => exact .as2 (parts_colons (.cons (numeral_dec _) (.cons (numeral_dec _) (.cons (numeral_dec _) (.cons (hex_text _) .nil)))))
  | ntTwoOctetAs st a l => exact .ntAs2 (parts_colons (.cons (numeral_dec _) (.cons (numeral_dec _) (.cons (numeral_dec _) (.cons (hex_text _) .nil)))))
  | ipv4Addr st a l => exact .ip4 (parts_colons (.cons (numeral_dec _) (.cons (numeral_dec _) (.cons (shows_v4 _) (.cons (hex_text _) .nil)))))
  | ntIpv4Addr st a l => exact .ntIp4 (parts_colons (.cons (numeral_dec _) (.cons (numeral_dec _) (.cons (shows_v4 _) (.cons (hex_text _) .nil)))))
  | fourOctetAs st a l => exact .as4 (parts_colons (.cons (numeral_dec _) (.cons (numeral_dec _) (.cons (numeral_dec _) (.cons (hex_text _) .nil)))))
  | ntFourOctetAs st a l => exact .ntAs4 (parts_colons (.cons (numeral_dec _) (.cons (numeral_dec _) (.cons (numeral_dec _) (.cons (hex_text _) .nil)))))
  | opaq st v => exact .opaq (parts_colons (.cons (numeral_dec _) (.cons (numeral_dec _) (.cons (hex_text _) .nil))))
  | ntOpaque st v => exact .ntOpaq (parts_colons (.cons (numeral_dec _) (.cons (numeral_dec _) (.cons (hex_text _) .nil))))
  | trafficRate a r => exact .rate (numeral_dec _)
  | trafficAction a t s =>
    have : ∀ x y, lit "action:" ++ joinSep [','] ((if t then [lit "terminal"] else []) ++ (if s then [lit "sample"] else [])) ++ x ++ y =
        "action:".toList ++ (if t && s then "terminal,sample" else if t then "terminal" else if s then "sample" else "").toList ++ x ++ y := by
      intro x y; cases t <;> cases s <;> rfl
    show ShowsExt env _ (lit "action:" ++ joinSep [','] ((if t then [lit "terminal"] else []) ++ (if s then [lit "sample"] else [])) ++
      lit " (AS " ++ decText a.toNat ++ lit ")")
    rw [this]
    exact .action (numeral_dec _)
  | redirect st a l =>
    have : extText env (.redirect st a l) = "redirect:AS".toList ++ asnText a ++ ':' :: hexText l.toList := by
      simp [extText, lit]
    rw [this]
    exact .redirect (numeral_dec _) (hex_text _)
  | trafficMarking a d => exact .marking (numeral_dec _) (numeral_dec _)
  | linkBandwidth g b t =>
    refine .bandwidth (parts_colons (.cons ?_ (.cons (numeral_dec _) (.cons (numeral_dec _) (.cons rfl .nil)))))
    cases t <;> exact numeral_dec _
  | raw b => exact .raw (hex_text _)

theorem community_shows (env : ShowEnv) (c : MetaCommunity) : ShowsCommunity env c (communityText env c) := by
  cases c with
  | plain c =>
    cases c with
    | noExport => exact .noExport
    | noAdvertise => exact .noAdvertise
    | noExportSubConfed => exact .subConfed
    | custom a v =>
      refine .custom ?_
      have := parts_colons (fs := [ShowsAsn a, (Numeral · v.toNat)]) (ts := [asnText a, decText v.toNat]) (.cons (numeral_dec _) (.cons (numeral_dec _) .nil))
      exact this
  | extended c => exact .ext (ext_shows env c)
  | large c =>
    refine .large ?_
    have := parts_colons (fs := [(Numeral · c.globalAdmin.toNat), (Numeral · c.local1.toNat), (Numeral · c.local2.toNat)])
      (ts := [decText c.globalAdmin.toNat, decText c.local1.toNat, decText c.local2.toNat])
      (.cons (numeral_dec _) (.cons (numeral_dec _) (.cons (numeral_dec _) .nil)))
    simpa [colons, joinSep, communityText, largeText] using this
  | ipv6Extended c =>
    exact .ip6 (parts_colons (.cons (numeral_dec _) (.cons (numeral_dec _) (.cons rfl (.cons (hex_text _) .nil)))))

/-! ### what the text tells -/

/-- the texts between the colons of an extended community. -/
def extPieces (env : ShowEnv) (c : ExtCommunity) : List (List Char) :=
  match c with
  | .twoOctetAs st a l => [decText 0, decText st.toNat, asnText a, hexText l.toList]
  | .ntTwoOctetAs st a l => [decText 64, decText st.toNat, asnText a, hexText l.toList]
  | .ipv4Addr st a l => [decText 1, decText st.toNat, v4Text a, hexText l.toList]
  | .ntIpv4Addr st a l => [decText 65, decText st.toNat, v4Text a, hexText l.toList]
  | .fourOctetAs st a l => [decText 2, decText st.toNat, asnText a, hexText l.toList]
  | .ntFourOctetAs st a l => [decText 66, decText st.toNat, asnText a, hexText l.toList]
  | .opaq st v => [decText 3, decText st.toNat, hexText v.toList]
  | .ntOpaque st v => [decText 67, decText st.toNat, hexText v.toList]
  | .trafficRate a r => [lit "rate", env.f32 r ++ lit " bytes/sec (AS " ++ decText a.toNat ++ lit ")"]
  | .trafficAction a t s =>
    [lit "action", joinSep [','] ((if t then [lit "terminal"] else []) ++ (if s then [lit "sample"] else [])) ++ lit " (AS " ++
      decText a.toNat ++ lit ")"]
  | .redirect _ a l => [lit "redirect", lit "AS" ++ asnText a, hexText l.toList]
  | .trafficMarking a d => [lit "mark", lit "DSCP" ++ decText d.toNat ++ lit " (AS " ++ decText a.toNat ++ lit ")"]
  | .linkBandwidth g b t => [decText (if t then 0 else 64), decText 4, decText g.toNat, env.f32 b]
  | .raw b => [hexText b.toList]

theorem ext_join (env : ShowEnv) (c : ExtCommunity) : extText env c = joinSep [':'] (extPieces env c) := by
  cases c with
  | linkBandwidth g b t => cases t <;> rfl
  | _ => simp [extText, extPieces, colons, joinSep, lit, ExtCommunity.type, ExtType.toU8]

theorem f32_no {env : ShowEnv} (ok : ShowOk env) {c : Char} (h : c.isAlphanum = false) (h1 : c ≠ '.') (h2 : c ≠ '-') (x : UInt32) : c ∉ env.f32 x := by
  intro m
  rcases ok.f32_chars x c m with m | m | m
  · rw [m] at h; cases h
  · exact h1 m
  · exact h2 m

theorem ext_no_colon {env : ShowEnv} (ok : ShowOk env) (c : ExtCommunity) : ∀ x ∈ extPieces env c, ':' ∉ x := by
  have hd : ∀ n, ':' ∉ decText n := not_mem_dec (by decide)
  have ha : ∀ a, ':' ∉ asnText a := fun a => hd _
  have hh : ∀ b, ':' ∉ hexText b := not_mem_hex (by decide)
  have hv := v4_no_colon
  have hf : ∀ x, ':' ∉ env.f32 x := f32_no ok (by decide) (by decide) (by decide)
  cases c with
  | trafficAction a t s => cases t <;> cases s <;> simp [extPieces, hd, lit, joinSep]
  | _ => simp [extPieces, hd, ha, hh, hv, hf, lit]

/-- the pieces of a community other than an IPv6 one. -/
def plainPieces (env : ShowEnv) : MetaCommunity → List (List Char)
  | .plain (.custom a v) => [asnText a, decText v.toNat]
  | .plain c => [plainText c]
  | .extended c => extPieces env c
  | .large c => [decText c.globalAdmin.toNat, decText c.local1.toNat, decText c.local2.toNat]
  | .ipv6Extended _ => []

theorem community_fields {env : ShowEnv} (ok : ShowOk env) (c : MetaCommunity) (hc : ∀ x, c ≠ .ipv6Extended x) :
    Fields ':' (communityText env c) (plainPieces env c) := by
  have hd : ∀ n, ':' ∉ decText n := not_mem_dec (by decide)
  have ha : ∀ a, ':' ∉ asnText a := fun a => hd _
  cases c with
  | plain c =>
    cases c with
    | custom a v =>
      exact fields_join (xs := [asnText a, decText v.toNat]) (by simp) (by simp [hd, ha])
    | _ => exact .last (by simp [communityText, plainText, lit])
  | extended c =>
    show Fields ':' (extText env c) _
    rw [ext_join]
    exact fields_join (by cases c <;> simp [extPieces]) (ext_no_colon ok c)
  | large c =>
    have := fields_join (sep := ':') (xs := [decText c.globalAdmin.toNat, decText c.local1.toNat, decText c.local2.toNat]) (by simp) (by simp [hd])
    simpa [joinSep, communityText, largeText, plainPieces] using this
  | ipv6Extended c => exact absurd rfl (hc c)

theorem fields_count {sep : Char} {l : List Char} {fs : List (List Char)} (h : Fields sep l fs) : fs.length = l.count sep + 1 := by
  induction h with
  | last h => simp [List.count_eq_zero_of_not_mem h]
  | more h _ ih => simp [List.count_append, List.count_eq_zero_of_not_mem h, ih]

theorem ip6_count {env : ShowEnv} (ok : ShowOk env) (c : Ipv6ExtCommunity) : 5 ≤ (communityText env (.ipv6Extended c)).count ':' := by
  have := ok.v6_colons c.addr
  simp only [communityText, ipv6ExtText, colons, joinSep, List.count_append, List.count_singleton_self]
  omega

theorem pieces_length (env : ShowEnv) (c : MetaCommunity) : (plainPieces env c).length ≤ 4 := by
  cases c with
  | plain c => cases c <;> simp [plainPieces]
  | extended c => cases c <;> simp [plainPieces, extPieces]
  | large c => simp [plainPieces]
  | ipv6Extended c => simp [plainPieces]

theorem dec_eq_iff (a b : Nat) : decText a = decText b ↔ a = b := ⟨decText_inj, fun h => h ▸ rfl⟩
theorem asn_eq_iff (a b : Asn) : asnText a = asnText b ↔ a = b := ⟨fun h => UInt32.toNat_inj.mp (decText_inj h), fun h => h ▸ rfl⟩
theorem hexV_eq_iff {n : Nat} (a b : Vector UInt8 n) : hexText a.toList = hexText b.toList ↔ a = b :=
  ⟨fun h => Vector.toList_inj.mp (hexText_inj h), fun h => h ▸ rfl⟩
theorem v4_eq_iff (a b : V4) : v4Text a = v4Text b ↔ a = b := ⟨v4Text_inj, fun h => h ▸ rfl⟩

theorem dec_ne_of {n : Nat} {c : Char} {r : List Char} (h : c.isDigit = false) : decText n ≠ c :: r := by
  intro e
  have := decText_digit (n := n) (c := c) (by rw [e]; exact List.mem_cons_self ..)
  rw [this] at h
  cases h

theorem tail_as {x y : List Char} {n m : Nat} (hx : '(' ∉ x) (hy : '(' ∉ y)
    (h : x ++ lit " (AS " ++ decText n ++ lit ")" = y ++ lit " (AS " ++ decText m ++ lit ")") : x = y ∧ n = m := by
  have h1 : (x ++ [' ']) ++ '(' :: (lit "AS " ++ decText n ++ lit ")") = (y ++ [' ']) ++ '(' :: (lit "AS " ++ decText m ++ lit ")") := by
    simpa [lit] using h
  obtain ⟨e1, e2⟩ := sep_split (by simpa using hx) (by simpa using hy) h1
  rw [List.append_cancel_right_eq] at e1
  simp only [List.append_cancel_left_eq, List.append_cancel_right_eq, List.append_assoc] at e2
  refine ⟨e1, decText_inj ?_⟩
  simpa using e2

theorem dec_length {n : Nat} (h : n < 2 ^ 32) : (decText n).length ≤ 10 := by
  have : (Nat.toDigits 10 n).length ≤ 10 := (Nat.length_toDigits_le_iff (by omega) (by omega)).mpr (by omega)
  exact this

theorem dec_ne_hex {n : Nat} {v : Vector UInt8 6} (h : n < 2 ^ 32) : decText n ≠ hexText v.toList := by
  intro e
  have h1 := dec_length h
  rw [e, hexText_length] at h1
  simp at h1

theorem ext_same {env : ShowEnv} (ok : ShowOk env) {c c' : ExtCommunity} (h : extPieces env c = extPieces env c') :
    SameCommunity env (.extended c) (.extended c') := by
  have hr : ∀ n, decText n ≠ lit "rate" := fun n => dec_ne_of (by decide)
  have ha : ∀ n, decText n ≠ lit "action" := fun n => dec_ne_of (by decide)
  have hd : ∀ n, decText n ≠ lit "redirect" := fun n => dec_ne_of (by decide)
  have hf : ∀ x, '(' ∉ env.f32 x := f32_no ok (by decide) (by decide) (by decide)
  have hb : ∀ x, ' ' ∉ env.f32 x := f32_no ok (by decide) (by decide) (by decide)
  have hl1 : lit "rate" ≠ lit "action" := by decide
  have hl2 : lit "rate" ≠ lit "mark" := by decide
  have hl3 : lit "action" ≠ lit "mark" := by decide
  have hm : ∀ n, decText n ≠ lit "mark" := fun n => dec_ne_of (by decide)
  cases c with
  | trafficRate a r =>
    cases c' <;> simp only [extPieces, List.cons.injEq, reduceCtorEq, and_false, and_true, true_and, hl1, hl2, false_and] at h
    case trafficRate a' r' =>
      have h1 : (env.f32 r ++ lit " bytes/sec") ++ lit " (AS " ++ decText a.toNat ++ lit ")" = (env.f32 r' ++ lit " bytes/sec") ++ lit " (AS " ++ decText a'.toNat ++ lit ")" := by
        simpa [lit] using h
      obtain ⟨e1, e2⟩ := tail_as (by simp [hf, lit]) (by simp [hf, lit]) h1
      rw [List.append_cancel_right_eq] at e1
      cases UInt16.toNat_inj.mp e2
      exact .rate e1
  | trafficAction a t s =>
    cases c' <;> simp only [extPieces, List.cons.injEq, reduceCtorEq, and_false, and_true, true_and, hl1.symm, hl3, false_and] at h
    case trafficAction a' t' s' =>
      obtain ⟨e1, e2⟩ := tail_as (by cases t <;> cases s <;> decide) (by cases t' <;> cases s' <;> decide) h
      cases UInt16.toNat_inj.mp e2
      have : t = t' ∧ s = s' := by
        revert e1
        cases t <;> cases s <;> cases t' <;> cases s' <;> decide
      rw [this.1, this.2]
      exact .same _
  | trafficMarking a d =>
    cases c' <;> simp only [extPieces, List.cons.injEq, reduceCtorEq, and_false, and_true, true_and, hl2.symm, hl3.symm, false_and] at h
    case trafficMarking a' d' =>
      obtain ⟨e1, e2⟩ := tail_as (by simpa [lit] using not_mem_dec (by decide) _) (by simpa [lit] using not_mem_dec (by decide) _) h
      cases UInt16.toNat_inj.mp e2
      rw [List.append_cancel_left_eq] at e1
      cases UInt8.toNat_inj.mp (decText_inj e1)
      exact .same _
  | redirect st a l =>
    cases c' <;> simp only [extPieces, List.cons.injEq, reduceCtorEq, and_false, and_true, true_and, false_and, (hd _).symm] at h
    case redirect st' a' l' =>
      rw [List.append_cancel_left_eq, asn_eq_iff, hexV_eq_iff] at h
      rw [h.1, h.2]
      exact .redirect
  | raw b =>
    cases c' <;> simp only [extPieces, List.cons.injEq, reduceCtorEq, and_false, and_true, true_and, false_and, hexV_eq_iff] at h
    case raw b' => rw [h]; exact .same _
  | linkBandwidth g b t =>
    cases c' <;> simp only [extPieces, List.cons.injEq, reduceCtorEq, and_false, and_true, true_and, false_and, dec_eq_iff] at h
    case linkBandwidth g' b' t' =>
      obtain ⟨h1, h2, h3⟩ := h
      have : t = t' := by revert h1; cases t <;> cases t' <;> decide
      cases UInt16.toNat_inj.mp h2
      rw [this]
      exact .bandwidth h3
    case twoOctetAs st' a' l' =>
      obtain ⟨h1, h2, h3, h4⟩ := h
      have : t = true := by revert h1; cases t <;> decide
      have e : st' = 4 := UInt8.toNat_inj.mp h2.symm
      rw [this, e]
      exact .bandwidthAs2 (decText_inj h3).symm (h4 ▸ hex_text _)
    case ntTwoOctetAs st' a' l' =>
      obtain ⟨h1, h2, h3, h4⟩ := h
      have : t = false := by revert h1; cases t <;> decide
      have e : st' = 4 := UInt8.toNat_inj.mp h2.symm
      rw [this, e]
      exact .bandwidthNtAs2 (decText_inj h3).symm (h4 ▸ hex_text _)
    all_goals exact absurd h.1 (by cases t <;> decide)
  | twoOctetAs st a l =>
    cases c' <;> simp only [extPieces, List.cons.injEq, reduceCtorEq, and_false, and_true, true_and, false_and, dec_eq_iff, hd, asn_eq_iff, hexV_eq_iff,
      UInt8.toNat_inj] at h
    case twoOctetAs => rw [h.1, h.2.1, h.2.2]; exact .same _
    case linkBandwidth g' b' t' =>
      obtain ⟨h1, h2, h3, h4⟩ := h
      have : t' = true := by revert h1; cases t' <;> decide
      have e : st = 4 := UInt8.toNat_inj.mp h2
      rw [this, e]
      exact .symm (.bandwidthAs2 (decText_inj h3) (h4 ▸ hex_text _))
    all_goals exact absurd h.1 (by decide)
  | ntTwoOctetAs st a l =>
    cases c' <;> simp only [extPieces, List.cons.injEq, reduceCtorEq, and_false, and_true, true_and, false_and, dec_eq_iff, hd, asn_eq_iff, hexV_eq_iff,
      UInt8.toNat_inj] at h
    case ntTwoOctetAs => rw [h.1, h.2.1, h.2.2]; exact .same _
    case linkBandwidth g' b' t' =>
      obtain ⟨h1, h2, h3, h4⟩ := h
      have : t' = false := by revert h1; cases t' <;> decide
      have e : st = 4 := UInt8.toNat_inj.mp h2
      rw [this, e]
      exact .symm (.bandwidthNtAs2 (decText_inj h3) (h4 ▸ hex_text _))
    all_goals exact absurd h.1 (by decide)
  | ipv4Addr st a l =>
    cases c' <;> simp only [extPieces, List.cons.injEq, reduceCtorEq, and_false, and_true, true_and, false_and, dec_eq_iff, hd, v4_eq_iff, hexV_eq_iff,
      UInt8.toNat_inj] at h
    case ipv4Addr => rw [h.1, h.2.1, h.2.2]; exact .same _
    case linkBandwidth t' => exact absurd h.1 (by cases t' <;> decide)
    all_goals exact absurd h.1 (by decide)
  | ntIpv4Addr st a l =>
    cases c' <;> simp only [extPieces, List.cons.injEq, reduceCtorEq, and_false, and_true, true_and, false_and, dec_eq_iff, hd, v4_eq_iff, hexV_eq_iff,
      UInt8.toNat_inj] at h
    case ntIpv4Addr => rw [h.1, h.2.1, h.2.2]; exact .same _
    case linkBandwidth t' => exact absurd h.1 (by cases t' <;> decide)
    all_goals exact absurd h.1 (by decide)
  | fourOctetAs st a l =>
    cases c' <;> simp only [extPieces, List.cons.injEq, reduceCtorEq, and_false, and_true, true_and, false_and, dec_eq_iff, hd, asn_eq_iff, hexV_eq_iff,
      UInt8.toNat_inj] at h
    case fourOctetAs => rw [h.1, h.2.1, h.2.2]; exact .same _
    case linkBandwidth t' => exact absurd h.1 (by cases t' <;> decide)
    all_goals exact absurd h.1 (by decide)
  | ntFourOctetAs st a l =>
    cases c' <;> simp only [extPieces, List.cons.injEq, reduceCtorEq, and_false, and_true, true_and, false_and, dec_eq_iff, hd, asn_eq_iff, hexV_eq_iff,
      UInt8.toNat_inj] at h
    case ntFourOctetAs => rw [h.1, h.2.1, h.2.2]; exact .same _
    case linkBandwidth t' => exact absurd h.1 (by cases t' <;> decide)
    all_goals exact absurd h.1 (by decide)
  | opaq st v =>
    cases c' <;> simp only [extPieces, List.cons.injEq, reduceCtorEq, and_false, and_true, true_and, false_and, dec_eq_iff, hd, asn_eq_iff, hexV_eq_iff,
      UInt8.toNat_inj] at h
    case opaq => rw [h.1, h.2]; exact .same _
    all_goals exact absurd h.1 (by decide)
  | ntOpaque st v =>
    cases c' <;> simp only [extPieces, List.cons.injEq, reduceCtorEq, and_false, and_true, true_and, false_and, dec_eq_iff, hd, asn_eq_iff, hexV_eq_iff,
      UInt8.toNat_inj] at h
    case ntOpaque => rw [h.1, h.2]; exact .same _
    all_goals exact absurd h.1 (by decide)

theorem hex_ne_dash {bs : Bytes} {t : List Char} (h : '-' ∈ t) : hexText bs ≠ t := fun e => not_mem_hex (by decide) bs (e ▸ h)

/-- of two communities of different kinds, not both extended, the pieces differ. -/
theorem plain_ext {env : ShowEnv} {c : Community} {x : ExtCommunity} : plainPieces env (.plain c) ≠ extPieces env x := by
  have hr : ∀ n, decText n ≠ lit "rate" := fun n => dec_ne_of (by decide)
  have ha : ∀ n, decText n ≠ lit "action" := fun n => dec_ne_of (by decide)
  have hm : ∀ n, decText n ≠ lit "mark" := fun n => dec_ne_of (by decide)
  have h1 : ∀ b, hexText b ≠ lit "no-export" := fun b => hex_ne_dash (by decide)
  have h2 : ∀ b, hexText b ≠ lit "no-advertise" := fun b => hex_ne_dash (by decide)
  have h3 : ∀ b, hexText b ≠ lit "no-export-sub-confed" := fun b => hex_ne_dash (by decide)
  intro h
  cases c <;> cases x <;> simp [plainPieces, extPieces, asnText, plainText, hr, ha, hm, (h1 _).symm, (h2 _).symm, (h3 _).symm] at h

theorem large_ext {env : ShowEnv} {c : LargeCommunity} {x : ExtCommunity} : plainPieces env (.large c) ≠ extPieces env x := by
  have hd : ∀ n, decText n ≠ lit "redirect" := fun n => dec_ne_of (by decide)
  have hh : ∀ v : Vector UInt8 6, decText c.local2.toNat ≠ hexText v.toList := fun v => dec_ne_hex (UInt32.toNat_lt _)
  intro h
  cases x <;> simp [plainPieces, extPieces, hd, hh] at h

theorem plain_large {env : ShowEnv} {c : Community} {x : LargeCommunity} : plainPieces env (.plain c) ≠ plainPieces env (.large x) := by
  intro h
  cases c <;> simp [plainPieces] at h

theorem pieces_same {env : ShowEnv} (ok : ShowOk env) {c c' : MetaCommunity} (hc : ∀ x, c ≠ .ipv6Extended x) (hc' : ∀ x, c' ≠ .ipv6Extended x)
    (h : plainPieces env c = plainPieces env c') : SameCommunity env c c' := by
  cases c with
  | ipv6Extended c => exact absurd rfl (hc c)
  | extended c =>
    cases c' with
    | ipv6Extended c => exact absurd rfl (hc' c)
    | extended c' => exact ext_same ok h
    | plain c' => exact absurd h.symm plain_ext
    | large c' => exact absurd h.symm large_ext
  | large c =>
    cases c' with
    | ipv6Extended c => exact absurd rfl (hc' c)
    | extended c' => exact absurd h large_ext
    | plain c' => exact absurd h.symm plain_large
    | large c' =>
      simp only [plainPieces, List.cons.injEq, and_true, dec_eq_iff, UInt32.toNat_inj] at h
      cases c; cases c'
      simp only at h
      rw [h.1, h.2.1, h.2.2]
      exact .same _
  | plain c =>
    cases c' with
    | ipv6Extended c => exact absurd rfl (hc' c)
    | extended c' => exact absurd h plain_ext
    | large c' => exact absurd h plain_large
    | plain c' =>
      have : c = c' := by
        have e1 : lit "no-export" ≠ lit "no-advertise" := by decide
        have e2 : lit "no-export" ≠ lit "no-export-sub-confed" := by decide
        have e3 : lit "no-advertise" ≠ lit "no-export-sub-confed" := by decide
        cases c <;> cases c' <;>
          simp [plainPieces, plainText, asn_eq_iff, dec_eq_iff, UInt16.toNat_inj, e1, e1.symm, e2, e2.symm, e3, e3.symm] at h ⊢
        exact h
      rw [this]
      exact .same _

theorem ip6_same {env : ShowEnv} (ok : ShowOk env) {c c' : Ipv6ExtCommunity} (h : ipv6ExtText env c = ipv6ExtText env c') :
    SameCommunity env (.ipv6Extended c) (.ipv6Extended c') := by
  obtain ⟨ty, st, a, l⟩ := c
  obtain ⟨ty', st', a', l'⟩ := c'
  have hd : ∀ n, ':' ∉ decText n := not_mem_dec (by decide)
  have h0 : decText ty.toU8.toNat ++ ':' :: (decText st.toNat ++ ':' :: (env.v6 a ++ ':' :: hexText l.toList)) =
      decText ty'.toU8.toNat ++ ':' :: (decText st'.toNat ++ ':' :: (env.v6 a' ++ ':' :: hexText l'.toList)) := by
    simpa [ipv6ExtText, colons, joinSep] using h
  obtain ⟨e1, h1⟩ := sep_split (hd _) (hd _) h0
  obtain ⟨e2, h2⟩ := sep_split (hd _) (hd _) h1
  obtain ⟨e3, h3⟩ := List.append_inj' h2 (by simp [hexText_length])
  rw [List.cons.injEq, hexV_eq_iff] at h3
  cases ok.v6_inj _ _ e3
  cases UInt8.toNat_inj.mp (decText_inj e2)
  rw [h3.2]
  exact .ip6 (UInt8.toNat_inj.mp (decText_inj e1))

theorem community_same {env : ShowEnv} (ok : ShowOk env) {c c' : MetaCommunity} (h : communityText env c = communityText env c') :
    SameCommunity env c c' := by
  have key : ∀ c (x : Ipv6ExtCommunity), (∀ y, c ≠ .ipv6Extended y) → communityText env c ≠ communityText env (.ipv6Extended x) := by
    intro c x hc e
    have h1 := fields_count (community_fields ok c hc)
    have h2 := pieces_length env c
    have h3 := ip6_count ok x
    rw [e] at h1
    omega
  by_cases hc : ∃ x, c = .ipv6Extended x
  · obtain ⟨x, rfl⟩ := hc
    by_cases hc' : ∃ x, c' = .ipv6Extended x
    · obtain ⟨x', rfl⟩ := hc'
      exact ip6_same ok h
    · exact absurd h.symm (key _ _ fun y e => hc' ⟨y, e⟩)
  · by_cases hc' : ∃ x, c' = .ipv6Extended x
    · obtain ⟨x', rfl⟩ := hc'
      exact absurd h (key _ _ fun y e => hc ⟨y, e⟩)
    · have hc := fun y e => hc ⟨y, e⟩
      have hc' := fun y e => hc' ⟨y, e⟩
      have h1 := community_fields ok c hc
      rw [h] at h1
      exact pieces_same ok hc hc' (fields_unique h1 (community_fields ok c' hc'))

theorem same_text {env : ShowEnv} {c c' : MetaCommunity} (h : SameCommunity env c c') : communityText env c = communityText env c' := by
  induction h with
  | same c => rfl
  | rate e => simp [communityText, extText, e]
  | redirect => rfl
  | @bandwidth g b b' t e => simp [communityText, extText, e, ExtCommunity.type]
  | @bandwidthAs2 g b l a e1 e2 =>
    have := hex_eq e2
    simp [communityText, extText, colons, joinSep, this, e1, asnText, ExtCommunity.type, ExtType.toU8]
  | @bandwidthNtAs2 g b l a e1 e2 =>
    have := hex_eq e2
    simp [communityText, extText, colons, joinSep, this, e1, asnText, ExtCommunity.type, ExtType.toU8]
  | ip6 e => simp [communityText, ipv6ExtText, e]
  | symm _ ih => exact ih.symm

/-! ### lists of communities -/

/-- the words of a community. -/
def commWords (env : ShowEnv) (c : MetaCommunity) : List (List Char) :=
  match c with
  | .extended (.trafficRate a r) => [lit "rate:" ++ env.f32 r, lit "bytes/sec", lit "(AS", decText a.toNat ++ lit ")"]
  | .extended (.trafficAction a t s) =>
    [lit "action:" ++ joinSep [','] ((if t then [lit "terminal"] else []) ++ (if s then [lit "sample"] else [])), lit "(AS", decText a.toNat ++ lit ")"]
  | .extended (.trafficMarking a d) => [lit "mark:DSCP" ++ decText d.toNat, lit "(AS", decText a.toNat ++ lit ")"]
  | c => [communityText env c]

theorem words_join (env : ShowEnv) (c : MetaCommunity) : communityText env c = joinSep [' '] (commWords env c) := by
  cases c with
  | extended c =>
    cases c <;> simp [communityText, extText, commWords, joinSep, lit]
  | _ => rfl

theorem words_ne (env : ShowEnv) (c : MetaCommunity) : commWords env c ≠ [] := by
  cases c with
  | extended c => cases c <;> simp [commWords]
  | _ => simp [commWords]

/-- how many words a community has, from the first of them. -/
def wordKind : List Char → Nat
  | 'r' :: 'a' :: _ => 4
  | 'a' :: _ => 3
  | 'm' :: _ => 3
  | _ => 1

theorem wordKind_one {c : Char} {r : List Char} (h1 : c ≠ 'r') (h2 : c ≠ 'a') (h3 : c ≠ 'm') : wordKind (c :: r) = 1 := by
  unfold wordKind
  split <;> simp_all

theorem wordKind_dec (n : Nat) (r : List Char) : wordKind (decText n ++ r) = 1 := by
  cases e : decText n with
  | nil => exact absurd e (decText_ne_nil n)
  | cons c t =>
    have hc := decText_digit (n := n) (c := c) (by rw [e]; exact List.mem_cons_self ..)
    refine wordKind_one ?_ ?_ ?_ <;> · intro e; rw [e] at hc; revert hc; decide

theorem hex_kind : ∀ n < 16, hexUpper n ≠ 'r' ∧ hexUpper n ≠ 'a' ∧ hexUpper n ≠ 'm' := by decide

theorem wordKind_hex (bs : Bytes) : wordKind (hexText bs) = 1 := by
  cases bs with
  | nil => rfl
  | cons b bs =>
    have hb := UInt8.toNat_lt b
    have := hex_kind (b.toNat / 16) (by omega)
    exact wordKind_one this.1 this.2.1 this.2.2

theorem words_kind (env : ShowEnv) (c : MetaCommunity) : ∃ w r, commWords env c = w :: r ∧ (commWords env c).length = wordKind w := by
  have hd := wordKind_dec
  cases c with
  | plain c =>
    cases c with
    | custom a v => exact ⟨_, _, rfl, by simp [commWords, communityText, plainText, asnText, hd]⟩
    | _ => exact ⟨_, _, rfl, rfl⟩
  | large c => exact ⟨_, _, rfl, by simp [commWords, communityText, largeText, hd]⟩
  | ipv6Extended c => exact ⟨_, _, rfl, by simp [commWords, communityText, ipv6ExtText, colons, joinSep, hd]⟩
  | extended c =>
    cases c with
    | trafficRate a r => exact ⟨_, _, rfl, rfl⟩
    | trafficAction a t s => exact ⟨_, _, rfl, rfl⟩
    | trafficMarking a d => exact ⟨_, _, rfl, rfl⟩
    | redirect st a l => exact ⟨_, _, rfl, rfl⟩
    | raw b => exact ⟨_, _, rfl, by simp [commWords, communityText, extText, wordKind_hex]⟩
    | _ => exact ⟨_, _, rfl, by simp [commWords, communityText, extText, colons, joinSep, hd]⟩

theorem words_no_blank {env : ShowEnv} (ok : ShowOk env) (c : MetaCommunity) : ∀ w ∈ commWords env c, ' ' ∉ w := by
  have hd : ∀ n, ' ' ∉ decText n := not_mem_dec (by decide)
  have ha : ∀ a, ' ' ∉ asnText a := fun a => hd _
  have hh : ∀ b, ' ' ∉ hexText b := not_mem_hex (by decide)
  have hv : ∀ a, ' ' ∉ v4Text a := by
    intro a m
    rcases v4_chars m with m | m
    · revert m; decide
    · revert m; decide
  have h6 : ∀ a, ' ' ∉ env.v6 a := by
    intro a m
    have := ok.v6_chars a _ m
    revert this; decide
  have hf : ∀ x, ' ' ∉ env.f32 x := f32_no ok (by decide) (by decide) (by decide)
  cases c with
  | plain c => cases c <;> simp [commWords, communityText, plainText, lit, ha, hd]
  | large c => simp [commWords, communityText, largeText, hd]
  | ipv6Extended c => simp [commWords, communityText, ipv6ExtText, colons, joinSep, hd, h6, hh]
  | extended c =>
    cases c with
    | trafficAction a t s => cases t <;> cases s <;> simp [commWords, lit, joinSep, hd]
    | _ => simp [commWords, communityText, extText, colons, joinSep, lit, hd, ha, hh, hv, hf]

/-- the text of a list of communities. -/
theorem commList_words (env : ShowEnv) (cs : List MetaCommunity) :
    joinSep [' '] (cs.map (communityText env)) = joinSep [' '] (cs.flatMap (commWords env)) := by
  rw [← join_flatMap (fun c _ => words_ne env c)]
  congr 1
  exact List.map_congr_left fun c _ => words_join env c

theorem flat_same {env : ShowEnv} (ok : ShowOk env) : ∀ {cs cs' : List MetaCommunity}, cs.flatMap (commWords env) = cs'.flatMap (commWords env) →
    Pairwise2 (SameCommunity env) cs cs'
  | [], [], _ => .nil
  | [], c :: cs, h => by
    simp only [List.flatMap_nil, List.flatMap_cons, List.nil_eq, List.append_eq_nil_iff] at h
    exact absurd h.1 (words_ne env c)
  | c :: cs, [], h => by
    simp only [List.flatMap_nil, List.flatMap_cons, List.append_eq_nil_iff] at h
    exact absurd h.1 (words_ne env c)
  | c :: cs, c' :: cs', h => by
    simp only [List.flatMap_cons] at h
    obtain ⟨w, r, e1, e2⟩ := words_kind env c
    obtain ⟨w', r', e1', e2'⟩ := words_kind env c'
    have hw : w = w' := by
      rw [e1, e1', List.cons_append, List.cons_append] at h
      injection h
    obtain ⟨h1, h2⟩ := List.append_inj h (by rw [e2, e2', hw])
    exact .cons (community_same ok (by rw [words_join, words_join, h1])) (flat_same ok h2)

theorem words_head_ne (env : ShowEnv) (c : MetaCommunity) : ∀ w r, commWords env c = w :: r → w ≠ [] := by
  intro w r e hw
  rw [hw] at e
  have hd := decText_ne_nil
  have hx : ∀ {n} (v : Vector UInt8 (n + 1)), hexText v.toList ≠ [] := by
    intro n v e
    have := congrArg List.length e
    rw [hexText_length] at this
    simp at this
  cases c with
  | plain c =>
    cases c with
    | custom a v => simp [commWords, communityText, plainText] at e
    | _ => simp [commWords, communityText, plainText, lit] at e
  | large c => simp [commWords, communityText, largeText] at e
  | ipv6Extended c => simp [commWords, communityText, ipv6ExtText, colons, joinSep] at e
  | extended c =>
    cases c <;> simp [commWords, communityText, extText, colons, joinSep, lit, hx] at e

theorem commList_same {env : ShowEnv} (ok : ShowOk env) {cs cs' : List MetaCommunity}
    (h : joinSep [' '] (cs.map (communityText env)) = joinSep [' '] (cs'.map (communityText env))) : Pairwise2 (SameCommunity env) cs cs' := by
  rw [commList_words, commList_words] at h
  have key : ∀ (c : MetaCommunity) cs, joinSep [' '] ((c :: cs).flatMap (commWords env)) ≠ [] := by
    intro c cs e
    obtain ⟨w, r, e1, _⟩ := words_kind env c
    have := words_head_ne env c w r e1
    rw [List.flatMap_cons, e1, List.cons_append] at e
    cases e2 : r ++ cs.flatMap (commWords env) with
    | nil => rw [e2] at e; exact this e
    | cons y ys => rw [e2] at e; simp [joinSep] at e
  cases cs with
  | nil =>
    cases cs' with
    | nil => exact .nil
    | cons c cs' => exact absurd h.symm (key c cs')
  | cons c cs =>
    cases cs' with
    | nil => exact absurd h (key c cs)
    | cons c' cs' =>
      refine flat_same ok (join_inj (sep := ' ') ?_ ?_ ?_ ?_ h)
      · simp [words_ne]
      · simp [words_ne]
      · intro x hx; obtain ⟨c, _, hx⟩ := List.mem_flatMap.mp hx; exact words_no_blank ok c x hx
      · intro x hx; obtain ⟨c, _, hx⟩ := List.mem_flatMap.mp hx; exact words_no_blank ok c x hx

theorem same_commList {env : ShowEnv} {cs cs' : List MetaCommunity} (h : Pairwise2 (SameCommunity env) cs cs') :
    cs.map (communityText env) = cs'.map (communityText env) := by
  induction h with
  | nil => rfl
  | cons h _ ih => rw [List.map_cons, List.map_cons, same_text h, ih]

/-- characters that occur in no community. -/
theorem community_not_mem {env : ShowEnv} (ok : ShowOk env) {ch : Char} (h : ch = '|' ∨ ch = '\n') (c : MetaCommunity) : ch ∉ communityText env c := by
  have h0 : ch.isAlphanum = false := by rcases h with h | h <;> rw [h] <;> decide
  have hg : ch.isDigit = false := by rcases h with h | h <;> rw [h] <;> decide
  have hd : ∀ n, ch ∉ decText n := not_mem_dec hg
  have ha : ∀ a, ch ∉ asnText a := fun a => hd _
  have hh : ∀ b, ch ∉ hexText b := not_mem_hex h0
  have hv : ∀ a, ch ∉ v4Text a := by
    intro a m
    rcases v4_chars m with m | m
    · rw [hg] at m; cases m
    · rcases h with h | h <;> rw [h] at m <;> revert m <;> decide
  have h6 : ∀ a, ch ∉ env.v6 a := by
    intro a m
    have := ok.v6_chars a _ m
    rcases h with h | h <;> rw [h] at this <;> revert this <;> decide
  have hf : ∀ x, ch ∉ env.f32 x := f32_no ok h0 (by rcases h with h | h <;> rw [h] <;> decide) (by rcases h with h | h <;> rw [h] <;> decide)
  have hc : ch ≠ ':' ∧ ch ≠ '(' ∧ ch ≠ ')' := by rcases h with h | h <;> rw [h] <;> decide
  cases c with
  | plain c => cases c <;> rcases h with rfl | rfl <;> simp [communityText, plainText, lit, ha, hd]
  | large c => simp [communityText, largeText, hd, hc]
  | ipv6Extended c => simp [communityText, ipv6ExtText, colons, joinSep, hd, h6, hh, hc]
  | extended c =>
    cases c with
    | trafficAction a t s => rcases h with rfl | rfl <;> cases t <;> cases s <;> simp [communityText, extText, lit, joinSep, hd]
    | _ => rcases h with rfl | rfl <;> simp [communityText, extText, colons, joinSep, lit, hd, ha, hh, hv, hf]

end Verif
