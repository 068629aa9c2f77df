import Verif.Lemmas.Render
import Verif.Lemmas.MrtMsgs
import Verif.Props.Display
/-
C86: the layered text of a record.
-/
namespace Verif.Props

open Spec

/-! ### every record -/

theorem attrs_nl {sh : ShowEnv} {d : DebugEnv} (ok : ShowOk sh) (hd : DebugOk d) (a : Attributes) (n : Nat) :
    ∀ l ∈ attributesLines sh d a n, '\n' ∉ l := by
  rw [attributes_groups, flat_append, ← section_flat, ← section_flat]
  intro l hl
  rcases List.mem_append.1 hl with hl | hl
  · refine nl_section (by decide) ?_ l hl
    intro x hx
    obtain ⟨v, _, rfl⟩ := List.mem_map.1 hx
    exact nl_attr ok hd v
  · refine nl_section (by decide) ?_ l hl
    intro x hx
    obtain ⟨v, _, rfl⟩ := List.mem_map.1 hx
    exact hd.warning v

theorem end_nl {sh : ShowEnv} (ok : ShowOk sh) {name : String} (h : name.toList.contains '\n' = false) (ip : Ip) (asn : Asn) :
    '\n' ∉ endLine sh name ip asn :=
  nl_append (nl_append (nl_append (nl_lit h) (nl_ip ok ip)) (by decide)) (nl_asn asn)

theorem update_nl {sh : ShowEnv} {d : DebugEnv} (ok : ShowOk sh) (hd : DebugOk d) (u : Update) : ∀ l ∈ updateLines sh d u, '\n' ∉ l := by
  intro l hl
  simp only [updateLines, List.mem_append] at hl
  rcases hl with (((((hl | hl) | hl) | hl) | hl) | hl) | hl
  · refine nl_section (by decide) (fun x hx => ?_) l hl
    obtain ⟨v, _, rfl⟩ := List.mem_map.1 hx
    exact nl_net ok v.prefix_
  · refine nl_section (by decide) (fun x hx => ?_) l hl
    obtain ⟨v, _, rfl⟩ := List.mem_map.1 hx
    exact nl_net ok v.prefix_
  · refine nl_section (by decide) (fun x hx => ?_) l hl
    obtain ⟨v, _, rfl⟩ := List.mem_map.1 hx
    exact nl_labeled ok v
  · split at hl
    · rw [List.mem_singleton.1 hl]
      exact nl_indent (nl_append (nl_append (by decide) (nl_dec _)) (by decide))
    · cases hl
  · split at hl
    · rw [List.mem_singleton.1 hl]
      exact nl_indent (nl_append (nl_append (by decide) (nl_dec _)) (by decide))
    · cases hl
  · refine nl_section (by decide) (fun x hx => ?_) l hl
    obtain ⟨v, _, rfl⟩ := List.mem_map.1 hx
    exact nl_attr ok hd v.value
  · refine nl_section (by decide) (fun x hx => ?_) l hl
    obtain ⟨v, _, rfl⟩ := List.mem_map.1 hx
    exact hd.warning v

theorem message_nl {sh : ShowEnv} {d : DebugEnv} (ok : ShowOk sh) (hd : DebugOk d) (m : BgpMessage) : ∀ l ∈ messageLines sh d m, '\n' ∉ l := by
  intro l hl
  cases m with
  | «open» o =>
    simp only [messageLines, List.mem_append, List.mem_cons, List.not_mem_nil, or_false] at hl
    rcases hl with (rfl | rfl | rfl | rfl | rfl) | hl
    · decide
    · exact nl_indent (nl_append (by decide) (nl_dec _))
    · exact nl_indent (nl_append (by decide) (nl_asn _))
    · exact nl_indent (nl_append (nl_append (by decide) (nl_dec _)) (by decide))
    · exact nl_indent (nl_append (by decide) (nl_v4 _))
    · split at hl
      · cases hl
      · rcases List.mem_cons.1 hl with rfl | hl
        · decide
        · obtain ⟨c, _, rfl⟩ := List.mem_map.1 hl
          exact nl_indent (nl_cap hd c)
  | update u =>
    rcases List.mem_cons.1 hl with rfl | hl
    · decide
    · exact update_nl ok hd u l hl
  | notification n =>
    simp only [messageLines, List.mem_cons, List.not_mem_nil, or_false] at hl
    rcases hl with rfl | rfl
    · decide
    · exact nl_indent (nl_append (nl_append (nl_append (nl_append (by decide) (hd.error _)) (by decide)) (nl_dec _)) (by decide))
  | keepAlive =>
    rw [List.mem_singleton.1 hl]
    decide
  | routeRefresh r =>
    simp only [messageLines, List.mem_cons, List.not_mem_nil, or_false] at hl
    rcases hl with rfl | rfl
    · decide
    · exact nl_indent (nl_append (nl_append (nl_append (nl_append (nl_append (by decide) (nl_dec _)) (by decide)) (nl_dec _)) (by decide)) (nl_dec _))

theorem state_nl {d : DebugEnv} (hd : DebugOk d) (a b : BgpState) : ∀ l ∈ stateLines d a b, '\n' ∉ l := by
  intro l hl
  simp only [stateLines, List.mem_cons, List.not_mem_nil, or_false] at hl
  rcases hl with rfl | rfl | rfl
  · decide
  · exact nl_indent (nl_append (by decide) (hd.state _))
  · exact nl_indent (nl_append (by decide) (hd.state _))

theorem dump_nl {sh : ShowEnv} {d : DebugEnv} (ok : ShowOk sh) (hd : DebugOk d) (m : TableDump) : ∀ l ∈ tableDumpLines sh d m, '\n' ∉ l := by
  intro l hl
  simp only [tableDumpLines, List.mem_append, List.mem_cons, List.not_mem_nil, or_false] at hl
  rcases hl with (rfl | rfl | rfl | rfl) | hl
  · decide
  · exact nl_indent (nl_append (by decide) (nl_net ok _))
  · exact nl_indent (end_nl ok (by decide) _ _)
  · exact nl_indent (nl_append (by decide) (nl_dec _))
  · exact attrs_nl ok hd _ _ l hl

theorem entry_nl {sh : ShowEnv} {d : DebugEnv} (ok : ShowOk sh) (hd : DebugOk d) (e : RibEntry) : ∀ l ∈ ribEntryLines sh d e, '\n' ∉ l := by
  intro l hl
  simp only [ribEntryLines, List.mem_append, List.mem_cons, List.not_mem_nil, or_false] at hl
  rcases hl with (rfl | rfl | rfl) | hl
  · decide
  · exact nl_indent (nl_append (by decide) (nl_dec _))
  · exact nl_indent (nl_append (by decide) (nl_dec _))
  · exact attrs_nl ok hd _ _ l hl

theorem ends_nl {sh : ShowEnv} (ok : ShowOk sh) {pi li : Ip} {pa la : Asn} {rest : List (List Char)} (h : ∀ l ∈ rest, '\n' ∉ l) :
    ∀ l ∈ [endLine sh "FROM: " pi pa, endLine sh "TO: " li la] ++ rest, '\n' ∉ l := by
  intro l hl
  simp only [List.mem_append, List.mem_cons, List.not_mem_nil, or_false] at hl
  rcases hl with (rfl | rfl) | hl
  · exact end_nl ok (by decide) _ _
  · exact end_nl ok (by decide) _ _
  · exact h l hl

theorem subtype_nl {d : DebugEnv} (hd : DebugOk d) (r : MrtRecord) : '\n' ∉ subtypeName d r := by
  unfold subtypeName
  split
  · exact hd.mpType _
  · exact hd.mpType _
  · exact nl_dec _

theorem record_nl {sh : ShowEnv} {d : DebugEnv} (ok : ShowOk sh) (hd : DebugOk d) (r : MrtRecord) : ∀ l ∈ recordLines sh d r, '\n' ∉ l := by
  intro l hl
  unfold recordLines at hl
  rcases List.mem_append.1 hl with hl | hl
  · simp only [List.mem_cons, List.not_mem_nil, or_false] at hl
    rcases hl with rfl | rfl
    · refine nl_append (nl_append (by decide) (nl_dec _)) ?_
      split
      · exact nl_append (by decide) (nl_append (fun m => absurd (List.mem_replicate.1 m).2 (by decide)) (nl_dec _))
      · exact List.not_mem_nil
    · exact nl_append (nl_append (nl_append (by decide) (hd.entryType _)) (by decide)) (subtype_nl hd r)
  · split at hl
    · rename_i m _
      cases m with
      | stateChange m => exact ends_nl ok (state_nl hd _ _) l hl
      | message m => exact ends_nl ok (message_nl ok hd _) l hl
    · rename_i m _
      cases m with
      | message m => exact ends_nl ok (message_nl ok hd _) l hl
      | stateChange m =>
        rcases List.mem_cons.1 hl with rfl | hl
        · exact end_nl ok (by decide) _ _
        · exact state_nl hd _ _ l hl
    · exact dump_nl ok hd _ l hl
    · rcases List.mem_cons.1 hl with rfl | hl
      · exact nl_append (nl_append (by decide) (nl_dec _)) (by decide)
      · obtain ⟨m, _, hm⟩ := List.mem_flatMap.1 hl
        exact dump_nl ok hd m l hm
    · rename_i m _
      cases m with
      | peerIndexTable t =>
        rcases List.mem_cons.1 hl with rfl | hl
        · exact nl_append (nl_append (by decide) (nl_dec _)) (by decide)
        · obtain ⟨p, _, rfl⟩ := List.mem_map.1 hl
          exact nl_indent (nl_append (nl_append (nl_append (nl_append (nl_append (by decide) (nl_dec _)) (by decide)) (nl_ip ok _)) (by decide)) (nl_asn _))
      | ribAfi t =>
        rcases List.mem_cons.1 hl with rfl | hl
        · exact nl_append (nl_append (nl_append (nl_append (nl_append (nl_append (by decide) (hd.v2Type _)) (by decide)) (nl_net ok _)) (by decide)) (nl_dec _)) (by decide)
        · obtain ⟨e, _, he⟩ := List.mem_flatMap.1 hl
          exact entry_nl ok hd e l he
      | ribGeneric t =>
        rcases List.mem_cons.1 hl with rfl | hl
        · exact nl_append (nl_append (nl_append (nl_append (nl_append (nl_append (nl_append (nl_append (by decide) (hd.afi _)) (by decide)) (hd.safi _)) (by decide)) (nl_net ok _))
            (by decide)) (nl_dec _)) (by decide)
        · obtain ⟨e, _, he⟩ := List.mem_flatMap.1 hl
          exact entry_nl ok hd e l he
      | geo t =>
        rw [List.mem_singleton.1 hl]
        exact nl_append (nl_append (by decide) (nl_dec _)) (by decide)

theorem time_text (h : Header) :
    TimeText h (lit "TIME: " ++ decText h.time.toNat ++ (match h.micro with | some u => ['.'] ++ pad6 u.toNat | none => [])) := by
  cases e : h.micro with
  | none => simpa [lit] using TimeText.whole e (numeral_dec _)
  | some u =>
    have := TimeText.micro (k := 6 - (decText u.toNat).length) e (numeral_dec h.time.toNat) (numeral_dec u.toNat) (by omega)
    simpa [lit, pad6] using this

theorem type_text (d : DebugEnv) (r : MrtRecord) : TypeText d r (lit "TYPE: " ++ d.entryType r.header.type ++ ['/'] ++ subtypeName d r) := by
  unfold subtypeName
  split
  · rename_i m e
    simpa [lit] using TypeText.message (d := d) e
  · rename_i m e
    simpa [lit] using TypeText.state (d := d) e
  · rename_i h1 h2
    have := TypeText.other (d := d) (r := r) (by
      intro m e
      cases m with
      | message m => exact h1 m e
      | stateChange m => exact h2 m e) (numeral_dec _)
    simpa [lit] using this

/-- The text of any record consists of lines: the time, the type, and then what the record says: for a BGP message its two ends, the
kind of the message and all of its withdrawn and announced prefixes, attributes and warnings in order; for a table all of its entries
in order; for a peer index table all of its peers in the order of their numbers. -/
theorem c86_reads {sh : ShowEnv} {d : DebugEnv} (ok : ShowOk sh) (hd : DebugOk d) (r : MrtRecord) :
    ∃ time type body, LinesOf (recordText sh d r) (time :: type :: body) ∧ TimeText r.header time ∧ TypeText d r type ∧ BodyText sh d r.message body := by
  refine ⟨_, _, _, ⟨rfl, record_nl ok hd r⟩, time_text r.header, type_text d r, ?_⟩
  obtain ⟨h, m⟩ := r
  cases m with
  | bgp4mp m =>
    cases m with
    | message m => exact .bgp4mp (end_text ..) (end_text ..) (message_text sh d _)
    | stateChange m => exact .bgp4mpState (end_text ..) (end_text ..)
  | legacyBgp m =>
    cases m with
    | message m => exact .legacy (end_text ..) (end_text ..) (message_text sh d _)
    | stateChange m => exact .legacyState (end_text ..)
  | tableDump m => exact .dump (dump_text sh d m)
  | tableDumpBatch ms =>
    refine .batch (numeral_dec _) ?_
    rw [dumps_blocks]
    exact pairwise2_map _ _ (dump_text sh d) _
  | tableDumpV2 m =>
    cases m with
    | peerIndexTable t => exact .peers (numeral_dec _) (List.mergeSort_perm _ _) (sortPeers_sorted _) (pairwise2_map _ _ (peer_text sh) _)
    | ribAfi t =>
      refine .rib (net_shows sh _) (numeral_dec _) ?_
      rw [entries_blocks]
      exact pairwise2_map _ _ (entry_text sh d) _
    | ribGeneric t =>
      have := BodyText.generic (d := d) (ls := t.entries.flatMap (ribEntryLines sh d)) (net_shows sh t.nlri.prefix_) (numeral_dec t.entries.length) (by
        rw [entries_blocks]
        exact pairwise2_map _ _ (entry_text sh d) _)
      simpa [tableDumpV2Lines, lit, NetworkPrefix.text] using this
    | geo t => exact .geo (numeral_dec _)

/-- With the octets: the same lines and one more. -/
theorem c86_hex {sh : ShowEnv} {d : DebugEnv} (ok : ShowOk sh) (hd : DebugOk d) (r : MrtRecord) (hex : List Char) (hh : '\n' ∉ hex) :
    ∃ ls, LinesOf (recordText sh d r) ls ∧ LinesOf (recordTextHex sh d r hex) (ls ++ ["  HEX: ".toList ++ hex]) := by
  refine ⟨_, ⟨rfl, record_nl ok hd r⟩, ?_, ?_⟩
  · simp [recordTextHex, recordText, indent, lit, List.replicate]
  · intro l hl
    rcases List.mem_append.1 hl with hl | hl
    · exact record_nl ok hd r l hl
    · rw [List.mem_singleton.1 hl]
      exact nl_append (by decide) hh

/-! ### what a text tells -/

theorem pad_value (k : Nat) (l : List Char) : Nat.ofDigitChars 10 (List.replicate k '0' ++ l) 0 = Nat.ofDigitChars 10 l 0 := by
  induction k with
  | zero => rfl
  | succ k ih =>
    rw [List.replicate_succ, List.cons_append, Nat.ofDigitChars_cons]
    exact ih

theorem pad6_inj {n m : Nat} (h : pad6 n = pad6 m) : n = m := by
  have := congrArg (Nat.ofDigitChars 10 · 0) h
  simpa only [pad6, pad_value, decText, Nat.ofDigitChars_ten_toDigits] using this

theorem timeLine_inj {h h' : Header}
    (e : lit "TIME: " ++ decText h.time.toNat ++ (match h.micro with | some u => ['.'] ++ pad6 u.toNat | none => []) =
      lit "TIME: " ++ decText h'.time.toNat ++ (match h'.micro with | some u => ['.'] ++ pad6 u.toNat | none => [])) :
    h.time = h'.time ∧ h.micro = h'.micro := by
  rw [List.append_assoc, List.append_assoc] at e
  have e := List.append_cancel_left e
  have nd (n : Nat) : '.' ∉ decText n := not_mem_dec (by decide) n
  cases h1 : h.micro with
  | none =>
    cases h2 : h'.micro with
    | none =>
      rw [h1, h2] at e
      simp only [List.append_nil] at e
      exact ⟨UInt32.toNat_inj.1 (decText_inj e), rfl⟩
    | some v =>
      rw [h1, h2] at e
      simp only [List.append_nil] at e
      exact absurd (e ▸ by simp : '.' ∈ decText h.time.toNat) (nd _)
  | some u =>
    cases h2 : h'.micro with
    | none =>
      rw [h1, h2] at e
      simp only [List.append_nil] at e
      exact absurd (e ▸ by simp : '.' ∈ decText h'.time.toNat) (nd _)
    | some v =>
      rw [h1, h2] at e
      simp only [List.cons_append, List.nil_append] at e
      obtain ⟨a, b⟩ := sep_split (nd _) (nd _) e
      exact ⟨UInt32.toNat_inj.1 (decText_inj a), by rw [UInt32.toNat_inj.1 (pad6_inj b)]⟩

theorem endLine_inj {sh : ShowEnv} (ok : ShowOk sh) {name : String} {ip ip' : Ip} {a a' : Asn} (e : endLine sh name ip a = endLine sh name ip' a') :
    ip = ip' ∧ a = a' := by
  simp only [endLine, List.append_assoc] at e
  have e := List.append_cancel_left e
  have nb (x : Ip) : ' ' ∉ x.text sh := not_mem_ip ok (by decide) (by decide) (by decide) x
  have e' : ip.text sh ++ ' ' :: ('A' :: 'S' :: asnText a) = ip'.text sh ++ ' ' :: ('A' :: 'S' :: asnText a') := e
  obtain ⟨h1, h2⟩ := sep_split (nb _) (nb _) e'
  simp only [List.cons.injEq, true_and] at h2
  exact ⟨ipText_inj ok h1, (asn_eq_iff _ _).1 h2⟩

theorem under_inj {title : String} {n : Nat} {ls xs ys : List (List Char)} (h1 : Under title n ls xs) (h2 : Under title n ls ys) : xs = ys := by
  unfold Under at h1 h2
  rw [h1] at h2
  by_cases hx : xs = [] <;> by_cases hy : ys = []
  · rw [hx, hy]
  · simp [hx, hy] at h2
  · simp [hx, hy] at h2
  · rw [if_neg hx, if_neg hy, List.cons.injEq] at h2
    exact List.map_inj_right (fun a b h => List.append_cancel_left h) |>.1 h2.1

theorem listed_eq {shows : α → List Char → Prop} {sep : Char} {f : α → List Char} (hf : ∀ x t, shows x t → t = f x) {xs : List α} {t : List Char}
    (h : Listed shows sep xs t) : t = joinSep [sep] (xs.map f) := by
  induction h with
  | nil => rfl
  | last h => exact hf _ _ h
  | more h _ ih =>
    rw [hf _ _ h, ih]
    simp [joinSep]

theorem showsNet_eq {sh : ShowEnv} {n : IpNet} {t : List Char} (h : ShowsNet sh n t) : t = n.text sh := by
  obtain ⟨a, l, h1, h2, rfl⟩ := h
  have : a = n.addr.text sh := by
    generalize n.addr = x at h1
    cases h1 with
    | v4 h => exact listed_eq (f := fun b : UInt8 => decText b.toNat) (fun _ _ => numeral_eq) (show Listed _ _ _ _ from h)
    | v6 => rfl
  rw [this, numeral_eq h2]
  simp [IpNet.text]

theorem nets_inj {sh : ShowEnv} (ok : ShowOk sh) {ps qs : List NetworkPrefix} {ts : List (List Char)}
    (h1 : Pairwise2 (fun (p : NetworkPrefix) t => ShowsNet sh p.prefix_ t) ps ts) (h2 : Pairwise2 (fun (p : NetworkPrefix) t => ShowsNet sh p.prefix_ t) qs ts) :
    ps.map (·.prefix_) = qs.map (·.prefix_) := by
  induction h1 generalizing qs with
  | nil => cases h2; rfl
  | cons h _ ih =>
    cases h2 with
    | cons g gs =>
      rw [List.map_cons, List.map_cons, ih gs, netText_inj ok ((showsNet_eq h).symm.trans (showsNet_eq g))]

theorem carries_lines {sh : ShowEnv} {d : DebugEnv} {r : MrtRecord} {pi li : Ip} {pa la : Asn} {u : Update} (h : CarriesMessage r pi pa li la (.update u)) :
    ∃ ty, recordLines sh d r = (lit "TIME: " ++ decText r.header.time.toNat ++ (match r.header.micro with | some u => ['.'] ++ pad6 u.toNat | none => [])) ::
      ty :: endLine sh "FROM: " pi pa :: endLine sh "TO: " li la :: lit "UPDATE:" :: updateLines sh d u := by
  cases h <;> exact ⟨_, rfl⟩

/-- Two records that carry updates and read the same agree in the time, in both ends, and in the lists of withdrawn and announced prefixes
(without their path identifiers, see `c86_violation_path_id`). -/
theorem c86_same_partial {sh : ShowEnv} {d : DebugEnv} (ok : ShowOk sh) (hd : DebugOk d) {r r' : MrtRecord} {pi pi' li li' : Ip} {pa pa' la la' : Asn}
    {u u' : Update} (h : CarriesMessage r pi pa li la (.update u)) (h' : CarriesMessage r' pi' pa' li' la' (.update u'))
    (e : recordText sh d r = recordText sh d r') :
    r.header.time = r'.header.time ∧ r.header.micro = r'.header.micro ∧ pi = pi' ∧ pa = pa' ∧ li = li' ∧ la = la' ∧
      (withdrawnOf u).map (·.prefix_) = (withdrawnOf u').map (·.prefix_) ∧ (announcedOf u).map (·.prefix_) = (announcedOf u').map (·.prefix_) ∧
      u.attributes.inner.length = u'.attributes.inner.length := by
  have hl : recordLines sh d r = recordLines sh d r' := linesOf_unique ⟨rfl, record_nl ok hd r⟩ ⟨e, record_nl ok hd r'⟩
  obtain ⟨ty, e1⟩ := carries_lines (sh := sh) (d := d) h
  obtain ⟨ty', e2⟩ := carries_lines (sh := sh) (d := d) h'
  rw [e1, e2] at hl
  simp only [List.cons.injEq, true_and] at hl
  obtain ⟨t, _, f, g, hu⟩ := hl
  have t1 := update_text sh d u
  have t2 := update_text sh d u'
  rw [← hu] at t2
  obtain ⟨ws, w1, w2⟩ := t1.withdrawn
  obtain ⟨ws', w1', w2'⟩ := t2.withdrawn
  obtain ⟨xs, x1, x2⟩ := t1.announced
  obtain ⟨xs', x1', x2'⟩ := t2.announced
  obtain ⟨ys, y1, y2⟩ := t1.attributes
  obtain ⟨ys', y1', y2'⟩ := t2.attributes
  cases under_inj w2 w2'
  cases under_inj x2 x2'
  cases under_inj y2 y2'
  refine ⟨(timeLine_inj t).1, (timeLine_inj t).2, (endLine_inj ok f).1, (endLine_inj ok f).2, (endLine_inj ok g).1, (endLine_inj ok g).2,
    nets_inj ok w1 w1', nets_inj ok x1 x1', ?_⟩
  have := (Pairwise2_length y1).trans (Pairwise2_length y1').symm
  simpa [valuesOf] using this

/-! ### what a text does not tell -/

/-- an update over IPv4 with one announced prefix. -/
def renderRecord (u : Update) : MrtRecord :=
  ⟨⟨1700000000, some 42, .bgp4mpEt, 9, 0⟩, .bgp4mp (.message ⟨.messageAs4Ap, 64500, 64501, 0, .v4 #v[192, 0, 2, 1], .v4 #v[192, 0, 2, 2], .update u⟩)⟩

/-- The text does not show path identifiers: two updates that announce different paths to a prefix read the same. -/
theorem c86_violation_path_id (sh : ShowEnv) (d : DebugEnv) :
    ∃ u u' : Update, u ≠ u' ∧ recordText sh d (renderRecord u) = recordText sh d (renderRecord u') :=
  ⟨⟨[], ⟨[], [], maskZero⟩, [⟨⟨.v4 #v[10, 0, 0, 0], 8⟩, some 1⟩]⟩, ⟨[], ⟨[], [], maskZero⟩, [⟨⟨.v4 #v[10, 0, 0, 0], 8⟩, some 2⟩]⟩,
    by decide, rfl⟩

/-- The same holds of the path identifiers of RIB entries. -/
theorem c86_violation_entry_path_id (sh : ShowEnv) (d : DebugEnv) (h : Header) :
    ∃ t t' : RibAfi, t ≠ t' ∧ recordText sh d ⟨h, .tableDumpV2 (.ribAfi t)⟩ = recordText sh d ⟨h, .tableDumpV2 (.ribAfi t')⟩ :=
  ⟨⟨.v4UniAp, 0, ⟨⟨.v4 #v[10, 0, 0, 0], 8⟩, none⟩, [⟨0, 0, some 1, ⟨[], [], maskZero⟩⟩]⟩,
    ⟨.v4UniAp, 0, ⟨⟨.v4 #v[10, 0, 0, 0], 8⟩, none⟩, [⟨0, 0, some 2, ⟨[], [], maskZero⟩⟩]⟩, by decide, rfl⟩

/-- Flow specifications are counted and not shown. -/
theorem c86_violation_flowspec (sh : ShowEnv) (d : DebugEnv) :
    ∃ a b : Nlri, a.flowspec ≠ b.flowspec ∧ recordText sh d (renderRecord ⟨[], ⟨[⟨0x80, .mpReach a⟩], [], maskZero⟩, []⟩) =
      recordText sh d (renderRecord ⟨[], ⟨[⟨0x80, .mpReach b⟩], [], maskZero⟩, []⟩) :=
  ⟨⟨.ipv4, .flowSpec, none, [], none, none, some [[.numeric .ipProtocol []]]⟩, ⟨.ipv4, .flowSpec, none, [], none, none, some [[.numeric .port []]]⟩, by decide, rfl⟩

/-! ### an example -/

/-- texts for the parts that are not modelled. -/
def debugEnv : DebugEnv where
  entryType | .bgp4mpEt => "BGP4MP_ET".toList | _ => "OTHER".toList
  mpType | .messageAs4Ap => "MessageAs4Addpath".toList | _ => "Other".toList
  v2Type _ := "RibIpv4Unicast".toList
  state _ := "Established".toList
  afi _ := "Ipv4".toList
  safi _ := "Unicast".toList
  error _ := "Error".toList
  capType _ := "Capability".toList
  attr _ := "Attr".toList
  warning _ := "warning".toList

theorem debugEnv_ok : DebugOk debugEnv where
  entryType x := by cases x <;> decide
  mpType x := by cases x <;> decide
  v2Type _ := by show '\n' ∉ "RibIpv4Unicast".toList; decide
  state _ := by show '\n' ∉ "Established".toList; decide
  afi _ := by show '\n' ∉ "Ipv4".toList; decide
  safi _ := by show '\n' ∉ "Unicast".toList; decide
  error _ := by show '\n' ∉ "Error".toList; decide
  capType _ := by show '\n' ∉ "Capability".toList; decide
  attr _ := by show '\n' ∉ "Attr".toList; decide
  warning _ := by show '\n' ∉ "warning".toList; decide

def renderUpdate : Update :=
  ⟨[⟨⟨.v4 #v[10, 0, 0, 0], 8⟩, none⟩],
    ⟨[⟨0x40, .origin .igp⟩, ⟨0x40, .asPath [.seq [64500, 64502], .set [1, 2]]⟩, ⟨0x80, .mpUnreach ⟨.ipv4, .unicast, none, [⟨⟨.v4 #v[10, 1, 0, 0], 16⟩, none⟩], none, none, none⟩⟩],
      [], maskZero⟩, [⟨⟨.v4 #v[192, 0, 2, 0], 24⟩, none⟩]⟩

theorem c86_example :
    recordText showEnv debugEnv (renderRecord renderUpdate) = ("TIME: 1700000000.000042\nTYPE: BGP4MP_ET/MessageAs4Addpath\n" ++
      "FROM: 192.0.2.1 AS64500\nTO: 192.0.2.2 AS64501\nUPDATE:\n  WITHDRAWN:\n    10.0.0.0/8\n    10.1.0.0/16\n  ANNOUNCED:\n    192.0.2.0/24\n" ++
      "  ATTRIBUTES:\n    ORIGIN: IGP\n    AS_PATH: 64500 64502 {1,2}\n    MP_UNREACH_NLRI: Ipv4/Unicast\n").toList := by
  decide +kernel

/-- The hypotheses of `c86_reads`, `c86_hex` and `c86_same_partial` are met. -/
example : ∃ time type body, LinesOf (recordText showEnv debugEnv (renderRecord renderUpdate)) (time :: type :: body) :=
  let ⟨a, b, c, h, _⟩ := c86_reads showEnv_ok debugEnv_ok (renderRecord renderUpdate)
  ⟨a, b, c, h⟩
example : CarriesMessage (renderRecord renderUpdate) (.v4 #v[192, 0, 2, 1]) 64500 (.v4 #v[192, 0, 2, 2]) 64501 (.update renderUpdate) := .bgp4mp
example : '\n' ∉ hexText [1, 2, 3] := nl_hex _

end Verif.Props
