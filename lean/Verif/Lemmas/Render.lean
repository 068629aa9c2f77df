import Verif.Spec.Render
import Verif.Lemmas.DisplayComm
import Verif.Lemmas.Elem
/-
Lemmas about the text of records.
-/
namespace Verif

open Spec

/-! ### lines -/

theorem linesOf_unique {t : List Char} {a b : List (List Char)} (ha : LinesOf t a) (hb : LinesOf t b) : a = b := by
  obtain ⟨h1, h2⟩ := ha
  obtain ⟨g1, g2⟩ := hb
  rw [h1] at g1
  clear h1
  induction a generalizing b with
  | nil =>
    cases b with
    | nil => rfl
    | cons y b => simp at g1
  | cons x a ih =>
    cases b with
    | nil => simp at g1
    | cons y b =>
      simp only [List.flatMap_cons, List.append_assoc, List.singleton_append] at g1
      have key : ∀ (x y : List Char) (r r' : List Char), '\n' ∉ x → '\n' ∉ y → x ++ '\n' :: r = y ++ '\n' :: r' → x = y ∧ r = r' := by
        intro x
        induction x with
        | nil =>
          intro y r r' _ hy h
          cases y with
          | nil => exact ⟨rfl, by simpa using h⟩
          | cons c y =>
            simp only [List.nil_append, List.cons_append, List.cons.injEq] at h
            exact absurd (h.1 ▸ List.mem_cons_self) hy
        | cons c x ihx =>
          intro y r r' hx hy h
          cases y with
          | nil =>
            simp only [List.nil_append, List.cons_append, List.cons.injEq] at h
            exact absurd (h.1 ▸ List.mem_cons_self) hx
          | cons e y =>
            simp only [List.cons_append, List.cons.injEq] at h
            obtain ⟨e1, e2⟩ := ihx y r r' (fun m => hx (List.mem_cons_of_mem _ m)) (fun m => hy (List.mem_cons_of_mem _ m)) h.2
            exact ⟨by rw [h.1, e1], e2⟩
      obtain ⟨e1, e2⟩ := key x y _ _ (h2 x List.mem_cons_self) (g2 y List.mem_cons_self) g1
      rw [e1, ih (fun l hl => h2 l (List.mem_cons_of_mem _ hl)) e2 (fun l hl => g2 l (List.mem_cons_of_mem _ hl))]

/-! ### groups of lines -/

/-- titles with the lines under them. -/
def flatGroups (d : Nat) (gs : List (List Char × List (List Char))) : List (List Char) :=
  gs.flatMap fun g => indent d g.1 :: g.2.map (indent (d + 1))

theorem deep_indent (n : Nat) (s : List Char) : deep (2 * n) (indent n s) = true := by
  simp [deep, indent]

theorem not_deep (d : Nat) {t : List Char} (h : t.head? ≠ some ' ') : deep (2 * (d + 1)) (indent d t) = false := by
  unfold deep indent
  rw [beq_eq_false_iff_ne]
  intro e
  rw [List.take_append, show 2 * (d + 1) - (List.replicate (2 * d) ' ').length = 2 by simp; omega,
    show List.replicate (2 * (d + 1)) ' ' = List.replicate (2 * d) ' ' ++ [' ', ' '] by
      rw [show 2 * (d + 1) = 2 * d + 2 by omega, ← List.replicate_append_replicate]; rfl,
    List.take_of_length_le (by simp; omega)] at e
  have := List.append_cancel_left e
  cases t with
  | nil => simp at this
  | cons c t => 
    rw [List.take_succ_cons] at this
    exact h (by rw [List.head?_cons]; exact congrArg some (List.cons.inj this).1)

theorem indent_inj {d : Nat} {a b : List Char} : indent d a = indent d b ↔ a = b := by
  unfold indent
  exact ⟨List.append_cancel_left, fun h => h ▸ rfl⟩

theorem blocks_flat (d : Nat) (title : String) (t : List Char) (ht : title.toList = indent d t) (h : t.head? ≠ some ' ')
    (gs : List (List Char × List (List Char))) (hg : ∀ g ∈ gs, g.1.head? ≠ some ' ') :
    blocks title (2 * (d + 1)) (flatGroups d gs) = (gs.filter fun g => g.1 = t).map fun g => g.2.map (indent (d + 1)) := by
  have skip : ∀ (xs : List (List Char)) (r : List (List Char)),
      blocks title (2 * (d + 1)) (xs.map (indent (d + 1)) ++ r) = blocks title (2 * (d + 1)) r := by
    intro xs r
    induction xs with
    | nil => rfl
    | cons x xs ih =>
      rw [List.map_cons, List.cons_append, blocks, if_neg, ih]
      intro e
      have := not_deep d h
      rw [← ht, ← e, deep_indent] at this
      cases this
  induction gs with
  | nil => rfl
  | cons g gs ih =>
    have hrest : ∀ (xs : List (List Char)), (xs.map (indent (d + 1)) ++ flatGroups d gs).takeWhile (deep (2 * (d + 1))) = xs.map (indent (d + 1)) := by
      intro xs
      rw [List.takeWhile_append_of_pos]
      · suffices hs : (flatGroups d gs).takeWhile (deep (2 * (d + 1))) = [] by rw [hs, List.append_nil]
        cases gs with
        | nil => rfl
        | cons g' gs =>
          show List.takeWhile _ (indent d g'.1 :: _) = []
          rw [List.takeWhile_cons, not_deep d (hg g' (by simp))]
          rfl
      · intro l hl
        obtain ⟨x, _, rfl⟩ := List.mem_map.1 hl
        exact deep_indent ..
    have hcons : flatGroups d (g :: gs) = indent d g.1 :: (g.2.map (indent (d + 1)) ++ flatGroups d gs) := rfl
    rw [hcons, blocks, ht]
    by_cases e : g.1 = t
    · rw [if_pos (by rw [e]), hrest, skip, ih fun g hg' => hg g (List.mem_cons_of_mem _ hg')]
      simp [e]
    · rw [if_neg (by rw [indent_inj]; exact e), skip, ih fun g hg' => hg g (List.mem_cons_of_mem _ hg')]
      simp [e]

theorem blocks_skip {title : String} {n : Nat} {pre : List (List Char)} (h : ∀ l ∈ pre, l.head? ≠ title.toList.head?) (ls : List (List Char)) :
    blocks title n (pre ++ ls) = blocks title n ls := by
  induction pre with
  | nil => rfl
  | cons l pre ih =>
    rw [List.cons_append, blocks, if_neg, ih fun l hl => h l (List.mem_cons_of_mem _ hl)]
    intro e
    exact h l List.mem_cons_self (by rw [e])

/-- a section as a group, if it is there. -/
def secGroup (title : List Char) (items : List (List Char)) : List (List Char × List (List Char)) :=
  if items.isEmpty then [] else [(title, items)]

theorem section_flat (title : List Char) (d : Nat) (items : List (List Char)) :
    sectionLines title d items = flatGroups d (secGroup title items) := by
  unfold sectionLines secGroup
  split <;> simp [flatGroups]

theorem flat_append (d : Nat) (a b : List (List Char × List (List Char))) : flatGroups d (a ++ b) = flatGroups d a ++ flatGroups d b :=
  List.flatMap_append

theorem sec_head {title : List Char} {items : List (List Char)} {g : List Char × List (List Char)} (h : g ∈ secGroup title items) :
    g.1 = title := by
  unfold secGroup at h
  split at h
  · cases h
  · rw [List.mem_singleton.1 h]

theorem filter_sec_same (title : List Char) (items : List (List Char)) (n : Nat) :
    ((secGroup title items).filter fun g => g.1 = title).map (fun g => g.2.map (indent n)) =
      if items = [] then [] else [items.map (indent n)] := by
  unfold secGroup
  cases items <;> simp

theorem groups_none {gs : List (List Char × List (List Char))} {t : List Char} (h : ∀ g ∈ gs, g.1 ≠ t) :
    (gs.filter fun g => g.1 = t) = [] := by
  rw [List.filter_eq_nil_iff]
  intro g hg
  simpa using h g hg

/-! ### no line feeds -/

theorem nl_dec (n : Nat) : '\n' ∉ decText n := not_mem_dec (by decide) n
theorem nl_asn (a : Asn) : '\n' ∉ asnText a := nl_dec _
theorem nl_hex (b : Bytes) : '\n' ∉ hexText b := not_mem_hex (by decide) b
theorem nl_v4 (a : V4) : '\n' ∉ v4Text a := fun h => by
  rcases v4_chars h with h | h
  · exact absurd h (by decide)
  · exact absurd h (by decide)
theorem nl_ip {sh : ShowEnv} (ok : ShowOk sh) (a : Ip) : '\n' ∉ a.text sh := not_mem_ip (c := '\n') ok (by decide) (by decide) (by decide) a
theorem nl_net {sh : ShowEnv} (ok : ShowOk sh) (a : IpNet) : '\n' ∉ a.text sh :=
  not_mem_net (c := '\n') ok (by decide) (by decide) (by decide) (by decide) a
theorem nl_v6 {sh : ShowEnv} (ok : ShowOk sh) (a : V6) : '\n' ∉ sh.v6 a := nl_ip ok (.v6 a)
theorem nl_f32 {sh : ShowEnv} (ok : ShowOk sh) (x) : '\n' ∉ sh.f32 x := fun h => by
  rcases ok.f32_chars x _ h with h | h | h <;> exact absurd h (by decide)
theorem nl_path (p : AsPath) : '\n' ∉ asPathText p := fun h => by
  rcases path_chars h with h | h | h | h | h <;> exact absurd h (by decide)

theorem nl_join {sep : List Char} (hs : '\n' ∉ sep) : ∀ {xs : List (List Char)}, (∀ x ∈ xs, '\n' ∉ x) → '\n' ∉ joinSep sep xs
  | [], _ => by simp [joinSep]
  | [x], h => by simpa [joinSep] using h
  | x :: y :: xs, h => by
    have := nl_join hs (xs := y :: xs) fun z hz => h z (List.mem_cons_of_mem _ hz)
    simp only [joinSep, List.mem_append, not_or]
    exact ⟨⟨h x List.mem_cons_self, hs⟩, this⟩

theorem nl_map_join {sep : List Char} (hs : '\n' ∉ sep) {f : α → List Char} (hf : ∀ x, '\n' ∉ f x) (xs : List α) :
    '\n' ∉ joinSep sep (xs.map f) :=
  nl_join hs fun x hx => by obtain ⟨y, _, rfl⟩ := List.mem_map.1 hx; exact hf y

theorem nl_lit {s : String} (h : s.toList.contains '\n' = false) : '\n' ∉ lit s := by
  intro m
  rw [List.contains_iff_mem.2 (show '\n' ∈ s.toList from m)] at h
  cases h

theorem nl_append {a b : List Char} (ha : '\n' ∉ a) (hb : '\n' ∉ b) : '\n' ∉ a ++ b := by
  simp [ha, hb]

theorem nl_indent {n : Nat} {s : List Char} (h : '\n' ∉ s) : '\n' ∉ indent n s :=
  nl_append (fun m => absurd (List.mem_replicate.1 m).2 (by decide)) h

theorem nl_plain (c : Community) : '\n' ∉ plainText c := by
  cases c <;> simp [plainText, lit, nl_asn, nl_dec]

theorem nl_large (c : LargeCommunity) : '\n' ∉ largeText c := by simp [largeText, nl_dec]

theorem nl_ext {sh : ShowEnv} (ok : ShowOk sh) (c : ExtCommunity) : '\n' ∉ extText sh c := by
  cases c <;> simp [extText, colons, joinSep, lit, nl_dec, nl_asn, nl_hex, nl_v4, nl_f32 ok]
  rename_i t s
  cases t <;> cases s <;> simp [joinSep]

theorem nl_ext6 {sh : ShowEnv} (ok : ShowOk sh) (c : Ipv6ExtCommunity) : '\n' ∉ ipv6ExtText sh c := by
  simp [ipv6ExtText, colons, joinSep, nl_dec, nl_hex, nl_v6 ok]

theorem nl_hop {sh : ShowEnv} (ok : ShowOk sh) (h : NextHop) : '\n' ∉ h.text sh := by
  cases h <;> simp [NextHop.text, nl_v4, nl_v6 ok]

theorem nl_attr {sh : ShowEnv} {d : DebugEnv} (ok : ShowOk sh) (hd : DebugOk d) (a : AttrVal) : '\n' ∉ attrLine sh d a := by
  have hn : '\n' ∉ [' '] := by decide
  cases a
  case mpReach n =>
    cases h : n.nextHop <;> simp [attrLine, h, lit, hd.afi, hd.safi, nl_hop ok]
  case origin o => cases o <;> simp [attrLine, lit, originName]
  all_goals simp [attrLine, lit, nl_dec, nl_asn, nl_v4, nl_path, nl_ip ok, hd.afi, hd.safi, hd.attr, nl_map_join hn nl_plain, nl_map_join hn nl_large,
      nl_map_join hn (nl_ext ok), nl_map_join hn (nl_ext6 ok), nl_map_join hn (f := fun c : UInt32 => decText c.toNat) (fun _ => nl_dec _)]

theorem nl_labeled {sh : ShowEnv} (ok : ShowOk sh) (p : LabeledPrefix) : '\n' ∉ labeledLine sh p := by
  have := nl_map_join (sep := lit ", ") (by decide) (f := fun l : Label => decText l.toNat) (fun _ => nl_dec _) p.labels
  cases h : p.pathId <;> simp [labeledLine, h, lit, nl_net ok, nl_dec] <;> exact this

theorem nl_section {title : List Char} {n : Nat} {items : List (List Char)} (ht : '\n' ∉ title) (hi : ∀ x ∈ items, '\n' ∉ x) :
    ∀ l ∈ sectionLines title n items, '\n' ∉ l := by
  intro l hl
  unfold sectionLines at hl
  split at hl
  · cases hl
  · rcases List.mem_cons.1 hl with rfl | hl
    · exact nl_indent ht
    · obtain ⟨x, hx, rfl⟩ := List.mem_map.1 hl
      exact nl_indent (hi x hx)

/-! ### how each part reads -/

theorem indent_add (a b : Nat) (s : List Char) : indent a (indent b s) = indent (a + b) s := by
  simp only [indent, ← List.append_assoc, List.replicate_append_replicate]
  rw [show 2 * a + 2 * b = 2 * (a + b) by omega]

theorem hop_shows (sh : ShowEnv) (h : NextHop) : ShowsIp sh h.addr (h.text sh) := by
  cases h
  case v4 a => exact .v4 (shows_v4 a)
  all_goals exact .v6

theorem comms_show (sh : ShowEnv) {f : α → MetaCommunity} (cs : List α) :
    Listed (ShowsCommunity sh) ' ' (cs.map f) (joinSep [' '] (cs.map fun c => communityText sh (f c))) := by
  have := listed_join (sep := ' ') (xs := cs.map f) (f := communityText sh) fun c _ => community_shows sh c
  rwa [List.map_map] at this

theorem attr_shows (sh : ShowEnv) (d : DebugEnv) (a : AttrVal) : AttrText sh d a (attrLine sh d a) := by
  cases a with
  | origin o => cases o; exact .igp; exact .egp; exact .incomplete
  | asPath p => exact .asPath (path_shows p)
  | as4Path p => exact .as4Path (path_shows p)
  | nextHop a => exact .nextHop (ip_shows sh a)
  | med v => exact .med (numeral_dec _)
  | localPref v => exact .localPref (numeral_dec _)
  | otc a => exact .otc (numeral_dec _)
  | atomic => exact .atomic
  | aggregator a id =>
    have := AttrText.aggregator (sh := sh) (d := d) (a := a) (id := id) (numeral_dec _) (shows_v4 id)
    simpa [attrLine, field, lit, asnText] using this
  | as4Aggregator a id =>
    have := AttrText.as4Aggregator (sh := sh) (d := d) (a := a) (id := id) (numeral_dec _) (shows_v4 id)
    simpa [attrLine, field, lit, asnText] using this
  | communities cs => exact .communities (comms_show sh cs)
  | largeCommunities cs => exact .large (comms_show sh cs)
  | extCommunities cs => exact .ext (comms_show sh cs)
  | ipv6ExtCommunities cs => exact .ext6 (comms_show sh cs)
  | originatorId id => exact .originator (shows_v4 id)
  | clusters cs => exact .clusters (listed_join fun c _ => numeral_dec _)
  | mpReach n =>
    cases h : n.nextHop with
    | none =>
      have := AttrText.reachNoHop (sh := sh) (d := d) h
      simpa [attrLine, h, field, lit] using this
    | some x =>
      have := AttrText.reach (d := d) h (hop_shows sh x)
      simpa [attrLine, h, field, lit] using this
  | mpUnreach n =>
    have := AttrText.unreach (sh := sh) (d := d) (n := n)
    simpa [attrLine, field, lit] using this
  | aigp x => exact .aigp
  | bfd x => exact .bfd
  | trafficEng x => exact .te
  | tunnel x => exact .tunnel
  | linkState x => exact .ls
  | prefixSid x => exact .sid
  | bier x => exact .bier
  | sfp x => exact .sfp
  | attrSet a b =>
    have := AttrText.attrSet (sh := sh) (d := d) (a := a) (b := b) (numeral_dec _)
    simpa [attrLine, field, lit, asnText] using this
  | development b =>
    have := AttrText.development (sh := sh) (d := d) (b := b) (numeral_dec _)
    simpa [attrLine, field, lit] using this
  | raw c b => exact .raw (numeral_dec _) (numeral_dec _)
  | deprecated c b => exact .deprecated (numeral_dec _) (numeral_dec _)
  | unknown c b => exact .unknown (numeral_dec _) (numeral_dec _)

theorem labels_show : ∀ ls : List Label, ShowsLabels ls (joinSep (lit ", ") (ls.map fun l => decText l.toNat))
  | [] => .nil
  | [x] => .last (numeral_dec _)
  | x :: y :: ls => by
    have := ShowsLabels.more (numeral_dec x.toNat) (labels_show (y :: ls))
    simpa [joinSep, lit] using this

theorem labeled_shows (sh : ShowEnv) (p : LabeledPrefix) : ShowsLabeled sh p (labeledLine sh p) := by
  cases h : p.pathId with
  | none =>
    have := ShowsLabeled.plain (net_shows sh p.prefix_) (labels_show p.labels) h
    simpa [labeledLine, h, lit] using this
  | some i =>
    have := ShowsLabeled.withId (net_shows sh p.prefix_) (labels_show p.labels) h (numeral_dec _)
    simpa [labeledLine, h, lit] using this

theorem cap_shows (d : DebugEnv) (c : Capability) : CapText d c (capLine d c) := by
  obtain ⟨ty, v⟩ := c
  cases v
  case multiprotocol a s =>
    have := CapText.mp (d := d) (ty := ty) (a := a) (s := s)
    simpa [capLine, lit] using this
  case fourOctetAs a => exact .as4 (numeral_dec _)
  case addPath fs => exact .addPath (numeral_dec _)
  all_goals exact .other (fun _ _ h => nomatch h) (fun _ h => nomatch h) (fun _ h => nomatch h)

theorem nl_cap {d : DebugEnv} (hd : DebugOk d) (c : Capability) : '\n' ∉ capLine d c := by
  obtain ⟨ty, v⟩ := c
  cases v <;> simp [capLine, lit, hd.capType, hd.afi, hd.safi, nl_dec]

/-! ### what an update gathers -/

theorem gathered_fold (vs : List AttrVal) (g : Gathered) :
    vs.foldl Gathered.step g = ⟨g.withdrawn ++ vs.flatMap unreached, g.announced ++ vs.flatMap reached, g.labeled ++ vs.flatMap reachedLabeled,
      g.linkState + (vs.map linkStates).sum, g.flowspec + (vs.map flowspecs).sum⟩ := by
  induction vs generalizing g with
  | nil => simp
  | cons v vs ih =>
    rw [List.foldl_cons, ih]
    cases v <;> simp [Gathered.step, unreached, reached, reachedLabeled, linkStates, flowspecs, Nat.add_assoc]

theorem gathered_eq (u : Update) :
    u.gathered = ⟨withdrawnOf u, announcedOf u, labeledOf u, ((valuesOf u.attributes).map linkStates).sum, ((valuesOf u.attributes).map flowspecs).sum⟩ := by
  unfold Update.gathered
  rw [gathered_fold]
  simp [withdrawnOf, announcedOf, labeledOf, valuesOf]

/-- the groups of an update. -/
def updateGroups (sh : ShowEnv) (d : DebugEnv) (u : Update) : List (List Char × List (List Char)) :=
  secGroup (lit "WITHDRAWN:") ((withdrawnOf u).map (NetworkPrefix.text sh)) ++
  secGroup (lit "ANNOUNCED:") ((announcedOf u).map (NetworkPrefix.text sh)) ++
  secGroup (lit "ANNOUNCED (labeled):") ((labeledOf u).map (labeledLine sh)) ++
  (if ((valuesOf u.attributes).map linkStates).sum > 0 then
    [(lit "LINK_STATE_NLRI: " ++ decText ((valuesOf u.attributes).map linkStates).sum ++ lit " entries (BGP-LS)", [])] else []) ++
  (if ((valuesOf u.attributes).map flowspecs).sum > 0 then
    [(lit "FLOWSPEC_NLRI: " ++ decText ((valuesOf u.attributes).map flowspecs).sum ++ lit " rules (RFC 8955)", [])] else []) ++
  secGroup (lit "ATTRIBUTES:") ((valuesOf u.attributes).map (attrLine sh d)) ++
  secGroup (lit "WARNINGS:") (u.attributes.warnings.map d.warning)

theorem update_groups (sh : ShowEnv) (d : DebugEnv) (u : Update) : updateLines sh d u = flatGroups 1 (updateGroups sh d u) := by
  simp only [updateLines, gathered_eq, updateGroups, flat_append, section_flat]
  congr 1
  congr 1
  · congr 1
    · congr 1
      split <;> simp [flatGroups]
    · split <;> simp [flatGroups]
  · simp [valuesOf]
    rfl

theorem starting_flat (d : Nat) (s : String) (c : Char) (t : List Char) (hs : s.toList = indent d (c :: t)) (hc : c ≠ ' ')
    (gs : List (List Char × List (List Char))) :
    starting s (flatGroups d gs) = (gs.filter fun g => (c :: t).isPrefixOf g.1).map fun g => indent d g.1 := by
  have hpre (n : Nat) (a b : List Char) : (List.replicate n ' ' ++ a).isPrefixOf (List.replicate n ' ' ++ b) = a.isPrefixOf b := by
    induction n with
    | zero => rfl
    | succ n ih => simp [List.replicate_succ, ih]
  induction gs with
  | nil => rfl
  | cons g gs ih =>
    have hcons : flatGroups d (g :: gs) = indent d g.1 :: (g.2.map (indent (d + 1)) ++ flatGroups d gs) := rfl
    have hd1 : s.toList.isPrefixOf (indent d g.1) = (c :: t).isPrefixOf g.1 := by rw [hs]; exact hpre _ _ _
    have hd2 : (g.2.map (indent (d + 1))).filter (s.toList.isPrefixOf ·) = [] := by
      rw [List.filter_eq_nil_iff]
      intro l hl
      obtain ⟨x, _, rfl⟩ := List.mem_map.1 hl
      rw [hs, show indent (d + 1) x = indent d (indent 1 x) by rw [indent_add], Bool.not_eq_true]
      refine (hpre _ _ _).trans ?_
      simp [indent, List.replicate, List.isPrefixOf, hc]
    unfold starting at ih ⊢
    rw [hcons, List.filter_cons, List.filter_append, hd2, ih, hd1, List.filter_cons]
    split <;> rfl

/-! ### sections -/

theorem under_of (d : Nat) (title : String) (t : List Char) (ht : title.toList = indent d t) (h : t.head? ≠ some ' ')
    {gs : List (List Char × List (List Char))} (hg : ∀ g ∈ gs, g.1.head? ≠ some ' ') {items : List (List Char)}
    (hf : (gs.filter fun g => g.1 = t) = (secGroup t items).filter fun g => g.1 = t) :
    Under title (2 * (d + 1)) (flatGroups d gs) items := by
  unfold Under
  rw [blocks_flat d title t ht h gs hg, hf, filter_sec_same]
  rfl

theorem filter_sec_ne {title t : List Char} (h : title ≠ t) (items : List (List Char)) :
    ((secGroup title items).filter fun g => g.1 = t) = [] :=
  groups_none fun _ hg => sec_head hg ▸ h

theorem starting_sec {s title : List Char} (h : s.isPrefixOf title = false) (items : List (List Char)) :
    ((secGroup title items).filter fun g => s.isPrefixOf g.1) = [] := by
  rw [List.filter_eq_nil_iff]
  intro g hg
  rw [sec_head hg, h]
  simp

theorem update_heads (sh : ShowEnv) (d : DebugEnv) (u : Update) : ∀ g ∈ updateGroups sh d u, g.1.head? ≠ some ' ' := by
  intro g hg
  simp only [updateGroups, List.mem_append] at hg
  rcases hg with (((((hg | hg) | hg) | hg) | hg) | hg) | hg
  · rw [sec_head hg]; decide
  · rw [sec_head hg]; decide
  · rw [sec_head hg]; decide
  · split at hg
    · rw [List.mem_singleton.1 hg]; simp [lit]
    · cases hg
  · split at hg
    · rw [List.mem_singleton.1 hg]; simp [lit]
    · cases hg
  · rw [sec_head hg]; decide
  · rw [sec_head hg]; decide

theorem count_ne {c : Prop} [Decidable c] {a b x t : List Char} (h : ∀ y, t ≠ a ++ y) :
    ((if c then [(a ++ x ++ b, ([] : List (List Char)))] else []).filter fun g => g.1 = t) = [] := by
  apply groups_none
  intro g hg
  split at hg
  · rw [List.mem_singleton.1 hg]
    intro e
    exact h (x ++ b) (by rw [← e]; simp)
  · cases hg

theorem count_pre_ne {c : Prop} [Decidable c] {a b x t : List Char} (h : ∀ y, t.isPrefixOf (a ++ y) = false) :
    ((if c then [(a ++ x ++ b, ([] : List (List Char)))] else []).filter fun g => t.isPrefixOf g.1) = [] := by
  rw [List.filter_eq_nil_iff]
  intro g hg
  split at hg
  · rw [List.mem_singleton.1 hg]
    simp [h, List.append_assoc]
  · cases hg

theorem update_text (sh : ShowEnv) (d : DebugEnv) (u : Update) : UpdateText sh d u (updateLines sh d u) := by
  rw [update_groups]
  have hh := update_heads sh d u
  have n1 : ∀ y, lit "WITHDRAWN:" ≠ lit "LINK_STATE_NLRI: " ++ y := by intro y; simp [lit]
  have n2 : ∀ y, lit "ANNOUNCED:" ≠ lit "LINK_STATE_NLRI: " ++ y := by intro y; simp [lit]
  have n3 : ∀ y, lit "ANNOUNCED (labeled):" ≠ lit "LINK_STATE_NLRI: " ++ y := by intro y; simp [lit]
  have n4 : ∀ y, lit "ATTRIBUTES:" ≠ lit "LINK_STATE_NLRI: " ++ y := by intro y; simp [lit]
  have n5 : ∀ y, lit "WARNINGS:" ≠ lit "LINK_STATE_NLRI: " ++ y := by intro y; simp [lit]
  have m1 : ∀ y, lit "WITHDRAWN:" ≠ lit "FLOWSPEC_NLRI: " ++ y := by intro y; simp [lit]
  have m2 : ∀ y, lit "ANNOUNCED:" ≠ lit "FLOWSPEC_NLRI: " ++ y := by intro y; simp [lit]
  have m3 : ∀ y, lit "ANNOUNCED (labeled):" ≠ lit "FLOWSPEC_NLRI: " ++ y := by intro y; simp [lit]
  have m4 : ∀ y, lit "ATTRIBUTES:" ≠ lit "FLOWSPEC_NLRI: " ++ y := by intro y; simp [lit]
  have m5 : ∀ y, lit "WARNINGS:" ≠ lit "FLOWSPEC_NLRI: " ++ y := by intro y; simp [lit]
  refine ⟨⟨_, pairwise2_map _ (NetworkPrefix.text sh) (fun p => net_shows sh p.prefix_) _, ?_⟩,
    ⟨_, pairwise2_map _ (NetworkPrefix.text sh) (fun p => net_shows sh p.prefix_) _, ?_⟩,
    ⟨_, pairwise2_map _ (labeledLine sh) (labeled_shows sh) _, ?_⟩, ?_, ?_,
    ⟨_, pairwise2_map _ (attrLine sh d) (attr_shows sh d) _, ?_⟩, ?_⟩
  · apply under_of 1 "  WITHDRAWN:" (lit "WITHDRAWN:") rfl (by decide) hh
    simp only [updateGroups, List.filter_append, count_ne n1, count_ne m1]
    rw [filter_sec_ne (title := lit "ANNOUNCED:") (by decide), filter_sec_ne (title := lit "ANNOUNCED (labeled):") (by decide),
      filter_sec_ne (title := lit "ATTRIBUTES:") (by decide), filter_sec_ne (title := lit "WARNINGS:") (by decide)]
    simp only [List.append_nil, List.nil_append]
  · apply under_of 1 "  ANNOUNCED:" (lit "ANNOUNCED:") rfl (by decide) hh
    simp only [updateGroups, List.filter_append, count_ne n2, count_ne m2]
    rw [filter_sec_ne (title := lit "WITHDRAWN:") (by decide), filter_sec_ne (title := lit "ANNOUNCED (labeled):") (by decide),
      filter_sec_ne (title := lit "ATTRIBUTES:") (by decide), filter_sec_ne (title := lit "WARNINGS:") (by decide)]
    simp only [List.append_nil, List.nil_append]
  · apply under_of 1 "  ANNOUNCED (labeled):" (lit "ANNOUNCED (labeled):") rfl (by decide) hh
    simp only [updateGroups, List.filter_append, count_ne n3, count_ne m3]
    rw [filter_sec_ne (title := lit "WITHDRAWN:") (by decide), filter_sec_ne (title := lit "ANNOUNCED:") (by decide),
      filter_sec_ne (title := lit "ATTRIBUTES:") (by decide), filter_sec_ne (title := lit "WARNINGS:") (by decide)]
    simp only [List.append_nil, List.nil_append]
  · unfold CountLine
    rw [starting_flat 1 "  LINK_STATE_NLRI: " 'L' (lit "INK_STATE_NLRI: ") rfl (by decide)]
    simp only [updateGroups, List.filter_append]
    rw [starting_sec (by decide), starting_sec (by decide), starting_sec (by decide), starting_sec (title := lit "ATTRIBUTES:") (by decide),
      starting_sec (title := lit "WARNINGS:") (by decide),
      count_pre_ne (a := lit "FLOWSPEC_NLRI: ") (by intro y; simp [lit, List.isPrefixOf])]
    simp only [List.append_nil, List.nil_append]
    split
    · rename_i h
      rw [h]
      rfl
    · rename_i h
      refine ⟨_, numeral_dec _, ?_⟩
      rw [if_pos (by omega), List.filter_cons_of_pos (by simp [lit, List.isPrefixOf])]
      simp [lit, indent, List.replicate]
  · unfold CountLine
    rw [starting_flat 1 "  FLOWSPEC_NLRI: " 'F' (lit "LOWSPEC_NLRI: ") rfl (by decide)]
    simp only [updateGroups, List.filter_append]
    rw [starting_sec (by decide), starting_sec (by decide), starting_sec (by decide), starting_sec (title := lit "ATTRIBUTES:") (by decide),
      starting_sec (title := lit "WARNINGS:") (by decide),
      count_pre_ne (a := lit "LINK_STATE_NLRI: ") (by intro y; simp [lit, List.isPrefixOf])]
    simp only [List.append_nil, List.nil_append]
    split
    · rename_i h
      rw [h]
      rfl
    · rename_i h
      refine ⟨_, numeral_dec _, ?_⟩
      rw [if_pos (by omega), List.filter_cons_of_pos (by simp [lit, List.isPrefixOf])]
      simp [lit, indent, List.replicate]
  · apply under_of 1 "  ATTRIBUTES:" (lit "ATTRIBUTES:") rfl (by decide) hh
    simp only [updateGroups, List.filter_append, count_ne n4, count_ne m4]
    rw [filter_sec_ne (title := lit "WITHDRAWN:") (by decide), filter_sec_ne (title := lit "ANNOUNCED:") (by decide),
      filter_sec_ne (title := lit "ANNOUNCED (labeled):") (by decide), filter_sec_ne (title := lit "WARNINGS:") (by decide)]
    simp only [List.append_nil, List.nil_append]
  · apply under_of 1 "  WARNINGS:" (lit "WARNINGS:") rfl (by decide) hh
    simp only [updateGroups, List.filter_append, count_ne n5, count_ne m5]
    rw [filter_sec_ne (title := lit "WITHDRAWN:") (by decide), filter_sec_ne (title := lit "ANNOUNCED:") (by decide),
      filter_sec_ne (title := lit "ANNOUNCED (labeled):") (by decide), filter_sec_ne (title := lit "ATTRIBUTES:") (by decide)]
    simp only [List.nil_append]

/-! ### attribute blocks -/

theorem attributes_groups (sh : ShowEnv) (d : DebugEnv) (a : Attributes) (n : Nat) :
    attributesLines sh d a n = flatGroups n (secGroup (lit "ATTRIBUTES:") ((valuesOf a).map (attrLine sh d)) ++
      secGroup (lit "WARNINGS:") (a.warnings.map d.warning)) := by
  rw [flat_append, ← section_flat, ← section_flat]
  unfold attributesLines sectionLines valuesOf
  cases a.inner <;> cases a.warnings <;> simp [Function.comp_def]

theorem attributes_under (sh : ShowEnv) (d : DebugEnv) (a : Attributes) (n : Nat) (t1 t2 : String) (h1 : t1.toList = indent n (lit "ATTRIBUTES:"))
    (h2 : t2.toList = indent n (lit "WARNINGS:")) :
    Under t1 (2 * (n + 1)) (attributesLines sh d a n) ((valuesOf a).map (attrLine sh d)) ∧
      Under t2 (2 * (n + 1)) (attributesLines sh d a n) (a.warnings.map d.warning) := by
  rw [attributes_groups]
  have hh : ∀ g ∈ secGroup (lit "ATTRIBUTES:") ((valuesOf a).map (attrLine sh d)) ++ secGroup (lit "WARNINGS:") (a.warnings.map d.warning),
      g.1.head? ≠ some ' ' := by
    intro g hg
    rcases List.mem_append.1 hg with hg | hg <;> rw [sec_head hg] <;> decide
  constructor
  · apply under_of n t1 _ h1 (by decide) hh
    rw [List.filter_append, filter_sec_ne (title := lit "WARNINGS:") (by decide), List.append_nil]
  · apply under_of n t2 _ h2 (by decide) hh
    rw [List.filter_append, filter_sec_ne (title := lit "ATTRIBUTES:") (by decide), List.nil_append]

theorem attributes_shift (sh : ShowEnv) (d : DebugEnv) (a : Attributes) (n : Nat) :
    (attributesLines sh d a 0).map (indent n) = attributesLines sh d a n := by
  unfold attributesLines
  cases a.inner <;> cases a.warnings <;> simp [indent_add, Function.comp_def]

theorem entry_text (sh : ShowEnv) (d : DebugEnv) (e : RibEntry) : EntryText sh d e (ribEntryLines sh d e).tail := by
  refine ⟨_, _, attributesLines sh d e.attributes 2, (valuesOf e.attributes).map (attrLine sh d), ?_, numeral_dec _, numeral_dec _,
    pairwise2_map _ (attrLine sh d) (attr_shows sh d) _, (attributes_under sh d e.attributes 2 "    ATTRIBUTES:" "    WARNINGS:" rfl rfl).1,
    (attributes_under sh d e.attributes 2 "    ATTRIBUTES:" "    WARNINGS:" rfl rfl).2⟩
  simp [ribEntryLines, indent, List.replicate, lit]

theorem dump_text (sh : ShowEnv) (d : DebugEnv) (m : TableDump) : DumpText sh d m (tableDumpLines sh d m).tail := by
  refine ⟨_, _, _, _, attributesLines sh d m.attributes 1, (valuesOf m.attributes).map (attrLine sh d), ?_, net_shows sh _, ip_shows sh _,
    numeral_dec _, numeral_dec _,
    pairwise2_map _ (attrLine sh d) (attr_shows sh d) _, (attributes_under sh d m.attributes 1 "  ATTRIBUTES:" "  WARNINGS:" rfl rfl).1,
    (attributes_under sh d m.attributes 1 "  ATTRIBUTES:" "  WARNINGS:" rfl rfl).2⟩
  simp [tableDumpLines, indent, List.replicate, lit, endLine, asnText, NetworkPrefix.text]

theorem entries_blocks (sh : ShowEnv) (d : DebugEnv) (es : List RibEntry) :
    blocks "  RIB_ENTRY:" 4 (es.flatMap (ribEntryLines sh d)) = es.map fun e => (ribEntryLines sh d e).tail := by
  have hg : es.flatMap (ribEntryLines sh d) = flatGroups 1 (es.map fun e => (lit "RIB_ENTRY:",
      [lit "PEER_INDEX: " ++ decText e.peerIndex.toNat, lit "ORIGINATED: " ++ decText e.time.toNat] ++ attributesLines sh d e.attributes 0)) := by
    unfold flatGroups
    rw [List.flatMap_map]
    congr 1
    funext e
    simp [ribEntryLines, attributes_shift]
  rw [hg, blocks_flat 1 _ (lit "RIB_ENTRY:") rfl (by decide) _ (by
    intro g hg
    obtain ⟨e, _, rfl⟩ := List.mem_map.1 hg
    show (lit "RIB_ENTRY:").head? ≠ _
    decide), List.filter_eq_self.2 (by
    intro g hg
    obtain ⟨e, _, rfl⟩ := List.mem_map.1 hg
    simp), List.map_map]
  congr 1
  funext e
  simp [ribEntryLines, attributes_shift]

theorem dumps_blocks (sh : ShowEnv) (d : DebugEnv) (ms : List TableDump) :
    blocks "RIB_ENTRY:" 2 (ms.flatMap (tableDumpLines sh d)) = ms.map fun m => (tableDumpLines sh d m).tail := by
  have hg : ms.flatMap (tableDumpLines sh d) = flatGroups 0 (ms.map fun m => (lit "RIB_ENTRY:",
      [lit "PREFIX: " ++ m.prefix_.text sh, endLine sh "PEER: " m.peerIp m.peerAsn, lit "ORIGINATED: " ++ decText m.time.toNat] ++
        attributesLines sh d m.attributes 0)) := by
    unfold flatGroups
    rw [List.flatMap_map]
    congr 1
    funext e
    simp [tableDumpLines, attributes_shift]
    rfl
  rw [hg, blocks_flat 0 _ (lit "RIB_ENTRY:") rfl (by decide) _ (by
    intro g hg
    obtain ⟨e, _, rfl⟩ := List.mem_map.1 hg
    show (lit "RIB_ENTRY:").head? ≠ _
    decide), List.filter_eq_self.2 (by
    intro g hg
    obtain ⟨e, _, rfl⟩ := List.mem_map.1 hg
    simp), List.map_map]
  congr 1
  funext e
  simp [tableDumpLines, attributes_shift]

/-! ### messages -/

theorem message_text (sh : ShowEnv) (d : DebugEnv) (m : BgpMessage) : MessageText sh d m (messageLines sh d m) := by
  cases m with
  | «open» o =>
    refine .opened ⟨_, _, _, _, _, (capabilitiesOf o).map (capLine d), ?_, numeral_dec _, numeral_dec _, numeral_dec _, shows_v4 _,
      pairwise2_map _ (capLine d) (cap_shows d) _, rfl⟩
    have hc : o.params.flatMap OptParam.caps = capabilitiesOf o := rfl
    rw [hc]
    cases o.params <;> simp [indent, lit, asnText, List.replicate]
  | update u => exact .update (update_text sh d u)
  | notification n =>
    have := MessageText.notification (sh := sh) (d := d) (n := n) (numeral_dec _)
    simpa [messageLines, indent, lit, List.replicate] using this
  | keepAlive => exact .keepAlive
  | routeRefresh r =>
    have := MessageText.refresh (sh := sh) (d := d) (r := r) (numeral_dec _) (numeral_dec _) (numeral_dec _)
    simpa [messageLines, indent, lit, List.replicate] using this

theorem end_text (sh : ShowEnv) (name : String) (ip : Ip) (asn : Asn) : EndText sh name ip asn (endLine sh name ip asn) :=
  ⟨_, _, ip_shows sh ip, numeral_dec _, rfl⟩

theorem peer_text (sh : ShowEnv) (p : UInt16 × Peer) : PeerText sh p (peerLine sh p) :=
  ⟨_, _, _, numeral_dec _, ip_shows sh _, numeral_dec _, by simp [peerLine, indent, lit, asnText, List.replicate]⟩

theorem sortPeers_sorted (l : List (UInt16 × Peer)) : (sortPeers l).Pairwise (fun a b => a.1 ≤ b.1) := by
  have := List.pairwise_mergeSort (le := fun (a b : UInt16 × Peer) => decide (a.1 ≤ b.1))
    (fun a b c h1 h2 => by
      simp only [decide_eq_true_eq] at *
      exact UInt16.le_trans h1 h2)
    (fun a b => by
      simp only [Bool.or_eq_true, decide_eq_true_eq]
      exact UInt16.le_total _ _) l
  exact this.imp fun h => by simpa using h

end Verif
