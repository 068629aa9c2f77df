import Verif.Lemmas.SpansLoop
import Verif.Props.Diagnostic
import Verif.Props.Dissect
/-
C68: the byte ranges that findings are reported with.
-/
namespace Verif.Props
open Verif Spec

/-- C68: giving findings their ranges keeps them all, in order. -/
theorem c68_complete (t : Node) (fs : List Finding) : (spanFindings fs t).map Prod.snd = fs := by
  have : ∀ cnt, (spanLoop t cnt fs).map Prod.snd = fs := by
    induction fs with
    | nil => intro _; rfl
    | cons f fs ih => intro cnt; simp [spanLoop, ih]
  exact this _

theorem sectionSpan_eq (t : Node) (f : String) : sectionSpan t f = ((t.findAll f).map Node.span).head? := by
  rw [sectionSpan, sel_find, List.head?_map]

theorem attrSpan_eq (t : Node) (c : UInt8) (k : Nat) : attrSpan t c k = ((t.findAll (attrName c)).map Node.span)[k]? := by
  rw [attrSpan, List.getElem?_map, attrName_eq]

theorem missing_only {mask : Mask} {a b : Bool} : ∀ f ∈ missingWarnings mask a b, ∃ c, f = .missing c := by
  intro f hf
  unfold missingWarnings at hf
  split at hf
  · cases hf
  · simp only [List.mem_append] at hf
    rcases hf with (hf | hf) | hf <;> split at hf <;> simp at hf <;> exact ⟨_, hf⟩

theorem field_only {x ap : Bool} {b : Bytes} : ∀ f ∈ fieldWarnings x ap b, (∃ d, f = .malformedNlri x d) ∧ b ≠ [] := by
  intro f hf
  refine ⟨?_, ?_⟩
  · unfold fieldWarnings at hf
    split at hf
    · cases hf
    · simp only [List.mem_singleton] at hf; exact ⟨_, hf⟩
  · rintro rfl
    cases ap <;> simp [fieldWarnings, parseNlriList] at hf <;> trivial

theorem fold_wire_ok {ws : List Wire} {rest : Bytes} (cfg : AttrCfg) (hws : ∀ w ∈ ws, w.ok) (hr : Rest rest) :
    sectionWarnings cfg (wireBytes ws ++ rest) = (restV (ws.foldl (stepV cfg) VState.init) rest).warnings := by
  rw [sectionWarnings, parse_wires cfg ws hws hr]

theorem spanLoop_const {t : Node} {g : Warning → Nat × Nat} : ∀ (fs : List Warning), (∀ f ∈ fs, ∀ cnt, locateSpan t cnt (.attr f) = (g f, cnt)) →
    ∀ cnt, spanLoop t cnt (fs.map .attr) = fs.map (fun f => (g f, .attr f))
  | [], _, _ => rfl
  | f :: fs, h, cnt => by
    rw [List.map_cons, spanLoop, h f (by simp)]
    simp only [List.map_cons]
    rw [spanLoop_const fs (fun f hf => h f (by simp [hf]))]

/-- The ranges in a tree that has the attributes and sections of the UPDATE where they are. -/
theorem spans_in_tree {t : Node} {total off : Nat} {ap : Bool} {l : AsnLen} {w n : Bytes} {ws : List Wire} {rest : Bytes} {u : Update}
    (hws : ∀ x ∈ ws, x.ok) (hr : Rest rest) (hw : w.length < 65536) (ha : (wireBytes ws ++ rest).length < 65536)
    (hu : parseUpdate ap l (updateBytes w (wireBytes ws ++ rest) n) = .ok u) (hspan : t.span = (0, total))
    (h1 : ∀ c, (t.findAll (attrName c)).map Node.span = codeSpans c (off + 2 + w.length + 2) ws ++
      if 3 ≤ rest.length ∧ rest[1]? = some c then [(off + 2 + w.length + 2 + (wireBytes ws).length, rest.length)] else [])
    (h2 : (t.findAll sWithdrawn).map Node.span = if w = [] then [] else [(off + 2, w.length)])
    (h3 : (t.findAll sAttributes).map Node.span =
      if wireBytes ws ++ rest = [] then [] else [(off + 2 + w.length + 2, (wireBytes ws ++ rest).length)])
    (h4 : (t.findAll sNlri).map Node.span =
      if n = [] then [] else [(off + 2 + w.length + 2 + (wireBytes ws ++ rest).length, n.length)]) :
    spanFindings (u.attributes.warnings.map .attr) t =
      updateFindings (updateCfg ap l) total off w ws rest n u.attributes.warnings := by
  -- the warnings
  rw [parseUpdate_sections ap l w _ n hw ha, parse_wires (updateCfg ap l) ws hws hr] at hu
  simp only [Except.ok.injEq] at hu
  subst hu
  simp only [checked]
  generalize hcfg : updateCfg ap l = cfg
  generalize hA : off + 2 + w.length + 2 = A at *
  have hsec : ∀ x, sectionSpan t x = ((t.findAll x).map Node.span).head? := sectionSpan_eq t
  have hatt : sectionSpan t "bgp.update.path_attributes" = if wireBytes ws ++ rest = [] then none else
      some (A, (wireBytes ws ++ rest).length) := by
    rw [hsec, show "bgp.update.path_attributes" = sAttributes from rfl, h3]; split <;> rfl
  have hsp : ∀ c k, attrSpan t c k = (codeSpans c A ws ++
      if 3 ≤ rest.length ∧ rest[1]? = some c then [(A + (wireBytes ws).length, rest.length)] else [])[k]? := by
    intro c k; rw [attrSpan_eq, h1]
  have hne : ∀ x ∈ ws, wireBytes ws ++ rest ≠ [] := by
    intro x hx he
    have := (List.append_eq_nil_iff.mp he).1
    have h0 := headBytes_length x.flag x.code x.value.length
    have : x.bytes = [] := by
      have hm : ∀ b ∈ x.bytes, b ∈ wireBytes ws := fun b hb => List.mem_flatMap.mpr ⟨x, hx, hb⟩
      cases hxb : x.bytes with
      | nil => rfl
      | cons b bs => have := hm b (by simp [hxb]); rw [‹wireBytes ws = []›] at this; cases this
    rw [Wire.bytes] at this
    rw [(List.append_eq_nil_iff.mp this).1] at h0
    simp at h0
  -- the attributes
  obtain ⟨a1, a2⟩ := spanLoop_attrs (t := t) (cfg := cfg) (list := (A, (wireBytes ws ++ rest).length)) hsp (by
    intro h
    obtain ⟨x, hx⟩ := List.exists_mem_of_ne_nil _ h
    rw [hatt, if_neg (hne x hx)]) hws ws [] rfl
  have a0 : (fun c => codeCount c [] - 1) = (fun _ => 0 : DupCounts) := rfl
  rw [a0] at a1
  simp only [List.foldl_nil] at a1 a2
  have hw0 : (ws.foldl (stepV cfg) VState.init).warnings = stepsW cfg VState.init ws := by
    rw [foldV_warnings]; rfl
  -- the remains
  obtain ⟨rw', hrw, b1⟩ : ∃ rw' : List Warning, (restV (ws.foldl (stepV cfg) VState.init) rest).warnings =
      stepsW cfg VState.init ws ++ rw' ∧
      spanLoop t (fun c => codeCount c ws - 1) (rw'.map .attr) =
        rw'.map (fun f => ((A + (wireBytes ws).length, rest.length), .attr f)) := by
    by_cases hr3 : rest.length < 3
    · exact ⟨[], by rw [restV, if_pos hr3, hw0, List.append_nil], rfl⟩
    rcases hr with hr | ⟨f, c, len, v, hf, rfl, hv⟩
    · exact absurd hr hr3
    have hrv : restV (ws.foldl (stepV cfg) VState.init) (headBytes f c len ++ v) =
        (ws.foldl (stepV cfg) VState.init).header c f len := by
      rw [restV, if_neg hr3, rdAttrHead_append hf]
    refine ⟨_, by rw [hrv, header_warnings, hw0], ?_⟩
    have hc : (headBytes f c len ++ v)[1]? = some c := by simp [headBytes]
    have hs : attrSpan t c (codeCount c ws) = some (A + (wireBytes ws).length, (headBytes f c len ++ v).length) := by
      rw [hsp, List.getElem?_append_right (by rw [codeSpans_length]; exact Nat.le_refl _), codeSpans_length, Nat.sub_self,
        if_pos ⟨by omega, hc⟩]
      rfl
    have hane : wireBytes ws ++ (headBytes f c len ++ v) ≠ [] := by
      intro h
      have := (List.append_eq_nil_iff.mp h).2
      rw [this] at hr3
      simp at hr3
    have := (spanLoop_one (t := t) (cnt := fun c => codeCount c ws - 1) (v := ws.foldl (stepV cfg) VState.init)
      (c := c) (k := codeCount c ws) (list := (A, (wireBytes ws ++ (headBytes f c len ++ v)).length))
      (fs := flagWarnings c f ++ lengthWarnings c len) rfl (foldV_count cfg ws c) hs (by rw [hatt, if_neg hane]) (by
          intro g hg
          simp only [List.mem_append] at hg
          rcases hg with hg | hg
          · exact flagWarnings_about _ _ g hg
          · exact lengthWarnings_about _ _ g hg)).1
    rw [headW, this]
    apply List.map_congr_left
    intro g hg
    have hnm : g ≠ .malformedList := by
      rintro rfl
      simp only [List.mem_append] at hg
      rcases hg with hg | hg | hg
      · split at hg <;> simp at hg
      · unfold flagWarnings at hg
        split at hg
        · cases hg
        · simp only [List.mem_append] at hg
          rcases hg with hg | hg <;> split at hg <;> simp at hg
      · unfold lengthWarnings at hg
        split at hg
        · cases hg
        · split at hg <;> simp at hg
    cases g <;> first | rfl | exact absurd rfl hnm
  -- what follows
  rw [hcfg] at *
  have hsw := fold_wire_ok cfg hws hr
  have hsw0 := sectionWarnings_wires cfg ws hws
  rw [hw0] at hsw0
  rw [hrw] at hsw
  generalize hms : missingWarnings _ _ _ = ms
  have hms' : ∀ f ∈ ms, ∃ c, f = .missing c := by rw [← hms]; exact missing_only
  have hlast : ∀ cnt, spanLoop t cnt ((ms ++ (fieldWarnings true ap w ++ fieldWarnings false ap n)).map .attr) =
      (ms ++ (fieldWarnings true ap w ++ fieldWarnings false ap n)).map (fun f => ((match f with
        | .malformedNlri true _ => (off + 2, w.length)
        | .malformedNlri false _ => (A + (wireBytes ws ++ rest).length, n.length)
        | _ => if wireBytes ws ++ rest = [] then (0, total) else (A, (wireBytes ws ++ rest).length)), .attr f)) := by
    intro cnt
    refine spanLoop_const _ ?_ cnt
    intro f hf cnt
    simp only [List.mem_append] at hf
    rcases hf with hf | hf | hf
    · obtain ⟨c, rfl⟩ := hms' f hf
      simp only [locateSpan, hatt, hspan]
      split <;> rfl
    · obtain ⟨⟨d, rfl⟩, hne⟩ := field_only f hf
      simp only [locateSpan]
      rw [hsec, show "bgp.update.withdrawn_routes" = sWithdrawn from rfl, h2, if_neg hne]
      rfl
    · obtain ⟨⟨d, rfl⟩, hne⟩ := field_only f hf
      simp only [locateSpan]
      rw [hsec, show "bgp.update.nlri" = sNlri from rfl, h4, if_neg hne]
      rfl
  have hcnt : (fun c => 0 + ((stepsW cfg VState.init ws).map Finding.attr).count (.attr (.duplicate c))) =
      fun c => codeCount c ws - 1 := by
    funext c
    have := a2 c
    rw [← this]; rfl
  unfold spanFindings updateFindings
  simp only [hA]
  rw [hrw, hsw]
  simp only [List.append_assoc]
  rw [List.map_append, List.map_append, spanLoop_append, hcnt, spanLoop_append, hlast, b1, a1]
  rw [addedWarnings, hsw, hsw0, List.drop_left]
  rw [← List.append_assoc (stepsW cfg VState.init ws), List.drop_left]
  rfl

/-- C68: the findings about an UPDATE in a BGP4MP record, in order, with the ranges of what they are about. -/
theorem c68_update (raw : Raw) (r : MrtRecord) (m : MpMessage) (u : Update) (hf : Frame raw raw.bytes) (hp : raw.parse = .ok r)
    (hm : r.message = .bgp4mp (.message m)) (hu : m.message = .update u) :
    ∃ (l : AsnLen) (ap : Bool) (pre msgHead w n : Bytes) (ws : List Wire) (rest post : Bytes) (t : Node),
      pre = raw.headerBytes ++ mpHeadBytes l m.peerAsn m.localAsn m.iface m.peerIp m.localIp ++ msgHead ∧ msgHead.length = 19 ∧
      raw.bytes = pre ++ updateBytes w (wireBytes ws ++ rest) n ++ post ∧
      w.length < 65536 ∧ (wireBytes ws ++ rest).length < 65536 ∧ (∀ x ∈ ws, x.ok) ∧ Rest rest ∧
      parseUpdate ap l (updateBytes w (wireBytes ws ++ rest) n) = .ok u ∧
      dissectMrtRecord raw = some t ∧
      spanFindings (findingsOf r.message) t =
        updateFindings (updateCfg ap l) raw.bytes.length pre.length w ws rest n u.attributes.warnings := by
  obtain ⟨l, ap, mh, body, post, ty, t, h1, h2, h3, h4, h5⟩ := record_tree hf hp hm (by rw [hu]; intro o h; cases h)
  have ht : t = .update ∧ parseUpdate ap l body = .ok u := by
    rw [hu] at h4
    have key : ∀ {α} (f : α → BgpMessage) (y : Except Err α), mapOk f y = .ok (.update u) → ∃ a, y = .ok a ∧ f a = .update u := by
      intro α f y hy
      cases y with
      | error e => cases hy
      | ok v => simp only [mapOk, Except.ok.injEq] at hy; exact ⟨v, rfl, hy⟩
    cases t <;> simp only [parseBody] at h4
    · obtain ⟨a, _, ha⟩ := key _ _ h4; cases ha
    · obtain ⟨a, ha, he⟩ := key _ _ h4; cases he; exact ⟨rfl, ha⟩
    · obtain ⟨a, _, ha⟩ := key _ _ h4; cases ha
    · cases h4
    · obtain ⟨a, _, ha⟩ := key _ _ h4; cases ha
  obtain ⟨rfl, hb⟩ := ht
  have hty : ty = 2 := by
    unfold MsgType.ofU8? at h3
    repeat' split at h3
    all_goals first | assumption | cases h3
  subst hty
  obtain ⟨w, a, n, rfl, hw, ha⟩ := parseUpdate_layout hb
  have hparse : ∃ as, parseAttributes (updateCfg ap l) a = .ok as := by
    rw [parseUpdate_sections ap l w a n hw ha] at hb
    cases hx : parseAttributes (updateCfg ap l) a with
    | error e => rw [hx] at hb; cases hb
    | ok as => exact ⟨as, rfl⟩
  obtain ⟨ws, rest, hws, rfl, hr⟩ := attr_cut a.length a (Nat.le_refl _)
  have hr : Rest rest := by
    rcases hr with hr | hr
    · exact hr
    · obtain ⟨as, has⟩ := hparse
      rw [parse_broken _ ws hws hr] at has
      cases has
  obtain ⟨ps, p1, p2, p3⟩ := update_tree l ap w n ws rest hws hr hw ha
  obtain ⟨tree, t1, t2, t3⟩ := h5 ps p1 p2
  refine ⟨l, ap, _, mh, w, n, ws, rest, post, tree, rfl, h1, h2, hw, ha, hws, hr, hb, treeOf_dissect (frame_small hf) t1, ?_⟩
  have hfs : findingsOf r.message = u.attributes.warnings.map .attr := by
    rw [hm]
    simp [findingsOf, attributeLists, refreshOf, hu]
  rw [hfs]
  obtain ⟨q1, q2, q3, q4⟩ := p3 (raw.headerBytes ++ mpHeadBytes l m.peerAsn m.localAsn m.iface m.peerIp m.localIp ++ mh).length _ rfl
  refine spans_in_tree hws hr hw ha hb t2 ?_ ?_ ?_ ?_
  · intro c; rw [t3 _ (attrName_notPlain c)]; exact q1 c
  · rw [t3 _ (sections_notPlain _ (by simp))]; exact q2
  · rw [t3 _ (sections_notPlain _ (by simp))]; exact q3
  · rw [t3 _ (sections_notPlain _ (by simp))]; exact q4

/-- C68: the findings about a ROUTE-REFRESH message point at the body of this message. -/
theorem c68_refresh (raw : Raw) (r : MrtRecord) (m : MpMessage) (rr : RouteRefresh) (hf : Frame raw raw.bytes)
    (hp : raw.parse = .ok r) (hm : r.message = .bgp4mp (.message m)) (hu : m.message = .routeRefresh rr) :
    ∃ (l : AsnLen) (pre msgHead body post : Bytes) (t : Node),
      pre = raw.headerBytes ++ mpHeadBytes l m.peerAsn m.localAsn m.iface m.peerIp m.localIp ++ msgHead ∧ msgHead.length = 19 ∧
      raw.bytes = pre ++ body ++ post ∧ parseRouteRefresh body = .ok rr ∧ dissectMrtRecord raw = some t ∧
      spanFindings (findingsOf r.message) t = rr.warnings.map (fun f => ((pre.length, body.length), .refresh f)) := by
  obtain ⟨l, ap, mh, body, post, ty, t, h1, h2, h3, h4, h5⟩ := record_tree hf hp hm (by rw [hu]; intro o h; cases h)
  have ht : t = .routeRefresh ∧ parseRouteRefresh body = .ok rr := by
    rw [hu] at h4
    have key : ∀ {α} (f : α → BgpMessage) (y : Except Err α), mapOk f y = .ok (.routeRefresh rr) →
        ∃ a, y = .ok a ∧ f a = .routeRefresh rr := by
      intro α f y hy
      cases y with
      | error e => cases hy
      | ok v => simp only [mapOk, Except.ok.injEq] at hy; exact ⟨v, rfl, hy⟩
    cases t <;> simp only [parseBody] at h4
    · obtain ⟨a, _, ha⟩ := key _ _ h4; cases ha
    · obtain ⟨a, _, ha⟩ := key _ _ h4; cases ha
    · obtain ⟨a, _, ha⟩ := key _ _ h4; cases ha
    · cases h4
    · obtain ⟨a, ha, he⟩ := key _ _ h4; cases he; exact ⟨rfl, ha⟩
  obtain ⟨rfl, hb⟩ := ht
  have hty : ty = 5 := by
    unfold MsgType.ofU8? at h3
    repeat' split at h3
    all_goals first | assumption | cases h3
  subst hty
  obtain ⟨ps, p1, p2⟩ := refresh_exists body
  obtain ⟨tree, t1, t2, t3⟩ := h5 [.group "bgp.route_refresh" ps] (.refresh _ p1) (by simpa using p2)
  refine ⟨l, _, mh, body, post, tree, rfl, h1, h2, hb, treeOf_dissect (frame_small hf) t1, ?_⟩
  have hfs : findingsOf r.message = rr.warnings.map .refresh := by
    rw [hm]
    simp [findingsOf, attributeLists, refreshOf, hu]
  have hs : sectionSpan tree "bgp.route_refresh" =
      some ((raw.headerBytes ++ mpHeadBytes l m.peerAsn m.localAsn m.iface m.peerIp m.localIp ++ mh).length, body.length) := by
    have hx : "bgp.route_refresh" ∉ plainFields := sections_notPlain _ (by simp [sRefresh])
    rw [sectionSpan_eq, t3 _ hx, sel_group, if_pos rfl, p2]
    rfl
  rw [hfs]
  unfold spanFindings
  have : ∀ cnt (fs : List RefreshWarning), spanLoop tree cnt (fs.map .refresh) = fs.map (fun f =>
      (((raw.headerBytes ++ mpHeadBytes l m.peerAsn m.localAsn m.iface m.peerIp m.localIp ++ mh).length, body.length), .refresh f)) := by
    intro cnt fs
    induction fs with
    | nil => rfl
    | cons f fs ih =>
      simp only [List.map_cons, spanLoop, locateSpan, hs]
      rw [ih]
      rfl
  exact this _ _

/-- C68: the findings about other records, which are not taken apart, point at the whole record. -/
theorem c68_other (raw : Raw) (r : MrtRecord) (hf : Frame raw raw.bytes) (hp : raw.parse = .ok r)
    (hm : ∀ m, r.message ≠ .bgp4mp m) :
    ∃ t, dissectMrtRecord raw = some t ∧
      spanFindings (findingsOf r.message) t = (findingsOf r.message).map (fun f => ((0, raw.bytes.length), f)) := by
  obtain ⟨ps, hps, hb⟩ := mrt_exists raw.bytes
  have hparse := hp
  unfold Raw.parse at hp
  have hty : raw.header.type = .tableDump ∨ raw.header.type = .tableDumpV2 ∨ raw.header.type = .bgp := by
    cases hx : parseMrtBody raw.header.type raw.header.subtype raw.body with
    | error e => rw [hx] at hp; cases hp
    | ok mm =>
      rw [hx] at hp
      cases hp
      simp only at hm
      unfold parseMrtBody at hx
      split at hx
      · exact .inl (by assumption)
      · exact .inr (.inl (by assumption))
      · cases hy : parseBgp4Mp raw.header.subtype raw.body <;> rw [hy] at hx <;> cases hx; exact absurd rfl (hm _)
      · cases hy : parseBgp4Mp raw.header.subtype raw.body <;> rw [hy] at hx <;> cases hx; exact absurd rfl (hm _)
      · exact .inr (.inr (by assumption))
      · cases hx
  obtain ⟨hh, _, _, _⟩ := hf
  have hnum : raw.bytes.length ≥ 12 ∧ ∃ a b : Bytes, a.length = 4 ∧ raw.bytes = a ++ n16 (entryNum raw.header.type) ++ b := by
    have : ∃ a b : Bytes, a.length = 4 ∧ b.length = 6 ∧ raw.headerBytes = a ++ n16 (entryNum raw.header.type) ++ b := by
      obtain ⟨⟨time, micro, ty, sub, len⟩, hb, bd⟩ := raw
      simp only at hh hty ⊢
      cases micro with
      | none => obtain ⟨_, rfl⟩ := hh; exact ⟨n32 time.toNat, n16 sub.toNat ++ n32 len.toNat, by simp [n32], by simp [n16, n32], by simp⟩
      | some _ =>
        obtain ⟨h1, _⟩ := hh
        simp only at h1
        subst h1
        rcases hty with h | h | h <;> cases h
    obtain ⟨a, b, h1, h2, h3⟩ := this
    refine ⟨?_, a, b ++ raw.body, h1, ?_⟩
    · rw [Raw.bytes, h3]; simp [h1, h2, n16]; omega
    · rw [Raw.bytes, h3]; simp
  have hclash : ∀ (time : Bytes) (ty sub : Nat) (len micros rest : Bytes), time.length = 4 → ty < 65536 →
      raw.bytes = partsBytes (mrtHeaderParts time ty sub len micros) ++ rest → ty = entryNum raw.header.type := by
    intro time ty sub len micros rest h1 h2 h3
    obtain ⟨_, a, b, g1, g2⟩ := hnum
    rw [g2, mrtHeaderParts_bytes] at h3
    simp only [List.append_assoc] at h3
    obtain ⟨_, h3⟩ := List.append_inj h3 (by rw [g1, h1])
    obtain ⟨h3, _⟩ := List.append_inj h3 (by simp [n16])
    have hl : entryNum raw.header.type < 65536 := by rcases hty with h | h | h <;> rw [h] <;> decide
    have e1 := getU16_n16 h2 []
    rw [← h3, getU16_n16 hl] at e1
    exact (Option.some.inj e1).symm
  have hplain : Plain ps := by
    cases hps with
    | short b hlt =>
      rw [shown_bytes] at hb
      rw [hb] at hlt
      have := hnum.1
      omega
    | cutMicros => exact .group (by decide +kernel) (plain_mrtHeaderParts _ _ _ _ _)
    | empty => exact .group (by decide +kernel) (plain_mrtHeaderParts _ _ _ _ _)
    | full time ty sub len micros body k1 k2 k3 k4 k5 k6 k7 =>
      refine .cons (.group (by decide +kernel) (plain_mrtHeaderParts _ _ _ _ _)) ?_
      cases k7 with
      | other b _ => exact .leaf _ (by decide +kernel)
      | bgp4mp ps hin _ =>
        have := hclash time ty sub len micros _ k1 k2 (by rw [← hb]; simp; rfl)
        subst this
        rcases hty with h | h | h <;> rw [h] at hin <;> simp [entryNum] at hin
  refine ⟨.mk "mrt" 0 raw.bytes.length (partsNodes 0 ps), treeOf_dissect (frame_small ⟨hh, by assumption, by assumption, by assumption⟩) ⟨ps, hps, hb, rfl⟩, ?_⟩
  generalize ht : Node.mk "mrt" 0 raw.bytes.length (partsNodes 0 ps) = t
  have hall : ∀ x, x ∉ plainFields → t.findAll x = [] := by
    intro x hx
    subst ht
    have hmrt : ¬ "mrt" = x := by rintro rfl; exact hx (by decide +kernel)
    rw [findAll_filter, nodesOf_mk, List.filter_cons, field_mk, if_neg (by simpa using hmrt)]
    exact sel_plain hplain hx 0
  have hspan : t.span = (0, raw.bytes.length) := by subst ht; rfl
  have h1 : ∀ c k, attrSpan t c k = none := by
    intro c k; rw [attrSpan_eq, hall _ (attrName_notPlain c)]; rfl
  have h2 : ∀ x, x ∈ [sWithdrawn, sAttributes, sNlri, sRefresh] → sectionSpan t x = none := by
    intro x hx; rw [sectionSpan_eq, hall _ (sections_notPlain x hx)]; rfl
  have h3 := h2 sWithdrawn (by simp)
  have h4 := h2 sAttributes (by simp)
  have h5 := h2 sNlri (by simp)
  have h6 := h2 sRefresh (by simp)
  have hloc : ∀ cnt f, (locateSpan t cnt f).1 = (0, raw.bytes.length) := by
    intro cnt f
    simp only [sWithdrawn, sAttributes, sNlri, sRefresh] at h3 h4 h5 h6
    unfold locateSpan
    rw [h4]
    split
    all_goals simp only [h1, h3, h5, h6, hspan, Option.or_none, Option.getD_none]
  have : ∀ (fs : List Finding) cnt, spanLoop t cnt fs = fs.map (fun f => ((0, raw.bytes.length), f)) := by
    intro fs
    induction fs with
    | nil => intro _; rfl
    | cons f fs ih =>
      intro cnt
      simp only [spanLoop, List.map_cons, hloc, ih]
  exact this _ _

/-- C68: every range is that of a node of the tree, so it lies inside the record. -/
theorem c68_inside (d : Bytes) (t : Node) (hlen : d.length < 4294967296) (ht : dissectMrtBytes d = some t) (fs : List Finding)
    (s : Nat × Nat) (f : Finding) (h : (s, f) ∈ spanFindings fs t) :
    (∃ n, InTree t n ∧ n.span = s) ∧ s.1 + s.2 ≤ d.length := by
  have hnode : ∃ n, InTree t n ∧ n.span = s := by
    have hs : ∀ x o, (sectionSpan t x) = some o → ∃ n, InTree t n ∧ n.span = o := by
      intro x o ho
      rw [sectionSpan, (c53_find t x).2.2] at ho
      cases hx : (t.findAll x).head? with
      | none => rw [hx] at ho; cases ho
      | some n =>
        rw [hx] at ho
        cases ho
        exact ⟨n, (((c53_find t x).1 n).mp (List.mem_of_mem_head? hx)).1, rfl⟩
    have ha : ∀ c k o, attrSpan t c k = some o → ∃ n, InTree t n ∧ n.span = o := by
      intro c k o ho
      rw [attrSpan] at ho
      cases hx : (t.findAll (attrField c))[k]? with
      | none => rw [hx] at ho; cases ho
      | some n =>
        rw [hx] at ho
        cases ho
        exact ⟨n, (((c53_find t _).1 n).mp (List.mem_of_getElem? hx)).1, rfl⟩
    have hg : ∀ o : Option (Nat × Nat), (∀ v, o = some v → ∃ n, InTree t n ∧ n.span = v) → ∃ n, InTree t n ∧ n.span = o.getD t.span := by
      intro o ho
      cases o with
      | none => exact ⟨t, .self, rfl⟩
      | some v => exact ho v rfl
    have hor : ∀ c k o, (attrSpan t c k).or (sectionSpan t "bgp.update.path_attributes") = some o → ∃ n, InTree t n ∧ n.span = o := by
      intro c k o ho
      cases hx : attrSpan t c k with
      | none => rw [hx] at ho; exact hs _ _ ho
      | some v => rw [hx] at ho; cases ho; exact ha c k _ hx
    have hloc : ∀ cnt f, ∃ n, InTree t n ∧ n.span = (locateSpan t cnt f).1 := by
      intro cnt f
      unfold locateSpan
      split
      all_goals first
        | exact hg _ (hor _ _)
        | exact hg _ (hs _)
    have hl : ∀ fs cnt, (s, f) ∈ spanLoop t cnt fs → ∃ n, InTree t n ∧ n.span = s := by
      intro fs
      induction fs with
      | nil => intro _ h; cases h
      | cons g fs ih =>
        intro cnt h
        simp only [spanLoop, List.mem_cons] at h
        rcases h with h | h
        · obtain ⟨n, h1, h2⟩ := hloc cnt g
          cases h
          exact ⟨n, h1, h2⟩
        · exact ih _ h
    exact hl _ _ h
  refine ⟨hnode, ?_⟩
  obtain ⟨n, h1, h2⟩ := hnode
  have := ((c53_nested_partial d hlen).2 t ht n h1).1
  subst h2
  exact this

/-- hypotheses of `c68_update` and what it says about the example: the second ORIGIN attribute is at offset 59. -/
example : (match c67Update.parse, dissectMrtRecord c67Update with
    | .ok r, some t => spanFindings (findingsOf r.message) t | _, _ => []) =
    [((59, 4), .attr (.duplicate 1)), ((55, 8), .attr (.missing 2)), ((55, 8), .attr (.missing 3))] := by decide +kernel
example : updateFindings (updateCfg false .b32) c67Update.bytes.length 51 [] [⟨0x40, 1, [0]⟩, ⟨0x40, 1, [1]⟩] [] [8, 10]
    [.duplicate 1, .missing 2, .missing 3] =
    [((59, 4), .attr (.duplicate 1)), ((55, 8), .attr (.missing 2)), ((55, 8), .attr (.missing 3))] := by decide +kernel
example : Frame c67Update c67Update.bytes ∧ ∃ r m u, c67Update.parse = .ok r ∧ r.message = .bgp4mp (.message m) ∧ m.message = .update u := by
  refine ⟨⟨⟨by decide, by decide⟩, by decide, rfl, ?_⟩, _, _, _, rfl, rfl, rfl⟩
  rw [if_neg (by rintro ⟨h, _⟩; cases h)]; rfl

/-- hypotheses of `c68_refresh` and what it says about the example. -/
example : (match c67Refresh.parse, dissectMrtRecord c67Refresh with
    | .ok r, some t => spanFindings (findingsOf r.message) t | _, _ => []) = [((51, 4), .refresh (.unknownSubtype 9))] := by
  decide +kernel

end Verif.Props
