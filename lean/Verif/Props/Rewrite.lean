import Verif.Spec.Rewrite
import Verif.Lemmas.RewriteVal
import Verif.Lemmas.RewriteOpen
import Verif.Props.MrtBody
/-
C105. What was read can be written and read again unchanged, and where not.
-/
namespace Verif.Props
open Spec

/-- C105. Attributes that were read are written and read again unchanged exactly when each is `Rewritable`. -/
theorem c105_attributes {cfg : AttrCfg} (hc : ReadCfg cfg) {s : Bytes} {a : Attributes} (h : parseAttributes cfg s = .ok a) :
    (∃ bs a', encodeAttributes cfg.asnLen a.inner = .ok bs ∧ parseAttributes cfg bs = .ok a' ∧ a'.inner = a.inner) ↔
      ∀ x ∈ a.inner, Rewritable cfg x.value := by
  obtain ⟨ws, hws, hin⟩ := parse_cut h
  obtain ⟨g1, g2⟩ := wires_again hc ws hws
  rw [hin]
  constructor
  · rintro ⟨bs, a', h1, h2, h3⟩
    obtain ⟨ws', k1, rfl, k3⟩ := g2 bs h1
    obtain ⟨a'', m1, m2⟩ := parse_wires_nil cfg ws' k1
    rw [m1] at h2; cases h2
    intro x hx
    obtain ⟨w, hw, rfl⟩ := List.mem_map.mp hx
    exact k3 (m2.symm.trans h3) w hw
  · intro hr
    obtain ⟨ws', k1, k2, k3⟩ := g1 (fun w hw => hr _ (List.mem_map_of_mem hw))
    obtain ⟨a', m1, m2⟩ := parse_wires_nil cfg ws' k1
    exact ⟨_, a', k2, m1, m2.trans k3⟩

/-- what is written is read again. -/
theorem c105_attributes_again {cfg : AttrCfg} (hc : ReadCfg cfg) {s : Bytes} {a : Attributes} (h : parseAttributes cfg s = .ok a)
    (hr : ∀ x ∈ a.inner, Rewritable cfg x.value) {bs : Bytes} (hb : encodeAttributes cfg.asnLen a.inner = .ok bs) :
    ∃ a', parseAttributes cfg bs = .ok a' ∧ a'.inner = a.inner := by
  obtain ⟨bs', a', h1, h2, h3⟩ := (c105_attributes hc h).mpr hr
  rw [hb] at h1; cases h1
  exact ⟨a', h2, h3⟩

/-- the prefixes of an NLRI field, written and read again. -/
theorem field_again (ap : Bool) (b : Bytes) :
    fieldPrefixes ap (encodeNlri (fieldPrefixes ap b)) = fieldPrefixes ap b ∧ (encodeNlri (fieldPrefixes ap b)).length ≤ b.length := by
  cases h : parseNlriList .ipv4 ap b with
  | ok ps =>
    have e : fieldPrefixes ap b = ps := by unfold fieldPrefixes; rw [h]
    rw [e, (c02_nlri_sound _ _ _ _ h).1]
    exact ⟨e, Nat.le_refl _⟩
  | error e =>
    have e : fieldPrefixes ap b = [] := by unfold fieldPrefixes; rw [h]
    rw [e]
    exact ⟨rfl, Nat.zero_le _⟩

theorem update_inv {ap : Bool} {l : AsnLen} {s : Bytes} {u : Update} (h : parseUpdate ap l s = .ok u) :
    ∃ w a n as, w.length < 65536 ∧ parseAttributes (updateCfg ap l) a = .ok as ∧ u.withdrawn = fieldPrefixes ap w ∧
      u.announced = fieldPrefixes ap n ∧ u.attributes.inner = as.inner := by
  obtain ⟨w, a, n, rfl, hw, ha⟩ := parseUpdate_layout h
  have h' := h
  rw [parseUpdate_sections ap l w a n hw ha] at h'
  cases has : parseAttributes (updateCfg ap l) a with
  | error e => rw [has] at h'; cases h'
  | ok as =>
    obtain ⟨u', _, k1, k2, k3, k4, _⟩ := c54_sections ap l w a n hw ha as has
    rw [h] at k1; cases k1
    exact ⟨w, a, n, as, hw, has, k2, k3, k4⟩

/-- C105. An UPDATE that was read is written and read again with the same prefixes and attributes exactly when its
attributes are `Rewritable` and still fit. -/
theorem c105_update {ap : Bool} {l : AsnLen} {s : Bytes} {u : Update} (h : parseUpdate ap l s = .ok u) :
    (∃ b u', encodeUpdate l u = .ok b ∧ parseUpdate ap l b = .ok u' ∧ u'.withdrawn = u.withdrawn ∧
      u'.attributes.inner = u.attributes.inner ∧ u'.announced = u.announced) ↔
    (∀ x ∈ u.attributes.inner, Rewritable (updateCfg ap l) x.value) ∧
      ∀ b, encodeAttributes l u.attributes.inner = .ok b → b.length < 65536 := by
  obtain ⟨w, a, n, as, hw, has, e1, e2, e3⟩ := update_inv h
  have hc : ReadCfg (updateCfg ap l) := .session ap l
  have hi := c105_attributes hc has
  have hfw := field_again ap w
  have hfn := field_again ap n
  constructor
  · rintro ⟨b, u', h1, h2, h3, h4, h5⟩
    obtain ⟨ab, k1, k2, k3, rfl⟩ := encodeUpdate_ok h1
    refine ⟨?_, fun b hb => by rw [k1] at hb; cases hb; exact k3⟩
    rw [e3]
    refine hi.mp ?_
    rw [parseUpdate_sections ap l _ ab _ k2 k3] at h2
    cases has' : parseAttributes (updateCfg ap l) ab with
    | error e => rw [has'] at h2; cases h2
    | ok as' =>
      obtain ⟨u'', _, m1, m2, m3, m4, _⟩ := c54_sections ap l _ ab (encodeNlri u.announced) k2 k3 as' has'
      rw [parseUpdate_sections ap l _ ab _ k2 k3] at m1
      rw [m1] at h2; cases h2
      exact ⟨ab, as', by rw [← e3]; exact k1, has', by rw [← m4, h4, e3]⟩
  · rintro ⟨hr, hlen⟩
    rw [e3] at hr
    obtain ⟨ab, as', k1, k2, k3⟩ := hi.mpr hr
    rw [← e3] at k1
    have hal := hlen ab k1
    have hwl : (encodeNlri u.withdrawn).length < 65536 := by rw [e1]; omega
    obtain ⟨u', _, m1, m2, m3, m4, _⟩ := c54_sections ap l (encodeNlri u.withdrawn) ab (encodeNlri u.announced) hwl hal as' k2
    refine ⟨updateBytes (encodeNlri u.withdrawn) ab (encodeNlri u.announced), u', ?_, m1, ?_, ?_, ?_⟩
    · unfold encodeUpdate
      rw [u16Len_ok.mpr ⟨by omega, rfl⟩]
      simp only
      rw [show encodeAttributes l u.attributes.inner = .ok ab from k1]
      simp only
      rw [u16Len_ok.mpr ⟨by omega, rfl⟩]
      simp only [updateBytes]
      rw [n16_ofNat (by omega), n16_ofNat (by omega)]
      simp
    · rw [m2, e1]; exact hfw.1
    · rw [m4, k3, e3]
    · rw [m3, e2]; exact hfn.1

theorem encodeBgpMessage_frame {l : AsnLen} {m : BgpMessage} {body : Bytes} (h : encodeBody l m = .ok body) :
    (∀ b, encodeBgpMessage l m = .ok b → 19 + body.length < 65536) ∧
    (19 + body.length < 65536 → ∃ b, encodeBgpMessage l m = .ok b ∧ ∀ ap, parseBgpMessage ap l b =
      if (m.msgType = .open ∨ m.msgType = .keepAlive) ∧ 19 + body.length > 4096 then .error .parse
      else match parseBody ap l m.msgType body with
        | .ok m => .ok (m, [])
        | .error e => .error e) := by
  unfold encodeBgpMessage
  rw [h]
  dsimp only
  unfold checkMax
  by_cases hl : body.length + 16 + 2 + 1 > 65535
  · rw [if_pos hl]
    exact ⟨fun b hb => (by cases hb), fun hb => (by omega)⟩
  rw [if_neg hl]
  refine ⟨fun b _ => (by omega), fun hb => ⟨_, rfl, fun ap => ?_⟩⟩
  have e : List.replicate 16 0xFF ++ (be16 (UInt16.ofNat (body.length + 16 + 2 + 1)) ++ (m.msgType.toU8 :: body)) =
      messageBytes (List.replicate 16 0xFF) (19 + body.length) m.msgType.toU8 body ++ [] := by
    have : body.length + 16 + 2 + 1 = 19 + body.length := by omega
    rw [this, n16_ofNat hb]; simp [messageBytes]
  have ht : MsgType.ofU8? m.msgType.toU8 = some m.msgType := by cases m.msgType <;> rfl
  rw [e, parseBgpMessage_bytes ap l _ body [] _ (by simp) hb, ht]
  rfl

theorem encodeBgpMessage_body {l : AsnLen} {m : BgpMessage} {b : Bytes} (h : encodeBgpMessage l m = .ok b) :
    ∃ body, encodeBody l m = .ok body := by
  unfold encodeBgpMessage at h
  cases h1 : encodeBody l m with
  | error e => rw [h1] at h; cases h
  | ok body => exact ⟨body, rfl⟩

/-- C105. A BGP message that was read is written and read again as the same message, with nothing left over, exactly when it
is `MessageRewritable`. -/
theorem c105_message {ap : Bool} {l : AsnLen} {s r : Bytes} {m : BgpMessage} (h : parseBgpMessage ap l s = .ok (m, r)) :
    (∃ b m', encodeBgpMessage l m = .ok b ∧ parseBgpMessage ap l b = .ok (m', []) ∧ SameMessage m m') ↔
      MessageRewritable ap l m := by
  obtain ⟨marker, len, ty, rest, t, _, h19, hlen, _, _, hbig, hbody, _⟩ := (parseBgpMessage_iff ap l s m r).mp h
  generalize hd : rest.take (len - 19) = d at hbody
  have hdl : d.length ≤ len - 19 := by rw [← hd, List.length_take]; omega
  cases t with
  | «open» =>
    obtain ⟨o, ho, rfl⟩ := mapOk_inv (f := BgpMessage.open) hbody
    have h4 : len ≤ 4096 := by
      apply Nat.le_of_not_gt; intro hgt; exact hbig ⟨.inl rfl, hgt⟩
    obtain ⟨g1, g2⟩ := parseOpen_back ho
    constructor
    · rintro ⟨b, m', h1, h2, h3⟩
      obtain ⟨body, k1⟩ := encodeBgpMessage_body h1
      obtain ⟨f1, f2⟩ := encodeBgpMessage_frame k1
      obtain ⟨b', f3, f4⟩ := f2 (f1 b h1)
      rw [h1] at f3; cases f3
      refine ⟨fun p hp h255 => c17_type_255_refused o p hp h255 body k1, fun b'' hb'' => ?_⟩
      change encodeOpen o = _ at k1
      rw [k1] at hb''; cases hb''
      apply Nat.le_of_not_gt
      intro hgt
      rw [f4 ap, if_pos ⟨.inl rfl, by omega⟩] at h2
      cases h2
    · rintro ⟨h255, hl⟩
      obtain ⟨body, k1⟩ := g2 (by omega) h255
      have hl' := hl body k1
      obtain ⟨b, f3, f4⟩ := (encodeBgpMessage_frame (l := l) (m := .open o) k1).2 (by omega)
      refine ⟨b, .open { o with extended := o.extended || decide (265 < body.length) }, f3, ?_, body, k1, rfl⟩
      rw [f4 ap, if_neg (fun h => by omega)]
      simp only [BgpMessage.msgType, parseBody]
      rw [c17_open_roundtrip o body g1 k1]
      rfl
  | update =>
    obtain ⟨u, hu, rfl⟩ := mapOk_inv (f := BgpMessage.update) hbody
    have hi := c105_update hu
    constructor
    · rintro ⟨b, m', h1, h2, h3⟩
      obtain ⟨body, k1⟩ := encodeBgpMessage_body h1
      obtain ⟨f1, f2⟩ := encodeBgpMessage_frame k1
      have hsize := f1 b h1
      obtain ⟨b', f3, f4⟩ := f2 hsize
      rw [h1] at f3; cases f3
      change encodeUpdate l u = _ at k1
      obtain ⟨ab, m1, m2, m3, rfl⟩ := encodeUpdate_ok k1
      refine ⟨?_, fun b'' hb'' => ?_⟩
      · rw [f4 ap, if_neg (fun h => by rcases h.1 with h | h <;> cases h)] at h2
        simp only [BgpMessage.msgType, parseBody] at h2
        cases hp : parseUpdate ap l (updateBytes (encodeNlri u.withdrawn) ab (encodeNlri u.announced)) with
        | error e => rw [hp] at h2; cases h2
        | ok u' =>
          rw [hp] at h2
          cases h2
          exact (hi.mp ⟨_, u', k1, hp, h3⟩).1
      · rw [m1] at hb''; cases hb''
        simp [updateBytes, n16] at hsize
        omega
    · rintro ⟨hr, hl⟩
      obtain ⟨body, u', k1, k2, k3⟩ := hi.mpr ⟨hr, fun b hb => by have := hl b hb; omega⟩
      obtain ⟨ab, m1, m2, m3, rfl⟩ := encodeUpdate_ok k1
      have hl' := hl ab m1
      obtain ⟨b, f3, f4⟩ := (encodeBgpMessage_frame (l := l) (m := .update u) k1).2 (by simp [updateBytes, n16]; omega)
      refine ⟨b, .update u', f3, ?_, k3⟩
      rw [f4 ap, if_neg (fun h => by rcases h.1 with h | h <;> cases h)]
      simp only [BgpMessage.msgType, parseBody]
      rw [k2]; rfl
  | notification =>
    obtain ⟨n, hn, rfl⟩ := mapOk_inv (f := BgpMessage.notification) hbody
    refine ⟨fun _ => trivial, fun _ => ?_⟩
    have hform : ErrorOk n.error ∧ (encodeNotification n).length ≤ d.length := by
      match d, hn with
      | c :: sb :: dd, hn =>
        rw [parseNotification_cons] at hn
        cases hn
        exact ⟨((c18_error_numbers c sb _).mp rfl).1, by simp [encodeNotification]⟩
    obtain ⟨b, f3, f4⟩ := (encodeBgpMessage_frame (l := l) (m := .notification n) rfl).2 (by omega)
    refine ⟨b, .notification n, f3, ?_, rfl⟩
    rw [f4 ap, if_neg (fun h => by rcases h.1 with h | h <;> cases h)]
    simp only [BgpMessage.msgType, parseBody]
    rw [c18_notification_roundtrip n hform.1]; rfl
  | keepAlive =>
    cases hbody
    refine ⟨fun _ => trivial, fun _ => ?_⟩
    have := c18_keepalive ap l []
    rw [List.append_nil] at this
    exact ⟨_, _, this.1, this.2, trivial⟩
  | routeRefresh =>
    obtain ⟨n, hn, rfl⟩ := mapOk_inv (f := BgpMessage.routeRefresh) hbody
    refine ⟨fun _ => trivial, fun _ => ?_⟩
    have hform : (encodeRouteRefresh n).length ≤ d.length := by
      unfold parseRouteRefresh at hn
      obtain ⟨r', hn⟩ := runOn_inv hn
      rw [Rd.bind_eq_ok] at hn; obtain ⟨_, s1, k1, hn⟩ := hn
      rw [Rd.bind_eq_ok] at hn; obtain ⟨_, s2, k2, hn⟩ := hn
      rw [Rd.bind_eq_ok] at hn; obtain ⟨_, s3, k3, hn⟩ := hn
      rw [Rd.bind_eq_ok] at hn; obtain ⟨_, s4, k4, hn⟩ := hn
      rw [Rd.bind_eq_ok] at hn; obtain ⟨_, s5, k5, hn⟩ := hn
      obtain ⟨_, rfl⟩ := remaining_inv k5
      rw [Rd.bind_eq_ok] at hn; obtain ⟨dd, s6, k6, hn⟩ := hn
      cases hn
      rw [← needN_inv k1, rdU16_ok k2, rdU8_ok k3, rdU8_ok k4, (splitTo_ok k6).1]
      simp [encodeRouteRefresh, be16]
    obtain ⟨b, f3, f4⟩ := (encodeBgpMessage_frame (l := l) (m := .routeRefresh n) rfl).2 (by omega)
    refine ⟨b, .routeRefresh n, f3, ?_, rfl⟩
    rw [f4 ap, if_neg (fun h => by rcases h.1 with h | h <;> cases h)]
    simp only [BgpMessage.msgType, parseBody]
    rw [c18_route_refresh_roundtrip]; rfl

/-! ### RIB records -/

theorem ribEntry_again {ap : Bool} {afi : Afi} {safi : Safi} {p : NetworkPrefix} (hc : ReadCfg (ribCfg ap afi safi p)) {e : RibEntry}
    {c : Bytes} (he : RibEntryBytes ap afi safi p e c) :
    (EntryRewritable (ribCfg ap afi safi p) e → ∃ b e', encRibEntry ap e = .ok b ∧ RibEntryBytes ap afi safi p e' b ∧ SameEntry e e') ∧
    ∀ b e' c' u v, encRibEntry ap e = .ok b → RibEntryBytes ap afi safi p e' c' → SameEntry e e' → c' ++ u = b ++ v →
      EntryRewritable (ribCfg ap afi safi p) e ∧ u = v := by
  obtain ⟨pb, ab, as, hpb, hab, _, has, hat⟩ := he
  have hin : e.attributes.inner = as.inner := by rw [hat]; rfl
  have hi := c105_attributes hc has
  have hpid : (if ap then encPathId e.pathId else []) = pb := by
    cases hp : e.pathId with
    | none => rw [hp] at hpb; obtain ⟨rfl, rfl⟩ := hpb; rfl
    | some i => rw [hp] at hpb; obtain ⟨rfl, rfl⟩ := hpb; simp [encPathId, be32_n32]
  constructor
  · rintro ⟨hr, hl⟩
    rw [hin] at hr
    obtain ⟨bs, a', k1, k2, k3⟩ := hi.mpr hr
    change encodeAttributes .b32 as.inner = _ at k1
    rw [← hin] at k1
    have hbl := hl bs k1
    refine ⟨n16 e.peerIndex.toNat ++ n32 e.time.toNat ++ pb ++ n16 bs.length ++ bs,
      { e with attributes := a'.checkMandatory true (afi == .ipv4) }, ?_, ⟨pb, bs, a', hpb, hbl, rfl, k2, rfl⟩, rfl, rfl, rfl, ?_⟩
    · unfold encRibEntry
      rw [k1]
      dsimp only
      rw [u16Len_ok.mpr ⟨by omega, rfl⟩, hpid]
      dsimp only
      rw [be16_n16, be32_n32, n16_ofNat (by omega)]; simp
    · rw [hin]; exact k3
  · rintro b e' c' u v hb ⟨pb', ab', as', hpb', hab', rfl, has', hat'⟩ ⟨s1, s2, s3, s4⟩ hcat
    unfold encRibEntry at hb
    cases h1 : encodeAttributes .b32 e.attributes.inner with
    | error x => rw [h1] at hb; cases hb
    | ok bs =>
      rw [h1] at hb
      dsimp only at hb
      cases h2 : u16Len bs with
      | error x => rw [h2] at hb; cases hb
      | ok a =>
        rw [h2] at hb
        injection hb with hb
        obtain ⟨hl, rfl⟩ := u16Len_ok.mp h2
        have hpp : pb' = pb := by
          rw [s3] at hpb'
          cases hp : e.pathId with
          | none => rw [hp] at hpb hpb'; rw [hpb.2, hpb'.2]
          | some i => rw [hp] at hpb hpb'; rw [hpb.2, hpb'.2]
        rw [← hb, hpid, be16_n16, be32_n32, n16_ofNat (by omega), s1, s2, hpp] at hcat
        simp only [List.append_assoc, List.append_cancel_left_eq] at hcat
        have hlen : ab'.length = bs.length := by
          have g1 := rdU16_n16 hab' (ab' ++ u)
          have g2 := rdU16_n16 (show bs.length < 65536 by omega) (bs ++ v)
          rw [hcat, g2] at g1
          injection g1 with g1
          have := congrArg (fun x => x.1.toNat) g1
          simp only [toNat_u16len (show ab'.length ≤ 65535 by omega), toNat_u16len (show bs.length ≤ 65535 by omega)] at this
          exact this.symm
        rw [hlen, List.append_cancel_left_eq] at hcat
        obtain ⟨rfl, rfl⟩ := List.append_inj hcat hlen
        refine ⟨⟨?_, fun b hb => by rw [h1] at hb; cases hb; omega⟩, rfl⟩
        rw [hin]
        refine hi.mp ⟨ab', as', ?_, has', ?_⟩
        · rw [← hin]; exact h1
        · rw [← hin, ← s4, hat']; rfl

theorem ribEntries_again {ap : Bool} {afi : Afi} {safi : Safi} {p : NetworkPrefix} (hc : ReadCfg (ribCfg ap afi safi p)) :
    ∀ {es : List RibEntry} {c : Bytes}, Blocks (RibEntryBytes ap afi safi p) es c →
    ((∀ e ∈ es, EntryRewritable (ribCfg ap afi safi p) e) → ∃ b es', encAll (encRibEntry ap) es = .ok b ∧
      Blocks (RibEntryBytes ap afi safi p) es' b ∧ Pairwise2 SameEntry es es') ∧
    ∀ b es' c' u v, encAll (encRibEntry ap) es = .ok b → Blocks (RibEntryBytes ap afi safi p) es' c' → Pairwise2 SameEntry es es' →
      c' ++ u = b ++ v → ∀ e ∈ es, EntryRewritable (ribCfg ap afi safi p) e := by
  intro es c h
  induction h with
  | nil => exact ⟨fun _ => ⟨[], [], rfl, .nil, .nil⟩, fun _ _ _ _ _ _ _ _ _ e he => by cases he⟩
  | cons h1 _ ih =>
    obtain ⟨g1, g2⟩ := ribEntry_again hc h1
    constructor
    · intro hr
      obtain ⟨b1, e', k1, k2, k3⟩ := g1 (hr _ (by simp))
      obtain ⟨b2, es', m1, m2, m3⟩ := ih.1 (fun e he => hr e (by simp [he]))
      exact ⟨_, _, encAll_cons_ok.mpr ⟨_, _, k1, m1, rfl⟩, .cons k2 m2, .cons k3 m3⟩
    · intro b es' c' u v hb hbl hp hcat
      obtain ⟨x, y, k1, k2, rfl⟩ := encAll_cons_ok.mp hb
      cases hp with
      | cons q1 q2 =>
        cases hbl with
        | cons n1 n2 =>
          rw [List.append_assoc, List.append_assoc] at hcat
          obtain ⟨w1, w2⟩ := g2 _ _ _ _ _ k1 n1 q1 hcat
          intro e he
          rcases List.mem_cons.mp he with rfl | he
          · exact w1
          · exact ih.2 _ _ _ _ _ k2 n2 q2 w2 e he

/-- C105. A RIB record that was read is written and read again with the same entries exactly when the attributes of each
entry are `Rewritable` and still fit. -/
theorem c105_rib {t : V2Type} {n : Nat} {afi : Afi} {safi : Safi} {ap : Bool} (ht : ribFamily t = some (n, afi, safi, ap)) {s : Bytes}
    {r : RibAfi} (h : parseTableDumpV2 (UInt16.ofNat n) s = .ok (.ribAfi r)) :
    (∃ b r', encodeRibAfi r = .ok b ∧ parseTableDumpV2 (UInt16.ofNat n) b = .ok (.ribAfi r') ∧ SameRib r r') ↔
      ∀ e ∈ r.entries, EntryRewritable (ribCfg ap afi safi r.prefix_) e := by
  have read := fun s x => c28_read_iff t n afi safi ap ht s x
  obtain ⟨r0, e0, n', afi', safi', ap', pb, body, tail, k, hf, hrt, hnone, hpb, hk, rfl, hbl, hcnt⟩ := (read _ _).mp h
  cases e0
  rw [ht] at hf; cases hf
  have hc : ReadCfg (ribCfg ap afi safi r.prefix_) := .rib ht hpb hnone
  obtain ⟨g1, g2⟩ := ribEntries_again hc hbl
  have hkl : r.entries.length ≤ 65535 := by rcases hcnt with h | ⟨h, _⟩ <;> omega
  have hck : checkMax r.entries.length 65535 = .ok r.entries.length := checkMax_ok.mpr ⟨hkl, rfl⟩
  have hap : r.ribType.addPath = ap := by rw [hrt]; exact (ribFamily_family _ _ _ _ _ ht).2.1
  have hpe : r.prefix_.encode = pb := by
    rw [hpb.2.2.2]; simp [NetworkPrefix.encode, hnone, encPathId, byteLen]
  constructor
  · rintro ⟨b, r', h1, h2, hs1, hs2, hs3, hs4⟩
    obtain ⟨r1, e1, n', afi', safi', ap', pb', body', tail', k', hf', hrt', hnone', hpb', hk', rfl, hbl', hcnt'⟩ := (read _ _).mp h2
    cases e1
    rw [ht] at hf'; cases hf'
    unfold encodeRibAfi at h1
    rw [hck] at h1
    dsimp only at h1
    cases h3 : encAll (encRibEntry r.ribType.addPath) r.entries with
    | error e => rw [h3] at h1; cases h1
    | ok eb =>
      rw [h3] at h1
      injection h1 with h1
      rw [hap] at h3
      have hpp : pb' = pb := by rw [hpb'.2.2.2, hpb.2.2.2, hs3]
      rw [hpe, be32_n32, n16_ofNat (by omega), hs2, hpp] at h1
      simp only [List.append_assoc, List.append_cancel_left_eq] at h1
      obtain ⟨_, h5⟩ := List.append_inj h1 (by simp [n16])
      rw [hs3] at hbl'
      exact g2 eb r'.entries body' tail' [] h3 hbl' hs4 (by rw [h5]; simp)
  · intro hr
    obtain ⟨eb, es', k1, k2, k3⟩ := g1 hr
    refine ⟨n32 r.seq.toNat ++ pb ++ n16 r.entries.length ++ eb ++ [], { r with entries := es' }, ?_, ?_, rfl, rfl, rfl, k3⟩
    · unfold encodeRibAfi
      rw [hck]
      dsimp only
      rw [hap, k1]
      dsimp only
      rw [hpe, be32_n32, n16_ofNat (by omega)]; simp
    · exact (read _ _).mpr ⟨_, rfl, n, afi, safi, ap, pb, eb, [], r.entries.length, ht, hrt, hnone, hpb, by omega, rfl, k2,
        .inl (Pairwise2_length k3).symm⟩

/-! ### cases -/

/-- what happens to attributes that are read, written and read again: `some true` if they come back. -/
def c105Back (cfg : AttrCfg) (s : Bytes) : Option Bool :=
  match parseAttributes cfg s with
  | .error _ => none
  | .ok a => match encodeAttributes cfg.asnLen a.inner with
    | .error _ => some false
    | .ok bs => match parseAttributes cfg bs with
      | .error _ => some false
      | .ok a' => some (decide (a'.inner = a.inner))

def c105Rib : AttrCfg := ribCfg true .ipv6 .unicast ⟨⟨.v6 #v[32, 1, 13, 184, 0, 0, 0, 0, 0, 0, 0, 0, 0, 0, 0, 0], 32⟩, none⟩

theorem c105Rib_cfg : ReadCfg c105Rib :=
  .rib (t := .v6UniAp) (n := 10) (b := [32, 32, 1, 13, 184]) rfl
    ⟨trivial, by decide +kernel, by decide +kernel, by decide +kernel⟩ rfl

/-- C105. The exceptions all occur in attributes that are read without an error: an MP_REACH_NLRI without next hop, a labelled
withdrawal, link-state NLRI, an AGGREGATOR of eight octets with a large AS number in a session with two-octet AS numbers, a
tunnel sub-TLV with two-octet length and unassigned type, a prefix of length 0 under the link-state family, and the
abbreviated MP_REACH_NLRI of a RIB record with path identifiers. -/
theorem c105_exceptions :
    c105Back (updateCfg false .b32) [0x80, 14, 9, 0, 1, 1, 0, 0, 24, 10, 0, 0] = some false ∧
    c105Back (updateCfg false .b32) [0x80, 15, 10, 0, 1, 4, 48, 128, 0, 0, 10, 0, 0] = some false ∧
    c105Back (updateCfg false .b32) [0x80, 15, 16, 64, 4, 71, 0, 1, 0, 9, 1, 0, 0, 0, 0, 0, 0, 0, 0] = some false ∧
    c105Back (updateCfg false .b16) [0xC0, 7, 8, 0, 1, 0, 0, 10, 0, 0, 1] = some false ∧
    c105Back (updateCfg false .b32) ([0xD0, 23, 1, 7, 0, 1, 1, 3, 200, 1, 0] ++ List.replicate 256 7) = some false ∧
    c105Back (updateCfg false .b32) [0x80, 15, 4, 64, 4, 1, 0] = some false ∧
    c105Back c105Rib [0x80, 14, 17, 16, 32, 1, 13, 184, 0, 0, 0, 0, 0, 0, 0, 0, 0, 0, 0, 1] = some false := by
  refine ⟨?_, ?_, ?_, ?_, ?_, ?_, ?_⟩ <;> decide +kernel

/-- ORIGIN, AS_PATH, NEXT_HOP and an MP_REACH_NLRI of IPv6 come back, and so do the abbreviated MP_REACH_NLRI of a RIB
record without path identifiers and an OPEN or RIB record. -/
example :
    c105Back (updateCfg false .b32) ([0x40, 1, 1, 0, 0x40, 2, 6, 2, 1, 0, 0, 0xFC, 0, 0x40, 3, 4, 10, 0, 0, 1] ++
      ([0x80, 14, 26, 0, 2, 1, 16, 32, 1, 13, 184, 0, 0, 0, 0, 0, 0, 0, 0, 0, 0, 0, 1, 0] ++ [32, 32, 1, 13, 184])) = some true ∧
    c105Back (ribCfg false .ipv6 .unicast ⟨⟨.v6 #v[32, 1, 13, 184, 0, 0, 0, 0, 0, 0, 0, 0, 0, 0, 0, 0], 32⟩, none⟩)
      [0x80, 14, 17, 16, 32, 1, 13, 184, 0, 0, 0, 0, 0, 0, 0, 0, 0, 0, 0, 1] = some true := by
  constructor <;> decide +kernel

/-- an UPDATE that announces 10.0.0.0/8, and the same with a labelled withdrawal. -/
def c105Frame (extra : Bytes) : Bytes :=
  List.replicate 16 255 ++ [0, UInt8.ofNat (45 + extra.length), 2, 0, 0, 0, UInt8.ofNat (20 + extra.length)] ++
    [0x40, 1, 1, 0, 0x40, 2, 6, 2, 1, 0, 0, 0xFC, 0, 0x40, 3, 4, 10, 0, 0, 1] ++ extra ++ [8, 10]

def c105Message (s : Bytes) : Option Bool :=
  match parseBgpMessage false .b32 s with
  | .error _ => none
  | .ok (m, _) => match encodeBgpMessage .b32 m with
    | .error _ => some false
    | .ok b => match parseBgpMessage false .b32 b with
      | .error _ => some false
      | .ok (m', _) => match m, m' with
        | .update u, .update u' =>
          some (decide (u'.withdrawn = u.withdrawn ∧ u'.attributes.inner = u.attributes.inner ∧ u'.announced = u.announced))
        | _, _ => some false

example : c105Message (c105Frame []) = some true ∧
    c105Message (c105Frame [0x80, 15, 10, 0, 1, 4, 48, 128, 0, 0, 10, 0, 0]) = some false := by
  constructor <;> decide +kernel

/-- a RIB record of 10.0.0.0/8 with one entry meets the hypotheses of `c105_rib`, and its entry is `EntryRewritable`. -/
example : ∃ r, parseTableDumpV2 2 ([0, 0, 0, 1, 8, 10, 0, 1, 0, 3, 0, 0, 0, 9, 0, 20] ++
      [0x40, 1, 1, 0, 0x40, 2, 6, 2, 1, 0, 0, 0xFC, 0, 0x40, 3, 4, 10, 0, 0, 1]) = .ok (.ribAfi r) ∧
    r.entries.length = 1 ∧ ∀ e ∈ r.entries, EntryRewritable (ribCfg false .ipv4 .unicast r.prefix_) e := by
  refine ⟨⟨.v4Uni, 1, ⟨⟨.v4 #v[10, 0, 0, 0], 8⟩, none⟩, [⟨3, 9, none, _⟩]⟩, rfl, rfl, ?_⟩
  intro e he
  cases List.mem_singleton.mp he
  refine ⟨?_, fun b hb => ?_⟩
  · intro x hx
    rcases List.mem_cons.mp hx with rfl | hx
    · trivial
    rcases List.mem_cons.mp hx with rfl | hx
    · trivial
    rcases List.mem_cons.mp hx with rfl | hx
    · trivial
    cases hx
  · have : b.length = 20 := by
      have h2 := congrArg (fun x => x.toOption.map List.length) hb
      revert h2; exact fun h2 => Option.some.inj (h2.symm.trans (by decide +kernel))
    omega

end Verif.Props
