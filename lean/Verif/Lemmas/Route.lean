import Verif.Model.Route
import Verif.Lemmas.Elem
import Verif.Lemmas.MrtMsgs
/-
The route iterators: attributes and single records.
-/
namespace Verif
open Spec

/-! ### attributes -/

/-- the part of the relevant attributes that routes need. -/
def Relevant.route (r : Relevant) : RouteAttrs := ⟨r.asPath, r.as4Path, prefixesOf r.announced, prefixesOf r.withdrawn⟩

theorem routeStep_other (r : Relevant) (x : AttrVal) (h2 : x.code ≠ 2) (h17 : x.code ≠ 17) (h14 : x.code ≠ 14) (h15 : x.code ≠ 15) :
    (r.step x).route = r.route := by
  cases x <;> first | rfl | exact absurd rfl h2 | exact absurd rfl h17 | exact absurd rfl h14 | exact absurd rfl h15

theorem routeStep_raw (r : Relevant) (c : UInt8) (b : Bytes) : (r.step (.raw c b)).route = r.route := rfl

theorem decodeAttr_of {cfg : AttrCfg} {code : UInt8} {d : Bytes} {α : Type} {f : α → AttrVal} {y : Except Err α}
    (h1 : code ∉ deprecatedCodes) (h2 : code ∈ knownAttrCodes) (h3 : code ∉ rawRetainedCodes)
    (h4 : parseAttrVal cfg code d = mapOk f y) {x : AttrVal} {bad : Bool} (h : decodeAttr cfg code d = .ok (x, bad)) :
    (∃ v, y = .ok v ∧ x = f v) ∨ (∃ e, y = .error e ∧ e ≠ .panic ∧ x = .raw code d) := by
  unfold decodeAttr at h
  rw [if_neg h1, if_neg (fun h => h h2), if_neg h3, h4] at h
  cases y with
  | ok v =>
    simp only [mapOk] at h
    split at h
    · cases h
    · cases h; exact .inl ⟨v, rfl, rfl⟩
  | error e =>
    simp only [mapOk] at h
    by_cases he : e = .panic
    · subst he; cases h
    · refine .inr ⟨e, rfl, he, ?_⟩
      cases e <;> first | exact absurd rfl he | (cases h; rfl)

theorem keepOk_error {f : α → RouteAttrs} {a : RouteAttrs} {e : Err} (h : e ≠ .panic) : keepOk f a (.error e) = .ok a := by
  cases e <;> first | rfl | exact absurd rfl h

theorem routeStep (cfg : AttrCfg) (code : UInt8) (d : Bytes) (r : Relevant) {x : AttrVal} {bad : Bool}
    (h : decodeAttr cfg code d = .ok (x, bad)) : r.route.step cfg code d = .ok (r.step x).route := by
  have hc : x.code = code := by
    obtain ⟨x', bad', h1, h2⟩ := decodeAttr_total cfg code d
    rw [h] at h1; cases h1; exact h2
  unfold RouteAttrs.step
  by_cases h2 : code = 2
  · subst h2
    rw [if_pos rfl]
    rcases decodeAttr_of (f := .asPath) (y := parseAsPath cfg.asnLen d) (by decide) (by decide) (by decide) rfl h with
      ⟨v, hv, rfl⟩ | ⟨e, he, hp, rfl⟩
    · rw [hv]; rfl
    · rw [he, keepOk_error hp]; rfl
  rw [if_neg h2]
  by_cases h17 : code = 17
  · subst h17
    rw [if_pos rfl]
    rcases decodeAttr_of (f := .as4Path) (y := parseAsPath .b32 d) (by decide) (by decide) (by decide) rfl h with
      ⟨v, hv, rfl⟩ | ⟨e, he, hp, rfl⟩
    · rw [hv]; rfl
    · rw [he, keepOk_error hp]; rfl
  rw [if_neg h17]
  by_cases h14 : code = 14
  · subst h14
    rw [if_pos rfl]
    rcases decodeAttr_of (f := .mpReach) (y := parseNlri cfg.afi cfg.safi cfg.prefixes true cfg.addPath d)
      (by decide) (by decide) (by decide) rfl h with
      ⟨v, hv, rfl⟩ | ⟨e, he, hp, rfl⟩
    · rw [hv]; rfl
    · rw [he, keepOk_error hp]; rfl
  rw [if_neg h14]
  by_cases h15 : code = 15
  · subst h15
    rw [if_pos rfl]
    rcases decodeAttr_of (f := .mpUnreach) (y := parseNlri cfg.afi cfg.safi cfg.prefixes false cfg.addPath d)
      (by decide) (by decide) (by decide) rfl h with
      ⟨v, hv, rfl⟩ | ⟨e, he, hp, rfl⟩
    · rw [hv]; rfl
    · rw [he, keepOk_error hp]; rfl
  rw [if_neg h15, routeStep_other r x (hc ▸ h2) (hc ▸ h17) (hc ▸ h14) (hc ▸ h15)]

theorem routeAttrLoop_eq (cfg : AttrCfg) (fuel : Nat) : ∀ (v : VState) (r : Relevant) (s : Bytes),
    routeAttrLoop cfg fuel r.route s =
      mapOk (fun p => (p.1.foldl (fun r x => r.step x.value) r).route) (attrLoop cfg fuel v s) := by
  induction fuel with
  | zero =>
    intro v r s
    rw [routeAttrLoop, attrLoop]
    split <;> rfl
  | succ fuel ih =>
    intro v r s
    rw [routeAttrLoop, attrLoop]
    split
    · rfl
    cases rdAttrHead s with
    | error e => rfl
    | ok y =>
      obtain ⟨⟨flag, code, len⟩, t⟩ := y
      dsimp only
      split
      · rfl
      obtain ⟨x, bad, hx, _⟩ := decodeAttr_total cfg code (t.take len)
      rw [hx, routeStep cfg code _ r hx]
      dsimp only
      rw [ih (if bad = true then (v.header code flag len).parseError code (isPartial flag) else v.header code flag len)]
      cases attrLoop cfg fuel (if bad = true then (v.header code flag len).parseError code (isPartial flag) else v.header code flag len)
        (t.drop len) with
      | error e => rfl
      | ok p => rfl

/-- what routes need of a list of attributes. -/
def routeAttrs (as : List Attribute) : RouteAttrs := (relRaw as).route

theorem parseRouteAttrs_eq (cfg : AttrCfg) (s : Bytes) :
    parseRouteAttrs cfg s = mapOk (fun a => routeAttrs a.inner) (parseAttributes cfg s) := by
  unfold parseRouteAttrs parseAttributes
  rw [show RouteAttrs.init = Relevant.init.route from rfl, routeAttrLoop_eq cfg s.length VState.init]
  cases attrLoop cfg s.length VState.init s <;> rfl

/-- the path of a list of attributes. -/
def pathOf (as : List Attribute) : Option AsPath := mergePaths (relRaw as).asPath (relRaw as).as4Path

theorem routeAttrs_path (as : List Attribute) : (routeAttrs as).path = pathOf as := rfl

theorem parseRouteAttrs_noPanic (cfg : AttrCfg) (s : Bytes) : parseRouteAttrs cfg s ≠ .error .panic := by
  rw [parseRouteAttrs_eq]
  cases h : parseAttributes cfg s with
  | ok a => simp [mapOk]
  | error e =>
    intro h'
    simp only [mapOk, Except.error.injEq] at h'
    exact parseAttributes_noPanic cfg s (h'.symm ▸ h)

/-! ### warnings -/

/-- no note about prefixes that cannot be read. -/
def Warning.other : Warning → Prop
  | .malformedNlri _ _ => False
  | _ => True

theorem VState.header_other (v : VState) (c f : UInt8) (n : Nat) (h : ∀ w ∈ v.warnings, w.other) : ∀ w ∈ (v.header c f n).warnings, w.other := by
  intro w hw
  simp only [VState.header, flagWarnings, lengthWarnings, List.mem_append] at hw
  rcases hw with ((hw | hw) | hw) | hw
  · exact h w hw
  · split at hw <;> simp at hw; subst hw; trivial
  · repeat' split at hw
    all_goals simp at hw
    all_goals (try rcases hw with hw | hw)
    all_goals (try subst hw)
    all_goals trivial
  · repeat' split at hw
    all_goals simp at hw
    all_goals (try subst hw)
    all_goals trivial

theorem VState.parseError_other (v : VState) (c : UInt8) (p : Bool) (h : ∀ w ∈ v.warnings, w.other) : ∀ w ∈ (v.parseError c p).warnings, w.other := by
  intro w hw
  simp only [VState.parseError, List.mem_append, List.mem_singleton] at hw
  rcases hw with hw | hw
  · exact h w hw
  · subst hw; split
    · trivial
    · split <;> trivial

theorem attrLoop_other (cfg : AttrCfg) (fuel : Nat) : ∀ (v v' : VState) (s : Bytes) (as : List Attribute),
    attrLoop cfg fuel v s = .ok (as, v') → (∀ w ∈ v.warnings, w.other) → ∀ w ∈ v'.warnings, w.other := by
  induction fuel with
  | zero =>
    intro v v' s as h hv
    rw [attrLoop] at h
    split at h
    · cases h; exact hv
    · cases h
  | succ fuel ih =>
    intro v v' s as h hv
    rw [attrLoop] at h
    split at h
    · cases h; exact hv
    cases hh : rdAttrHead s with
    | error e => rw [hh] at h; cases h
    | ok y =>
      obtain ⟨⟨flag, code, len⟩, t⟩ := y
      rw [hh] at h
      dsimp only at h
      have h1 := v.header_other code flag len hv
      split at h
      · cases h; exact h1
      cases hd : decodeAttr cfg code (t.take len) with
      | error e => rw [hd] at h; cases h
      | ok x =>
        obtain ⟨x, bad⟩ := x
        rw [hd] at h
        dsimp only at h
        generalize hvv : (if bad = true then (v.header code flag len).parseError code (isPartial flag) else v.header code flag len) = vv at h
        have h2 : ∀ w ∈ vv.warnings, w.other := by
          subst hvv; split
          · exact VState.parseError_other _ _ _ h1
          · exact h1
        cases ha : attrLoop cfg fuel vv (t.drop len) with
        | error e => rw [ha] at h; cases h
        | ok p => rw [ha] at h; cases h; exact ih vv _ _ _ ha h2

theorem parseAttributes_other {cfg : AttrCfg} {s : Bytes} {a : Attributes} (h : parseAttributes cfg s = .ok a) :
    ∀ w ∈ a.warnings, w.other := by
  unfold parseAttributes at h
  cases ha : attrLoop cfg s.length VState.init s with
  | error e => rw [ha] at h; cases h
  | ok p => rw [ha] at h; cases h; exact attrLoop_other cfg _ _ _ _ _ ha (by simp [VState.init])

theorem missingWarnings_other (m : Mask) (a b : Bool) : ∀ w ∈ missingWarnings m a b, w.other := by
  intro w hw
  have : ∃ c, w = .missing c := by
    unfold missingWarnings at hw
    split at hw
    · cases hw
    simp only [List.mem_append] at hw
    rcases hw with (hw | hw) | hw <;> split at hw <;> simp at hw <;> exact ⟨_, hw⟩
  obtain ⟨c, rfl⟩ := this
  trivial

/-! ### UPDATE messages -/

/-- the routes of an UPDATE that can be read. -/
def Update.routes (u : Update) (t : Nat) (ip : Ip) (asn : Asn) : RouteIter :=
  .update t ip asn (pathOf u.attributes.inner) (u.announced ++ (routeAttrs u.attributes.inner).announced)
    (u.withdrawn ++ (routeAttrs u.attributes.inner).withdrawn)

/-- an UPDATE with a field of prefixes that cannot be read. -/
def Update.badNlri (u : Update) : Prop := ∃ w b, Warning.malformedNlri w b ∈ u.attributes.warnings

theorem updateRoutes_ok {ap : Bool} {l : AsnLen} {s : Bytes} {u : Update} (h : parseUpdate ap l s = .ok u) (t : Nat) (ip : Ip)
    (asn : Asn) : (¬ u.badNlri → updateRoutes ap l t ip asn s = .ok (u.routes t ip asn)) ∧
    (u.badNlri → ∃ e, updateRoutes ap l t ip asn s = .error e) := by
  unfold parseUpdate at h
  unfold updateRoutes
  cases h1 : rdSection s with
  | error e => rw [h1] at h; cases h
  | ok y =>
    obtain ⟨wb, r⟩ := y
    rw [h1] at h
    dsimp only at h ⊢
    rw [nlriOrWarn_eq] at h
    dsimp only at h
    cases h2 : rdSection r with
    | error e => rw [h2] at h; cases h
    | ok y =>
      obtain ⟨ab, nb⟩ := y
      rw [h2] at h
      dsimp only at h ⊢
      rw [parseRouteAttrs_eq]
      cases h3 : parseAttributes ⟨l, ap, none, none, none⟩ ab with
      | error e => rw [h3] at h; cases h
      | ok as =>
        rw [h3] at h
        dsimp only at h
        rw [nlriOrWarn_eq] at h
        dsimp only at h
        rw [foldl_addWarning, foldl_addWarning] at h
        injection h with h
        subst h
        have hw : ∀ w b, Warning.malformedNlri w b ∉ as.warnings ++ missingWarnings as.mask (!nb.isEmpty || as.hasAttr 14) (!nb.isEmpty) := by
          intro w b hm
          rcases List.mem_append.1 hm with hm | hm
          · exact parseAttributes_other h3 _ hm
          · exact missingWarnings_other _ _ _ _ hm
        unfold Update.badNlri Update.routes fieldWarnings fieldPrefixes Attributes.checkMandatory
        dsimp only
        cases h4 : parseNlriList .ipv4 ap wb with
        | error e =>
          dsimp only
          refine ⟨fun hn => absurd ⟨true, wb, ?_⟩ hn, fun _ => ⟨e, rfl⟩⟩
          simp
        | ok ws =>
          dsimp only
          cases h5 : parseNlriList .ipv4 ap nb with
          | error e =>
            dsimp only
            refine ⟨fun hn => absurd ⟨false, nb, ?_⟩ hn, fun _ => ⟨e, rfl⟩⟩
            simp
          | ok ns =>
            dsimp only
            refine ⟨fun _ => rfl, ?_⟩
            rintro ⟨w, b, hb⟩
            simp only [List.append_nil] at hb
            exact absurd hb (hw w b)

theorem updateRoutes_error {ap : Bool} {l : AsnLen} {s : Bytes} {e : Err} (h : parseUpdate ap l s = .error e) (t : Nat) (ip : Ip)
    (asn : Asn) : ∃ e, updateRoutes ap l t ip asn s = .error e := by
  unfold parseUpdate at h
  unfold updateRoutes
  cases h1 : rdSection s with
  | error e => exact ⟨e, rfl⟩
  | ok y =>
    obtain ⟨wb, r⟩ := y
    rw [h1] at h
    dsimp only at h ⊢
    rw [nlriOrWarn_eq] at h
    dsimp only at h
    cases parseNlriList .ipv4 ap wb with
    | error e => exact ⟨e, rfl⟩
    | ok ws =>
      dsimp only
      cases h2 : rdSection r with
      | error e => exact ⟨e, rfl⟩
      | ok y =>
        obtain ⟨ab, nb⟩ := y
        rw [h2] at h
        dsimp only at h ⊢
        rw [parseRouteAttrs_eq]
        cases h3 : parseAttributes ⟨l, ap, none, none, none⟩ ab with
        | error e => cases parseNlriList .ipv4 ap nb <;> exact ⟨_, rfl⟩
        | ok as =>
          rw [h3] at h
          dsimp only at h
          rw [nlriOrWarn_eq] at h
          cases h

theorem parseNlriList_noPanic (afi : Afi) (ap : Bool) (s : Bytes) : parseNlriList afi ap s ≠ .error .panic :=
  nlriLoop_noPanic (afi := afi) (ap := ap) s.length ap false s (Nat.le_refl _)

theorem updateRoutes_noPanic (ap : Bool) (l : AsnLen) (t : Nat) (ip : Ip) (asn : Asn) (s : Bytes) :
    updateRoutes ap l t ip asn s ≠ .error .panic := by
  unfold updateRoutes
  have hsec := noPanic_rdSection
  cases h1 : rdSection s with
  | error e => intro h; cases h; exact hsec _ h1
  | ok y =>
    obtain ⟨wb, r⟩ := y
    dsimp only
    cases h2 : parseNlriList .ipv4 ap wb with
    | error e => intro h; cases h; exact parseNlriList_noPanic _ _ _ h2
    | ok ws =>
      dsimp only
      cases h3 : rdSection r with
      | error e => intro h; cases h; exact hsec _ h3
      | ok y =>
        obtain ⟨ab, nb⟩ := y
        dsimp only
        cases h4 : parseNlriList .ipv4 ap nb with
        | error e => intro h; cases h; exact parseNlriList_noPanic _ _ _ h4
        | ok ns =>
          dsimp only
          cases h5 : parseRouteAttrs ⟨l, ap, none, none, none⟩ ab with
          | error e => intro h; cases h; exact parseRouteAttrs_noPanic _ _ h5
          | ok a => simp

/-! ### comparing readers -/

/-- two readers give related results on every input. -/
def RdRel (S : Except Err α → Except Err β → Prop) (p : Rd α) (q : Rd β) : Prop :=
  ∀ s, S (mapOk Prod.fst (p s)) (mapOk Prod.fst (q s))

theorem RdRel.bind {S : Except Err α → Except Err β → Prop} (hS : ∀ e, S (.error e) (.error e)) {p : Rd γ} {f : γ → Rd α} {g : γ → Rd β}
    (h : ∀ a, RdRel S (f a) (g a)) : RdRel S (p >>= f) (p >>= g) := by
  intro s
  rw [Rd.bind_apply, Rd.bind_apply]
  cases p s with
  | error e => exact hS e
  | ok y => exact h _ _

theorem RdRel.runOn {S : Except Err α → Except Err β → Prop} {p : Rd α} {q : Rd β} (h : RdRel S p q) (s : Bytes) :
    S (p.runOn s) (q.runOn s) := by
  have := h s
  unfold Rd.runOn
  cases hp : p s <;> cases hq : q s <;> rw [hp, hq] at this <;> exact this

theorem RdRel.fail {S : Except Err α → Except Err β → Prop} (hS : ∀ e, S (.error e) (.error e)) (e : Err) :
    RdRel S (Rd.fail e) (Rd.fail e) := fun _ => hS e

theorem RdRel.lift {S : Except Err α → Except Err β → Prop} {x : Except Err α} {y : Except Err β} (h : S x y) :
    RdRel S (Rd.lift x) (Rd.lift y) := by
  intro s
  cases x <;> cases y <;> exact h

theorem RdRel.ite {S : Except Err α → Except Err β → Prop} {c : Prop} [Decidable c] {p p' : Rd α} {q q' : Rd β}
    (h : RdRel S p q) (h' : RdRel S p' q') : RdRel S (if c then p else p') (if c then q else q') := by
  split
  · exact h
  · exact h'

/-! ### messages -/

/-- the routes of a BGP message, given what its parser says. -/
def MsgRoutes (t : Nat) (ip : Ip) (asn : Asn) (m : Except Err BgpMessage) (x : Except Err RouteIter) : Prop :=
  match m with
  | .ok (.update u) => (¬ u.badNlri → x = .ok (u.routes t ip asn)) ∧ (u.badNlri → ∃ e, x = .error e)
  | .ok _ => x = .ok .empty
  | .error _ => x = .ok .empty ∨ ∃ e, x = .error e

theorem MsgRoutes.err (t : Nat) (ip : Ip) (asn : Asn) (e : Err) : MsgRoutes t ip asn (.error e) (.error e) := .inr ⟨e, rfl⟩

theorem bodyRoutes_rel (ap : Bool) (l : AsnLen) (t : Nat) (ip : Ip) (asn : Asn) (ty : MsgType) (d : Bytes) :
    MsgRoutes t ip asn (parseBody ap l ty d) (bodyRoutes ap l t ip asn ty d) := by
  cases ty with
  | update =>
    simp only [parseBody, bodyRoutes]
    cases h : parseUpdate ap l d with
    | ok u => exact updateRoutes_ok h t ip asn
    | error e => exact .inr (updateRoutes_error h t ip asn)
  | «open» => simp only [parseBody, bodyRoutes]; cases parseOpen d <;> first | rfl | exact .inl rfl
  | notification => simp only [parseBody, bodyRoutes]; cases parseNotification d <;> first | rfl | exact .inl rfl
  | keepAlive => rfl
  | routeRefresh => simp only [parseBody, bodyRoutes]; cases parseRouteRefresh d <;> first | rfl | exact .inl rfl

theorem messageRoutes_rel (ap : Bool) (l : AsnLen) (t : Nat) (ip : Ip) (asn : Asn) :
    RdRel (MsgRoutes t ip asn) (parseBgpMessage ap l) (messageRoutes ap l t ip asn) := by
  have hS := MsgRoutes.err t ip asn
  refine .bind hS fun total => .bind hS fun _ => .bind hS fun _ => .bind hS fun len => .ite (.fail hS _) (.bind hS fun ty => ?_)
  cases MsgType.ofU8? ty with
  | none => exact .fail hS _
  | some ty => exact .ite (.fail hS _) (.bind hS fun _ => .bind hS fun d => .lift (bodyRoutes_rel _ _ _ _ _ _ _))

theorem bodyRoutes_noPanic (ap : Bool) (l : AsnLen) (t : Nat) (ip : Ip) (asn : Asn) (ty : MsgType) (d : Bytes) :
    bodyRoutes ap l t ip asn ty d ≠ .error .panic := by
  cases ty <;> simp [bodyRoutes, updateRoutes_noPanic]

theorem noPanic_rdMarker : NoPanic rdMarker := by
  intro s h
  unfold rdMarker at h
  rw [Rd.bind_eq_error] at h
  rcases h with h | ⟨_, t, h1, h⟩
  · exact NoPanic.needN _ _ h
  · simp only [needN] at h1
    split at h1
    · cases h1
    · cases h1
      rename_i hn
      simp [advance, hn] at h

theorem messageRoutes_noPanic (ap : Bool) (l : AsnLen) (t : Nat) (ip : Ip) (asn : Asn) : NoPanic (messageRoutes ap l t ip asn) := by
  refine .bind .remaining fun total => .bind (.needN _) fun _ => .bind noPanic_rdMarker fun _ => .bind .rdU16 fun len =>
    .ite (fun _ => .fail (by decide)) fun _ => .bind .rdU8 fun ty => ?_
  split
  · exact .fail (by decide)
  · exact .ite (fun _ => .fail (by decide)) fun _ => .needSplit _ fun d => .lift (bodyRoutes_noPanic _ _ _ _ _ _ _)

/-! ### BGP4MP -/

theorem RdRel.map_left {S : Except Err α → Except Err γ → Prop} {S' : Except Err β → Except Err γ → Prop} {p : Rd α} {q : Rd γ}
    {f : α → β} (h : RdRel S p q) (hf : ∀ x y, S x y → S' (mapOk f x) y) : RdRel S' (p >>= fun a => pure (f a)) q := by
  intro s
  have := hf _ _ (h s)
  rw [Rd.bind_apply]
  cases hp : p s <;> rw [hp] at this <;> exact this

/-- the routes of a BGP4MP or legacy record with a message. -/
def CarriedRoutes (t : Nat) (get : α → Ip × Asn × BgpMessage) (m : Except Err α) (x : Except Err RouteIter) : Prop :=
  match m with
  | .ok m => MsgRoutes t (get m).1 (get m).2.1 (.ok (get m).2.2) x
  | .error _ => x = .ok .empty ∨ ∃ e, x = .error e

def MpMessage.carried (m : MpMessage) : Ip × Asn × BgpMessage := (m.peerIp, m.peerAsn, m.message)

theorem mpMessageRoutes_rel (ap : Bool) (l : AsnLen) (ty : MpType) (t : Nat) (s : Bytes) :
    CarriedRoutes t MpMessage.carried (parseMpMessage ap l ty s) (mpMessageRoutes ap l t s) := by
  have hS : ∀ e, CarriedRoutes t MpMessage.carried (.error e) (.error e) := fun e => .inr ⟨e, rfl⟩
  unfold parseMpMessage mpMessageRoutes
  refine RdRel.runOn (.bind hS fun peer => .bind hS fun loc => .ite (.map_left (messageRoutes_rel _ _ _ _ _) ?_)
    (.bind hS fun _ => .bind hS fun afi => .bind hS fun _ => .bind hS fun peerIp => .bind hS fun localIp => .bind hS fun rem =>
      .ite (.fail hS _) (.map_left (messageRoutes_rel _ _ _ _ _) ?_))) s
  · intro x y h; cases x <;> exact h
  · intro x y h; cases x <;> exact h

theorem mpMessageRoutes_noPanic (ap : Bool) (l : AsnLen) (t : Nat) (s : Bytes) : mpMessageRoutes ap l t s ≠ .error .panic :=
  NoPanic.runOn (.bind (.rdAsn _) fun _ => .bind (.rdAsn _) fun _ => .ite
    (fun _ => messageRoutes_noPanic _ _ _ _ _)
    fun _ => .bind .rdU16 fun _ => .bind .rdAfi fun _ => .bind (.lift (validMpAfi_noPanic _)) fun _ =>
      .bind (.rdAddr _) fun _ => .bind (.rdAddr _) fun _ => .bind .remaining fun _ => .ite (fun _ => .fail (by decide))
      fun _ => messageRoutes_noPanic _ _ _ _ _) s

/-- the routes of a BGP4MP record. -/
def Bgp4Mp.RoutesAt (t : Nat) (m : Except Err Bgp4Mp) (x : Except Err RouteIter) : Prop :=
  match m with
  | .ok (.message m) => MsgRoutes t m.peerIp m.peerAsn (.ok m.message) x
  | .ok (.stateChange _) => x = .ok .empty
  | .error _ => x = .ok .empty ∨ ∃ e, x = .error e

theorem bgp4mpRoutes_rel (sub : UInt16) (t : Nat) (s : Bytes) : Bgp4Mp.RoutesAt t (parseBgp4Mp sub s) (bgp4mpRoutes sub s t) := by
  unfold parseBgp4Mp bgp4mpRoutes
  cases MpType.ofU16? sub with
  | none => exact .inr ⟨_, rfl⟩
  | some ty =>
    have hm : ∀ ap l, Bgp4Mp.RoutesAt t (mapOk .message (parseMpMessage ap l ty s)) (mpMessageRoutes ap l t s) := by
      intro ap l
      have := mpMessageRoutes_rel ap l ty t s
      generalize parseMpMessage ap l ty s = y at this
      cases y <;> exact this
    have hc : ∀ l, Bgp4Mp.RoutesAt t (mapOk .stateChange (parseMpStateChange l ty s)) (.ok .empty) := by
      intro l
      cases parseMpStateChange l ty s
      · exact .inl rfl
      · rfl
    cases ty
    all_goals first | exact hm _ _ | exact hc _

theorem bgp4mpRoutes_noPanic (sub : UInt16) (t : Nat) (s : Bytes) : bgp4mpRoutes sub s t ≠ .error .panic := by
  unfold bgp4mpRoutes
  cases MpType.ofU16? sub with
  | none => simp
  | some ty =>
    dsimp only
    cases ty.routeSession with
    | none => simp
    | some x => exact mpMessageRoutes_noPanic _ _ _ _

/-! ### legacy records -/

/-- the routes of a legacy record. -/
def LegacyBgp.RoutesAt (t : Nat) (m : Except Err LegacyBgp) (x : Except Err RouteIter) : Prop :=
  match m with
  | .ok (.message m) => MsgRoutes t m.peerIp m.peerAsn (.ok m.message) x
  | .ok (.stateChange _) => x = .ok .empty
  | .error _ => x = .ok .empty ∨ ∃ e, x = .error e

theorem legacyRoutes_rel (sub : UInt16) (t : Nat) (s : Bytes) : LegacyBgp.RoutesAt t (parseLegacyBgp sub s) (legacyRoutes sub s t) := by
  have hS : ∀ e, LegacyBgp.RoutesAt t (.error e) (.error e) := fun e => .inr ⟨e, rfl⟩
  unfold legacyRoutes
  by_cases h1 : sub = 1
  · subst h1
    rw [if_pos rfl]
    unfold parseLegacyBgp
    rw [if_pos (.inl rfl)]
    refine RdRel.runOn (.bind hS fun peer => .bind hS fun ip => .bind hS fun _ => .bind hS fun _ => .bind hS fun rest => ?_) s
    refine RdRel.map_left (RdRel.lift (S := MsgRoutes t (.v4 ip) peer.toUInt32) ?_) ?_
    · show MsgRoutes _ _ _ (mapOk .update (parseUpdate false .b16 rest)) _
      cases h : parseUpdate false .b16 rest with
      | ok u => exact updateRoutes_ok h _ _ _
      | error e => exact .inr (updateRoutes_error h _ _ _)
    · intro x y h; cases x <;> exact h
  rw [if_neg h1]
  split
  · rename_i h2
    unfold parseLegacyBgp
    by_cases h3 : sub = 3
    · subst h3
      rw [if_neg (by decide), if_pos rfl]
      unfold Rd.runOn
      generalize hg : (_ : Rd LegacyBgp) s = g
      cases g with
      | error e => exact .inr ⟨_, rfl⟩
      | ok y =>
        obtain ⟨y, _⟩ := y
        rw [Rd.bind_eq_ok] at hg; obtain ⟨_, _, _, hg⟩ := hg
        rw [Rd.bind_eq_ok] at hg; obtain ⟨_, _, _, hg⟩ := hg
        rw [Rd.bind_eq_ok] at hg; obtain ⟨_, _, _, hg⟩ := hg
        rw [Rd.bind_eq_ok] at hg; obtain ⟨_, _, _, hg⟩ := hg
        rw [Rd.bind_eq_ok] at hg; obtain ⟨_, _, _, hg⟩ := hg
        split at hg
        · cases hg
        · cases hg; rfl
    · have h4 : sub = 5 ∨ sub = 6 ∨ sub = 7 := by rcases h2 with h | h | h | h <;> simp_all
      rw [if_pos (.inr h4)]
      unfold Rd.runOn
      generalize hg : (_ : Rd LegacyBgp) s = g
      cases g with
      | error e => exact .inr ⟨_, rfl⟩
      | ok y =>
        obtain ⟨y, _⟩ := y
        rw [Rd.bind_eq_ok] at hg; obtain ⟨_, _, _, hg⟩ := hg
        rw [Rd.bind_eq_ok] at hg; obtain ⟨_, _, _, hg⟩ := hg
        rw [Rd.bind_eq_ok] at hg; obtain ⟨_, _, _, hg⟩ := hg
        rw [Rd.bind_eq_ok] at hg; obtain ⟨_, _, _, hg⟩ := hg
        rw [Rd.bind_eq_ok] at hg; obtain ⟨rest, _, _, hg⟩ := hg
        rw [Rd.bind_eq_ok] at hg; obtain ⟨m, _, hm, hg⟩ := hg
        cases hg
        have : ∀ u, m ≠ .update u := by
          rintro u rfl
          unfold parseLegacyPayload at hm
          rw [if_neg h1] at hm
          split at hm
          · cases hp : parseOpen rest <;> rw [hp] at hm <;> cases hm
          split at hm
          · cases hp : parseNotification rest <;> rw [hp] at hm <;> cases hm
          split at hm <;> cases hm
        show MsgRoutes _ _ _ (.ok m) (.ok .empty)
        cases m with
        | update u => exact absurd rfl (this u)
        | _ => rfl
  · rename_i h2
    unfold parseLegacyBgp
    rw [if_neg (by rintro (h | h | h | h) <;> simp_all), if_neg (by intro h; simp_all)]
    exact .inr ⟨_, rfl⟩

theorem legacyRoutes_noPanic (sub : UInt16) (t : Nat) (s : Bytes) : legacyRoutes sub s t ≠ .error .panic := by
  unfold legacyRoutes
  split
  · exact NoPanic.runOn (.bind .rdU16 fun _ => .bind (.rdVec _) fun _ => .bind .rdU16 fun _ => .bind (.rdVec _) fun _ =>
      .bind .peek fun _ => .lift (updateRoutes_noPanic _ _ _ _ _ _)) s
  split
  · exact mapOk_noPanic (parseLegacyBgp_noPanic _ _)
  · simp

/-! ### TABLE_DUMP -/

/-- the route of a TABLE_DUMP entry. -/
def TableDump.route (m : TableDump) : RouteElem :=
  ⟨m.time.toNat * 1000000, .announce, m.peerIp, m.peerAsn, m.prefix_, pathOf m.attributes.inner⟩

theorem rdTableDumpRoute_eq (v4 : Bool) (view seq : UInt16) (s : Bytes) :
    rdTableDumpRoute v4 s = mapOk (fun p => (p.1.route, p.2)) (rdTableDumpEntry v4 view seq s) := by
  have key : ∀ {α : Type} (p : Rd α) (f : α → Rd RouteElem) (g : α → Rd TableDump)
      (_ : ∀ a s, f a s = mapOk (fun p => (p.1.route, p.2)) (g a s)) (s : Bytes),
      (p >>= f) s = mapOk (fun p => (p.1.route, p.2)) ((p >>= g) s) := by
    intro α p f g h s
    rw [Rd.bind_apply, Rd.bind_apply]
    cases p s with
    | error e => rfl
    | ok y => exact h _ _
  unfold rdTableDumpRoute rdTableDumpEntry
  refine key _ _ _ (fun p => key _ _ _ fun st => key _ _ _ fun time => key _ _ _ fun ip => key _ _ _ fun asn => key _ _ _ fun len =>
    key _ _ _ fun _ => key _ _ _ fun d => ?_) s
  intro s
  rw [parseRouteAttrs_eq, Rd.bind_apply, Rd.bind_apply]
  cases parseAttributes ⟨.b16, false, none, none, none⟩ d with
  | error e => rfl
  | ok a =>
    show Except.ok _ = Except.ok _
    simp only [Except.ok.injEq, Prod.mk.injEq, and_true]
    unfold TableDump.route
    simp only [UInt32.toNat_toUInt64]
    rfl

end Verif
