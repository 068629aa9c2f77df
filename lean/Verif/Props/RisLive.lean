import Verif.Lemmas.RisLive
import Verif.Props.Bgp
/-
C81, C82, C83: RIS Live.
-/
namespace Verif.Props
open Spec

/-! ### C81: the JSON fields -/

/-- **C81** A document is read as a message with these fields if and only if it says so, in any order of its entries and with any
other entries; its content is an update if and only if it is marked as one and all fields of the update can be read. -/
theorem c81_message (env : LiveEnv) (j : Json) (m : LiveMessage) :
    liveEnvelopeOf env j = some (.message m) ↔ ∃ kvs, Envelope j kvs ∧ MessageDoc env kvs m := liveEnvelope_iff

theorem parse_of {env : LiveEnv} {text : String} {j : Json} {kvs : List (String × Json)} {m : LiveMessage} (h1 : env.json text = some j)
    (h2 : Envelope j kvs) (h3 : MessageDoc env kvs m) : (env.json text).bind (liveEnvelopeOf env) = some (.message m) := by
  rw [h1, Option.bind_some, liveEnvelope_iff.mpr ⟨kvs, h2, h3⟩]

theorem parseRisLive_update {env : LiveEnv} {text : String} {j : Json} {kvs : List (String × Json)} {m : LiveMessage} {u : LiveUpdate}
    (h1 : env.json text = some j) (h2 : Envelope j kvs) (h3 : MessageDoc env kvs m) (h4 : IsUpdate env kvs u) :
    parseRisLive env text = (liveElems env m u).map fun es => es.map fun e => (m.timestamp, e) := by
  unfold parseRisLive
  simp only [parse_of h1 h2 h3, (h3.update u).mpr h4]

/-- **C81** An update has exactly the elements it says: one for each announced prefix and then one for each withdrawn prefix, in order,
with the peer and the time of the message; it is refused if and only if there are none such. -/
theorem c81_elements (env : LiveEnv) (text : String) (j : Json) (kvs : List (String × Json)) (m : LiveMessage) (u : LiveUpdate)
    (h1 : env.json text = some j) (h2 : Envelope j kvs) (h3 : MessageDoc env kvs m) (h4 : IsUpdate env kvs u)
    (res : List (Rat × BgpElem)) :
    parseRisLive env text = .ok res ↔ ∃ es, LiveElems env m u es ∧ res = es.map fun e => (m.timestamp, e) := by
  rw [parseRisLive_update h1 h2 h3 h4]
  cases h : liveElems env m u with
  | error e =>
    simp only [Except.map, reduceCtorEq, false_iff, not_exists, not_and]
    intro es he
    rw [liveElems_iff.mpr he] at h
    cases h
  | ok es =>
    simp only [Except.map, Except.ok.injEq]
    constructor
    · rintro rfl; exact ⟨es, liveElems_iff.mp h, rfl⟩
    · rintro ⟨es', h5, rfl⟩
      rw [liveElems_iff.mpr h5] at h
      cases h; rfl

/-- **C81** Elements come from updates only. -/
theorem c81_only (env : LiveEnv) (text : String) (res : List (Rat × BgpElem)) (h : parseRisLive env text = .ok res) (hne : res ≠ []) :
    ∃ j kvs m u es, env.json text = some j ∧ Envelope j kvs ∧ MessageDoc env kvs m ∧ IsUpdate env kvs u ∧ LiveElems env m u es ∧
      res = es.map fun e => (m.timestamp, e) := by
  have h0 := h
  unfold parseRisLive at h
  split at h
  · cases h
  · cases h; exact absurd rfl hne
  · rename_i m he
    obtain ⟨j, e1, e2⟩ := Option.bind_eq_some_iff.mp he
    obtain ⟨kvs, e3, e4⟩ := liveEnvelope_iff.mp e2
    split at h
    · cases h; exact absurd rfl hne
    · rename_i u hu
      have e5 := (e4.update u).mp hu
      obtain ⟨es, h6, h7⟩ := (c81_elements env text j kvs m u e1 e3 e4 e5 res).mp h0
      exact ⟨j, kvs, m, u, es, e1, e3, e4, e5, h6, h7⟩

/-- **C81** A message that is not a readable update has no elements. The documentation does not say that this covers updates with a
field of a wrong form: see `c81_violation_silent`. -/
theorem c81_other_messages (env : LiveEnv) (text : String) (j : Json) (kvs : List (String × Json)) (m : LiveMessage)
    (h1 : env.json text = some j) (h2 : Envelope j kvs) (h3 : MessageDoc env kvs m) (h4 : ∀ u, ¬ IsUpdate env kvs u) :
    parseRisLive env text = .ok [] := by
  have : m.update = none := by
    cases h : m.update with
    | none => rfl
    | some u => exact absurd ((h3.update u).mp h) (h4 u)
  unfold parseRisLive
  simp only [parse_of h1 h2 h3, this]

theorem req_fields1 {kvs : List (String × Json)} {k : String} {v : Json} (h : HasEntry kvs k v) :
    Json.req (Json.fields [k]) (some (.obj kvs)) = some [some v] := by
  simp [Json.req, Json.fields, List.mapM_cons, entry_has h]

theorem req_fields2 {kvs : List (String × Json)} {k l : String} {v w : Json} (h : HasEntry kvs k v) (h' : HasEntry kvs l w) :
    Json.req (Json.fields [k, l]) (some (.obj kvs)) = some [some v, some w] := by
  simp [Json.req, Json.fields, List.mapM_cons, entry_has h, entry_has h']

theorem notice_other {env : LiveEnv} {j : Json} (h : ServerNotice j) : liveEnvelopeOf env j = some .other := by
  obtain ⟨top, rfl, h⟩ := h
  rcases h with ⟨h1, kvs, s, h2, h3⟩ | ⟨h1, h2⟩ | ⟨h1, kvs, a, b, h2, h3, h4⟩
  · have := fields_two.mpr (.inl ⟨top, rfl, entry_has h1, entry_has h2⟩)
    unfold liveEnvelopeOf
    simp [this, Json.req, Json.variant, Json.isUnit]
    have := req_fields1 h3
    simp only [Json.req] at this
    simp [this]
  · have hd : ∃ d, Json.entry top "data" = some d ∧ emptyStructOk d = true := by
      rcases h2 with h2 | h2 | ⟨kvs, h2⟩
      · exact ⟨none, entry_lacks h2, rfl⟩
      · exact ⟨_, entry_has h2, rfl⟩
      · exact ⟨_, entry_has h2, rfl⟩
    obtain ⟨d, h3, h4⟩ := hd
    unfold liveEnvelopeOf
    rcases h1 with h1 | h1
    · have := fields_two.mpr (.inl ⟨top, rfl, entry_has h1, h3⟩)
      simp [this, Json.req, Json.variant, Json.isUnit, h4]
    · have := fields_two.mpr (.inl ⟨top, rfl, entry_has h1, h3⟩)
      simp [this, Json.req, Json.variant, Json.isUnit, h4]
  · have := fields_two.mpr (.inl ⟨top, rfl, entry_has h1, entry_has h2⟩)
    unfold liveEnvelopeOf
    simp [this, Json.req, Json.variant, Json.isUnit]
    have := req_fields2 h3 h4
    simp only [Json.req] at this
    simp [this]

/-- **C81, C82** Notices of the server have no elements, and are refused where a raw message is expected. -/
theorem c81_notices (env : LiveEnv) (text : String) (j : Json) (h1 : env.json text = some j) (h2 : ServerNotice j) :
    parseRisLive env text = .ok [] ∧ parseRisLiveRaw env text = .error .unsupportedMessage ∧
      parseRisLiveRawFull env text = .error .unsupportedMessage := by
  have : (env.json text).bind (liveEnvelopeOf env) = some .other := by rw [h1, Option.bind_some, notice_other h2]
  refine ⟨?_, ?_, ?_⟩
  · unfold parseRisLive; simp only [this]
  · unfold parseRisLiveRaw decodeRisLiveRaw; simp only [this]; rfl
  · unfold parseRisLiveRawFull decodeRisLiveRaw; simp only [this]; rfl

theorem envelope_none {env : LiveEnv} {j : Json} {kvs : List (String × Json)} (h : Envelope j kvs) (hm : ∀ m, ¬ MessageDoc env kvs m) :
    liveEnvelopeOf env j = none := by
  obtain ⟨ty, ht, h⟩ := h
  have hf : Json.fields ["type", "data"] j = some [some ty, some (.obj kvs)] := by
    rcases h with ⟨top, rfl, e1, e2⟩ | rfl
    · exact fields_two.mpr (.inl ⟨top, rfl, entry_has e1, entry_has e2⟩)
    · exact fields_two.mpr (.inr ⟨_, _, rfl, rfl, rfl⟩)
  obtain ⟨c, h3, h4⟩ := messageTag_iff.mpr ht
  have : liveMessageOf env (.obj kvs) = none := by
    cases hl : liveMessageOf env (.obj kvs) with
    | none => rfl
    | some m =>
      obtain ⟨_, e, hd⟩ := liveMessage_iff.mp hl
      cases e
      exact absurd hd (hm m)
  unfold liveEnvelopeOf
  simp [hf, Json.req, h3, h4, this]

/-- **C81, C82** What is not JSON, and a message without the fields every message has, is refused by all three functions. -/
theorem c81_refused (env : LiveEnv) (text : String)
    (h : env.json text = none ∨ ∃ j kvs, env.json text = some j ∧ Envelope j kvs ∧ ∀ m, ¬ MessageDoc env kvs m) :
    parseRisLive env text = .error .incorrectJson ∧ parseRisLiveRaw env text = .error .incorrectJson ∧
      parseRisLiveRawFull env text = .error .incorrectJson := by
  have : (env.json text).bind (liveEnvelopeOf env) = none := by
    rcases h with h | ⟨j, kvs, h1, h2, h3⟩
    · rw [h]; rfl
    · rw [h1, Option.bind_some, envelope_none h2 h3]
  refine ⟨?_, ?_, ?_⟩
  · unfold parseRisLive; simp only [this]
  · unfold parseRisLiveRaw decodeRisLiveRaw; simp only [this]; rfl
  · unfold parseRisLiveRawFull decodeRisLiveRaw; simp only [this]; rfl

/-- **C81** An update with an unknown origin is refused, naming it. -/
theorem c81_error_origin (env : LiveEnv) (text : String) (j : Json) (kvs : List (String × Json)) (m : LiveMessage) (u : LiveUpdate)
    (h1 : env.json text = some j) (h2 : Envelope j kvs) (h3 : MessageDoc env kvs m) (h4 : IsUpdate env kvs u)
    (s : String) (h5 : u.origin = some s) (h6 : ∀ w, ¬ OriginWord s w) : parseRisLive env text = .error (.unknownOriginType s) := by
  rw [parseRisLive_update h1 h2 h3 h4]
  have : liveOrigin u.origin = .error (.unknownOriginType s) := by
    rw [h5]
    simp only [liveOrigin]
    have a : ¬ (s = "igp" ∨ s = "IGP") := h6 .igp
    have b : ¬ (s = "egp" ∨ s = "EGP") := h6 .egp
    have c : ¬ (s = "incomplete" ∨ s = "INCOMPLETE") := h6 .incomplete
    rw [if_neg a, if_neg b, if_neg c]
  unfold liveElems
  rw [this]; rfl

/-- **C81** An update with a readable origin and an aggregator that cannot be read is refused: one without a colon is named. -/
theorem c81_error_aggregator (env : LiveEnv) (text : String) (j : Json) (kvs : List (String × Json)) (m : LiveMessage) (u : LiveUpdate)
    (h1 : env.json text = some j) (h2 : Envelope j kvs) (h3 : MessageDoc env kvs m) (h4 : IsUpdate env kvs u)
    (o : Option Origin) (ho : OriginSays u.origin o) (s : String) (h5 : u.aggregator = some s) (h6 : ∀ a, ¬ AggregatorSays env (some s) a) :
    parseRisLive env text = .error (if ':' ∈ s.toList then .incorrectJson else .incorrectAggregator s) := by
  rw [parseRisLive_update h1 h2 h3 h4]
  have : liveAggregator env u.aggregator = .error (if ':' ∈ s.toList then .incorrectJson else .incorrectAggregator s) := by
    rw [h5]
    cases hs : splitColon s.toList with
    | none =>
      rw [if_neg (splitColon_none.mp hs)]
      simp only [liveAggregator, hs]
    | some ab =>
      obtain ⟨a, b⟩ := ab
      have : ¬ splitColon s.toList = none := by rw [hs]; simp
      rw [splitColon_none, Classical.not_not] at this
      rw [if_pos this]
      cases ha : liveAggregator env (some s) with
      | ok x => exact absurd (liveAggregator_iff.mp ha) (h6 x)
      | error e =>
        simp only [liveAggregator, hs] at ha
        split at ha
        · cases ha; rfl
        · split at ha
          · cases ha; rfl
          · cases ha
  unfold liveElems
  rw [liveOrigin_iff.mpr ho, this]; rfl

/-- **C81** Otherwise the first prefix that cannot be read decides: the marker `eor` is an error of its own, any other is named. -/
theorem c81_error_prefix (env : LiveEnv) (text : String) (j : Json) (kvs : List (String × Json)) (m : LiveMessage) (u : LiveUpdate)
    (h1 : env.json text = some j) (h2 : Envelope j kvs) (h3 : MessageDoc env kvs m) (h4 : IsUpdate env kvs u)
    (o : Option Origin) (ho : OriginSays u.origin o) (a : Option Asn × Option V4) (ha : AggregatorSays env u.aggregator a)
    (pre : List String) (s : String) (post : List String)
    (h5 : (announcedTexts u).map (·.2) ++ withdrawnTexts u = pre ++ s :: post)
    (h6 : ∀ p ∈ pre, ∃ n, env.net p.toList = some n) (h7 : env.net s.toList = none) :
    parseRisLive env text = .error (if s = "eor" then .endOfRibPrefix else .incorrectPrefix s) := by
  rw [parseRisLive_update h1 h2 h3 h4]
  have hf : ((announcedTexts u).map (·.2) ++ withdrawnTexts u).find? (badPrefix env) = some s := by
    rw [h5]
    refine find_first (fun p hp => ?_) (by simp [badPrefix, h7])
    obtain ⟨n, hn⟩ := h6 p hp
    simp [badPrefix, hn]
  have hm : (announcedTexts u).map (·.2) = (u.announcements.getD []).flatMap (·.2) := by
    unfold announcedTexts
    rw [List.map_flatMap]
    simp only [List.map_map]
    congr 1
    funext a
    exact List.map_id _
  rw [hm, List.find?_append] at hf
  have key : liveElems env m u = .error (prefixErr s) := by
    unfold liveElems
    rw [liveOrigin_iff.mpr ho, liveAggregator_iff.mpr ha]
    cases hc : ((u.announcements.getD []).flatMap (·.2)).find? (badPrefix env) with
    | some t =>
      rw [hc, Option.some_or, Option.some.injEq] at hf
      subst hf
      have := allAnnounced_err (m := m) (u := u) (o := o) (aggr := a) hc
      simp only [bind, Except.bind, this]
    | none =>
      rw [hc, Option.none_or] at hf
      obtain ⟨es, he⟩ := allAnnounced_none (m := m) (u := u) (o := o) (aggr := a) hc
      simp only [bind, Except.bind, he]
      have := withdrawn_err (m := m) hf
      unfold withdrawnTexts at this
      rw [this]
  rw [key]
  rfl

/-- **C81** The time of an element is the time of the message: for times given to the microsecond, exactly this number of
microseconds. -/
theorem c81_time (t : Rat) (k : Nat) (h : StampOf t k) : stampMicros t = k := stampMicros_of h

/-- **C81** violated: an update with one field of a wrong form is dropped without an error, announcements and all. -/
theorem c81_violation_silent (env : LiveEnv) (text : String) (j : Json) (kvs : List (String × Json)) (m : LiveMessage)
    (h1 : env.json text = some j) (h2 : Envelope j kvs) (h3 : MessageDoc env kvs m) (h4 : MarkedUpdate kvs) (k : String) (v : Json)
    (h5 : HasEntry kvs k v) (h6 : k = "med" ∧ (∀ n, ¬ U32Doc n v) ∧ v ≠ .null ∨ k = "community" ∧ (∀ cs, ¬ ListDoc PairDoc cs v) ∧ v ≠ .null) :
    parseRisLive env text = .ok [] := by
  refine c81_other_messages env text j kvs m h1 h2 h3 fun u hu => ?_
  have key : ∀ {α} {R : α → Json → Prop} {o : Option α}, Says R kvs k o → (∀ x, ¬ R x v) → v = .null := by
    intro α R o hs hr
    cases o with
    | none =>
      rcases hs with hs | hs
      · obtain ⟨a, b, rfl, _, _⟩ := h5
        exact absurd rfl (hs (k, v) (by simp))
      · have := (entry_has h5).symm.trans (entry_has hs)
        simpa using this
    | some x =>
      obtain ⟨w, h, hw⟩ := hs
      have := (entry_has h5).symm.trans (entry_has h)
      simp only [Option.some.injEq] at this
      subst this
      exact absurd hw (hr x)
  rcases h6 with ⟨rfl, h7, h8⟩ | ⟨rfl, h7, h8⟩
  · exact h8 (key hu.2.med h7)
  · exact h8 (key hu.2.community h7)

/-! examples -/

/-- the addresses and prefixes of the examples. -/
def liveEnv (j : Json) : LiveEnv where
  json := fun _ => some j
  ip := fun s => if s = "192.0.2.1".toList then some (.v4 #v[192, 0, 2, 1]) else none
  v4 := fun s => if s = "192.0.2.9".toList then some #v[192, 0, 2, 9] else none
  net := fun s => if s = "198.51.100.0/24".toList then some ⟨.v4 #v[198, 51, 100, 0], 24⟩
    else if s = "203.0.113.0/24".toList then some ⟨.v4 #v[203, 0, 113, 0], 24⟩ else none

/-- the fields of a message. -/
def liveFieldsDoc (more : List (String × Json)) : List (String × Json) :=
  [("timestamp", .float (3 / 2)), ("peer", .str "192.0.2.1"), ("peer_asn", .str "65001"), ("id", .str "x"), ("host", .str "rrc00"),
    ("type", .str "UPDATE")] ++ more

/-- an update with an announcement and a withdrawal. -/
def liveUpdateDoc : List (String × Json) := liveFieldsDoc
  [("path", .arr [.int 65001, .int 65002]), ("community", .arr [.arr [.int 65001, .int 7]]), ("origin", .str "igp"), ("med", .int 5),
    ("aggregator", .str "65003:192.0.2.9"),
    ("announcements", .arr [.obj [("next_hop", .str "192.0.2.1"), ("prefixes", .arr [.str "198.51.100.0/24"])]]),
    ("withdrawals", .arr [.str "203.0.113.0/24"])]

/-- the envelope. -/
def liveEnvelopeDoc (kvs : List (String × Json)) : Json := .obj [("type", .str "ris_message"), ("data", .obj kvs)]

theorem liveEnvelopeDoc_ok (kvs : List (String × Json)) : Envelope (liveEnvelopeDoc kvs) kvs :=
  ⟨_, .inl rfl, .inl ⟨_, rfl, ⟨[], _, rfl, by simp, by simp⟩, ⟨[("type", .str "ris_message")], [], rfl, by simp, by simp⟩⟩⟩

example : ∃ m u es, MessageDoc (liveEnv (liveEnvelopeDoc liveUpdateDoc)) liveUpdateDoc m ∧
    IsUpdate (liveEnv (liveEnvelopeDoc liveUpdateDoc)) liveUpdateDoc u ∧ LiveElems (liveEnv (liveEnvelopeDoc liveUpdateDoc)) m u es ∧
    es.length = 2 ∧ u.med = some 5 := by
  have h : ∃ m u, liveMessageOf (liveEnv (liveEnvelopeDoc liveUpdateDoc)) (.obj liveUpdateDoc) = some m ∧ m.update = some u ∧
      u.med = some 5 ∧ ∃ es, liveElems (liveEnv (liveEnvelopeDoc liveUpdateDoc)) m u = .ok es ∧ es.length = 2 :=
    ⟨_, _, rfl, rfl, rfl, _, rfl, rfl⟩
  obtain ⟨m, u, h1, h2, h3, es, h4, h5⟩ := h
  obtain ⟨kvs, e, hd⟩ := liveMessage_iff.mp h1
  cases e
  exact ⟨m, u, es, hd, (hd.update u).mp h2, liveElems_iff.mp h4, h5, h3⟩

/-- the update with a MED given as a text. -/
def liveBadDoc : List (String × Json) := liveFieldsDoc
  [("med", .str "5"),
    ("announcements", .arr [.obj [("next_hop", .str "192.0.2.1"), ("prefixes", .arr [.str "198.51.100.0/24"])]])]

example : ∃ m, MessageDoc (liveEnv (liveEnvelopeDoc liveBadDoc)) liveBadDoc m ∧ MarkedUpdate liveBadDoc ∧
    HasEntry liveBadDoc "med" (.str "5") ∧ (∀ n, ¬ U32Doc n (.str "5")) ∧
    parseRisLive (liveEnv (liveEnvelopeDoc liveBadDoc)) "" = .ok [] := by
  have h : ∃ m, liveMessageOf (liveEnv (liveEnvelopeDoc liveBadDoc)) (.obj liveBadDoc) = some m := ⟨_, rfl⟩
  obtain ⟨m, h1⟩ := h
  obtain ⟨kvs, e, hd⟩ := liveMessage_iff.mp h1
  cases e
  have hm : MarkedUpdate liveBadDoc := .inl (entry_eq_some.mp rfl)
  have he : HasEntry liveBadDoc "med" (.str "5") := entry_eq_some.mp rfl
  have hu : ∀ n, ¬ U32Doc n (.str "5") := fun n h => by cases h
  exact ⟨m, hd, hm, he, hu, c81_violation_silent _ _ _ _ m rfl (liveEnvelopeDoc_ok _) hd hm "med" _ he (.inl ⟨rfl, hu, by simp⟩)⟩

example : ServerNotice (.obj [("type", .str "pong"), ("data", .null)]) :=
  ⟨_, rfl, .inr (.inl ⟨.inl (entry_eq_some.mp rfl), .inr (.inl (entry_eq_some.mp rfl))⟩)⟩

example : ∀ w, ¬ OriginWord "Igp" w := by
  intro w; cases w <;> simp [OriginWord]

example : StampOf (3 / 2) 1500000 := ⟨by decide, by decide +kernel⟩

/-! ### C82: raw messages -/

theorem parseRawBgp_iff {bs : Bytes} {msg : BgpMessage} : parseRawBgp bs = .ok msg ↔ ReadRaw bs msg := by
  unfold parseRawBgp ReadRaw
  have e : ∀ l, (parseBgpMessage false l).run bs = parseBgpMessage false l bs := fun l => rfl
  rw [e, e]
  cases h4 : parseBgpMessage false .b32 bs with
  | ok x =>
    obtain ⟨y, r⟩ := x
    simp only [Except.ok.injEq, Prod.mk.injEq, ne_eq]
    constructor
    · rintro rfl; exact .inl ⟨r, rfl, rfl⟩
    · rintro (⟨_, rfl, _⟩ | ⟨h, _⟩)
      · rfl
      · exact absurd rfl (h (y, r))
  | error x =>
    simp only [reduceCtorEq, exists_false, false_or, ne_eq, not_false_eq_true, implies_true, true_and]
    cases h2 : parseBgpMessage false .b16 bs with
    | ok x =>
      obtain ⟨y, r⟩ := x
      simp only [Except.ok.injEq, Prod.mk.injEq]
      constructor
      · rintro rfl; exact ⟨r, rfl, rfl⟩
      · rintro ⟨_, rfl, _⟩; rfl
    | error x => simp

theorem liveRawElems_of {m : LiveMessage} {bs : Bytes} {msg : BgpMessage} (h : ReadRaw bs msg) :
    liveRawElems m bs = .ok (bgpToElems msg (headerMicros (liveRecord m msg).header) m.peer m.peerAsn) := by
  unfold liveRawElems
  rw [parseRawBgp_iff.mpr h]
  show Except.ok _ = _
  congr 1
  exact (c32_record_elems Elementor.new _).1 _

/-- **C82** The elements are those of the BGP message in the `raw` field (C32), with the peer of the envelope and its time to the
microsecond. -/
theorem c82_elements (env : LiveEnv) (text : String) (m : LiveMessage) (bs : Bytes) (msg : BgpMessage) (k : Nat)
    (h1 : RawDoc env text m bs) (h2 : ReadRaw bs msg) (h3 : StampOf m.timestamp k) :
    parseRisLiveRaw env text = .ok (bgpToElems msg k m.peer m.peerAsn) := by
  unfold parseRisLiveRaw
  rw [decodeRaw_iff.mpr h1]
  show liveRawElems m bs = _
  rw [liveRawElems_of h2, headerMicros_of h3]

/-- **C82** In particular for an UPDATE: its announcements and withdrawals as in C32. -/
theorem c82_update_partial (env : LiveEnv) (text : String) (m : LiveMessage) (bs : Bytes) (u : Update) (k : Nat)
    (h1 : RawDoc env text m bs) (h2 : ReadRaw bs (.update u)) (h3 : StampOf m.timestamp k) :
    ∃ es reach unreach, parseRisLiveRaw env text = .ok es ∧ Last .mpReach u.attributes.inner reach ∧
      Last .mpUnreach u.attributes.inner unreach ∧ UpdateElems u k m.peer m.peerAsn (prefixesOf reach) (prefixesOf unreach) es := by
  obtain ⟨r, w, a, b, c⟩ := c32_update_elems_partial u k m.peer m.peerAsn
  exact ⟨_, r, w, c82_elements env text m bs _ k h1 h2 h3, a, b, c⟩

/-- **C82** For the raw octets of an encoded message, in either case of the digits: the elements of that message. -/
theorem c82_encoded_partial (env : LiveEnv) (text : String) (m : LiveMessage) (b : Bytes) (msg : BgpMessage) (k : Nat)
    (h1 : RawDoc env text m b) (h2 : MessageOk false .b32 msg) (h3 : encodeBgpMessage .b32 msg = .ok b) (h4 : StampOf m.timestamp k) :
    ∃ msg', SameMessage msg msg' ∧ parseRisLiveRaw env text = .ok (bgpToElems msg' k m.peer m.peerAsn) := by
  obtain ⟨msg', h5, h6⟩ := c16_message_roundtrip_partial false .b32 msg b [] h2 h3
  rw [List.append_nil] at h5
  exact ⟨msg', h6, c82_elements env text m b msg' k h1 (.inl ⟨[], h5⟩) h4⟩

/-- **C82** Elements come from such messages only, whatever the time; a time before 1970 or after 2106 is cut to that range. -/
theorem c82_only (env : LiveEnv) (text : String) (es : List BgpElem) (h : parseRisLiveRaw env text = .ok es) :
    ∃ m bs msg, RawDoc env text m bs ∧ ReadRaw bs msg ∧
      es = bgpToElems msg ((f64ToU32 m.timestamp).toNat * 1000000 + (getMicroSeconds m.timestamp).toNat) m.peer m.peerAsn := by
  unfold parseRisLiveRaw at h
  rw [except_bind_ok] at h
  obtain ⟨⟨m, bs⟩, h1, h2⟩ := h
  have h2 : liveRawElems m bs = .ok es := h2
  have h1 := decodeRaw_iff.mp h1
  have h3 : ∃ msg, parseRawBgp bs = .ok msg := by
    unfold liveRawElems at h2
    cases hp : parseRawBgp bs with
    | ok msg => exact ⟨msg, rfl⟩
    | error e => rw [hp] at h2; cases h2
  obtain ⟨msg, h3⟩ := h3
  have h3 := parseRawBgp_iff.mp h3
  rw [liveRawElems_of h3, Except.ok.injEq] at h2
  exact ⟨m, bs, msg, h1, h3, h2.symm⟩

/-- **C82** A message without the `raw` field, with one that is not hexadecimal, or with octets that are not a BGP message is refused. -/
theorem c82_refused (env : LiveEnv) (text : String) (j : Json) (kvs : List (String × Json)) (m : LiveMessage)
    (h1 : env.json text = some j) (h2 : Envelope j kvs) (h3 : MessageDoc env kvs m)
    (h4 : ∀ raw bs msg, m.raw = some raw → HexText raw.toList bs → ¬ ReadRaw bs msg) :
    parseRisLiveRaw env text = .error .incorrectRawBytes ∧ parseRisLiveRawFull env text = .error .incorrectRawBytes := by
  have key : decodeRisLiveRaw env text = .error .incorrectRawBytes ∨
      ∃ bs, decodeRisLiveRaw env text = .ok (m, bs) ∧ parseRawBgp bs = .error .incorrectRawBytes := by
    unfold decodeRisLiveRaw
    simp only [parse_of h1 h2 h3]
    cases hr : m.raw with
    | none => exact .inl rfl
    | some raw =>
      dsimp only
      cases hx : hexDecode raw.toList with
      | none => exact .inl rfl
      | some bs =>
        refine .inr ⟨bs, rfl, ?_⟩
        cases hp : parseRawBgp bs with
        | ok msg => exact absurd (parseRawBgp_iff.mp hp) (h4 raw bs msg hr (hexDecode_iff.mp hx))
        | error e =>
          unfold parseRawBgp at hp
          split at hp
          · cases hp
          · split at hp
            · cases hp
            · cases hp; rfl
  unfold parseRisLiveRaw parseRisLiveRawFull liveRawElems
  rcases key with h | ⟨bs, h, h'⟩
  · rw [h]; exact ⟨rfl, rfl⟩
  · rw [h]
    constructor
    · show (parseRawBgp bs).map _ = _
      rw [h']; rfl
    · show (parseRawBgp bs >>= _) = _
      rw [h']; rfl

/-- **C82** The full form gives the same elements or the same error, the fields of the envelope, and of an UPDATE its attributes and
the warnings of their parsing. -/
theorem c82_full (env : LiveEnv) (text : String) :
    (∀ e, parseRisLiveRawFull env text = .error e ↔ parseRisLiveRaw env text = .error e) ∧
    (∀ f, parseRisLiveRawFull env text = .ok f → parseRisLiveRaw env text = .ok f.elems ∧
      ∃ m bs msg, RawDoc env text m bs ∧ ReadRaw bs msg ∧ f.host = m.host ∧ f.id = m.id ∧ f.peer = m.peer ∧ f.peerAsn = m.peerAsn ∧
        f.timestamp = m.timestamp ∧ (∀ u, msg = .update u → f.attributes = u.attributes ∧ f.warnings = u.attributes.warnings) ∧
        ((∀ u, msg ≠ .update u) → f.attributes.inner = [] ∧ f.warnings = [])) := by
  unfold parseRisLiveRawFull parseRisLiveRaw
  cases hd : decodeRisLiveRaw env text with
  | error e => exact ⟨fun e' => ⟨fun h => by cases h; rfl, fun h => by cases h; rfl⟩, fun f h => by cases h⟩
  | ok x =>
    obtain ⟨m, bs⟩ := x
    have hr := decodeRaw_iff.mp hd
    cases hp : parseRawBgp bs with
    | error e =>
      have : liveRawElems m bs = .error e := by unfold liveRawElems; rw [hp]; rfl
      simp only [bind, Except.bind, hp, this]
      exact ⟨fun e' => ⟨fun h => by cases h; rfl, fun h => by cases h; rfl⟩, fun f h => by cases h⟩
    | ok msg =>
      have hm := parseRawBgp_iff.mp hp
      have := liveRawElems_of (m := m) hm
      simp only [bind, Except.bind, hp, this, pure, Except.pure]
      refine ⟨fun e' => ?_, fun f h => ?_⟩
      · constructor <;> intro h <;> cases h
      · cases h
        refine ⟨rfl, m, bs, msg, hr, hm, rfl, rfl, rfl, rfl, rfl, ?_, ?_⟩
        · rintro u rfl; exact ⟨rfl, rfl⟩
        · intro hn
          cases msg with
          | update u => exact absurd rfl (hn u)
          | _ => exact ⟨rfl, rfl⟩

/-- an UPDATE of a session with AS numbers of two octets: AS path 65001 65002 to 198.51.100.0/24. -/
def oldUpdate : Bytes :=
  List.replicate 16 255 ++ [0, 47, 2, 0, 0, 0, 20, 0x40, 1, 1, 0, 0x40, 2, 6, 2, 2, 253, 233, 253, 234, 0x40, 3, 4, 192, 0, 2, 1] ++ [24, 198, 51, 100]

theorem parseAttributes_ok_any {c c' : AttrCfg} {s : Bytes} {a : Attributes} (h : parseAttributes c s = .ok a) :
    ∃ a', parseAttributes c' s = .ok a' := by
  obtain ⟨ws, r, hw, rfl, hr | hr⟩ := attr_cut s.length s (Nat.le_refl _)
  · exact ⟨_, parse_wires c' ws hw hr⟩
  · rw [parse_broken c ws hw hr] at h; cases h

theorem parseUpdate_ok_any {ap : Bool} {l l' : AsnLen} {s : Bytes} {u : Update} (h : parseUpdate ap l s = .ok u) :
    ∃ u', parseUpdate ap l' s = .ok u' := by
  unfold parseUpdate at h ⊢
  cases h1 : rdSection s with
  | error e => rw [h1] at h; cases h
  | ok v =>
    obtain ⟨w, r⟩ := v
    rw [h1] at h
    dsimp only at h ⊢
    rw [nlriOrWarn_eq] at h ⊢
    dsimp only at h ⊢
    cases h2 : rdSection r with
    | error e => rw [h2] at h; cases h
    | ok v =>
      obtain ⟨a, n⟩ := v
      rw [h2] at h
      dsimp only at h ⊢
      rw [nlriOrWarn_eq] at h ⊢
      cases h3 : parseAttributes ⟨l, ap, none, none, none⟩ a with
      | error e => rw [h3] at h; cases h
      | ok as =>
        obtain ⟨as', h4⟩ := parseAttributes_ok_any (c' := ⟨l', ap, none, none, none⟩) h3
        rw [h4]
        exact ⟨_, rfl⟩

/-- **C82** violated: the second attempt, with AS numbers of two octets, never gives a message, since a message that is read at all is
also read by the first attempt. -/
theorem c82_violation_fallback (bs : Bytes) : (∃ x, parseBgpMessage false .b16 bs = .ok x) ↔ ∃ x, parseBgpMessage false .b32 bs = .ok x := by
  have key : ∀ l l', (∃ x, parseBgpMessage false l bs = .ok x) → ∃ x, parseBgpMessage false l' bs = .ok x := by
    rintro l l' ⟨⟨m, r⟩, h⟩
    obtain ⟨marker, len, ty, rest, t, h1, h2, h3, h4, h5, h6, h7, h8⟩ := (c15_accepted_iff false l bs m r).mp h
    have : ∃ m', parseBody false l' t (rest.take (len - 19)) = .ok m' := by
      cases t with
      | update =>
        simp only [parseBody, mapOk] at h7 ⊢
        split at h7
        · rename_i u hu
          obtain ⟨u', hu'⟩ := parseUpdate_ok_any (l' := l') hu
          rw [hu']
          exact ⟨_, rfl⟩
        · cases h7
      | _ => exact ⟨m, h7⟩
    obtain ⟨m', h7'⟩ := this
    exact ⟨(m', r), (c15_accepted_iff false l' bs m' r).mpr ⟨marker, len, ty, rest, t, h1, h2, h3, h4, h5, h6, h7', h8⟩⟩
  exact ⟨key _ _, key _ _⟩

/-- **C82** violated: so the AS path of a message from a session with AS numbers of two octets is lost, and an announcement without
path is reported. -/
theorem c82_violation_old_session : ∃ msg msg', parseBgpMessage false .b16 oldUpdate = .ok (msg, []) ∧ ReadRaw oldUpdate msg' ∧
    (bgpToElems msg 0 (.v4 #v[192, 0, 2, 1]) 65001).map (·.asPath) = [some [.seq [65001, 65002]]] ∧
    (bgpToElems msg' 0 (.v4 #v[192, 0, 2, 1]) 65001).map (·.asPath) = [none] :=
  ⟨_, _, rfl, .inl ⟨[], rfl⟩, by decide +kernel, by decide +kernel⟩

/-- the fields of a message with an UPDATE in them: AS path 65001 to 198.51.100.0/24. -/
def liveRawDoc : List (String × Json) := liveFieldsDoc
  [("raw", .str "ffffffffffffffffffffffffffffffff002F02000000144001010040020602010000FDE9400304C000020118C63364")]

example : ∃ m bs u, RawDoc (liveEnv (liveEnvelopeDoc liveRawDoc)) "" m bs ∧ ReadRaw bs (.update u) ∧ u.announced.length = 1 ∧
    u.attributes.warnings = [] ∧ StampOf m.timestamp 1500000 := by
  have h : ∃ m, liveMessageOf (liveEnv (liveEnvelopeDoc liveRawDoc)) (.obj liveRawDoc) = some m ∧ m.timestamp = 3 / 2 ∧
      ∃ raw, m.raw = some raw ∧ ∃ bs, hexDecode raw.toList = some bs ∧ ∃ u r, parseBgpMessage false .b32 bs = .ok (.update u, r) ∧
        u.announced.length = 1 ∧ u.attributes.warnings = [] :=
    ⟨_, rfl, rfl, _, rfl, _, rfl, _, _, rfl, rfl, rfl⟩
  obtain ⟨m, h1, ht, raw, h2, bs, h3, u, r, h4, h5, h6⟩ := h
  obtain ⟨kvs, e, hd⟩ := liveMessage_iff.mp h1
  cases e
  refine ⟨m, bs, u, ⟨_, _, raw, rfl, liveEnvelopeDoc_ok _, hd, h2, hexDecode_iff.mp h3⟩, .inl ⟨r, h4⟩, h5, h6, ?_⟩
  rw [ht]
  exact ⟨by decide, by decide +kernel⟩

example : HexText "fF00a9".toList [255, 0, 169] := hexDecode_iff.mp (by decide +kernel)
example : ¬ ∃ bs, HexText "fF0".toList bs := fun ⟨bs, h⟩ => by have := hexDecode_iff.mpr h; revert this; simp [hexDecode]

/-! ### C83: messages to the server -/

theorem lastSet_append {f : SubscribeOp → Option α} {ops : List SubscribeOp} {op : SubscribeOp} :
    lastSet f (ops ++ [op]) = (f op).or (lastSet f ops) := by
  unfold lastSet
  rw [List.filterMap_append]
  cases h : f op with
  | none => simp [List.filterMap_cons, h]
  | some x => simp [List.filterMap_cons, h]

/-- what a sequence of calls leaves. -/
theorem fold_set (ops : List SubscribeOp) : ops.foldl Subscribe.set Subscribe.new = {
    host := lastSet SubscribeOp.isHost ops, dataType := lastSet SubscribeOp.isType ops, require := lastSet SubscribeOp.isRequire ops,
    peer := lastSet SubscribeOp.isPeer ops, path := lastSet SubscribeOp.isPath ops, prefix_ := lastSet SubscribeOp.isPrefix ops,
    moreSpecific := lastSet SubscribeOp.isMore ops, lessSpecific := lastSet SubscribeOp.isLess ops,
    socketOptions := if lastSet SubscribeOp.isRaw ops = none ∧ lastSet SubscribeOp.isAck ops = none then none
      else some ⟨lastSet SubscribeOp.isRaw ops, lastSet SubscribeOp.isAck ops⟩ } := by
  suffices h : ∀ rev : List SubscribeOp, rev.reverse.foldl Subscribe.set Subscribe.new = {
      host := lastSet SubscribeOp.isHost rev.reverse, dataType := lastSet SubscribeOp.isType rev.reverse,
      require := lastSet SubscribeOp.isRequire rev.reverse, peer := lastSet SubscribeOp.isPeer rev.reverse,
      path := lastSet SubscribeOp.isPath rev.reverse, prefix_ := lastSet SubscribeOp.isPrefix rev.reverse,
      moreSpecific := lastSet SubscribeOp.isMore rev.reverse, lessSpecific := lastSet SubscribeOp.isLess rev.reverse,
      socketOptions := if lastSet SubscribeOp.isRaw rev.reverse = none ∧ lastSet SubscribeOp.isAck rev.reverse = none then none
        else some ⟨lastSet SubscribeOp.isRaw rev.reverse, lastSet SubscribeOp.isAck rev.reverse⟩ } by
    have := h ops.reverse
    rwa [List.reverse_reverse] at this
  intro rev
  induction rev with
  | nil => rfl
  | cons op rev ih =>
  rw [List.reverse_cons]
  generalize rev.reverse = ops at ih ⊢
  rw [List.foldl_append, List.foldl_cons, List.foldl_nil, ih]
  simp only [lastSet_append]
  cases op <;> simp only [Subscribe.set, SubscribeOp.isHost, SubscribeOp.isType, SubscribeOp.isRequire, SubscribeOp.isPeer, SubscribeOp.isPath,
    SubscribeOp.isPrefix, SubscribeOp.isMore, SubscribeOp.isLess, SubscribeOp.isRaw, SubscribeOp.isAck, Option.some_or, Option.none_or] <;>
    cases lastSet SubscribeOp.isRaw ops <;> cases lastSet SubscribeOp.isAck ops <;> rfl

theorem filter_entryOf_ne {k k' : String} {f : α → Json} {o : Option α} (h : k ≠ k') :
    (entryOf k f o).filter (fun kv => kv.1 == k') = [] := by
  cases o <;> simp [entryOf, h]

theorem filter_entryOf_eq {k : String} {f : α → Json} {o : Option α} : (entryOf k f o).filter (fun kv => kv.1 == k) = entryOf k f o := by
  cases o <;> simp [entryOf]

theorem showsKey_of {kvs : List (String × Json)} {k : String} {f : α → Json} {o : Option α}
    (h : kvs.filter (fun kv => kv.1 == k) = entryOf k f o) : ShowsKey kvs k (o.map f) := by
  cases o with
  | none => exact entry_eq_none.mp (by simp [Json.entry, h, entryOf])
  | some x => exact entry_eq_some.mp (by simp [Json.entry, h, entryOf])

theorem mem_entryOf {k : String} {f : α → Json} {o : Option α} {kv : String × Json} (h : kv ∈ entryOf k f o) : kv.1 = k := by
  cases o with
  | none => simp [entryOf] at h
  | some x => simp [entryOf] at h; rw [h]

theorem name_typeWord (t : SubscribeType) : t.name = typeWord t := by cases t <;> rfl

/-- **C83** Whatever the calls, in any order and number: the subscription has one entry for each setting that was set, with the value
of the last call, and no other. -/
theorem c83_subscription (env : ShowEnv) (ops : List SubscribeOp) :
    ∃ kvs, (ops.foldl Subscribe.set Subscribe.new).json env = .obj kvs ∧ SubscribeDoc env ops kvs := by
  rw [fold_set]
  refine ⟨_, rfl, ?_⟩
  dsimp only
  constructor
  case host => exact showsKey_of (by simp [List.filter_append, filter_entryOf_ne, filter_entryOf_eq])
  case type =>
    have : (fun t => Json.str (typeWord t)) = fun t : SubscribeType => Json.str t.name := by funext t; rw [name_typeWord]
    rw [this]
    exact showsKey_of (by simp [List.filter_append, filter_entryOf_ne, filter_entryOf_eq])
  case require => exact showsKey_of (by simp [List.filter_append, filter_entryOf_ne, filter_entryOf_eq])
  case peer => exact showsKey_of (f := fun a : Ip => textJson (a.text env)) (by simp [List.filter_append, filter_entryOf_ne, filter_entryOf_eq])
  case path => exact showsKey_of (by simp [List.filter_append, filter_entryOf_ne, filter_entryOf_eq])
  case prefix_ => exact showsKey_of (f := fun n : IpNet => textJson (n.text env)) (by simp [List.filter_append, filter_entryOf_ne, filter_entryOf_eq])
  case more => exact showsKey_of (by simp [List.filter_append, filter_entryOf_ne, filter_entryOf_eq])
  case less => exact showsKey_of (by simp [List.filter_append, filter_entryOf_ne, filter_entryOf_eq])
  case noOptions =>
    intro h1 h2
    rw [if_pos ⟨h1, h2⟩]
    exact showsKey_of (f := SocketOptions.json) (o := none) (by simp [List.filter_append, filter_entryOf_ne, filter_entryOf_eq])
  case options =>
    intro h
    rw [if_neg (by rintro ⟨h1, h2⟩; rcases h with h | h <;> contradiction)]
    refine ⟨_, showsKey_of (f := SocketOptions.json) (o := some ⟨lastSet SubscribeOp.isRaw ops, lastSet SubscribeOp.isAck ops⟩)
      (by simp [List.filter_append, filter_entryOf_ne, filter_entryOf_eq]), showsKey_of (by simp [List.filter_append, filter_entryOf_ne, filter_entryOf_eq]),
      showsKey_of (by simp [List.filter_append, filter_entryOf_ne, filter_entryOf_eq]), ?_⟩
    intro kv hkv
    rcases List.mem_append.mp hkv with h | h
    · exact .inl (mem_entryOf h)
    · exact .inr (mem_entryOf h)
  case only =>
    intro kv hkv
    simp only [List.mem_append] at hkv
    rcases hkv with (((((((h | h) | h) | h) | h) | h) | h) | h) | h <;> rw [mem_entryOf h] <;> simp [subscribeKeys]

/-- **C83** The messages built from it are marked as what they are and have the subscription as their data; the list of collectors
asked for, and nothing with a ping. -/
theorem c83_messages (env : ShowEnv) (ops : List SubscribeOp) (names : List String) :
    ∃ t1 t2 t3 t4 kvs, (ClientMessage.subscribe (ops.foldl Subscribe.set Subscribe.new)).json env = .obj t1 ∧
      (ClientMessage.unsubscribe (ops.foldl Subscribe.set Subscribe.new)).json env = .obj t2 ∧
      ClientMessage.ping.json env = .obj t3 ∧ (ClientMessage.requestRrcList names).json env = .obj t4 ∧ SubscribeDoc env ops kvs ∧
      HasEntry t1 "type" (.str "ris_subscribe") ∧ HasEntry t1 "data" (.obj kvs) ∧
      HasEntry t2 "type" (.str "ris_unsubscribe") ∧ HasEntry t2 "data" (.obj kvs) ∧
      HasEntry t3 "type" (.str "ping") ∧ HasEntry t3 "data" .null ∧
      HasEntry t4 "type" (.str "request_rrc_list") ∧ HasEntry t4 "data" (.arr (names.map .str)) := by
  obtain ⟨kvs, h1, h2⟩ := c83_subscription env ops
  simp only [ClientMessage.json, h1, Json.obj.injEq]
  exact ⟨_, _, _, _, kvs, rfl, rfl, rfl, rfl, h2, entry_eq_some.mp rfl, entry_eq_some.mp rfl, entry_eq_some.mp rfl, entry_eq_some.mp rfl,
    entry_eq_some.mp rfl, entry_eq_some.mp rfl, entry_eq_some.mp rfl, entry_eq_some.mp rfl⟩

/-- **C83** The order of calls that set different things does not matter. -/
theorem c83_commute (s : Subscribe) (a b : SubscribeOp) (h : a.ctorIdx ≠ b.ctorIdx) : (s.set a).set b = (s.set b).set a := by
  cases a <;> cases b <;> simp_all [Subscribe.set, SubscribeOp.ctorIdx] <;> cases s.socketOptions <;> rfl

example : lastSet SubscribeOp.isRaw [.includeRaw true, .host "rrc00", .acknowledge true, .includeRaw false] = some false := rfl

end Verif.Props
