import Verif.Spec.RisLive
import Verif.Lemmas.Json
import Verif.Props.Display
import Verif.Props.Elem
import Verif.Props.Time
/-
Lemmas on RIS Live.
-/
namespace Verif
open Spec

/-! ### documents -/

theorem natBelow_iff {b n : Nat} {j : Json} : j.natBelow b = some n ↔ n < b ∧ j = number n := by
  constructor
  · intro h
    unfold Json.natBelow at h
    split at h
    · rename_i k
      split at h
      · simp only [Option.some.injEq] at h
        subst h
        exact ⟨by assumption, rfl⟩
      · simp at h
    · simp at h
  · rintro ⟨h, rfl⟩
    exact natBelow_nat h

theorem u32_iff {x : UInt32} {j : Json} : j.u32 = some x ↔ U32Doc x j := by
  constructor
  · intro h
    simp only [Json.u32, Option.map_eq_some_iff] at h
    obtain ⟨n, h1, rfl⟩ := h
    obtain ⟨hb, rfl⟩ := natBelow_iff.mp h1
    show number n = number (UInt32.ofNat n).toNat
    rw [UInt32.toNat_ofNat_of_lt' hb]
  · rintro rfl; exact u32_nat x

theorem u16_iff {x : UInt16} {j : Json} : j.u16 = some x ↔ j = number x.toNat := by
  constructor
  · intro h
    simp only [Json.u16, Option.map_eq_some_iff] at h
    obtain ⟨n, h1, rfl⟩ := h
    obtain ⟨hb, rfl⟩ := natBelow_iff.mp h1
    show number n = number (UInt16.ofNat n).toNat
    rw [UInt16.toNat_ofNat_of_lt' hb]
  · rintro rfl; exact u16_nat x

theorem string_iff {x : String} {j : Json} : j.string = some x ↔ TextDoc x j := by
  unfold Json.string TextDoc
  split <;> simp_all

theorem viaText_iff {f : List Char → Option α} {x : α} {j : Json} : j.viaText f = some x ↔ ∃ s, j = .str s ∧ f s.toList = some x := by
  unfold Json.viaText
  split <;> simp_all

theorem mapM_iff {f : β → Option α} {R : α → β → Prop} (h : ∀ x j, f j = some x ↔ R x j) :
    ∀ {js : List β} {xs : List α}, js.mapM f = some xs ↔ Pairwise2 R xs js
  | [], xs => by
    rw [List.mapM_nil]
    constructor
    · intro e; cases e; exact .nil
    · intro e; cases e; rfl
  | j :: js, xs => by
    rw [List.mapM_cons]
    simp only [Option.bind_eq_bind, Option.bind_eq_some_iff, Option.pure_def, Option.some.injEq]
    constructor
    · rintro ⟨x, h1, ys, h2, rfl⟩
      exact .cons ((h x j).mp h1) ((mapM_iff h).mp h2)
    · intro e
      cases e with
      | cons h1 h2 => exact ⟨_, (h _ j).mpr h1, _, (mapM_iff h).mpr h2, rfl⟩

theorem list_iff {f : Json → Option α} {R : α → Json → Prop} (h : ∀ x j, f j = some x ↔ R x j) {xs : List α} {j : Json} :
    Json.list f j = some xs ↔ ListDoc R xs j := by
  unfold ListDoc
  cases j <;> simp only [Json.list, reduceCtorEq, false_and, exists_false]
  case arr js =>
    rw [mapM_iff h]
    constructor
    · intro e; exact ⟨js, rfl, e⟩
    · rintro ⟨_, e, h⟩; cases e; exact h

/-- an optional field. -/
theorem says_iff {f : Json → Option α} {R : α → Json → Prop} (h : ∀ x j, f j = some x ↔ R x j) (hn : f .null = none)
    {kvs : List (String × Json)} {k : String} {o : Option α} :
    (∃ v, Json.entry kvs k = some v ∧ Json.opt f v = some o) ↔ Says R kvs k o := by
  constructor
  · rintro ⟨v, h1, h2⟩
    cases v with
    | none => cases h2; exact .inl (entry_eq_none.mp h1)
    | some v =>
      have h1 := entry_eq_some.mp h1
      by_cases hv : v = .null
      · subst hv; cases h2; exact .inr h1
      · have : Json.opt f (some v) = (f v).map some := by cases v <;> first | rfl | exact absurd rfl hv
        rw [this, Option.map_eq_some_iff] at h2
        obtain ⟨x, h3, rfl⟩ := h2
        exact ⟨v, h1, (h x v).mp h3⟩
  · intro e
    cases o with
    | none =>
      rcases e with e | e
      · exact ⟨none, entry_lacks e, rfl⟩
      · exact ⟨_, entry_has e, rfl⟩
    | some x =>
      obtain ⟨v, h1, h2⟩ := e
      refine ⟨_, entry_has h1, ?_⟩
      have h2 := (h x v).mpr h2
      have hv : v ≠ .null := by rintro rfl; rw [hn] at h2; cases h2
      have : Json.opt f (some v) = (f v).map some := by cases v <;> first | rfl | exact absurd rfl hv
      rw [this, h2]; rfl

/-- a required field. -/
theorem field_iff {f : Json → Option α} {R : α → Json → Prop} (h : ∀ x j, f j = some x ↔ R x j)
    {kvs : List (String × Json)} {k : String} {x : α} :
    (∃ v, Json.entry kvs k = some v ∧ Json.req f v = some x) ↔ FieldSays R kvs k x := by
  constructor
  · rintro ⟨v, h1, h2⟩
    cases v with
    | none => cases h2
    | some v => exact ⟨v, entry_eq_some.mp h1, (h x v).mp h2⟩
  · rintro ⟨v, h1, h2⟩
    exact ⟨_, entry_has h1, (h x v).mpr h2⟩

theorem asnDoc_iff {x : Asn} {j : Json} : j.viaText asnParse = some x ↔ AsnDoc x j := by
  rw [viaText_iff]
  simp only [AsnDoc, Props.c77_parse]

theorem f64Of_iff {t : Rat} {j : Json} : f64Of j = some t ↔ SecondsDoc t j := by
  unfold f64Of SecondsDoc
  split <;> simp_all [eq_comm]

theorem pair_iff {c : UInt32 × UInt16} {j : Json} : communityPairOf j = some c ↔ PairDoc c j := by
  unfold PairDoc
  constructor
  · intro h
    unfold communityPairOf at h
    split at h
    · rename_i a b
      simp only [Option.bind_eq_bind, Option.bind_eq_some_iff, Option.pure_def, Option.some.injEq] at h
      obtain ⟨x, h1, y, h2, rfl⟩ := h
      rw [show a = _ from u32_iff.mp h1, u16_iff.mp h2]
    · simp at h
  · rintro rfl
    simp only [communityPairOf, u32_iff.mpr (show U32Doc c.1 (number c.1.toNat) from rfl), u16_iff.mpr (show number c.2.toNat = number c.2.toNat from rfl)]
    rfl

theorem fields_two {a b : String} {j : Json} {x y : Option Json} :
    Json.fields [a, b] j = some [x, y] ↔
      (∃ kvs, j = .obj kvs ∧ Json.entry kvs a = some x ∧ Json.entry kvs b = some y) ∨ ∃ v w, j = .arr [v, w] ∧ x = some v ∧ y = some w := by
  cases j <;> simp only [Json.fields, reduceCtorEq, false_and, exists_false, or_false, false_or]
  case arr xs =>
    match xs with
    | [] => simp
    | [_] => simp
    | [v, w] =>
      simp only [List.length_cons, List.length_nil, if_pos, List.map_cons, List.map_nil, Option.some.injEq, List.cons.injEq, and_true, Json.arr.injEq]
      constructor
      · rintro ⟨rfl, rfl⟩; exact ⟨v, w, ⟨rfl, rfl⟩, rfl, rfl⟩
      · rintro ⟨_, _, ⟨rfl, rfl⟩, rfl, rfl⟩; exact ⟨rfl, rfl⟩
    | _ :: _ :: _ :: _ => simp
  case obj kvs =>
    simp [List.mapM_cons, List.mapM_nil, Option.bind_eq_some_iff]

theorem fields_len {names : List String} {j : Json} {r : List (Option Json)} (h : Json.fields names j = some r) : r.length = names.length := by
  unfold Json.fields at h
  split at h
  · rename_i kvs
    have : ∀ (ns : List String) (r : List (Option Json)), ns.mapM (Json.entry kvs) = some r → r.length = ns.length := by
      intro ns
      induction ns with
      | nil => intro r h; cases h; rfl
      | cons n ns ih =>
        intro r h
        rw [List.mapM_cons] at h
        simp only [Option.bind_eq_bind, Option.bind_eq_some_iff, Option.pure_def, Option.some.injEq] at h
        obtain ⟨v, _, vs, h2, rfl⟩ := h
        simp [ih vs h2]
    exact this _ _ h
  · split at h
    · cases h; simpa
    · cases h
  · cases h

theorem announcement_iff {env : LiveEnv} {a : Ip × List String} {j : Json} : announcementOf env j = some a ↔ AnnouncementDoc env a j := by
  have hi : ∀ x j, Json.viaText env.ip j = some x ↔ IpDoc env x j := fun x j => viaText_iff
  have hl : ∀ x j, Json.list Json.string j = some x ↔ ListDoc TextDoc x j := fun x j => list_iff fun _ _ => string_iff
  unfold announcementOf AnnouncementDoc
  rw [Option.bind_eq_bind, Option.bind_eq_some_iff]
  constructor
  · rintro ⟨r, h1, h2⟩
    match r, fields_len h1 with
    | [x, y], _ =>
      simp only [Option.bind_eq_bind, Option.bind_eq_some_iff, Option.pure_def, Option.some.injEq] at h2
      obtain ⟨ip, h2, ps, h3, rfl⟩ := h2
      match x, y with
      | some x, some y =>
        refine ⟨x, y, (hi _ _).mp h2, (hl _ _).mp h3, ?_⟩
        rcases fields_two.mp h1 with ⟨kvs, rfl, e1, e2⟩ | ⟨v, w, rfl, e1, e2⟩
        · exact .inl ⟨kvs, rfl, entry_eq_some.mp e1, entry_eq_some.mp e2⟩
        · cases e1; cases e2; exact .inr rfl
      | none, _ => cases h2
      | some _, none => cases h3
  · rintro ⟨nh, ps, h1, h2, h3⟩
    refine ⟨[some nh, some ps], fields_two.mpr ?_, ?_⟩
    · rcases h3 with ⟨kvs, rfl, e1, e2⟩ | rfl
      · exact .inl ⟨kvs, rfl, entry_has e1, entry_has e2⟩
      · exact .inr ⟨nh, ps, rfl, rfl, rfl⟩
    · simp only [Json.req, (hi _ _).mpr h1, (hl _ _).mpr h2]; rfl

/-! fields that are left by a filter -/

theorem filter_entry {kvs : List (String × Json)} {k : String} {P : String → Bool} (h : P k = true) :
    Json.entry (kvs.filter fun kv => P kv.1) k = Json.entry kvs k := by
  unfold Json.entry
  have : (kvs.filter fun kv => P kv.1).filter (fun kv => kv.1 == k) = kvs.filter (fun kv => kv.1 == k) := by
    rw [List.filter_filter]
    apply List.filter_congr
    intro kv _
    by_cases e : kv.1 = k
    · simp [e, h]
    · simp [e]
  rw [this]

/-- lookups in the remaining fields. -/
theorem liveUpdateOf_congr {env : LiveEnv} {kvs kvs' : List (String × Json)}
    (h : ∀ k ∈ ["path", "community", "origin", "med", "aggregator", "announcements", "withdrawals"], Json.entry kvs k = Json.entry kvs' k) :
    liveUpdateOf env kvs = liveUpdateOf env kvs' := by
  unfold liveUpdateOf
  rw [h "path" (by simp), h "community" (by simp), h "origin" (by simp), h "med" (by simp), h "aggregator" (by simp),
    h "announcements" (by simp), h "withdrawals" (by simp)]

theorem asPathOf_null : asPathOf .null = none := rfl

theorem liveUpdate_iff {env : LiveEnv} {kvs : List (String × Json)} {u : LiveUpdate} : liveUpdateOf env kvs = some u ↔ UpdateDoc env kvs u := by
  have a1 := @says_iff _ asPathOf PathDoc (fun _ _ => Iff.rfl) rfl kvs "path"
  have a2 := @says_iff _ (Json.list communityPairOf) (ListDoc PairDoc) (fun _ _ => list_iff fun _ _ => pair_iff) rfl kvs "community"
  have a3 := @says_iff _ Json.string TextDoc (fun _ _ => string_iff) rfl kvs "origin"
  have a4 := @says_iff _ Json.u32 U32Doc (fun _ _ => u32_iff) rfl kvs "med"
  have a5 := @says_iff _ Json.string TextDoc (fun _ _ => string_iff) rfl kvs "aggregator"
  have a6 := @says_iff _ (Json.list (announcementOf env)) (ListDoc (AnnouncementDoc env)) (fun _ _ => list_iff fun _ _ => announcement_iff) rfl kvs "announcements"
  have a7 := @says_iff _ (Json.list Json.string) (ListDoc TextDoc) (fun _ _ => list_iff fun _ _ => string_iff) rfl kvs "withdrawals"
  unfold liveUpdateOf
  simp only [Option.bind_eq_bind, Option.bind_eq_some_iff, Option.pure_def, Option.some.injEq]
  constructor
  · rintro ⟨v1, h1, x1, k1, v2, h2, x2, k2, v3, h3, x3, k3, v4, h4, x4, k4, v5, h5, x5, k5, v6, h6, x6, k6, v7, h7, x7, k7, rfl⟩
    exact ⟨a1.mp ⟨_, h1, k1⟩, a2.mp ⟨_, h2, k2⟩, a3.mp ⟨_, h3, k3⟩, a4.mp ⟨_, h4, k4⟩, a5.mp ⟨_, h5, k5⟩, a6.mp ⟨_, h6, k6⟩, a7.mp ⟨_, h7, k7⟩⟩
  · rintro ⟨h1, h2, h3, h4, h5, h6, h7⟩
    obtain ⟨v1, h1, k1⟩ := a1.mpr h1
    obtain ⟨v2, h2, k2⟩ := a2.mpr h2
    obtain ⟨v3, h3, k3⟩ := a3.mpr h3
    obtain ⟨v4, h4, k4⟩ := a4.mpr h4
    obtain ⟨v5, h5, k5⟩ := a5.mpr h5
    obtain ⟨v6, h6, k6⟩ := a6.mpr h6
    obtain ⟨v7, h7, k7⟩ := a7.mpr h7
    exact ⟨v1, h1, _, k1, v2, h2, _, k2, v3, h3, _, k3, v4, h4, _, k4, v5, h5, _, k5, v6, h6, _, k6, v7, h7, _, k7, rfl⟩

theorem updateTag_iff {j : Json} : isUpdateTag j = true ↔ j = .str "UPDATE" ∨ j = .int 0 := by
  unfold isUpdateTag
  split <;> simp_all

theorem liveBody_iff {env : LiveEnv} {kvs : List (String × Json)} {u : LiveUpdate} :
    liveBodyOf env (kvs.filter fun kv => !liveKeys.contains kv.1) = some u ↔ IsUpdate env kvs u := by
  have ht : Json.entry (kvs.filter fun kv => !liveKeys.contains kv.1) "type" = Json.entry kvs "type" :=
    filter_entry (P := fun k => !liveKeys.contains k) (by decide)
  have hu : liveUpdateOf env ((kvs.filter fun kv => !liveKeys.contains kv.1).filter fun kv => kv.1 != "type") = liveUpdateOf env kvs := by
    apply liveUpdateOf_congr
    intro k hk
    rw [filter_entry (P := fun k => k != "type"), filter_entry (P := fun k => !liveKeys.contains k)]
    · simp only [List.mem_cons, List.not_mem_nil, or_false] at hk
      rcases hk with rfl | rfl | rfl | rfl | rfl | rfl | rfl <;> decide
    · simp only [List.mem_cons, List.not_mem_nil, or_false] at hk
      rcases hk with rfl | rfl | rfl | rfl | rfl | rfl | rfl <;> decide
  unfold liveBodyOf IsUpdate MarkedUpdate
  rw [ht, hu, ← liveUpdate_iff]
  constructor
  · intro h
    split at h
    · rename_i tag he
      split at h
      · rename_i hg
        have he := entry_eq_some.mp he
        refine ⟨?_, h⟩
        rcases updateTag_iff.mp hg with rfl | rfl
        · exact .inl he
        · exact .inr he
      · cases h
    · cases h
  · rintro ⟨h1, h2⟩
    rcases h1 with h1 | h1
    · rw [entry_has h1]; simpa [isUpdateTag] using h2
    · rw [entry_has h1]; simpa [isUpdateTag] using h2

theorem liveMessage_iff {env : LiveEnv} {j : Json} {m : LiveMessage} :
    liveMessageOf env j = some m ↔ ∃ kvs, j = .obj kvs ∧ MessageDoc env kvs m := by
  cases j <;> simp only [liveMessageOf, reduceCtorEq, false_and, exists_false]
  case obj kvs =>
    have a1 := @field_iff _ f64Of SecondsDoc (fun _ _ => f64Of_iff) kvs "timestamp"
    have a2 := @field_iff _ (Json.viaText env.ip) (IpDoc env) (fun _ _ => viaText_iff) kvs "peer"
    have a3 := @field_iff _ (Json.viaText asnParse) AsnDoc (fun _ _ => asnDoc_iff) kvs "peer_asn"
    have a4 := @field_iff _ Json.string TextDoc (fun _ _ => string_iff) kvs "id"
    have a5 := @says_iff _ Json.string TextDoc (fun _ _ => string_iff) rfl kvs "raw"
    have a6 := @field_iff _ Json.string TextDoc (fun _ _ => string_iff) kvs "host"
    simp only [Option.bind_eq_bind, Option.bind_eq_some_iff, Option.pure_def, Option.some.injEq]
    constructor
    · rintro ⟨v1, h1, x1, k1, v2, h2, x2, k2, v3, h3, x3, k3, v4, h4, x4, k4, v5, h5, x5, k5, v6, h6, x6, k6, rfl⟩
      exact ⟨kvs, rfl, a1.mp ⟨_, h1, k1⟩, a2.mp ⟨_, h2, k2⟩, a3.mp ⟨_, h3, k3⟩, a4.mp ⟨_, h4, k4⟩, a5.mp ⟨_, h5, k5⟩, a6.mp ⟨_, h6, k6⟩,
        fun u => liveBody_iff⟩
    · rintro ⟨_, e, h⟩
      cases e
      obtain ⟨v1, h1, k1⟩ := a1.mpr h.timestamp
      obtain ⟨v2, h2, k2⟩ := a2.mpr h.peer
      obtain ⟨v3, h3, k3⟩ := a3.mpr h.peerAsn
      obtain ⟨v4, h4, k4⟩ := a4.mpr h.id
      obtain ⟨v5, h5, k5⟩ := a5.mpr h.raw
      obtain ⟨v6, h6, k6⟩ := a6.mpr h.host
      refine ⟨v1, h1, _, k1, v2, h2, _, k2, v3, h3, _, k3, v4, h4, _, k4, v5, h5, _, k5, v6, h6, _, k6, ?_⟩
      have : liveBodyOf env (kvs.filter fun kv => !liveKeys.contains kv.1) = m.update := by
        apply Option.ext
        intro u
        rw [h.update u]
        exact liveBody_iff
      rw [this]

theorem messageTag_iff {j : Json} : (∃ c, j.variant = some ("ris_message", c) ∧ Json.isUnit c = true) ↔ MessageTag j := by
  unfold MessageTag
  constructor
  · rintro ⟨c, h1, h2⟩
    unfold Json.variant at h1
    split at h1
    · simp only [Option.some.injEq, Prod.mk.injEq] at h1
      exact .inl (by rw [h1.1])
    · simp only [Option.some.injEq, Prod.mk.injEq] at h1
      obtain ⟨rfl, rfl⟩ := h1
      unfold Json.isUnit at h2
      split at h2
      · simp at *
      · rename_i h; simp only [Option.some.injEq] at h; rw [h]; exact .inr rfl
      · simp at h2
    · simp at h1
  · rintro (rfl | rfl)
    · exact ⟨none, rfl, rfl⟩
    · exact ⟨_, rfl, rfl⟩

theorem liveEnvelope_iff {env : LiveEnv} {j : Json} {m : LiveMessage} :
    liveEnvelopeOf env j = some (.message m) ↔ ∃ kvs, Envelope j kvs ∧ MessageDoc env kvs m := by
  unfold liveEnvelopeOf
  rw [Option.bind_eq_bind, Option.bind_eq_some_iff]
  constructor
  · rintro ⟨r, h1, h2⟩
    match r, fields_len h1 with
    | [x, y], _ =>
      rw [Option.bind_eq_bind, Option.bind_eq_some_iff] at h2
      obtain ⟨⟨name, c⟩, h2, h3⟩ := h2
      dsimp only at h3
      match x with
      | none => cases h2
      | some x =>
        by_cases hc : Json.isUnit c = true
        · rw [if_neg (by simp [hc])] at h3
          by_cases hname : name = "ris_message"
          · subst hname
            rw [if_pos rfl] at h3
            simp only [Option.bind_eq_bind, Option.bind_eq_some_iff, Option.pure_def, Option.some.injEq, LiveEnvelope.message.injEq] at h3
            obtain ⟨m', h3, rfl⟩ := h3
            match y with
            | none => cases h3
            | some y =>
              obtain ⟨kvs, rfl, h4⟩ := liveMessage_iff.mp h3
              refine ⟨kvs, ⟨x, messageTag_iff.mp ⟨c, h2, hc⟩, ?_⟩, h4⟩
              rcases fields_two.mp h1 with ⟨top, rfl, e1, e2⟩ | ⟨v, w, rfl, e1, e2⟩
              · exact .inl ⟨top, rfl, entry_eq_some.mp e1, entry_eq_some.mp e2⟩
              · cases e1; cases e2; exact .inr rfl
          · rw [if_neg hname] at h3
            exfalso
            split at h3
            · rw [Option.bind_eq_some_iff] at h3
              obtain ⟨_, _, h3⟩ := h3
              split at h3 <;> simp at h3
            · split at h3
              · split at h3 <;> simp at h3
              · split at h3
                · rw [Option.bind_eq_some_iff] at h3
                  obtain ⟨_, _, h3⟩ := h3
                  split at h3 <;> simp at h3
                · cases h3
        · rw [if_pos (by simp [hc])] at h3; cases h3
  · rintro ⟨kvs, ⟨ty, ht, h1⟩, h2⟩
    refine ⟨[some ty, some (.obj kvs)], fields_two.mpr ?_, ?_⟩
    · rcases h1 with ⟨top, rfl, e1, e2⟩ | rfl
      · exact .inl ⟨top, rfl, entry_has e1, entry_has e2⟩
      · exact .inr ⟨_, _, rfl, rfl, rfl⟩
    · obtain ⟨c, h3, h4⟩ := messageTag_iff.mpr ht
      simp only [Json.req, h3, Option.bind_eq_bind, Option.bind_some, h4, liveMessage_iff.mpr ⟨kvs, rfl, h2⟩]
      rfl

/-! ### elements -/

theorem livePrefix_iff {env : LiveEnv} {s : String} {n : IpNet} : livePrefix env s = .ok n ↔ env.net s.toList = some n := by
  unfold livePrefix
  split
  · rename_i k h; rw [h]; simp
  · rename_i h; rw [h]; split <;> simp

/-- the error for a prefix that cannot be read. -/
def prefixErr (s : String) : LiveErr := if s = "eor" then .endOfRibPrefix else .incorrectPrefix s

theorem livePrefix_err {env : LiveEnv} {s : String} (h : env.net s.toList = none) : livePrefix env s = .error (prefixErr s) := by
  unfold livePrefix prefixErr
  rw [h]
  dsimp only
  split <;> rfl

theorem liveOrigin_iff {s : Option String} {o : Option Origin} : liveOrigin s = .ok o ↔ OriginSays s o := by
  cases s with
  | none => simp [liveOrigin, OriginSays, eq_comm]
  | some s =>
    show _ ↔ ∃ w, o = some w ∧ OriginWord s w
    constructor
    · intro h
      simp only [liveOrigin] at h
      split at h
      · cases h; exact ⟨.igp, rfl, by assumption⟩
      · split at h
        · cases h; exact ⟨.egp, rfl, by assumption⟩
        · split at h
          · cases h; exact ⟨.incomplete, rfl, by assumption⟩
          · cases h
    · rintro ⟨w, rfl, h⟩
      cases w <;> rcases h with rfl | rfl <;> rfl

theorem splitColon_iff {s a b : List Char} : splitColon s = some (a, b) ↔ s = a ++ ':' :: b ∧ ':' ∉ a := by
  induction s generalizing a with
  | nil => simp [splitColon]
  | cons c cs ih =>
    unfold splitColon
    by_cases hc : c = ':'
    · rw [if_pos hc]
      subst hc
      constructor
      · intro h; cases h; exact ⟨rfl, by simp⟩
      · rintro ⟨h1, h2⟩
        cases a with
        | nil => simp only [List.nil_append, List.cons.injEq] at h1; rw [h1.2]
        | cons x a =>
          simp only [List.cons_append, List.cons.injEq] at h1
          exact absurd (by simp [← h1.1]) h2
    · rw [if_neg hc, Option.map_eq_some_iff]
      constructor
      · rintro ⟨⟨x, y⟩, h1, h2⟩
        cases h2
        obtain ⟨h1, h2⟩ := ih.mp h1
        refine ⟨by rw [h1]; rfl, ?_⟩
        simp only [List.mem_cons, not_or]
        exact ⟨fun e => hc e.symm, h2⟩
      · rintro ⟨h1, h2⟩
        cases a with
        | nil => simp only [List.nil_append, List.cons.injEq] at h1; exact absurd h1.1 hc
        | cons x a =>
          simp only [List.cons_append, List.cons.injEq] at h1
          obtain ⟨rfl, h1⟩ := h1
          exact ⟨(a, b), ih.mpr ⟨h1, fun e => h2 (by simp [e])⟩, rfl⟩

theorem splitColon_none {s : List Char} : splitColon s = none ↔ ':' ∉ s := by
  induction s with
  | nil => simp [splitColon]
  | cons c cs ih =>
    unfold splitColon
    by_cases hc : c = ':'
    · simp [hc]
    · rw [if_neg hc, Option.map_eq_none_iff, ih, List.mem_cons, not_or]
      exact ⟨fun h => ⟨fun e => hc e.symm, h⟩, fun h => h.2⟩

theorem liveAggregator_iff {env : LiveEnv} {s : Option String} {a : Option Asn × Option V4} :
    liveAggregator env s = .ok a ↔ AggregatorSays env s a := by
  cases s with
  | none => simp [liveAggregator, AggregatorSays, eq_comm]
  | some s =>
    show _ ↔ ∃ x y asn ip, s.toList = x ++ ':' :: y ∧ ':' ∉ x ∧ AsnWord x asn ∧ env.v4 y = some ip ∧ a = (some asn, some ip)
    constructor
    · intro h
      simp only [liveAggregator] at h
      split at h
      · cases h
      · rename_i x y hs
        obtain ⟨h1, h2⟩ := splitColon_iff.mp hs
        split at h
        · cases h
        · rename_i asn ha
          split at h
          · cases h
          · rename_i ip hi
            cases h
            exact ⟨x, y, asn, ip, h1, h2, (Props.c77_parse _ _).mp ha, hi, rfl⟩
    · rintro ⟨x, y, asn, ip, h1, h2, h3, h4, rfl⟩
      simp only [liveAggregator, splitColon_iff.mpr ⟨h1, h2⟩, (Props.c77_parse _ _).mpr h3, h4]

theorem except_bind_ok {x : Except ε α} {f : α → Except ε β} {b : β} : (x >>= f) = .ok b ↔ ∃ a, x = .ok a ∧ f a = .ok b := by
  cases x with
  | error e => simp [bind, Except.bind]
  | ok a => simp [bind, Except.bind]

theorem announced_iff {env : LiveEnv} {m : LiveMessage} {u : LiveUpdate} {o : Option Origin} {aggr : Option Asn × Option V4} {nh : Ip} :
    ∀ {ps : List String} {es : List BgpElem}, announcedElems env m u o aggr nh ps = .ok es ↔
      Pairwise2 (LiveAnnounces env m u o aggr) (ps.map fun s => (nh, s)) es
  | [], es => by
    simp only [announcedElems, List.map_nil, Except.ok.injEq]
    constructor
    · rintro rfl; exact .nil
    · intro h; cases h; rfl
  | s :: ss, es => by
    simp only [announcedElems, List.map_cons, except_bind_ok, pure, Except.pure, Except.ok.injEq]
    constructor
    · rintro ⟨n, h1, r, h2, rfl⟩
      exact .cons ⟨rfl, rfl, rfl, rfl, livePrefix_iff.mp h1, rfl, rfl, rfl, rfl, rfl, rfl, rfl, rfl, rfl, rfl, rfl, rfl, rfl, rfl, rfl⟩
        (announced_iff.mp h2)
    · intro h
      cases h with
      | cons h1 h2 =>
        rename_i e es
        refine ⟨e.prefix_.prefix_, livePrefix_iff.mpr h1.prefix_, es, announced_iff.mpr h2, ?_⟩
        obtain ⟨a1, a2, a3, a4, a5, a6, a7, a8, a9, a10, a11, a12, b1, b2, b3, b4, b5, b6, b7, b8⟩ := h1
        obtain ⟨t, ty, pi, pa, pb, ⟨n, pid⟩, nh', ap, oa, og, lp, md, cm, at', aa, ai, otc, uk, dp⟩ := e
        dsimp only at *
        subst a1 a2 a3 a4 a6 a7 a8 a9 a10 a11 a12 b1 b2 b3 b4 b5 b6 b7 b8
        rfl

theorem pairwise2_append_iff {R : α → β → Prop} {xs ys : List α} {zs : List β} :
    Pairwise2 R (xs ++ ys) zs ↔ ∃ a b, zs = a ++ b ∧ Pairwise2 R xs a ∧ Pairwise2 R ys b := by
  induction xs generalizing zs with
  | nil =>
    constructor
    · intro h; exact ⟨[], zs, rfl, .nil, h⟩
    · rintro ⟨a, b, rfl, h1, h2⟩; cases h1; exact h2
  | cons x xs ih =>
    constructor
    · intro h
      cases h with
      | cons h1 h2 =>
        obtain ⟨a, b, rfl, h3, h4⟩ := ih.mp h2
        exact ⟨_ :: a, b, rfl, .cons h1 h3, h4⟩
    · rintro ⟨a, b, rfl, h1, h2⟩
      cases h1 with
      | cons h1 h3 => exact .cons h1 (ih.mpr ⟨_, b, rfl, h3, h2⟩)

theorem allAnnounced_iff {env : LiveEnv} {m : LiveMessage} {u : LiveUpdate} {o : Option Origin} {aggr : Option Asn × Option V4} :
    ∀ {as : List (Ip × List String)} {es : List BgpElem}, allAnnouncedElems env m u o aggr as = .ok es ↔
      Pairwise2 (LiveAnnounces env m u o aggr) (as.flatMap fun a => a.2.map fun s => (a.1, s)) es
  | [], es => by
    simp only [allAnnouncedElems, List.flatMap_nil, Except.ok.injEq]
    constructor
    · rintro rfl; exact .nil
    · intro h; cases h; rfl
  | (nh, ps) :: r, es => by
    simp only [allAnnouncedElems, List.flatMap_cons, except_bind_ok, pure, Except.pure, Except.ok.injEq, pairwise2_append_iff]
    constructor
    · rintro ⟨a, h1, b, h2, rfl⟩
      exact ⟨a, b, rfl, announced_iff.mp h1, allAnnounced_iff.mp h2⟩
    · rintro ⟨a, b, rfl, h1, h2⟩
      exact ⟨a, announced_iff.mpr h1, b, allAnnounced_iff.mpr h2, rfl⟩

theorem withdrawn_iff {env : LiveEnv} {m : LiveMessage} :
    ∀ {ss : List String} {es : List BgpElem}, withdrawnElems env m ss = .ok es ↔ Pairwise2 (LiveWithdraws env m) ss es
  | [], es => by
    simp only [withdrawnElems, Except.ok.injEq]
    constructor
    · rintro rfl; exact .nil
    · intro h; cases h; rfl
  | s :: ss, es => by
    simp only [withdrawnElems, except_bind_ok, pure, Except.pure, Except.ok.injEq]
    constructor
    · rintro ⟨n, h1, r, h2, rfl⟩
      exact .cons ⟨n, livePrefix_iff.mp h1, rfl⟩ (withdrawn_iff.mp h2)
    · intro h
      cases h with
      | cons h1 h2 =>
        obtain ⟨n, h1, rfl⟩ := h1
        exact ⟨n, livePrefix_iff.mpr h1, _, withdrawn_iff.mpr h2, rfl⟩

theorem liveElems_iff {env : LiveEnv} {m : LiveMessage} {u : LiveUpdate} {es : List BgpElem} :
    liveElems env m u = .ok es ↔ LiveElems env m u es := by
  unfold liveElems LiveElems
  simp only [except_bind_ok, pure, Except.pure, Except.ok.injEq, liveOrigin_iff, liveAggregator_iff, allAnnounced_iff, withdrawn_iff]
  constructor
  · rintro ⟨o, h1, a, h2, ann, h3, wd, h4, rfl⟩
    exact ⟨o, a, ann, wd, h1, h2, rfl, h3, h4⟩
  · rintro ⟨o, a, ann, wd, h1, h2, rfl, h3, h4⟩
    exact ⟨o, h1, a, h2, ann, h3, wd, h4, rfl⟩

/-- whether a prefix cannot be read. -/
def badPrefix (env : LiveEnv) (s : String) : Bool := (env.net s.toList).isNone

theorem announced_err {env : LiveEnv} {m : LiveMessage} {u : LiveUpdate} {o : Option Origin} {aggr : Option Asn × Option V4} {nh : Ip}
    {s : String} : ∀ {ps : List String}, ps.find? (badPrefix env) = some s →
      announcedElems env m u o aggr nh ps = .error (prefixErr s)
  | [], h => by simp at h
  | p :: ps, h => by
    rw [announcedElems]
    by_cases hp : badPrefix env p = true
    · rw [List.find?_cons_of_pos hp, Option.some.injEq] at h
      subst h
      rw [livePrefix_err (by simpa [badPrefix] using hp)]
      rfl
    · rw [List.find?_cons_of_neg hp] at h
      rw [announced_err h]
      have : ∃ n, env.net p.toList = some n := by simpa [badPrefix, Option.ne_none_iff_exists'] using hp
      obtain ⟨n, hn⟩ := this
      rw [livePrefix_iff.mpr hn]
      rfl

theorem announced_none {env : LiveEnv} {m : LiveMessage} {u : LiveUpdate} {o : Option Origin} {aggr : Option Asn × Option V4} {nh : Ip} :
    ∀ {ps : List String}, ps.find? (badPrefix env) = none → ∃ es, announcedElems env m u o aggr nh ps = .ok es
  | [], h => ⟨[], rfl⟩
  | p :: ps, h => by
    rw [List.find?_cons] at h
    split at h
    · cases h
    · rename_i hp
      obtain ⟨es, h2⟩ := announced_none (m := m) (u := u) (o := o) (aggr := aggr) (nh := nh) h
      have : ∃ n, env.net p.toList = some n := by simpa [badPrefix, Option.isSome_iff_exists] using hp
      obtain ⟨n, hn⟩ := this
      rw [announcedElems, livePrefix_iff.mpr hn, h2]
      exact ⟨_, rfl⟩

theorem allAnnounced_err {env : LiveEnv} {m : LiveMessage} {u : LiveUpdate} {o : Option Origin} {aggr : Option Asn × Option V4}
    {s : String} : ∀ {as : List (Ip × List String)}, (as.flatMap (·.2)).find? (badPrefix env) = some s →
      allAnnouncedElems env m u o aggr as = .error (prefixErr s)
  | [], h => by simp at h
  | (nh, ps) :: r, h => by
    rw [List.flatMap_cons, List.find?_append] at h
    rw [allAnnouncedElems]
    cases hp : ps.find? (badPrefix env) with
    | some t =>
      rw [hp, Option.some_or, Option.some.injEq] at h
      subst h
      rw [announced_err hp]
      rfl
    | none =>
      rw [hp, Option.none_or] at h
      obtain ⟨es, h2⟩ := announced_none (m := m) (u := u) (o := o) (aggr := aggr) (nh := nh) hp
      rw [h2, allAnnounced_err h]
      rfl

theorem allAnnounced_none {env : LiveEnv} {m : LiveMessage} {u : LiveUpdate} {o : Option Origin} {aggr : Option Asn × Option V4} :
    ∀ {as : List (Ip × List String)}, (as.flatMap (·.2)).find? (badPrefix env) = none → ∃ es, allAnnouncedElems env m u o aggr as = .ok es
  | [], h => ⟨[], rfl⟩
  | (nh, ps) :: r, h => by
    rw [List.flatMap_cons, List.find?_append, Option.or_eq_none_iff] at h
    obtain ⟨a, h1⟩ := announced_none (m := m) (u := u) (o := o) (aggr := aggr) (nh := nh) h.1
    obtain ⟨b, h2⟩ := allAnnounced_none (m := m) (u := u) (o := o) (aggr := aggr) h.2
    rw [allAnnouncedElems, h1, h2]
    exact ⟨_, rfl⟩

theorem withdrawn_err {env : LiveEnv} {m : LiveMessage} {s : String} : ∀ {ps : List String}, ps.find? (badPrefix env) = some s →
      withdrawnElems env m ps = .error (prefixErr s)
  | [], h => by simp at h
  | p :: ps, h => by
    rw [withdrawnElems]
    by_cases hp : badPrefix env p = true
    · rw [List.find?_cons_of_pos hp, Option.some.injEq] at h
      subst h
      rw [livePrefix_err (by simpa [badPrefix] using hp)]
      rfl
    · rw [List.find?_cons_of_neg hp] at h
      rw [withdrawn_err h]
      have : ∃ n, env.net p.toList = some n := by simpa [badPrefix, Option.ne_none_iff_exists'] using hp
      obtain ⟨n, hn⟩ := this
      rw [livePrefix_iff.mpr hn]
      rfl

theorem find_first {P : α → Bool} {pre post : List α} {s : α} (h : ∀ p ∈ pre, P p = false) (hs : P s = true) :
    (pre ++ s :: post).find? P = some s := by
  rw [List.find?_append, List.find?_cons_of_pos hs]
  have : pre.find? P = none := by
    rw [List.find?_eq_none]
    intro p hp
    simp [h p hp]
  rw [this]; rfl

/-! ### raw messages -/

theorem hexValue_iff {c : Char} {n : Nat} : hexValue c = some n ↔ HexDigit c n := by
  constructor
  · intro h
    unfold hexValue at h
    have key : ∀ k : Nat, k < 128 → ∀ n, hexValue (Char.ofNat k) = some n →
        n < 16 ∧ ("0123456789abcdef".toList[n]? = some (Char.ofNat k) ∨ "0123456789ABCDEF".toList[n]? = some (Char.ofNat k)) := by
      intro k hk n hn
      have : ∀ k : Fin 128, ∀ n, hexValue (Char.ofNat k) = some n →
          n < 16 ∧ ("0123456789abcdef".toList[n]? = some (Char.ofNat k) ∨ "0123456789ABCDEF".toList[n]? = some (Char.ofNat k)) := by
        decide +kernel
      exact this ⟨k, hk⟩ n hn
    have hc : c.toNat < 128 := by
      rcases Nat.lt_or_ge c.toNat 128 with h' | h'
      · exact h'
      · exfalso
        have e9 : ¬ c ≤ '9' := by
          intro hle
          have : c.toNat ≤ ('9' : Char).toNat := hle
          have e : ('9' : Char).toNat = 57 := rfl
          omega
        have ef : ¬ c ≤ 'f' := by
          intro hle
          have : c.toNat ≤ ('f' : Char).toNat := hle
          have e : ('f' : Char).toNat = 102 := rfl
          omega
        have eF : ¬ c ≤ 'F' := by
          intro hle
          have : c.toNat ≤ ('F' : Char).toNat := hle
          have e : ('F' : Char).toNat = 70 := rfl
          omega
        simp [e9, ef, eF] at h
    have := key c.toNat hc n (by rw [Char.ofNat_toNat]; exact h)
    rw [Char.ofNat_toNat] at this
    exact this.2
  · intro h
    have hn : n < 16 := by
      rcases h with h | h
      · have := (List.getElem?_eq_some_iff.mp h).1
        simpa using this
      · have := (List.getElem?_eq_some_iff.mp h).1
        simpa using this
    have key : ∀ n : Fin 16, (∀ c, "0123456789abcdef".toList[n.val]? = some c → hexValue c = some n.val) ∧
        (∀ c, "0123456789ABCDEF".toList[n.val]? = some c → hexValue c = some n.val) := by
      decide +kernel
    rcases h with h | h
    · exact (key ⟨n, hn⟩).1 c h
    · exact (key ⟨n, hn⟩).2 c h

theorem hexValue_lt {c : Char} {n : Nat} (h : hexValue c = some n) : n < 16 := by
  rcases hexValue_iff.mp h with h | h
  · have := (List.getElem?_eq_some_iff.mp h).1
    simpa using this
  · have := (List.getElem?_eq_some_iff.mp h).1
    simpa using this

theorem hexDecode_iff : ∀ {t : List Char} {bs : Bytes}, hexDecode t = some bs ↔ HexText t bs
  | [], bs => by
    rw [hexDecode, Option.some.injEq]
    constructor
    · rintro rfl; exact .nil
    · intro h; cases h; rfl
  | [_], bs => by
    rw [hexDecode]
    constructor
    · intro h; cases h
    · intro h; cases h
  | a :: b :: r, bs => by
    rw [hexDecode]
    simp only [Option.bind_eq_bind, Option.bind_eq_some_iff, Option.pure_def, Option.some.injEq]
    constructor
    · rintro ⟨x, h1, y, h2, rs, h3, rfl⟩
      have hx := hexValue_lt h1
      have hy := hexValue_lt h2
      have hb : (UInt8.ofNat (x * 16 + y)).toNat = x * 16 + y := UInt8.toNat_ofNat_of_lt' (by simp [UInt8.size]; omega)
      refine .cons ?_ ?_ (hexDecode_iff.mp h3)
      · rw [hb, show (x * 16 + y) / 16 = x by omega]; exact hexValue_iff.mp h1
      · rw [hb, show (x * 16 + y) % 16 = y by omega]; exact hexValue_iff.mp h2
    · intro h
      cases h with
      | cons h1 h2 h3 =>
        refine ⟨_, hexValue_iff.mpr h1, _, hexValue_iff.mpr h2, _, hexDecode_iff.mpr h3, ?_⟩
        congr 1
        apply UInt8.toNat_inj.mp
        rename_i c _
        have := c.toNat_lt
        rw [UInt8.toNat_ofNat_of_lt' (by simp [UInt8.size]; omega)]
        omega

theorem decodeRaw_iff {env : LiveEnv} {text : String} {m : LiveMessage} {bs : Bytes} :
    decodeRisLiveRaw env text = .ok (m, bs) ↔ RawDoc env text m bs := by
  unfold decodeRisLiveRaw RawDoc
  constructor
  · intro h
    split at h
    · cases h
    · cases h
    · rename_i m' he
      split at h
      · cases h
      · rename_i raw hr
        split at h
        · cases h
        · rename_i bs' hb
          cases h
          obtain ⟨j, h1, h2⟩ := Option.bind_eq_some_iff.mp he
          obtain ⟨kvs, h3, h4⟩ := liveEnvelope_iff.mp h2
          exact ⟨j, kvs, raw, h1, h3, h4, hr, hexDecode_iff.mp hb⟩
  · rintro ⟨j, kvs, raw, h1, h2, h3, h4, h5⟩
    have : (env.json text).bind (liveEnvelopeOf env) = some (.message m) := by
      rw [h1, Option.bind_some, liveEnvelope_iff.mpr ⟨kvs, h2, h3⟩]
    simp only [this, h4, hexDecode_iff.mpr h5]

/-! ### times -/

theorem stamp_near {t : Rat} {k : Nat} (h : StampOf t k) : (k : Rat) - 48 / 100 ≤ t * 1000000 ∧ t * 1000000 ≤ (k : Rat) + 48 / 100 := by
  obtain ⟨hk, rfl⟩ := h
  have h0 : (0 : Rat) ≤ (k : Rat) := Rat.natCast_nonneg
  have hk' : (k : Rat) ≤ 4294967296 * 1000000 := by
    have : ((k : Nat) : Rat) ≤ ((4294967296 * 1000000 : Nat) : Rat) := Rat.natCast_le_natCast.mpr (by omega)
    rw [Rat.natCast_mul] at this
    exact this
  obtain ⟨e1, e2⟩ := f64Round_err ((k : Rat) / 1000000) 4294967296 (by grind) (by grind)
  grind

theorem floor_of {x : Rat} {n : Nat} (h1 : (n : Rat) ≤ x) (h2 : x < (n : Rat) + 1) : x.floor = (n : Int) := by
  have a : (n : Int) ≤ x.floor := Rat.le_floor_iff.mpr h1
  have b : x.floor < (n : Int) + 1 := by
    rw [Rat.floor_lt_iff, Rat.intCast_add]; exact h2
  omega

theorem stampMicros_of {t : Rat} {k : Nat} (h : StampOf t k) : stampMicros t = k := by
  obtain ⟨h1, h2⟩ := stamp_near h
  unfold stampMicros
  rw [floor_of (n := k) (by grind) (by grind)]
  rfl

theorem f64Round_zero' : f64Round 0 = 0 := by
  have := f64Round_nat 0 (by decide)
  exact this

theorem seconds_micros {t : Rat} {k : Nat} (h : StampOf t k) :
    (f64ToU32 t).toNat = k / 1000000 ∧ (getMicroSeconds t).toNat = k % 1000000 := by
  obtain ⟨n1, n2⟩ := stamp_near h
  obtain ⟨hk, ht⟩ := h
  generalize hS : k / 1000000 = S
  generalize hU : k % 1000000 = U
  have hSb : S < 4294967296 := by omega
  have hUb : U < 1000000 := by omega
  have e : k = S * 1000000 + U := by omega
  have eR : (k : Rat) = (S : Rat) * 1000000 + (U : Rat) := by rw [e, Rat.natCast_add, Rat.natCast_mul]; rfl
  have hS0 : (0 : Rat) ≤ (S : Rat) := Rat.natCast_nonneg
  have hU1 : (U : Rat) + 1 ≤ 1000000 := by
    have : ((U + 1 : Nat) : Rat) ≤ ((1000000 : Nat) : Rat) := Rat.natCast_le_natCast.mpr (by omega)
    rw [Rat.natCast_add] at this
    exact this
  have hlow : (S : Rat) ≤ t := by
    by_cases h0 : U = 0
    · have : (k : Rat) / 1000000 = (S : Rat) := by rw [eR, h0]; grind
      rw [ht, this, f64Round_nat S (by omega)]
      exact Rat.le_refl
    · have : (1 : Rat) ≤ (U : Rat) := by
        have : ((1 : Nat) : Rat) ≤ (U : Rat) := Rat.natCast_le_natCast.mpr (by omega)
        exact this
      grind
  have hhigh : t < (S : Rat) + 1 := by grind
  refine ⟨Props.f64ToU32_of t S hSb hlow hhigh, ?_⟩
  unfold getMicroSeconds
  have hneg : ¬ t < 0 := by grind
  have hfl : t.floor = (S : Int) := floor_of hlow hhigh
  simp only [if_neg hneg, hfl]
  have hfrac : (U : Rat) - 48 / 100 ≤ (t - ((S : Int) : Rat)) * 1000000 ∧ (t - ((S : Int) : Rat)) * 1000000 ≤ (U : Rat) + 48 / 100 := by
    have : ((S : Int) : Rat) = (S : Rat) := rfl
    rw [this]
    constructor <;> grind
  have hU0 : (0 : Rat) ≤ (U : Rat) := Rat.natCast_nonneg
  unfold f64Mul
  obtain ⟨c1, c2⟩ := f64Round_err ((t - ((S : Int) : Rat)) * 1000000) 1000000 (by grind) (by grind)
  generalize f64Round ((t - ((S : Int) : Rat)) * 1000000) = p at *
  have hp : (p + 1 / 2).floor = (U : Int) := floor_of (by grind) (by grind)
  rw [hp]
  have hu : (f64ToU32 (((U : Int) : Rat))).toNat = U := by
    have : ((U : Int) : Rat) = (U : Rat) := rfl
    rw [this]
    exact Props.f64ToU32_of _ U (by omega) Rat.le_refl (by grind)
  split
  · exact hu
  · rename_i hn
    have : ¬ (f64ToU32 (((U : Int) : Rat))).toNat < 999999 := hn
    have : U = 999999 := by omega
    rw [this]; rfl

theorem headerMicros_of {m : LiveMessage} {msg : BgpMessage} {k : Nat} (h : StampOf m.timestamp k) :
    headerMicros (liveRecord m msg).header = k := by
  obtain ⟨h1, h2⟩ := seconds_micros h
  unfold headerMicros liveRecord
  simp only [Option.map_some, Option.getD_some, h1, h2]
  omega

end Verif
