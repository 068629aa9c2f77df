import Verif.Lemmas.RouteIter
import Verif.Props.FilterIter
/-
C66: the route iterators.
-/
namespace Verif.Props
open Spec

/-! ### what the route iterator gives -/

/-- C66. Whatever the reader delivers and however it delivers it, the routes of an iterator with filters are the routes of
the raw records of the stream that match the filters, in order, and it ends after the last one. The routes of a raw record
are told by `StreamRoutes`. -/
theorem c66_routes (env : TextEnv) (fs : List (Filter env.Rx)) (pol pol' : Pol) (s : Src) (m : Nat)
    (hm : (toks s.evs).length < m) :
    ∃ all, StreamRoutes [] (forLoop (rawIter false pol') m s).1 all ∧
      ∀ n, (forLoop (routeIter env fs false pol) n (RouteState.new s)).1 = (all.filter fun x => x.matchFilters env fs).take n ∧
        ((forLoop (routeIter env fs false pol) n (RouteState.new s)).2.1 = true ↔
          (all.filter fun x => x.matchFilters env fs).length < n) := by
  obtain ⟨raws, hr, hl⟩ := rawsD_exists false s.stuck _ (toks s.evs) (Nat.le_refl _)
  obtain ⟨h1, _⟩ := forLoop_raws pol' s hr m
  rw [List.take_of_length_le (by omega)] at h1
  rw [h1]
  exact ⟨_, routesRun_spec raws [] none keptTable_nil, forLoop_routes env fs false pol s hr⟩

/-- C66. There is only one list of routes that `StreamRoutes` allows. -/
theorem c66_unique {raws : List Raw} {xs ys : List RouteElem} (hx : StreamRoutes [] raws xs) (hy : StreamRoutes [] raws ys) :
    xs = ys := streamRoutes_unique hx hy

/-- C66. With core dumps on, the routes are the first ones of those without. -/
theorem c66_core_dump (env : TextEnv) (fs : List (Filter env.Rx)) (pol pol' : Pol) (s : Src) (m : Nat)
    (hm : (toks s.evs).length < m) :
    ∃ all, StreamRoutes [] (forLoop (rawIter true pol') m s).1 all ∧
      ∃ some_, some_ <+: all ∧ ∀ n, (forLoop (routeIter env fs true pol) n (RouteState.new s)).1 =
        (some_.filter fun x => x.matchFilters env fs).take n := by
  obtain ⟨raws, hr, hl⟩ := rawsD_exists true s.stuck _ (toks s.evs) (Nat.le_refl _)
  obtain ⟨h1, _⟩ := forLoop_raws pol' s hr m
  rw [List.take_of_length_le (by omega)] at h1
  rw [h1]
  exact ⟨_, routesRun_spec raws [] none keptTable_nil, _, routesRun_prefix raws none,
    fun n => (forLoop_routes env fs true pol s hr n).1⟩

/-- C66. The iterator that reports errors: the same routes, with the framing errors between them, and after the routes of a
record at most one error, which carries the record; none if the record can be read in full. Filters drop routes only. -/
theorem c66_fallible (env : TextEnv) (fs : List (Filter env.Rx)) (pol pol' : Pol) (s : Src) (hs : s.stuck ≠ some false) (m : Nat)
    (hm : (toks s.evs).length < m) :
    ∃ all, FallibleRoutes [] (forLoop (chunkLoop pol') m s).1 all ∧
      let out := all.filter fun x => match x with | .ok x => x.matchFilters env fs | .error _ => true
      ∀ n, (forLoop (fallibleRouteIter env fs pol) n (RouteState.new s)).1 = out.take n ∧
        ((forLoop (fallibleRouteIter env fs pol) n (RouteState.new s)).2.1 = true ↔ out.length < n) := by
  obtain ⟨items, hr, hl⟩ := rawsF_exists s.stuck hs _ (toks s.evs) (Nat.le_refl _)
  obtain ⟨h1, _⟩ := forLoop_chunks pol' s hr m
  rw [List.take_of_length_le (by omega)] at h1
  rw [h1]
  refine ⟨_, fallRun_spec items [] none keptTable_nil, ?_⟩
  have : (fun x : Except RecErr RouteElem => match x with | .ok x => x.matchFilters env fs | .error _ => true) =
      passRoute (fun x => x.matchFilters env fs) := by funext x; cases x <;> rfl
  intro out n
  show _ = List.take n (List.filter _ _) ∧ (_ ↔ (List.filter _ _).length < n)
  rw [this]
  exact forLoop_fallRoutes env fs pol s hr n

/-! ### routes and elements -/

theorem announces_routes {t : Nat} {ip : Ip} {asn : Asn} {id : Option V4} {as : List Attribute} {path : Option AsPath}
    (hp : PathOf as path) {ps : List NetworkPrefix} {es : List BgpElem} (h : Pairwise2 (Announces t ip asn id as) ps es) :
    es.map routeOf = ps.map fun p => ⟨t, .announce, ip, asn, p, path⟩ := by
  induction h with
  | nil => rfl
  | @cons p e ps es h _ ih =>
    rw [List.map_cons, List.map_cons, ih]
    congr 1
    unfold routeOf
    rw [h.type, h.time, h.peerIp, h.peerAsn, h.prefix_, pathOf_unique (r := e.asPath) h.path hp]

theorem update_alike (u : Update) (t : Nat) (ip : Ip) (asn : Asn) :
    UpdateRoutes u t ip asn ((updateToElems u t ip asn).map routeOf) := by
  obtain ⟨reach, unreach, h1, h2, ann, h3, h4⟩ := c32_update_elems_partial u t ip asn
  refine ⟨reach, unreach, _, h1, h2, pathOf_spec _, ?_⟩
  rw [h4, List.map_append, announces_routes (pathOf_spec _) h3, List.map_map]
  rfl

theorem bgp_alike (m : BgpMessage) (t : Nat) (ip : Ip) (asn : Asn) (h : ∀ u, m = .update u → ¬ BadNlri u) :
    BgpRoutes t ip asn m ((bgpToElems m t ip asn).map routeOf) := by
  cases m with
  | update u => exact .update u _ (h u rfl) (update_alike u t ip asn)
  | «open» x => exact .other _ (by simp)
  | notification x => exact .other _ (by simp)
  | keepAlive => exact .other _ (by simp)
  | routeRefresh x => exact .other _ (by simp)

theorem entries_alike {t : PeerIndexTable} {p : NetworkPrefix} {rs : List RibEntry} {es : List BgpElem}
    (h : Pairwise2 (EntryElem t p) rs es) : RibRoutes t p rs (es.map routeOf) := by
  induction h with
  | nil => exact .nil
  | @cons r e rs es h _ ih =>
    obtain ⟨peer, h1, h2⟩ := h
    have : routeOf e = ⟨r.time.toNat * 1000000, .announce, peer.ip, peer.asn, p, e.asPath⟩ := by
      unfold routeOf; rw [h2.type, h2.time, h2.peerIp, h2.peerAsn, h2.prefix_]
    rw [List.map_cons, this]
    exact .known _ _ _ _ _ h1 h2.path ih

theorem dump_alike (m : TableDump) (h : NoAs4Path m) : DumpRoute m (routeOf (tableDumpToElem m)) :=
  ⟨_, ⟨_, none, rel_asPath _, h, by
    show EffectivePath (relRaw m.attributes.inner).asPath none (tableDumpToElem m).asPath
    have : (tableDumpToElem m).asPath = (relRaw m.attributes.inner).asPath := rfl
    rw [this]
    cases (relRaw m.attributes.inner).asPath
    · exact .neither
    · exact .plain _⟩, rfl⟩

theorem pairwise2_map_mem (R : α → β → Prop) (f : α → β) : ∀ l : List α, (∀ a ∈ l, R a (f a)) → Pairwise2 R l (l.map f)
  | [], _ => .nil
  | a :: l, h => .cons (h a (.head _)) (pairwise2_map_mem R f l fun b hb => h b (.tail _ hb))

theorem parse_dump {raw : Raw} {r : MrtRecord} (h : raw.parse = .ok r) :
    (raw.header.type = .tableDump ∧ ∃ ms, parseTableDumps raw.header.subtype raw.body = .ok ms ∧
      ((∃ m, ms = [m] ∧ r.message = .tableDump m) ∨ r.message = .tableDumpBatch ms)) ∨
    (raw.header.type ≠ .tableDump ∧ (∀ m, r.message ≠ .tableDump m) ∧ ∀ ms, r.message ≠ .tableDumpBatch ms) := by
  have hp : raw.parse = mapOk (⟨raw.header, ·⟩) (parseMrtBody raw.header.type raw.header.subtype raw.body) := rfl
  rw [hp] at h
  cases ht : raw.header.type <;> rw [ht] at h <;> simp only [parseMrtBody] at h
  case tableDump =>
    refine .inl ⟨rfl, ?_⟩
    split at h
    · cases h
    · next m hm => cases h; exact ⟨_, hm, .inl ⟨m, rfl, rfl⟩⟩
    · next ms _ hms => cases h; exact ⟨_, hms, .inr rfl⟩
  case tableDumpV2 =>
    right
    cases hx : parseTableDumpV2 raw.header.subtype raw.body <;> rw [hx] at h <;> cases h
    simp
  case bgp4mp | bgp4mpEt =>
    right
    cases hx : parseBgp4Mp raw.header.subtype raw.body <;> rw [hx] at h <;> cases h
    simp
  case bgp =>
    right
    cases hx : parseLegacyBgp raw.header.subtype raw.body <;> rw [hx] at h <;> cases h
    simp
  all_goals cases h

theorem parse_header {raw : Raw} {r : MrtRecord} (h : raw.parse = .ok r) : r.header = raw.header := by
  have hp : raw.parse = mapOk (⟨raw.header, ·⟩) (parseMrtBody raw.header.type raw.header.subtype raw.body) := rfl
  rw [hp] at h
  cases hx : parseMrtBody raw.header.type raw.header.subtype raw.body <;> rw [hx] at h <;> cases h
  rfl

/-- C66. One record: if it is of the kind `Alike`, its routes are its elements with the fields that a route does not have
left out. -/
theorem c66_record_alike (hist : List MrtRecord) (raw : Raw) (r : MrtRecord) (h : raw.parse = .ok r) (ha : Alike hist r.message) :
    RecordRoutes hist raw ((elemsAfter hist r).map routeOf) := by
  have hel : elemsAfter hist r = ((Elementor.after .new hist).recordToElems r).1 := rfl
  rw [hel]
  have key : raw.header.type ≠ .tableDump → MessageRoutes hist (headerMicros r.header) r.message
      ((((Elementor.after .new hist).recordToElems r).1).map routeOf) → _ := fun ht hm => RecordRoutes.parsed raw r _ ht h hm
  rcases parse_dump h with ⟨ht, ms, hms, hcase⟩ | ⟨ht, hn1, hn2⟩
  · have hel : ((Elementor.after .new hist).recordToElems r).1 = ms.map tableDumpToElem ∧ ∀ m ∈ ms, NoAs4Path m := by
      obtain ⟨hd, msg⟩ := r
      rcases hcase with ⟨m, rfl, rfl⟩ | rfl
      · obtain ⟨e, h1, h2⟩ := (c32_table_dump_elems_partial (Elementor.after .new hist) hd).1 m
        cases ha with
        | dump _ hm => exact ⟨by rw [h1, h2]; rfl, by simpa using hm⟩
      · cases ha with
        | batch _ hm => exact ⟨(c32_table_dump_elems_partial (Elementor.after .new hist) hd).2.1 ms, hm⟩
    rw [hel.1, List.map_map]
    have hsub : ∃ v4 : Bool, raw.header.subtype = if v4 then 1 else 2 := by
      unfold parseTableDumps at hms
      split at hms
      · next hs => rcases hs with hs | hs
                   · exact ⟨true, hs⟩
                   · exact ⟨false, hs⟩
      · cases hms
    obtain ⟨v4, hsub⟩ := hsub
    rw [hsub, parseTableDumps_iff] at hms
    obtain ⟨view, seq, body, hne, hb, hbl⟩ := hms
    refine .dump raw v4 view seq body [] ms _ ht hsub (by rw [hb, List.append_nil]) hbl ?_ (pairwise2_map_mem _ _ _ fun m hm => dump_alike m (hel.2 m hm))
    intro m b r' he hx
    exact DumpEntryBytes_ne hx (by simpa using he.symm |> List.append_eq_nil_iff.mp |>.1)
  · refine key ht ?_
    obtain ⟨hd, msg⟩ := r
    have c32 := c32_record_elems (Elementor.after .new hist) hd
    dsimp only at ha hn1 hn2 ⊢
    cases ha with
    | dump m _ => exact absurd rfl (hn1 m)
    | batch ms _ => exact absurd rfl (hn2 ms)
    | peers t => exact .peers t
    | geo g => rw [c32.2.2.2.2]; exact .geo g
    | state m => rw [c32.2.2.1]; exact .state m
    | oldState m => rw [c32.2.2.2.1]; exact .oldState m
    | bgp m hb => rw [c32.1]; exact .bgp m _ (bgp_alike _ _ _ _ hb)
    | oldBgp m hb => rw [c32.2.1]; exact .oldBgp m _ (bgp_alike _ _ _ _ hb)
    | orphan r hl =>
      obtain ⟨o, ho, hc⟩ := c33_rib_elems hist hd r
      cases lastTable_unique hl ho
      dsimp only at hc
      rw [hc]
      exact .orphan r hl
    | rib r t hl hk =>
      obtain ⟨o, ho, hc⟩ := c33_rib_elems hist hd r
      cases lastTable_unique hl ho
      obtain ⟨known, rest, h1, h2, h3⟩ := hc
      rcases h3 with rfl | ⟨e, l, rfl, h3⟩
      · rw [List.append_nil] at h1
        refine .rib r t _ hl ?_
        rw [h1]
        exact entries_alike h2
      · exact absurd h3 (hk e (by rw [h1]; simp))

theorem mem_elemsFrom (rs : List MrtRecord) : ∀ (hist : List MrtRecord) (e : BgpElem), e ∈ elemsFrom hist rs →
    ∃ (el : Elementor) (r : MrtRecord), e ∈ (el.recordToElems r).1 := by
  induction rs with
  | nil => intro hist e h; cases h
  | cons r rs ih =>
    intro hist e h
    rw [elemsFrom] at h
    rcases List.mem_append.mp h with h | h
    · exact ⟨_, r, h⟩
    · exact ih _ e h

theorem stream_alike {hist : List MrtRecord} {raws : List Raw} (h : AlikeStream hist raws) :
    StreamRoutes hist raws ((elemsFrom hist (raws.flatMap recordsOf)).map routeOf) := by
  induction h with
  | nil => exact .nil _
  | record hist raw r raws hp ha _ ih =>
    have hro : recordsOf raw = [r] := by rw [recordsOf, hp]
    rw [List.flatMap_cons, hro, List.singleton_append, elemsFrom, List.map_append]
    exact .cons _ _ _ _ _ (c66_record_alike hist raw r hp ha) (by rw [hro]; exact ih)
  | skipped hist raw e raws hp ht _ _ ih =>
    have hro : recordsOf raw = [] := by rw [recordsOf, hp]
    rw [List.flatMap_cons, hro, List.nil_append]
    exact .cons _ _ _ [] _ (.unparsed raw e ht hp) (by rw [hro, List.append_nil]; exact ih)

theorem recsD_of_raws {k : Option Bool} {t : List Tok} {raws : List Raw} (h : RawsD false k t raws) :
    ∀ {hist}, AlikeStream hist raws → RecsD false k t ((raws.flatMap recordsOf).map .ok) := by
  induction h with
  | @ok t raw t' l hc _ ih =>
    intro hist ha
    cases ha with
    | record _ _ r _ hp _ ha =>
      rw [List.flatMap_cons, show recordsOf raw = [r] by rw [recordsOf, hp]]
      exact .ok (by rw [nextT, hc]; dsimp only; rw [hp]) (ih ha)
    | skipped _ _ e _ hp _ hg ha =>
      rw [List.flatMap_cons, show recordsOf raw = [] by rw [recordsOf, hp]]
      exact .skip (e := ⟨e, some raw.bytes⟩) (by rw [nextT, hc]; dsimp only; rw [hp]) hg (ih ha)
  | @skip t e t' l hc hg _ ih =>
    intro hist ha
    exact .skip (e := e.toRec) (by rw [nextT, hc]) hg (ih ha)
  | @stop t e t' hc hg =>
    intro hist ha
    exact .stop (e := e.toRec) (by rw [nextT, hc]) hg

/-- C66. A stream all of whose records are of the kind `Alike`: the route iterator gives what the element iterator gives,
with the fields that a route does not have left out, for all filters that a route can answer. -/
theorem c66_alike (env : TextEnv) (fs : List (Filter env.Rx)) (hf : ∀ f ∈ fs, ¬ NeedsElement f) (pol pol' pol'' : Pol) (s : Src) (m : Nat)
    (hm : (toks s.evs).length < m) (ha : AlikeStream [] (forLoop (rawIter false pol'') m s).1) (n : Nat) :
    (forLoop (routeIter env fs false pol) n (RouteState.new s)).1 =
      (forLoop (elemNext env fs false pol') n (ElemIter.new s)).1.map routeOf ∧
    (forLoop (routeIter env fs false pol) n (RouteState.new s)).2.1 = (forLoop (elemNext env fs false pol') n (ElemIter.new s)).2.1 := by
  obtain ⟨raws, hr, hl⟩ := rawsD_exists false s.stuck _ (toks s.evs) (Nat.le_refl _)
  obtain ⟨h1, _⟩ := forLoop_raws pol'' s hr m
  rw [List.take_of_length_le (by omega)] at h1
  rw [h1] at ha
  obtain ⟨all, h2, h3⟩ := c66_routes env fs pol pol'' s m hm
  rw [h1] at h2
  obtain ⟨h4, h5⟩ := h3 n
  obtain ⟨g1, g2⟩ := c37_elems env fs false pol' pol'' s m hm n
  have hrec := (all_records false pol'' s m hm _ (recsD_of_raws hr ha)).1
  rw [map_ok_inj _ _ hrec] at g1 g2
  have hall := streamRoutes_unique h2 (stream_alike ha)
  have hfilt : all.filter (fun x => x.matchFilters env fs) =
      ((elemsFrom [] (raws.flatMap recordsOf)).filter fun e => e.matchFilters env fs).map routeOf := by
    rw [hall, List.filter_map]
    congr 1
    apply List.filter_congr
    intro e he
    obtain ⟨el, r, hm⟩ := mem_elemsFrom _ _ e he
    show (fs.all fun f => (routeOf e).matchFilter env f) = fs.all fun f => e.matchFilter env f
    rw [Bool.eq_iff_iff, List.all_eq_true, List.all_eq_true]
    exact forall_congr' fun f => forall_congr' fun hmem => by rw [c36_record_agrees env el r e hm f (hf f hmem)]
  rw [h4, hfilt, g1, List.map_take]
  refine ⟨rfl, ?_⟩
  rw [Bool.eq_iff_iff, h5, g2, hfilt, List.length_map]

/-! ### examples -/

/-- a raw record: header and body. -/
def exRaw (ty sub : UInt8) (body : Bytes) : Bytes := [0, 0, 0, 9, 0, ty, 0, sub, 0, 0, 0, body.length.toUInt8] ++ body

/-- a delivery in one piece. -/
def exSrc (b : Bytes) : Src := ⟨match b with | [] => [] | x :: b => [.data x b], none⟩

/-- a peer index table with one peer, 1.1.1.1 of AS 7. -/
def exPeersRaw : Bytes := exRaw 13 1 [9, 9, 9, 9, 0, 0, 0, 1, 2, 8, 8, 8, 8, 1, 1, 1, 1, 0, 0, 0, 7]

/-- a RIB entry of a peer, with the AS path 5. -/
def exEntryBytes (peer : UInt8) : Bytes := [0, peer, 0, 0, 0, 1, 0, 9, 0x40, 2, 6, 2, 1, 0, 0, 0, 5]

/-- an UPDATE that withdraws 10.0.0.0/8 and announces 11.0.0.0/8 and an IPv6 prefix, over the AS path 5. -/
def exUpdateBody : Bytes :=
  [0, 2, 8, 10] ++ [0, 36] ++ [0x40, 2, 6, 2, 1, 0, 0, 0, 5] ++
  [0x80, 14, 24, 0, 2, 1, 16, 0x20, 1, 0, 0, 0, 0, 0, 0, 0, 0, 0, 0, 0, 0, 0, 1, 0, 16, 0x20, 2] ++ [8, 11]

/-- the message around it, and the record around that: BGP4MP_MESSAGE_AS4 from 1.1.1.1 of AS 7. -/
def exUpdateRaw (body : Bytes) : Bytes :=
  exRaw 16 4 ([0, 0, 0, 7, 0, 0, 0, 8, 0, 0, 0, 1, 1, 1, 1, 1, 2, 2, 2, 2] ++
    List.replicate 16 255 ++ [0, (19 + body.length).toUInt8, 2] ++ body)

/-- a table, a RIB record with two entries, an UPDATE, a record of an unsupported type and one TABLE_DUMP entry. -/
def exStream : Bytes :=
  exPeersRaw ++ exRaw 13 2 ([0, 0, 0, 1, 8, 10, 0, 2] ++ exEntryBytes 0 ++ exEntryBytes 0) ++ exUpdateRaw exUpdateBody ++
  exRaw 48 0 [1, 2] ++ exRaw 12 1 [0, 0, 0, 0, 10, 0, 0, 0, 8, 1, 0, 0, 0, 0, 10, 0, 0, 1, 0, 1, 0, 0]

def onePiece : Pol := fun n _ => n

/-- its routes. -/
example : (forLoop (routeIter exEnv [] false onePiece) 9 (RouteState.new (exSrc exStream))).1 =
    [⟨1000000, .announce, .v4 #v[1, 1, 1, 1], 7, ⟨⟨.v4 #v[10, 0, 0, 0], 8⟩, none⟩, some [.seq [5]]⟩,
     ⟨1000000, .announce, .v4 #v[1, 1, 1, 1], 7, ⟨⟨.v4 #v[10, 0, 0, 0], 8⟩, none⟩, some [.seq [5]]⟩,
     ⟨9000000, .announce, .v4 #v[1, 1, 1, 1], 7, ⟨⟨.v4 #v[11, 0, 0, 0], 8⟩, none⟩, some [.seq [5]]⟩,
     ⟨9000000, .announce, .v4 #v[1, 1, 1, 1], 7,
       ⟨⟨.v6 #v[0x20, 2, 0, 0, 0, 0, 0, 0, 0, 0, 0, 0, 0, 0, 0, 0], 16⟩, none⟩, some [.seq [5]]⟩,
     ⟨9000000, .withdraw, .v4 #v[1, 1, 1, 1], 7, ⟨⟨.v4 #v[10, 0, 0, 0], 8⟩, none⟩, none⟩,
     ⟨0, .announce, .v4 #v[10, 0, 0, 1], 1, ⟨⟨.v4 #v[10, 0, 0, 0], 8⟩, none⟩, none⟩] := by
  decide +kernel

/-- a test for `Alike`. -/
def alikeB (hist : List MrtRecord) : MrtMessage → Bool
  | .tableDump m => m.attributes.inner.all fun b => match b.value with | .as4Path _ => false | _ => true
  | .tableDumpBatch ms => ms.all fun m => m.attributes.inner.all fun b => match b.value with | .as4Path _ => false | _ => true
  | .tableDumpV2 (.ribAfi r) =>
    match (Elementor.after .new hist).table with
    | none => true
    | some t => r.entries.all fun e => (t.peer e.peerIndex).isSome
  | .tableDumpV2 (.ribGeneric _) => false
  | .bgp4mp (.message m) => match m.message with
    | .update u => u.attributes.warnings.all fun w => match w with | .malformedNlri .. => false | _ => true
    | _ => true
  | .legacyBgp (.message m) => match m.message with
    | .update u => u.attributes.warnings.all fun w => match w with | .malformedNlri .. => false | _ => true
    | _ => true
  | _ => true

theorem noAs4_of {m : TableDump} (h : (m.attributes.inner.all fun b => match b.value with | .as4Path _ => false | _ => true) = true) :
    NoAs4Path m := by
  intro b hb p hp
  have := List.all_eq_true.mp h b hb
  rw [hp] at this
  cases this

theorem noBad_of {u : Update} (h : (u.attributes.warnings.all fun w => match w with | .malformedNlri .. => false | _ => true) = true) :
    ¬ BadNlri u := by
  rintro ⟨w, b, hm⟩
  cases List.all_eq_true.mp h _ hm

theorem alike_of {hist : List MrtRecord} {m : MrtMessage} (h : alikeB hist m = true) : Alike hist m := by
  cases m with
  | tableDump m => exact .dump m (noAs4_of h)
  | tableDumpBatch ms => exact .batch ms fun m hm => noAs4_of (List.all_eq_true.mp h m hm)
  | tableDumpV2 x =>
    cases x with
    | peerIndexTable t => exact .peers t
    | geo g => exact .geo g
    | ribGeneric r => cases h
    | ribAfi r =>
      rcases after_table hist .new with ⟨h1, h2⟩ | ⟨t, h1, h2⟩
      · exact .orphan r h1
      · refine .rib r t h1 fun e he hn => ?_
        unfold alikeB at h
        rw [h2] at h
        have := List.all_eq_true.mp h e he
        rw [hn] at this
        cases this
  | bgp4mp x =>
    cases x with
    | stateChange m => exact .state m
    | message m =>
      refine .bgp m fun u hu => noBad_of ?_
      simp only [alikeB, hu] at h
      exact h
  | legacyBgp x =>
    cases x with
    | stateChange m => exact .oldState m
    | message m =>
      refine .oldBgp m fun u hu => noBad_of ?_
      simp only [alikeB, hu] at h
      exact h

/-- a test for `AlikeStream`. -/
def alikeStreamB : List MrtRecord → List Raw → Bool
  | _, [] => true
  | hist, raw :: raws =>
    match raw.parse with
    | .ok r => alikeB hist r.message && alikeStreamB (hist ++ [r]) raws
    | .error e => !(raw.header.type == .tableDump) && goesOn false e && alikeStreamB hist raws

theorem alikeStream_of : ∀ {raws : List Raw} {hist : List MrtRecord}, alikeStreamB hist raws = true → AlikeStream hist raws
  | [], hist, _ => .nil hist
  | raw :: raws, hist, h => by
    rw [alikeStreamB] at h
    cases hp : raw.parse with
    | ok r =>
      rw [hp] at h
      obtain ⟨h1, h2⟩ := Bool.and_eq_true_iff.mp h
      exact .record _ _ r _ hp (alike_of h1) (alikeStream_of h2)
    | error e =>
      rw [hp] at h
      obtain ⟨h1, h2⟩ := Bool.and_eq_true_iff.mp h
      obtain ⟨h0, h1⟩ := Bool.and_eq_true_iff.mp h1
      exact .skipped _ _ e _ hp (by simpa using h0) h1 (alikeStream_of h2)

/-- the hypotheses of `c66_routes`, `c66_fallible` and `c66_alike` hold for it. -/
example : (toks (exSrc exStream).evs).length < 300 ∧ (exSrc exStream).stuck ≠ some false ∧
    AlikeStream [] (forLoop (rawIter false onePiece) 300 (exSrc exStream)).1 :=
  ⟨by decide +kernel, by decide, alikeStream_of (by decide +kernel)⟩

/-! ### where routes and elements differ -/

/-- the prefixes of the routes and of the elements of a stream. -/
def exRoutes (b : Bytes) : List (Asn × Option AsPath) :=
  (forLoop (routeIter exEnv [] false onePiece) 9 (RouteState.new (exSrc b))).1.map fun x => (x.peerAsn, x.asPath)
def exElems (b : Bytes) : List (Asn × Option AsPath) :=
  (forLoop (elemNext exEnv [] false onePiece) 9 (ElemIter.new (exSrc b))).1.map fun x => (x.peerAsn, x.asPath)

/-- After a RIB entry with an unknown peer there are more routes but no more elements. -/
theorem c66_unknown_peer : ∃ b, exRoutes b = [(7, some [.seq [5]]), (7, some [.seq [5]])] ∧ exElems b = [(7, some [.seq [5]])] :=
  ⟨exPeersRaw ++ exRaw 13 2 ([0, 0, 0, 1, 8, 10, 0, 3] ++ exEntryBytes 0 ++ exEntryBytes 1 ++ exEntryBytes 0), by decide +kernel⟩

/-- An UPDATE with an unreadable prefix in the NLRI field still has its withdrawal as an element, but no routes. -/
theorem c66_malformed_nlri : ∃ b, exRoutes b = [] ∧ exElems b = [(7, none)] :=
  ⟨exUpdateRaw ([0, 2, 8, 10] ++ [0, 9] ++ [0x40, 2, 6, 2, 1, 0, 0, 0, 5] ++ [99]), by decide +kernel⟩

/-- In a TABLE_DUMP entry AS4_PATH counts for the route and is ignored for the element. -/
theorem c66_table_dump_as4_path : ∃ b, exRoutes b = [(1, some [.seq [65536, 5]])] ∧ exElems b = [(1, some [.seq [23456, 5]])] :=
  ⟨exRaw 12 1 ([0, 0, 0, 0, 10, 0, 0, 0, 8, 1, 0, 0, 0, 0, 10, 0, 0, 1, 0, 1, 0, 22] ++ [0x40, 2, 6, 2, 2, 0x5b, 0xa0, 0, 5] ++
    [0xc0, 17, 10, 2, 2, 0, 1, 0, 0, 0, 0, 0, 5]), by decide +kernel⟩

/-- A TABLE_DUMP record cut short has the routes of the whole entries, but no elements. -/
theorem c66_table_dump_cut : ∃ b, exRoutes b = [(1, none)] ∧ exElems b = [] :=
  ⟨exRaw 12 1 [0, 0, 0, 0, 10, 0, 0, 0, 8, 1, 0, 0, 0, 0, 10, 0, 0, 1, 0, 1, 0, 0, 1, 2], by decide +kernel⟩

/-! ### no panics -/

/-- C66. No step of either iterator panics, whatever the record, the table and the state. -/
theorem c66_no_panic : (∀ raw table, (routeIterOf raw table).1 ≠ .error .panic) ∧ (∀ it : RouteIter, it.next ≠ .error .panic) :=
  ⟨routeIterOf_noPanic, next_noPanic⟩

end Verif.Props
