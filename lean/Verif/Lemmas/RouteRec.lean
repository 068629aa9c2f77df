import Verif.Lemmas.Route
import Verif.Lemmas.MrtNoPanic
import Verif.Spec.Route
/-
The route iterators: the routes of one record.
-/
namespace Verif
open Spec

/-! ### collecting -/

theorem nextRib_bound (peers : List Peer) (afi : Afi) (safi : Safi) (ap : Bool) (p : NetworkPrefix) (n : Nat) : ∀ s x s' n',
    nextRibRoute peers afi safi ap p n s = .ok (x, s', n') → (x = none → n' = 0) ∧ (∀ y, x = some y → n' < n) := by
  induction n with
  | zero => intro s x s' n' h; cases h; simp
  | succ n ih =>
    intro s x s' n' h
    rw [nextRibRoute] at h
    split at h
    · cases h; simp
    cases hh : rdRibHead ap s with
    | error e => rw [hh] at h; cases h
    | ok y =>
      obtain ⟨⟨peer, time, len⟩, r⟩ := y
      rw [hh] at h
      dsimp only at h
      split at h
      · cases h; simp
      cases ha : parseRouteAttrs ⟨.b32, ap, some afi, some safi, some [p]⟩ (r.take len) with
      | error e => rw [ha] at h; cases h
      | ok a =>
        rw [ha] at h
        dsimp only at h
        cases hp : peers[peer.toNat]? with
        | none =>
          rw [hp] at h
          obtain ⟨h1, h2⟩ := ih _ _ _ _ h
          exact ⟨h1, fun y hy => by have := h2 y hy; omega⟩
        | some q => rw [hp] at h; cases h; simp

theorem rdTableDumpRoute_lt {v4 : Bool} {s r : Bytes} {x : RouteElem} (h : rdTableDumpRoute v4 s = .ok (x, r)) : r.length < s.length := by
  rw [rdTableDumpRoute_eq v4 0 0] at h
  cases hm : rdTableDumpEntry v4 0 0 s with
  | error e => rw [hm] at h; cases h
  | ok y =>
    obtain ⟨m, r'⟩ := y
    rw [hm] at h
    cases h
    exact (exact_rdTableDumpEntry v4 0 0).consumes_pos (fun _ _ h => DumpEntryBytes_ne h) _ _ _ hm

/-- a route taken makes the iterator smaller. -/
theorem next_size {it it' : RouteIter} {x : RouteElem} (h : it.next = .ok (some x, it')) : it'.size < it.size := by
  cases it with
  | empty => cases h
  | update t ip asn path ps ws =>
    cases ps with
    | cons p ps => cases h; simp [RouteIter.size]
    | nil =>
      cases ws with
      | cons w ws => cases h; simp [RouteIter.size]
      | nil => cases h
  | tableDump d v4 =>
    cases d with
    | nil => cases h
    | cons b d =>
      simp only [RouteIter.next] at h
      cases hr : rdTableDumpRoute v4 (b :: d) with
      | error e => rw [hr] at h; cases h
      | ok y => obtain ⟨y, r⟩ := y; rw [hr] at h; cases h; exact rdTableDumpRoute_lt hr
  | rib d peers afi safi ap p n =>
    simp only [RouteIter.next] at h
    cases hr : nextRibRoute peers afi safi ap p n d with
    | error e => rw [hr] at h; cases h
    | ok y =>
      obtain ⟨y, d', n'⟩ := y
      rw [hr] at h; cases h
      exact (nextRib_bound _ _ _ _ _ _ _ _ _ _ hr).2 _ rfl

/-- an iterator that has ended stays so. -/
theorem next_ended {it it' : RouteIter} (h : it.next = .ok (none, it')) : it'.next = .ok (none, it') := by
  cases it with
  | empty => cases h; rfl
  | update t ip asn path ps ws =>
    cases ps with
    | cons p ps => cases h
    | nil =>
      cases ws with
      | cons w ws => cases h
      | nil => cases h; rfl
  | tableDump d v4 =>
    cases d with
    | nil => cases h; rfl
    | cons b d =>
      simp only [RouteIter.next] at h
      cases hr : rdTableDumpRoute v4 (b :: d) with
      | error e => rw [hr] at h; cases h
      | ok y => obtain ⟨y, r⟩ := y; rw [hr] at h; cases h
  | rib d peers afi safi ap p n =>
    simp only [RouteIter.next] at h
    cases hr : nextRibRoute peers afi safi ap p n d with
    | error e => rw [hr] at h; cases h
    | ok y =>
      obtain ⟨y, d', n'⟩ := y
      rw [hr] at h; cases h
      have := (nextRib_bound _ _ _ _ _ _ _ _ _ _ hr).1 rfl
      subst this
      rfl

theorem gather_more (n : Nat) : ∀ (it : RouteIter) (m : Nat), it.size < n → it.size < m → it.gather n = it.gather m := by
  induction n with
  | zero => intro it m h; omega
  | succ n ih =>
    intro it m h hm
    obtain ⟨m, rfl⟩ : ∃ k, m = k + 1 := ⟨m - 1, by omega⟩
    rw [RouteIter.gather, RouteIter.gather]
    cases hn : it.next with
    | error e => rfl
    | ok y =>
      obtain ⟨y, it'⟩ := y
      cases y with
      | none => rfl
      | some x =>
        have := next_size hn
        simp only
        rw [ih it' m (by omega) (by omega)]

theorem collect_error {it : RouteIter} {e : Err} (h : it.next = .error e) : it.collect = ([], some e) := by
  rw [RouteIter.collect, RouteIter.gather, h]

theorem collect_none {it it' : RouteIter} (h : it.next = .ok (none, it')) : it.collect = ([], none) := by
  rw [RouteIter.collect, RouteIter.gather, h]

theorem collect_some {it it' : RouteIter} {x : RouteElem} (h : it.next = .ok (some x, it')) :
    it.collect = (x :: it'.collect.1, it'.collect.2) := by
  have hs := next_size h
  rw [RouteIter.collect, RouteIter.gather, h]
  simp only
  rw [RouteIter.collect, gather_more it.size it' (it'.size + 1) hs (by omega)]

theorem collect_empty : RouteIter.empty.collect = ([], none) := rfl

/-! ### UPDATE -/

/-- the routes of an UPDATE. -/
def updRoutes (t : Nat) (ip : Ip) (asn : Asn) (path : Option AsPath) (ps ws : List NetworkPrefix) : List RouteElem :=
  ps.map (fun p => ⟨t, .announce, ip, asn, p, path⟩) ++ ws.map fun w => ⟨t, .withdraw, ip, asn, w, none⟩

theorem collect_update (t : Nat) (ip : Ip) (asn : Asn) (path : Option AsPath) (ps ws : List NetworkPrefix) :
    (RouteIter.update t ip asn path ps ws).collect = (updRoutes t ip asn path ps ws, none) := by
  induction ps with
  | cons p ps ih => rw [collect_some rfl, ih]; rfl
  | nil =>
    induction ws with
    | cons w ws ih => rw [collect_some rfl, ih]; rfl
    | nil => rfl

/-! ### RIB -/

/-- the route of a RIB entry of a known peer. -/
def ribRoute (peers : List Peer) (p : NetworkPrefix) (e : RibEntry) : Option RouteElem :=
  match peers[e.peerIndex.toNat]? with
  | none => none
  | some q => some ⟨e.time.toNat * 1000000, .announce, q.ip, q.asn, p, pathOf e.attributes.inner⟩

theorem nextRib_step (peers : List Peer) (afi : Afi) (safi : Safi) (ap : Bool) (p : NetworkPrefix) (n : Nat) (s : Bytes) :
    (∀ e r, rdRibEntry ap afi safi p s = .ok (e, r) →
      (nextRibRoute peers afi safi ap p (n + 1) s = match ribRoute peers p e with
        | none => nextRibRoute peers afi safi ap p n r
        | some x => .ok (some x, r, n))) ∧
    (∀ e, rdRibEntry ap afi safi p s = .error e →
      (∃ s', nextRibRoute peers afi safi ap p (n + 1) s = .ok (none, s', 0)) ∨
      ∃ e, nextRibRoute peers afi safi ap p (n + 1) s = .error e) := by
  rw [nextRibRoute]
  have hmin : ribEntryMinLen ap = if ap then 12 else 8 := by cases ap <;> rfl
  unfold rdRibEntry
  rw [Rd.bind_ok (Rd.remaining_apply s)]
  by_cases h8 : s.length < 8
  · have : s.length < ribEntryMinLen ap := by rw [hmin]; split <;> omega
    rw [if_pos this, if_pos h8]
    exact ⟨fun e r h => (by cases h), fun e _ => .inl ⟨s, rfl⟩⟩
  rw [if_neg h8]
  by_cases hm : s.length < ribEntryMinLen ap
  · rw [if_pos hm]
    refine ⟨fun e r h => ?_, fun e _ => .inl ⟨s, rfl⟩⟩
    exfalso
    cases ap with
    | false => rw [hmin] at hm; exact h8 hm
    | true =>
      rw [hmin] at hm
      rw [Rd.bind_eq_ok] at h; obtain ⟨_, t1, h1, h⟩ := h
      rw [Rd.bind_eq_ok] at h; obtain ⟨_, t2, h2, h⟩ := h
      rw [Rd.bind_eq_ok] at h; obtain ⟨_, t3, h3, h⟩ := h
      rw [Rd.bind_eq_ok] at h; obtain ⟨_, t4, h4, h⟩ := h
      rw [if_pos rfl, Rd.bind_eq_ok] at h3
      obtain ⟨_, t5, h5, h3⟩ := h3
      cases h3
      have a1 := Consumes.rdU16 _ _ _ h1
      have a2 := Consumes.rdU32 _ _ _ h2
      have a3 := Consumes.rdU32 _ _ _ h5
      have a4 := Consumes.rdU16 _ _ _ h4
      simp at hm
      omega
  rw [if_neg hm]
  unfold rdRibHead
  cases h1 : rdU16 s with
  | error e => rw [Rd.bind_error h1, Rd.bind_error h1]; exact ⟨fun _ _ h => (by cases h), fun _ _ => .inr ⟨_, rfl⟩⟩
  | ok y1 =>
  obtain ⟨peer, s1⟩ := y1
  rw [Rd.bind_ok h1, Rd.bind_ok h1]
  cases h2 : rdU32 s1 with
  | error e => rw [Rd.bind_error h2, Rd.bind_error h2]; exact ⟨fun _ _ h => (by cases h), fun _ _ => .inr ⟨_, rfl⟩⟩
  | ok y2 =>
  obtain ⟨time, s2⟩ := y2
  rw [Rd.bind_ok h2, Rd.bind_ok h2]
  cases h3 : (if ap then (do let i ← rdU32; pure (some i)) else pure none : Rd (Option UInt32)) s2 with
  | error e => rw [Rd.bind_error h3, Rd.bind_error h3]; exact ⟨fun _ _ h => (by cases h), fun _ _ => .inr ⟨_, rfl⟩⟩
  | ok y3 =>
  obtain ⟨pid, s3⟩ := y3
  rw [Rd.bind_ok h3, Rd.bind_ok h3]
  cases h4 : rdU16 s3 with
  | error e => rw [Rd.bind_error h4, Rd.bind_error h4]; exact ⟨fun _ _ h => (by cases h), fun _ _ => .inr ⟨_, rfl⟩⟩
  | ok y4 =>
  obtain ⟨len, s4⟩ := y4
  rw [Rd.bind_ok h4, Rd.bind_ok h4, Rd.pure_apply]
  dsimp only
  by_cases hl : s4.length < len.toNat
  · rw [if_pos hl, Rd.bind_error (show needN len.toNat s4 = .error .truncated by simp [needN, hl])]
    exact ⟨fun _ _ h => (by cases h), fun _ _ => .inl ⟨_, rfl⟩⟩
  rw [if_neg hl, Rd.bind_ok (show needN len.toNat s4 = .ok ((), s4) by simp [needN, hl]),
    Rd.bind_ok (show splitTo len.toNat s4 = .ok (s4.take len.toNat, s4.drop len.toNat) by simp [splitTo, hl]), parseRouteAttrs_eq]
  cases ha : parseAttributes ⟨.b32, ap, some afi, some safi, some [p]⟩ (s4.take len.toNat) with
  | error e =>
    rw [Rd.bind_error (show (Rd.lift (.error e) : Rd Attributes) _ = .error e from rfl)]
    exact ⟨fun _ _ h => (by cases h), fun _ _ => .inr ⟨_, rfl⟩⟩
  | ok as =>
    rw [Rd.bind_ok (show (Rd.lift (.ok as) : Rd Attributes) _ = .ok (as, s4.drop len.toNat) from rfl)]
    refine ⟨fun e r h => ?_, fun e h => by cases h⟩
    cases h
    have hi : (as.checkMandatory true (afi == .ipv4)).inner = as.inner := rfl
    simp only [mapOk, ribRoute, routeAttrs_path, hi]
    cases peers[peer.toNat]? <;> rfl

theorem collect_rib (peers : List Peer) (afi : Afi) (safi : Safi) (ap : Bool) (p : NetworkPrefix) (n : Nat) : ∀ (s : Bytes) (es : List RibEntry),
    ribLoop (rdRibEntry ap afi safi p) n s = .ok es →
    (RouteIter.rib s peers afi safi ap p n).collect.1 = es.filterMap (ribRoute peers p) := by
  induction n with
  | zero => intro s es h; cases h; rfl
  | succ n ih =>
    intro s es h
    obtain ⟨hok, her⟩ := nextRib_step peers afi safi ap p n s
    rw [ribLoop] at h
    cases hr : rdRibEntry ap afi safi p s with
    | error e =>
      have hnil : es = [] := by
        rw [hr] at h
        cases e <;> cases h <;> rfl
      subst hnil
      rcases her e hr with ⟨s', h'⟩ | ⟨e', h'⟩
      · rw [collect_none (it' := .rib s' peers afi safi ap p 0) (by simp [RouteIter.next, h'])]; rfl
      · rw [collect_error (e := e') (by simp [RouteIter.next, h'])]; rfl
    | ok y =>
      obtain ⟨e, r⟩ := y
      rw [hr] at h
      dsimp only at h
      cases hl : ribLoop (rdRibEntry ap afi safi p) n r with
      | error e => rw [hl] at h; cases h
      | ok es' =>
        rw [hl] at h
        cases h
        have hs := hok e r hr
        have ih := ih r es' hl
        cases hx : ribRoute peers p e with
        | some x =>
          rw [hx] at hs
          rw [collect_some (x := x) (it' := .rib r peers afi safi ap p n) (by simp [RouteIter.next, hs]), ih, List.filterMap_cons, hx]
        | none =>
          rw [hx] at hs
          rw [List.filterMap_cons, hx]
          dsimp only
          rw [← ih]
          have hnx : (RouteIter.rib s peers afi safi ap p (n + 1)).next = (RouteIter.rib r peers afi safi ap p n).next := by
            simp only [RouteIter.next, hs]
          cases hn : (RouteIter.rib r peers afi safi ap p n).next with
          | error e => rw [collect_error (hnx.trans hn), collect_error hn]
          | ok y =>
            obtain ⟨y, it⟩ := y
            cases y with
            | none => rw [collect_none (hnx.trans hn), collect_none hn]
            | some x => rw [collect_some (hnx.trans hn), collect_some hn]

/-! ### TABLE_DUMP -/

theorem tableDump_next (b : UInt8) (d : Bytes) (v4 : Bool) : (RouteIter.tableDump (b :: d) v4).next =
    match rdTableDumpRoute v4 (b :: d) with
    | .error e => .error e
    | .ok (x, r) => .ok (some x, .tableDump r v4) := rfl

theorem collect_dump (v4 : Bool) (view seq : UInt16) (n : Nat) : ∀ s : Bytes, s.length ≤ n →
    ∃ good rest ms, s = good ++ rest ∧ Blocks (DumpEntryBytes v4 view seq) ms good ∧
      (∀ m b r, rest = b ++ r → ¬ DumpEntryBytes v4 view seq m b) ∧
      (RouteIter.tableDump s v4).collect.1 = ms.map TableDump.route ∧
      ((RouteIter.tableDump s v4).collect.2 = none ↔ rest = []) := by
  induction n with
  | zero =>
    intro s hs
    have : s = [] := List.length_eq_zero_iff.mp (by omega)
    subst this
    refine ⟨[], [], [], rfl, .nil, ?_, rfl, by simp [collect_none (show (RouteIter.tableDump [] v4).next = .ok (none, _) from rfl)]⟩
    intro m b r h hd
    exact DumpEntryBytes_ne hd (List.append_eq_nil_iff.mp h.symm).1
  | succ n ih =>
    intro s hs
    cases s with
    | nil =>
      refine ⟨[], [], [], rfl, .nil, ?_, rfl, by simp [collect_none (show (RouteIter.tableDump [] v4).next = .ok (none, _) from rfl)]⟩
      intro m b r h hd
      exact DumpEntryBytes_ne hd (List.append_eq_nil_iff.mp h.symm).1
    | cons a d =>
      have hx := exact_rdTableDumpEntry v4 view seq
      have hnext := tableDump_next a d v4
      rw [rdTableDumpRoute_eq v4 view seq] at hnext
      cases hr : rdTableDumpEntry v4 view seq (a :: d) with
      | error e =>
        rw [hr] at hnext
        rw [collect_error hnext]
        refine ⟨[], a :: d, [], rfl, .nil, ?_, rfl, by simp⟩
        intro m b r h hd
        rw [(hx _ m r).mpr ⟨b, h, hd⟩] at hr
        cases hr
      | ok y =>
        obtain ⟨m, r⟩ := y
        rw [hr] at hnext
        rw [collect_some hnext]
        obtain ⟨c, hc, hd⟩ := (hx _ _ _).mp hr
        have hlt := hx.consumes_pos (fun _ _ h => DumpEntryBytes_ne h) _ _ _ hr
        obtain ⟨good, rest, ms, rfl, hb, hno, h1, h2⟩ := ih r (by omega)
        refine ⟨c ++ good, rest, m :: ms, by rw [hc]; simp, .cons hd hb, hno, ?_, h2⟩
        rw [h1]; rfl

/-! ### peer tables -/

theorem rdTimes_length {p : Rd α} (n : Nat) : ∀ s as r, rdTimes p n s = .ok (as, r) → as.length = n := by
  induction n with
  | zero => intro s as r h; cases h; rfl
  | succ n ih =>
    intro s as r h
    rw [rdTimes, Rd.bind_eq_ok] at h; obtain ⟨a, s1, h1, h⟩ := h
    rw [Rd.bind_eq_ok] at h; obtain ⟨as', s2, h2, h⟩ := h
    cases h
    rw [List.length_cons, ih _ _ _ h2]

theorem NoPanic.needAdvance (n : Nat) {p : Rd α} (h : NoPanic p) : NoPanic (Verif.needN n >>= fun _ => advance n >>= fun _ => p) := by
  intro s he
  by_cases hn : s.length < n
  · rw [Rd.bind_error (e := .truncated) (by simp [Verif.needN, hn])] at he; cases he
  · rw [Rd.bind_ok (a := ()) (r := s) (by simp [Verif.needN, hn]), Rd.bind_ok (a := ()) (r := s.drop n) (by simp [advance, hn])] at he
    exact h _ he

theorem routePeers_rel (s : Bytes) :
    (∀ t, parsePeerIndexTable.runOn s = .ok t → ∃ ps, parseRoutePeers.runOn s = .ok ps ∧ ∀ id, t.peer id = ps[id.toNat]?) ∧
    (∀ e, parsePeerIndexTable.runOn s = .error e → ∃ e, parseRoutePeers.runOn s = .error e) := by
  have h4 : (s.length < 4 → ∃ e, rdU32 s = .error e) ∧ (¬ s.length < 4 → ∃ x, rdU32 s = .ok (x, s.drop 4)) := by
    match s with
    | [] => exact ⟨fun _ => ⟨_, rfl⟩, fun h => absurd (by simp) h⟩
    | [_] => exact ⟨fun _ => ⟨_, rfl⟩, fun h => absurd (by simp) h⟩
    | [_, _] => exact ⟨fun _ => ⟨_, rfl⟩, fun h => absurd (by simp) h⟩
    | [_, _, _] => exact ⟨fun _ => ⟨_, rfl⟩, fun h => absurd (by simp) h⟩
    | _ :: _ :: _ :: _ :: r => exact ⟨fun h => absurd h (by simp), fun _ => ⟨_, rfl⟩⟩
  unfold Rd.runOn parsePeerIndexTable parseRoutePeers
  by_cases hs : s.length < 4
  · obtain ⟨e, he⟩ := h4.1 hs
    rw [Rd.bind_error he, Rd.bind_error (e := .truncated) (by simp [rdVec, hs])]
    exact ⟨fun t h => (by cases h), fun _ _ => ⟨_, rfl⟩⟩
  obtain ⟨x, hx⟩ := h4.2 hs
  rw [Rd.bind_ok hx, Rd.bind_ok (a := ⟨(s.take 4).toArray, by simp; omega⟩) (r := s.drop 4) (by simp [rdVec, hs])]
  cases h1 : rdU16 (s.drop 4) with
  | error e => rw [Rd.bind_error h1, Rd.bind_error h1]; exact ⟨fun t h => (by cases h), fun _ _ => ⟨_, rfl⟩⟩
  | ok y1 =>
  obtain ⟨n, s1⟩ := y1
  rw [Rd.bind_ok h1, Rd.bind_ok h1]
  by_cases hn : s1.length < n.toNat
  · rw [Rd.bind_error (e := .truncated) (show rdN n.toNat s1 = _ by simp [rdN, hn]),
      Rd.bind_error (e := .truncated) (show needN n.toNat s1 = _ by simp [needN, hn])]
    exact ⟨fun t h => (by cases h), fun _ _ => ⟨_, rfl⟩⟩
  rw [Rd.bind_ok (show rdN n.toNat s1 = .ok (s1.take n.toNat, s1.drop n.toNat) by simp [rdN, hn]),
    Rd.bind_ok (show needN n.toNat s1 = .ok ((), s1) by simp [needN, hn]),
    Rd.bind_ok (show advance n.toNat s1 = .ok ((), s1.drop n.toNat) by simp [advance, hn])]
  cases h2 : rdU16 (s1.drop n.toNat) with
  | error e => rw [Rd.bind_error h2, Rd.bind_error h2]; exact ⟨fun t h => (by cases h), fun _ _ => ⟨_, rfl⟩⟩
  | ok y2 =>
  obtain ⟨count, s2⟩ := y2
  rw [Rd.bind_ok h2, Rd.bind_ok h2]
  cases h3 : rdTimes rdPeer count.toNat s2 with
  | error e => rw [Rd.bind_error h3]; exact ⟨fun t h => (by cases h), fun _ _ => ⟨_, rfl⟩⟩
  | ok y3 =>
  obtain ⟨ps, s3⟩ := y3
  rw [Rd.bind_ok h3]
  refine ⟨fun t h => ⟨ps, rfl, fun id => ?_⟩, fun e h => by cases h⟩
  cases h
  have hlen : ps.length = count.toNat := rdTimes_length _ _ _ _ h3
  have hc := count.toNat_lt
  rw [fillPeers_peer ps 0 _ (by omega)]
  by_cases hi : id.toNat < ps.length
  · rw [if_pos (by omega)]; rfl
  · rw [if_neg (by omega), List.getElem?_eq_none (by omega)]; rfl

theorem parseRoutePeers_noPanic : NoPanic parseRoutePeers :=
  .bind .rdU32 fun _ => .bind .rdU16 fun _ => .needAdvance _ (.bind .rdU16 fun _ => .rdTimes rdPeer_noPanic _)

/-! ### the routes of a record -/

theorem tableDumpRoutes_noPanic (sub : UInt16) (s : Bytes) : tableDumpRoutes sub s ≠ .error .panic := by
  unfold tableDumpRoutes
  split
  · exact NoPanic.runOn (.bind .rdU16 fun _ => .bind .rdU16 fun _ => .bind .peek fun _ =>
      .ite (fun _ => .fail (by decide)) fun _ => .pure _) s
  · simp

theorem ribRoutes_noPanic (t : V2Type) (s : Bytes) (table : Option (List Peer)) : ribRoutes t s table ≠ .error .panic := by
  unfold ribRoutes
  cases t.family with
  | none => simp
  | some f =>
    refine NoPanic.runOn (.bind .rdU32 fun _ => .bind (tryParsePrefix_noPanic _ _) fun _ => .bind .rdU16 fun _ => .bind .peek fun _ => ?_) s
    cases table with
    | none => exact .fail (by decide)
    | some ps => exact .pure _

theorem routeIterOf_noPanic (raw : Raw) (table : Option (List Peer)) : (routeIterOf raw table).1 ≠ .error .panic := by
  unfold routeIterOf
  dsimp only
  split
  · exact tableDumpRoutes_noPanic _ _
  · unfold tableDumpV2Routes
    split
    · simp
    · have := NoPanic.runOn parseRoutePeers_noPanic raw.body
      split
      · next h => rw [h] at this; simpa using this
      · simp
    · simp
    · simp
    · simp
    · exact ribRoutes_noPanic _ _ _
  · exact bgp4mpRoutes_noPanic _ _ _
  · exact bgp4mpRoutes_noPanic _ _ _
  · exact legacyRoutes_noPanic _ _ _
  · simp

theorem nextRibRoute_noPanic (peers : List Peer) (afi : Afi) (safi : Safi) (ap : Bool) (p : NetworkPrefix) (n : Nat) : ∀ s,
    nextRibRoute peers afi safi ap p n s ≠ .error .panic := by
  induction n with
  | zero => intro s; simp [nextRibRoute]
  | succ n ih =>
    intro s
    have hh : NoPanic (rdRibHead ap) := .bind .rdU16 fun _ => .bind .rdU32 fun _ =>
      .bind (.ite (fun _ => .bind .rdU32 fun _ => .pure _) fun _ => .pure _) fun _ => .bind .rdU16 fun _ => .pure _
    rw [nextRibRoute]
    split
    · simp
    split
    · next h => have := hh s; rw [h] at this; simpa using this
    split
    · simp
    split
    · next h => intro he; cases he; exact parseRouteAttrs_noPanic _ _ h
    split
    · exact ih _
    · simp

theorem next_noPanic (it : RouteIter) : it.next ≠ .error .panic := by
  cases it with
  | empty => simp [RouteIter.next]
  | update t ip asn path ps ws => cases ps <;> cases ws <;> simp [RouteIter.next]
  | tableDump d v4 =>
    cases d with
    | nil => simp [RouteIter.next]
    | cons b d =>
      rw [tableDump_next, rdTableDumpRoute_eq v4 0 0]
      have := noPanic_rdTableDumpEntry v4 0 0 (b :: d)
      cases h : rdTableDumpEntry v4 0 0 (b :: d) with
      | error e => rw [h] at this; simpa [mapOk] using this
      | ok y => simp [mapOk]
  | rib d peers afi safi ap p n =>
    simp only [RouteIter.next]
    have := nextRibRoute_noPanic peers afi safi ap p n d
    split
    · next h => rw [h] at this; simpa using this
    · simp

/-! ### against the specification -/

theorem pathOf_spec (as : List Attribute) : PathOf as (pathOf as) :=
  ⟨_, _, rel_asPath as, rel_as4Path as, mergePaths_spec _ _⟩

theorem dumpRoute_spec (m : TableDump) : DumpRoute m m.route := ⟨_, pathOf_spec _, rfl⟩

theorem updateRoutes_spec (u : Update) (t : Nat) (ip : Ip) (asn : Asn) :
    UpdateRoutes u t ip asn (u.routes t ip asn).collect.1 := by
  rw [Update.routes, collect_update]
  exact ⟨_, _, _, rel_announced _, rel_withdrawn _, pathOf_spec _, rfl⟩

theorem ribRoutes_spec {t : PeerIndexTable} {ps : List Peer} (h : ∀ id, t.peer id = ps[id.toNat]?) (p : NetworkPrefix) (es : List RibEntry) :
    RibRoutes t p es (es.filterMap (ribRoute ps p)) := by
  induction es with
  | nil => exact .nil
  | cons e es ih =>
    rw [List.filterMap_cons]
    have := h e.peerIndex
    cases hp : ps[e.peerIndex.toNat]? with
    | none => simp only [ribRoute, hp]; exact .unknown _ _ _ (this.trans hp) ih
    | some q => simp only [ribRoute, hp]; exact .known _ _ _ _ _ (this.trans hp) (pathOf_spec _) ih

/-- all routes of the result of reading a record. -/
def resultRoutes : Except Err RouteIter → List RouteElem
  | .ok it => it.collect.1
  | .error _ => []

/-- the routes a raw record gives. -/
def routesOf (raw : Raw) (table : Option (List Peer)) : List RouteElem := resultRoutes (routeIterOf raw table).1

/-- the peer table kept is that of the history. -/
def KeptTable (hist : List MrtRecord) : Option (List Peer) → Prop
  | none => LastTable hist none
  | some ps => ∃ t, LastTable hist (some t) ∧ ∀ id, t.peer id = ps[id.toNat]?

theorem lastTable_snoc {hist : List MrtRecord} {o : Option PeerIndexTable} (h : LastTable hist o) (r : MrtRecord)
    (hr : ∀ t, r.message ≠ .tableDumpV2 (.peerIndexTable t)) : LastTable (hist ++ [r]) o := by
  cases h with
  | none _ h =>
    refine .none _ fun x hx => ?_
    rcases List.mem_append.mp hx with hx | hx
    · exact h x hx
    · cases List.mem_singleton.mp hx; exact hr
  | some pre h t post hp =>
    rw [List.append_assoc, List.cons_append]
    refine .some _ _ _ _ fun x hx => ?_
    rcases List.mem_append.mp hx with hx | hx
    · exact hp x hx
    · cases List.mem_singleton.mp hx; exact hr

theorem keptTable_snoc {hist : List MrtRecord} {table : Option (List Peer)} (h : KeptTable hist table) (r : MrtRecord)
    (hr : ∀ t, r.message ≠ .tableDumpV2 (.peerIndexTable t)) : KeptTable (hist ++ [r]) table := by
  cases table with
  | none => exact lastTable_snoc h r hr
  | some ps => obtain ⟨t, h1, h2⟩ := h; exact ⟨t, lastTable_snoc h1 r hr, h2⟩

theorem keptTable_recordsOf {hist : List MrtRecord} {table : Option (List Peer)} (h : KeptTable hist table) (raw : Raw)
    (hr : ∀ r, raw.parse = .ok r → ∀ t, r.message ≠ .tableDumpV2 (.peerIndexTable t)) : KeptTable (hist ++ recordsOf raw) table := by
  unfold recordsOf
  cases hp : raw.parse with
  | error e => simpa using h
  | ok r => exact keptTable_snoc h r (hr r hp)

theorem bgpRoutes_spec {t : Nat} {ip : Ip} {asn : Asn} {m : BgpMessage} {x : Except Err RouteIter} (h : MsgRoutes t ip asn (.ok m) x) :
    BgpRoutes t ip asn m (resultRoutes x) := by
  cases m with
  | update u =>
    by_cases hb : u.badNlri
    · obtain ⟨e, rfl⟩ := h.2 hb; exact .bad u hb
    · rw [h.1 hb]; exact .update u _ hb (updateRoutes_spec u t ip asn)
  | _ => cases h; exact .other _ (by simp)

theorem micros_spec (h : Header) : h.micros = headerMicros h := by
  unfold Header.micros headerMicros
  cases h.micro <;> simp

theorem ribLoop_ne_error {p : Rd RibEntry} {n : Nat} : ∀ {s : Bytes}, ribLoop p n s ≠ .error .panic → ∀ e, ribLoop p n s ≠ .error e := by
  induction n with
  | zero => intro s _ e; simp [ribLoop]
  | succ n ih =>
    intro s h e he
    rw [ribLoop] at h he
    cases hp : p s with
    | error e' => rw [hp] at h he; cases e' <;> first | exact absurd rfl h | cases he
    | ok y =>
      obtain ⟨x, r⟩ := y
      rw [hp] at h he
      dsimp only at h he
      cases hr : ribLoop p n r with
      | ok es => rw [hr] at he; cases he
      | error e' => rw [hr] at h; exact ih (s := r) (by rw [hr]; simpa using h) e' hr

/-- the two parsers of a RIB record: the same head. -/
theorem ribRoutes_eq (ty : V2Type) (s : Bytes) (table : Option (List Peer)) :
    (∀ r, parseRibAfi ty s = .ok r → (table = none → ∃ e, ribRoutes ty s table = .error e) ∧
      ∀ ps, table = some ps → ∃ it, ribRoutes ty s table = .ok it ∧ it.collect.1 = r.entries.filterMap (ribRoute ps r.prefix_)) ∧
    (∀ e, parseRibAfi ty s = .error e → ∃ e, ribRoutes ty s table = .error e) := by
  unfold parseRibAfi ribRoutes
  cases ty.family with
  | none => exact ⟨fun _ h => (by cases h), fun _ _ => ⟨_, rfl⟩⟩
  | some f =>
  obtain ⟨afi, safi⟩ := f
  dsimp only
  unfold Rd.runOn
  cases h1 : rdU32 s with
  | error e => rw [Rd.bind_error h1, Rd.bind_error h1]; exact ⟨fun _ h => (by cases h), fun _ _ => ⟨_, rfl⟩⟩
  | ok y1 =>
  obtain ⟨seq, s1⟩ := y1
  rw [Rd.bind_ok h1, Rd.bind_ok h1]
  cases h2 : tryParsePrefix afi false s1 with
  | error e => rw [Rd.bind_error h2, Rd.bind_error h2]; exact ⟨fun _ h => (by cases h), fun _ _ => ⟨_, rfl⟩⟩
  | ok y2 =>
  obtain ⟨p, s2⟩ := y2
  rw [Rd.bind_ok h2, Rd.bind_ok h2]
  cases h3 : rdU16 s2 with
  | error e => rw [Rd.bind_error h3, Rd.bind_error h3]; exact ⟨fun _ h => (by cases h), fun _ _ => ⟨_, rfl⟩⟩
  | ok y3 =>
  obtain ⟨n, s3⟩ := y3
  rw [Rd.bind_ok h3, Rd.bind_ok h3, Rd.bind_ok (Rd.peek_apply _), Rd.bind_ok (Rd.peek_apply _)]
  cases h4 : ribLoop (rdRibEntry ty.addPath afi safi p) n.toNat s3 with
  | error e =>
    have hnp := ribLoop_noPanic (noPanic_rdRibEntry ty.addPath afi safi p) n.toNat s3
    exact absurd h4 (ribLoop_ne_error hnp e)
  | ok es =>
    rw [Rd.bind_ok (show (Rd.lift (.ok es) : Rd (List RibEntry)) s3 = .ok (es, s3) from rfl)]
    refine ⟨fun r h => ⟨fun ht => ?_, fun ps ht => ?_⟩, fun e h => by cases h⟩
    · subst ht; exact ⟨_, rfl⟩
    · subst ht; cases h; exact ⟨_, rfl, collect_rib ps afi safi _ p _ _ _ h4⟩

theorem tableDumpRoutes_spec (sub : UInt16) (s : Bytes) (hist : List MrtRecord) (raw : Raw) (ht : raw.header.type = .tableDump)
    (hsub : raw.header.subtype = sub) (hb : raw.body = s) : RecordRoutes hist raw (resultRoutes (tableDumpRoutes sub s)) := by
  unfold tableDumpRoutes
  by_cases h12 : sub = 1 ∨ sub = 2
  · rw [if_pos h12]
    unfold Rd.runOn
    have hn : ∀ e, rdU16 s = .error e → s.length < 4 := by
      intro e h
      match s, h with
      | [], _ => simp
      | [_], _ => simp
      | _ :: _ :: r, h => cases h
    cases h1 : rdU16 s with
    | error e => rw [Rd.bind_error h1]; exact .noDump _ ht (.inr (hb ▸ hn e h1))
    | ok y1 =>
    obtain ⟨view, s1⟩ := y1
    rw [Rd.bind_ok h1]
    have e1 := rdU16_ok h1
    cases h2 : rdU16 s1 with
    | error e =>
      rw [Rd.bind_error h2]
      refine .noDump _ ht (.inr ?_)
      rw [hb, e1]
      match s1, h2 with
      | [], _ => simp [be16]
      | [_], _ => simp [be16]
      | _ :: _ :: r, h => cases h
    | ok y2 =>
    obtain ⟨seq, s2⟩ := y2
    rw [Rd.bind_ok h2, Rd.bind_ok (Rd.peek_apply _)]
    have e2 := rdU16_ok h2
    obtain ⟨good, rest, ms, e3, hbl, hno, hc, _⟩ := collect_dump (sub = 1) view seq s2.length s2 (Nat.le_refl _)
    have key : RecordRoutes hist raw (RouteIter.tableDump s2 (sub = 1)).collect.1 := by
      rw [hc]
      refine .dump _ (sub = 1) view seq good rest ms _ ht ?_ ?_ hbl hno (pairwise2_map _ _ dumpRoute_spec ms)
      · rw [hsub]; rcases h12 with rfl | rfl <;> rfl
      · rw [hb, e1, e2, e3, be16_n16, be16_n16]; simp
    by_cases hem : s2.isEmpty
    · rw [if_pos hem]
      have : s2 = [] := List.isEmpty_iff.mp hem
      subst this
      exact key
    · rw [if_neg hem]; exact key
  · rw [if_neg h12]
    exact .noDump _ ht (.inl (by rw [hsub]; simpa using h12))

theorem record_routes {hist : List MrtRecord} {table : Option (List Peer)} (hk : KeptTable hist table) (raw : Raw) :
    RecordRoutes hist raw (routesOf raw table) ∧ KeptTable (hist ++ recordsOf raw) (routeIterOf raw table).2 := by
  have hmic := micros_spec raw.header
  have hparse : raw.parse = mapOk (⟨raw.header, ·⟩) (parseMrtBody raw.header.type raw.header.subtype raw.body) := rfl
  unfold routesOf routeIterOf
  cases ht : raw.header.type with
  | tableDump =>
    refine ⟨tableDumpRoutes_spec _ _ hist raw ht rfl rfl, keptTable_recordsOf hk raw ?_⟩
    intro r hr t
    rw [hparse, ht] at hr
    simp only [parseMrtBody] at hr
    split at hr
    · cases hr
    · cases hr; simp
    · cases hr; simp
  | tableDumpV2 =>
    dsimp only
    rw [ht] at hparse
    simp only [parseMrtBody, parseTableDumpV2] at hparse
    unfold tableDumpV2Routes
    have hbad : ∀ e, raw.parse = .error e → RecordRoutes hist raw [] ∧ KeptTable (hist ++ recordsOf raw) table := fun e he =>
      ⟨.unparsed _ _ (by rw [ht]; simp) he, keptTable_recordsOf hk raw (by intro r hr; rw [he] at hr; cases hr)⟩
    cases hty : V2Type.ofU16? raw.header.subtype with
    | none => rw [hty] at hparse; exact hbad _ hparse
    | some ty =>
      have hrib : raw.parse = mapOk (⟨raw.header, ·⟩) (mapOk .tableDumpV2 (mapOk .ribAfi (parseRibAfi ty raw.body))) →
          RecordRoutes hist raw (resultRoutes (ribRoutes ty raw.body table)) ∧ KeptTable (hist ++ recordsOf raw) table := by
        intro hparse
        obtain ⟨hok, her⟩ := ribRoutes_eq ty raw.body table
        cases hp : parseRibAfi ty raw.body with
        | error e =>
          obtain ⟨e', he'⟩ := her e hp
          rw [he']; rw [hp] at hparse; exact hbad _ hparse
        | ok r =>
          rw [hp] at hparse
          refine ⟨.parsed _ _ _ (by rw [ht]; simp) hparse ?_, keptTable_recordsOf hk raw ?_⟩
          · obtain ⟨h1, h2⟩ := hok r hp
            cases table with
            | none => obtain ⟨e, he⟩ := h1 rfl; rw [he]; exact .orphan _ hk
            | some ps =>
              obtain ⟨it, hit, hc⟩ := h2 ps rfl
              obtain ⟨t, hl, hpe⟩ := hk
              rw [hit, resultRoutes, hc]
              exact .rib _ _ _ hl (ribRoutes_spec hpe _ _)
          · intro r' hr'; rw [hparse] at hr'; cases hr'; simp
      cases ty with
      | peerIndexTable =>
        rw [hty] at hparse
        dsimp only at hparse ⊢
        obtain ⟨hok, her⟩ := routePeers_rel raw.body
        cases hp : parsePeerIndexTable.runOn raw.body with
        | error e =>
          obtain ⟨e', he'⟩ := her e hp
          rw [he']; rw [hp] at hparse; exact hbad _ hparse
        | ok t =>
          obtain ⟨ps, hps, hpe⟩ := hok t hp
          rw [hps]; rw [hp] at hparse
          refine ⟨.parsed _ _ _ (by rw [ht]; simp) hparse (.peers t), ?_⟩
          rw [recordsOf, hparse]
          exact ⟨t, .some hist _ t [] (by simp), hpe⟩
      | geo =>
        rw [hty] at hparse
        dsimp only at hparse ⊢
        cases hp : parseGeoPeerTable.runOn raw.body with
        | error e => rw [hp] at hparse; exact hbad _ hparse
        | ok g =>
          rw [hp] at hparse
          exact ⟨.parsed _ _ _ (by rw [ht]; simp) hparse (.geo g), keptTable_recordsOf hk raw (by
            intro r' hr'; rw [hparse] at hr'; cases hr'; simp)⟩
      | generic => rw [hty] at hparse; exact hbad _ hparse
      | genericAp => rw [hty] at hparse; exact hbad _ hparse
      | _ => rw [hty] at hparse; exact hrib hparse
  | bgp4mp | bgp4mpEt =>
    dsimp only
    rw [ht] at hparse
    simp only [parseMrtBody] at hparse
    have := bgp4mpRoutes_rel raw.header.subtype raw.header.micros raw.body
    cases hp : parseBgp4Mp raw.header.subtype raw.body with
    | error e =>
      rw [hp] at this hparse
      refine ⟨?_, keptTable_recordsOf hk raw (by intro r hr; rw [hparse] at hr; cases hr)⟩
      have h0 : resultRoutes (bgp4mpRoutes raw.header.subtype raw.body raw.header.micros) = [] := by
        rcases this with h | ⟨e, h⟩ <;> rw [h] <;> rfl
      rw [h0]
      exact .unparsed _ _ (by rw [ht]; simp) hparse
    | ok m =>
      rw [hp] at this hparse
      refine ⟨.parsed _ _ _ (by rw [ht]; simp) hparse ?_, keptTable_recordsOf hk raw (by
        intro r hr; rw [hparse] at hr; cases hr; simp)⟩
      rw [hmic] at this ⊢
      cases m with
      | stateChange m =>
        have h0 : bgp4mpRoutes raw.header.subtype raw.body (headerMicros raw.header) = .ok .empty := this
        rw [h0]; exact .state m
      | message m => exact .bgp m _ (bgpRoutes_spec this)
  | bgp =>
    dsimp only
    rw [ht] at hparse
    simp only [parseMrtBody] at hparse
    have := legacyRoutes_rel raw.header.subtype raw.header.micros raw.body
    cases hp : parseLegacyBgp raw.header.subtype raw.body with
    | error e =>
      rw [hp] at this hparse
      refine ⟨?_, keptTable_recordsOf hk raw (by intro r hr; rw [hparse] at hr; cases hr)⟩
      have h0 : resultRoutes (legacyRoutes raw.header.subtype raw.body raw.header.micros) = [] := by
        rcases this with h | ⟨e, h⟩ <;> rw [h] <;> rfl
      rw [h0]
      exact .unparsed _ _ (by rw [ht]; simp) hparse
    | ok m =>
      rw [hp] at this hparse
      refine ⟨.parsed _ _ _ (by rw [ht]; simp) hparse ?_, keptTable_recordsOf hk raw (by
        intro r hr; rw [hparse] at hr; cases hr; simp)⟩
      rw [hmic] at this ⊢
      cases m with
      | stateChange m =>
        have h0 : legacyRoutes raw.header.subtype raw.body (headerMicros raw.header) = .ok .empty := this
        rw [h0]; exact .oldState m
      | message m => exact .oldBgp m _ (bgpRoutes_spec this)
  | _ =>
    rw [ht] at hparse
    exact ⟨.unparsed _ _ (by rw [ht]; simp) hparse, keptTable_recordsOf hk raw (by intro r hr; rw [hparse] at hr; cases hr)⟩

/-! ### records without errors -/

theorem lastTable_unique {hist : List MrtRecord} {o o' : Option PeerIndexTable} (h : LastTable hist o) (h' : LastTable hist o') : o = o' := by
  have key : ∀ (post post' : List MrtRecord) (a a' : List MrtRecord) (h h' : Header) (t t' : PeerIndexTable),
      (∀ r ∈ post, ∀ t, r.message ≠ .tableDumpV2 (.peerIndexTable t)) → (∀ r ∈ post', ∀ t, r.message ≠ .tableDumpV2 (.peerIndexTable t)) →
      post.reverse ++ ⟨h, .tableDumpV2 (.peerIndexTable t)⟩ :: a = post'.reverse ++ ⟨h', .tableDumpV2 (.peerIndexTable t')⟩ :: a' →
      t = t' := by
    intro post post' a a' h h' t t' hp hp' he
    rcases List.append_eq_append_iff.mp he with ⟨c, h1, h2⟩ | ⟨c, h1, h2⟩
    · cases c with
      | nil => simp only [List.nil_append] at h2; cases h2; rfl
      | cons x c =>
        cases h2
        exact absurd rfl (hp' ⟨h, .tableDumpV2 (.peerIndexTable t)⟩ (by rw [← List.mem_reverse, h1]; simp) t)
    · cases c with
      | nil => simp only [List.nil_append] at h2; cases h2; rfl
      | cons x c =>
        cases h2
        exact absurd rfl (hp ⟨h', .tableDumpV2 (.peerIndexTable t')⟩ (by rw [← List.mem_reverse, h1]; simp) t')
  cases h with
  | none _ h =>
    cases h' with
    | none => rfl
    | some pre hd t post hp => exact absurd rfl (h ⟨hd, _⟩ (by simp) t)
  | some pre hd t post hp =>
    generalize hq : pre ++ ⟨hd, .tableDumpV2 (.peerIndexTable t)⟩ :: post = hist' at h'
    cases h' with
    | none _ h' => exact absurd rfl (h' ⟨hd, _⟩ (by rw [← hq]; simp) t)
    | some pre' hd' t' post' hp' =>
      have := congrArg List.reverse hq
      simp only [List.reverse_append, List.reverse_cons, List.append_assoc, List.singleton_append] at this
      rw [key post post' _ _ _ _ _ _ hp hp' this]

theorem collect_blocks {v4 : Bool} {view seq : UInt16} {ms : List TableDump} {s : Bytes} (h : Blocks (DumpEntryBytes v4 view seq) ms s) :
    (RouteIter.tableDump s v4).collect = (ms.map TableDump.route, none) := by
  induction h with
  | nil => rfl
  | @cons m ms c s hm hb ih =>
    have hr := (exact_rdTableDumpEntry v4 view seq (c ++ s) m s).mpr ⟨c, rfl, hm⟩
    have hne := DumpEntryBytes_ne hm
    cases c with
    | nil => exact absurd rfl hne
    | cons a c =>
      have hn : (RouteIter.tableDump (a :: c ++ s) v4).next = .ok (some m.route, .tableDump s v4) := by
        rw [List.cons_append, tableDump_next, rdTableDumpRoute_eq v4 view seq, ← List.cons_append, hr]; rfl
      rw [collect_some hn, ih]; rfl

theorem collect_rib_full (peers : List Peer) (afi : Afi) (safi : Safi) (ap : Bool) (p : NetworkPrefix) (n : Nat) : ∀ (s : Bytes) (es : List RibEntry),
    ribLoop (rdRibEntry ap afi safi p) n s = .ok es → es.length = n →
    (RouteIter.rib s peers afi safi ap p n).collect.2 = none := by
  induction n with
  | zero => intro s es h _; rfl
  | succ n ih =>
    intro s es h hlen
    obtain ⟨hok, her⟩ := nextRib_step peers afi safi ap p n s
    rw [ribLoop] at h
    cases hr : rdRibEntry ap afi safi p s with
    | error e =>
      exfalso
      have hnil : es = [] := by
        rw [hr] at h
        cases e <;> cases h <;> rfl
      subst hnil
      simp at hlen
    | ok y =>
      obtain ⟨e, r⟩ := y
      rw [hr] at h
      dsimp only at h
      cases hl : ribLoop (rdRibEntry ap afi safi p) n r with
      | error e => rw [hl] at h; cases h
      | ok es' =>
        rw [hl] at h
        cases h
        have hs := hok e r hr
        have ih := ih r es' hl (by simpa using hlen)
        cases hx : ribRoute peers p e with
        | some x =>
          rw [hx] at hs
          rw [collect_some (x := x) (it' := .rib r peers afi safi ap p n) (by simp [RouteIter.next, hs])]
          exact ih
        | none =>
          rw [hx] at hs
          rw [← ih]
          have hnx : (RouteIter.rib s peers afi safi ap p (n + 1)).next = (RouteIter.rib r peers afi safi ap p n).next := by
            simp only [RouteIter.next, hs]
          cases hn : (RouteIter.rib r peers afi safi ap p n).next with
          | error e => rw [collect_error (hnx.trans hn), collect_error hn]
          | ok y =>
            obtain ⟨y, it⟩ := y
            cases y with
            | none => rw [collect_none (hnx.trans hn), collect_none hn]
            | some x => rw [collect_some (hnx.trans hn), collect_some hn]

theorem msgRoutes_clean {t : Nat} {ip : Ip} {asn : Asn} {m : BgpMessage} {x : Except Err RouteIter} (h : MsgRoutes t ip asn (.ok m) x)
    (hm : ∀ u, m = .update u → ¬ BadNlri u) : ∃ it, x = .ok it ∧ it.collect.2 = none := by
  cases m with
  | update u => exact ⟨_, h.1 (hm u rfl), by rw [Update.routes, collect_update]⟩
  | _ => exact ⟨_, h, rfl⟩

theorem ribRoutes_full {ty : V2Type} {s rest pb : Bytes} {r : RibAfi} {ps : List Peer} {afi : Afi} (h : parseRibAfi ty s = .ok r)
    (hp : PrefixBytes afi r.prefix_.prefix_ pb) (hfam : ty.family.map Prod.fst = some afi)
    (hs : s = n32 r.seq.toNat ++ pb ++ n16 r.entries.length ++ rest) (hlen : r.entries.length < 65536) :
    ∃ it, ribRoutes ty s (some ps) = .ok it ∧ it.collect.2 = none := by
  unfold parseRibAfi at h
  unfold ribRoutes
  cases hf : ty.family with
  | none => rw [hf] at h; cases h
  | some f =>
  obtain ⟨afi', safi⟩ := f
  rw [hf] at h hfam
  have hafi : afi' = afi := by simpa using hfam
  subst afi'
  dsimp only at h ⊢
  unfold Rd.runOn at h ⊢
  have hseq : ∀ x : Bytes, rdU32 (n32 r.seq.toNat ++ x) = .ok (r.seq, x) := by
    intro x; rw [← be32_n32]; exact rdU32_be32 _ _
  have hpid : r.prefix_.pathId = none := by
    cases hq : parseRibAfi ty s with
    | error e => unfold parseRibAfi at hq; rw [hf] at hq; dsimp only at hq; unfold Rd.runOn at hq; rw [hq] at h; cases h
    | ok r' =>
      have hrr : r' = r := by
        unfold parseRibAfi at hq; rw [hf] at hq; dsimp only at hq; unfold Rd.runOn at hq; rw [hq] at h; cases h; rfl
      subst hrr
      obtain ⟨_, _, _, _, _, _, _, _, _, _, hpid, _⟩ := (parseRibAfi_iff _ _ _).mp hq
      exact hpid
  have hpre : ∀ x, tryParsePrefix afi false (pb ++ x) = .ok (r.prefix_, x) := fun x =>
    (Exact.prefix_ afi (pb ++ x) r.prefix_ x).mpr ⟨pb, rfl, hpid, hp⟩
  have hto : (UInt16.ofNat r.entries.length).toNat = r.entries.length := toNat_u16len (by omega)
  subst hs
  simp only [List.append_assoc] at h ⊢
  rw [Rd.bind_ok (hseq _), Rd.bind_ok (hpre _), Rd.bind_ok (rdU16_n16 hlen _), Rd.bind_ok (Rd.peek_apply _)] at h ⊢
  rw [hto] at h ⊢
  cases hl : ribLoop (rdRibEntry ty.addPath afi safi r.prefix_) r.entries.length rest with
  | error e => rw [hl] at h; cases h
  | ok es =>
    rw [hl] at h
    have hes : es = r.entries := by
      have h' : (⟨ty, r.seq, r.prefix_, es⟩ : RibAfi) = r := by injection h
      rw [← h']
    exact ⟨_, rfl, collect_rib_full ps afi safi _ _ _ _ _ hl (by rw [hes])⟩

theorem record_clean {hist : List MrtRecord} {table : Option (List Peer)} (hk : KeptTable hist table) {raw : Raw} {r : MrtRecord}
    (hp : raw.parse = .ok r) (hr : Readable hist raw.body r.message) :
    ∃ it, (routeIterOf raw table).1 = .ok it ∧ it.collect.2 = none := by
  have hparse : raw.parse = mapOk (⟨raw.header, ·⟩) (parseMrtBody raw.header.type raw.header.subtype raw.body) := rfl
  rw [hp] at hparse
  unfold routeIterOf
  cases ht : raw.header.type with
  | tableDump =>
    dsimp only
    rw [ht] at hparse
    simp only [parseMrtBody] at hparse
    have hex : ∃ ms, parseTableDumps raw.header.subtype raw.body = .ok ms := by
      cases h : parseTableDumps raw.header.subtype raw.body with
      | error e => rw [h] at hparse; cases hparse
      | ok ms => exact ⟨ms, rfl⟩
    obtain ⟨ms, hms⟩ := hex
    have h12 : raw.header.subtype = 1 ∨ raw.header.subtype = 2 := by
      by_cases h : raw.header.subtype = 1 ∨ raw.header.subtype = 2
      · exact h
      · rw [parseTableDumps, if_neg h] at hms; cases hms
    have hsub : raw.header.subtype = if decide (raw.header.subtype = 1) then 1 else 2 := by
      rcases h12 with h | h <;> rw [h] <;> rfl
    rw [hsub, parseTableDumps_iff] at hms
    obtain ⟨view, seq, body, hne, hb, hbl⟩ := hms
    unfold tableDumpRoutes
    rw [if_pos h12, hb]
    unfold Rd.runOn
    simp only [List.append_assoc]
    rw [← be16_n16, ← be16_n16, Rd.bind_ok (rdU16_be16 _ _), Rd.bind_ok (rdU16_be16 _ _), Rd.bind_ok (Rd.peek_apply _)]
    have hbody : body.isEmpty = false := by
      cases hbl with
      | nil => exact absurd rfl hne
      | @cons m ms c s hm _ =>
        have := DumpEntryBytes_ne hm
        cases c with
        | nil => exact absurd rfl this
        | cons => rfl
    rw [hbody]
    exact ⟨_, rfl, by rw [collect_blocks hbl]⟩
  | tableDumpV2 =>
    dsimp only
    rw [ht] at hparse
    simp only [parseMrtBody, parseTableDumpV2] at hparse
    unfold tableDumpV2Routes
    cases hty : V2Type.ofU16? raw.header.subtype with
    | none => rw [hty] at hparse; cases hparse
    | some ty =>
      have hrib : Except.ok r = mapOk (⟨raw.header, ·⟩) (mapOk .tableDumpV2 (mapOk .ribAfi (parseRibAfi ty raw.body))) →
          ∃ it, ribRoutes ty raw.body table = .ok it ∧ it.collect.2 = none := by
        intro hparse
        cases hp' : parseRibAfi ty raw.body with
        | error e => rw [hp'] at hparse; cases hparse
        | ok rr =>
          rw [hp'] at hparse
          cases hparse
          cases hr with
          | rib _ afi pb rest tab hl h1 h2 h3 h4 =>
            cases table with
            | none => cases lastTable_unique hk hl
            | some ps =>
              have : rr.ribType = ty := by
                obtain ⟨_, _, _, _, _, _, _, _, _, hty, _⟩ := (parseRibAfi_iff _ _ _).mp hp'
                exact hty
              exact ribRoutes_full hp' h1 (this ▸ h4) h2 h3
      cases ty with
      | peerIndexTable =>
        rw [hty] at hparse
        dsimp only at hparse ⊢
        obtain ⟨hok, her⟩ := routePeers_rel raw.body
        cases hp' : parsePeerIndexTable.runOn raw.body with
        | error e => rw [hp'] at hparse; cases hparse
        | ok t =>
          obtain ⟨ps, hps, hpe⟩ := hok t hp'
          rw [hps]
          exact ⟨_, rfl, rfl⟩
      | geo => exact ⟨_, rfl, rfl⟩
      | generic => rw [hty] at hparse; cases hparse
      | genericAp => rw [hty] at hparse; cases hparse
      | _ => rw [hty] at hparse; exact hrib hparse
  | bgp4mp | bgp4mpEt =>
    dsimp only
    rw [ht] at hparse
    simp only [parseMrtBody] at hparse
    have := bgp4mpRoutes_rel raw.header.subtype raw.header.micros raw.body
    cases hp' : parseBgp4Mp raw.header.subtype raw.body with
    | error e => rw [hp'] at hparse; cases hparse
    | ok m =>
      rw [hp'] at this hparse
      cases hparse
      cases hr with
      | state m => exact ⟨_, this, rfl⟩
      | bgp m hb => exact msgRoutes_clean this hb
  | bgp =>
    dsimp only
    rw [ht] at hparse
    simp only [parseMrtBody] at hparse
    have := legacyRoutes_rel raw.header.subtype raw.header.micros raw.body
    cases hp' : parseLegacyBgp raw.header.subtype raw.body with
    | error e => rw [hp'] at hparse; cases hparse
    | ok m =>
      rw [hp'] at this hparse
      cases hparse
      cases hr with
      | oldState m => exact ⟨_, this, rfl⟩
      | oldBgp m hb => exact msgRoutes_clean this hb
  | _ => rw [ht] at hparse; cases hparse

theorem msgRoutes_bad {t : Nat} {ip : Ip} {asn : Asn} {m : BgpMessage} {u : Update} {x : Except Err RouteIter}
    (h : MsgRoutes t ip asn (.ok m) x) (hm : m = .update u) (hb : BadNlri u) : ∃ e, x = .error e := by
  subst hm; exact h.2 hb

theorem record_broken {hist : List MrtRecord} {table : Option (List Peer)} (hk : KeptTable hist table) {raw : Raw} {r : MrtRecord}
    (hp : raw.parse = .ok r) (hr : Broken hist r.message) : ∃ e, (routeIterOf raw table).1 = .error e := by
  have hparse : raw.parse = mapOk (⟨raw.header, ·⟩) (parseMrtBody raw.header.type raw.header.subtype raw.body) := rfl
  rw [hp] at hparse
  unfold routeIterOf
  cases ht : raw.header.type with
  | tableDump =>
    rw [ht] at hparse
    simp only [parseMrtBody] at hparse
    split at hparse
    · cases hparse
    · cases hparse; cases hr
    · cases hparse; cases hr
  | tableDumpV2 =>
    dsimp only
    rw [ht] at hparse
    simp only [parseMrtBody, parseTableDumpV2] at hparse
    unfold tableDumpV2Routes
    cases hty : V2Type.ofU16? raw.header.subtype with
    | none => exact ⟨_, rfl⟩
    | some ty =>
      have hrib : Except.ok r = mapOk (⟨raw.header, ·⟩) (mapOk .tableDumpV2 (mapOk .ribAfi (parseRibAfi ty raw.body))) →
          ∃ e, ribRoutes ty raw.body table = .error e := by
        intro hparse
        cases hp' : parseRibAfi ty raw.body with
        | error e => rw [hp'] at hparse; cases hparse
        | ok rr =>
          rw [hp'] at hparse
          cases hparse
          cases hr with
          | rib _ hl =>
            cases table with
            | none => exact ((ribRoutes_eq ty raw.body none).1 rr hp').1 rfl
            | some ps => obtain ⟨t, h1, _⟩ := hk; cases lastTable_unique h1 hl
      cases ty with
      | peerIndexTable =>
        rw [hty] at hparse
        dsimp only at hparse
        cases hp' : parsePeerIndexTable.runOn raw.body with
        | error e => rw [hp'] at hparse; cases hparse
        | ok t => rw [hp'] at hparse; cases hparse; cases hr
      | geo =>
        rw [hty] at hparse
        dsimp only at hparse
        cases hp' : parseGeoPeerTable.runOn raw.body with
        | error e => rw [hp'] at hparse; cases hparse
        | ok t => rw [hp'] at hparse; cases hparse; cases hr
      | generic => exact ⟨_, rfl⟩
      | genericAp => exact ⟨_, rfl⟩
      | _ => rw [hty] at hparse; exact hrib hparse
  | bgp4mp | bgp4mpEt =>
    dsimp only
    rw [ht] at hparse
    simp only [parseMrtBody] at hparse
    have := bgp4mpRoutes_rel raw.header.subtype raw.header.micros raw.body
    cases hp' : parseBgp4Mp raw.header.subtype raw.body with
    | error e => rw [hp'] at hparse; cases hparse
    | ok m =>
      rw [hp'] at this hparse
      cases hparse
      cases hr with
      | bgp m u hm hb => exact msgRoutes_bad this hm hb
  | bgp =>
    dsimp only
    rw [ht] at hparse
    simp only [parseMrtBody] at hparse
    have := legacyRoutes_rel raw.header.subtype raw.header.micros raw.body
    cases hp' : parseLegacyBgp raw.header.subtype raw.body with
    | error e => rw [hp'] at hparse; cases hparse
    | ok m =>
      rw [hp'] at this hparse
      cases hparse
      cases hr with
      | oldBgp m u hm hb => exact msgRoutes_bad this hm hb
  | _ => exact ⟨_, rfl⟩

theorem record_unsupported (raw : Raw) (table : Option (List Peer))
    (h : raw.header.type ∉ [.tableDump, .tableDumpV2, .bgp4mp, .bgp4mpEt, .bgp]) : (routeIterOf raw table).1 = .error .unsupported := by
  unfold routeIterOf
  cases ht : raw.header.type <;> rw [ht] at h <;> first | rfl | exact absurd (by decide) h

end Verif
