import Verif.Lemmas.RouteIter
import Verif.Spec.RouteErr
/-
When the route iterator that reports errors reports one.
-/
namespace Verif
open Spec

/-! ### BGP messages -/

theorem messageRoutes_iff (ap : Bool) (l : AsnLen) (tm : Nat) (ip : Ip) (asn : Asn) (s : Bytes) (m : RouteIter) (r : Bytes) :
    messageRoutes ap l tm ip asn s = .ok (m, r) ↔
      ∃ (marker : Bytes) (len : Nat) (ty : UInt8) (rest : Bytes) (t : MsgType), marker.length = 16 ∧ 19 ≤ len ∧ len < 65536 ∧
        s = marker ++ n16 len ++ [ty] ++ rest ∧ MsgType.ofU8? ty = some t ∧
        ¬ ((t = .open ∨ t = .keepAlive) ∧ len > 4096) ∧
        bodyRoutes ap l tm ip asn t (rest.take (len - 19)) = .ok m ∧ r = rest.drop (len - 19) := by
  constructor
  · intro h
    unfold messageRoutes at h
    rw [Rd.bind_ok (Rd.remaining_apply s)] at h
    rw [Rd.bind_eq_ok] at h; obtain ⟨_, t1, h1, h⟩ := h
    simp only [needN] at h1
    split at h1
    · cases h1
    rename_i h19
    cases h1
    rw [Rd.bind_eq_ok] at h; obtain ⟨_, t2, h2, h⟩ := h
    have h2' : t2 = s.drop 16 := by
      unfold rdMarker at h2
      rw [Rd.bind_ok (show needN 16 s = .ok ((), s) by simp only [needN]; rw [if_neg (by omega)])] at h2
      simp only [advance] at h2
      rw [if_neg (by omega)] at h2
      cases h2; rfl
    rw [Rd.bind_eq_ok] at h; obtain ⟨len, t3, h3, h⟩ := h
    have hl := len.toNat_lt
    by_cases hlen : ¬ (19 ≤ len.toNat ∧ len.toNat ≤ 65535)
    · rw [if_pos hlen] at h; cases h
    rw [if_neg hlen] at h
    have h19' : 19 ≤ len.toNat := by omega
    rw [Rd.bind_eq_ok] at h; obtain ⟨ty, rest, h4, h⟩ := h
    have e : s = s.take 16 ++ n16 len.toNat ++ [ty] ++ rest := by
      conv => lhs; rw [← List.take_append_drop 16 s, ← h2', rdU16_ok h3, rdU8_ok h4, be16_n16]
      simp
    have hrest : s.length = 19 + rest.length := by
      have := congrArg List.length e
      simp [n16] at this; omega
    cases ht : MsgType.ofU8? ty with
    | none => rw [ht] at h; cases h
    | some t =>
      rw [ht] at h
      dsimp only at h
      by_cases hc : (t = .open ∨ t = .keepAlive) ∧ len.toNat > 4096
      · rw [if_pos hc] at h; cases h
      rw [if_neg hc] at h
      have htake : rest.take (if len.toNat > s.length then s.length - 19 else len.toNat - 19) = rest.take (len.toNat - 19) := by
        split
        · rw [List.take_of_length_le (by omega), List.take_of_length_le (by omega)]
        · rfl
      have hdrop : rest.drop (if len.toNat > s.length then s.length - 19 else len.toNat - 19) = rest.drop (len.toNat - 19) := by
        split
        · rw [List.drop_of_length_le (by omega), List.drop_of_length_le (by omega)]
        · rfl
      generalize (if len.toNat > s.length then s.length - 19 else len.toNat - 19) = k at h htake hdrop
      rw [Rd.bind_eq_ok] at h; obtain ⟨_, t5, h5, h⟩ := h
      simp only [needN] at h5
      split at h5
      · cases h5
      rename_i hn
      cases h5
      rw [Rd.bind_eq_ok] at h; obtain ⟨d, t6, h6, h⟩ := h
      simp only [splitTo, hn, if_false] at h6
      cases h6
      rw [htake, hdrop] at h
      refine ⟨s.take 16, len.toNat, ty, rest, t, by simp; omega, h19', hl, e, ht, hc, ?_, ?_⟩
      · cases hb : bodyRoutes ap l tm ip asn t (rest.take (len.toNat - 19)) with
        | error e => rw [hb] at h; cases h
        | ok x => rw [hb] at h; cases h; rfl
      · cases hb : bodyRoutes ap l tm ip asn t (rest.take (len.toNat - 19)) with
        | error e => rw [hb] at h; cases h
        | ok x => rw [hb] at h; cases h; rfl
  · rintro ⟨marker, len, ty, rest, t, hm, h19, hl, rfl, ht, hc, hb, rfl⟩
    have hlen : (UInt16.ofNat len).toNat = len := toNat_u16len (by omega)
    have e0 : marker ++ n16 len ++ [ty] ++ rest = marker ++ (n16 len ++ (ty :: rest)) := by simp
    have hs : (marker ++ (n16 len ++ (ty :: rest))).length = 19 + rest.length := by
      simp [n16, hm]; omega
    have hmk : rdMarker (marker ++ (n16 len ++ (ty :: rest))) = .ok ((), n16 len ++ (ty :: rest)) := by
      unfold rdMarker
      rw [Rd.bind_ok (show needN 16 (marker ++ (n16 len ++ (ty :: rest))) = .ok ((), _) by
        simp only [needN]; rw [if_neg (by omega)])]
      simp only [advance]
      rw [if_neg (by omega)]
      congr 2
      rw [← hm]; simp
    unfold messageRoutes
    rw [e0, Rd.bind_ok (Rd.remaining_apply _), hs,
      Rd.bind_ok (show needN 19 (marker ++ (n16 len ++ (ty :: rest))) = .ok ((), _) by
        simp only [needN]; rw [if_neg (by omega)]),
      Rd.bind_ok hmk, Rd.bind_ok (rdU16_n16 hl _), hlen, if_neg (by omega), Rd.bind_ok (rdU8_cons _ _), ht]
    dsimp only
    rw [if_neg hc]
    have htake : rest.take (if len > 19 + rest.length then 19 + rest.length - 19 else len - 19) = rest.take (len - 19) := by
      split
      · rw [List.take_of_length_le (by omega), List.take_of_length_le (by omega)]
      · rfl
    have hdrop : rest.drop (if len > 19 + rest.length then 19 + rest.length - 19 else len - 19) = rest.drop (len - 19) := by
      split
      · rw [List.drop_of_length_le (by omega), List.drop_of_length_le (by omega)]
      · rfl
    have hle : (if len > 19 + rest.length then 19 + rest.length - 19 else len - 19) ≤ rest.length := by
      split <;> omega
    rw [← htake] at hb
    rw [← hdrop]
    generalize (if len > 19 + rest.length then 19 + rest.length - 19 else len - 19) = k at hb hle ⊢
    rw [Rd.bind_ok (show needN k rest = .ok ((), rest) by simp only [needN]; rw [if_neg (by omega)]),
      Rd.bind_ok (show splitTo k rest = .ok (rest.take k, rest.drop k) by simp only [splitTo]; rw [if_neg (by omega)]), hb]
    rfl


open Classical in
theorem mpMessageRoutes_iff (ap : Bool) (l : AsnLen) (tm : Nat) (s : Bytes) (it : RouteIter) :
    mpMessageRoutes ap l tm s = .ok it ↔ ∃ a b msg r, AsnFits l a ∧ AsnFits l b ∧
      if l = .b16 ∧ ZebraOpen s then s = asnBytes l a ++ asnBytes l b ++ msg ∧ messageRoutes ap l tm (.v4 v4zero) a msg = .ok (it, r)
      else ∃ c d e, s = mpHeadBytes l a b c d e ++ msg ∧ e.isV4 = d.isV4 ∧ messageRoutes ap l tm d a msg = .ok (it, r) := by
  unfold mpMessageRoutes
  by_cases hz : isShortZebraOpen s l = true
  · have hz' := (isShortZebraOpen_iff s l).mp hz
    simp only [if_pos hz, if_pos hz']
    unfold Rd.runOn
    constructor
    · intro h
      split at h
      case h_2 => cases h
      rename_i a rest hrd
      cases h
      rw [Rd.bind_eq_ok] at hrd; obtain ⟨a, t1, h1, hrd⟩ := hrd
      rw [Rd.bind_eq_ok] at hrd; obtain ⟨b, t2, h2, hrd⟩ := hrd
      obtain ⟨_, hs, ha, rfl⟩ := (Exact.rdAsn l _ _ _).mp h1
      obtain ⟨_, rfl, hb, rfl⟩ := (Exact.rdAsn l _ _ _).mp h2
      exact ⟨a, b, t2, rest, ha, hb, by rw [hs]; simp, hrd⟩
    · rintro ⟨a, b, msg, r, ha, hb, hs, hm⟩
      rw [List.append_assoc] at hs
      have h1 := (Exact.rdAsn l s _ _).mpr ⟨_, hs, ha, rfl⟩
      have h2 := (Exact.rdAsn l _ b msg).mpr ⟨_, rfl, hb, rfl⟩
      rw [Rd.bind_ok h1, Rd.bind_ok h2, hm]
  · have hz' := fun h => hz ((isShortZebraOpen_iff s l).mpr h)
    simp only [if_neg hz, if_neg hz']
    unfold Rd.runOn
    constructor
    · intro h
      split at h
      case h_2 => cases h
      rename_i y rest hrd
      cases h
      rw [Rd.bind_eq_ok] at hrd; obtain ⟨a, t1, h1, h⟩ := hrd
      rw [Rd.bind_eq_ok] at h; obtain ⟨b, t2, h2, h⟩ := h
      rw [Rd.bind_eq_ok] at h; obtain ⟨c, t3, h3, h⟩ := h
      rw [Rd.bind_eq_ok] at h; obtain ⟨afi, t4, h4, h⟩ := h
      rw [Rd.bind_eq_ok] at h; obtain ⟨u, t5, h5, h⟩ := h
      rw [Rd.bind_eq_ok] at h; obtain ⟨d, t6, h6, h⟩ := h
      rw [Rd.bind_eq_ok] at h; obtain ⟨e, t7, h7, h⟩ := h
      rw [Rd.bind_ok (Rd.remaining_apply _)] at h
      have hhead := (exact_mpHead l (f := fun a b c _ d e => Pure.pure (a, b, c, d, e))
        (Q := fun a b c d e v r => v = (a, b, c, d, e) ∧ r = []) (fun a b c d e _ => Exact.pure _)
        s (a, b, c, d, e) t7).mp (by
          rw [Rd.bind_ok h1, Rd.bind_ok h2, Rd.bind_ok h3, Rd.bind_ok h4, Rd.bind_ok h5, Rd.bind_ok h6, Rd.bind_ok h7]; rfl)
      obtain ⟨_, hs, a', b', c', d', e', _, ha, hb, hv, rfl, hq, rfl⟩ := hhead
      cases hq
      split at h
      · cases h
      exact ⟨a, b, t7, rest, ha, hb, c, d, e, by simpa using hs, hv, h⟩
    · rintro ⟨a, b, msg, r, ha, hb, c, d, e, rfl, hv, hx⟩
      have hpay : mpPayloadLen d.afi l (mpHeadBytes l a b c d e ++ msg).length = msg.length := by
        unfold mpPayloadLen mpHeadBytes
        simp only [List.length_append, asnBytes_length, octets_length, hv]
        cases d <;> simp [Ip.afi, Ip.isV4, n16] <;> omega
      simp only [mpHeadBytes, List.append_assoc] at hpay ⊢
      have hde : e.afi = d.afi := by rw [ip_afi, ip_afi, hv]
      rw [Rd.bind_ok ((Exact.rdAsn l _ _ _).mpr ⟨_, rfl, ha, rfl⟩), Rd.bind_ok ((Exact.rdAsn l _ _ _).mpr ⟨_, rfl, hb, rfl⟩),
        Rd.bind_ok ((Exact.rdU16 _ _ _).mpr ⟨_, rfl, (be16_n16 c).symm⟩),
        Rd.bind_ok ((Exact.rdAfi _ _ _).mpr ⟨_, rfl, (afi_n16 d.afi).symm⟩),
        Rd.bind_ok (validMpAfi_ip d _),
        Rd.bind_ok (rdAddr_octets d _)]
      have he : rdAddr d.afi (e.octets ++ msg) = .ok (e, msg) := by rw [← hde]; exact rdAddr_octets e msg
      rw [Rd.bind_ok he, Rd.bind_ok (Rd.remaining_apply _), hpay, if_neg (by simp), hx]

/-- the frame of a message that is accepted, with the routes of its body. -/
theorem messageRoutes_other {ap : Bool} {l : AsnLen} {tm : Nat} {ip : Ip} {asn : Asn} {s : Bytes} (h : OtherMessage s) :
    ∃ r, messageRoutes ap l tm ip asn s = .ok (.empty, r) := by
  obtain ⟨marker, len, ty, rest, hm, h1, h2, rfl, hty, hc⟩ := h
  have key : ∀ t, MsgType.ofU8? ty = some t → t ≠ .update → ¬ ((t = .open ∨ t = .keepAlive) ∧ len > 4096) →
      ∃ r, messageRoutes ap l tm ip asn (marker ++ n16 len ++ [ty] ++ rest) = .ok (.empty, r) := by
    intro t ht hu hc
    refine ⟨rest.drop (len - 19), (messageRoutes_iff ..).mpr ⟨marker, len, ty, rest, t, hm, h1, h2, rfl, ht, hc, ?_, rfl⟩⟩
    cases t <;> first | rfl | exact absurd rfl hu
  simp only [List.mem_cons, List.not_mem_nil, or_false] at hty
  rcases hty with rfl | rfl | rfl | rfl
  · exact key .open rfl (by simp) (by have := hc (.inl rfl); omega)
  · exact key .notification rfl (by simp) (by simp)
  · exact key .keepAlive rfl (by simp) (by have := hc (.inr rfl); omega)
  · exact key .routeRefresh rfl (by simp) (by simp)

theorem messageRoutes_ok {ap : Bool} {l : AsnLen} {tm : Nat} {ip : Ip} {asn : Asn} {s r : Bytes} {it : RouteIter}
    (h : messageRoutes ap l tm ip asn s = .ok (it, r)) : OtherMessage s ∨ ∃ m r, parseBgpMessage ap l s = .ok (m, r) := by
  obtain ⟨marker, len, ty, rest, t, hm, h1, h2, rfl, ht, hc, hb, rfl⟩ := (messageRoutes_iff ..).mp h
  by_cases hu : t = .update
  · subst hu
    right
    have hp : ∃ u, parseUpdate ap l (rest.take (len - 19)) = .ok u := by
      cases hq : parseUpdate ap l (rest.take (len - 19)) with
      | ok u => exact ⟨u, rfl⟩
      | error e =>
        obtain ⟨e', he⟩ := updateRoutes_error hq tm ip asn
        simp only [bodyRoutes] at hb
        rw [he] at hb; cases hb
    obtain ⟨u, hu⟩ := hp
    exact ⟨.update u, _, (parseBgpMessage_iff ..).mpr ⟨marker, len, ty, rest, .update, hm, h1, h2, rfl, ht, hc, by
      simp only [parseBody, hu, mapOk], rfl⟩⟩
  · left
    refine ⟨marker, len, ty, rest, hm, h1, h2, rfl, ?_⟩
    unfold MsgType.ofU8? at ht
    split at ht
    · rename_i h; subst h; cases ht
      exact ⟨by simp, fun _ => Nat.le_of_not_lt fun h => hc ⟨.inl rfl, h⟩⟩
    split at ht
    · cases ht; exact absurd rfl hu
    split at ht
    · rename_i h; subst h; exact ⟨by simp, fun h => by rcases h with h | h <;> cases h⟩
    split at ht
    · rename_i h; subst h; cases ht
      exact ⟨by simp, fun _ => Nat.le_of_not_lt fun h => hc ⟨.inr rfl, h⟩⟩
    split at ht
    · rename_i h; subst h; exact ⟨by simp, fun h => by rcases h with h | h <;> cases h⟩
    · cases ht

theorem mpMessageRoutes_other {ap : Bool} {l : AsnLen} {tm : Nat} {s : Bytes} (h : OtherMpMessage l s) :
    mpMessageRoutes ap l tm s = .ok .empty := by
  obtain ⟨a, b, msg, ha, hb, hm, h⟩ := h
  rw [mpMessageRoutes_iff]
  by_cases hz : l = .b16 ∧ ZebraOpen s
  · rw [if_pos hz] at h
    obtain ⟨r, hr⟩ := messageRoutes_other (ap := ap) (l := l) (tm := tm) (ip := .v4 v4zero) (asn := a) hm
    exact ⟨a, b, msg, r, ha, hb, by rw [if_pos hz]; exact ⟨h, hr⟩⟩
  · rw [if_neg hz] at h
    obtain ⟨i, d, e, hs, hv⟩ := h
    obtain ⟨r, hr⟩ := messageRoutes_other (ap := ap) (l := l) (tm := tm) (ip := d) (asn := a) hm
    exact ⟨a, b, msg, r, ha, hb, by rw [if_neg hz]; exact ⟨i, d, e, hs, hv, hr⟩⟩

theorem mpMessageRoutes_ok {ap : Bool} {l : AsnLen} {tm : Nat} {s : Bytes} {it : RouteIter} (t : MpType)
    (h : mpMessageRoutes ap l tm s = .ok it) : OtherMpMessage l s ∨ ∃ m, parseMpMessage ap l t s = .ok m := by
  rw [mpMessageRoutes_iff] at h
  obtain ⟨a, b, msg, r, ha, hb, h⟩ := h
  by_cases hz : l = .b16 ∧ ZebraOpen s
  · rw [if_pos hz] at h
    obtain ⟨hs, hm⟩ := h
    rcases messageRoutes_ok hm with ho | ⟨m, r, hp⟩
    · exact .inl ⟨a, b, msg, ha, hb, ho, by rw [if_pos hz]; exact hs⟩
    · exact .inr ⟨⟨t, a, b, 0, .v4 v4zero, .v4 v4zero, m⟩, (parseMpMessage_iff ..).mpr ⟨rfl, ha, hb, msg, r, hp, by
        rw [if_pos hz]; exact ⟨hs, rfl, rfl, rfl⟩⟩⟩
  · rw [if_neg hz] at h
    obtain ⟨i, d, e, hs, hv, hm⟩ := h
    rcases messageRoutes_ok hm with ho | ⟨m, r, hp⟩
    · exact .inl ⟨a, b, msg, ha, hb, ho, by rw [if_neg hz]; exact ⟨i, d, e, hs, hv⟩⟩
    · exact .inr ⟨⟨t, a, b, i, d, e, m⟩, (parseMpMessage_iff ..).mpr ⟨rfl, ha, hb, msg, r, hp, by
        rw [if_neg hz]; exact ⟨hs, hv⟩⟩⟩

/-! ### RIB entries -/

theorem rdU16_err {s : Bytes} {e : Err} (h : rdU16 s = .error e) : s.length < 2 := by
  match s, h with
  | [], _ => simp
  | [_], _ => simp
  | _ :: _ :: r, h => cases h

theorem rdU32_err {s : Bytes} {e : Err} (h : rdU32 s = .error e) : s.length < 4 := by
  match s, h with
  | [], _ => simp
  | [_], _ => simp
  | [_, _], _ => simp
  | [_, _, _], _ => simp
  | _ :: _ :: _ :: _ :: r, h => cases h

/-- the fixed part of an entry. -/
theorem exact_rdRibHead (ap : Bool) : Exact (rdRibHead ap) fun x c =>
    ∃ pid pb, PathIdBytes ap pid pb ∧ x.2.2 < 65536 ∧ c = n16 x.1.toNat ++ n32 x.2.1.toNat ++ pb ++ n16 x.2.2 := by
  refine Exact.congr (.bind .rdU16 fun peer => .bind .rdU32 fun time => .bind (exact_pathId ap) fun pid =>
    .bind .rdU16 fun len => .pure _) ?_
  rintro ⟨p, t, n⟩ c
  constructor
  · rintro ⟨peer, _, _, rfl, rfl, time, _, _, rfl, rfl, pid, pb, _, rfl, hpid, len, _, _, rfl, rfl, h, rfl⟩
    cases h
    exact ⟨pid, pb, hpid, len.toNat_lt, by simp [be16_n16, be32_n32]⟩
  · rintro ⟨pid, pb, hpid, hn, rfl⟩
    simp only [List.append_assoc]
    refine ⟨p, _, _, rfl, (be16_n16 _).symm, t, _, _, rfl, (be32_n32 _).symm, pid, pb, _, rfl, hpid, UInt16.ofNat n, _, [],
      by simp, (n16_ofNat hn).symm, ?_, rfl⟩
    show (p, t, n) = (p, t, (UInt16.ofNat n).toNat)
    rw [toNat_u16len (by dsimp only at hn; omega)]

theorem rdRibHead_ok {ap : Bool} {s : Bytes} (h : ¬ s.length < ribEntryMinLen ap) : ∃ x r, rdRibHead ap s = .ok (x, r) := by
  unfold rdRibHead ribEntryMinLen at *
  cases h1 : rdU16 s with
  | error e => have := rdU16_err h1; omega
  | ok y1 =>
  obtain ⟨peer, s1⟩ := y1
  have l1 := congrArg List.length (rdU16_ok h1)
  rw [Rd.bind_ok h1]
  cases h2 : rdU32 s1 with
  | error e => have := rdU32_err h2; simp [be16] at l1; omega
  | ok y2 =>
  obtain ⟨time, s2⟩ := y2
  have l2 := congrArg List.length (rdU32_ok h2)
  rw [Rd.bind_ok h2]
  simp [be16, be32] at l1 l2
  cases ap with
  | false =>
    rw [Rd.bind_ok (show (if false = true then (do let i ← rdU32; pure (some i)) else pure none : Rd (Option UInt32)) s2 =
      .ok (none, s2) from rfl)]
    cases h4 : rdU16 s2 with
    | error e => have := rdU16_err h4; simp at h; omega
    | ok y4 => obtain ⟨len, s4⟩ := y4; rw [Rd.bind_ok h4]; exact ⟨_, _, rfl⟩
  | true =>
    simp at h
    cases h3 : rdU32 s2 with
    | error e => have := rdU32_err h3; omega
    | ok y3 =>
    obtain ⟨pid, s3⟩ := y3
    have l3 := congrArg List.length (rdU32_ok h3)
    simp [be32] at l3
    rw [Rd.bind_ok (show (if true = true then (do let i ← rdU32; pure (some i)) else pure none : Rd (Option UInt32)) s2 =
      .ok (some pid, s3) by rw [if_pos rfl, Rd.bind_ok h3]; rfl)]
    cases h4 : rdU16 s3 with
    | error e => have := rdU16_err h4; omega
    | ok y4 => obtain ⟨len, s4⟩ := y4; rw [Rd.bind_ok h4]; exact ⟨_, _, rfl⟩

/-- an entry that is not one makes the route iterator fail if its attributes are broken. -/
theorem nextRib_broken (peers : List Peer) (afi : Afi) (safi : Safi) (ap : Bool) (p : NetworkPrefix) (n : Nat) (s : Bytes) {e : Err}
    (h : rdRibEntry ap afi safi p s = .error e) :
    (∃ e, nextRibRoute peers afi safi ap p (n + 1) s = .error e) ↔ BrokenEntry ap s := by
  rw [nextRibRoute]
  constructor
  · rintro ⟨e', h'⟩
    by_cases hm : s.length < ribEntryMinLen ap
    · rw [if_pos hm] at h'; cases h'
    rw [if_neg hm] at h'
    obtain ⟨⟨peer, time, len⟩, r, hr⟩ := rdRibHead_ok hm
    rw [hr] at h'
    dsimp only at h'
    by_cases hl : r.length < len
    · rw [if_pos hl] at h'; cases h'
    rw [if_neg hl] at h'
    obtain ⟨c, rfl, pid, pb, hpid, hn, rfl⟩ := (exact_rdRibHead ap _ _ _).mp hr
    dsimp only at hn
    rw [parseRouteAttrs_eq] at h'
    cases ha : parseAttributes ⟨.b32, ap, some afi, some safi, some [p]⟩ (r.take len) with
    | ok as =>
      exfalso
      rw [(exact_rdRibEntry ap afi safi p _ ⟨peer, time, pid, as.checkMandatory true (afi == .ipv4)⟩ (r.drop len)).mpr
        ⟨_, ?_, pb, r.take len, as, hpid, by rw [List.length_take]; omega, rfl, ha, rfl⟩] at h
      · cases h
      · simp only [List.append_assoc]
        rw [List.length_take, Nat.min_eq_left (by omega), List.take_append_drop]
    | error e'' =>
      obtain ⟨ws, b, hw, hab, hb⟩ := (Props.c12_fails_iff _ _).mp ⟨_, ha⟩
      refine ⟨peer, time, pid, pb, r.take len, r.drop len, ws, b, hpid, by rw [List.length_take]; omega, ?_, hw, hab, hb⟩
      rw [List.length_take, Nat.min_eq_left (by omega)]
      simp
  · rintro ⟨peer, time, pid, pb, ab, rest, ws, b, hpid, hl, rfl, hw, hab, hb⟩
    have hhead := (exact_rdRibHead ap (n16 peer.toNat ++ n32 time.toNat ++ pb ++ n16 ab.length ++ ab ++ rest)
      (peer, time, ab.length) (ab ++ rest)).mpr ⟨n16 peer.toNat ++ n32 time.toNat ++ pb ++ n16 ab.length, by simp, pid, pb, hpid, hl, by simp⟩
    rw [if_neg ?_, hhead]
    · dsimp only
      rw [if_neg (by simp), List.take_left, parseRouteAttrs_eq]
      obtain ⟨e', he'⟩ := (Props.c12_fails_iff ⟨.b32, ap, some afi, some safi, some [p]⟩ ab).mpr ⟨ws, b, hw, hab, hb⟩
      rw [he']
      exact ⟨_, rfl⟩
    · unfold ribEntryMinLen
      cases pid with
      | none => obtain ⟨rfl, rfl⟩ := hpid; simp [n16, n32]
      | some i => obtain ⟨rfl, rfl⟩ := hpid; simp [n16, n32]

theorem collect_rib_broken (peers : List Peer) (afi : Afi) (safi : Safi) (ap : Bool) (p : NetworkPrefix) (n : Nat) :
    ∀ (s : Bytes) (es : List RibEntry), ribLoop (rdRibEntry ap afi safi p) n s = .ok es →
    ((RouteIter.rib s peers afi safi ap p n).collect.2 ≠ none ↔
      ∃ body tail, s = body ++ tail ∧ Blocks (RibEntryBytes ap afi safi p) es body ∧ es.length < n ∧ BrokenEntry ap tail) := by
  induction n with
  | zero =>
    intro s es h
    constructor
    · intro hc; exact absurd rfl hc
    · rintro ⟨_, _, _, _, h, _⟩; omega
  | succ n ih =>
    intro s es h
    obtain ⟨hok, her⟩ := nextRib_step peers afi safi ap p n s
    rw [ribLoop] at h
    cases hr : rdRibEntry ap afi safi p s with
    | error e =>
      have hnil : es = [] := by
        rw [hr] at h
        cases e <;> cases h <;> rfl
      subst hnil
      have hbr := nextRib_broken peers afi safi ap p n s hr
      have hright : (∃ body tail, s = body ++ tail ∧ Blocks (RibEntryBytes ap afi safi p) [] body ∧
          ([] : List RibEntry).length < n + 1 ∧ BrokenEntry ap tail) ↔ BrokenEntry ap s := by
        constructor
        · rintro ⟨body, tail, rfl, hb, _, ht⟩; cases hb; exact ht
        · intro ht; exact ⟨[], s, rfl, .nil, by simp, ht⟩
      rw [hright, ← hbr]
      rcases her e hr with ⟨s', h'⟩ | ⟨e', h'⟩
      · rw [collect_none (it' := .rib s' peers afi safi ap p 0) (by simp [RouteIter.next, h']), h']
        simp
      · rw [collect_error (e := e') (by simp [RouteIter.next, h']), h']
        simp
    | ok y =>
      obtain ⟨e, r⟩ := y
      rw [hr] at h
      dsimp only at h
      cases hl : ribLoop (rdRibEntry ap afi safi p) n r with
      | error e => rw [hl] at h; cases h
      | ok es' =>
        rw [hl] at h
        cases h
        have hs := hok e r hr
        have ih := ih r es' hl
        have hcol : (RouteIter.rib s peers afi safi ap p (n + 1)).collect.2 = (RouteIter.rib r peers afi safi ap p n).collect.2 := by
          cases hx : ribRoute peers p e with
          | some x =>
            rw [hx] at hs
            rw [collect_some (x := x) (it' := .rib r peers afi safi ap p n) (by simp [RouteIter.next, hs])]
          | none =>
            rw [hx] at hs
            have hnx : (RouteIter.rib s peers afi safi ap p (n + 1)).next = (RouteIter.rib r peers afi safi ap p n).next := by
              simp only [RouteIter.next, hs]
            cases hn : (RouteIter.rib r peers afi safi ap p n).next with
            | error e => rw [collect_error (hnx.trans hn), collect_error hn]
            | ok y =>
              obtain ⟨y, it⟩ := y
              cases y with
              | none => rw [collect_none (hnx.trans hn), collect_none hn]
              | some x => rw [collect_some (hnx.trans hn), collect_some hn]
        rw [hcol, ih]
        have hx := exact_rdRibEntry ap afi safi p
        obtain ⟨c, hc, hd⟩ := (hx _ _ _).mp hr
        constructor
        · rintro ⟨body, tail, rfl, hb, hn, ht⟩
          exact ⟨c ++ body, tail, by rw [hc]; simp, .cons hd hb, by simp; omega, ht⟩
        · rintro ⟨body, tail, hs', hb, hn, ht⟩
          cases hb with
          | @cons _ _ c' body' hd' hb' =>
            have := (hx s e (body' ++ tail)).mpr ⟨c', by rw [hs']; simp, hd'⟩
            rw [hr] at this
            cases this
            exact ⟨body', tail, rfl, hb', by simp at hn; omega, ht⟩

theorem ribRoutes_broken {ty : V2Type} {s : Bytes} {r : RibAfi} {ps : List Peer} (h : parseRibAfi ty s = .ok r) :
    ∃ it, ribRoutes ty s (some ps) = .ok it ∧ (it.collect.2 ≠ none ↔ BrokenRib r s) := by
  have hh := h
  unfold parseRibAfi at h
  unfold ribRoutes
  cases hf : ty.family with
  | none => rw [hf] at h; cases h
  | some f =>
  obtain ⟨afi, safi⟩ := f
  obtain ⟨num, hnum⟩ := family_ribFamily ty afi safi hf
  rw [hf] at h
  dsimp only at h ⊢
  unfold Rd.runOn at h ⊢
  cases h1 : rdU32 s with
  | error e => rw [Rd.bind_error h1] at h; cases h
  | ok y1 =>
  obtain ⟨seq, s1⟩ := y1
  rw [Rd.bind_ok h1] at h ⊢
  cases h2 : tryParsePrefix afi false s1 with
  | error e => rw [Rd.bind_error h2] at h; cases h
  | ok y2 =>
  obtain ⟨p, s2⟩ := y2
  rw [Rd.bind_ok h2] at h ⊢
  cases h3 : rdU16 s2 with
  | error e => rw [Rd.bind_error h3] at h; cases h
  | ok y3 =>
  obtain ⟨n, s3⟩ := y3
  rw [Rd.bind_ok h3, Rd.bind_ok (Rd.peek_apply _)] at h ⊢
  cases h4 : ribLoop (rdRibEntry ty.addPath afi safi p) n.toNat s3 with
  | error e => rw [h4] at h; cases h
  | ok es =>
    rw [h4, Rd.bind_ok (show (Rd.lift (.ok es) : Rd (List RibEntry)) s3 = .ok (es, s3) from rfl)] at h
    cases h
    refine ⟨_, rfl, ?_⟩
    rw [collect_rib_broken ps afi safi _ p _ _ _ h4]
    obtain ⟨pb, hs1, hpid, hpb⟩ := (Exact.prefix_ afi _ _ _).mp h2
    have e1 := rdU32_ok h1
    have e3 := rdU16_ok h3
    constructor
    · rintro ⟨body, tail, rfl, hb, hn, ht⟩
      exact ⟨num, afi, safi, _, pb, body, tail, n.toNat, hnum, hpb, n.toNat_lt, by
        rw [e1, hs1, e3, be16_n16, be32_n32]; simp, hb, hn, ht⟩
    · rintro ⟨num', afi', safi', ap', pb', body, tail, k, hnum', hpb', hk, hs, hb, hn, ht⟩
      dsimp only at hnum' hpb' hs hb hn
      rw [hnum] at hnum'
      cases hnum'
      have hseq : rdU32 s = .ok (seq, pb' ++ (n16 k ++ (body ++ tail))) := by
        rw [hs]; simp only [List.append_assoc]; rw [← be32_n32]; exact rdU32_be32 _ _
      rw [h1] at hseq; cases hseq
      have hpre := (Exact.prefix_ afi (pb' ++ (n16 k ++ (body ++ tail))) p (n16 k ++ (body ++ tail))).mpr ⟨pb', rfl, hpid, hpb'⟩
      rw [h2] at hpre; cases hpre
      rw [rdU16_n16 hk] at h3
      cases h3
      rw [toNat_u16len (by omega)]
      exact ⟨body, tail, rfl, hb, hn, ht⟩

/-! ### records -/

/-- the error at the end of the routes of a record. -/
def resultErr : Except Err RouteIter → Option Err
  | .ok it => it.collect.2
  | .error e => some e

theorem resultErr_error (e : Err) : resultErr (.error e) ≠ none := by simp [resultErr]

theorem tableDumpRoutes_err {sub : UInt16} {s : Bytes} {e : Err} (h : parseTableDumps sub s = .error e) :
    resultErr (tableDumpRoutes sub s) ≠ none := by
  intro hn
  unfold tableDumpRoutes at hn
  by_cases h12 : sub = 1 ∨ sub = 2
  · rw [if_pos h12] at hn
    unfold Rd.runOn at hn
    cases h1 : rdU16 s with
    | error e => rw [Rd.bind_error h1] at hn; cases hn
    | ok y1 =>
    obtain ⟨view, s1⟩ := y1
    rw [Rd.bind_ok h1] at hn
    cases h2 : rdU16 s1 with
    | error e => rw [Rd.bind_error h2] at hn; cases hn
    | ok y2 =>
    obtain ⟨seq, s2⟩ := y2
    rw [Rd.bind_ok h2, Rd.bind_ok (Rd.peek_apply _)] at hn
    by_cases hem : s2.isEmpty
    · rw [if_pos hem] at hn; cases hn
    rw [if_neg hem] at hn
    obtain ⟨good, rest, ms, e3, hbl, _, _, hc⟩ := collect_dump (sub = 1) view seq s2.length s2 (Nat.le_refl _)
    have hr := hc.mp hn
    subst hr
    have hsub : sub = if decide (sub = 1) then 1 else 2 := by
      rcases h12 with h | h <;> rw [h] <;> rfl
    have := (parseTableDumps_iff (decide (sub = 1)) s ms).mpr ⟨view, seq, good, ?_, ?_, hbl⟩
    · rw [← hsub, h] at this; cases this
    · rintro rfl
      cases hbl
      rw [e3] at hem
      simp at hem
    · rw [rdU16_ok h1, rdU16_ok h2, e3, be16_n16, be16_n16]; simp
  · rw [if_neg h12] at hn; cases hn

theorem legacyRoutes_err {sub : UInt16} {s : Bytes} {t : Nat} {e : Err} (h : parseLegacyBgp sub s = .error e) :
    resultErr (legacyRoutes sub s t) ≠ none := by
  unfold legacyRoutes
  by_cases h1 : sub = 1
  · subst h1
    rw [if_pos rfl]
    unfold parseLegacyBgp at h
    rw [if_pos (.inl rfl)] at h
    unfold Rd.runOn at h ⊢
    cases h1 : rdU16 s with
    | error e => rw [Rd.bind_error h1]; exact resultErr_error _
    | ok y1 =>
    obtain ⟨peer, s1⟩ := y1
    rw [Rd.bind_ok h1] at h ⊢
    cases h2 : rdV4 s1 with
    | error e => rw [Rd.bind_error h2]; exact resultErr_error _
    | ok y2 =>
    obtain ⟨ip, s2⟩ := y2
    rw [Rd.bind_ok h2] at h ⊢
    cases h3 : rdU16 s2 with
    | error e => rw [Rd.bind_error h3]; exact resultErr_error _
    | ok y3 =>
    obtain ⟨loc, s3⟩ := y3
    rw [Rd.bind_ok h3] at h ⊢
    cases h4 : rdV4 s3 with
    | error e => rw [Rd.bind_error h4]; exact resultErr_error _
    | ok y4 =>
    obtain ⟨lip, s4⟩ := y4
    rw [Rd.bind_ok h4, Rd.bind_ok (Rd.peek_apply _)] at h ⊢
    have hp : parseLegacyPayload 1 s4 = mapOk .update (parseUpdate false .b16 s4) := rfl
    rw [hp] at h
    cases hu : parseUpdate false .b16 s4 with
    | ok u => rw [hu] at h; cases h
    | error e =>
      obtain ⟨e', he'⟩ := updateRoutes_error hu t (.v4 ip) peer.toUInt32
      rw [he']
      exact resultErr_error _
  · rw [if_neg h1]
    by_cases h3 : sub = 3 ∨ sub = 5 ∨ sub = 6 ∨ sub = 7
    · rw [if_pos h3, h]; exact resultErr_error _
    · rw [if_neg h3]; exact resultErr_error _

theorem mpSubtype_state (x : UInt16) (t : MpType) (h : MpType.ofU16? x = some t) :
    (∃ n l, mpStateType t = some (n, l) ∧ x = UInt16.ofNat n ∧ t.routeSession = none) ∨
    ∃ n l ap, mpMessageType t = some (n, l, ap) ∧ x = UInt16.ofNat n ∧ t.routeSession = some (l, ap) := by
  unfold MpType.ofU16? at h
  repeat' split at h
  all_goals first | (subst x; cases h; first | exact .inl ⟨_, _, rfl, rfl, rfl⟩ | exact .inr ⟨_, _, _, rfl, rfl, rfl⟩) | cases h

theorem mpSubtype_of_state {t : MpType} {n : Nat} {l : AsnLen} (h : mpStateType t = some (n, l)) :
    MpType.ofU16? (UInt16.ofNat n) = some t ∧ t.routeSession = none := by
  cases t <;> cases h <;> exact ⟨rfl, rfl⟩

theorem mpSubtype_of_message {t : MpType} {n : Nat} {l : AsnLen} {ap : Bool} (h : mpMessageType t = some (n, l, ap)) :
    MpType.ofU16? (UInt16.ofNat n) = some t ∧ t.routeSession = some (l, ap) := by
  cases t <;> cases h <;> exact ⟨rfl, rfl⟩

theorem parseBgp4Mp_session {x : UInt16} {t : MpType} {l : AsnLen} {ap : Bool} (h : MpType.ofU16? x = some t)
    (hs : t.routeSession = some (l, ap)) (s : Bytes) : parseBgp4Mp x s = mapOk .message (parseMpMessage ap l t s) := by
  unfold parseBgp4Mp
  rw [h]
  cases t <;> cases hs <;> rfl

/-- an unreadable BGP4MP record has no routes and no error exactly if it is overlooked. -/
theorem bgp4mpRoutes_err {raw : Raw} {e : Err} (ht : raw.header.type ∈ [EntryType.bgp4mp, .bgp4mpEt])
    (h : parseBgp4Mp raw.header.subtype raw.body = .error e) (t : Nat) :
    resultErr (bgp4mpRoutes raw.header.subtype raw.body t) ≠ none ↔ ¬ Overlooked raw := by
  have hne : raw.header.type ≠ .tableDumpV2 := by
    intro hq; rw [hq] at ht; simp at ht
  unfold bgp4mpRoutes
  cases hty : MpType.ofU16? raw.header.subtype with
  | none =>
    refine ⟨fun _ ho => ?_, fun _ => resultErr_error _⟩
    cases ho with
    | geo h _ => exact hne h
    | state _ _ _ _ h1 h2 => rw [h2, (mpSubtype_of_state h1).1] at hty; cases hty
    | message _ _ _ _ _ h1 h2 => rw [h2, (mpSubtype_of_message h1).1] at hty; cases hty
  | some ty =>
    dsimp only
    rcases mpSubtype_state _ _ hty with ⟨n, l, h1, h2, h3⟩ | ⟨n, l, ap, h1, h2, h3⟩
    · rw [h3]
      exact ⟨fun hc => absurd rfl hc, fun hc => absurd (.state raw _ _ _ ht h1 h2) hc⟩
    · rw [h3]
      dsimp only
      have hp := parseBgp4Mp_session hty h3 raw.body
      rw [h] at hp
      constructor
      · intro hc ho
        cases ho with
        | geo h _ => exact hne h
        | state _ _ _ _ h4 h5 =>
          rw [h5, (mpSubtype_of_state h4).1] at hty
          cases hty
          rw [(mpSubtype_of_state h4).2] at h3; cases h3
        | message _ _ _ _ _ h4 h5 h6 =>
          rw [h5, (mpSubtype_of_message h4).1] at hty
          cases hty
          rw [(mpSubtype_of_message h4).2] at h3
          cases h3
          exact hc (by rw [mpMessageRoutes_other h6]; rfl)
      · intro ho hc
        cases hm : mpMessageRoutes ap l t raw.body with
        | error e => rw [hm] at hc; cases hc
        | ok it =>
          rcases mpMessageRoutes_ok ty hm with h4 | ⟨m, h4⟩
          · exact ho (.message raw _ _ _ _ ht h1 h2 h4)
          · rw [h4] at hp; cases hp

set_option maxHeartbeats 2000000 in
theorem record_err {hist : List MrtRecord} {table : Option (List Peer)} (hk : KeptTable hist table) (raw : Raw) :
    resultErr (routeIterOf raw table).1 ≠ none ↔ FaultyRecord hist raw := by
  have hparse : raw.parse = mapOk (⟨raw.header, ·⟩) (parseMrtBody raw.header.type raw.header.subtype raw.body) := rfl
  -- a record that can be parsed and is no RIB record
  have clean : ∀ r, raw.parse = .ok r → (Readable hist raw.body r.message ∨ Broken hist r.message) →
      (∀ rr, r.message ≠ .tableDumpV2 (.ribAfi rr)) → (resultErr (routeIterOf raw table).1 ≠ none ↔ FaultyRecord hist raw) := by
    intro r hp hrb hrib
    have hnf : FaultyRecord hist raw → Broken hist r.message := by
      intro hf
      cases hf with
      | unparsed e he => rw [hp] at he; cases he
      | broken r' hr' hb => rw [hp] at hr'; cases hr'; exact hb
      | entry h rr hr' => rw [hp] at hr'; cases hr'; exact absurd rfl (hrib rr)
    by_cases hb : Broken hist r.message
    · obtain ⟨e, he⟩ := record_broken hk hp hb
      rw [he]
      exact ⟨fun _ => .broken _ _ hp hb, fun _ => resultErr_error _⟩
    · rcases hrb with hr | hr
      · obtain ⟨it, hit, hc⟩ := record_clean hk hp hr
        rw [hit]
        exact ⟨fun h => absurd hc h, fun h => absurd (hnf h) hb⟩
      · exact absurd hr hb
  -- a record that cannot be parsed and is not overlooked
  have bad : ∀ e, raw.parse = .error e → ¬ Overlooked raw → resultErr (routeIterOf raw table).1 ≠ none →
      (resultErr (routeIterOf raw table).1 ≠ none ↔ FaultyRecord hist raw) :=
    fun e he ho hr => ⟨fun _ => .unparsed _ _ he ho, fun _ => hr⟩
  have mpc : ∀ (m : BgpMessage), (∀ u, m = .update u → ¬ BadNlri u) ∨ ∃ u, m = .update u ∧ BadNlri u := by
    intro m
    by_cases h : ∃ u, m = .update u ∧ BadNlri u
    · exact .inr h
    · exact .inl fun u hu hb => h ⟨u, hu, hb⟩
  have hov : raw.header.type ∉ [EntryType.bgp4mp, .bgp4mpEt] → (raw.header.type = .tableDumpV2 → raw.header.subtype ≠ 7) → ¬ Overlooked raw := by
    intro h1 h2 ho
    cases ho with
    | geo a b => exact h2 a b
    | state _ _ _ a => exact h1 a
    | message _ _ _ _ a => exact h1 a
  cases ht : raw.header.type with
  | tableDump =>
    rw [ht] at hparse
    simp only [parseMrtBody] at hparse
    cases hp : parseTableDumps raw.header.subtype raw.body with
    | error e =>
      rw [hp] at hparse
      refine bad e hparse (hov (by rw [ht]; simp) (by rw [ht]; simp)) ?_
      unfold routeIterOf
      rw [ht]
      exact tableDumpRoutes_err hp
    | ok ms =>
      rw [hp] at hparse
      split at hparse
      · rename_i h; cases h
      · exact clean _ hparse (.inl (.dump _)) (by simp)
      · exact clean _ hparse (.inl (.batch _)) (by simp)
  | tableDumpV2 =>
    rw [ht] at hparse
    simp only [parseMrtBody, parseTableDumpV2] at hparse
    cases hty : V2Type.ofU16? raw.header.subtype with
    | none =>
      rw [hty] at hparse
      refine bad _ hparse (hov (by rw [ht]; simp) fun _ h7 => ?_) ?_
      · rw [h7] at hty; cases hty
      · unfold routeIterOf; rw [ht]; dsimp only; unfold tableDumpV2Routes; rw [hty]; exact resultErr_error _
    | some ty =>
      have h7 : ty ≠ .geo → raw.header.subtype ≠ 7 := by
        intro hg h; rw [h] at hty; cases hty; exact hg rfl
      have hrib : (routeIterOf raw table).1 = ribRoutes ty raw.body table → ty ≠ .geo →
          raw.parse = mapOk (⟨raw.header, ·⟩) (mapOk .tableDumpV2 (mapOk .ribAfi (parseRibAfi ty raw.body))) →
          (resultErr (routeIterOf raw table).1 ≠ none ↔ FaultyRecord hist raw) := by
        intro hri hg hparse
        cases hp : parseRibAfi ty raw.body with
        | error e =>
          rw [hp] at hparse
          refine bad e hparse (hov (by rw [ht]; simp) fun _ => h7 hg) ?_
          obtain ⟨e', he'⟩ := (ribRoutes_eq ty raw.body table).2 e hp
          rw [hri, he']; exact resultErr_error _
        | ok rr =>
          rw [hp] at hparse
          rw [hri]
          cases table with
          | none =>
            obtain ⟨e, he⟩ := ((ribRoutes_eq ty raw.body none).1 rr hp).1 rfl
            rw [he]
            exact ⟨fun _ => .broken _ _ hparse (.rib rr hk), fun _ => resultErr_error _⟩
          | some ps =>
            obtain ⟨it, hit, hc⟩ := ribRoutes_broken (ps := ps) hp
            rw [hit]
            obtain ⟨tab, hl, _⟩ := hk
            constructor
            · intro h; exact .entry _ _ _ hparse (hc.mp h)
            · intro hf
              refine hc.mpr ?_
              cases hf with
              | unparsed e he => rw [hparse] at he; cases he
              | broken r' hr' hb =>
                rw [hparse] at hr'; cases hr'
                cases hb with
                | rib _ h0 => cases lastTable_unique h0 hl
              | entry h rr hr' hb => rw [hparse] at hr'; cases hr'; exact hb
      cases ty with
      | peerIndexTable =>
        rw [hty] at hparse
        dsimp only at hparse
        cases hp : parsePeerIndexTable.runOn raw.body with
        | error e =>
          rw [hp] at hparse
          refine bad e hparse (hov (by rw [ht]; simp) fun _ => h7 (by simp)) ?_
          obtain ⟨e', he'⟩ := (routePeers_rel raw.body).2 e hp
          unfold routeIterOf; rw [ht]; dsimp only; unfold tableDumpV2Routes; rw [hty]; dsimp only; rw [he']
          exact resultErr_error _
        | ok tab => rw [hp] at hparse; exact clean _ hparse (.inl (.peers _)) (by simp)
      | geo =>
        have hz : (routeIterOf raw table).1 = .ok .empty := by
          unfold routeIterOf; rw [ht]; dsimp only; unfold tableDumpV2Routes; rw [hty]
        rw [hty] at hparse
        dsimp only at hparse
        cases hp : parseGeoPeerTable.runOn raw.body with
        | error e =>
          rw [hp] at hparse
          rw [hz]
          refine ⟨fun h => absurd rfl h, fun hf => ?_⟩
          exfalso
          cases hf with
          | unparsed e he ho =>
            refine ho (.geo raw ht ?_)
            unfold V2Type.ofU16? at hty
            repeat' split at hty
            all_goals first | assumption | cases hty
          | broken r' hr' => rw [hparse] at hr'; cases hr'
          | entry h rr hr' => rw [hparse] at hr'; cases hr'
        | ok g => rw [hp] at hparse; exact clean _ hparse (.inl (.geo _)) (by simp)
      | generic =>
        rw [hty] at hparse
        refine bad _ hparse (hov (by rw [ht]; simp) fun _ => h7 (by simp)) ?_
        unfold routeIterOf; rw [ht]; dsimp only; unfold tableDumpV2Routes; rw [hty]; exact resultErr_error _
      | genericAp =>
        rw [hty] at hparse
        refine bad _ hparse (hov (by rw [ht]; simp) fun _ => h7 (by simp)) ?_
        unfold routeIterOf; rw [ht]; dsimp only; unfold tableDumpV2Routes; rw [hty]; exact resultErr_error _
      | _ =>
        rw [hty] at hparse
        refine hrib ?_ (by simp) hparse
        unfold routeIterOf; rw [ht]; dsimp only; unfold tableDumpV2Routes; rw [hty]
  | bgp4mp | bgp4mpEt =>
    have htm : raw.header.type ∈ [EntryType.bgp4mp, .bgp4mpEt] := by rw [ht]; simp
    rw [ht] at hparse
    simp only [parseMrtBody] at hparse
    cases hp : parseBgp4Mp raw.header.subtype raw.body with
    | error e =>
      have hz : (routeIterOf raw table).1 = bgp4mpRoutes raw.header.subtype raw.body raw.header.micros := by
        unfold routeIterOf; rw [ht]
      rw [hz, bgp4mpRoutes_err htm hp]
      rw [hp] at hparse
      refine ⟨fun h => .unparsed _ _ hparse h, fun hf => ?_⟩
      cases hf with
      | unparsed e he ho => exact ho
      | broken r' hr' => rw [hparse] at hr'; cases hr'
      | entry h rr hr' => rw [hparse] at hr'; cases hr'
    | ok m =>
      rw [hp] at hparse
      cases m with
      | stateChange m => exact clean _ hparse (.inl (.state _)) (by simp)
      | message m =>
        refine clean _ hparse ?_ (by simp)
        rcases mpc m.message with h | ⟨u, hu, hb⟩
        · exact .inl (.bgp m h)
        · exact .inr (.bgp m u hu hb)
  | bgp =>
    rw [ht] at hparse
    simp only [parseMrtBody] at hparse
    cases hp : parseLegacyBgp raw.header.subtype raw.body with
    | error e =>
      rw [hp] at hparse
      refine bad e hparse (hov (by rw [ht]; simp) (by rw [ht]; simp)) ?_
      unfold routeIterOf
      rw [ht]
      exact legacyRoutes_err hp
    | ok m =>
      rw [hp] at hparse
      cases m with
      | stateChange m => exact clean _ hparse (.inl (.oldState _)) (by simp)
      | message m =>
        refine clean _ hparse ?_ (by simp)
        rcases mpc m.message with h | ⟨u, hu, hb⟩
        · exact .inl (.oldBgp m h)
        · exact .inr (.oldBgp m u hu hb)
  | _ =>
    rw [ht] at hparse
    refine bad _ hparse (hov (by rw [ht]; simp) (by rw [ht]; simp)) ?_
    unfold routeIterOf
    rw [ht]
    exact resultErr_error _

theorem fallRun_reported (items : List (Except RecErr Raw)) : ∀ (hist : List MrtRecord) (table : Option (List Peer)), KeptTable hist table →
    ReportedRoutes hist items (fallRun table items) := by
  induction items with
  | nil => intro hist table _; exact .nil hist
  | cons x items ih =>
    intro hist table hk
    cases x with
    | error e => exact .error _ _ _ _ (ih _ _ hk)
    | ok raw =>
      obtain ⟨h1, h2⟩ := record_routes hk raw
      have h3 := record_err hk raw
      have := ih _ _ h2
      rw [fallRun]
      unfold routesOf at h1
      generalize routeIterOf raw table = y at h1 h3 this
      obtain ⟨y, table'⟩ := y
      cases y with
      | ok it =>
        dsimp only at h1 h3 this ⊢
        simp only [resultErr] at h3
        cases hc : it.collect.2 with
        | none =>
          rw [hc] at h3
          simp only [errItems, Option.toList_none, List.map_nil, List.nil_append]
          exact .clean _ _ _ _ _ h1 (fun h => h3.mpr h rfl) this
        | some e =>
          rw [hc] at h3
          exact .faulty _ _ _ _ _ e h1 (h3.mp (by simp)) this
      | error e =>
        exact .faulty _ _ _ [] _ e h1 (h3.mp (resultErr_error _)) this

end Verif
