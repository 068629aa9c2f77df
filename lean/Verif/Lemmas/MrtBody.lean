import Verif.Spec.Mrt
import Verif.Lemmas.Exact
import Verif.Lemmas.Bgp
/-
Lemmas about MRT message bodies.
-/
namespace Verif
open Spec

/-! ### exact readers -/

namespace Exact

theorem lift (x : Except Err α) : Exact (Rd.lift x) (fun a c => x = .ok a ∧ c = []) := by
  intro s a r
  constructor
  · intro h
    cases x with
    | error e => cases h
    | ok b => cases h; exact ⟨[], rfl, rfl, rfl⟩
  · rintro ⟨c, rfl, rfl, rfl⟩; rfl

theorem rdAsn (l : AsnLen) : Exact (rdAsn l) (fun a c => AsnFits l a ∧ c = asnBytes l a) := by
  intro s a r
  constructor
  · intro h
    cases l with
    | b16 =>
      unfold Verif.rdAsn at h
      rw [Rd.bind_eq_ok] at h; obtain ⟨x, t, h1, h⟩ := h
      cases h
      refine ⟨be16 x, rdU16_ok h1, ?_, ?_⟩
      · intro _
        have := x.toNat_lt
        simpa using this
      · rw [be16_n16]; simp [asnBytes]
    | b32 =>
      refine ⟨be32 a, rdU32_ok h, fun h => (by cases h), ?_⟩
      rw [be32_n32]; rfl
  · rintro ⟨c, rfl, hf, rfl⟩
    have := rdAsn_enc l a r hf
    cases l with
    | b16 =>
      have hf := hf rfl
      simp only [encAsn, be16_n16] at this
      simp only [asnBytes]
      have e : a.toUInt16.toNat = a.toNat := by simp; omega
      rw [← e]; exact this
    | b32 =>
      simp only [encAsn, be32_n32] at this
      exact this

theorem rdAddr (afi : Afi) (h : afi ≠ .linkState) : Exact (rdAddr afi) (fun a c => a.afi = afi ∧ c = a.octets) := by
  intro s a r
  constructor
  · intro h'
    cases afi with
    | ipv4 =>
      simp only [Verif.rdAddr] at h'
      split at h'
      · rename_i o t ho
        cases h'
        exact ⟨o.toList, rdVec_ok ho, rfl, rfl⟩
      · cases h'
    | ipv6 =>
      simp only [Verif.rdAddr] at h'
      split at h'
      · rename_i o t ho
        cases h'
        exact ⟨o.toList, rdVec_ok ho, rfl, rfl⟩
      · cases h'
    | linkState => exact absurd rfl h
  · rintro ⟨c, rfl, rfl, rfl⟩
    exact rdAddr_octets a r

/-- `needN n` followed by `splitTo n`. -/
theorem needSplit (n : Nat) {f : Bytes → Rd β} {Q : Bytes → β → Bytes → Prop} (hf : ∀ a, Exact (f a) (Q a)) :
    Exact (needN n >>= fun _ => splitTo n >>= f) (fun b c => ∃ a c2, c = a ++ c2 ∧ a.length = n ∧ Q a b c2) := by
  intro s b r
  constructor
  · intro h
    rw [Rd.bind_eq_ok] at h; obtain ⟨_, t, h1, h⟩ := h
    rw [Rd.bind_eq_ok] at h; obtain ⟨a, t', h2, h⟩ := h
    simp only [needN] at h1
    split at h1
    · cases h1
    rename_i hn
    cases h1
    simp only [splitTo, hn, if_false] at h2
    cases h2
    obtain ⟨c2, hc, hq⟩ := (hf _ _ _ _).mp h
    refine ⟨s.take n ++ c2, ?_, s.take n, c2, rfl, by simp; omega, hq⟩
    rw [List.append_assoc, ← hc, List.take_append_drop]
  · rintro ⟨_, rfl, a, c2, rfl, rfl, hq⟩
    rw [List.append_assoc, Rd.bind_ok (show needN a.length (a ++ (c2 ++ r)) = .ok ((), a ++ (c2 ++ r)) by simp [needN]),
      Rd.bind_ok (splitTo_append _ _)]
    exact (hf a _ _ _).mpr ⟨c2, rfl, hq⟩

/-- a length check that the following reads imply. -/
theorem guard {p : Rd α} {R : α → Bytes → Prop} {n : Nat} {e : Err} (h : Exact p R)
    (hl : ∀ a c, R a c → n ≤ c.length) :
    Exact (Rd.remaining >>= fun rem => if rem < n then Rd.fail e else p) R := by
  intro s a r
  rw [Rd.bind_ok (Rd.remaining_apply s)]
  by_cases hn : s.length < n
  · rw [if_pos hn]
    constructor
    · intro h; cases h
    · rintro ⟨c, rfl, hr⟩
      have := hl _ _ hr
      simp at hn; omega
  · rw [if_neg hn]; exact h s a r

theorem rdTimes {p : Rd α} {R : α → Bytes → Prop} (h : Exact p R) (n : Nat) :
    Exact (rdTimes p n) (fun as c => as.length = n ∧ Blocks R as c) := by
  induction n with
  | zero =>
    intro s as r
    simp only [Verif.rdTimes]
    constructor
    · intro h; cases h; exact ⟨[], rfl, rfl, .nil⟩
    · rintro ⟨c, rfl, hl, hb⟩
      have : as = [] := List.length_eq_zero_iff.mp hl
      subst this
      cases hb; rfl
  | succ n ih =>
    refine congr (bind h fun a => bind ih fun as => pure (a :: as)) ?_
    intro as c
    constructor
    · rintro ⟨a, c1, c2, rfl, hr, as', c3, c4, rfl, ⟨hl, hb⟩, rfl, rfl⟩
      refine ⟨by simp [hl], ?_⟩
      rw [List.append_nil]
      exact .cons hr hb
    · rintro ⟨hl, hb⟩
      cases hb with
      | nil => cases hl
      | cons hr hb => exact ⟨_, _, _, rfl, hr, _, _, [], by simp, ⟨by simpa using hl, hb⟩, rfl, rfl⟩

theorem rdTimes' {p : Rd α} {R : α → Bytes → Prop} (h : Exact p R) (n : UInt16) :
    Exact (Verif.rdTimes p n.toNat) (fun as c => as.length = n.toNat ∧ Blocks R as c) := rdTimes h _

theorem prefix_ (afi : Afi) :
    Exact (tryParsePrefix afi false) (fun p c => p.pathId = none ∧ PrefixBytes afi p.prefix_ c) := by
  intro s p r
  constructor
  · intro h
    obtain ⟨hok, rfl⟩ := tryParsePrefix_sound h
    have hp : p.pathId = none := by simpa using hok.path
    refine ⟨p.encode, rfl, hp, hok.family, hok.len, hok.tail, ?_⟩
    simp [NetworkPrefix.encode, hp, encPathId, byteLen]
  · rintro ⟨c, rfl, hp, hf, hl, ht, rfl⟩
    have := tryParsePrefix_encode (p := p) (ap := false) ⟨hf, hl, ht, by simp [hp]⟩ r
    rw [← this]
    simp [NetworkPrefix.encode, hp, encPathId, byteLen]

end Exact

theorem NoPanic.rdTimes {p : Rd α} (h : NoPanic p) (n : Nat) : NoPanic (rdTimes p n) := by
  induction n with
  | zero => exact .pure _
  | succ n ih => exact .bind h fun _ => .bind ih fun _ => .pure _

theorem NoPanic.needSplit (n : Nat) {f : Bytes → Rd β} (hf : ∀ a, NoPanic (f a)) :
    NoPanic (Verif.needN n >>= fun _ => splitTo n >>= f) := by
  intro s h
  rw [Rd.bind_eq_error] at h
  rcases h with h | ⟨_, t, h1, h⟩
  · exact NoPanic.needN _ _ h
  · simp only [Verif.needN] at h1
    split at h1
    · cases h1
    rename_i hn
    cases h1
    rw [Rd.bind_eq_error] at h
    rcases h with h | ⟨a, t', h2, h⟩
    · simp [splitTo, hn] at h
    · exact hf _ _ h

theorem Rd.runOn_noPanic {p : Rd α} (h : NoPanic p) (s : Bytes) : p.runOn s ≠ .error .panic := NoPanic.runOn h s

/-! ### peer tables -/

theorem peerIsV6_bit (t : UInt8) : peerIsV6 t = t.toNat.testBit 0 := by
  have : ∀ n : Fin 256, peerIsV6 (UInt8.ofNat n.val) = (UInt8.ofNat n.val).toNat.testBit 0 := by decide +kernel
  simpa using this ⟨t.toNat, t.toNat_lt⟩

theorem peerIsAs4_bit (t : UInt8) : peerIsAs4 t = t.toNat.testBit 1 := by
  have : ∀ n : Fin 256, peerIsAs4 (UInt8.ofNat n.val) = (UInt8.ofNat n.val).toNat.testBit 1 := by decide +kernel
  simpa using this ⟨t.toNat, t.toNat_lt⟩

theorem ip_afi (a : Ip) : a.afi = if a.isV4 then .ipv4 else .ipv6 := by cases a <;> rfl

theorem exact_rdPeer : Exact rdPeer PeerBytes := by
  refine Exact.congr (.bind .rdU8 fun t => .bind (.rdVec 4) fun id => .bind (.rdAddr _ ?_) fun ip =>
    .bind (.rdAsn _) fun asn => .pure _) ?_
  · split <;> simp
  intro p c
  constructor
  · rintro ⟨t, c1, c2, rfl, rfl, id, c3, c4, rfl, rfl, ip, c5, c6, rfl, ⟨ha, rfl⟩, asn, c7, c8, rfl, ⟨hf, rfl⟩, rfl, rfl⟩
    refine ⟨?_, ?_, ?_⟩
    · rw [← peerIsV6_bit]
      rw [ip_afi] at ha
      cases h : peerIsV6 t <;> cases h' : ip.isV4 <;> simp_all
    · intro h
      rw [← peerIsAs4_bit] at h
      apply hf
      simp_all
    · show _ = [t] ++ id.toList ++ ip.octets ++ (if t.toNat.testBit 1 = true then n32 asn.toNat else n16 asn.toNat)
      rw [← peerIsAs4_bit]
      cases h : peerIsAs4 t <;> simp [asnBytes]
  · rintro ⟨h1, h2, rfl⟩
    simp only [List.append_assoc]
    refine ⟨p.peerType, _, _, rfl, rfl, p.bgpId, _, _, rfl, rfl, p.ip, _, _, rfl, ⟨?_, rfl⟩,
      p.asn, _, [], (List.append_nil _).symm, ⟨?_, ?_⟩, rfl, rfl⟩
    · rw [← peerIsV6_bit] at h1
      rw [ip_afi]
      cases h : peerIsV6 p.peerType <;> cases h' : p.ip.isV4 <;> simp_all
    · intro h
      apply h2
      rw [← peerIsAs4_bit]
      cases h' : peerIsAs4 p.peerType <;> simp_all
    · rw [← peerIsAs4_bit]
      cases h : peerIsAs4 p.peerType <;> simp [asnBytes]

theorem encPeer_bytes {p : Peer} (h : PeerOk p) : PeerBytes p (encPeer p) := by
  refine ⟨h.1, h.2, ?_⟩
  unfold encPeer
  rw [← peerIsAs4_bit]
  cases h' : peerIsAs4 p.peerType
  · rw [peerIsAs4_bit] at h'
    have := h.2 h'
    simp only [Bool.false_eq_true, if_false, encAsn, be16_n16]
    have e : p.asn.toUInt16.toNat = p.asn.toNat := by simp; omega
    rw [e]; simp
  · simp [encAsn, be32_n32]

theorem amGet_amInsert [DecidableEq κ] (k k' : κ) (v : ν) (m : List (κ × ν)) :
    amGet k' (amInsert k v m) = if k' = k then some v else amGet k' m := by
  induction m with
  | nil => simp only [amInsert, amGet, eq_comm]
  | cons x m ih =>
    obtain ⟨a, b⟩ := x
    simp only [amInsert]
    by_cases h : a = k
    · subst h
      simp only [if_true, amGet]
      by_cases h' : a = k'
      · subst h'; simp
      · simp [h', Ne.symm h']
    · simp only [if_neg h, amGet, ih]
      by_cases h' : a = k'
      · subst h'; simp [h]
      · simp [h']

theorem amInsert_keys [DecidableEq κ] (k : κ) (v : ν) (m : List (κ × ν)) :
    (amInsert k v m).map Prod.fst = if k ∈ m.map Prod.fst then m.map Prod.fst else m.map Prod.fst ++ [k] := by
  induction m with
  | nil => simp [amInsert]
  | cons x m ih =>
    obtain ⟨a, b⟩ := x
    simp only [amInsert]
    by_cases h : a = k
    · subst h; simp
    · rw [if_neg h, List.map_cons, ih, List.map_cons]
      by_cases h' : k ∈ m.map Prod.fst
      · rw [if_pos h', if_pos (by simp; right; simpa using h')]
      · rw [if_neg h', if_neg (by
          intro hc
          rcases List.mem_cons.mp hc with hc | hc
          · exact h hc.symm
          · exact h' hc)]
        rfl

theorem amGet_isSome [DecidableEq κ] (k : κ) (m : List (κ × ν)) : (amGet k m).isSome ↔ k ∈ m.map Prod.fst := by
  induction m with
  | nil => simp [amGet]
  | cons x m ih =>
    obtain ⟨a, b⟩ := x
    simp only [amGet, List.map_cons, List.mem_cons]
    by_cases h : a = k
    · subst h; simp
    · rw [if_neg h, ih]
      constructor
      · exact .inr
      · rintro (h' | h')
        · exact absurd h'.symm h
        · exact h'

theorem amInsert_nodup [DecidableEq κ] (k : κ) (v : ν) (m : List (κ × ν)) (h : (m.map Prod.fst).Nodup) :
    ((amInsert k v m).map Prod.fst).Nodup := by
  rw [amInsert_keys]
  split
  · exact h
  · rename_i hk
    rw [List.nodup_append]
    refine ⟨h, by simp, ?_⟩
    intro a ha b hb
    simp only [List.mem_singleton] at hb
    subst hb
    intro e; subst e; exact hk ha

theorem fillPeers_fields (ps : List Peer) : ∀ (i : Nat) (t : PeerIndexTable),
    (fillPeers i t ps).collector = t.collector ∧ (fillPeers i t ps).viewName = t.viewName := by
  induction ps with
  | nil => intro i t; exact ⟨rfl, rfl⟩
  | cons p ps ih => intro i t; exact ih _ _

theorem fillPeers_peer (ps : List Peer) : ∀ (i : Nat) (t : PeerIndexTable), i + ps.length ≤ 65536 → ∀ id : UInt16,
    (fillPeers i t ps).peer id = if i ≤ id.toNat ∧ id.toNat < i + ps.length then ps[id.toNat - i]? else t.peer id := by
  induction ps with
  | nil => intro i t _ id; rw [if_neg (by simp only [List.length_nil]; omega)]; rfl
  | cons p ps ih =>
    intro i t hi id
    simp only [List.length_cons] at hi ⊢
    rw [fillPeers, ih _ _ (by omega)]
    have ho : (UInt16.ofNat i).toNat = i := toNat_u16len (by omega)
    by_cases h0 : id.toNat = i
    · rw [if_neg (by omega), if_pos (by omega)]
      simp only [PeerIndexTable.peer, amGet_amInsert]
      have : id = UInt16.ofNat i := by apply UInt16.toNat_inj.mp; rw [ho, h0]
      rw [if_pos this]
      simp [h0]
    · have hne : id ≠ UInt16.ofNat i := by intro h; rw [h] at h0; exact h0 ho
      by_cases h1 : i + 1 ≤ id.toNat ∧ id.toNat < i + 1 + ps.length
      · rw [if_pos h1, if_pos (by omega)]
        have : id.toNat - i = (id.toNat - (i + 1)) + 1 := by omega
        rw [this, List.getElem?_cons_succ]
      · rw [if_neg h1, if_neg (by omega)]
        simp only [PeerIndexTable.peer, amGet_amInsert, if_neg hne]

theorem fillPeers_idOf (ps : List Peer) : ∀ (i : Nat) (t : PeerIndexTable), i + ps.length ≤ 65536 → ∀ ip (id : UInt16),
    (fillPeers i t ps).idOf ip = some id ↔
      (∃ j p, ps[j]? = some p ∧ p.ip = ip ∧ id.toNat = i + j ∧ ∀ j' q, j < j' → ps[j']? = some q → q.ip ≠ ip) ∨
      (t.idOf ip = some id ∧ ∀ q ∈ ps, q.ip ≠ ip) := by
  induction ps with
  | nil => intro i t _ ip id; simp [fillPeers]
  | cons p ps ih =>
    intro i t hi ip id
    simp only [List.length_cons] at hi
    rw [fillPeers, ih _ _ (by omega)]
    have ho : (UInt16.ofNat i).toNat = i := toNat_u16len (by omega)
    simp only [PeerIndexTable.idOf, amGet_amInsert]
    constructor
    · rintro (⟨j, q, hq, rfl, hid, hlast⟩ | ⟨h1, h2⟩)
      · refine .inl ⟨j + 1, q, by simpa using hq, rfl, by omega, ?_⟩
        intro j' q' hj hq'
        cases j' with
        | zero => omega
        | succ j' => exact hlast j' q' (by omega) (by simpa using hq')
      · by_cases hip : ip = p.ip
        · rw [if_pos hip] at h1
          injection h1 with h1
          refine .inl ⟨0, p, rfl, hip.symm, by rw [← h1, ho]; omega, ?_⟩
          intro j' q' hj hq'
          cases j' with
          | zero => omega
          | succ j' => exact h2 _ (List.mem_of_getElem? (by simpa using hq'))
        · rw [if_neg hip] at h1
          refine .inr ⟨h1, ?_⟩
          intro q hq
          rcases List.mem_cons.mp hq with rfl | hq
          · exact fun h => hip h.symm
          · exact h2 q hq
    · rintro (⟨j, q, hq, rfl, hid, hlast⟩ | ⟨h1, h2⟩)
      · cases j with
        | zero =>
          simp only [List.getElem?_cons_zero, Option.some.injEq] at hq
          subst hq
          refine .inr ⟨?_, ?_⟩
          · rw [if_pos rfl]
            congr 1
            apply UInt16.toNat_inj.mp
            rw [ho, hid]; omega
          · intro q hq
            obtain ⟨j, hj⟩ := List.getElem?_of_mem hq
            exact hlast (j + 1) q (by omega) (by simpa using hj)
        | succ j =>
          refine .inl ⟨j, q, by simpa using hq, rfl, by omega, ?_⟩
          intro j' q' hj hq'
          exact hlast (j' + 1) q' (by omega) (by simpa using hq')
      · refine .inr ⟨?_, fun q hq => h2 q (by simp [hq])⟩
        rw [if_neg fun h => h2 p (by simp) h.symm]
        exact h1

theorem fillPeers_tableOf (c : V4) (name : Bytes) (ps : List Peer) (h : ps.length < 65536) :
    TableOf (fillPeers 0 ⟨c, name, [], []⟩ ps) c name ps := by
  refine ⟨(fillPeers_fields ps 0 _).1, (fillPeers_fields ps 0 _).2, ?_, ?_⟩
  · intro id
    rw [fillPeers_peer ps 0 _ (by omega)]
    by_cases hid : id.toNat < ps.length
    · rw [if_pos (by omega)]; rfl
    · rw [if_neg (by omega), List.getElem?_eq_none (by omega)]; rfl
  · intro ip id
    rw [fillPeers_idOf ps 0 _ (by omega)]
    constructor
    · rintro (⟨j, p, hp, rfl, hid, hl⟩ | ⟨h, _⟩)
      · rw [Nat.zero_add] at hid
        rw [hid]
        exact ⟨⟨p, hp, rfl⟩, hl⟩
      · cases h
    · rintro ⟨⟨p, hp, rfl⟩, hl⟩
      exact .inl ⟨id.toNat, p, hp, rfl, by omega, hl⟩

theorem exact_parsePeerIndexTable :
    Exact parsePeerIndexTable (fun t c => ∃ col name peers, PeerTableBytes col name peers c ∧
      t = fillPeers 0 ⟨col, if utf8Ok name then name else [], [], []⟩ peers) := by
  refine Exact.congr (p := parsePeerIndexTable) (.bind (.rdVec 4) fun c => .bind .rdU16 fun n => .bind (.rdN _) fun nm =>
    .bind .rdU16 fun k => .bind (exact_rdPeer.rdTimes _) fun ps => .pure _) ?_
  intro t c
  constructor
  · rintro ⟨col, _, _, rfl, rfl, n, _, _, rfl, rfl, _, name, _, rfl, ⟨rfl, hn⟩, k, _, _, rfl, rfl, ps, pb, _, rfl,
      ⟨hk, hb⟩, rfl, rfl⟩
    refine ⟨col, name, ps, ⟨by rw [hn]; exact n.toNat_lt, by rw [hk]; exact k.toNat_lt, pb, hb, ?_⟩, rfl⟩
    rw [hn, hk, be16_n16, be16_n16]; simp
  · rintro ⟨col, name, ps, ⟨hn, hk, pb, hb, rfl⟩, rfl⟩
    simp only [List.append_assoc]
    exact ⟨col, _, _, rfl, rfl, UInt16.ofNat name.length, _, _, rfl, (n16_ofNat hn).symm, name, _, _, rfl,
      ⟨rfl, (toNat_u16len (by omega)).symm⟩, UInt16.ofNat ps.length, _, _, rfl, (n16_ofNat hk).symm, ps, pb, [],
      by simp, ⟨(toNat_u16len (by omega)).symm, hb⟩, rfl, rfl⟩

/-! sorting the peer ids -/

theorem sortInsert_perm (x : UInt16) (l : List UInt16) : (sortInsert x l).Perm (x :: l) := by
  induction l with
  | nil => exact .refl _
  | cons y l ih =>
    simp only [sortInsert]
    split
    · exact .refl _
    · exact (ih.cons y).trans (.swap x y l)

theorem sortU16_perm (l : List UInt16) : (sortU16 l).Perm l := by
  induction l with
  | nil => exact .refl _
  | cons x l ih => exact (sortInsert_perm x _).trans (ih.cons x)

theorem sortInsert_sorted (x : UInt16) (l : List UInt16) (h : l.Pairwise (· ≤ ·)) :
    (sortInsert x l).Pairwise (· ≤ ·) := by
  induction l with
  | nil => simp [sortInsert]
  | cons y l ih =>
    simp only [sortInsert]
    obtain ⟨h1, h2⟩ := List.pairwise_cons.mp h
    split
    · rename_i hxy
      refine List.pairwise_cons.mpr ⟨?_, h⟩
      intro z hz
      rcases List.mem_cons.mp hz with rfl | hz
      · exact hxy
      · exact UInt16.le_trans hxy (h1 z hz)
    · rename_i hxy
      refine List.pairwise_cons.mpr ⟨?_, ih h2⟩
      intro z hz
      rcases List.mem_cons.mp ((sortInsert_perm x l).mem_iff.mp hz) with rfl | hz
      · exact (UInt16.le_total y z).resolve_right hxy
      · exact h1 z hz

theorem sortU16_sorted (l : List UInt16) : (sortU16 l).Pairwise (· ≤ ·) := by
  induction l with
  | nil => exact .nil
  | cons x l ih => exact sortInsert_sorted x _ ih

theorem sortU16_dense {l : List UInt16} (hn : l.Nodup) (hd : ∀ id, id ∈ l ↔ id.toNat < l.length) (hl : l.length ≤ 65536) :
    sortU16 l = (List.range l.length).map UInt16.ofNat := by
  have hinj : ∀ a < l.length, (UInt16.ofNat a).toNat = a := fun a ha => toNat_u16len (by omega)
  refine List.Perm.eq_of_pairwise (le := (· ≤ ·)) (fun a b _ _ h h' => UInt16.le_antisymm h h') (sortU16_sorted l) ?_ ?_
  · rw [List.pairwise_map]
    refine List.Pairwise.imp_of_mem ?_ List.pairwise_lt_range
    intro a b ha hb hab
    rw [UInt16.le_iff_toNat_le, hinj a (by simpa using ha), hinj b (by simpa using hb)]
    omega
  · refine (sortU16_perm l).trans ?_
    rw [List.perm_ext_iff_of_nodup hn]
    · intro a
      rw [hd, List.mem_map]
      constructor
      · intro h
        exact ⟨a.toNat, by simpa using h, by simp⟩
      · rintro ⟨x, hx, rfl⟩
        have hx : x < l.length := by simpa using hx
        rw [hinj x hx]; exact hx
    · rw [List.Nodup, List.pairwise_map]
      refine List.Pairwise.imp_of_mem ?_ List.pairwise_lt_range
      intro a b ha hb hab e
      have := congrArg UInt16.toNat e
      rw [hinj a (by simpa using ha), hinj b (by simpa using hb)] at this
      omega

theorem map_some_of_isSome {f : α → Option β} (l : List α) (h : ∀ a ∈ l, (f a).isSome) :
    ∃ bs : List β, bs.map some = l.map f := by
  induction l with
  | nil => exact ⟨[], rfl⟩
  | cons a l ih =>
    obtain ⟨bs, hb⟩ := ih fun a ha => h a (by simp [ha])
    obtain ⟨b, hb'⟩ := Option.isSome_iff_exists.mp (h a (by simp))
    exact ⟨b :: bs, by simp [hb, hb']⟩

theorem encodePeerIndexTable_layout {t : PeerIndexTable} {b : Bytes} (ht : PeerTableOk t) (h : encodePeerIndexTable t = .ok b) :
    ∃ peers : List Peer, PeerTableBytes t.collector t.viewName peers b ∧ ∀ id, t.peer id = peers[id.toNat]? := by
  unfold encodePeerIndexTable at h
  cases h1 : u16Len t.viewName with
  | error e => rw [h1] at h; cases h
  | ok name =>
    rw [h1] at h
    dsimp only at h
    cases h2 : checkMax t.idPeer.length 65535 with
    | error e => rw [h2] at h; cases h
    | ok n =>
      rw [h2] at h
      injection h with h
      obtain ⟨hname, rfl⟩ := u16Len_ok.mp h1
      have hn : n = t.idPeer.length ∧ t.idPeer.length ≤ 65535 := by
        unfold checkMax at h2
        split at h2
        · cases h2
        · cases h2; exact ⟨rfl, by omega⟩
      obtain ⟨rfl, hn⟩ := hn
      have hsort := sortU16_dense (l := t.idPeer.map Prod.fst) ht.isMap (by
        intro id
        rw [← amGet_isSome, List.length_map]
        exact ht.dense id) (by simp; omega)
      rw [List.length_map] at hsort
      have hinj : ∀ a < t.idPeer.length, (UInt16.ofNat a).toNat = a := fun a ha => toNat_u16len (by omega)
      obtain ⟨peers, hpeers⟩ := map_some_of_isSome (f := t.peer) ((List.range t.idPeer.length).map UInt16.ofNat) (by
        intro a ha
        obtain ⟨x, hx, rfl⟩ := List.mem_map.mp ha
        rw [ht.dense, hinj x (by simpa using hx)]
        simpa using hx)
      have hlen : peers.length = t.idPeer.length := by
        have := congrArg List.length hpeers
        simpa using this
      have hget : ∀ id, t.peer id = peers[id.toNat]? := by
        intro id
        by_cases hid : id.toNat < t.idPeer.length
        · have := congrArg (·[id.toNat]?) hpeers
          simp only [List.getElem?_map, List.getElem?_range hid, Option.map_some] at this
          rw [UInt16.ofNat_toNat] at this
          rw [List.getElem?_eq_getElem (by omega)] at this ⊢
          simp at this
          exact this.symm
        · rw [List.getElem?_eq_none (by omega)]
          have := mt (ht.dense id).mp hid
          simpa using this
      refine ⟨peers, ⟨by omega, by omega, peers.flatMap encPeer, ?_, ?_⟩, hget⟩
      · apply Blocks_flatMap
        intro p hp
        obtain ⟨i, hi⟩ := List.getElem?_of_mem hp
        have hil : i < t.idPeer.length := by
          rw [← hlen]
          by_cases hc : i < peers.length
          · exact hc
          · rw [List.getElem?_eq_none (by omega)] at hi; cases hi
        apply encPeer_bytes
        refine ht.peers (UInt16.ofNat i) p ?_
        rw [hget, hinj i hil, hi]
      · rw [← h, hsort, n16_ofNat (by omega), n16_ofNat (by omega), hlen]
        simp only [List.append_assoc]
        congr 4
        have : ∀ (ids : List UInt16) (peers : List Peer), peers.map some = ids.map t.peer →
            (ids.flatMap fun id => match t.peer id with
              | some p => encPeer p
              | none => []) = peers.flatMap encPeer := by
          intro ids
          induction ids with
          | nil => intro peers h; cases peers with
            | nil => rfl
            | cons p ps => cases h
          | cons id ids ih =>
            intro peers h
            cases peers with
            | nil => cases h
            | cons p ps =>
              simp only [List.map_cons, List.cons.injEq] at h
              rw [List.flatMap_cons, List.flatMap_cons, ih ps h.2, ← h.1]
        exact this _ _ hpeers

end Verif
