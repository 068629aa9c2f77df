import Verif.Lemmas.Encoder
import Verif.Props.ElemBack
import Verif.Props.MrtRecord
import Verif.Props.FilterIter
/-
Reading back what the encoders export.
-/
namespace Verif
open Spec Props

theorem mem_pushSome {f : α → AttrVal} {o : Option α} {v : AttrVal} (h : v ∈ pushSome f o) : ∃ x, o = some x ∧ v = f x := by
  cases o <;> simp [pushSome] at h
  exact ⟨_, rfl, h⟩

theorem mem_pushList {f : List α → AttrVal} {l : List α} {v : AttrVal} (h : v ∈ pushList f l) : v = f l := by
  unfold pushList at h
  split at h
  · cases h
  · simpa using h

theorem mem_plainOf {c : Community} : ∀ {cs : List MetaCommunity}, c ∈ plainOf cs → .plain c ∈ cs
  | [], h => by cases h
  | x :: cs, h => by
    cases x with
    | plain d =>
      rcases List.mem_cons.mp h with rfl | h
      · exact List.mem_cons_self
      · exact List.mem_cons_of_mem _ (mem_plainOf h)
    | _ => exact List.mem_cons_of_mem _ (mem_plainOf h)

theorem mem_extendedOf {c : ExtCommunity} : ∀ {cs : List MetaCommunity}, c ∈ extendedOf cs → .extended c ∈ cs
  | [], h => by cases h
  | x :: cs, h => by
    cases x with
    | extended d =>
      rcases List.mem_cons.mp h with rfl | h
      · exact List.mem_cons_self
      · exact List.mem_cons_of_mem _ (mem_extendedOf h)
    | _ => exact List.mem_cons_of_mem _ (mem_extendedOf h)

theorem mem_ipv6ExtendedOf {c : Ipv6ExtCommunity} : ∀ {cs : List MetaCommunity}, c ∈ ipv6ExtendedOf cs → .ipv6Extended c ∈ cs
  | [], h => by cases h
  | x :: cs, h => by
    cases x with
    | ipv6Extended d =>
      rcases List.mem_cons.mp h with rfl | h
      · exact List.mem_cons_self
      · exact List.mem_cons_of_mem _ (mem_ipv6ExtendedOf h)
    | _ => exact List.mem_cons_of_mem _ (mem_ipv6ExtendedOf h)

/-- the attributes of an element can be sent. -/
theorem elem_attrs_ok (cfg : AttrCfg) (e : BgpElem) (he : ElemOk cfg.addPath e)
    (hn : e.type = .announce → ∃ a, e.nextHop = some a ∧ a.afi = cfg.afi.getD .ipv4) :
    ∀ a ∈ e.toAttributes.inner, AttrValOk cfg a.value := by
  intro a ha
  rw [toAttributes_inner, List.mem_map] at ha
  obtain ⟨v, hv, rfl⟩ := ha
  show AttrValOk cfg v
  have hafi : prefixAfi e.prefix_ = if e.prefix_.prefix_.addr.isV4 then .ipv4 else .ipv6 := by
    unfold prefixAfi; rfl
  have hfam : prefixAfi e.prefix_ ≠ .linkState := by rw [hafi]; split <;> simp
  have hpre : ∀ p ∈ [e.prefix_], PrefixOk (prefixAfi e.prefix_) cfg.addPath p ∧ (cfg.addPath = false → p.prefix_.len ≠ 0) := by
    intro p hp
    rw [List.mem_singleton] at hp
    subst hp
    exact ⟨by rw [hafi]; exact he.prefix_, he.notDefault⟩
  cases ht : e.type with
  | withdraw =>
    unfold BgpElem.values at hv
    rw [if_pos ht, List.mem_singleton] at hv
    subst hv
    exact ⟨rfl, hfam, rfl, rfl, fun _ => ⟨rfl, hpre⟩, fun h => by cases h⟩
  | announce =>
    obtain ⟨nh, hn1, hn2⟩ := hn ht
    rw [values_announce e ht] at hv
    simp only [List.mem_append, List.mem_singleton] at hv
    rcases hv with (((((((((hv | hv) | hv) | hv) | hv) | hv) | hv) | hv) | hv) | hv) | hv
    · subst hv
      refine ⟨?_, hfam, rfl, rfl, fun _ => ⟨rfl, hpre⟩, fun h => by cases h⟩
      rw [hn1]; rfl
    · obtain ⟨x, hx, rfl⟩ := mem_pushSome hv
      rw [hn1] at hx; cases hx
      exact hn2
    · obtain ⟨x, _, rfl⟩ := mem_pushSome hv; trivial
    · obtain ⟨x, _, rfl⟩ := mem_pushSome hv; trivial
    · obtain ⟨x, _, rfl⟩ := mem_pushSome hv; trivial
    · obtain ⟨x, _, rfl⟩ := mem_pushSome hv; trivial
    · cases hc : e.communities with
      | none => rw [hc] at hv; cases hv
      | some cs =>
        have hok : ∀ c ∈ cs, MetaOk c := by
          have := he.communities; rw [hc] at this; exact this
        rw [hc] at hv
        simp only [commValues, List.mem_append] at hv
        rcases hv with ((hv | hv) | hv) | hv
        · rw [mem_pushList hv]
          exact fun c h => hok _ (mem_plainOf h)
        · rw [mem_pushList hv]
          exact fun c h => hok _ (mem_extendedOf h)
        · rw [mem_pushList hv]; trivial
        · rw [mem_pushList hv]
          exact fun c h => hok _ (mem_ipv6ExtendedOf h)
    · rw [aggrValues_eq] at hv
      obtain ⟨x, _, rfl⟩ := mem_pushSome hv; trivial
    · obtain ⟨x, _, rfl⟩ := mem_pushSome hv; trivial
    · rw [rawValues_eq, List.mem_map] at hv
      obtain ⟨x, hx, rfl⟩ := hv
      exact he.unknown x hx
    · rw [rawValues_eq, List.mem_map] at hv
      obtain ⟨x, hx, rfl⟩ := hv
      exact he.deprecated x hx

/-- the fields that any element made from the attributes of an announcement has. -/
theorem sameRoute_of (i e : BgpElem) (as : Attributes) (ht : i.type = .announce) (has : as.inner = i.toAttributes.inner)
    (h : let r := relevantAttributes as
      e.type = .announce ∧ e.nextHop = r.nextHop ∧ e.asPath = mergePaths r.asPath r.as4Path ∧ e.origin = r.origin ∧
      e.localPref = r.localPref ∧ e.med = r.med ∧ e.communities = nonEmpty r.communities ∧ e.atomic = r.atomic ∧
      e.aggrAsn = r.aggregator.map (·.1) ∧ e.aggrIp = r.aggregator.map (·.2) ∧ e.otc = r.otc ∧
      e.unknown = nonEmpty r.unknown ∧ e.deprecated = nonEmpty r.deprecated) : SameRoute i e := by
  have hr : relevantAttributes as = (let r := relRaw i.toAttributes.inner
      { r with nextHop := r.nextHop.or (r.announced.bind fun n => n.nextHop.map NextHop.addr) }) := by
    unfold relevantAttributes; rw [has]; rfl
  rw [rel_values i ht] at hr
  rw [hr] at h
  dsimp only at h
  obtain ⟨h1, h2, h3, h4, h5, h6, h7, h8, h9, h10, h11, h12, h13⟩ := h
  have hd : ∀ {β : Type} (l : List β), (nonEmpty l).getD [] = l := by
    intro β l; cases l <;> rfl
  refine ⟨h1, ?_, ?_, h4, ?_, ?_, ?_, ?_, ?_, h11, ?_, ?_, h8⟩
  · rw [h2]
    cases hn : i.nextHop with
    | none => simp [Nlri.newReachable]
    | some a => rfl
  · rw [h3]; cases i.asPath <;> rfl
  · rw [h5]; cases i.localPref <;> rfl
  · rw [h6]; cases i.med <;> rfl
  · intro k
    rw [h7, hd]
    have hf : ∀ xs ys, ofKind k (xs ++ ys) = ofKind k xs ++ ofKind k ys := fun xs ys => List.filter_append ..
    rw [grouped, hf, hf, hf, ofKind_ofKind, ofKind_ofKind, ofKind_ofKind, ofKind_ofKind]
    cases k <;> simp
  · rw [h9]; cases i.aggrAsn <;> rfl
  · rw [h10]; cases i.aggrAsn <;> rfl
  · rw [h12, hd]
  · rw [h13, hd]

theorem ribEntry_sameRoute (i : BgpElem) (ht : i.type = .announce) (p : NetworkPrefix) (peer : Peer) (e : RibEntry)
    (has : e.attributes.inner = i.toAttributes.inner) : SameRoute i (ribEntryToElem p peer e) := by
  refine sameRoute_of i _ e.attributes ht has ⟨rfl, ?_, rfl, rfl, rfl, rfl, rfl, rfl, rfl, rfl, rfl, rfl, rfl⟩
  unfold ribEntryToElem
  dsimp only
  have : ∀ (a b : Option Ip), (match a.or b with | some v => some v | none => b) = a.or b := by
    intro a b; cases a <;> cases b <;> rfl
  exact this (relRaw e.attributes.inner).nextHop _


/-- the frame of a message: a header, then the message. -/
theorem Framed.parts {r : MrtRecord} {c : Bytes} (h : Framed r c) :
    ∃ body, encodeMrtMessage r.message r.header.subtype = .ok body ∧
      c.length = body.length + (if r.header.micro.isSome then 16 else 12) := by
  obtain ⟨⟨t, m, ty, st, l⟩, msg⟩ := r
  obtain ⟨_, h2⟩ := h
  unfold frameMessage at h2
  dsimp only at h2
  split at h2
  · cases h2
  rename_i body hb
  split at h2
  · cases h2
  rename_i hd hh
  cases h2
  refine ⟨body, hb, ?_⟩
  unfold encodeHeader at hh
  dsimp only at hh
  cases m with
  | none =>
    cases hh
    simp only [List.length_append, length_be32, length_be16, Option.isSome_none, Bool.false_eq_true, if_false]
    omega
  | some m =>
    dsimp only at hh
    split at hh
    · cases hh
    · cases hh
      simp only [List.length_append, length_be32, length_be16, Option.isSome_some, if_true]
      omega

theorem encoded_of_framed : ∀ {rs : List MrtRecord} {b : Bytes}, Blocks Framed rs b → (∀ r ∈ rs, RecordOk r) →
    (∀ r ∈ rs, ∀ body, encodeMrtMessage r.message r.header.subtype = .ok body → body.length ≤ 16777216) → Encoded rs b
  | _, _, .nil, _, _ => .nil
  | _, _, .cons (a := r) h t, h1, h2 => by
    have hr := h1 _ List.mem_cons_self
    obtain ⟨body, g1, g2⟩ := h.parts
    have g3 := h2 _ List.mem_cons_self _ g1
    have g4 : (if r.header.micro.isSome then 16 else 12) = headerLen r.header := by
      unfold headerLen
      by_cases hm : r.header.type = .bgp4mpEt
      · rw [if_pos hm, if_pos (hr.micro.mpr hm)]
      · rw [if_neg hm, if_neg (fun hc => hm (hr.micro.mp hc))]
    refine .cons ⟨hr, h.record ?_, ?_⟩ (encoded_of_framed t (fun r hr => h1 r (List.mem_cons_of_mem _ hr)) (fun r hr => h2 r (List.mem_cons_of_mem _ hr)))
    · rw [g2]; split <;> omega
    · rw [g2, g4]; omega

/-! ### the peer table -/

theorem table_ok {h : List (ElemIn × Bool)} {x : RibEncoder} (hi : RibInv h x)
    (hf : ∀ i ∈ accepted h, i.four = false → i.elem.peerAsn.toNat < 65536) : PeerTableOk x.table := by
  obtain ⟨H, hH⟩ := hi.hist
  have hp := AddHistory.inv hH
  refine ⟨by rw [hp.viewName]; rfl, hp.dense, ?_, hp.nodup⟩
  intro id p hq
  obtain ⟨i, h1, rfl⟩ := hi.peers id p hq
  have hm : i ∈ accepted h := List.mem_reverse.mp (List.mem_of_find?_eq_some h1)
  have hc : ∀ a b : Bool, (if a then (if b then (2 : UInt8) else 0) else (if b then 2 else 0) ||| 1).toNat.testBit 0 = !a ∧
      (if a then (if b then (2 : UInt8) else 0) else (if b then 2 else 0) ||| 1).toNat.testBit 1 = b := by decide
  refine ⟨(hc i.elem.peerIp.isV4 i.four).1, fun hb => ?_⟩
  have h2 := (hc i.elem.peerIp.isV4 i.four).2
  exact hf i hm (h2.symm.trans hb)

theorem encPeer_length (p : Peer) : (encPeer p).length ≤ 25 := by
  unfold encPeer
  simp only [List.length_append, List.length_cons, Vector.length_toList]
  have h1 : p.ip.octets.length ≤ 16 := by cases p.ip <;> simp [Ip.octets]
  have h2 : ∀ l, (encAsn l p.asn).length ≤ 4 := by intro l; cases l <;> simp [encAsn, length_be16, length_be32]
  have := h2 (if peerIsAs4 p.peerType then .b32 else .b16)
  omega

theorem sortU16_length (l : List UInt16) : (sortU16 l).length = l.length := by
  have hi : ∀ x l, (sortInsert x l).length = l.length + 1 := by
    intro x l
    induction l with
    | nil => rfl
    | cons y l ih => simp only [sortInsert]; split <;> simp [ih]
  induction l with
  | nil => rfl
  | cons x l ih => simp [sortU16, hi, ih]

theorem flatMap_length_le (f : α → Bytes) (k : Nat) (h : ∀ a, (f a).length ≤ k) : ∀ l : List α, (l.flatMap f).length ≤ k * l.length
  | [] => by simp
  | a :: l => by
    have := flatMap_length_le f k h l
    have := h a
    simp only [List.flatMap_cons, List.length_append, List.length_cons, Nat.mul_add]
    omega

/-- the peer table of a dump has less than 16 MiB. -/
theorem table_small {h : List (ElemIn × Bool)} {x : RibEncoder} (hi : RibInv h x) {b : Bytes} (hb : encodePeerIndexTable x.table = .ok b) :
    b.length ≤ 16777216 := by
  obtain ⟨H, hH⟩ := hi.hist
  have hp := AddHistory.inv hH
  unfold encodePeerIndexTable at hb
  rw [hp.viewName] at hb
  have hu : u16Len [] = .ok [0, 0] := rfl
  rw [hu] at hb
  dsimp only at hb
  split at hb
  · cases hb
  cases hb
  have hlen := hp.len
  have hmax := hp.max
  have hx : ∀ g : UInt16 → Bytes, (∀ id, (g id).length ≤ 25) →
      ((sortU16 (x.table.idPeer.map Prod.fst)).flatMap g).length ≤ 25 * x.table.idPeer.length := by
    intro g hg
    have := flatMap_length_le g 25 hg (sortU16 (x.table.idPeer.map Prod.fst))
    rwa [sortU16_length, List.length_map] at this
  simp only [List.length_append, Vector.length_toList, List.length_cons, List.length_nil, length_be16]
  refine Nat.le_trans (Nat.add_le_add_left (Nat.add_le_add_left (Nat.add_le_add_left (hx _ ?_) _) _) _) ?_
  · intro id
    split
    · exact encPeer_length _
    · exact Nat.zero_le _
  · omega


/-! ### the RIB records -/

theorem rib_record_ok {h : List (ElemIn × Bool)} {t : PeerIndexTable} {r : RibAfi} (time : UInt32) (hd : DumpRib h t r)
    (hs : ∃ i ∈ accepted h, i.elem.prefix_.prefix_ = r.prefix_.prefix_)
    (hok : ∀ i ∈ accepted h, RibElemOk i.elem.prefix_.pathId.isSome i.elem)
    (hu : ∀ i ∈ accepted h, ∀ j ∈ accepted h, i.elem.prefix_.prefix_ = j.elem.prefix_.prefix_ →
      i.elem.prefix_.pathId.isSome = j.elem.prefix_.pathId.isSome) :
    RecordOk (dumpRecord time r.ribType.toU16 (.ribAfi r)) := by
  obtain ⟨i0, hi0, hp0⟩ := hs
  obtain ⟨d1, d2, d3, d4, d5⟩ := hd
  have hent : ∀ e ∈ r.entries, ∃ i ∈ accepted h, i.elem.prefix_.prefix_ = r.prefix_.prefix_ ∧ e.pathId = i.elem.prefix_.pathId ∧
      e.attributes = i.elem.toAttributes := by
    intro e he
    obtain ⟨p, i, h1, h2, h3, h4, h5⟩ := d4 e he
    have h6 := List.find?_some h2
    simp only [decide_eq_true_eq] at h6
    exact ⟨i, List.mem_of_find?_eq_some h2, h6.1, h3, h5⟩
  have hap : ∀ e ∈ r.entries, e.pathId.isSome = i0.elem.prefix_.pathId.isSome := by
    intro e he
    obtain ⟨i, h1, h2, h3, _⟩ := hent e he
    rw [h3]
    exact hu i h1 i0 hi0 (h2.trans hp0.symm)
  have hany : (∃ e ∈ r.entries, e.pathId ≠ none) ↔ i0.elem.prefix_.pathId.isSome = true := by
    constructor
    · rintro ⟨e, he, hne⟩
      rw [← hap e he]
      exact Option.isSome_iff_ne_none.mpr hne
    · intro hs
      obtain ⟨e, he, p, h1, h2⟩ := d5 i0 hi0 hp0
      exact ⟨e, he, Option.isSome_iff_ne_none.mp (by rw [hap e he]; exact hs)⟩
  have hpo := (hok i0 hi0).any.prefix_
  rw [hp0] at hpo
  -- the family of the record
  have hfam : ∃ n, ribFamily r.ribType = some (n, (if r.prefix_.prefix_.addr.isV4 then .ipv4 else .ipv6), .unicast,
      i0.elem.prefix_.pathId.isSome) ∧ r.ribType.toU16.toNat = n := by
    rw [d2]
    by_cases hv : r.prefix_.prefix_.addr.isV4 = true
    · simp only [hv, if_true]
      by_cases ha : ∃ e ∈ r.entries, e.pathId ≠ none
      · simp only [ha, if_true]; rw [hany.mp ha]; exact ⟨_, rfl, rfl⟩
      · simp only [ha, if_false]
        rw [Bool.eq_false_iff.mpr (fun hc => ha (hany.mpr hc))]; exact ⟨_, rfl, rfl⟩
    · simp only [hv, if_false]
      by_cases ha : ∃ e ∈ r.entries, e.pathId ≠ none
      · simp only [ha, if_true]; rw [hany.mp ha]; exact ⟨_, rfl, rfl⟩
      · simp only [ha, if_false]
        rw [Bool.eq_false_iff.mpr (fun hc => ha (hany.mpr hc))]; exact ⟨_, rfl, rfl⟩
  obtain ⟨n, hn, hn'⟩ := hfam
  refine ⟨by simp [dumpRecord], ?_⟩
  show MrtMsgOk .tableDumpV2 r.ribType.toU16.toNat (.tableDumpV2 (.ribAfi r))
  rw [hn']
  refine .rib hn ⟨n, _, _, _, hn, ⟨hp0 ▸ hpo.family, hp0 ▸ hpo.len, ?_, by rw [d1]; rfl⟩, ?_⟩
  · exact hp0 ▸ hpo.tail
  · intro e he
    refine ⟨hap e he, ?_⟩
    obtain ⟨i, h1, h2, h3, h4⟩ := hent e he
    rw [h4]
    have hiok := hok i h1
    have hia : i.elem.prefix_.pathId.isSome = i0.elem.prefix_.pathId.isSome := by rw [← h3]; exact hap e he
    rw [hia] at hiok
    refine elem_attrs_ok _ _ hiok.any ?_
    intro _
    obtain ⟨a, ha1, ha2⟩ := hiok.nextHop
    refine ⟨a, ha1, ?_⟩
    rw [ip_afi, ha2, h2]
    rfl

/-! ### the elements -/

/-- `e'` is made of the entry `e` in a record for `p`. -/
def FromEntry (t : PeerIndexTable) (p : NetworkPrefix) (e : RibEntry) (x : BgpElem) : Prop :=
  ∃ peer e', t.peer e.peerIndex = some peer ∧ SameEntry e e' ∧ x = ribEntryToElem p peer e'

theorem ribLeft_from (t t' : PeerIndexTable) (p : NetworkPrefix) (ht : ∀ id, t'.peer id = t.peer id) {es es' : List RibEntry}
    (h : Pairwise2 SameEntry es es') (hk : ∀ e ∈ es, (t.peer e.peerIndex).isSome) :
    Pairwise2 (FromEntry t p) es (ribLeft t' p es') := by
  induction h with
  | nil => exact .nil
  | @cons e e' es es' h _ ih =>
    obtain ⟨peer, hp⟩ := Option.isSome_iff_exists.mp (hk e List.mem_cons_self)
    have : t'.peer e'.peerIndex = some peer := by rw [ht, h.1]; exact hp
    unfold ribLeft
    rw [this]
    exact .cons ⟨peer, e', hp, h, rfl⟩ (ih fun e he => hk e (List.mem_cons_of_mem _ he))

theorem elemsFrom_ribs (t t' : PeerIndexTable) (ht : ∀ id, t'.peer id = t.peer id) (time : UInt32) :
    ∀ (ribs : List RibAfi) (hist rs' : List MrtRecord), after hist = ⟨some t'⟩ →
      (∀ r ∈ ribs, ∀ e ∈ r.entries, (t.peer e.peerIndex).isSome) →
      Pairwise2 (fun r r' => SameRecord r'.header.length.toNat r r')
        (ribs.map fun r => dumpRecord time r.ribType.toU16 (.ribAfi r)) rs' →
      ∃ outs, Pairwise2 (fun r out => Pairwise2 (FromEntry t r.prefix_) r.entries out) ribs outs ∧ elemsFrom hist rs' = outs.flatten
  | [], hist, rs', _, _, h => by
    cases h
    exact ⟨[], .nil, rfl⟩
  | r :: ribs, hist, rs', ha, hk, h => by
    cases h with
    | @cons _ r' _ rs' h1 h2 =>
      obtain ⟨_, _, _, _, _, h3⟩ := h1
      obtain ⟨hd, msg⟩ := r'
      have h3 : SameMrt (.tableDumpV2 (.ribAfi r)) msg := h3
      cases h3 with
      | @rib _ q hq =>
        obtain ⟨q1, q2, q3, q4⟩ := hq
        have hafter : after (hist ++ [⟨hd, .tableDumpV2 (.ribAfi q)⟩]) = ⟨some t'⟩ := by
          rw [after_append, ha]; rfl
        obtain ⟨outs, g1, g2⟩ := elemsFrom_ribs t t' ht time ribs _ rs' hafter (fun r hr => hk r (List.mem_cons_of_mem _ hr)) h2
        refine ⟨ribLeft t' q.prefix_ q.entries :: outs, .cons ?_ g1, ?_⟩
        · rw [q3]
          exact ribLeft_from t t' _ ht q4 (hk r List.mem_cons_self)
        · show elemsAfter hist _ ++ elemsFrom _ rs' = _
          rw [g2, List.flatten_cons]
          congr 1
          show ((after hist).recordToElems _).1 = _
          rw [ha]
          exact RecordIter.collect_eq _

theorem pairwise2_mem_right {R : α → β → Prop} {as : List α} {bs : List β} (h : Pairwise2 R as bs) {b : β} (hb : b ∈ bs) :
    ∃ a ∈ as, R a b := by
  induction h with
  | nil => cases hb
  | cons h _ ih =>
    rcases List.mem_cons.mp hb with rfl | hb
    · exact ⟨_, List.mem_cons_self, h⟩
    · obtain ⟨a, h1, h2⟩ := ih hb
      exact ⟨a, List.mem_cons_of_mem _ h1, h2⟩

theorem pairwise2_mem_left {R : α → β → Prop} {as : List α} {bs : List β} (h : Pairwise2 R as bs) {a : α} (ha : a ∈ as) :
    ∃ b ∈ bs, R a b := by
  induction h with
  | nil => cases ha
  | cons h _ ih =>
    rcases List.mem_cons.mp ha with rfl | ha
    · exact ⟨_, List.mem_cons_self, h⟩
    · obtain ⟨a, h1, h2⟩ := ih ha
      exact ⟨a, List.mem_cons_of_mem _ h1, h2⟩

theorem pairwise2_pairwise {R : α → β → Prop} {P : α → α → Prop} {Q : β → β → Prop} {as : List α} {bs : List β}
    (h : Pairwise2 R as bs) (hp : as.Pairwise P) (hq : ∀ a a' b b', a ∈ as → a' ∈ as → R a b → R a' b' → P a a' → Q b b') : bs.Pairwise Q := by
  induction h with
  | nil => exact .nil
  | cons h t ih =>
    cases hp with
    | cons h1 h2 =>
      refine .cons ?_ (ih h2 fun a a' b b' ha ha' => hq a a' b b' (List.mem_cons_of_mem _ ha) (List.mem_cons_of_mem _ ha'))
      intro b' hb'
      obtain ⟨a', ha', hr⟩ := pairwise2_mem_right t hb'
      exact hq _ _ _ _ List.mem_cons_self (List.mem_cons_of_mem _ ha') h hr (h1 a' ha')

end Verif
