import Verif.Lemmas.Spans
/-
The tree of a record with a BGP4MP message: everything but the message body is plain.
-/
namespace Verif
open Spec

theorem plain_headerParts (m : Bytes) (n : Nat) (ty : UInt8) : Plain (headerParts m n ty) :=
  .group (by decide +kernel) (.cons (.leaf _ (by decide +kernel)) (.cons (.leaf _ (by decide +kernel)) (.leaf _ (by decide +kernel))))

theorem plain_mrtHeaderParts (t : Bytes) (ty sub : Nat) (l m : Bytes) : Plain (mrtHeaderParts t ty sub l m) := by
  unfold mrtHeaderParts
  refine .append (.cons (.leaf _ (by decide +kernel)) (.cons (.leaf _ (by decide +kernel)) (.cons (.leaf _ (by decide +kernel))
    (.leaf _ (by decide +kernel))))) ?_
  split
  · exact .leaf _ (by decide +kernel)
  · exact .nil

theorem headerBytes_parts {h : Header} {b : Bytes} (hb : HeaderBytes h b) :
    ∃ time len micros, time.length = 4 ∧ len.length = 4 ∧ (mrtExtended (entryNum h.type) = true → micros.length = 4) ∧
      (h.type = .bgp4mp ∨ h.type = .bgp4mpEt → partsBytes (mrtHeaderParts time (entryNum h.type) h.subtype.toNat len micros) = b) := by
  obtain ⟨time, micro, ty, sub, len⟩ := h
  cases micro with
  | none =>
    obtain ⟨h1, rfl⟩ := hb
    refine ⟨n32 time.toNat, n32 len.toNat, [0, 0, 0, 0], by simp [n32], by simp [n32], by simp, ?_⟩
    rintro (h | h)
    · simp only at h
      subst h
      simp [mrtHeaderParts, mrtExtended, entryNum]
    · exact absurd h h1
  | some m =>
    obtain ⟨h1, h2, rfl⟩ := hb
    simp only at h1
    subst h1
    refine ⟨n32 time.toNat, n32 (len.toNat + 4), n32 m.toNat, by simp [n32], by simp [n32], by simp [n32], ?_⟩
    intro _
    simp [mrtHeaderParts, mrtExtended, entryNum]

/-- the session of a BGP4MP message subtype -/
theorem parseBgp4Mp_message {sub : UInt16} {s : Bytes} {m : MpMessage} (h : parseBgp4Mp sub s = .ok (.message m)) :
    ∃ l ap t, parseMpMessage ap l t s = .ok m ∧ l.octets = mpAsnSize sub.toNat ∧ ap = mpAddPath sub.toNat ∧
      mpState sub.toNat = false ∧ sub.toNat ≠ 0 := by
  unfold parseBgp4Mp at h
  have hm : ∀ ap l t, mapOk Bgp4Mp.message (parseMpMessage ap l t s) = .ok (.message m) → parseMpMessage ap l t s = .ok m := by
    intro ap l t hx
    cases hp : parseMpMessage ap l t s with
    | error e => rw [hp] at hx; cases hx
    | ok v => rw [hp] at hx; cases hx; rfl
  have hs : ∀ l t, mapOk Bgp4Mp.stateChange (parseMpStateChange l t s) ≠ .ok (.message m) := by
    intro l t hx
    cases hp : parseMpStateChange l t s with
    | error e => rw [hp] at hx; cases hx
    | ok v => rw [hp] at hx; cases hx
  cases ht : MpType.ofU16? sub with
  | none => rw [ht] at h; cases h
  | some t =>
    rw [ht] at h
    simp only at h
    have hsub : sub = t.toU16 := by
      unfold MpType.ofU16? at ht
      repeat' split at ht
      all_goals first | (cases ht; assumption) | cases ht
    subst hsub
    clear ht
    cases t <;> simp only at h
    all_goals first
      | exact absurd h (hs _ _)
      | exact ⟨_, _, _, hm _ _ _ h, by decide, by decide, by decide, by decide⟩

theorem sel_find (x : String) (t : Node) : t.find x = (t.findAll x).head? := by
  rw [find_find?, findAll_filter, List.head?_filter]

/-- Everything in the tree of a record with a BGP4MP message that is not plain comes from the body of the message. -/
theorem record_tree {raw : Raw} {r : MrtRecord} {m : MpMessage} (hf : Frame raw raw.bytes) (hp : raw.parse = .ok r)
    (hm : r.message = .bgp4mp (.message m)) (hno : ∀ o, m.message ≠ .open o) :
    ∃ (l : AsnLen) (ap : Bool) (msgHead body post : Bytes) (ty : UInt8) (t : MsgType), msgHead.length = 19 ∧
      raw.bytes = raw.headerBytes ++ mpHeadBytes l m.peerAsn m.localAsn m.iface m.peerIp m.localIp ++ msgHead ++ body ++ post ∧
      MsgType.ofU8? ty = some t ∧ parseBody ap l t body = .ok m.message ∧
      ∀ ps, BodyParts l.octets ap ty ps → partsBytes ps = body → ∃ tree, TreeOf raw.bytes tree ∧
        tree.span = (0, raw.bytes.length) ∧ ∀ x, x ∉ plainFields → tree.findAll x =
          sel x (raw.headerBytes ++ mpHeadBytes l m.peerAsn m.localAsn m.iface m.peerIp m.localIp ++ msgHead).length ps := by
  obtain ⟨hh, _, _, _⟩ := hf
  unfold Raw.parse at hp
  cases hb : parseMrtBody raw.header.type raw.header.subtype raw.body with
  | error e => rw [hb] at hp; cases hp
  | ok mm =>
    rw [hb] at hp
    cases hp
    simp only at hm
    subst hm
    have hmp : (raw.header.type = .bgp4mp ∨ raw.header.type = .bgp4mpEt) ∧
        parseBgp4Mp raw.header.subtype raw.body = .ok (.message m) := by
      have key : ∀ y : Except Err Bgp4Mp, mapOk MrtMessage.bgp4mp y = .ok (.bgp4mp (.message m)) → y = .ok (.message m) := by
        intro y hy
        cases y with
        | error e => cases hy
        | ok v => cases hy; rfl
      unfold parseMrtBody at hb
      split at hb
      · split at hb <;> cases hb
      · rename_i y; cases hy : parseTableDumpV2 raw.header.subtype raw.body <;> rw [hy] at hb <;> cases hb
      · exact ⟨.inl (by assumption), key _ hb⟩
      · exact ⟨.inr (by assumption), key _ hb⟩
      · cases hy : parseLegacyBgp raw.header.subtype raw.body <;> rw [hy] at hb <;> cases hb
      · cases hb
    obtain ⟨hty, hb'⟩ := hmp
    obtain ⟨l, ap, t0, hmsg, ho, hap, hst, hs0⟩ := parseBgp4Mp_message hb'
    obtain ⟨_, fa, fb, msg, rr, hbgp, hlay⟩ := (parseMpMessage_iff ap l t0 raw.body m).mp hmsg
    obtain ⟨marker, len, ty, rest, t, hml, h19, hlen, hmsgeq, htype, _, hbody, rfl⟩ := (parseBgpMessage_iff _ _ _ _ _).mp hbgp
    have hz : ¬ (l = .b16 ∧ ZebraOpen raw.body) := by
      rintro ⟨rfl, as, ln, rs, ha, hl, he⟩
      rw [if_pos ⟨rfl, as, ln, rs, ha, hl, he⟩] at hlay
      rw [hlay.1] at he
      simp only [List.append_assoc] at he
      have h4 : (asnBytes .b16 m.peerAsn ++ asnBytes .b16 m.localAsn).length = as.length := by simp [asnBytes, n16, ha]
      rw [← List.append_assoc] at he
      obtain ⟨_, he⟩ := List.append_inj he h4
      rw [hmsgeq] at he
      simp only [List.append_assoc] at he
      obtain ⟨_, he⟩ := List.append_inj he (by simp [hml])
      obtain ⟨_, he⟩ := List.append_inj he (by simp [hl, n16])
      simp only [List.cons_append, List.nil_append, List.cons.injEq] at he
      obtain ⟨rfl, _⟩ := he
      have : t = .open := by
        have h1 : MsgType.ofU8? 1 = some .open := rfl
        rw [h1] at htype; cases htype; rfl
      subst this
      unfold parseBody at hbody
      simp only at hbody
      cases ho : parseOpen (rest.take (len - 19)) with
      | error e => rw [ho] at hbody; cases hbody
      | ok o => rw [ho] at hbody; simp only [mapOk, Except.ok.injEq] at hbody; exact hno o hbody.symm
    rw [if_neg hz] at hlay
    obtain ⟨hs, hv⟩ := hlay
    refine ⟨l, ap, marker ++ n16 len ++ [ty], rest.take (len - 19), rest.drop (len - 19), ty, t, by simp [hml, n16], ?_, htype,
      hbody, ?_⟩
    · rw [Raw.bytes, hs, hmsgeq]
      simp
    · intro ps hps hbs
      -- the message
      obtain ⟨mp, hmp, hmpb, hmps⟩ : ∃ mp : Part, BgpPart l.octets ap mp ∧ mp.bytes = msg ∧
          ∀ x base, x ∉ plainFields → sel x base [mp] = sel x (base + 19) ps := by
        have hsel : ∀ cut extra x base, x ∉ plainFields →
            sel x base [.msg (headerParts marker len ty) cut ps extra] = sel x (base + 19) ps := by
          intro cut extra x base hx
          rw [sel_msg, sel_plain (plain_headerParts _ _ _) hx, headerParts_bytes]
          · simp [hml, n16]
          · intro hin
            exact hx (by
              simp only [List.mem_cons, List.not_mem_nil, or_false] at hin
              rcases hin with rfl | rfl | rfl <;> decide +kernel)
        have hpl : (partsBytes ps).length = min (len - 19) rest.length := by rw [hbs, List.length_take]
        by_cases hle : len - 19 ≤ rest.length
        · refine ⟨.msg (headerParts marker len ty) false ps (rest.drop (len - 19)), ?_, ?_, hsel _ _⟩
          · exact .whole marker len ty ps _ hml hlen hps (by omega)
          · rw [msg_bytes, headerParts_bytes, hbs, hmsgeq]; simp
        · refine ⟨.msg (headerParts marker len ty) true ps [], ?_, ?_, hsel _ _⟩
          · exact .cut marker len ty ps hml hlen hps (by omega)
          · rw [msg_bytes, headerParts_bytes, hbs, hmsgeq, List.take_of_length_le (by omega)]; simp
      -- the BGP4MP fields
      rw [ho] at hmp
      rw [hap] at hmp
      obtain ⟨size, hsize, hpl, hql⟩ : ∃ size, (afiNum m.peerIp.afi, size) ∈ [(1, 4), (2, 16)] ∧ m.peerIp.octets.length = size ∧
          m.localIp.octets.length = size := by
        cases hpi : m.peerIp <;> cases hli : m.localIp <;> rw [hpi, hli] at hv <;> first | (cases hv; done) | skip
        · exact ⟨4, by simp [Ip.afi, afiNum], by simp [Ip.octets], by simp [Ip.octets]⟩
        · exact ⟨16, by simp [Ip.afi, afiNum], by simp [Ip.octets], by simp [Ip.octets]⟩
      let rest4 : List Part := [leaf "mrt.bgp4mp.interface_index" (n16 m.iface.toNat), leaf "mrt.bgp4mp.afi" (n16 (afiNum m.peerIp.afi)),
        leaf "mrt.bgp4mp.peer_ip" m.peerIp.octets, leaf "mrt.bgp4mp.local_ip" m.localIp.octets, mp]
      have hrest : MpRestParts raw.header.subtype.toNat rest4 :=
        .message _ _ size _ _ mp (by simp [n16]) hsize hpl hql hst hmp
      have hnm : ¬ startsWithMarker (partsBytes rest4) := by
        rintro ⟨tl, htl⟩
        have h3 : (partsBytes rest4)[2]? = some 0 := by
          simp only [rest4, partsBytes_cons, leaf_bytes]
          cases hpi : m.peerIp <;> simp [n16, Ip.afi, afiNum]
        rw [htl] at h3
        simp [List.getElem?_append] at h3
      have hfull : MpParts raw.header.subtype.toNat (leaf "mrt.bgp4mp.peer_asn" (asnBytes l m.peerAsn)
          :: leaf "mrt.bgp4mp.local_asn" (asnBytes l m.localAsn) :: rest4) :=
        .full _ _ _ (by rw [← ho]; cases l <;> rfl) (by rw [← ho]; cases l <;> rfl) hnm (fun h => hs0 h.1) hrest
      have hplain : Plain [leaf "mrt.bgp4mp.peer_asn" (asnBytes l m.peerAsn), leaf "mrt.bgp4mp.local_asn" (asnBytes l m.localAsn),
          leaf "mrt.bgp4mp.interface_index" (n16 m.iface.toNat), leaf "mrt.bgp4mp.afi" (n16 (afiNum m.peerIp.afi)),
          leaf "mrt.bgp4mp.peer_ip" m.peerIp.octets, leaf "mrt.bgp4mp.local_ip" m.localIp.octets] :=
        .cons (.leaf _ (by decide +kernel)) (.cons (.leaf _ (by decide +kernel)) (.cons (.leaf _ (by decide +kernel))
          (.cons (.leaf _ (by decide +kernel)) (.cons (.leaf _ (by decide +kernel)) (.leaf _ (by decide +kernel))))))
      have hbb : partsBytes (leaf "mrt.bgp4mp.peer_asn" (asnBytes l m.peerAsn)
          :: leaf "mrt.bgp4mp.local_asn" (asnBytes l m.localAsn) :: rest4) = raw.body := by
        simp only [rest4, partsBytes_cons, leaf_bytes, partsBytes_nil, List.append_nil, hmpb, hs, mpHeadBytes, List.append_assoc]
      obtain ⟨time, ln, micros, g1, g2, g3, g4⟩ := headerBytes_parts hh
      have g4 := g4 hty
      have hparts : MrtParts [.group "mrt.header" (mrtHeaderParts time (entryNum raw.header.type) raw.header.subtype.toNat ln micros),
          .group "mrt.bgp4mp" (leaf "mrt.bgp4mp.peer_asn" (asnBytes l m.peerAsn)
            :: leaf "mrt.bgp4mp.local_asn" (asnBytes l m.localAsn) :: rest4)] := by
        refine .full time _ _ ln micros _ g1 ?_ raw.header.subtype.toNat_lt g2 g3 ?_ (.bgp4mp _ ?_ hfull)
        · rcases hty with h | h <;> rw [h] <;> decide
        · rw [group_bytes, hbb, hs]
          intro h
          simp [mpHeadBytes, n16] at h
        · rcases hty with h | h <;> rw [h] <;> decide
      refine ⟨_, ⟨_, hparts, ?_, rfl⟩, rfl, ?_⟩
      · simp only [partsBytes_cons, group_bytes, partsBytes_nil, List.append_nil, hbb, g4]; rfl
      · intro x hx
        have hmrt : ¬ "mrt" = x := by rintro rfl; exact hx (by decide +kernel)
        have hmrt4 : ¬ "mrt.bgp4mp" = x := by rintro rfl; exact hx (by decide +kernel)
        rw [findAll_filter, nodesOf_mk, List.filter_cons, field_mk, if_neg (by simpa using hmrt)]
        show sel x 0 _ = _
        rw [sel_cons, sel_plain (.group (by decide +kernel) (plain_mrtHeaderParts _ _ _ _ _)) hx, List.nil_append,
          sel_group, if_neg hmrt4, List.nil_append, group_bytes, g4]
        have := sel_append x (0 + raw.headerBytes.length) [leaf "mrt.bgp4mp.peer_asn" (asnBytes l m.peerAsn),
          leaf "mrt.bgp4mp.local_asn" (asnBytes l m.localAsn),
          leaf "mrt.bgp4mp.interface_index" (n16 m.iface.toNat), leaf "mrt.bgp4mp.afi" (n16 (afiNum m.peerIp.afi)),
          leaf "mrt.bgp4mp.peer_ip" m.peerIp.octets, leaf "mrt.bgp4mp.local_ip" m.localIp.octets] [mp]
        simp only [List.cons_append, List.nil_append] at this
        rw [this, sel_plain hplain hx, hmps x _ hx]
        simp only [List.nil_append]
        congr 1
        simp [mpHeadBytes, hml, n16]
        omega

end Verif
