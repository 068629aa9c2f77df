import Verif.Lemmas.JsonAttrs
import Verif.Lemmas.RewriteMp
import Verif.Lemmas.MrtBody
import Verif.Spec.JsonAttrs
/-
What the parsers yield satisfies what C108 assumes of a value.
-/
namespace Verif
open Spec

theorem net_new {a : Ip} {l : UInt8} {p : IpNet} (h : IpNet.new? a l = some p) : NetOk p := by
  unfold IpNet.new? at h
  split at h
  · cases h; assumption
  · cases h

theorem net_family {afi : Afi} {p : IpNet} (hf : FamilyOk afi p.addr) (hl : LenOk afi p.len) : NetOk p := by
  obtain ⟨a, l⟩ := p
  cases afi <;> cases a <;> simp only [FamilyOk, LenOk, NetOk, Ip.maxLen] at hf hl ⊢ <;> first | exact hl | exact hf.elim | skip
  rw [hl]; decide

theorem net_list {afi : Afi} {ap : Bool} {s : Bytes} {ps : List NetworkPrefix} (h : parseNlriList afi ap s = .ok ps) :
    ∀ p ∈ ps, NetOk p.prefix_ := fun p hp =>
  let k := ((nlriLoop_sound _ _ _ _ _ id h).2 p hp).1
  net_family k.family k.len

theorem net_withdrawal {afi : Afi} {ap : Bool} : Yields (fun p : NetworkPrefix => NetOk p.prefix_) (rdLabeledWithdrawal afi ap) := by
  unfold rdLabeledWithdrawal
  refine .bind fun ⟨pid, bits, view⟩ => ?_
  simp only
  cases (rdN 3).orErr .truncatedLabeledNlri view with
  | error e => exact .fail e
  | ok v =>
    obtain ⟨x, rest⟩ := v
    simp only
    cases h : labeledTail afi bits 24 rest with
    | error e => exact .fail e
    | ok p =>
      obtain ⟨_, _, _, h1, h2, _⟩ := labeledTail_sound h
      exact .pure (net_family h1 h2)

theorem labeled_typed {afi : Afi} {cfg : LabelCfg} :
    Yields (fun p : LabeledPrefix => NetOk p.prefix_ ∧ ∀ l ∈ p.labels, l.toNat < 2 ^ 20) (rdLabeled afi cfg) := by
  intro s p r h
  obtain ⟨st, pf, e1, e2, e3, e4, e5, e6, e7, e8, e9⟩ := rdLabeled_sound h
  refine ⟨net_family e4 e5, ?_⟩
  cases hm : cfg.mode with
  | single =>
    simp only [hm] at e9
    obtain ⟨l, b, hl, hb⟩ := e9
    rw [hl]
    simpa using (labelBytes_facts hb).2
  | multi =>
    simp only [hm] at e9
    exact (stackBytes_facts e9.1).2.2

theorem lsPrefix_net {s : Bytes} {p : NetworkPrefix} (h : lsIpPrefix s = some p) : NetOk p.prefix_ := by
  cases s with
  | nil => cases h
  | cons len addr =>
    simp only [lsIpPrefix] at h
    split at h
    · cases h
    · split at h <;> (obtain ⟨q, hq, rfl⟩ := Option.map_eq_some_iff.mp h; exact net_new hq)

theorem prefixDesc_net : ∀ (ts : List Tlv16) (d : PrefixDesc), (∀ p, d.reach = some p → NetOk p.prefix_) →
    ∀ p, (ts.foldl PrefixDesc.add d).reach = some p → NetOk p.prefix_
  | [], _, h => h
  | t :: ts, d, h => by
    refine prefixDesc_net ts (d.add t) fun p hp => ?_
    unfold PrefixDesc.add at hp
    split at hp
    · exact h p hp
    · split at hp
      · split at hp <;> exact h p hp
      · split at hp
        · simp only at hp
          cases hl : lsIpPrefix t.value with
          | none => rw [hl] at hp; exact h p hp
          | some q => rw [hl] at hp; cases hp; exact lsPrefix_net hl
        · exact h p hp

theorem rdPrefixDesc_net : Yields (fun d : PrefixDesc => ∀ p, d.reach = some p → NetOk p.prefix_) rdPrefixDesc := by
  unfold rdPrefixDesc
  exact .bind fun ts => .pure (prefixDesc_net ts _ (by simp))

theorem lsNlriType_le (t : UInt16) : (lsNlriType t).toNat ≤ 7 := by unfold lsNlriType; split <;> simp_all
theorem lsProto_le (t : UInt8) : (lsProto t).toNat ≤ 9 := by unfold lsProto; split <;> simp_all

theorem lsNlri_typed (t : UInt16) : Yields LsNlriOk (rdLsNlri t) := by
  unfold rdLsNlri
  refine .bind fun rem => .ite (fun _ => .fail _) fun _ => .bind fun pr => .bind fun id => .bind fun l => .ite (fun _ => ?_) fun _ =>
    .ite (fun _ => ?_) fun _ => ?_
  · exact .bind fun r => .bind fun k => .pure ⟨lsNlriType_le _, lsProto_le _, by simp⟩
  · exact .bind' rdPrefixDesc_net fun d hd => .pure ⟨lsNlriType_le _, lsProto_le _, by rintro _ ⟨⟩; exact hd⟩
  · exact .pure ⟨lsNlriType_le _, lsProto_le _, by simp⟩

theorem runOn_some {p : Rd α} {s : Bytes} {a : α} (h : p.runOn s = .ok a) : ∃ r, p s = .ok (a, r) := by
  unfold Rd.runOn at h
  cases hp : p s with
  | error e => rw [hp] at h; cases h
  | ok v => obtain ⟨b, r⟩ := v; rw [hp] at h; cases h; exact ⟨r, rfl⟩

theorem lsEntry_typed : Yields LsNlriOk rdLsEntry := by
  unfold rdLsEntry
  refine .bind fun t => .bind fun l => .bind fun d => ?_
  intro s n r h
  cases hr : (rdLsNlri t).runOn d with
  | error e => rw [hr] at h; cases h
  | ok m =>
    rw [hr] at h
    cases h
    obtain ⟨x, hx⟩ := runOn_some hr
    exact lsNlri_typed t _ _ _ hx

theorem nlriBody_typed {a : Afi} {f : Safi} {nh : Option NextHop} {pfx : Option (List NetworkPrefix)} {z reach ap : Bool} {s : Bytes}
    {n : Nlri} (hp : ∀ ps, pfx = some ps → ∀ p ∈ ps, NetOk p.prefix_) (h : parseNlriBody a f nh pfx z reach ap s = .ok n) : NlriOk n := by
  unfold parseNlriBody at h
  split at h
  · cases h1 : rdReserved reach s with
    | error e => rw [h1] at h; cases h
    | ok v =>
      obtain ⟨⟨⟩, r⟩ := v
      rw [h1] at h
      simp only at h
      cases h2 : parseLsNlri r with
      | error e => rw [h2] at h; cases h
      | ok ls =>
        rw [h2] at h
        cases h
        exact ⟨by simp, by simp, by rintro _ ⟨⟩; exact whileGe_all lsEntry_typed h2, by simp⟩
  · split at h
    · split at h
      · cases h1 : rdReserved true s with
        | error e => rw [h1] at h; cases h
        | ok v =>
          obtain ⟨⟨⟩, r⟩ := v
          rw [h1] at h
          simp only at h
          cases h2 : parseLabeledNlri a (nlriLabelCfg ap) r with
          | error e => rw [h2] at h; cases h
          | ok ls =>
            rw [h2] at h
            cases h
            exact ⟨by simp, by rintro _ ⟨⟩; exact many_all labeled_typed h2, by simp, by simp⟩
      · cases h2 : parseLabeledWithdrawals a ap s with
        | error e => rw [h2] at h; cases h
        | ok ps =>
          rw [h2] at h
          cases h
          exact ⟨many_all net_withdrawal h2, by simp, by simp, by simp⟩
    · have key : ∀ {m : Nlri}, (match rdReserved reach s with
          | .error e => (.error e : Except Err Nlri)
          | .ok ((), r) =>
            match parseNlriList a ap r with
            | .error e => (.error e : Except Err Nlri)
            | .ok ps => (.ok ⟨a, f, nh, ps, none, none, none⟩ : Except Err Nlri)) = .ok m → NlriOk m := by
        intro m h
        cases h1 : rdReserved reach s with
        | error e => rw [h1] at h; cases h
        | ok v =>
          obtain ⟨⟨⟩, r⟩ := v
          rw [h1] at h
          simp only at h
          cases h2 : parseNlriList a ap r with
          | error e => rw [h2] at h; cases h
          | ok ps =>
            rw [h2] at h
            cases h
            exact ⟨net_list h2, by simp, by simp, by simp⟩
      cases pfx with
      | none => exact key h
      | some ps =>
        cases z with
        | true => exact key h
        | false => cases h; exact ⟨hp ps rfl, by simp, by simp, by simp⟩

theorem nlri_typed {a : Option Afi} {f : Option Safi} {pfx : Option (List NetworkPrefix)} {reach ap : Bool} {s : Bytes} {n : Nlri}
    (hp : ∀ ps, pfx = some ps → ∀ p ∈ ps, NetOk p.prefix_) (h : parseNlri a f pfx reach ap s = .ok n) : NlriOk n := by
  unfold parseNlri at h
  simp only at h
  split at h
  · cases h
  · exact nlriBody_typed hp h

theorem mapOk_eq {f : α → β} {x : Except ε α} {b : β} (h : mapOk f x = .ok b) : ∃ a, x = .ok a ∧ f a = b := by
  cases x with
  | error e => cases h
  | ok a => cases h; exact ⟨a, rfl, rfl⟩

theorem tunnelType_le (t : UInt16) : (tunnelType t).toNat ≤ 22 := by unfold tunnelType; split <;> simp_all
theorem subTlvType_ok (t : UInt8) : (subTlvType t).toNat ≤ 20 ∨ subTlvType t = 128 ∨ subTlvType t = 129 := by
  unfold subTlvType
  split
  · assumption
  · exact .inl (by decide)

theorem subTlv_typed : Yields (fun s : Tlv8 => s.type.toNat ≤ 20 ∨ s.type = 128 ∨ s.type = 129) rdSubTlv := by
  unfold rdSubTlv
  exact .bind fun rem => .ite (fun _ => .fail _) fun _ => .bind fun t => .bind fun l => .bind fun v => .pure (subTlvType_ok t)

theorem tunnel_typed :
    Yields (fun t : TunnelTlv => t.type.toNat ≤ 22 ∧ ∀ s ∈ t.subs, s.type.toNat ≤ 20 ∨ s.type = 128 ∨ s.type = 129) rdTunnelTlv := by
  unfold rdTunnelTlv
  refine .bind fun t => .bind fun l => .bind fun d => ?_
  refine .bind' (Q := fun subs : List Tlv8 => ∀ s ∈ subs, s.type.toNat ≤ 20 ∨ s.type = 128 ∨ s.type = 129) ?_ fun subs hs =>
    .pure ⟨tunnelType_le t, hs⟩
  intro s subs r h
  cases hm : many rdSubTlv d with
  | error e => rw [hm] at h; cases h
  | ok xs => rw [hm] at h; cases h; exact many_all subTlv_typed hm

theorem lsMap_typed {C : UInt16 → Prop} {codes : List UInt16} {m : List (UInt16 × Bytes)} (hc : ∀ c, C c → c ∈ codes)
    (h : (m.map Prod.fst).Nodup ∧ ∀ p ∈ m, C p.1) : LsMapOk codes m := ⟨h.1, fun e he => hc _ (h.2 e he)⟩

theorem ite_typed {c : Prop} [Decidable c] {x y : Except Err AttrVal} {v : AttrVal} {P : Prop} (hx : x = .ok v → P) (hy : y = .ok v → P) :
    (if c then x else y) = .ok v → P := by
  by_cases h : c
  · rw [if_pos h]; exact hx
  · rw [if_neg h]; exact hy

theorem mapOk_typed {f : α → AttrVal} {x : Except Err α} {v : AttrVal} (hx : ∀ a, x = .ok a → ValueOk (f a)) (h : mapOk f x = .ok v) :
    ValueOk v := by
  obtain ⟨a, ha, rfl⟩ := mapOk_eq h
  exact hx a ha

theorem parseAttrVal_typed {cfg : AttrCfg} {code : UInt8} {d : Bytes} {v : AttrVal}
    (hp : ∀ ps, cfg.prefixes = some ps → ∀ p ∈ ps, NetOk p.prefix_) : parseAttrVal cfg code d = .ok v → ValueOk v := by
  unfold parseAttrVal
  repeat' refine ite_typed ?_ ?_
  all_goals first
    | (intro h; cases h; exact trivial)
    | (intro h; cases h; done)
    | (refine mapOk_typed fun a ha => ?_
       first
       | exact trivial
       | exact nlri_typed hp ha
       | exact whileGe_all tunnel_typed ha
       | (have k := (parseLsAttr_back ha).1
          exact ⟨lsMap_typed (fun c h => List.mem_cons_of_mem _ h) k.node,
            lsMap_typed (fun c h => by
              have : ∀ c ∈ ([1088, 1089, 1090, 1091, 1092, 1093, 1094, 1095, 1096, 1097, 1098, 1099, 1100, 1101, 1102, 1103, 1114, 1115,
                1116, 1117, 1118, 1119, 1120, 1172, 1122] : List UInt16), c ∈ 0 :: linkAttrCodes := by decide +kernel
              exact this c h) k.link,
            lsMap_typed (fun c h => List.mem_cons_of_mem _ h) k.pfx⟩))

theorem decodeAttr_valueOk {cfg : AttrCfg} {code : UInt8} {d : Bytes} {v : AttrVal} {b : Bool}
    (hp : ∀ ps, cfg.prefixes = some ps → ∀ p ∈ ps, NetOk p.prefix_) (h : decodeAttr cfg code d = .ok (v, b)) : ValueOk v := by
  unfold decodeAttr at h
  split at h
  · cases h; exact trivial
  · split at h
    · cases h; exact trivial
    · split at h
      · cases h; exact trivial
      · split at h
        · rename_i x hx
          split at h
          · cases h
          · cases h; exact parseAttrVal_typed hp hx
        · cases h
        · cases h; exact trivial

theorem attrLoop_typed {cfg : AttrCfg} (hp : ∀ ps, cfg.prefixes = some ps → ∀ p ∈ ps, NetOk p.prefix_) :
    ∀ (fuel : Nat) (v w : VState) (s : Bytes) (as : List Attribute), attrLoop cfg fuel v s = .ok (as, w) → ∀ x ∈ as, ValueOk x.value
  | 0, v, w, s, as, h => by
    simp only [attrLoop] at h
    split at h <;> cases h
    simp
  | fuel + 1, v, w, s, as, h => by
    simp only [attrLoop] at h
    split at h
    · cases h; simp
    · split at h
      · cases h
      · split at h
        · cases h; simp
        · split at h
          · cases h
          · rename_i x bad hd
            split at h
            · cases h
            · rename_i as' v' hl
              cases h
              intro y hy
              rcases List.mem_cons.mp hy with rfl | hy
              · exact decodeAttr_valueOk hp hd
              · exact attrLoop_typed hp _ _ _ _ _ hl y hy

theorem attributes_typed {cfg : AttrCfg} {s : Bytes} {a : Attributes} (hp : ∀ ps, cfg.prefixes = some ps → ∀ p ∈ ps, NetOk p.prefix_)
    (h : parseAttributes cfg s = .ok a) : AttributesOk a := by
  unfold parseAttributes at h
  split at h
  · cases h
  · rename_i as v hl
    cases h
    exact attrLoop_typed hp _ _ _ _ _ hl

theorem readNlri_net {afi : Afi} {ap : Bool} {s : Bytes} {ps : List NetworkPrefix} (h : readNlri afi ap s = .ok ps) :
    ∀ p ∈ ps, NetOk p.prefix_ := by
  unfold readNlri at h
  split at h
  · cases h; simp
  · split at h
    · cases h
    · exact net_list h
  · exact net_list h

theorem nlriOrWarn_net {w ap : Bool} {s : Bytes} {ps : List NetworkPrefix} {ws : List Warning} (h : nlriOrWarn w ap s = .ok (ps, ws)) :
    ∀ p ∈ ps, NetOk p.prefix_ := by
  unfold nlriOrWarn at h
  split at h
  · rename_i hr; cases h; exact readNlri_net hr
  · cases h
  · cases h; simp

theorem warned_inner (ws : List Warning) (a : Attributes) : (ws.foldl Attributes.addWarning a).inner = a.inner := by
  rw [foldl_addWarning]

theorem update_typed {ap : Bool} {l : AsnLen} {s : Bytes} {u : Update} (h : parseUpdate ap l s = .ok u) : UpdateTyped u := by
  unfold parseUpdate at h
  split at h
  · cases h
  · split at h
    · cases h
    · rename_i h1
      split at h
      · cases h
      · split at h
        · cases h
        · rename_i h2
          split at h
          · cases h
          · rename_i h3
            cases h
            refine ⟨nlriOrWarn_net h1, ?_, nlriOrWarn_net h3⟩
            intro x hx
            rw [warned_inner, warned_inner] at hx
            exact attributes_typed (by simp) h2 x hx

theorem ribEntry_typed {ap : Bool} {afi : Afi} {safi : Safi} {p : NetworkPrefix} (hp : NetOk p.prefix_) :
    Yields (fun e : RibEntry => AttributesOk e.attributes) (rdRibEntry ap afi safi p) := by
  unfold rdRibEntry
  refine .bind fun rem => .ite (fun _ => .fail _) fun _ => .bind fun peer => .bind fun time => .bind fun pid => .bind fun len =>
    .bind fun _ => .bind fun d => ?_
  refine .bind' (Q := AttributesOk) ?_ fun a ha => .pure ha
  intro s a r h
  cases hm : parseAttributes ⟨.b32, ap, some afi, some safi, some [p]⟩ d with
  | error e => rw [hm] at h; cases h
  | ok b => rw [hm] at h; cases h; exact attributes_typed (by rintro _ ⟨⟩; simpa using hp) hm

theorem ribLoop_all {p : Rd RibEntry} {P : RibEntry → Prop} (hp : Yields P p) :
    ∀ (n : Nat) (s : Bytes) (es : List RibEntry), ribLoop p n s = .ok es → ∀ e ∈ es, P e
  | 0, s, es, h => by cases h; simp
  | n + 1, s, es, h => by
    simp only [ribLoop] at h
    split at h
    · cases h
    · cases h; simp
    · rename_i h1
      split at h
      · rename_i h2
        cases h
        intro e he
        rcases List.mem_cons.mp he with rfl | he
        · exact hp _ _ _ h1
        · exact ribLoop_all hp n _ _ h2 e he
      · cases h

theorem prefix_net {afi : Afi} {ap : Bool} : Yields (fun p : NetworkPrefix => NetOk p.prefix_) (tryParsePrefix afi ap) := fun _ _ _ h =>
  let k := (tryParsePrefix_sound h).1
  net_family k.family k.len

theorem ribAfi_typed {t : V2Type} {s : Bytes} {r : RibAfi} (h : parseRibAfi t s = .ok r) :
    NetOk r.prefix_.prefix_ ∧ ∀ e ∈ r.entries, AttributesOk e.attributes := by
  unfold parseRibAfi at h
  split at h
  · cases h
  · rename_i afi safi _
    obtain ⟨x, hx⟩ := runOn_some h
    revert hx
    suffices H : Yields (fun r : RibAfi => NetOk r.prefix_.prefix_ ∧ ∀ e ∈ r.entries, AttributesOk e.attributes)
        (do
          let seq ← rdU32
          let p ← tryParsePrefix afi false
          let n ← rdU16
          let rest ← Rd.peek
          let es ← Rd.lift (ribLoop (rdRibEntry t.addPath afi safi p) n.toNat rest)
          pure ⟨t, seq, p, es⟩ : Rd RibAfi) from H _ _ _
    refine .bind fun seq => .bind' prefix_net fun p hp => .bind fun n => .bind fun rest => ?_
    refine .bind' (Q := fun es : List RibEntry => ∀ e ∈ es, AttributesOk e.attributes) ?_ fun es he => .pure ⟨hp, he⟩
    intro s es r h
    cases hm : ribLoop (rdRibEntry t.addPath afi safi p) n.toNat rest with
    | error e => rw [hm] at h; cases h
    | ok b => rw [hm] at h; cases h; exact ribLoop_all (ribEntry_typed hp) _ _ _ hm

theorem fullPrefix_net (v4 : Bool) : Yields NetOk (rdFullPrefix v4) := by
  unfold rdFullPrefix
  refine .bind fun ip => .bind fun len => ?_
  cases h : IpNet.new? ip len with
  | none => exact .fail _
  | some n => exact .pure (net_new h)

theorem tableDump_typed (v4 : Bool) (view seq : UInt16) :
    Yields (fun m : TableDump => NetOk m.prefix_.prefix_ ∧ AttributesOk m.attributes) (rdTableDumpEntry v4 view seq) := by
  unfold rdTableDumpEntry
  refine .bind' (fullPrefix_net v4) fun p hp => .bind fun st => .bind fun t => .bind fun ip => .bind fun asn => .bind fun len =>
    .bind fun _ => .bind fun d => ?_
  refine .bind' (Q := AttributesOk) ?_ fun a ha => .pure ⟨hp, ha⟩
  intro s a r h
  cases hm : parseAttributes ⟨.b16, false, none, none, none⟩ d with
  | error e => rw [hm] at h; cases h
  | ok b => rw [hm] at h; cases h; exact attributes_typed (by simp) hm

theorem tableDumps_typed {t : UInt16} {s : Bytes} {ms : List TableDump} (h : parseTableDumps t s = .ok ms) :
    ∀ m ∈ ms, NetOk m.prefix_.prefix_ ∧ AttributesOk m.attributes := by
  unfold parseTableDumps at h
  split at h
  · obtain ⟨x, hx⟩ := runOn_some h
    revert hx
    suffices H : Yields (fun ms : List TableDump => ∀ m ∈ ms, NetOk m.prefix_.prefix_ ∧ AttributesOk m.attributes)
        (do
          let view ← rdU16
          let seq ← rdU16
          let rest ← Rd.peek
          let ms ← Rd.lift (many (rdTableDumpEntry (t = 1) view seq) rest)
          if ms.isEmpty then Rd.fail .truncated else pure ms : Rd (List TableDump)) from H _ _ _
    refine .bind fun view => .bind fun seq => .bind fun rest => ?_
    refine .bind' (Q := fun ms : List TableDump => ∀ m ∈ ms, NetOk m.prefix_.prefix_ ∧ AttributesOk m.attributes) ?_ fun ms hm =>
      .ite (fun _ => .fail _) fun _ => .pure hm
    intro s ms r h
    cases hm : many (rdTableDumpEntry (t = 1) view seq) rest with
    | error e => rw [hm] at h; cases h
    | ok b => rw [hm] at h; cases h; exact many_all (tableDump_typed _ _ _) hm
  · cases h

/-- what `UpdateTyped` says of a BGP message. -/
def BgpTyped : BgpMessage → Prop
  | .update u => UpdateTyped u
  | _ => True

theorem body_typed {ap : Bool} {l : AsnLen} {t : MsgType} {d : Bytes} {m : BgpMessage} (h : parseBody ap l t d = .ok m) : BgpTyped m := by
  cases t <;> simp only [parseBody] at h
  · obtain ⟨_, _, rfl⟩ := mapOk_eq h; exact trivial
  · obtain ⟨_, hu, rfl⟩ := mapOk_eq h; exact update_typed hu
  · obtain ⟨_, _, rfl⟩ := mapOk_eq h; exact trivial
  · cases h; exact trivial
  · obtain ⟨_, _, rfl⟩ := mapOk_eq h; exact trivial

theorem bgp_typed (ap : Bool) (l : AsnLen) : Yields BgpTyped (parseBgpMessage ap l) := by
  unfold parseBgpMessage
  refine .bind fun total => .bind fun _ => .bind fun _ => .bind fun len => .ite (fun _ => .fail _) fun _ => .bind fun ty => ?_
  cases MsgType.ofU8? ty with
  | none => exact .fail _
  | some t =>
    refine .ite (fun _ => .fail _) fun _ => .bind fun _ => .bind fun d => ?_
    intro s m r h
    cases hb : parseBody ap l t d with
    | error e => rw [hb] at h; cases h
    | ok b => rw [hb] at h; cases h; exact body_typed hb

theorem mp_typed {ap : Bool} {l : AsnLen} {t : MpType} {s : Bytes} {m : MpMessage} (h : parseMpMessage ap l t s = .ok m) :
    BgpTyped m.message := by
  unfold parseMpMessage at h
  obtain ⟨x, hx⟩ := runOn_some h
  rw [Rd.bind_eq_ok] at hx; obtain ⟨peer, _, _, hx⟩ := hx
  rw [Rd.bind_eq_ok] at hx; obtain ⟨loc, _, _, hx⟩ := hx
  split at hx
  · rw [Rd.bind_eq_ok] at hx; obtain ⟨b, _, hb, hx⟩ := hx
    cases hx
    exact bgp_typed _ _ _ _ _ hb
  · rw [Rd.bind_eq_ok] at hx; obtain ⟨_, _, _, hx⟩ := hx
    rw [Rd.bind_eq_ok] at hx; obtain ⟨_, _, _, hx⟩ := hx
    rw [Rd.bind_eq_ok] at hx; obtain ⟨_, _, _, hx⟩ := hx
    rw [Rd.bind_eq_ok] at hx; obtain ⟨_, _, _, hx⟩ := hx
    rw [Rd.bind_eq_ok] at hx; obtain ⟨_, _, _, hx⟩ := hx
    rw [Rd.bind_eq_ok] at hx; obtain ⟨_, _, _, hx⟩ := hx
    split at hx
    · cases hx
    · rw [Rd.bind_eq_ok] at hx; obtain ⟨b, _, hb, hx⟩ := hx
      cases hx
      exact bgp_typed _ _ _ _ _ hb

/-- the same for a BGP4MP message. -/
def MpTyped : Bgp4Mp → Prop
  | .message m => BgpTyped m.message
  | .stateChange _ => True

theorem bgp4mp_typed {t : UInt16} {s : Bytes} {m : Bgp4Mp} (h : parseBgp4Mp t s = .ok m) : MpTyped m := by
  unfold parseBgp4Mp at h
  split at h
  · cases h
  · split at h <;> (obtain ⟨_, hu, rfl⟩ := mapOk_eq h; first | exact trivial | exact mp_typed hu)

theorem legacyPayload_typed {t : UInt16} {s : Bytes} {m : BgpMessage} (h : parseLegacyPayload t s = .ok m) : BgpTyped m := by
  unfold parseLegacyPayload at h
  split at h
  · obtain ⟨_, hu, rfl⟩ := mapOk_eq h; exact update_typed hu
  · split at h
    · obtain ⟨_, hu, rfl⟩ := mapOk_eq h; exact trivial
    · split at h
      · obtain ⟨_, hu, rfl⟩ := mapOk_eq h; exact trivial
      · split at h <;> cases h
        exact trivial

/-- the same for a message of type 5. -/
def LegacyTyped : LegacyBgp → Prop
  | .message m => BgpTyped m.message
  | .stateChange _ => True

theorem legacy_typed {t : UInt16} {s : Bytes} {m : LegacyBgp} (h : parseLegacyBgp t s = .ok m) : LegacyTyped m := by
  unfold parseLegacyBgp at h
  split at h
  · obtain ⟨x, hx⟩ := runOn_some h
    rw [Rd.bind_eq_ok] at hx; obtain ⟨_, _, _, hx⟩ := hx
    rw [Rd.bind_eq_ok] at hx; obtain ⟨_, _, _, hx⟩ := hx
    rw [Rd.bind_eq_ok] at hx; obtain ⟨_, _, _, hx⟩ := hx
    rw [Rd.bind_eq_ok] at hx; obtain ⟨_, _, _, hx⟩ := hx
    rw [Rd.bind_eq_ok] at hx; obtain ⟨rest, _, _, hx⟩ := hx
    rw [Rd.bind_eq_ok] at hx; obtain ⟨b, _, hb, hx⟩ := hx
    cases hx
    cases hp : parseLegacyPayload t rest with
    | error e => rw [hp] at hb; cases hb
    | ok c => rw [hp] at hb; cases hb; exact legacyPayload_typed hp
  · split at h
    · obtain ⟨x, hx⟩ := runOn_some h
      rw [Rd.bind_eq_ok] at hx; obtain ⟨_, _, _, hx⟩ := hx
      rw [Rd.bind_eq_ok] at hx; obtain ⟨_, _, _, hx⟩ := hx
      rw [Rd.bind_eq_ok] at hx; obtain ⟨_, _, _, hx⟩ := hx
      rw [Rd.bind_eq_ok] at hx; obtain ⟨_, _, _, hx⟩ := hx
      rw [Rd.bind_eq_ok] at hx; obtain ⟨_, _, _, hx⟩ := hx
      split at hx
      · cases hx
      · cases hx; exact trivial
    · cases h

theorem tableDumpV2_typed {t : UInt16} {s : Bytes} {r : RibAfi} (h : parseTableDumpV2 t s = .ok (.ribAfi r)) :
    NetOk r.prefix_.prefix_ ∧ ∀ e ∈ r.entries, AttributesOk e.attributes := by
  unfold parseTableDumpV2 at h
  split at h
  · cases h
  · obtain ⟨_, _, hx⟩ := mapOk_eq h; cases hx
  · cases h
  · cases h
  · obtain ⟨_, _, hx⟩ := mapOk_eq h; cases hx
  · obtain ⟨_, hr, hx⟩ := mapOk_eq h; cases hx; exact ribAfi_typed hr

end Verif
