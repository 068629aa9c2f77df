import Verif.Lemmas.LsAccess
/-
C95, C96: reading link-state and tunnel attributes through their methods.
-/
namespace Verif.Props
open Spec

/-! ### C95 -/

/-- C95. The methods return what the last TLV of their type on the wire says; everything else is kept in order. -/
theorem c95_read {ts : List Tlv16} {s : Bytes} (h : Entries Tlv16Bytes ts s) :
    ∃ a, parseLsAttr s = .ok a ∧ LsReads (lastOf · ts) (lastOf · ts) (lastOf · ts) a ∧
      a.unknown = ts.filter (fun t => decide (¬ LsNodeCode t.type ∧ ¬ LsLinkCode t.type ∧ ¬ LsPrefixCode t.type)) := by
  refine ⟨_, (parseLsAttr_iff s _).mpr ⟨ts, h, rfl⟩, lsReads_of ?_ ?_ ?_, ?_⟩
  · intro k hk
    rw [(mapGet_fold k ts).1, if_pos]
    simp only [List.mem_cons, List.not_mem_nil, or_false] at hk
    rcases hk with rfl | rfl <;> decide
  · intro k hk
    rw [(mapGet_fold k ts).2.1, if_pos]
    simp only [List.mem_cons, List.not_mem_nil, or_false] at hk
    rcases hk with rfl | rfl | rfl | rfl | rfl | rfl | rfl | rfl | rfl | rfl | rfl <;> decide
  · rw [(mapGet_fold 1155 ts).2.2, if_pos (by decide)]
  · rw [unknown_fold]; rfl

/-- C95. Whatever is accepted is such a sequence. -/
theorem c95_accepted {s : Bytes} {a : LsAttr} (h : parseLsAttr s = .ok a) : ∃ ts, Entries Tlv16Bytes ts s :=
  let ⟨ts, h, _⟩ := (parseLsAttr_iff s a).mp h
  ⟨ts, h⟩

/-- C95. After any sequence of calls the methods return what the last call for their type has set. -/
theorem c95_calls (cs : List LsCall) :
    LsReads (lastOf · (nodeCalls cs)) (lastOf · (linkCalls cs)) (lastOf · (prefixCalls cs)) (cs.foldl LsAttr.call .new) ∧
    (cs.foldl LsAttr.call .new).unknown = unknownCalls cs :=
  ⟨lsReads_of (fun k _ => (calls_maps cs k).1) (fun k _ => (calls_maps cs k).2.1) (calls_maps cs 1155).2.2.1,
    (calls_maps cs 0).2.2.2⟩

/-- C95. The IGP metric of a link, unless it is in one octet with one of its upper two bits set. -/
theorem c95_metric_partial {ts : List Tlv16} {s : Bytes} {a : LsAttr} {v : Bytes} {m : Nat} (h : Entries Tlv16Bytes ts s)
    (hp : parseLsAttr s = .ok a) (hl : lastOf 1095 ts = some v) (hv : MetricValue m v)
    (hx : ∀ x : UInt8, v = [x] → x.toNat < 64) : a.igpMetric.map UInt32.toNat = some m := by
  obtain ⟨a', ha', hr, _⟩ := c95_read h
  rw [hp] at ha'; cases ha'
  rw [hr.igpMetric]
  show (lastOf 1095 ts).bind _ = _
  rw [hl, Option.bind_some]
  rcases hv with ⟨x, rfl, rfl⟩ | ⟨hm, rfl⟩ | ⟨hm, rfl⟩
  · have := hx x rfl
    rw [if_pos (by simp), Nat.mod_eq_of_lt this]; simp [numOf]
  · rw [if_pos (by simp [n16])]; simp [numOf, n16]; omega
  · rw [if_pos (by simp)]; simp [numOf]; omega

/-- C95, refuted: bits of a small metric that must be ignored are part of the number returned. -/
theorem c95_violation_small_metric {ts : List Tlv16} {s : Bytes} {a : LsAttr} {x : UInt8} (h : Entries Tlv16Bytes ts s)
    (hp : parseLsAttr s = .ok a) (hl : lastOf 1095 ts = some [x]) (hx : 64 ≤ x.toNat) :
    MetricValue (x.toNat % 64) [x] ∧ a.igpMetric.map UInt32.toNat ≠ some (x.toNat % 64) := by
  refine ⟨.inl ⟨x, rfl, rfl⟩, ?_⟩
  obtain ⟨a', ha', hr, _⟩ := c95_read h
  rw [hp] at ha'; cases ha'
  rw [hr.igpMetric]
  show (lastOf 1095 ts).bind _ ≠ _
  rw [hl, Option.bind_some, if_pos (by simp)]
  simp [numOf]
  omega

/-- C95. Router ids of a link are never found among its link attributes: those of the local node are node attributes,
those of the remote node unknown ones. -/
theorem c95_router_ids {ts : List Tlv16} {s : Bytes} {a : LsAttr} (h : Entries Tlv16Bytes ts s)
    (hp : parseLsAttr s = .ok a) :
    (∀ k ∈ ([1028, 1029, 1030, 1031] : List UInt16), mapGet k a.link = none) ∧
    (∀ k ∈ ([1028, 1029] : List UInt16), mapGet k a.node = lastOf k ts) ∧
    (∀ t ∈ ts, t.type = 1030 ∨ t.type = 1031 → t ∈ a.unknown) := by
  obtain ⟨a', ha', _, hu⟩ := c95_read h
  rw [hp] at ha'; cases ha'
  obtain ⟨ts', h', rfl⟩ := (parseLsAttr_iff s a).mp hp
  have e : ts' = ts := by
    obtain ⟨b, r, rfl, hb, hr⟩ := h
    obtain ⟨b', r', e, hb', hr'⟩ := h'
    have h1 := (Exact.whileGe (n := 4) (by decide) exact_rdLsTlv (fun a c => tlv16_length) (b ++ r) ts).mpr ⟨b, r, rfl, hb, hr⟩
    have h2 := (Exact.whileGe (n := 4) (by decide) exact_rdLsTlv (fun a c => tlv16_length) (b ++ r) ts').mpr ⟨b', r', e, hb', hr'⟩
    rw [h1] at h2; cases h2; rfl
  subst e
  refine ⟨?_, ?_, ?_⟩
  · intro k hk
    rw [(mapGet_fold k ts').2.1, if_neg]
    simp only [List.mem_cons, List.not_mem_nil, or_false] at hk
    rcases hk with rfl | rfl | rfl | rfl <;> decide
  · intro k hk
    rw [(mapGet_fold k ts').1, if_pos]
    simp only [List.mem_cons, List.not_mem_nil, or_false] at hk
    rcases hk with rfl | rfl <;> decide
  · intro t ht hk
    rw [hu, List.mem_filter]
    refine ⟨ht, ?_⟩
    rcases hk with hk | hk <;> rw [hk] <;> decide

/-- node name "r1" (after an earlier "x"), metric 70 in one octet, delay 5 with the anomalous bit set, a remote router
id. -/
def exLs : List Tlv16 := [⟨1026, [0x78]⟩, ⟨1095, [70]⟩, ⟨1114, [0x80, 0, 0, 5]⟩, ⟨1030, [10, 0, 0, 1]⟩, ⟨1026, [0x72, 0x31]⟩]

/-- the same on the wire, with two octets behind. -/
def exLsBytes : Bytes := [4, 2, 0, 1, 0x78] ++ ([4, 0x47, 0, 1, 70] ++ ([4, 0x5a, 0, 4, 0x80, 0, 0, 5] ++
  ([4, 6, 0, 4, 10, 0, 0, 1] ++ ([4, 2, 0, 2, 0x72, 0x31] ++ []))))

example : Entries Tlv16Bytes exLs (exLsBytes ++ [0, 0]) ∧ lastOf 1095 exLs = some [70] ∧
    (match parseLsAttr (exLsBytes ++ [0, 0]) with
      | .ok a => decide (a.nodeName = some [0x72, 0x31] ∧ a.igpMetric = some 70 ∧ a.linkDelay = some 5 ∧
          a.unknown = [⟨1030, [10, 0, 0, 1]⟩] ∧ a.linkName = none)
      | .error _ => false) = true := by
  refine ⟨⟨_, [0, 0], rfl, ?_, by decide⟩, by decide, by decide⟩
  exact .cons ⟨_, ⟨by decide, rfl⟩, rfl⟩ (.cons ⟨_, ⟨by decide, rfl⟩, rfl⟩ (.cons ⟨_, ⟨by decide, rfl⟩, rfl⟩
    (.cons ⟨_, ⟨by decide, rfl⟩, rfl⟩ (.cons ⟨_, ⟨by decide, rfl⟩, rfl⟩ .nil))))

example : let a := [LsCall.link 1088 [0, 0, 0, 1], .prefix_ 1155 [0, 0, 3, 232], .link 1088 [0, 0, 0, 255, 9]].foldl LsAttr.call .new
    a.adminGroup = some 255 ∧ a.prefixMetric = some 1000 ∧ a.maxBandwidth = none := by decide

example : MetricValue 258 [1, 2] ∧ MetricValue 66051 [1, 2, 3] :=
  ⟨.inr (.inl ⟨by decide, by decide⟩), .inr (.inr ⟨by decide, by decide⟩)⟩

/-! ### C96 -/

theorem leading2 (v : Bytes) :
    (match v with | a :: b :: _ => some (u16of a b) | _ => none : Option UInt16).map UInt16.toNat = leading 2 v := by
  unfold leading
  split
  · rename_i a b r
    have := a.toNat_lt; have := b.toNat_lt
    simp [numOf, u16of]; omega
  · rename_i h
    rw [if_neg]
    · rfl
    · intro hl
      match v, hl with
      | a :: b :: r, _ => exact h a b r rfl

theorem tunnelReads_of {t : TunnelTlv} {subs : List Tlv8}
    (h : ∀ k : UInt8, k ∈ [6, 4, 8, 12] → t.sub k = firstOf k subs) : TunnelReads subs t where
  endpoint := by
    intro ip
    rw [← h 6 (by decide), TunnelTlv.endpoint]
    cases t.sub 6 with
    | none => simp
    | some v =>
      simp only [Option.bind_some, Option.some.injEq]
      constructor
      · intro e
        split at e
        · cases e; rfl
        · split at e
          · cases e; rfl
          · cases e
      · rintro rfl
        cases ip with
        | v4 o => rw [dif_pos (by simp [Ip.octets])]; rfl
        | v6 o => rw [dif_neg (by simp [Ip.octets]), dif_pos (by simp [Ip.octets])]; rfl
  color := by rw [← h 4 (by decide)]; exact bind_map_eq firstU32_spec
  port := by rw [← h 8 (by decide)]; exact bind_map_eq leading2
  preference := by rw [← h 12 (by decide)]; exact bind_map_eq firstU32_spec

/-- C96. The tunnels of the wire in order, each with its sub-TLVs; the methods return what the first sub-TLV of their
type says. -/
theorem c96_read (s : Bytes) (ts : List TunnelTlv) :
    parseTunnel s = .ok ts ↔ ∃ raw, Entries TunnelBytes raw s ∧ ts = raw.map knownTypes := parseTunnel_iff s ts

theorem c96_methods (raw : TunnelTlv) : TunnelReads raw.subs (knownTypes raw) := by
  refine tunnelReads_of fun k hk => ?_
  rw [sub_firstOf]
  simp only [List.mem_cons, List.not_mem_nil, or_false] at hk
  rcases hk with rfl | rfl | rfl | rfl <;> exact firstOf_known (by decide) (by decide) _

/-- C96. The same for a tunnel built by calls. -/
theorem c96_calls (k : UInt16) (subs : List Tlv8) :
    (subs.foldl TunnelTlv.addSub (.new k)).type = k ∧ (subs.foldl TunnelTlv.addSub (.new k)).subs = subs ∧
    TunnelReads subs (subs.foldl TunnelTlv.addSub (.new k)) := by
  have h : subs.foldl TunnelTlv.addSub (.new k) = ⟨k, subs⟩ := by
    induction subs using snocInduction with
    | h0 => rfl
    | h1 xs x ih => rw [List.foldl_append, ih]; rfl
  rw [h]
  exact ⟨rfl, rfl, tunnelReads_of fun k _ => sub_firstOf _ k⟩

/-- C96. `get_tunnels_by_type` gives the tunnels of the type, all of them, in order. -/
theorem c96_by_type (ts : List TunnelTlv) (k : UInt16) :
    (tunnelsByType ts k).Sublist ts ∧ (∀ t ∈ tunnelsByType ts k, t.type = k) ∧
    (∀ us : List TunnelTlv, us.Sublist ts → (∀ t ∈ us, t.type = k) → us.Sublist (tunnelsByType ts k)) ∧
    (hasTunnelType ts k = true ↔ ∃ t ∈ ts, t.type = k) := by
  unfold tunnelsByType hasTunnelType
  refine ⟨List.filter_sublist, fun t ht => by simpa using (List.mem_filter.mp ht).2, fun us hu ha => ?_, by simp⟩
  have h := hu.filter (fun t => t.type == k)
  rwa [List.filter_eq_self.mpr (fun t ht => by simpa using ha t ht)] at h

/-- C96. The UDP destination port. -/
theorem c96_port {subs : List Tlv8} {t : TunnelTlv} (h : TunnelReads subs t) {v : Bytes} {p : UInt16}
    (hf : firstOf 8 subs = some v) (hv : PortValue p v) : t.udpPort = some p := by
  have e := h.port
  rw [hf, Option.bind_some] at e
  unfold PortValue at hv
  subst hv
  have hp := p.toNat_lt
  have : leading 2 (n16 p.toNat) = some p.toNat := by
    simp [leading, n16, numOf]; omega
  rw [this] at e
  cases hu : t.udpPort with
  | none => rw [hu] at e; cases e
  | some q =>
    rw [hu] at e
    simp only [Option.map_some, Option.some.injEq] at e
    rw [UInt16.toNat_inj.mp e]

/-- C96, refuted: no egress endpoint in the form of RFC 9012 is returned. -/
theorem c96_violation_endpoint {subs : List Tlv8} {t : TunnelTlv} (h : TunnelReads subs t) {v : Bytes} {ip : Ip}
    (hf : firstOf 6 subs = some v) (hv : EndpointValue ip v) : t.endpoint = none := by
  cases ht : t.endpoint with
  | none => rfl
  | some j =>
    have e := (h.endpoint j).mp ht
    rw [hf] at e
    obtain ⟨rsv, hl, rfl⟩ := hv
    have := congrArg (Option.map List.length) e
    cases ip <;> cases j <;> simp [Ip.octets, n16, hl] at this

/-- C96, refuted: for a Color sub-TLV in the form of RFC 9012 the number returned does not depend on the colour: it is
made of the type of the community and its flags. -/
theorem c96_violation_color {subs : List Tlv8} {t : TunnelTlv} (h : TunnelReads subs t) {v : Bytes} {c : UInt32}
    (hf : firstOf 4 subs = some v) (hv : ColorValue c v) :
    ∃ f1 f2 : UInt8, v.take 4 = [3, 0x0b, f1, f2] ∧
      t.color.map UInt32.toNat = some (0x030b0000 + f1.toNat * 256 + f2.toNat) := by
  obtain ⟨f1, f2, rfl⟩ := hv
  refine ⟨f1, f2, rfl, ?_⟩
  rw [h.color, hf, Option.bind_some]
  simp [leading, n32, numOf]
  omega

/-- C96, refuted: for a Preference sub-TLV in the form of RFC 9830 the number returned is made of the flags, the reserved
octet and the upper half of the preference. -/
theorem c96_violation_preference {subs : List Tlv8} {t : TunnelTlv} (h : TunnelReads subs t) {f r : UInt8} {p : UInt32}
    (hf : firstOf 12 subs = some ([f, r] ++ n32 p.toNat)) :
    PreferenceValue p ([f, r] ++ n32 p.toNat) ∧
    t.preference.map UInt32.toNat = some (f.toNat * 16777216 + r.toNat * 65536 + p.toNat / 65536) := by
  refine ⟨⟨f, r, rfl⟩, ?_⟩
  have := p.toNat_lt
  rw [h.preference, hf, Option.bind_some]
  simp [leading, n32, numOf]
  omega

/-- a VXLAN tunnel with an endpoint, a colour, a port and a preference as in the RFCs, and a sub-TLV of an unknown type;
then a tunnel of an unknown type. -/
def exTunnels : List TunnelTlv := [⟨8, [⟨6, [0, 0, 0, 0, 0, 1, 10, 0, 0, 1]⟩, ⟨4, [3, 0x0b, 0, 0, 0, 0, 0, 7]⟩, ⟨8, [0x12, 0xb5]⟩,
  ⟨12, [0, 0, 0, 0, 0, 100]⟩, ⟨200, [1]⟩]⟩, ⟨99, []⟩]

/-- the sub-TLVs of the first of them. -/
def exSubBytes : Bytes := [6, 10, 0, 0, 0, 0, 0, 1, 10, 0, 0, 1] ++ ([4, 8, 3, 0x0b, 0, 0, 0, 0, 0, 7] ++ ([8, 2, 0x12, 0xb5] ++
  ([12, 6, 0, 0, 0, 0, 0, 100] ++ ([200, 0, 1, 1] ++ []))))

def exTunnelBytes : Bytes := (n16 8 ++ (n16 38 ++ exSubBytes)) ++ ((n16 99 ++ (n16 0 ++ [])) ++ [])

example : Entries TunnelBytes exTunnels exTunnelBytes ∧
    (match parseTunnel exTunnelBytes with
      | .ok ts => decide (ts.map (fun t => (t.type, t.endpoint, t.color, t.udpPort, t.preference)) =
          [(8, none, some 0x030b0000, some 4789, some 0), (0, none, none, none, none)])
      | .error _ => false) = true ∧
    EndpointValue (.v4 #v[10, 0, 0, 1]) [0, 0, 0, 0, 0, 1, 10, 0, 0, 1] ∧ ColorValue 7 [3, 0x0b, 0, 0, 0, 0, 0, 7] ∧
    PortValue 4789 [0x12, 0xb5] := by
  refine ⟨⟨_, [], (List.append_nil _).symm, ?_, by decide⟩, by decide, ⟨[0, 0, 0, 0], rfl, rfl⟩, ⟨0, 0, rfl⟩, rfl⟩
  refine .cons ⟨exSubBytes, _, ?_, ⟨by decide, rfl⟩, rfl⟩ (.cons ⟨[], _, .nil, ⟨by decide, rfl⟩, rfl⟩ .nil)
  exact .cons ⟨_, ⟨by decide, rfl⟩, rfl⟩ (.cons ⟨_, ⟨by decide, rfl⟩, rfl⟩ (.cons ⟨_, ⟨by decide, rfl⟩, rfl⟩
    (.cons ⟨_, ⟨by decide, rfl⟩, rfl⟩ (.cons ⟨_, ⟨by decide, rfl⟩, rfl⟩ .nil))))

example : (TunnelTlv.mk 8 [⟨6, [10, 0, 0, 1]⟩, ⟨4, [0, 0, 0, 7]⟩]).endpoint = some (.v4 #v[10, 0, 0, 1]) ∧
    hasTunnelType [⟨8, []⟩, ⟨2, []⟩] 2 = true ∧ tunnelsByType [⟨8, []⟩, ⟨2, []⟩, ⟨8, [⟨4, []⟩]⟩] 8 = [⟨8, []⟩, ⟨8, [⟨4, []⟩]⟩] := by decide

end Verif.Props
