import Verif.Props.DissectRecord
import Verif.Lemmas.MrtMsgs
import Verif.Lemmas.SpansRecord
import Verif.Model.DissectMp
import Verif.Spec.DissectMp
/-
C110 for the body of BGP4MP records.
-/
namespace Verif.Props
open Spec

theorem lowDigit_digit (n : Nat) (h : n < 16) : lowDigit n = ("0123456789abcdef".toList)[n % 16]?.getD ' ' := by
  have : ∀ n, n < 16 → lowDigit n = ("0123456789abcdef".toList)[n % 16]?.getD ' ' := by decide +kernel
  exact this n h

theorem fourHex_pair (a b : UInt8) :
    [lowDigit (a.toNat / 16), lowDigit (a.toNat % 16), lowDigit (b.toNat / 16), lowDigit (b.toNat % 16)] =
      fourHex (a.toNat * 256 + b.toNat) := by
  have ha := a.toNat_lt
  have hb := b.toNat_lt
  have e1 : (a.toNat * 256 + b.toNat) / 4096 % 16 = a.toNat / 16 % 16 := by omega
  have e2 : (a.toNat * 256 + b.toNat) / 256 % 16 = a.toNat % 16 % 16 := by omega
  have e3 : (a.toNat * 256 + b.toNat) / 16 % 16 = b.toNat / 16 % 16 := by omega
  have e4 : (a.toNat * 256 + b.toNat) % 16 = b.toNat % 16 % 16 := by omega
  simp only [fourHex, List.map_cons, List.map_nil, e1, e2, e3, e4]
  rw [lowDigit_digit _ (by omega), lowDigit_digit _ (by omega), lowDigit_digit _ (by omega), lowDigit_digit _ (by omega)]

theorem sixteen_list (l : Bytes) (h : l.length = 16) : ∃ a0 a1 a2 a3 a4 a5 a6 a7 a8 a9 b0 b1 b2 b3 b4 b5,
    l = [a0, a1, a2, a3, a4, a5, a6, a7, a8, a9, b0, b1, b2, b3, b4, b5] := by
  match l, h with
  | [a0, a1, a2, a3, a4, a5, a6, a7, a8, a9, b0, b1, b2, b3, b4, b5], _ =>
    exact ⟨_, _, _, _, _, _, _, _, _, _, _, _, _, _, _, _, rfl⟩

theorem renderIp_shown (ip : Ip) : renderIp ip.octets = ipShown ip := by
  cases ip with
  | v4 a =>
    obtain ⟨p, q, u, w, hl⟩ := vec4_list a
    show renderIp a.toList = v4Text a
    rw [v4Text_list hl, hl]
    rfl
  | v6 a =>
    obtain ⟨a0, a1, a2, a3, a4, a5, a6, a7, a8, a9, b0, b1, b2, b3, b4, b5, hl⟩ := sixteen_list a.toList (by simp)
    show renderIp a.toList = ipShown (.v6 a)
    simp only [ipShown]
    rw [hl]
    show joinSep [':'] (hexPairs [a0, a1, a2, a3, a4, a5, a6, a7, a8, a9, b0, b1, b2, b3, b4, b5]) = _
    simp only [hexPairs, fourHex_pair]
    simp [joinSep, List.range, List.range.loop, List.intercalate, List.intersperse]

theorem asnFront_bytes (l : AsnLen) (a : Asn) (r : Bytes) (h : AsnFits l a) :
    asnFront (decide (l = .b32)) (asnBytes l a ++ r) = some (a.toNat, r) := by
  cases l with
  | b16 =>
    have := n16_number (h rfl)
    exact congrArg (fun n => some (n, r)) this
  | b32 =>
    have := n32_number a.toNat_lt
    exact congrArg (fun n => some (n, r)) this

theorem addressLabels_bytes (i : UInt16) (p q : Ip) (r : Bytes) (h : q.isV4 = p.isV4) :
    addressLabels (n16 i.toNat ++ n16 (afiNum p.afi) ++ p.octets ++ q.octets ++ r) = (endsShown i p q, some r) := by
  have hi := n16_number i.toNat_lt
  have hp := renderIp_shown p
  have hq := renderIp_shown q
  have main : ∀ k n, n = (if k = 1 then 4 else 16) → (k = 1 ∨ k = 2) → p.octets.length = n → q.octets.length = n →
      addressLabels (n16 i.toNat ++ n16 k ++ p.octets ++ q.octets ++ r) =
        ([lit "Interface index: " ++ decText i.toNat, lit "Address family: " ++ decText k ++ lit " (" ++
          (if k = 1 then lit "IPv4" else if k = 2 then lit "IPv6" else lit "unknown") ++ lit ")"] ++
          [lit "Peer IP: " ++ ipShown p, lit "Local IP: " ++ ipShown q], some r) := by
    intro k n hn hk l1 l2
    subst hn
    have hkn := n16_number (n := k) (by omega)
    have e1 : (p.octets ++ (q.octets ++ r)).take (if k = 1 then 4 else 16) = p.octets := List.take_left' l1
    have e2 : (p.octets ++ (q.octets ++ r)).drop (if k = 1 then 4 else 16) = q.octets ++ r := List.drop_left' l1
    have e3 : (q.octets ++ r).take (if k = 1 then 4 else 16) = q.octets := List.take_left' l2
    have e4 : (q.octets ++ r).drop (if k = 1 then 4 else 16) = r := List.drop_left' l2
    have e5 : ¬ (p.octets ++ (q.octets ++ r)).length < 2 * (if k = 1 then 4 else 16) := by simp only [List.length_append, l1, l2]; omega
    simp only [List.append_assoc]
    simp only [n16, List.cons_append, List.nil_append, addressLabels, hi, hkn, if_pos hk, if_neg e5, e1, e2, e3, e4, hp, hq]
    simp only [List.append_assoc]
  cases p with
  | v4 a =>
    cases q with
    | v6 b => cases h
    | v4 b =>
      refine (main 1 4 rfl (.inl rfl) (by simp [Ip.octets]) (by simp [Ip.octets])).trans ?_
      have : lit "Address family: " ++ decText 1 ++ lit " (" ++ lit "IPv4" ++ lit ")" = "Address family: 1 (IPv4)".toList := by
        decide +kernel
      simp only [if_pos, this]
      rfl
  | v6 a =>
    cases q with
    | v4 b => cases h
    | v6 b =>
      refine (main 2 16 rfl (.inr rfl) (by simp [Ip.octets]) (by simp [Ip.octets])).trans ?_
      have : lit "Address family: " ++ decText 2 ++ lit " (" ++ lit "IPv6" ++ lit ")" = "Address family: 2 (IPv6)".toList := by
        decide +kernel
      have h21 : ¬ (2 = 1) := by decide
      simp only [if_neg h21, if_pos, this]
      rfl

/-- the interface and the address family are not the beginning of a marker. -/
theorem not_marker (i : Nat) (p : Ip) (t : Bytes) :
    ¬ (16 ≤ (n16 i ++ n16 (afiNum p.afi) ++ t).length ∧ ((n16 i ++ n16 (afiNum p.afi) ++ t).take 16).all (· == 0xFF) = true) := by
  rintro ⟨_, h⟩
  cases p with
  | v4 a => simp [n16, Ip.afi, afiNum] at h
  | v6 a => simp [n16, Ip.afi, afiNum] at h

theorem mpLabels_rest (sub : Nat) (l : AsnLen) (a b : Asn) (rest : Bytes) (hl : mpFour sub = decide (l = .b32))
    (ha : AsnFits l a) (hb : AsnFits l b) :
    mpLabels sub (asnBytes l a ++ (asnBytes l b ++ rest)) =
      if 16 ≤ rest.length ∧ (rest.take 16).all (· == 0xFF) then
        ⟨asnsShown a b ++ [lit "Missing interface/AFI/address fields (old Zebra record)"], some (rest, l, mpAddPath sub)⟩
      else if (sub = 0 ∨ sub = 5) ∧ decide (l = .b32) = false ∧ (asnBytes l a ++ (asnBytes l b ++ rest)).length = 8 then
        ⟨asnsShown a b ++ stateLabels rest, none⟩
      else match addressLabels rest with
        | (ls, none) => ⟨asnsShown a b ++ ls, none⟩
        | (ls, some r) => if sub = 0 ∨ sub = 5 then ⟨asnsShown a b ++ ls ++ stateLabels r, none⟩
            else ⟨asnsShown a b ++ ls, some (r, l, mpAddPath sub)⟩ := by
  have e1 : decide (sub = 4 ∨ sub = 5 ∨ sub = 7 ∨ sub = 9 ∨ sub = 11) = decide (l = .b32) := by
    rw [← hl]; simp [mpFour]
  have e2 : decide (8 ≤ sub ∧ sub ≤ 11) = mpAddPath sub := by
    unfold mpAddPath
    rw [decide_eq_decide]
    simp only [List.mem_cons, List.not_mem_nil, or_false]
    omega
  have e3 : (if decide (l = .b32) = true then AsnLen.b32 else AsnLen.b16) = l := by cases l <;> rfl
  simp only [mpLabels, e1, e2, e3, asnFront_bytes l _ _ ha, asnFront_bytes l _ _ hb]
  rfl

theorem replicate_marker (r : Bytes) : 16 ≤ (List.replicate 16 (0xFF : UInt8) ++ r).length ∧
    ((List.replicate 16 (0xFF : UInt8) ++ r).take 16).all (· == 0xFF) = true := by
  refine ⟨by simp, ?_⟩
  rw [List.take_left' (by simp)]
  decide

/-- **C110** A BGP4MP message that the parser reads: AS numbers, interface, family and addresses are shown as the parser
reads them, and the octets dissected as the BGP message are those that the parser reads it from, with the same width of AS
numbers and the same expectation of path identifiers. A Zebra record, without interface and addresses, is shown as such. -/
theorem c110_mp_message (sub : UInt16) (s : Bytes) (m : MpMessage) (h : parseBgp4Mp sub s = .ok (.message m)) :
    ∃ (l : AsnLen) (ap : Bool) (msg r : Bytes), parseBgpMessage ap l msg = .ok (m.message, r) ∧
      (mpLabels sub.toNat s).message = some (msg, l, ap) ∧
      ((¬ (l = .b16 ∧ ZebraOpen s) ∧
          (mpLabels sub.toNat s).fields = asnsShown m.peerAsn m.localAsn ++ endsShown m.iface m.peerIp m.localIp) ∨
        (l = .b16 ∧ ZebraOpen s ∧ (mpLabels sub.toNat s).fields = asnsShown m.peerAsn m.localAsn ++
          ["Missing interface/AFI/address fields (old Zebra record)".toList])) := by
  obtain ⟨l, ap, t, hp, ho, hap, hst, _⟩ := parseBgp4Mp_message h
  obtain ⟨_, ha, hb, msg, r, hm, hs⟩ := (parseMpMessage_iff _ _ _ _ _).mp hp
  have hl : mpFour sub.toNat = decide (l = .b32) := by
    unfold mpAsnSize at ho
    cases l with
    | b16 => cases hf : mpFour sub.toNat with
      | false => rfl
      | true => rw [hf] at ho; cases ho
    | b32 => cases hf : mpFour sub.toNat with
      | true => rfl
      | false => rw [hf] at ho; cases ho
  have hns : ¬ (sub.toNat = 0 ∨ sub.toNat = 5) := by
    intro k
    have : mpState sub.toNat = true := by rcases k with k | k <;> rw [k] <;> rfl
    rw [this] at hst; cases hst
  refine ⟨l, ap, msg, r, hm, ?_⟩
  by_cases hz : l = .b16 ∧ ZebraOpen s
  · rw [if_pos hz] at hs
    obtain ⟨hs, _⟩ := hs
    obtain ⟨rfl, as, len, rest, h1, h2, h3⟩ := hz
    have hmsg : msg = List.replicate 16 0xFF ++ (len ++ [1] ++ rest) := by
      have e : (asnBytes .b16 m.peerAsn ++ asnBytes .b16 m.localAsn ++ msg).drop 4 = msg := List.drop_left' rfl
      rw [← e, ← hs, h3, List.append_assoc, List.append_assoc, List.append_assoc, List.drop_left' h1, List.append_assoc]
    have hk := replicate_marker (len ++ [1] ++ rest)
    rw [← hmsg] at hk
    have hx := mpLabels_rest sub.toNat .b16 m.peerAsn m.localAsn msg hl ha hb
    rw [if_pos hk, ← List.append_assoc, ← hs, ← hap] at hx
    rw [hx]
    exact ⟨rfl, .inr ⟨rfl, ⟨as, len, rest, h1, h2, h3⟩, rfl⟩⟩
  · rw [if_neg hz] at hs
    obtain ⟨hs, hv⟩ := hs
    have hx := mpLabels_rest sub.toNat l m.peerAsn m.localAsn
      (n16 m.iface.toNat ++ n16 (afiNum m.peerIp.afi) ++ m.peerIp.octets ++ m.localIp.octets ++ msg) hl ha hb
    have hq := not_marker m.iface.toNat m.peerIp (m.peerIp.octets ++ (m.localIp.octets ++ msg))
    simp only [← List.append_assoc] at hq
    have hq2 : ¬ ((sub.toNat = 0 ∨ sub.toNat = 5) ∧ decide (l = .b32) = false ∧
        (asnBytes l m.peerAsn ++ (asnBytes l m.localAsn ++
          (n16 m.iface.toNat ++ n16 (afiNum m.peerIp.afi) ++ m.peerIp.octets ++ m.localIp.octets ++ msg))).length = 8) :=
      fun k => hns k.1
    rw [if_neg hq, if_neg hq2, addressLabels_bytes _ _ _ _ hv] at hx
    dsimp only at hx
    rw [if_neg hns, ← hap] at hx
    have es : asnBytes l m.peerAsn ++ (asnBytes l m.localAsn ++
        (n16 m.iface.toNat ++ n16 (afiNum m.peerIp.afi) ++ m.peerIp.octets ++ m.localIp.octets ++ msg)) = s := by
      rw [hs, mpHeadBytes]; simp only [List.append_assoc]
    rw [es] at hx
    rw [hx]
    exact ⟨rfl, .inl ⟨hz, rfl⟩⟩

theorem parseBgp4Mp_stateChange {sub : UInt16} {s : Bytes} {m : MpStateChange} (h : parseBgp4Mp sub s = .ok (.stateChange m)) :
    ∃ l t, parseMpStateChange l t s = .ok m ∧ mpFour sub.toNat = decide (l = .b32) ∧ (sub.toNat = 0 ∨ sub.toNat = 5) := by
  unfold parseBgp4Mp at h
  have hm : ∀ l t, mapOk Bgp4Mp.stateChange (parseMpStateChange l t s) = .ok (.stateChange m) → parseMpStateChange l t s = .ok m := by
    intro l t hx
    cases hp : parseMpStateChange l t s with
    | error e => rw [hp] at hx; cases hx
    | ok v => rw [hp] at hx; cases hx; rfl
  have hs : ∀ ap l t, mapOk Bgp4Mp.message (parseMpMessage ap l t s) ≠ .ok (.stateChange m) := by
    intro ap l t hx
    cases hp : parseMpMessage ap l t s with
    | error e => rw [hp] at hx; cases hx
    | ok v => rw [hp] at hx; cases hx
  cases ht : MpType.ofU16? sub with
  | none => rw [ht] at h; cases h
  | some t =>
    rw [ht] at h
    simp only at h
    have hsub : sub = t.toU16 := by
      unfold MpType.ofU16? at ht
      repeat' split at ht
      all_goals first | (cases ht; assumption) | cases ht
    subst hsub
    clear ht
    cases t <;> simp only at h
    all_goals first
      | exact absurd h (hs _ _ _)
      | exact ⟨_, _, hm _ _ h, by decide, by decide⟩

theorem state_text (b : BgpState) (h : NamedState b) : decText (stateNum b) ++ lit " (" ++ stateTitle (stateNum b) ++ lit ")" = stateShown b := by
  obtain ⟨h1, h2⟩ := h
  cases b <;> first | exact absurd rfl h1 | exact absurd rfl h2 | decide +kernel

theorem stateLabels_bytes (o n : BgpState) (r : Bytes) (ho : NamedState o) (hn : NamedState n) :
    stateLabels (n16 (stateNum o) ++ (n16 (stateNum n) ++ r)) = statesShown o n := by
  have lt : ∀ b, stateNum b < 65536 := by intro b; cases b <;> decide
  have e1 := state_text o ho
  have e2 := state_text n hn
  unfold statesShown
  rw [← e1, ← e2]
  simp only [n16, List.cons_append, List.nil_append, stateLabels, n16_number (lt o), n16_number (lt n), List.append_assoc]
  rfl

/-- **C110** A BGP4MP state change that the parser reads is shown as the parser reads it; the form of eight octets without
interface and addresses. Missing: the states Clearing and Deleted (see `c110_violation_state`). -/
theorem c110_mp_state_partial (sub : UInt16) (s : Bytes) (m : MpStateChange) (h : parseBgp4Mp sub s = .ok (.stateChange m))
    (ho : NamedState m.old) (hn : NamedState m.new) :
    mpLabels sub.toNat s = ⟨asnsShown m.peerAsn m.localAsn ++
      (if sub.toNat = 0 ∧ s.length = 8 then [] else endsShown m.iface m.peerIp m.localIp) ++ statesShown m.old m.new, none⟩ := by
  obtain ⟨l, t, hp, hl, hst⟩ := parseBgp4Mp_stateChange h
  obtain ⟨_, ha, hb, hs⟩ := (parseMpStateChange_iff _ _ _ _).mp hp
  have h16 : l = .b16 ↔ sub.toNat = 0 := by
    rcases hst with k | k <;> rw [k] at hl ⊢ <;> cases l <;> revert hl <;> decide
  by_cases hz : l = .b16 ∧ s.length = 8
  · rw [if_pos hz] at hs
    obtain ⟨hs, _⟩ := hs
    obtain ⟨rfl, h8⟩ := hz
    have hx := mpLabels_rest sub.toNat .b16 m.peerAsn m.localAsn (n16 (stateNum m.old) ++ (n16 (stateNum m.new) ++ [])) hl ha hb
    have es : asnBytes .b16 m.peerAsn ++ (asnBytes .b16 m.localAsn ++ (n16 (stateNum m.old) ++ (n16 (stateNum m.new) ++ []))) = s := by
      rw [hs]; simp only [List.append_assoc, List.append_nil]
    rw [es] at hx
    have hq : ¬ (16 ≤ (n16 (stateNum m.old) ++ (n16 (stateNum m.new) ++ [])).length ∧
        ((n16 (stateNum m.old) ++ (n16 (stateNum m.new) ++ [])).take 16).all (· == 0xFF) = true) := by
      rintro ⟨k, _⟩; simp [n16] at k
    have hq2 : (sub.toNat = 0 ∨ sub.toNat = 5) ∧ decide (AsnLen.b16 = .b32) = false ∧ s.length = 8 := ⟨hst, rfl, h8⟩
    have hq3 : sub.toNat = 0 ∧ s.length = 8 := ⟨h16.mp rfl, h8⟩
    rw [if_neg hq, if_pos hq2, stateLabels_bytes _ _ _ ho hn] at hx
    rw [hx, if_pos hq3, List.append_nil]
  · rw [if_neg hz] at hs
    obtain ⟨hv, r, hs⟩ := hs
    have hx := mpLabels_rest sub.toNat l m.peerAsn m.localAsn
      (n16 m.iface.toNat ++ n16 (afiNum m.peerIp.afi) ++ m.peerIp.octets ++ m.localIp.octets ++
        (n16 (stateNum m.old) ++ (n16 (stateNum m.new) ++ r))) hl ha hb
    have es : asnBytes l m.peerAsn ++ (asnBytes l m.localAsn ++ (n16 m.iface.toNat ++ n16 (afiNum m.peerIp.afi) ++
        m.peerIp.octets ++ m.localIp.octets ++ (n16 (stateNum m.old) ++ (n16 (stateNum m.new) ++ r)))) = s := by
      rw [hs, mpHeadBytes]; simp only [List.append_assoc]
    rw [es] at hx
    have hq : ¬ (16 ≤ (n16 m.iface.toNat ++ n16 (afiNum m.peerIp.afi) ++ m.peerIp.octets ++ m.localIp.octets ++
        (n16 (stateNum m.old) ++ (n16 (stateNum m.new) ++ r))).length ∧
        ((n16 m.iface.toNat ++ n16 (afiNum m.peerIp.afi) ++ m.peerIp.octets ++ m.localIp.octets ++
        (n16 (stateNum m.old) ++ (n16 (stateNum m.new) ++ r))).take 16).all (· == 0xFF) = true) := by
      have := not_marker m.iface.toNat m.peerIp (m.peerIp.octets ++ (m.localIp.octets ++ (n16 (stateNum m.old) ++ (n16 (stateNum m.new) ++ r))))
      simp only [List.append_assoc] at this ⊢
      exact this
    have hq2 : ¬ ((sub.toNat = 0 ∨ sub.toNat = 5) ∧ decide (l = .b32) = false ∧ s.length = 8) := by
      rintro ⟨_, k, k8⟩
      refine hz ⟨?_, k8⟩
      cases l with
      | b16 => rfl
      | b32 => cases k
    have hq3 : ¬ (sub.toNat = 0 ∧ s.length = 8) := fun k => hz ⟨h16.mpr k.1, k.2⟩
    rw [if_neg hq, if_neg hq2, addressLabels_bytes _ _ _ _ hv] at hx
    dsimp only at hx
    rw [if_pos hst, stateLabels_bytes _ _ _ ho hn] at hx
    rw [hx, if_neg hq3]

/-- **C110** fails for two states: the parser reads Clearing, the dissection shows an unknown state. -/
theorem c110_violation_state : ∃ (s : Bytes) (m : MpStateChange), parseBgp4Mp 0 s = .ok (.stateChange m) ∧ m.new = .clearing ∧
    "New state: 7 (Unknown)".toList ∈ (mpLabels 0 s).fields :=
  ⟨[0, 1, 0, 2, 0, 6, 0, 7], _, rfl, rfl, by decide +kernel⟩

/-- the hypotheses are met: a session goes down. -/
example : ∃ m, parseBgp4Mp 0 [0, 1, 0, 2, 0, 0, 0, 1, 10, 0, 0, 1, 10, 0, 0, 2, 0, 6, 0, 1] = .ok (.stateChange m) ∧
    NamedState m.old ∧ NamedState m.new := ⟨_, rfl, ⟨nofun, nofun⟩, ⟨nofun, nofun⟩⟩
/-- the hypotheses are met: a KEEPALIVE between two IPv4 peers. -/
example : ∃ m, parseBgp4Mp 1 ([0, 1, 0, 2, 0, 0, 0, 1, 10, 0, 0, 1, 10, 0, 0, 2] ++ List.replicate 16 0xFF ++ [0, 19, 4]) =
    .ok (.message m) := ⟨_, rfl⟩

end Verif.Props
