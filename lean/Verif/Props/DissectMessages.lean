import Verif.Props.DissectUpdate
import Verif.Model.DissectMessages
import Verif.Spec.DissectMessages
/-
C110 for the header of a message and for messages other than UPDATE.
-/
namespace Verif.Props
open Spec

theorem data_label {β : Type} (r : Bytes) (x : List β) : (if 0 < r.length then x else []) = if r = [] then [] else x := by
  cases r with
  | nil => rfl
  | cons a r => rw [if_pos (by simp), if_neg (by simp)]

/-- **C110** A NOTIFICATION is shown with the numbers of the error that the parser reads. -/
theorem c110_notification (s : Bytes) (m : Notification) (h : parseNotification s = .ok m) :
    notificationLabels s = notificationShown m := by
  rcases s with _ | ⟨c, _ | ⟨k, d⟩⟩
  · cases h
  · cases h
  · rw [parseNotification_cons] at h
    cases h
    have e := ((c18_error_numbers c k _).mp rfl).2
    unfold notificationLabels notificationShown
    dsimp only
    rw [e, data_label]
    rfl

/-- **C110** A ROUTE-REFRESH is shown as the parser reads it. -/
theorem c110_refresh (s : Bytes) (m : RouteRefresh) (h : parseRouteRefresh s = .ok m) : refreshLabels s = refreshShown m := by
  rcases s with _ | ⟨a, _ | ⟨b, _ | ⟨t, _ | ⟨k, d⟩⟩⟩⟩
  · cases h
  · cases h
  · cases h
  · cases h
  · have e : parseRouteRefresh (a :: b :: t :: k :: d) = .ok ⟨u16of a b, t, k, d⟩ := by
      have := c18_route_refresh_roundtrip ⟨u16of a b, t, k, d⟩
      rw [encodeRouteRefresh, be16_u16of] at this
      exact this
    rw [e] at h
    cases h
    unfold refreshLabels refreshShown
    dsimp only
    rw [data_label]
    rfl

theorem openLabels_cons (v a b h k i j m n o : UInt8) (r : Bytes) :
    openLabels (v :: a :: b :: h :: k :: i :: j :: m :: n :: o :: r) = [lit "Version: " ++ decText v.toNat,
      lit "My AS: " ++ decText (u16of a b).toNat, lit "Hold time: " ++ decText (u16of h k).toNat ++ lit "s",
      lit "BGP identifier: " ++ v4Text #v[i, j, m, n], lit "Optional parameters length: " ++ decText o.toNat] := rfl

/-- **C110** The fixed fields of an OPEN are shown as the parser reads them. -/
theorem c110_open (s : Bytes) (m : Open) (h : parseOpen s = .ok m) :
    ∃ n : UInt8, s[9]? = some n ∧ openLabels s = openShown m ++ ["Optional parameters length: ".toList ++ num n.toNat] := by
  unfold parseOpen at h
  cases h1 : rdOpenHead s with
  | error e => rw [h1] at h; cases h
  | ok x =>
    obtain ⟨⟨v, asn, hold, id, o⟩, r⟩ := x
    rw [h1] at h
    dsimp only at h
    cases h2 : parseOpenParams o r with
    | error e => rw [h2] at h; cases h
    | ok y =>
      rw [h2] at h
      cases h
      unfold rdOpenHead at h1
      rw [Rd.bind_eq_ok] at h1; obtain ⟨_, t0, k0, h1⟩ := h1
      rw [Rd.bind_eq_ok] at h1; obtain ⟨v', t1, k1, h1⟩ := h1
      rw [Rd.bind_eq_ok] at h1; obtain ⟨asn', t2, k2, h1⟩ := h1
      rw [Rd.bind_eq_ok] at h1; obtain ⟨hold', t3, k3, h1⟩ := h1
      rw [Rd.bind_eq_ok] at h1; obtain ⟨id', t4, k4, h1⟩ := h1
      rw [Rd.bind_eq_ok] at h1; obtain ⟨o', t5, k5, h1⟩ := h1
      cases h1
      have e0 : t0 = s := by
        simp only [needN] at k0
        split at k0 <;> cases k0
        rfl
      have e1 := rdU8_ok k1
      obtain ⟨a, b, e2, ea⟩ := rdU16_bytes k2
      obtain ⟨c, d, e3, eh⟩ := rdU16_bytes k3
      have e4 := rdVec_ok k4
      have e5 := rdU8_ok k5
      obtain ⟨p, q, u, w, hl⟩ := vec4_list id
      rw [hl] at e4
      subst e0 e5 e4 e3 e2 e1 ea eh
      refine ⟨o, rfl, ?_⟩
      have e6 := openLabels_cons v a b c d p q u w o r
      have e7 := v4Text_list hl
      unfold openShown
      refine e6.trans ?_
      rw [e7]
      have e8 : (u16of a b).toUInt32.toNat = (u16of a b).toNat := toU32_of16 _
      dsimp only
      rw [e8]
      rfl

/-- **C110** The header of a message that the parser reads: its length field, the type of the message returned, the octets
it occupies, and what the length field is off by. -/
theorem c110_header (ap : Bool) (l : AsnLen) (s : Bytes) (m : BgpMessage) (r : Bytes)
    (h : parseBgpMessage ap l s = .ok (m, r)) :
    ∃ (marker : Bytes) (len : Nat), s.take 16 = marker ∧ marker.length = 16 ∧ (s.drop 16).take 2 = n16 len ∧ len < 65536 ∧
      messageLabels s = ("BGP message (".toList ++ num (s.length - r.length) ++ " bytes)".toList,
        [(if marker = List.replicate 16 0xFF then "Marker (all ones)" else "Marker (NOT all ones — invalid per RFC 4271)").toList,
          "Length: ".toList ++ num len, "Type: ".toList ++ typeShown m.msgType],
        (if s.length < len then ["Declared length ".toList ++ num len ++ " exceeds the ".toList ++ num s.length ++
          " available bytes".toList] else []) ++
        (if r = [] then [] else ["Trailing bytes beyond the declared message (".toList ++ num r.length ++ " bytes)".toList])) := by
  obtain ⟨marker, len, ty, rest, t, hm, h19, hl, rfl, ht, _, hb, rfl⟩ := (parseBgpMessage_iff _ _ _ _ _).mp h
  have hd : (marker ++ n16 len ++ [ty] ++ rest).drop 16 = UInt8.ofNat (len / 256) :: UInt8.ofNat len :: ty :: rest := by
    rw [List.append_assoc, List.append_assoc, List.drop_left' hm]
    rfl
  have hk : (marker ++ n16 len ++ [ty] ++ rest).take 16 = marker := by
    rw [List.append_assoc, List.append_assoc, List.take_left' hm]
  have hlen : (marker ++ n16 len ++ [ty] ++ rest).length = 19 + rest.length := by
    simp [hm, n16]; omega
  refine ⟨marker, len, hk, hm, by rw [hd]; rfl, hl, ?_⟩
  have hty : lit "Type: " ++ msgTypeTitle ty ++ lit " (" ++ decText ty.toNat ++ lit ")" = "Type: ".toList ++ typeShown m.msgType := by
    have hmt : m.msgType = t := by
      cases t <;> simp only [parseBody] at hb
      case keepAlive =>
        first
          | (cases hb; rfl)
          | (split at hb <;> cases hb; rfl)
      all_goals
        obtain ⟨_, _, rfl⟩ := mapOk_from hb
        rfl
    rw [hmt]
    unfold MsgType.ofU8? at ht
    split at ht
    · cases ht; subst_vars; decide +kernel
    · split at ht
      · cases ht; subst_vars; decide +kernel
      · split at ht
        · cases ht; subst_vars; decide +kernel
        · split at ht
          · cases ht; subst_vars; decide +kernel
          · split at ht
            · cases ht; subst_vars; decide +kernel
            · cases ht
  have hmark : markerLabel marker =
      (if marker = List.replicate 16 0xFF then "Marker (all ones)" else "Marker (NOT all ones — invalid per RFC 4271)").toList := by
    unfold markerLabel
    by_cases hx : marker = List.replicate 16 0xFF
    · rw [if_pos hx, if_pos (by rw [hx]; decide)]; rfl
    · rw [if_neg hx, if_neg]
      · rfl
      · intro ha
        apply hx
        rw [List.all_eq_true] at ha
        exact List.eq_replicate_iff.mpr ⟨hm, fun b hb => by simpa using ha b hb⟩
  unfold messageLabels
  rw [hd]
  dsimp only
  rw [n16_number hl, hk, hty, hmark, hlen, List.length_drop]
  have a1 : 19 + rest.length - (rest.length - (len - 19)) = 19 + min (len - 19) rest.length := by omega
  have a2 : rest.length - min (len - 19) rest.length = rest.length - (len - 19) := by omega
  rw [a1, a2]
  have a3 : ∀ x : List (List Char), (if rest.length < len - 19 then x else []) = if 19 + rest.length < len then x else [] := by
    intro x; split <;> split <;> first | rfl | omega
  have a4 : ∀ x : List (List Char), (if min (len - 19) rest.length < rest.length then x else []) =
      if rest.drop (len - 19) = [] then [] else x := by
    intro x
    by_cases hx : rest.drop (len - 19) = []
    · have := List.drop_eq_nil_iff.mp hx
      rw [if_pos hx, if_neg (by omega)]
    · have : ¬ rest.length ≤ len - 19 := fun k => hx (List.drop_eq_nil_iff.mpr k)
      rw [if_neg hx, if_pos (by omega)]
  rw [a3, a4]
  rfl

/-- **C110** NOTIFICATION and ROUTE-REFRESH bodies, readable or not, have one label per node. -/
theorem c110_small_count (d : Bytes) (base : Nat) (n : Node) :
    (dissectNotification d base = some n → n.children.length = (notificationLabels d).length) ∧
    (dissectRouteRefresh d base = some n → n.children.length = (refreshLabels d).length) := by
  constructor
  · intro h
    unfold dissectNotification at h
    simp only [Option.bind_eq_bind, Option.bind_eq_some_iff] at h
    obtain ⟨c, h1, s, h2, x, h3, h4⟩ := h
    rw [mkNode_node h4]
    show (c ++ s ++ x).length = _
    rw [List.length_append, List.length_append, pushIf_length h1, pushIf_length h2, pushIf_length h3]
    rcases d with _ | ⟨a, _ | ⟨b, _ | ⟨e, r⟩⟩⟩ <;> simp [notificationLabels]
  · intro h
    unfold dissectRouteRefresh at h
    simp only [Option.bind_eq_bind, Option.bind_eq_some_iff] at h
    obtain ⟨c, h1, s, h2, x, h3, y, h4, h5⟩ := h
    rw [mkNode_node h5]
    show (c ++ s ++ x ++ y).length = _
    rw [List.length_append, List.length_append, List.length_append, pushIf_length h1, pushIf_length h2, pushIf_length h3,
      pushIf_length h4]
    rcases d with _ | ⟨a, _ | ⟨b, _ | ⟨e, _ | ⟨f, _ | ⟨g, r⟩⟩⟩⟩⟩ <;> simp [refreshLabels]

/-- the hypotheses are met: a KEEPALIVE with one octet after it. -/
example : ∃ m, parseBgpMessage false .b32 (List.replicate 16 0xFF ++ [0, 19, 4, 7]) = .ok (m, [7]) ∧ m.msgType = .keepAlive := ⟨_, rfl, rfl⟩
/-- the hypotheses are met: a NOTIFICATION (cease, shutdown) and an OPEN without parameters. -/
example : (∃ m, parseNotification [6, 2, 65] = .ok m) ∧ (∃ m, parseRouteRefresh [0, 1, 0, 1] = .ok m) ∧
    ∃ m, parseOpen [4, 0, 1, 0, 180, 10, 0, 0, 1, 0] = .ok m := ⟨⟨_, rfl⟩, ⟨_, rfl⟩, ⟨_, rfl⟩⟩

end Verif.Props
