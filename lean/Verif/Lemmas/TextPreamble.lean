import Verif.Lemmas.TextTable
import Verif.Props.Utf8
/-
The preamble of a text dump.
-/
namespace Verif
open Spec

theorem splitOnce_spec {pat : Bytes} : ∀ {s x y : Bytes}, splitOnce pat s = some (x, y) → s = x ++ pat ++ y
  | [], _, _, h => by simp [splitOnce] at h
  | b :: r, x, y, h => by
    unfold splitOnce at h
    by_cases hp : pat.isPrefixOf (b :: r) = true
    · rw [if_pos hp] at h
      simp only [Option.some.injEq, Prod.mk.injEq] at h
      obtain ⟨rfl, rfl⟩ := h
      obtain ⟨t, ht⟩ := List.isPrefixOf_iff_prefix.mp hp
      rw [← ht]; simp
    · rw [if_neg hp] at h
      simp only [Option.map_eq_some_iff, Prod.mk.injEq, Prod.exists] at h
      obtain ⟨x', y', h1, rfl, rfl⟩ := h
      rw [splitOnce_spec h1]; rfl

theorem splitOnce_first {u v : Bytes} {z : UInt8} (hu : z ∉ u) (b : Bytes) : ∀ (a : Bytes), z ∉ a →
    splitOnce (u ++ z :: v) (a ++ (u ++ z :: v) ++ b) = some (a, b)
  | [], _ => by
    rw [List.nil_append]
    cases hs : u ++ z :: v ++ b with
    | nil => simp at hs
    | cons c r =>
      unfold splitOnce
      rw [if_pos (List.isPrefixOf_iff_prefix.mpr (by rw [← hs]; exact List.prefix_append _ _)), ← hs, List.drop_left]
  | x :: a, ha => by
    show splitOnce _ (x :: (a ++ (u ++ z :: v) ++ b)) = _
    unfold splitOnce
    rw [if_neg, splitOnce_first hu b a (fun h => ha (by simp [h]))]
    · rfl
    · rw [List.isPrefixOf_iff_prefix]
      rintro ⟨t, ht⟩
      have e : (u ++ z :: v ++ t)[u.length]? = (x :: (a ++ (u ++ z :: v) ++ b))[u.length]? := by rw [ht]
      rw [List.append_assoc, List.getElem?_append_right (Nat.le_refl _), Nat.sub_self, List.cons_append, List.getElem?_cons_zero,
        show x :: (a ++ (u ++ z :: v) ++ b) = (x :: a ++ u) ++ (z :: v ++ b) by simp,
        List.getElem?_append_left (by simp; omega)] at e
      have := List.mem_of_getElem? e.symm
      rcases List.mem_append.mp this with h | h
      · exact ha h
      · exact hu h

theorem splitOnce_none {pat : Bytes} {z : UInt8} (hz : z ∈ pat) : ∀ (s : Bytes), z ∉ s → splitOnce pat s = none
  | [], _ => rfl
  | b :: r, h => by
    unfold splitOnce
    rw [if_neg, splitOnce_none hz r (fun hr => h (by simp [hr]))]
    · rfl
    · rw [List.isPrefixOf_iff_prefix]
      intro hp
      exact h (hp.subset hz)

/-- the text of the line with the table version. -/
def versionText (v r z : Bytes) : Bytes :=
  ascii "BGP table version is " ++ v ++ ascii ", local router ID is " ++ r ++ ascii "," ++ z

/-- the text of the line with the AS number. -/
def localAsText (p n : Bytes) : Bytes := ascii "Default local pref " ++ p ++ ascii ", local AS " ++ n

theorem versionLine_ip {env : DumpEnv} (hs : AddrSyntax env) {v r z : Bytes} {ip : Ip} (hv : ∀ b ∈ v, 48 ≤ b.toNat ∧ b.toNat ≤ 57)
    (hr : env.ipAddr r = some ip) (h : DumpHeader) :
    ∃ tv, versionLine env h (versionText v r z) = { h with tableVersion := tv, routerId := some ip } := by
  have hra := (hs.addr r ip hr).2
  have h44 : (44 : UInt8) ∉ v := by
    intro hm
    have := hv 44 hm
    revert this; decide
  have hr44 : (44 : UInt8) ∉ r := by
    intro hm
    have := hra 44 hm
    revert this; unfold AddrChar; decide
  have e1 : versionText v r z = ascii "BGP table version is " ++ (v ++ ([] ++ 44 :: []) ++ (ascii " local router ID is " ++ r ++ [44] ++ z)) := by
    have : ascii ", local router ID is " = 44 :: ascii " local router ID is " := by decide
    have h2 : ascii "," = [44] := by decide
    unfold versionText
    rw [this, h2]; simp
  have e2 : ascii " local router ID is " ++ r ++ [44] ++ z = [32] ++ (ascii "local router " ++ 73 :: ascii "D is ") ++ (r ++ [44] ++ z) := by
    have : ascii " local router ID is " = [32] ++ (ascii "local router " ++ 73 :: ascii "D is ") := by decide
    rw [this]; simp
  have epat : ascii "local router ID is " = ascii "local router " ++ 73 :: ascii "D is " := by decide
  have key : ∃ z', splitSecond (ascii "local router ID is ") (ascii " local router ID is " ++ r ++ [44] ++ z) = some (r ++ [44] ++ z') := by
    unfold splitSecond
    rw [e2, epat, splitOnce_first (by decide) _ [32] (by decide)]
    simp only [Option.map_some]
    cases ho : splitOnce (ascii "local router " ++ 73 :: ascii "D is ") (r ++ [44] ++ z) with
    | none => exact ⟨z, rfl⟩
    | some xy =>
      obtain ⟨x, y⟩ := xy
      have hxy := splitOnce_spec ho
      by_cases hlen : (r ++ [44]).length ≤ x.length
      · have : r ++ [44] <+: x :=
          List.prefix_of_prefix_length_le (l₃ := r ++ [44] ++ z) (List.prefix_append _ _)
            (by rw [hxy, List.append_assoc]; exact List.prefix_append _ _) hlen
        obtain ⟨z', hz'⟩ := this
        exact ⟨z', by rw [← hz']⟩
      · exfalso
        have e : (r ++ [44] ++ z)[x.length]? = (x ++ (ascii "local router " ++ 73 :: ascii "D is ") ++ y)[x.length]? := by rw [hxy]
        rw [List.getElem?_append_left (by omega), List.append_assoc, List.getElem?_append_right (Nat.le_refl _), Nat.sub_self] at e
        have hl : ascii "local router " = 108 :: ascii "ocal router " := by decide
        rw [hl, List.cons_append, List.cons_append, List.getElem?_cons_zero] at e
        have := List.mem_of_getElem? e
        rcases List.mem_append.mp this with h | h
        · have := hra 108 h; revert this; unfold AddrChar; decide
        · revert h; decide
  obtain ⟨z', hz'⟩ := key
  have hrt : trim r = r := trim_graphic (hs.graphic hr).2
  refine ⟨parseDec 18446744073709551616 (trim v), ?_⟩
  unfold versionLine
  rw [e1, if_pos (List.isPrefixOf_iff_prefix.mpr (List.prefix_append _ _)), show (21 : Nat) = (ascii "BGP table version is ").length by decide,
    List.drop_left]
  have hfst := splitOnce_first (u := []) (v := []) (z := 44) (by simp) (ascii " local router ID is " ++ r ++ [44] ++ z) v h44
  simp only [List.nil_append] at hfst ⊢
  rw [hfst]
  simp only [hz']
  have := splitOnce_first (u := []) (v := []) (z := 44) (by simp) z' r hr44
  simp only [List.nil_append] at this
  rw [this]
  simp only [hrt, hr]

theorem localAsLine_as {p n : Bytes} {a : UInt32} (hp : ∀ b ∈ p, 48 ≤ b.toNat ∧ b.toNat ≤ 57) (hn : Digits n a.toNat) (h : DumpHeader) :
    localAsLine h (localAsText p n) = { h with localAs := some a } := by
  have epat : ascii "local AS " = ascii "local " ++ 65 :: ascii "S " := by decide
  have d65 : ∀ t : Bytes, (∀ b ∈ t, 48 ≤ b.toNat ∧ b.toNat ≤ 57) → (65 : UInt8) ∉ t := by
    intro t ht hm
    have := ht 65 hm
    revert this; decide
  have e1 : localAsText p n = (ascii "Default local pref " ++ p ++ ascii ", ") ++ (ascii "local " ++ 65 :: ascii "S ") ++ n := by
    have : ascii ", local AS " = ascii ", " ++ (ascii "local " ++ 65 :: ascii "S ") := by decide
    unfold localAsText
    rw [this]; simp
  have ha : (65 : UInt8) ∉ ascii "Default local pref " ++ p ++ ascii ", " := by
    simp only [List.mem_append, not_or]
    exact ⟨⟨by decide, d65 p hp⟩, by decide⟩
  have e2 : splitSecond (ascii "local AS ") (localAsText p n) = some n := by
    unfold splitSecond
    rw [e1, epat, splitOnce_first (by decide) n _ ha]
    simp only [Option.map_some]
    rw [splitOnce_none (z := 65) (by simp) n (d65 n hn.2.1)]
  unfold localAsLine
  rw [if_pos, e2]
  · simp only [trim_graphic (digits_graphic hn), decU32_digits hn]
  · rw [List.isPrefixOf_iff_prefix]
    have : ascii "Default local pref " = ascii "Default local pref" ++ [32] := by decide
    unfold localAsText
    rw [this]
    simp only [List.append_assoc]
    exact List.prefix_append _ _

theorem versionLine_other {env : DumpEnv} {h : DumpHeader} {t : Bytes} (ht : ¬ ascii "BGP table version is " <+: t) : versionLine env h t = h := by
  unfold versionLine
  rw [if_neg fun hp => ht (List.isPrefixOf_iff_prefix.mp hp)]

theorem localAsLine_other {h : DumpHeader} {t : Bytes} (ht : ¬ ascii "Default local pref" <+: t) : localAsLine h t = h := by
  unfold localAsLine
  rw [if_neg fun hp => ht (List.isPrefixOf_iff_prefix.mp hp)]

theorem columnHeader_none {t : Bytes} (h : ∀ c, ¬ ColumnsAt t c) : columnHeader t = none := by
  cases hc : columnHeader t with
  | none => rfl
  | some c => exact absurd ((columnHeader_iff t c).mp hc) (h c)

theorem not_prefix_head {a b : UInt8} {s t : Bytes} (h : a ≠ b) : ¬ (a :: s) <+: (b :: t) := fun hp => h (List.cons_prefix_cons.mp hp).1

/-- what one line of the preamble does. -/
structure PreStep (env : DumpEnv) (ip : Option Ip) (as : Option UInt32) (line : Bytes) (ip' : Option Ip) (as' : Option UInt32) : Prop where
  utf8 : utf8Ok line = true
  step : ∀ h : DumpHeader, h.routerId = ip → h.localAs = as → h.cols = none →
    (headerLine env h line).routerId = ip' ∧ (headerLine env h line).localAs = as' ∧ (headerLine env h line).cols = none

theorem preamble_steps {env : DumpEnv} (hs : AddrSyntax env) {ip : Option Ip} {as : Option UInt32} {ls : List Bytes} {ip2 : Option Ip}
    {as2 : Option UInt32} (h : Preamble env ip as ls ip2 as2) (hno : ∀ l ∈ ls, ∀ t c, TrimmedEnd l t → ¬ ColumnsAt t c) :
    ls = [] ∧ ip = ip2 ∧ as = as2 ∨ ∃ l r ip' as', ls = l :: r ∧ PreStep env ip as l ip' as' ∧ Preamble env ip' as' r ip2 as2 := by
  cases h with
  | done => exact .inl ⟨rfl, rfl, rfl⟩
  | version h1 h2 h3 h4 h5 h6 =>
    rename_i ip' v r z line ls
    refine .inr ⟨line, ls, some ip', as, rfl, ?_, h6⟩
    have hra := (hs.graphic h3).2
    have hend : ∃ x b, versionText v r z = x ++ [b] ∧ Graphic b := by
      by_cases hz : z = []
      · subst hz
        exact ⟨ascii "BGP table version is " ++ v ++ ascii ", local router ID is " ++ r, 44, by unfold versionText; simp [ascii], by decide⟩
      · refine ⟨ascii "BGP table version is " ++ v ++ ascii ", local router ID is " ++ r ++ ascii "," ++ z.dropLast, z.getLast hz, ?_, ?_⟩
        · unfold versionText
          rw [List.append_assoc _ z.dropLast, List.dropLast_concat_getLast]
        · have := h4 _ (List.getLast_mem hz)
          have hne : z.getLast hz ≠ 32 := by
            intro he
            exact h5 (by rw [List.getLast?_eq_some_getLast hz, he])
          unfold Graphic
          refine ⟨?_, this.2⟩
          have : (z.getLast hz).toNat ≠ 32 := fun h => hne (u8_ext h)
          omega
    obtain ⟨x, b, hx, hb⟩ := hend
    have hl := (row_last hx hb).1
    have ha : ∀ b ∈ versionText v r z, b.toNat < 128 := by
      intro b hb
      unfold versionText at hb
      simp only [List.mem_append] at hb
      rcases hb with ((((hb | hb) | hb) | hb) | hb) | hb
      · have : ∀ b ∈ ascii "BGP table version is ", b.toNat < 128 := by decide
        exact this b hb
      · have := h2 b hb; omega
      · have : ∀ b ∈ ascii ", local router ID is ", b.toNat < 128 := by decide
        exact this b hb
      · have := hra b hb; unfold Graphic at this; omega
      · have : ∀ b ∈ ascii ",", b.toNat < 128 := by decide
        exact this b hb
      · have := h4 b hb; omega
    have ht : trimEnd line = versionText v r z := trimEnd_line h1 hl
    refine ⟨lineOf_ascii h1 ha, ?_⟩
    intro h g1 g2 g3
    obtain ⟨tv, hv⟩ := versionLine_ip (z := z) hs h2 h3 h
    have hd : ¬ ascii "Default local pref" <+: versionText v r z := by
      have e1 : ascii "Default local pref" = 68 :: ascii "efault local pref" := by decide
      have e2 : ascii "BGP table version is " = 66 :: ascii "GP table version is " := by decide
      unfold versionText
      rw [e1, e2]
      exact not_prefix_head (by decide)
    have hcn := columnHeader_none fun c => hno line (by simp) _ c (ht ▸ trimEnd_spec line)
    unfold headerLine
    simp only [ht, hv, localAsLine_other hd, hcn]
    exact ⟨trivial, g2, g3⟩
  | localAs h1 h2 h3 h4 =>
    rename_i a p n line ls
    refine .inr ⟨line, ls, ip, some a, rfl, ?_, h4⟩
    have hend : localAsText p n = ascii "Default local pref " ++ p ++ ascii ", local AS " ++ n.dropLast ++ [n.getLast h3.1] := by
      unfold localAsText
      rw [List.append_assoc _ n.dropLast, List.dropLast_concat_getLast]
    have hl := (row_last hend (digits_graphic h3 _ (List.getLast_mem h3.1))).1
    have ha : ∀ b ∈ localAsText p n, b.toNat < 128 := by
      intro b hb
      unfold localAsText at hb
      simp only [List.mem_append] at hb
      rcases hb with ((hb | hb) | hb) | hb
      · have : ∀ b ∈ ascii "Default local pref ", b.toNat < 128 := by decide
        exact this b hb
      · have := h2 b hb; omega
      · have : ∀ b ∈ ascii ", local AS ", b.toNat < 128 := by decide
        exact this b hb
      · have := h3.2.1 b hb; omega
    have ht : trimEnd line = localAsText p n := trimEnd_line h1 hl
    refine ⟨lineOf_ascii h1 ha, ?_⟩
    intro h g1 g2 g3
    have hd : ¬ ascii "BGP table version is " <+: localAsText p n := by
      have e1 : ascii "Default local pref " = 68 :: ascii "efault local pref " := by decide
      have e2 : ascii "BGP table version is " = 66 :: ascii "GP table version is " := by decide
      unfold localAsText
      rw [e1, e2]
      exact not_prefix_head (by decide)
    have hcn := columnHeader_none fun c => hno line (by simp) _ c (ht ▸ trimEnd_spec line)
    unfold headerLine
    simp only [ht, versionLine_other hd, localAsLine_as h2 h3, hcn]
    exact ⟨g1, trivial, g3⟩
  | other h1 h2 h3 h4 h5 =>
    rename_i text line ls
    refine .inr ⟨line, ls, ip, as, rfl, ⟨lineOf_ascii h1 h2, ?_⟩, h5⟩
    intro h g1 g2 g3
    have hp := trimEnd_prefix h1
    have hcn := columnHeader_none fun c => hno line (by simp) _ c (trimEnd_spec line)
    unfold headerLine
    simp only [versionLine_other (fun hh => h3 (hh.trans hp)), localAsLine_other (fun hh => h4 (hh.trans hp)), hcn]
    exact ⟨g1, g2, g3⟩

theorem headerTxt_preamble {env : DumpEnv} (hs : AddrSyntax env) {hdr text : Bytes} {c : Cols} {rows : List Bytes} (hu : utf8Ok hdr = true)
    (ht : TrimmedEnd hdr text) (hc : ColumnsAt text c) (hv : ¬ ascii "BGP table version is " <+: text)
    (hd : ¬ ascii "Default local pref" <+: text) {ip2 : Option Ip} {as2 : Option UInt32} : ∀ (pre : List Bytes) (ip : Option Ip)
    (as : Option UInt32), Preamble env ip as pre ip2 as2 → (∀ l ∈ pre, ∀ t c, TrimmedEnd l t → ¬ ColumnsAt t c) →
    ∀ (n : Nat) (h : DumpHeader) (b : Bytes), h.routerId = ip → h.localAs = as → h.cols = none → pre.length < n →
    linesOf b = pre ++ hdr :: rows →
    ∃ h', headerTxt env none n h (byteToks b) = (some h', byteToks rows.flatten) ∧ linesOf rows.flatten = rows ∧
      h'.cols = some c ∧ h'.routerId = ip2 ∧ h'.localAs = as2 := by
  intro pre
  induction pre with
  | nil =>
    intro ip as hp _ n h b g1 g2 g3 hn hl
    obtain ⟨rfl, rfl⟩ : ip = ip2 ∧ as = as2 := by cases hp; exact ⟨rfl, rfl⟩
    cases n with
    | zero => omega
    | succ n =>
      obtain ⟨h1, h2, h3⟩ := lineT_lines hl
      refine ⟨{ h with cols := some c }, ?_, h2, rfl, g1, g2⟩
      unfold headerTxt
      rw [h1]
      simp only [hu, if_true]
      have : headerLine env h hdr = { h with cols := some c } := by
        unfold headerLine
        simp only [trimEnd_eq ht, versionLine_other hv, localAsLine_other hd, (columnHeader_iff text c).mpr hc]
      rw [this]
      simp
  | cons l pre ih =>
    intro ip as hp hno n h b g1 g2 g3 hn hl
    rcases preamble_steps hs hp hno with ⟨h0, _⟩ | ⟨l', r, ip', as', he, hst, hp'⟩
    · simp at h0
    · simp only [List.cons.injEq] at he
      obtain ⟨rfl, rfl⟩ := he
      cases n with
      | zero => omega
      | succ n =>
        obtain ⟨h1, h2, h3⟩ := lineT_lines hl
        obtain ⟨s1, s2, s3⟩ := hst.step h g1 g2 g3
        obtain ⟨h', k1, k2⟩ := ih ip' as' hp' (fun x hx => hno x (by simp [hx])) n (headerLine env h l) _ s1 s2 s3
          (by simp at hn; omega) h2
        refine ⟨h', ?_, k2⟩
        unfold headerTxt
        rw [h1]
        simp only [hst.utf8, if_true, s3, Option.isSome_none, Bool.false_eq_true, if_false]
        exact k1

end Verif
