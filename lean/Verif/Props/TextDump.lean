import Verif.Lemmas.TextApi
/-
C70, C71, C74: text dumps (`sh ip bgp`).
-/
namespace Verif.Props
open Spec

/-! ### C70: the table -/

/-- C70: a text dump in the layout routers print gives one element per row, in order, with the prefix of the row (or the nearest
one above), its next hop, metric, local preference, AS path and origin, and the router ID and AS number of the preamble
(0.0.0.0 and 0 if there are none). The reader may deliver the bytes in any chunks, with any interruptions. -/
theorem c70_table {env : DumpEnv} (hs : AddrSyntax env) {s : Src} {b : Bytes} (hb : Delivers s b)
    {pre rows : List Bytes} {hdr text : Bytes} (hl : linesOf b = pre ++ hdr :: rows)
    {ip : Option Ip} {as : Option UInt32} (hp : Preamble env none none pre ip as) (h64 : pre.length < 64)
    (hno : ∀ l ∈ pre, ∀ t c, TrimmedEnd l t → ¬ ColumnsAt t c)
    (hu : IsUtf8 hdr) (ht : TrimmedEnd hdr text) {c : Cols} (hc : ColumnsAt text c)
    (hv : ¬ ascii "BGP table version is " <+: text) (hd : ¬ ascii "Default local pref" <+: text)
    {rs : List (IpNet × DumpRow)} (hr : TableLines env c none rows rs) (time : Nat) :
    parseTextDump env s time =
      .ok (rs.map fun r => rowElem time (ip.getD (.v4 #v[0, 0, 0, 0])) (as.getD 0) r.1 r.2) := by
  obtain ⟨h', k1, k2, k3, k4, k5⟩ := headerTxt_preamble hs ((utf8_exact hdr).mpr hu) ht hc hv hd pre none none hp hno 64
    ⟨none, none, none, none⟩ b rfl rfl rfl h64 hl
  rw [parseTextDump_eq, hb.1, hb.2]
  unfold parseDumpT
  rw [k1]
  simp only [k3, k4, k5]
  have ho : c.Ordered := by
    obtain ⟨_, _, _, _, _, _, _, h⟩ := hc
    exact h
  rw [dumpT_lines env _ _ rows.flatten [] (by rw [byteToks_length]; omega), k2,
    dumpLines_table hs (it := ⟨⟨[], none⟩, c, c.shiftLeft, ip.getD (.v4 #v[0, 0, 0, 0]), as.getD 0, time, []⟩) ho rfl hr [] rfl]

/-! #### an example -/

/-- a part of an IPv4 address: a number below 256 without leading zeros. -/
def exDumpPart (t : Bytes) : Option UInt8 :=
  if 1 ≤ t.length ∧ t.length ≤ 3 ∧ (t.length = 1 ∨ t.head? ≠ some 48) then (decLoop 256 0 t).map UInt8.ofNat else none

/-- IPv4 addresses. -/
def exDumpAddr (t : Bytes) : Option Ip :=
  if 46 ∈ t ∧ (∀ b ∈ t, (48 ≤ b.toNat ∧ b.toNat ≤ 57) ∨ b = 46) then
    match splitOnce [46] t with
    | none => none
    | some (a, r) =>
      match splitOnce [46] r with
      | none => none
      | some (b, r) =>
        match splitOnce [46] r with
        | none => none
        | some (c, d) =>
          match exDumpPart a, exDumpPart b, exDumpPart c, exDumpPart d with
          | some a, some b, some c, some d => some (.v4 #v[a, b, c, d])
          | _, _, _, _ => none
  else none

/-- IPv4 prefixes. -/
def exDumpNet (t : Bytes) : Option IpNet :=
  if 47 ∈ t ∧ (∀ b ∈ t, (48 ≤ b.toNat ∧ b.toNat ≤ 57) ∨ b = 46 ∨ b = 47) then
    match splitOnce [47] t with
    | none => none
    | some (a, l) =>
      match exDumpAddr a, exDumpPart l with
      | some ip, some n => if n ≤ 32 then some ⟨ip, n⟩ else none
      | _, _ => none
  else none

/-- parsers for IPv4. -/
def exDumpEnv : DumpEnv := ⟨exDumpAddr, exDumpNet⟩

theorem exDumpAddr_some {t : Bytes} {a : Ip} (h : exDumpAddr t = some a) : 46 ∈ t ∧ ∀ b ∈ t, (48 ≤ b.toNat ∧ b.toNat ≤ 57) ∨ b = 46 := by
  unfold exDumpAddr at h
  split at h
  · assumption
  · simp at h

theorem exDumpNet_some {t : Bytes} {a : IpNet} (h : exDumpNet t = some a) :
    47 ∈ t ∧ ∀ b ∈ t, (48 ≤ b.toNat ∧ b.toNat ≤ 57) ∨ b = 46 ∨ b = 47 := by
  unfold exDumpNet at h
  split at h
  · assumption
  · simp at h

/-- they meet the assumption. -/
theorem exDumpEnv_ok : AddrSyntax exDumpEnv where
  addr t a h := by
    obtain ⟨h1, h2⟩ := exDumpAddr_some h
    refine ⟨by rintro rfl; simp at h1, fun b hb => ?_⟩
    rcases h2 b hb with h | rfl
    · exact .inl h
    · unfold AddrChar; decide
  net t p h := by
    obtain ⟨h1, h2⟩ := exDumpNet_some h
    refine ⟨by rintro rfl; simp at h1, fun b hb => ?_⟩
    rcases h2 b hb with h | rfl | rfl
    · exact .inl (.inl h)
    · left; unfold AddrChar; decide
    · exact .inr rfl

/-- the preamble of the example. -/
def exPreamble : List Bytes :=
  [ascii "BGP table version is 1350657, local router ID is 45.112.180.132, vrf id 0\n",
    ascii "Default local pref 100, local AS 3856\r\n", ascii "Status codes:  s suppressed, d damped\n", ascii "\n"]

/-- its column header. -/
def exDumpHeader : Bytes := ascii "    Network          Next Hop            Metric LocPrf Weight Path"

/-- its rows: one with a prefix, one without, a line with a prefix only, a row shifted to the left, noise. -/
def exRows : List Bytes :=
  [ascii " *> 1.0.0.0/24       10.1.1.1                 0    100      0 65002 13335 i\n",
    ascii " *                   10.1.1.2                               0 65003 13335 ?\n",
    ascii " *  103.85.157.176/29\n",
    ascii "                    103.77.108.116           7             0 134942 58715 e\n",
    ascii "\n", ascii "Displayed 2 routes and 3 total paths\n"]

/-- the first prefix. -/
def exNet1 : IpNet := ⟨.v4 #v[1, 0, 0, 0], 24⟩

/-- the second prefix. -/
def exNet2 : IpNet := ⟨.v4 #v[103, 85, 157, 176], 29⟩

/-- what the rows say. -/
def exDumpRows : List (IpNet × DumpRow) :=
  [(exNet1, ⟨some exNet1, .v4 #v[10, 1, 1, 1], some 0, some 100, [65002, 13335], .igp⟩),
    (exNet1, ⟨none, .v4 #v[10, 1, 1, 2], none, none, [65003, 13335], .incomplete⟩),
    (exNet2, ⟨none, .v4 #v[103, 77, 108, 116], some 7, none, [134942, 58715], .egp⟩)]

theorem exDump_noise {text : Bytes} (h1 : ∀ b ∈ text, b.toNat < 128) (h2 : 46 ∉ text) (h3 : 47 ∉ text) : Noise exDumpEnv text := by
  refine ⟨h1, fun t ht => ⟨?_, ?_⟩⟩
  · cases ha : exDumpEnv.ipAddr t with
    | none => rfl
    | some a => exact absurd (ht.subset (exDumpAddr_some ha).1) h2
  · cases ha : exDumpEnv.ipNet t with
    | none => rfl
    | some a => exact absurd (ht.subset (exDumpNet_some ha).1) h3

theorem exDump_columns : ColumnsAt exDumpHeader ⟨21, 41, 48, 55, 62⟩ := (columnHeader_iff _ _).mp (by decide +kernel)

theorem exDump_noHeader : ∀ l ∈ exPreamble, ∀ t c, TrimmedEnd l t → ¬ ColumnsAt t c := by
  have h : ∀ l ∈ exPreamble, columnHeader (trimEnd l) = none := by decide +kernel
  intro l hl t c ht hc
  rw [← columnHeader_iff, ← trimEnd_eq ht, h l hl] at hc
  simp at hc

theorem exDump_preamble : Preamble exDumpEnv none none exPreamble (some (.v4 #v[45, 112, 180, 132])) (some 3856) := by
  refine .version (ip' := .v4 #v[45, 112, 180, 132]) (v := ascii "1350657") (r := ascii "45.112.180.132") (z := ascii " vrf id 0") ⟨[10], by decide +kernel, by decide⟩
    (by decide) (by decide +kernel) (by decide) (by decide) ?_
  refine .localAs (as' := 3856) (p := ascii "100") (n := ascii "3856") ⟨[13, 10], by decide +kernel, by decide⟩ (by decide)
    ⟨by decide, by decide, by decide⟩ ?_
  refine .other (text := ascii "Status codes:  s suppressed, d damped") ⟨[10], by decide +kernel, by decide⟩ (by decide) ?_ ?_ ?_
  · rw [← List.isPrefixOf_iff_prefix]; decide +kernel
  · rw [← List.isPrefixOf_iff_prefix]; decide +kernel
  refine .other (text := []) ⟨[10], by decide +kernel, by decide⟩ (by decide) ?_ ?_ .done
  · rw [← List.isPrefixOf_iff_prefix]; decide +kernel
  · rw [← List.isPrefixOf_iff_prefix]; decide +kernel

theorem exDump_table : TableLines exDumpEnv ⟨21, 41, 48, 55, 62⟩ none exRows exDumpRows := by
  have dg : ∀ {t : Bytes} {n : Nat}, t ≠ [] → (∀ b ∈ t, 48 ≤ b.toNat ∧ b.toNat ≤ 57) →
      n = t.foldl (fun n b => 10 * n + (b.toNat - 48)) 0 → Digits t n := fun a b c => ⟨a, b, c⟩
  have lf : ∀ {t l : Bytes}, l = t ++ [10] → LineOf t l := fun h => ⟨[10], h, by decide⟩
  refine .row (text := ascii " *> 1.0.0.0/24       10.1.1.1                 0    100      0 65002 13335 i") ?_
    (lf (by decide +kernel)) rfl ?_
  · refine ⟨ascii " *>", ascii " 1.0.0.0/24       ", ascii "10.1.1.1            ", ascii "     0 ", ascii "   100 ", ascii "     0 ",
      ascii "65002 13335 i", by decide +kernel, ⟨rfl, by decide⟩, by decide, ?_, ?_, ?_, ?_, ⟨rfl, by decide⟩, ?_⟩
    · exact ⟨ascii "1.0.0.0/24", by decide +kernel, 1, 7, by decide +kernel, rfl⟩
    · exact ⟨ascii "10.1.1.1", by decide +kernel, 0, 12, by decide +kernel, rfl⟩
    · exact ⟨ascii "0", dg (by decide) (by decide) (by decide), 5, 1, by decide +kernel, rfl⟩
    · exact ⟨ascii "100", dg (by decide) (by decide) (by decide), 3, 1, by decide +kernel, rfl⟩
    · exact .hop (n := 0) (t := ascii "65002") (rest := ascii "13335 i") (dg (by decide) (by decide) (by decide))
        (.hop (n := 0) (t := ascii "13335") (rest := ascii "i") (dg (by decide) (by decide) (by decide)) (.origin (n := 0) (o := .igp)))
  refine .again (text := ascii " *                   10.1.1.2                               0 65003 13335 ?") ?_
    (lf (by decide +kernel)) rfl ?_
  · refine ⟨ascii " * ", ascii "                  ", ascii "10.1.1.2            ", ascii "       ", ascii "       ", ascii "     0 ",
      ascii "65003 13335 ?", by decide +kernel, ⟨rfl, by decide⟩, by decide, ?_, ?_, ?_, ?_, ⟨rfl, by decide⟩, ?_⟩
    · show _ = List.replicate 18 32; decide +kernel
    · exact ⟨ascii "10.1.1.2", by decide +kernel, 0, 12, by decide +kernel, rfl⟩
    · show _ = List.replicate 7 32; decide +kernel
    · show _ = List.replicate 7 32; decide +kernel
    · exact .hop (n := 0) (t := ascii "65003") (rest := ascii "13335 ?") (dg (by decide) (by decide) (by decide))
        (.hop (n := 0) (t := ascii "13335") (rest := ascii "?") (dg (by decide) (by decide) (by decide))
          (.origin (n := 0) (o := .incomplete)))
  refine .wrapped (n := exNet2) (text := ascii " *  103.85.157.176/29") ?_ (lf (by decide +kernel)) ?_
  · exact ⟨ascii " * ", 1, ascii "103.85.157.176/29", by decide +kernel, ⟨rfl, by decide⟩, by decide +kernel, by decide +kernel, by decide⟩
  refine .shifted (text := ascii "                    103.77.108.116           7             0 134942 58715 e") ?_ ?_
    (lf (by decide +kernel)) rfl ?_
  · refine ⟨ascii "   ", ascii "                 ", ascii "103.77.108.116      ", ascii "     7 ", ascii "       ", ascii "     0 ",
      ascii "134942 58715 e", by decide +kernel, ⟨rfl, by decide⟩, by decide, ?_, ?_, ?_, ?_, ⟨rfl, by decide⟩, ?_⟩
    · show _ = List.replicate 17 32; decide +kernel
    · exact ⟨ascii "103.77.108.116", by decide +kernel, 0, 6, by decide +kernel, rfl⟩
    · exact ⟨ascii "7", dg (by decide) (by decide) (by decide), 5, 1, by decide +kernel, rfl⟩
    · show _ = List.replicate 7 32; decide +kernel
    · exact .hop (n := 0) (t := ascii "134942") (rest := ascii "58715 e") (dg (by decide) (by decide) (by decide))
        (.hop (n := 0) (t := ascii "58715") (rest := ascii "e") (dg (by decide) (by decide) (by decide)) (.origin (n := 0) (o := .egp)))
  · intro t ht
    rw [← trim_eq ht]
    decide +kernel
  refine .noise (text := []) (exDump_noise (by decide) (by decide) (by decide)) (lf (by decide +kernel)) ?_
  exact .noise (text := ascii "Displayed 2 routes and 3 total paths") (exDump_noise (by decide) (by decide) (by decide)) (lf (by decide +kernel)) .done

/-- the bytes of the example. -/
def exDumpBytes : Bytes := (exPreamble ++ (exDumpHeader ++ [10]) :: exRows).flatten

theorem exDump_lines : linesOf exDumpBytes = exPreamble ++ (exDumpHeader ++ [10]) :: exRows := by decide +kernel

/-- the hypotheses of `c70_table` hold of the example; three elements. -/
example : parseTextDump exDumpEnv ⟨[.data 66 (exDumpBytes.drop 1)], none⟩ 5 =
    .ok (exDumpRows.map fun r => rowElem 5 (.v4 #v[45, 112, 180, 132]) 3856 r.1 r.2) :=
  c70_table exDumpEnv_ok (b := exDumpBytes) ⟨by decide +kernel, rfl⟩ exDump_lines exDump_preamble (by decide) exDump_noHeader
    ((utf8_exact _).mp (by decide +kernel)) (by rw [show exDumpHeader = trimEnd (exDumpHeader ++ [10]) by decide +kernel]; exact trimEnd_spec _)
    exDump_columns (by rw [← List.isPrefixOf_iff_prefix]; decide +kernel) (by rw [← List.isPrefixOf_iff_prefix]; decide +kernel)
    exDump_table 5

/-! #### where the layout is misread -/

/-- a dump with the example's header and these rows. -/
def exDumpWith (rows : String) : Src := ⟨[.data 32 ((exDumpHeader ++ [10] ++ ascii rows).drop 1)], none⟩

/-- the prefix, next hop and path of every element. -/
def exView (r : Except Err (List BgpElem)) : Option (List (IpNet × Option Ip × Option AsPath)) :=
  match r with
  | .ok es => some (es.map fun e => (e.prefix_.prefix_, e.nextHop, e.asPath))
  | .error _ => none

/-- C70 fails for a row that is shifted to the left and whose next hop is still an address without its first character: of
147.28.0.3 the `1` is taken for a prefix. The row is lost, and so are the rows that continue it. -/
theorem c70_violated_shift :
    exView (parseTextDump exDumpEnv (exDumpWith
      " *  103.85.157.176/29\n                    147.28.0.3               7             0 3130 174 i\n *                   10.1.1.2                               0 65003 13336 i\n") 0) =
      some [] := by decide +kernel

/-- C70 fails for a line with only a prefix that reaches into the column `Next Hop`: the prefix is lost, and the rows that
follow get the prefix above. -/
theorem c70_violated_long :
    exView (parseTextDump exDumpEnv (exDumpWith
      " *> 1.0.0.0/24       10.1.1.1                 0    100      0 65002 13335 i\n *  103.185.157.176/29\n *                   10.1.1.2                               0 65003 13336 i\n") 0) =
      some [(exNet1, some (.v4 #v[10, 1, 1, 1]), some [.seq [65002, 13335]]),
        (exNet1, some (.v4 #v[10, 1, 1, 2]), some [.seq [65003, 13336]])] := by decide +kernel

/-- C70 fails for routes learned from iBGP in a layout whose fourth byte is the flag `i`: the row is lost (`i1.0.0.0/24` is not a
prefix), and so are the rows that continue it. -/
theorem c70_violated_internal :
    exView (parseTextDump exDumpEnv (exDumpWith
      " *>i1.0.0.0/24       10.1.1.1                 0    100      0 65002 13335 i\n * i                 10.1.1.2                 0    100      0 65003 13335 i\n") 0) =
      some [] := by decide +kernel

/-- C70 fails for AS sets: the members are dropped. -/
theorem c70_violated_set :
    exView (parseTextDump exDumpEnv (exDumpWith
      " *> 1.0.0.0/24       10.1.1.1                 0    100      0 65002 {64512,64513} i\n") 0) =
      some [(exNet1, some (.v4 #v[10, 1, 1, 1]), some [.seq [65002]])] := by decide +kernel

/-- C70 fails for a metric wider than its column: the row is lost. -/
theorem c70_violated_metric :
    exView (parseTextDump exDumpEnv (exDumpWith
      " *> 1.0.0.0/24       10.1.1.1       4294967295    100      0 65002 13335 i\n *> 2.0.0.0/8        10.1.1.1                 0    100      0 65002 13335 i\n") 0) =
      some [(⟨.v4 #v[2, 0, 0, 0], 8⟩, some (.v4 #v[10, 1, 1, 1]), some [.seq [65002, 13335]])] := by decide +kernel

/-! ### C71: the column header -/

/-- C71: a parser for a text dump can be made iff one of the first 64 lines is a column header and the lines up to it are UTF-8;
the first such line gives the columns. -/
theorem c71_header {env : DumpEnv} {s : Src} {b : Bytes} (hb : Delivers s b) (time : Nat) (c : Cols) :
    (∃ it, TextIter.new env s time = .ok it ∧ it.cols = c) ↔
    ∃ pre hdr rows text, linesOf b = pre ++ hdr :: rows ∧ pre.length < 64 ∧
      (∀ l ∈ pre, IsUtf8 l ∧ ∀ t c, TrimmedEnd l t → ¬ ColumnsAt t c) ∧ IsUtf8 hdr ∧ TrimmedEnd hdr text ∧ ColumnsAt text c := by
  have h := headerTxt_exact env c 64 ⟨none, none, none, none⟩ b rfl
  refine Iff.trans ?_ h
  obtain ⟨s', h1, _⟩ := dumpHeaderLoop_eq env 64 ⟨none, none, none, none⟩ s
  rw [hb.1, hb.2] at h1
  unfold TextIter.new parseDumpHeader
  rw [h1]
  rcases headerTxt env none 64 ⟨none, none, none, none⟩ (byteToks b) with ⟨_ | hd, t⟩
  · simp
  · simp only
    cases hc : hd.cols with
    | none => simp [hc]
    | some c' =>
      simp only [Except.ok.injEq, Prod.mk.injEq, Option.some.injEq]
      constructor
      · rintro ⟨it, rfl, rfl⟩
        exact ⟨hd, t, ⟨rfl, rfl⟩, hc⟩
      · rintro ⟨_, _, ⟨rfl, rfl⟩, h2⟩
        rw [hc] at h2
        simp only [Option.some.injEq] at h2
        exact ⟨_, rfl, h2⟩

/-- C71: if not, making the parser fails with an I/O error, whatever the reader does. -/
theorem c71_fails {env : DumpEnv} {s : Src} {time : Nat} {e : Err} (h : TextIter.new env s time = .error e) : e = .io := new_io h

/-- the header of the example is found. -/
example : ∃ it, TextIter.new exDumpEnv ⟨[.data 66 (exDumpBytes.drop 1)], none⟩ 5 = .ok it ∧ it.cols = ⟨21, 41, 48, 55, 62⟩ := by
  refine (c71_header (b := exDumpBytes) ⟨by decide +kernel, rfl⟩ 5 _).mpr
    ⟨exPreamble, _, exRows, exDumpHeader, exDump_lines, by decide, fun l hl => ⟨?_, exDump_noHeader l hl⟩, (utf8_exact _).mp (by decide +kernel), ?_,
      exDump_columns⟩
  · exact (utf8_exact l).mp ((by decide +kernel : ∀ l ∈ exPreamble, utf8Ok l = true) l hl)
  · rw [show exDumpHeader = trimEnd (exDumpHeader ++ [10]) by decide +kernel]; exact trimEnd_spec _

/-- columns in another order are no header. -/
example : (∃ c, ColumnsAt (ascii "Network Next Hop LocPrf Metric Weight Path") c) → False := by
  rintro ⟨c, h⟩
  rw [← columnHeader_iff] at h
  have : columnHeader (ascii "Network Next Hop LocPrf Metric Weight Path") = none := by decide +kernel
  rw [this] at h
  simp at h

/-! ### C74: iteration -/

/-- C74: what is read does not depend on the chunks the reader delivers or on interruptions. -/
theorem c74_chunking {env : DumpEnv} {s s' : Src} (h : SameDelivery s s') (time : Nat) :
    parseTextDump env s time = parseTextDump env s' time := by
  rw [parseTextDump_eq, parseTextDump_eq, h.1, h.2]

/-- C74: collecting all elements and calling `next` give the same. -/
theorem c74_collect (env : DumpEnv) (s : Src) (time : Nat) (es : List BgpElem) :
    parseTextDump env s time = .ok es ↔ ∃ it, TextIter.new env s time = .ok it ∧ Gives (TextIter.next env) it es := by
  unfold parseTextDump
  cases TextIter.new env s time with
  | error e => simp
  | ok it =>
    have := toks_length it.src
    simp only [Except.ok.injEq, exists_eq_left']
    exact collect_yields env _ it es (by omega)

/-- C74: with filters, the iterators give the elements that match them, in order, and no others. -/
theorem c74_filter (env : DumpEnv) (tenv : TextEnv) (fs : List (Filter tenv.Rx)) (it : TextIter) (es' : List BgpElem) :
    Gives (textElemNext env tenv fs) it es' ↔
      ∃ es, Gives (TextIter.next env) it es ∧ es' = es.filter fun e => e.matchFilters tenv fs := by
  constructor
  · exact filter_yields env tenv fs _ it es' (Nat.lt_succ_self _)
  · rintro ⟨es, h, rfl⟩
    exact yields_filter env tenv fs h

/-- C74: on ASCII text there is no panic: the elements, or an I/O error if there is no column header. -/
theorem c74_ascii {env : DumpEnv} {s : Src} {b : Bytes} (hb : Delivers s b) (ha : ∀ x ∈ b, x.toNat < 128) (time : Nat) {e : Err}
    (h : parseTextDump env s time = .error e) : e = .io := by
  rw [parseTextDump_eq, hb.1, hb.2] at h
  exact parse_ascii ha time h

/-- C74 fails for a reader that fails after the header: the elements of the lines before are all there is, as if the dump ended
there; no error is reported. -/
theorem c74_violated_error {env : DumpEnv} {ls : List Bytes} {part : Bytes} {s s' : Src} {e : Bool} {t : List Tok}
    (hls : ∀ l ∈ ls, ∃ x, l = x ++ [10] ∧ 10 ∉ x) (hp : 10 ∉ part)
    (hs : toks s.evs = byteToks (ls.flatten ++ part) ++ .fail e :: t) (hs' : Delivers s' ls.flatten) (time : Nat)
    {it : TextIter} (hh : TextIter.new env s' time = .ok it) :
    parseTextDump env s time = parseTextDump env s' time := by
  have hf : FirstHeader 64 ls it.cols := by
    have := (c71_header hs' time it.cols).mp ⟨it, hh, rfl⟩
    rw [linesOf_full hls] at this
    exact this
  rw [parseTextDump_eq, parseTextDump_eq, hs, hs'.1, hs'.2, byteToks_append, List.append_assoc]
  exact parse_stops hls (stops_fail _ part hp e t) hf

/-- C74 fails for a line that is not UTF-8: it ends the iteration without an error, whatever follows. -/
theorem c74_violated_utf8 {env : DumpEnv} {ls : List Bytes} {bad rest : Bytes} {s s' : Src}
    (hls : ∀ l ∈ ls, ∃ x, l = x ++ [10] ∧ 10 ∉ x) (hbad : 10 ∉ bad) (hu : ¬ IsUtf8 (bad ++ [10]))
    (hs : Delivers s (ls.flatten ++ bad ++ [10] ++ rest)) (hs' : Delivers s' ls.flatten) (time : Nat)
    {it : TextIter} (hh : TextIter.new env s' time = .ok it) :
    parseTextDump env s time = parseTextDump env s' time := by
  have hf : FirstHeader 64 ls it.cols := by
    have := (c71_header hs' time it.cols).mp ⟨it, hh, rfl⟩
    rw [linesOf_full hls] at this
    exact this
  have hu' : utf8Ok (bad ++ [10]) = false := by
    cases h : utf8Ok (bad ++ [10]) with
    | false => rfl
    | true => exact absurd ((utf8_exact _).mp h) hu
  rw [parseTextDump_eq, parseTextDump_eq, hs.1, hs.2, hs'.1, hs'.2, List.append_assoc, List.append_assoc, byteToks_append,
    ← List.append_assoc bad, byteToks_append (bad ++ [10])]
  exact parse_stops hls (stops_utf8 _ ⟨bad, rfl, hbad⟩ hu' _) hf

/-- the hypotheses: a line in Latin-1 in the middle of a dump. The row after it is lost. -/
example : exView (parseTextDump exDumpEnv ⟨[.data 32 ((exDumpHeader ++ [10] ++ [0xE9, 10] ++
    ascii " *> 1.0.0.0/24       10.1.1.1                 0    100      0 65002 13335 i\n").drop 1)], none⟩ 0) = some [] := by decide +kernel

/-- the lines of a small dump. -/
def exSmall : List Bytes :=
  [exDumpHeader ++ [10], ascii " *> 1.0.0.0/24       10.1.1.1                 0    100      0 65002 13335 i\n"]

theorem exSmall_ok : (∀ l ∈ exSmall, ∃ x, l = x ++ [10] ∧ 10 ∉ x) ∧
    ∃ it, TextIter.new exDumpEnv ⟨[.data 32 (exSmall.flatten.drop 1)], none⟩ 0 = .ok it := by
  refine ⟨fun l hl => ⟨l.dropLast, (by decide +kernel : ∀ l ∈ exSmall, l = l.dropLast ++ [10] ∧ 10 ∉ l.dropLast) l hl⟩, ?_⟩
  cases h : TextIter.new exDumpEnv ⟨[.data 32 (exSmall.flatten.drop 1)], none⟩ 0 with
  | ok it => exact ⟨it, rfl⟩
  | error e =>
    exfalso
    have : (match TextIter.new exDumpEnv ⟨[.data 32 (exSmall.flatten.drop 1)], none⟩ 0 with | .ok _ => true | .error _ => false) = true := by
      decide +kernel
    rw [h] at this
    simp at this

/-- the hypotheses of `c74_violated_error`: the connection breaks in the third line. -/
example : parseTextDump exDumpEnv ⟨[.data 32 (exSmall.flatten.drop 1), .data 32 [42], .fail false], none⟩ 0 =
    parseTextDump exDumpEnv ⟨[.data 32 (exSmall.flatten.drop 1)], none⟩ 0 := by
  obtain ⟨h1, it, h2⟩ := exSmall_ok
  exact c74_violated_error (part := [32, 42]) (e := false) (t := []) h1 (by decide) (by decide +kernel) ⟨by decide +kernel, rfl⟩ 0 h2

/-- the hypotheses of `c74_violated_utf8`. -/
example (rest : Bytes) : parseTextDump exDumpEnv ⟨[.data 32 ((exSmall.flatten ++ [0xE9] ++ [10] ++ rest).drop 1)], none⟩ 0 =
    parseTextDump exDumpEnv ⟨[.data 32 (exSmall.flatten.drop 1)], none⟩ 0 := by
  obtain ⟨h1, it, h2⟩ := exSmall_ok
  refine c74_violated_utf8 (bad := [0xE9]) (rest := rest) h1 (by decide) ?_ ⟨?_, rfl⟩ ⟨by decide +kernel, rfl⟩ 0 h2
  · rw [← utf8_exact]; decide +kernel
  · have : exSmall.flatten = 32 :: exSmall.flatten.drop 1 := by decide +kernel
    rw [this]
    simp [toks]

/-- what the `n`th call of `next` gives. -/
def exNth (s : Src) (n : Nat) : Option (List (IpNet × Option Ip × Option AsPath)) :=
  match TextIter.new exDumpEnv s 0 with
  | .error _ => none
  | .ok it => exView ((TextIter.next exDumpEnv (n.repeat (fun it => (TextIter.next exDumpEnv it).2) it)).1.map Option.toList)

/-- a row after a line that is not UTF-8. -/
def exBadLine : Src :=
  ⟨[.data 32 ((exDumpHeader ++ [10] ++ [0xE9, 10] ++
    ascii " *> 1.0.0.0/24       10.1.1.1                 0    100      0 65002 13335 i\n").drop 1)], none⟩

/-- C74 fails for the end of the iteration: `next` gives `None` for a line that is not UTF-8, and elements again after it. -/
theorem c74_violated_resume :
    exNth exBadLine 0 = some [] ∧ exNth exBadLine 1 = some [(exNet1, some (.v4 #v[10, 1, 1, 1]), some [.seq [65002, 13335]])] :=
  ⟨by decide +kernel, by decide +kernel⟩

/-- C74 fails for text that is not ASCII: a character across the place of the column `Next Hop` is a panic. -/
theorem c74_violated_panic :
    parseTextDump exDumpEnv ⟨[.data 32 ((exDumpHeader ++ [10] ++ ascii "                    " ++ [0xC3, 0xA9, 10]).drop 1)], none⟩ 0 =
      .error .panic := by decide +kernel

end Verif.Props
