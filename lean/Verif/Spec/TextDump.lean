import Verif.Model.TextDump
import Verif.Spec.Text
import Verif.Spec.Utf8
/-
Text dumps (`sh ip bgp`) as a router prints them.
-/
namespace Verif.Spec

/-! ### the column header -/

/-- the bytes that separate the words of the column header. -/
def AsciiSpace (b : UInt8) : Prop := b.toNat ∈ [9, 10, 12, 13, 32]

/-- The words of a line with the positions at which they start (`n` is the position of the line's first byte). -/
inductive WordsAt : Nat → Bytes → List (Nat × Bytes) → Prop where
  | nil {n : Nat} {s : Bytes} : (∀ b ∈ s, AsciiSpace b) → WordsAt n s []
  | cons {n : Nat} {l w rest : Bytes} {ws : List (Nat × Bytes)} : (∀ b ∈ l, AsciiSpace b) → w ≠ [] → (∀ b ∈ w, ¬ AsciiSpace b) →
      (∀ b, rest.head? = some b → AsciiSpace b) → WordsAt (n + l.length + w.length) rest ws →
      WordsAt n (l ++ w ++ rest) ((n + l.length, w) :: ws)

/-- The last word `name` starts at `p`. -/
def LastWord (ws : List (Nat × Bytes)) (name : Bytes) (p : Nat) : Prop :=
  ∃ a b, ws = a ++ (p, name) :: b ∧ ∀ x ∈ b, x.2 ≠ name

/-- The last `Next` that `Hop` follows starts at `p`. -/
def LastNextHop (ws : List (Nat × Bytes)) (p : Nat) : Prop :=
  ∃ a q b, ws = a ++ (p, ascii "Next") :: (q, ascii "Hop") :: b ∧
    ∀ x y u v, b ≠ x ++ (u, ascii "Next") :: (v, ascii "Hop") :: y

/-- The line is a column header with the columns at these places: its last `Next Hop`, `Metric`, `LocPrf`, `Weight` and
`Path`, which come in this order. -/
def ColumnsAt (line : Bytes) (c : Cols) : Prop :=
  ∃ ws, WordsAt 0 line ws ∧ LastNextHop ws c.nextHop ∧ LastWord ws (ascii "Metric") c.metric ∧
    LastWord ws (ascii "LocPrf") c.localPref ∧ LastWord ws (ascii "Weight") c.weight ∧ LastWord ws (ascii "Path") c.path ∧
    c.nextHop < c.metric ∧ c.metric < c.localPref ∧ c.localPref < c.weight ∧ c.weight < c.path

/-! ### rows -/

/-- the characters of an address. -/
def AddrChar (b : UInt8) : Prop :=
  (48 ≤ b.toNat ∧ b.toNat ≤ 57) ∨ (65 ≤ b.toNat ∧ b.toNat ≤ 70) ∨ (97 ≤ b.toNat ∧ b.toNat ≤ 102) ∨ b = 46 ∨ b = 58

/-- What is assumed of the address parsers of std and ipnet: what they accept is not empty and consists of digits, the
letters a to f, dots and colons, for prefixes also slashes. -/
structure AddrSyntax (env : DumpEnv) : Prop where
  addr : ∀ t a, env.ipAddr t = some a → t ≠ [] ∧ ∀ b ∈ t, AddrChar b
  net : ∀ t p, env.ipNet t = some p → t ≠ [] ∧ ∀ b ∈ t, AddrChar b ∨ b = 47

/-- `t` with blanks around it, `width` bytes altogether. -/
def Padded (width : Nat) (t f : Bytes) : Prop :=
  ∃ a b, f = List.replicate a 32 ++ t ++ List.replicate b 32 ∧ f.length = width

/-- a column with a number or nothing in it. -/
def NumberColumn (width : Nat) (o : Option UInt32) (f : Bytes) : Prop :=
  match o with
  | none => f = List.replicate width 32
  | some n => ∃ t, Digits t n.toNat ∧ Padded width t f

/-- the codes of origins. -/
def originText : Origin → Bytes
  | .igp => ascii "i"
  | .egp => ascii "e"
  | .incomplete => ascii "?"

/-- the path column: AS numbers and the origin code, with blanks before and between them. -/
inductive PathText : List Asn → Origin → Bytes → Prop where
  | origin {n : Nat} {o : Origin} : PathText [] o (List.replicate n 32 ++ originText o)
  | hop {n : Nat} {t rest : Bytes} {a : Asn} {as : List Asn} {o : Origin} : Digits t a.toNat → PathText as o rest →
      PathText (a :: as) o (List.replicate n 32 ++ t ++ [32] ++ rest)

/-- What a row says. -/
structure DumpRow where
  net : Option IpNet
  nextHop : Ip
  metric : Option UInt32
  localPref : Option UInt32
  path : List Asn
  origin : Origin

/-- the three bytes in front: status flags, printable ASCII (no `D`, with which the summary `Displayed ..` starts). -/
def Flags (f : Bytes) : Prop := f.length = 3 ∧ ∀ b ∈ f, 32 ≤ b.toNat ∧ b.toNat < 127 ∧ b ≠ 68

/-- A row as text: every field in its column. -/
def RowText (env : DumpEnv) (c : Cols) (r : DumpRow) (text : Bytes) : Prop :=
  ∃ flags net hop metric pref weight path, text = flags ++ net ++ hop ++ metric ++ pref ++ weight ++ path ∧ Flags flags ∧
    3 ≤ c.nextHop ∧
    (match r.net with
      | none => net = List.replicate (c.nextHop - 3) 32
      | some n => ∃ t, env.ipNet t = some n ∧ Padded (c.nextHop - 3) t net) ∧
    (∃ t, env.ipAddr t = some r.nextHop ∧ Padded (c.metric - c.nextHop) t hop) ∧
    NumberColumn (c.localPref - c.metric) r.metric metric ∧ NumberColumn (c.weight - c.localPref) r.localPref pref ∧
    (weight.length = c.path - c.weight ∧ ∀ b ∈ weight, 32 ≤ b.toNat ∧ b.toNat < 127) ∧ PathText r.path r.origin path

/-- A line with a prefix and nothing else. -/
def PrefixText (env : DumpEnv) (c : Cols) (n : IpNet) (text : Bytes) : Prop :=
  ∃ flags a t, text = flags ++ List.replicate a 32 ++ t ∧ Flags flags ∧ env.ipNet t = some n ∧ text.length ≤ c.nextHop ∧
    c.nextHop + 1 < c.metric

/-- A line of ASCII characters in which nothing is an address or a prefix. -/
def Noise (env : DumpEnv) (text : Bytes) : Prop :=
  (∀ b ∈ text, b.toNat < 128) ∧ ∀ t, t <:+: text → env.ipAddr t = none ∧ env.ipNet t = none

/-- A text and the line with it: blanks, tabs and the line end may follow. -/
def LineOf (text line : Bytes) : Prop := ∃ tail, line = text ++ tail ∧ ∀ b ∈ tail, b.toNat ∈ [9, 10, 13, 32]

/-- the columns, one place further to the left. -/
def colsLeft (c : Cols) : Cols := ⟨c.nextHop - 1, c.metric - 1, c.localPref - 1, c.weight - 1, c.path - 1⟩

/-- What the line has where the column `Next Hop` should be is not an address. -/
def NoHopThere (env : DumpEnv) (c : Cols) (text : Bytes) : Prop :=
  ∀ t, Trimmed ((text.drop c.nextHop).take (c.metric - c.nextHop)) t → env.ipAddr t = none

/-- The rows of a table and the prefixes they belong to: that of the row, or the nearest one above it. After a line with only a
prefix some routers print the row one place further to the left (`shifted`). -/
inductive TableLines (env : DumpEnv) (c : Cols) : Option IpNet → List Bytes → List (IpNet × DumpRow) → Prop where
  | done {cur} : TableLines env c cur [] []
  | row {cur r n text line ls rs} : RowText env c r text → LineOf text line → r.net = some n → TableLines env c (some n) ls rs →
      TableLines env c cur (line :: ls) ((n, r) :: rs)
  | again {r n text line ls rs} : RowText env c r text → LineOf text line → r.net = none → TableLines env c (some n) ls rs →
      TableLines env c (some n) (line :: ls) ((n, r) :: rs)
  | shifted {r n text line ls rs} : RowText env (colsLeft c) r text → NoHopThere env c text → LineOf text line → r.net = none →
      TableLines env c (some n) ls rs → TableLines env c (some n) (line :: ls) ((n, r) :: rs)
  | orphan {r text line ls rs} : RowText env c r text → LineOf text line → r.net = none → TableLines env c none ls rs →
      TableLines env c none (line :: ls) rs
  | wrapped {cur n text line ls rs} : PrefixText env c n text → LineOf text line → TableLines env c (some n) ls rs →
      TableLines env c cur (line :: ls) rs
  | noise {cur text line ls rs} : Noise env text → LineOf text line → TableLines env c cur ls rs →
      TableLines env c cur (line :: ls) rs

/-- The element for a row. -/
def rowElem (time : Nat) (peerIp : Ip) (peerAsn : Asn) (n : IpNet) (r : DumpRow) : BgpElem :=
  { time := time, type := .announce, peerIp := peerIp, peerAsn := peerAsn, peerBgpId := none, prefix_ := ⟨n, none⟩,
    nextHop := some r.nextHop, asPath := some [.seq r.path], originAsns := r.path.getLast?.map fun a => [a],
    origin := some r.origin, localPref := r.localPref, med := r.metric, communities := none, atomic := false, aggrAsn := none,
    aggrIp := none, otc := none, unknown := none, deprecated := none }

/-! ### the preamble -/

/-- Lines before the column header, and the router ID and the AS number they leave behind: the last ones given. -/
inductive Preamble (env : DumpEnv) : Option Ip → Option UInt32 → List Bytes → Option Ip → Option UInt32 → Prop where
  | done {ip as} : Preamble env ip as [] ip as
  | version {ip as ip' ip2 as2 v r z line ls} :
      LineOf (ascii "BGP table version is " ++ v ++ ascii ", local router ID is " ++ r ++ ascii "," ++ z) line →
      (∀ b ∈ v, 48 ≤ b.toNat ∧ b.toNat ≤ 57) → env.ipAddr r = some ip' → (∀ b ∈ z, 32 ≤ b.toNat ∧ b.toNat < 127) →
      z.getLast? ≠ some 32 →
      Preamble env (some ip') as ls ip2 as2 → Preamble env ip as (line :: ls) ip2 as2
  | localAs {ip as as' ip2 as2 p n line ls} :
      LineOf (ascii "Default local pref " ++ p ++ ascii ", local AS " ++ n) line → (∀ b ∈ p, 48 ≤ b.toNat ∧ b.toNat ≤ 57) →
      Digits n as'.toNat → Preamble env ip (some as') ls ip2 as2 → Preamble env ip as (line :: ls) ip2 as2
  | other {ip as ip2 as2 text line ls} : LineOf text line → (∀ b ∈ text, b.toNat < 128) →
      ¬ ascii "BGP table version is " <+: text → ¬ ascii "Default local pref" <+: text →
      Preamble env ip as ls ip2 as2 → Preamble env ip as (line :: ls) ip2 as2

/-! ### iteration and detection -/

/-- Calling `next` again and again yields these items, then `None`. -/
inductive Gives {σ α : Type} (next : σ → Except Err (Option α) × σ) : σ → List α → Prop where
  | done {s} : (next s).1 = .ok none → Gives next s []
  | item {s e es} : (next s).1 = .ok (some e) → Gives next (next s).2 es → Gives next s (e :: es)

/-- The first bytes look like a text dump: a printable character in front, and one of three phrases in the first 128 bytes,
which are UTF-8. -/
def TextHead (h : Bytes) : Prop :=
  (∃ b, h.head? = some b ∧ 33 ≤ b.toNat ∧ b.toNat ≤ 126) ∧ IsUtf8 (h.take 128) ∧
    (ascii "BGP table" <:+: h.take 128 ∨ ascii "Next Hop" <:+: h.take 128 ∨ ascii "Status codes:" <:+: h.take 128)

end Verif.Spec
