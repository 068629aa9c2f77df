import Verif.Model.Cli
import Verif.Spec.Display
import Verif.Spec.Recovery
/-
What the options of the command line tool mean, and what a run puts out.
-/
namespace Verif.Spec

/-! ### filter expressions -/

/-- White space (Unicode). -/
def White (c : Char) : Prop :=
  (9 ≤ c.toNat ∧ c.toNat ≤ 13) ∨ c.toNat = 32 ∨ c.toNat = 133 ∨ c.toNat = 160 ∨ c.toNat = 5760 ∨
  (8192 ≤ c.toNat ∧ c.toNat ≤ 8202) ∨ c.toNat = 8232 ∨ c.toNat = 8233 ∨ c.toNat = 8239 ∨ c.toNat = 8287 ∨ c.toNat = 12288

/-- `a` is the word `k` with white space around it. -/
def Blanked (k a : List Char) : Prop :=
  ∃ l r, a = l ++ k ++ r ∧ (∀ c ∈ l, White c) ∧ (∀ c ∈ r, White c) ∧ k ≠ [] ∧
    (∀ c, k.head? = some c → ¬ White c) ∧ (∀ c, k.getLast? = some c → ¬ White c)

/-- A filter expression: a key, `=` or `!=`, a value; `true` is for `!=`. The first `!=` counts, and if there is none the
first `=`. -/
inductive Expr : List Char → Bool → List Char → List Char → Prop where
  | eq {a b k v} : ¬ ['!', '='] <:+: a ++ '=' :: b → '=' ∉ a → Blanked k a → Blanked v b → Expr (a ++ '=' :: b) false k v
  | ne {a b k v} : ¬ ['!', '='] <:+: a → Blanked k a → Blanked v b → Expr (a ++ '!' :: '=' :: b) true k v

/-- Nothing between two commas, or before the first or behind the last, is empty. -/
def NoEmptyItem (v : List Char) : Prop :=
  ∀ ps : List (List Char), v.filter (· ≠ ' ') = List.intercalate [','] ps → ps ≠ [] → (∀ p ∈ ps, ',' ∉ p) → [] ∉ ps

/-- the filters that take a list of values. -/
def listKeys : List String :=
  ["origin_asns", "peer_asns", "peer_ips", "prefixes", "prefixes_super", "prefixes_sub", "prefixes_super_sub"]

/-- The filter an expression stands for: with `=`, the filter of the key and the value; with `!=`, its negation. A time cannot
be negated, nor a value that is already negated, nor a list with an empty item. -/
inductive ExprDenotes (env : TextEnv) (s : List Char) : Filter env.Rx → Prop where
  | eq {k v f} : Expr s false k v → Denotes env (String.ofList k) v f → ExprDenotes env s f
  | ne {k v f} : Expr s true k v → Denotes env (String.ofList k) v f → depth f = 0 →
      String.ofList k ∉ ["ts_start", "start_ts", "ts_end", "end_ts"] →
      (String.ofList k ∈ listKeys → NoEmptyItem v) → ExprDenotes env s (.negated f)

/-- The only white space is blanks. -/
def OnlyBlanks (s : List Char) : Prop := ∀ c ∈ s, White c → c = ' '

/-! ### filter options -/

/-- What is assumed of the parsers and printers of addresses and prefixes (std, ipnet): what is printed is read back, and
nothing is read from an empty text or one that begins with an exclamation mark. -/
structure ReadsBack (env : TextEnv) (sh : ShowEnv) : Prop where
  shows : ShowOk sh
  net : ∀ n : IpNet, env.ipNet (n.text sh) = some n
  ip : ∀ a : Ip, env.ipAddr (a.text sh) = some a
  netBang : ∀ t, t = [] ∨ t.head? = some '!' → env.ipNet t = none
  ipBang : ∀ t, t = [] ∨ t.head? = some '!' → env.ipAddr t = none

/-- `--include-super`, `--include-sub`. -/
def scope : Bool → Bool → MatchType
  | false, false => .exact
  | true, false => .super
  | false, true => .sub
  | true, true => .superSub

/-- The element is one that the options ask for. -/
structure OptionsPass (env : TextEnv) (o : FilterOpts) (e : BgpElem) : Prop where
  asPath : ∀ v, o.asPath = some v → ∃ f, Denotes env "as_path" v f ∧ Passes env e f
  community : ∀ v, o.community = some v → ∃ f, Denotes env "community" v f ∧ Passes env e f
  origin : ∀ a, o.originAsn = some a → ∃ os, e.originAsns = some os ∧ a ∈ os
  pfx : ∀ p, o.prefix_ = some p → PrefixPasses p e.prefix_.prefix_ (scope o.includeSuper o.includeSub)
  peerIp : o.peerIp ≠ [] → e.peerIp ∈ o.peerIp
  peerAsn : ∀ a, o.peerAsn = some a → e.peerAsn = a
  type : ∀ v, o.elemType = some v → ∃ f, Denotes env "type" v f ∧ Passes env e f
  start : ∀ v, o.startTs = some v → ∃ t, env.seconds v = some t ∧ t * 1000000 ≤ e.time
  stop : ∀ v, o.endTs = some v → ∃ t, env.seconds v = some t ∧ e.time ≤ t * 1000000
  expr : ∀ s ∈ o.filters, ∃ f, ExprDenotes env s f ∧ Passes env e f
  v4 : o.ipv4Only = true → e.prefix_.prefix_.addr.isV4 = true
  v6 : o.ipv6Only = true → e.prefix_.prefix_.addr.isV4 = false

/-- An option for which there is no filter: the tool panics. -/
def BadOption (env : TextEnv) (o : FilterOpts) : Prop :=
  (∃ v, o.asPath = some v ∧ ∀ f, ¬ Denotes env "as_path" v f) ∨
  (∃ v, o.community = some v ∧ ∀ f, ¬ Denotes env "community" v f) ∨
  (∃ v, o.elemType = some v ∧ ∀ f, ¬ Denotes env "type" v f) ∨
  (∃ v, (o.startTs = some v ∨ o.endTs = some v) ∧ env.seconds v = none)

/-- The texts of the two times are numbers: they begin with neither an exclamation mark nor a star. -/
def TimeTexts (o : FilterOpts) : Prop := ∀ v, o.startTs = some v ∨ o.endTs = some v → v.head? ≠ some '!'

/-! ### output -/

/-- the items of a run up to its first error. -/
def shownItems : List (Except ε (Event α)) → List α
  | [] => []
  | .error _ :: _ => []
  | .ok (.gap _) :: l => shownItems l
  | .ok (.item a) :: l => a :: shownItems l

/-- the gaps of a run up to its first error. -/
def shownGaps : List (Except ε (Event α)) → List Gap
  | [] => []
  | .error _ :: _ => []
  | .ok (.gap g) :: l => g :: shownGaps l
  | .ok (.item _) :: l => shownGaps l

/-- the first error. -/
def firstError : List (Except ε (Event α)) → Option ε
  | [] => none
  | .error e :: _ => some e
  | .ok _ :: l => firstError l

/-- What the user sees on the standard output: every text and every total on a line. -/
def stdoutOf (r : CliRun ε) : List Char := (r.lines ++ r.totals).flatMap (· ++ ['\n'])

/-- Lines of text. -/
def linesText (ls : List (List Char)) : List Char := ls.flatMap (· ++ ['\n'])

/-- the line of an element in an output format (there is none in the text format, which shows records). -/
def elemLine (sh : ShowEnv) (oe : OutEnv) : OutFormat → BgpElem → List Char
  | .json, e => oe.elemJson e
  | .jsonPretty, e => oe.elemPretty e
  | .psv, e => e.psv sh
  | _, e => e.text sh

/-- All lines for some elements: PSV begins with a header, unless there are none. -/
def elemLines (sh : ShowEnv) (oe : OutEnv) (f : OutFormat) (es : List BgpElem) : List (List Char) :=
  (if f = .psv ∧ es ≠ [] then [psvHeader] else []) ++ es.map (elemLine sh oe f)

/-- the number of elements of some records, each converted after those before it. -/
def elemTotal (rs : List MrtRecord) : Nat := (elemsFrom [] rs).length

/-- how a run ends that is not stopped by its output. -/
def endingOf : Option ε → Ending ε
  | none => .done
  | some e => .error e

/-- number of gaps and of bytes skipped. -/
def gapTotals (gs : List Gap) : Nat × Nat := (gs.length, (gs.map fun g => g.stop - g.start).sum)

/-- A run of the command whose iterator gives `evs` and whose output is `text k` once `k` of the `total` items are
written. `w` says what the operating system answers to each write. Either all is written: then the gaps are reported, the
run ends as the iterator did, and a recovering run sums up its gaps. Or a write is refused: then the output is that of the
items before, and the run ends quietly if the reader has gone away, and with an error otherwise. -/
inductive Wrote (w : Nat → WriteRes) (total : Nat) (text : Nat → List Char) (evs : List (Except ε (Event α))) (recovering : Bool)
    (r : CliRun ε) : Prop where
  | all : (∀ i, i < total → w i = .ok) → stdoutOf r = text total → r.gaps = shownGaps evs → r.ending = endingOf (firstError evs) →
      r.summary = (if recovering then some (gapTotals (shownGaps evs)) else none) → Wrote w total text evs recovering r
  | cut (k : Nat) : k < total → (∀ i, i < k → w i = .ok) → stdoutOf r = text k →
      (w k = .brokenPipe ∧ r.ending = .closed ∨ w k = .failed ∧ r.ending = .writeFailed) → r.gaps <+: shownGaps evs →
      r.summary = none → Wrote w total text evs recovering r

/-- A run of the command that only prints totals: it does so even if the iterator ended with an error. -/
structure Counted (totals : List (List Char)) (evs : List (Except ε (Event α))) (recovering : Bool) (r : CliRun ε) : Prop where
  out : stdoutOf r = linesText totals
  gaps : r.gaps = shownGaps evs
  ending : r.ending = endingOf (firstError evs)
  summary : r.summary = if recovering then some (gapTotals (shownGaps evs)) else none

/-- the totals asked for, of records and of elements. -/
def totalLines (elemsCount recordsCount : Bool) (rs : List MrtRecord) : List (List Char) :=
  match elemsCount, recordsCount with
  | true, true => [lit "total records: " ++ decText rs.length, lit "total elems:   " ++ decText (elemTotal rs)]
  | true, false => [lit "total elems: " ++ decText (elemTotal rs)]
  | false, true => [lit "total records: " ++ decText rs.length]
  | false, false => []

/-- Bytes in hexadecimal: two small digits for each. -/
inductive SmallHex : List Char → Bytes → Prop where
  | nil : SmallHex [] []
  | cons {h l : Char} {b : UInt8} {t : List Char} {bs : Bytes} : "0123456789abcdef".toList[b.toNat / 16]? = some h →
      "0123456789abcdef".toList[b.toNat % 16]? = some l → SmallHex t bs → SmallHex (h :: l :: t) (b :: bs)

/-- The output format: the short options win over `--format`, in this order. -/
inductive FormatOf (o : CliOpts) : OutFormat → Prop where
  | pretty : o.pretty = true → FormatOf o .jsonPretty
  | json : o.pretty = false → o.json = true → FormatOf o .json
  | psv : o.pretty = false → o.json = false → o.psv = true → FormatOf o .psv
  | named : o.pretty = false → o.json = false → o.psv = false → FormatOf o o.format

end Verif.Spec
