import Verif.Model.Display
import Verif.Model.Recovery
/-
The command line tool: `/repo/src/bin/main.rs`. Options are given parsed (clap is not modelled).
-/
namespace Verif

/-! ### filter expressions -/

/-- `char::is_whitespace` (std; Unicode property `White_Space`). -/
def isWs (c : Char) : Bool :=
  [9, 10, 11, 12, 13, 32, 133, 160, 5760, 8192, 8193, 8194, 8195, 8196, 8197, 8198, 8199, 8200, 8201, 8202, 8232, 8233, 8239,
    8287, 12288].contains c.toNat

/-- `str::trim` (std). -/
def trimText (s : List Char) : List Char := ((s.dropWhile isWs).reverse.dropWhile isWs).reverse

/-- `expr.find("!=")` (std) with the texts before and behind. -/
def findNe : List Char → Option (List Char × List Char)
  | [] => none
  | c :: cs =>
    match c, cs with
    | '!', '=' :: r => some ([], r)
    | _, _ =>
      match findNe cs with
      | some (a, b) => some (c :: a, b)
      | none => none

/-- `expr.find('=')` (std) with the texts before and behind. -/
def findEq : List Char → Option (List Char × List Char)
  | [] => none
  | c :: cs =>
    if c = '=' then some ([], cs)
    else
      match findEq cs with
      | some (a, b) => some (c :: a, b)
      | none => none

/-- the three errors of `parse_filter_expression`. -/
inductive ExprErr where
  | noKey
  | noValue
  | noOperator
deriving DecidableEq, Repr

/-- `parse_filter_expression` (bin/main.rs 566-618). -/
def parseExpr (s : List Char) : Except ExprErr (List Char × List Char) :=
  match findNe s with
  | some (a, b) =>
    let key := trimText a
    let value := trimText b
    if key.isEmpty then .error .noKey
    else if value.isEmpty then .error .noValue
    else if multiValue.contains (String.ofList key) then
      .ok (key, joinSep [','] ((splitComma value).map fun v => '!' :: trimText v))
    else .ok (key, '!' :: value)
  | none =>
    match findEq s with
    | some (a, b) =>
      let key := trimText a
      let value := trimText b
      if key.isEmpty then .error .noKey
      else if value.isEmpty then .error .noValue
      else .ok (key, value)
    | none => .error .noOperator

/-! ### filter options -/

/-- how `main` stops before it reads records: `unwrap` of an error, or a message and `exit(1)`. -/
inductive CliStop where
  | panic
  | exit
deriving DecidableEq, Repr

/-- `Filters` (bin/main.rs 91-157). The two times are the texts `v.to_string()` of the `f64`s. -/
structure FilterOpts where
  originAsn : Option UInt32 := none
  filters : List (List Char) := []
  prefix_ : Option IpNet := none
  includeSuper : Bool := false
  includeSub : Bool := false
  ipv4Only : Bool := false
  ipv6Only : Bool := false
  peerIp : List Ip := []
  peerAsn : Option UInt32 := none
  elemType : Option (List Char) := none
  startTs : Option (List Char) := none
  endTs : Option (List Char) := none
  asPath : Option (List Char) := none
  community : Option (List Char) := none

/-- `filter_type` of `--prefix` (bin/main.rs 190-195). -/
def prefixOption : Bool → Bool → String
  | false, false => "prefix"
  | true, false => "prefix_super"
  | false, true => "prefix_sub"
  | true, true => "prefix_super_sub"

/-- the call for an option that may be absent. -/
def asked (ty : String) (f : α → List Char) : Option α → List (String × List Char)
  | some v => [(ty, f v)]
  | none => []

/-- the calls `parser.add_filter(..).unwrap()` for the options (bin/main.rs 178-219), in order. -/
def FilterOpts.named (sh : ShowEnv) (o : FilterOpts) : List (String × List Char) :=
  asked "as_path" id o.asPath ++ asked "community" id o.community ++ asked "origin_asn" (fun v => decText v.toNat) o.originAsn ++
  asked (prefixOption o.includeSuper o.includeSub) (IpNet.text sh) o.prefix_ ++
  (if o.peerIp.isEmpty then [] else [("peer_ips", joinSep [','] (o.peerIp.map fun a => a.text sh))]) ++
  asked "peer_asn" (fun v => decText v.toNat) o.peerAsn ++ asked "type" id o.elemType ++ asked "start_ts" id o.startTs ++
  asked "end_ts" id o.endTs

/-- `add_filter` (parser/mod.rs 400-414) once for each, `unwrap`ped (bin/main.rs 178-219). -/
def addNamed (env : TextEnv) : List (String × List Char) → List (Filter env.Rx) → Except CliStop (List (Filter env.Rx))
  | [], fs => .ok fs
  | (ty, v) :: l, fs =>
    match Filter.new env ty v with
    | .ok f => addNamed env l (fs ++ [f])
    | .error _ => .error .panic

/-- the loop over `--filter` (bin/main.rs 222-240). -/
def addExprs (env : TextEnv) : List (List Char) → List (Filter env.Rx) → Except CliStop (List (Filter env.Rx))
  | [], fs => .ok fs
  | s :: l, fs =>
    match parseExpr s with
    | .error _ => .error .exit
    | .ok (k, v) =>
      match Filter.new env (String.ofList k) v with
      | .ok f => addExprs env l (fs ++ [f])
      | .error _ => .error .exit

/-- the IP version options (bin/main.rs 242-256). -/
def addVersion (env : TextEnv) (o : FilterOpts) (fs : List (Filter env.Rx)) : Except CliStop (List (Filter env.Rx)) :=
  match o.ipv4Only, o.ipv6Only with
  | true, true => .error .exit
  | false, false => .ok fs
  | true, false => addNamed env [("ip_version", lit "ipv4")] fs
  | false, true => addNamed env [("ip_version", lit "ipv6")] fs

/-- the filters of the parser once the options are read (bin/main.rs 178-256). -/
def FilterOpts.all (env : TextEnv) (sh : ShowEnv) (o : FilterOpts) : Except CliStop (List (Filter env.Rx)) :=
  match addNamed env (o.named sh) [] with
  | .error e => .error e
  | .ok fs =>
    match addExprs env o.filters fs with
    | .error e => .error e
    | .ok fs => addVersion env o fs

/-! ### what is run -/

/-- `OutputFormat` (bin/main.rs 12-28). -/
inductive OutFormat where
  | default
  | json
  | jsonPretty
  | psv
  | text
deriving DecidableEq, Repr

/-- the other options (bin/main.rs 42-89); `records` is `OutputLevel::Records`. -/
structure CliOpts where
  format : OutFormat := .default
  records : Bool := false
  json : Bool := false
  pretty : Bool := false
  psv : Bool := false
  hex : Bool := false
  elemsCount : Bool := false
  recordsCount : Bool := false
  recover : Bool := false
deriving DecidableEq, Repr

/-- `output_format` (bin/main.rs 258-267). -/
def CliOpts.out (o : CliOpts) : OutFormat :=
  if o.pretty then .jsonPretty else if o.json then .json else if o.psv then .psv else o.format

/-- `counting` (bin/main.rs 271). -/
def CliOpts.counting (o : CliOpts) : Bool := o.elemsCount || o.recordsCount

/-- `use_elem_stream` (bin/main.rs 290-292). -/
def CliOpts.elemStream (o : CliOpts) : Bool :=
  ((o.elemsCount && !o.recordsCount) || (!o.elemsCount && !o.recordsCount && !o.records)) && o.out != .text

/-- which of the five loops runs (bin/main.rs 299-338). -/
inductive Pipeline where
  | hex
  | elems (recovering : Bool)
  | records (recovering : Bool)
deriving DecidableEq, Repr

/-- the checks and the choice of the loop (bin/main.rs 271-338). -/
def CliOpts.pipeline (o : CliOpts) : Except CliStop Pipeline :=
  if o.hex && !o.counting && !(o.out == .json || o.out == .jsonPretty || o.out == .text) then .error .exit
  else if o.hex && !o.counting && o.recover then .error .exit
  else if o.hex && !o.counting then .ok .hex
  else if o.elemStream then .ok (.elems o.recover)
  else .ok (.records o.recover)

/-- The texts that are not modelled: JSON of elements and of records, with or without a `hex` field, `Display` and the
layered text of records. -/
structure OutEnv where
  elemJson : BgpElem → List Char
  elemPretty : BgpElem → List Char
  recJson : MrtRecord → Option (List Char) → List Char
  recPretty : MrtRecord → Option (List Char) → List Char
  recText : MrtRecord → Option (List Char) → List Char
  recLine : MrtRecord → List Char

/-- `format_elem` (bin/main.rs 511-532); `none` is the `unreachable!`. -/
def formatElem (sh : ShowEnv) (oe : OutEnv) (f : OutFormat) (index : Nat) (e : BgpElem) : Option (List Char) :=
  match f with
  | .json => some (oe.elemJson e)
  | .jsonPretty => some (oe.elemPretty e)
  | .psv => some (if index = 0 then psvHeader ++ ['\n'] ++ e.psv sh else e.psv sh)
  | .default => some (e.text sh)
  | .text => none

/-- `format_record` (bin/main.rs 534-564). -/
def formatRecord (oe : OutEnv) (f : OutFormat) (r : MrtRecord) (hex : Option (List Char)) : List Char :=
  match f with
  | .json => oe.recJson r hex
  | .jsonPretty => oe.recPretty r hex
  | .text => oe.recText r hex
  | .psv | .default => oe.recLine r

/-- what `writeln!` to the standard output says (bin/main.rs 501-509). -/
inductive WriteRes where
  | ok
  | brokenPipe
  | failed
deriving DecidableEq, Repr

/-- how a run ends: regularly, with the error of the iterator, or with a closed or failing output; a panic is the
`unreachable!` of `format_elem`. -/
inductive Ending (ε : Type) where
  | done
  | error (e : ε)
  | closed
  | writeFailed
  | panic
deriving DecidableEq, Repr

/-- What a run has put out: the texts written, the gaps reported, the totals printed, the summary of recovery (number of
gaps and bytes), and how it ended. `skipped_bytes` is a `u64` in the code and a number here. -/
structure CliRun (ε : Type) where
  lines : List (List Char) := []
  gaps : List Gap := []
  totals : List (List Char) := []
  summary : Option (Nat × Nat) := none
  ending : Ending ε := .done
deriving DecidableEq, Repr

/-- the variables of `run_elems` and `run_records` (bin/main.rs 394-399, 436-442). `index` is also the number of texts
written. -/
structure CliState where
  lines : List (List Char) := []
  gaps : List Gap := []
  records : Nat := 0
  elems : Nat := 0
  index : Nat := 0
  gapCount : Nat := 0
  skipped : Nat := 0
  elementor : Elementor := .new

/-- `RecoveryStats::observe` (bin/main.rs 359-372). -/
def CliState.observe (st : CliState) (g : Gap) : CliState :=
  { st with gaps := st.gaps ++ [g], gapCount := st.gapCount + 1, skipped := st.skipped + g.skipped }

/-- `RecoveryStats::print_summary` (bin/main.rs 374-381). -/
def CliState.summary (st : CliState) (enabled : Bool) : Option (Nat × Nat) :=
  if enabled then some (st.gapCount, st.skipped) else none

/-- a run that stops in the middle of writing. -/
def CliState.stop (st : CliState) (e : Ending ε) : CliRun ε := { lines := st.lines, gaps := st.gaps, ending := e }

/-- the end of `run_elems` (bin/main.rs 419-423). -/
def elemsEnd (count recovering : Bool) (st : CliState) (e : Ending ε) : CliRun ε where
  lines := st.lines
  gaps := st.gaps
  totals := if count then [lit "total elems: " ++ decText st.elems] else []
  summary := st.summary recovering
  ending := e

/-- the loop of `run_elems` (bin/main.rs 400-424). `w i` is the answer to the `i`th write. -/
def elemsLoop (w : Nat → WriteRes) (fmt : Nat → BgpElem → Option (List Char)) (count recovering : Bool) :
    List (Except ε (Event BgpElem)) → CliState → CliRun ε
  | [], st => elemsEnd count recovering st .done
  | .error e :: _, st => elemsEnd count recovering st (.error e)
  | .ok (.gap g) :: l, st => elemsLoop w fmt count recovering l (st.observe g)
  | .ok (.item e) :: l, st =>
    let st := { st with elems := st.elems + 1 }
    if count then elemsLoop w fmt count recovering l st
    else
      match fmt st.index e with
      | none => st.stop .panic
      | some t =>
        match w st.index with
        | .ok => elemsLoop w fmt count recovering l { st with lines := st.lines ++ [t], index := st.index + 1 }
        | .brokenPipe => st.stop .closed
        | .failed => st.stop .writeFailed

/-- `run_elems` (bin/main.rs 384-424). -/
def runElems (sh : ShowEnv) (oe : OutEnv) (w : Nat → WriteRes) (f : OutFormat) (count recovering : Bool)
    (events : List (Except ε (Event BgpElem))) : CliRun ε := elemsLoop w (formatElem sh oe f) count recovering events {}

/-- the end of `run_records` (bin/main.rs 468-479). -/
def recordsEnd (elemsCount recordsCount recovering : Bool) (st : CliState) (e : Ending ε) : CliRun ε where
  lines := st.lines
  gaps := st.gaps
  totals :=
    match elemsCount, recordsCount with
    | true, true => [lit "total records: " ++ decText st.records, lit "total elems:   " ++ decText st.elems]
    | false, true => [lit "total records: " ++ decText st.records]
    | true, false => [lit "total elems: " ++ decText st.elems]
    | false, false => []
  summary := st.summary recovering
  ending := e

/-- the loop of `run_records` (bin/main.rs 443-479). -/
def recordsLoop (w : Nat → WriteRes) (fmt : MrtRecord → List Char) (elemsCount recordsCount recovering : Bool) :
    List (Except ε (Event MrtRecord)) → CliState → CliRun ε
  | [], st => recordsEnd elemsCount recordsCount recovering st .done
  | .error e :: _, st => recordsEnd elemsCount recordsCount recovering st (.error e)
  | .ok (.gap g) :: l, st => recordsLoop w fmt elemsCount recordsCount recovering l (st.observe g)
  | .ok (.item r) :: l, st =>
    let st := { st with records := st.records + 1 }
    if elemsCount then
      let (es, el) := st.elementor.recordToElems r
      recordsLoop w fmt elemsCount recordsCount recovering l { st with elems := st.elems + es.length, elementor := el }
    else if recordsCount then recordsLoop w fmt elemsCount recordsCount recovering l st
    else
      match w st.index with
      | .ok => recordsLoop w fmt elemsCount recordsCount recovering l { st with lines := st.lines ++ [fmt r], index := st.index + 1 }
      | .brokenPipe => st.stop .closed
      | .failed => st.stop .writeFailed

/-- `run_records` (bin/main.rs 426-479). -/
def runRecords (oe : OutEnv) (w : Nat → WriteRes) (f : OutFormat) (elemsCount recordsCount recovering : Bool)
    (events : List (Except ε (Event MrtRecord))) : CliRun ε :=
  recordsLoop w (fun r => formatRecord oe f r none) elemsCount recordsCount recovering events {}

/-- `hex::encode` (render/hex.rs 15-23). -/
def hexEncode (bs : Bytes) : List Char :=
  let digits := "0123456789abcdef".toList
  bs.flatMap fun b => [digits.getD (b.toNat / 16) ' ', digits.getD (b.toNat % 16) ' ']

/-- the loop of `run_hex_records` (bin/main.rs 484-499). -/
def hexLoop (oe : OutEnv) (w : Nat → WriteRes) (f : OutFormat) : List (Raw × MrtRecord) → CliState → CliRun ε
  | [], st => st.stop .done
  | (raw, r) :: l, st =>
    match w st.index with
    | .ok =>
      hexLoop oe w f l { st with lines := st.lines ++ [formatRecord oe f r (some (hexEncode raw.bytes))], index := st.index + 1 }
    | .brokenPipe => st.stop .closed
    | .failed => st.stop .writeFailed

/-- `run_hex_records` (bin/main.rs 484-499). -/
def runHex (oe : OutEnv) (w : Nat → WriteRes) (f : OutFormat) (records : List (Raw × MrtRecord)) : CliRun ε := hexLoop oe w f records {}

/-- the exit status (bin/main.rs 339-342): 101 is that of a panic. -/
def CliRun.status (r : CliRun ε) : Nat :=
  match r.ending with
  | .done | .closed => 0
  | .error _ | .writeFailed => 1
  | .panic => 101

/-- What the iterators give to the loops, each run to its end with at most `n` items; the options for filters are read
before. `main` (bin/main.rs 299-342), for an MRT file read from `s`. -/
def cliMain (env : TextEnv) (sh : ShowEnv) (oe : OutEnv) (w : Nat → WriteRes) (pol : Pol) (n : Nat) (fo : FilterOpts) (o : CliOpts)
    (s : Src) : Except CliStop (CliRun RecoveryError) :=
  match fo.all env sh with
  | .error e => .error e
  | .ok fs =>
    match o.pipeline with
    | .error e => .error e
    | .ok .hex =>
      .ok (runHex oe w o.out (forLoop (filteredRawIter (filterKeep env fs) false pol) n (.new, s)).1)
    | .ok (.elems true) =>
      .ok (runElems sh oe w o.out o.elemsCount true (forLoop (recoveringElemNext env fs {} pol) n (.new false s)).1)
    | .ok (.elems false) =>
      .ok (runElems sh oe w o.out o.elemsCount false
        ((forLoop (elemNext env fs false pol) n (ElemIter.new s)).1.map fun e => .ok (.item e)))
    | .ok (.records true) =>
      .ok (runRecords oe w o.out o.elemsCount o.recordsCount true
        (forLoop (recoveringNext (filterKeep env fs) {} pol) n (.new false .new s)).1)
    | .ok (.records false) =>
      .ok (runRecords oe w o.out o.elemsCount o.recordsCount false
        ((forLoop (defaultIter (filterKeep env fs) false pol) n (.new, s)).1.map fun r => .ok (.item r)))

end Verif
