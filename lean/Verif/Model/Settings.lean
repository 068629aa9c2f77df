import Verif.Model.TextDump
/-
The parser as an object: its settings (src/parser/mod.rs), and what iterating over it does besides returning records and
elements: log lines and the core dump file (src/parser/iters/mod.rs 79-152, default.rs). Simplification: a log line is its
level and the kind of the error; the file `mrt_core_dump` can always be written.
-/
namespace Verif

/-- A line of the log: the remark about Zebra records (mod.rs 71-73), a warning or an error about a record. -/
inductive LogLine where
  | zebra
  | warning (e : Err)
  | failure (e : Err)
deriving DecidableEq, Repr

/-- What is outside the parser: the log so far, and the file `mrt_core_dump`, if there is one. -/
structure World where
  log : List LogLine
  dump : Option Bytes
deriving DecidableEq, Repr

/-- `BgpkitParser` (mod.rs 45-53) with the two fields of `ParserOptions` (55-58). -/
structure Parser (env : TextEnv) where
  input : Input
  coreDump : Bool
  filters : List (Filter env.Rx)
  showWarnings : Bool
  warnedZebra : Bool

/-- `from_reader` (mod.rs 213-222) and the end of the other constructors (81-88, 260-267, 290-305). -/
def Parser.new (env : TextEnv) (input : Input) : Parser env := ⟨input, false, [], true, false⟩

/-- the methods that take a parser and return one (mod.rs 315-334, 401-416, 439-442, 466-469). -/
inductive Setting (env : TextEnv) where
  | enableCoreDump
  | disableWarnings
  | addFilter (ty : String) (value : List Char)
  | addFilters (fs : List (Filter env.Rx))
  | withFilters (fs : List (Filter env.Rx))

/-- one such call. -/
def Parser.set (p : Parser env) : Setting env → Except Err (Parser env)
  | .enableCoreDump => .ok { p with coreDump := true }
  | .disableWarnings => .ok { p with showWarnings := false }
  | .addFilter ty value =>
    match Filter.new env ty value with
    | .error e => .error e
    | .ok f => .ok { p with filters := p.filters ++ [f] }
  | .addFilters fs => .ok { p with filters := p.filters ++ fs }
  | .withFilters fs => .ok { p with filters := fs }

/-- a chain of such calls, each but the last followed by `?` or `unwrap()`. -/
def Parser.configure (p : Parser env) : List (Setting env) → Except Err (Parser env)
  | [] => .ok p
  | c :: cs =>
    match p.set c with
    | .error e => .error e
    | .ok p => p.configure cs

/-! ### effects -/

/-- `write_mrt_core_dump` (iters/mod.rs 136-152). -/
def World.writeDump (w : World) (enabled : Bool) (bytes : Option Bytes) : World :=
  if enabled then
    match bytes with
    | some b => { w with dump := some b }
    | none => w
  else w

/-- `warn!` under `show_warnings`. -/
def World.warn (w : World) (show_ : Bool) (l : LogLine) : World := if show_ then { w with log := w.log ++ [l] } else w

/-- `error!`, which no setting suppresses. -/
def World.fail (w : World) (e : Err) : World := { w with log := w.log ++ [.failure e] }

/-- `warn_zebra_compat_once` (mod.rs 69-76, 311-313). -/
def Parser.warnZebra (p : Parser env) (w : World) : Parser env × World :=
  if p.showWarnings && !p.warnedZebra then ({ p with warnedZebra := true }, { w with log := w.log ++ [.zebra] }) else (p, w)

/-- `raw_record_uses_zebra_compat` (mrt_record.rs 280-288). -/
def Raw.zebra (r : Raw) : Bool :=
  match r.header.type with
  | .bgp4mp | .bgp4mpEt => usesZebraCompat r.header.subtype r.body
  | _ => false

/-- `BgpkitParser::next_record` (mod.rs 224-239) with `parse_mrt_record_with_zebra_compat` (mrt_record.rs 290-305). -/
def Parser.nextRecord (pol : Pol) (p : Parser env) (w : World) : Except RecErr MrtRecord × Parser env × World :=
  match p.input with
  | .text _ => (.error ⟨.unsupported, none⟩, p, w)
  | .mrt s =>
    match chunk pol s with
    | (.error e, s) => (.error e, { p with input := .mrt s }, w)
    | (.ok raw, s) =>
      match raw.parse with
      | .error e => (.error ⟨e, some raw.bytes⟩, { p with input := .mrt s }, w)
      | .ok r => (.ok r, if raw.zebra then ({ p with input := .mrt s } : Parser env).warnZebra w else ({ p with input := .mrt s }, w))

/-- `handle_record_parse_error` (iters/mod.rs 86-134): whether to go on, and the effects. A panic (not an error in Rust) ends
everything; the kinds of BMP errors do not occur. -/
def Parser.handleError (p : Parser env) (w : World) (e : RecErr) : Bool × World :=
  match e.error with
  | .truncated | .unsupported => (true, (w.warn p.showWarnings (.warning e.error)).writeDump p.coreDump e.bytes)
  | .parse => (!p.coreDump, (w.fail e.error).writeDump p.coreDump e.bytes)
  | .eofExpected => (false, w)
  | .io | .ioEof | .eof => (false, (w.fail e.error).writeDump p.coreDump e.bytes)
  | .filter => (false, w)
  | .invalidLabeledNlriLength | .truncatedLabeledNlri | .truncatedPrefix | .maxLabelStackDepthExceeded
  | .peerMaxLabelsExceeded | .invalidPrefix => (true, w.warn p.showWarnings (.warning e.error))
  | .panic => (false, w)
  | .bmpHeader | .bmpUnsupported | .bmpTlvType | .bmpTlvValue | .bmpCorrupted => (true, w)

/-- `RecordIterator` (default.rs 14-18) and the world; the count of calls is left out. -/
structure RecordRun (env : TextEnv) where
  parser : Parser env
  elementor : Elementor
  world : World

/-- the loop of `RecordIterator::next` (default.rs 40-56). Fuel: every round that does not return consumes input. -/
def RecordRun.loop (pol : Pol) : Nat → RecordRun env → Option MrtRecord × RecordRun env
  | 0, it => (none, it)
  | fuel + 1, it =>
    match it.parser.nextRecord pol it.world with
    | (.ok r, p, w) =>
      match (filterKeep env p.filters).step it.elementor r with
      | (true, el) => (some r, ⟨p, el, w⟩)
      | (false, el) => RecordRun.loop pol fuel ⟨p, el, w⟩
    | (.error e, p, w) =>
      match p.handleError w e with
      | (true, w) => RecordRun.loop pol fuel ⟨p, it.elementor, w⟩
      | (false, w) => (none, ⟨p, it.elementor, w⟩)

/-- what the reader can still deliver; nothing for a text dump. -/
def Input.size : Input → Nat
  | .mrt s => s.size
  | .text _ => 0

/-- `RecordIterator::next` (default.rs 33-57). -/
def RecordRun.next (pol : Pol) (it : RecordRun env) : Option MrtRecord × RecordRun env :=
  match it.parser.input with
  | .text _ => (none, it)
  | .mrt _ => it.loop pol (it.parser.input.size + 1)

/-- `into_record_iter` (iters/mod.rs). -/
def Parser.records (p : Parser env) (w : World) : RecordRun env := ⟨p, .new, w⟩

/-- `ElemIterator` (default.rs 64-69) and the world. -/
structure ElemRun (env : TextEnv) where
  cache : List BgpElem
  elementor : Elementor
  records : RecordRun env

/-- the loop that takes records (default.rs 99-128), as `refill`. -/
def ElemRun.refill (pol : Pol) : Nat → ElemRun env → Option BgpElem × ElemRun env
  | 0, it => (none, it)
  | fuel + 1, it =>
    match it.records.next pol with
    | (none, rs) => (none, { it with records := rs })
    | (some r, rs) =>
      let (es, el) := it.elementor.recordToElems r
      if es.isEmpty then ElemRun.refill pol fuel ⟨it.cache, el, rs⟩
      else
        match popMatch (fun e => e.matchFilters env rs.parser.filters) es.length es.reverse with
        | (some e, c) => (some e, ⟨c, el, rs⟩)
        | (none, c) => ElemRun.refill pol fuel ⟨c, el, rs⟩

/-- `ElemIterator::next` (default.rs 85-130). The result is an error for a panic of the text dump reader. -/
def ElemRun.next (denv : DumpEnv) (pol : Pol) (it : ElemRun env) : Except Err (Option BgpElem) × ElemRun env :=
  let p := it.records.parser
  match p.input with
  | .text t =>
    let (r, t) := textElemNext denv env p.filters t
    (r, { it with records := { it.records with parser := { p with input := .text t } } })
  | .mrt s =>
    match popMatch (fun e => e.matchFilters env p.filters) it.cache.length it.cache with
    | (some e, c) => (.ok (some e), { it with cache := c })
    | (none, c) =>
      let (r, it) := ElemRun.refill pol (s.size + 1) { it with cache := c }
      (.ok r, it)

/-- `into_elem_iter`, `into_iter` (iters/mod.rs 155-163, default.rs 71-80). -/
def Parser.elems (p : Parser env) (w : World) : ElemRun env := ⟨[], .new, p.records w⟩

end Verif
