import Verif.Model.Filter
/-
Text dumps (`sh ip bgp`): `/repo/src/parser/text_dump.rs`, and the constructors for them in `/repo/src/parser/mod.rs`.

A Rust `&str` is represented by its bytes, which are UTF-8 (`utf8Ok`); positions in it are byte positions.
-/
namespace Verif

/-- The parsers of other crates that the text dump parser uses, as arbitrary functions on the bytes of a text:
`IpAddr::from_str` (std) and `IpNet::from_str` (ipnet). -/
structure DumpEnv where
  ipAddr : Bytes → Option Ip
  ipNet : Bytes → Option IpNet

/-! ### text (std) -/

/-- the bytes of an ASCII literal. -/
def ascii (s : String) : Bytes := s.toList.map fun c => UInt8.ofNat c.toNat

/-- `u8::is_ascii_whitespace` (std). -/
def asciiWs (b : UInt8) : Bool := b == 9 || b == 10 || b == 12 || b == 13 || b == 32

/-- `u8::is_ascii_digit` (std). -/
def asciiDigit (b : UInt8) : Bool := 48 ≤ b && b ≤ 57

/-- `u8::is_ascii_graphic` (std). -/
def asciiGraphic (b : UInt8) : Bool := 33 ≤ b && b ≤ 126

/-- the characters of `char::is_whitespace` (std; Unicode property `White_Space`) in UTF-8. -/
def wsChars : List Bytes :=
  [[9], [10], [11], [12], [13], [32], [0xC2, 0x85], [0xC2, 0xA0], [0xE1, 0x9A, 0x80], [0xE2, 0x80, 0x80], [0xE2, 0x80, 0x81],
    [0xE2, 0x80, 0x82], [0xE2, 0x80, 0x83], [0xE2, 0x80, 0x84], [0xE2, 0x80, 0x85], [0xE2, 0x80, 0x86], [0xE2, 0x80, 0x87],
    [0xE2, 0x80, 0x88], [0xE2, 0x80, 0x89], [0xE2, 0x80, 0x8A], [0xE2, 0x80, 0xA8], [0xE2, 0x80, 0xA9], [0xE2, 0x80, 0xAF],
    [0xE2, 0x81, 0x9F], [0xE3, 0x80, 0x80]]

/-- removing items of `ws` from the front as long as there are any. Fuel: the length. -/
def stripFront (ws : List Bytes) : Nat → Bytes → Bytes
  | 0, s => s
  | fuel + 1, s =>
    match ws.find? (·.isPrefixOf s) with
    | some w => stripFront ws fuel (s.drop w.length)
    | none => s

/-- `str::trim_start` (std). -/
def trimStart (s : Bytes) : Bytes := stripFront wsChars s.length s

/-- `str::trim_end` (std). -/
def trimEnd (s : Bytes) : Bytes := (stripFront (wsChars.map List.reverse) s.length s.reverse).reverse

/-- `str::trim` (std). -/
def trim (s : Bytes) : Bytes := trimStart (trimEnd s)

/-- a collected word, if it is not empty. -/
def flush (cur : Bytes) : List Bytes := if cur.isEmpty then [] else [cur]

/-- `str::split_whitespace` (std): `cur` is the word being collected. Fuel: the length. -/
def splitWsLoop : Nat → Bytes → Bytes → List Bytes
  | 0, cur, _ => flush cur
  | fuel + 1, cur, s =>
    match wsChars.find? (·.isPrefixOf s) with
    | some w => flush cur ++ splitWsLoop fuel [] (s.drop w.length)
    | none =>
      match s with
      | [] => flush cur
      | b :: r => splitWsLoop fuel (cur ++ [b]) r

/-- `str::split_whitespace` (std). -/
def splitWhitespace (s : Bytes) : List Bytes := splitWsLoop s.length [] s

/-- `str::is_char_boundary` (std). -/
def charBoundary (s : Bytes) (i : Nat) : Bool :=
  i == 0 || i == s.length || (match s[i]? with | some b => b < 0x80 || 0xC0 ≤ b | none => false)

/-- `str::get(a..b)` (std). -/
def strGet (s : Bytes) (a b : Nat) : Option Bytes :=
  if a ≤ b ∧ charBoundary s a = true ∧ charBoundary s b = true then some ((s.drop a).take (b - a)) else none

/-- `str::get(a..)` (std). -/
def strFrom (s : Bytes) (a : Nat) : Option Bytes := if charBoundary s a = true then some (s.drop a) else none

/-- `str::split_once` (std): before and after the first occurrence of a non-empty pattern. -/
def splitOnce (pat : Bytes) : Bytes → Option (Bytes × Bytes)
  | [] => none
  | b :: r =>
    if pat.isPrefixOf (b :: r) then some ([], (b :: r).drop pat.length)
    else (splitOnce pat r).map fun (x, y) => (b :: x, y)

/-- `str::split(pat).nth(1)` (std): what is between the first and the second occurrence of the pattern. -/
def splitSecond (pat s : Bytes) : Option Bytes :=
  (splitOnce pat s).map fun (_, r) =>
    match splitOnce pat r with
    | some (x, _) => x
    | none => r

/-- the digits of `u32::from_str`, `u64::from_str` (std): values below `bound`. -/
def decLoop (bound : Nat) : Nat → Bytes → Option Nat
  | acc, [] => some acc
  | acc, b :: r =>
    if asciiDigit b then
      let v := acc * 10 + (b.toNat - 48)
      if v < bound then decLoop bound v r else none
    else none

/-- `u32::from_str`, `u64::from_str` (std): an optional `+` and at least one digit. -/
def parseDec (bound : Nat) : Bytes → Option Nat
  | [] => none
  | b :: r => if b = 43 then (if r.isEmpty then none else decLoop bound 0 r) else decLoop bound 0 (b :: r)

/-- `u32::from_str` (std). -/
def decU32 (s : Bytes) : Option UInt32 := (parseDec 4294967296 s).map UInt32.ofNat

/-! ### the header -/

/-- `ColumnPositions` (text_dump.rs 45). -/
structure Cols where
  nextHop : Nat
  metric : Nat
  localPref : Nat
  weight : Nat
  path : Nat
deriving DecidableEq, Repr

/-- the tokens of a line with their positions (text_dump.rs 88-107); `from_utf8` cannot fail on a piece of UTF-8 text
between ASCII characters. `pos` is the position of the next byte, `cur` the token being collected. -/
def tokensAt : Nat → Bytes → Bytes → List (Nat × Bytes)
  | pos, cur, [] => if cur.isEmpty then [] else [(pos - cur.length, cur)]
  | pos, cur, b :: r =>
    if asciiWs b then (if cur.isEmpty then [] else [(pos - cur.length, cur)]) ++ tokensAt (pos + 1) [] r
    else tokensAt (pos + 1) (cur ++ [b]) r

/-- the merging of `Next` and `Hop` (text_dump.rs 115-129). -/
def mergeNextHop : List (Nat × Bytes) → List (Nat × Bytes)
  | [] => []
  | [t] => [t]
  | t :: u :: r =>
    if t.2 = ascii "Next" ∧ u.2 = ascii "Hop" then (t.1, ascii "Next Hop") :: mergeNextHop r else t :: mergeNextHop (u :: r)

/-- the position of the last column of that name (text_dump.rs 135-141). -/
def lastPos (cols : List (Nat × Bytes)) (name : Bytes) : Option Nat := (cols.reverse.find? fun t => t.2 == name).map Prod.fst

/-- `parse_column_header` (text_dump.rs 86-154). -/
def columnHeader (line : Bytes) : Option Cols :=
  let cols := mergeNextHop (tokensAt 0 [] line)
  match lastPos cols (ascii "Next Hop"), lastPos cols (ascii "Metric"), lastPos cols (ascii "LocPrf"),
      lastPos cols (ascii "Weight"), lastPos cols (ascii "Path") with
  | some n, some m, some l, some w, some p => if n < m ∧ m < l ∧ l < w ∧ w < p then some ⟨n, m, l, w, p⟩ else none
  | _, _, _, _, _ => none

/-- `TextDumpHeader` (text_dump.rs 48-57). -/
structure DumpHeader where
  tableVersion : Option Nat
  routerId : Option Ip
  localAs : Option UInt32
  cols : Option Cols
deriving DecidableEq, Repr

/-- the line with the table version (text_dump.rs 177-188). -/
def versionLine (env : DumpEnv) (h : DumpHeader) (line : Bytes) : DumpHeader :=
  if (ascii "BGP table version is ").isPrefixOf line then
    match splitOnce [44] (line.drop 21) with
    | none => h
    | some (ver, rest) =>
      let h := { h with tableVersion := parseDec 18446744073709551616 (trim ver) }
      match splitSecond (ascii "local router ID is ") rest with
      | none => h
      | some rid =>
        match splitOnce [44] rid with
        | none => h
        | some (r, _) => { h with routerId := env.ipAddr (trim r) }
  else h

/-- the line with the local AS number (text_dump.rs 190-194). -/
def localAsLine (h : DumpHeader) (line : Bytes) : DumpHeader :=
  if (ascii "Default local pref").isPrefixOf line then
    match splitSecond (ascii "local AS ") line with
    | none => h
    | some rest => { h with localAs := decU32 (trim rest) }
  else h

/-- one line of the preamble (text_dump.rs 175-199). -/
def headerLine (env : DumpEnv) (h : DumpHeader) (line : Bytes) : DumpHeader :=
  let line := trimEnd line
  let h := localAsLine (versionLine env h line) line
  match columnHeader line with
  | some c => { h with cols := some c }
  | none => h

/-! ### reading lines -/

/-- What `BufRead::read_line` (std) returns. -/
inductive LineRes where
  | line (b : Bytes)
  | eof
  | failed
deriving DecidableEq, Repr

/-- the bytes up to the first newline and what follows it. -/
def atNewline : Bytes → Option (Bytes × Bytes)
  | [] => none
  | b :: r => if b = 10 then some ([], r) else (atNewline r).map fun (x, y) => (b :: x, y)

/-- `BufRead::read_until(b'\n')` (std) over `BufReader`, whose buffer holds 8192 bytes: what is in the buffer is
represented as put back in front of the reader. `Interrupted` is retried. Fuel: every round consumes something. -/
def readUntil : Nat → Bytes → Src → Option Bytes × Src
  | 0, acc, s => (some acc, s)
  | fuel + 1, acc, s =>
    match s.read 8192 with
    | (.got c, s) =>
      match atNewline c with
      | some (x, y) => (some (acc ++ x ++ [10]), { s with evs := push y s.evs })
      | none => readUntil fuel (acc ++ c) s
    | (.zero, s) => (some acc, s)
    | (.interrupted, s) => readUntil fuel acc s
    | (.failed _, s) => (none, s)

/-- `BufRead::read_line` (std): an error also if the line is not UTF-8. -/
def readLine (s : Src) : LineRes × Src :=
  match readUntil (s.size + 1) [] s with
  | (none, s) => (.failed, s)
  | (some b, s) => (if utf8Ok b = true then (if b.isEmpty then .eof else .line b) else .failed, s)

/-- the loop of `parse_header` (text_dump.rs 170-200): at most `n` more lines; `none` for an error of the reader. -/
def dumpHeaderLoop (env : DumpEnv) : Nat → DumpHeader → Src → Option DumpHeader × Src
  | 0, h, s => (some h, s)
  | n + 1, h, s =>
    match readLine s with
    | (.failed, s) => (none, s)
    | (.eof, s) => (some h, s)
    | (.line b, s) =>
      let h := headerLine env h b
      if h.cols.isSome then (some h, s) else dumpHeaderLoop env n h s

/-- `parse_header` (text_dump.rs 161-202). -/
def parseDumpHeader (env : DumpEnv) (s : Src) : Option DumpHeader × Src := dumpHeaderLoop env 64 ⟨none, none, none, none⟩ s

/-! ### rows -/

/-- `RouteEntry` (text_dump.rs 207-215); `nextHop` is the parsed address. -/
structure TextRoute where
  prefix_ : Bytes
  nextHop : Ip
  metric : Option UInt32
  localPref : Option UInt32
  path : List Bytes
  origin : Option Origin
deriving DecidableEq, Repr

/-- `parse_u32_column` (text_dump.rs 217-219). -/
def u32Column (line : Bytes) (a b : Nat) : Option UInt32 :=
  match strGet line a b with
  | none => none
  | some t => decU32 (trim t)

/-- `shift_columns_left` (text_dump.rs 221-229). -/
def Cols.shiftLeft (c : Cols) : Option Cols :=
  if 1 ≤ c.nextHop ∧ 1 ≤ c.metric ∧ 1 ≤ c.localPref ∧ 1 ≤ c.weight ∧ 1 ≤ c.path then
    some ⟨c.nextHop - 1, c.metric - 1, c.localPref - 1, c.weight - 1, c.path - 1⟩
  else none

/-- the origin code (text_dump.rs 282-287). -/
def originCode (t : Bytes) : Option Origin :=
  if t = [105] then some .igp else if t = [101] then some .egp else if t = [63] then some .incomplete else none

/-- the tokens of the path column without the origin code, and the code (text_dump.rs 277-292). -/
def pathColumn (line : Bytes) (start : Nat) : List Bytes × Option Origin :=
  let tokens := match strFrom line start with | some t => splitWhitespace t | none => []
  match tokens.getLast?.bind originCode with
  | some o => (tokens.dropLast, some o)
  | none => (tokens, none)

/-- `parse_route_line` (text_dump.rs 255-302). -/
def routeLine (env : DumpEnv) (line : Bytes) (c : Cols) : Option TextRoute :=
  let line := trimEnd line
  if (trim line).isEmpty || (ascii "Displayed").isPrefixOf (trimStart line) then none
  else
    match strGet line c.nextHop c.metric with
    | none => none
    | some t =>
      match env.ipAddr (trim t) with
      | none => none
      | some nh =>
        let pfx := match strGet line 3 c.nextHop with | some t => trim t | none => []
        let (path, origin) := pathColumn line c.path
        some ⟨pfx, nh, u32Column line c.metric c.localPref, u32Column line c.localPref c.weight, path, origin⟩

/-- `parse_wrapped_prefix_line` (text_dump.rs 235-252); a slice that does not start at a character is a panic. -/
def wrappedPrefix (env : DumpEnv) (line : Bytes) (nextHop : Nat) : Except Err (Option Bytes) :=
  let pfx : Option Bytes → Option Bytes := fun t =>
    match t with
    | none => none
    | some t => (env.ipNet (trim t)).map fun _ => trim t
  if nextHop < line.length then
    match strFrom line nextHop with
    | none => .error .panic
    | some rest => if (trim rest).isEmpty then .ok (pfx (strGet line 3 nextHop)) else .ok none
  else .ok (pfx (strFrom line 3))

/-- `as_path_from_tokens` (text_dump.rs 315-333). -/
def textAsPath (tokens : List Bytes) : AsPath :=
  [.seq (tokens.filterMap fun t => if t = [123] ∨ t = [125] then none else decU32 t)]

/-- the origin of the path (text_dump.rs 354-362). -/
def textOrigins (p : AsPath) : Option (List Asn) :=
  match p.getLast? with
  | some (.seq xs) => xs.getLast?.map fun a => [a]
  | _ => none

/-- `entry_to_elem` (text_dump.rs 335-385). -/
def textElem (env : DumpEnv) (e : TextRoute) (pfx : Bytes) (peerIp : Ip) (peerAsn : Asn) (time : Nat) : Option BgpElem :=
  match env.ipNet pfx with
  | none => none
  | some p =>
    some ⟨time, .announce, peerIp, peerAsn, none, ⟨p, none⟩, some e.nextHop, some (textAsPath e.path),
      textOrigins (textAsPath e.path), e.origin, e.localPref, e.metric, none, false, none, none, none, none, none⟩

/-! ### the iterator -/

/-- `TextDumpElemIterator` (text_dump.rs 485-494) without its line buffer. Simplification: the time is in microseconds, as
in `BgpElem`, and not negative. -/
structure TextIter where
  src : Src
  cols : Cols
  wrapped : Option Cols
  peerIp : Ip
  peerAsn : Asn
  time : Nat
  current : Bytes

/-- `TextDumpElemIterator::new` (text_dump.rs 501-527). -/
def TextIter.new (env : DumpEnv) (s : Src) (time : Nat) : Except Err TextIter :=
  match parseDumpHeader env s with
  | (none, _) => .error .io
  | (some h, s) =>
    match h.cols with
    | none => .error .io
    | some c => .ok ⟨s, c, c.shiftLeft, h.routerId.getD (.v4 #v[0, 0, 0, 0]), h.localAs.getD 0, time, []⟩

/-- one line that is not blank (text_dump.rs 556-583): the element, if any, and the new current prefix. -/
def TextIter.lineStep (env : DumpEnv) (it : TextIter) (line : Bytes) : Except Err (Option BgpElem × Bytes) :=
  let entry :=
    match routeLine env line it.cols with
    | some e => some e
    | none => it.wrapped.bind (routeLine env line)
  match entry with
  | some e =>
    let cur := if e.prefix_.isEmpty then it.current else e.prefix_
    if cur.isEmpty then .ok (none, cur) else .ok (textElem env e cur it.peerIp it.peerAsn it.time, cur)
  | none =>
    match wrappedPrefix env line it.cols.nextHop with
    | .error e => .error e
    | .ok (some p) => .ok (none, p)
    | .ok none => .ok (none, it.current)

/-- the loop of `TextDumpElemIterator::next` (text_dump.rs 534-584). Fuel: every round consumes a line. -/
def TextIter.loop (env : DumpEnv) : Nat → TextIter → Except Err (Option BgpElem) × TextIter
  | 0, it => (.ok none, it)
  | fuel + 1, it =>
    match readLine it.src with
    | (.eof, s) => (.ok none, { it with src := s })
    | (.failed, s) => (.ok none, { it with src := s })
    | (.line b, s) =>
      let line := trimEnd b
      if line.isEmpty then TextIter.loop env fuel { it with src := s }
      else
        match it.lineStep env line with
        | .error e => (.error e, { it with src := s })
        | .ok (some e, cur) => (.ok (some e), { it with src := s, current := cur })
        | .ok (none, cur) => TextIter.loop env fuel { it with src := s, current := cur }

/-- `TextDumpElemIterator::next` (text_dump.rs 533-585). -/
def TextIter.next (env : DumpEnv) (it : TextIter) : Except Err (Option BgpElem) × TextIter :=
  it.loop env (it.src.size + 1)

/-- `iter.collect()` (text_dump.rs 618). Fuel: every element consumes a line. -/
def TextIter.collect (env : DumpEnv) : Nat → TextIter → Except Err (List BgpElem)
  | 0, _ => .ok []
  | fuel + 1, it =>
    match it.next env with
    | (.error e, _) => .error e
    | (.ok none, _) => .ok []
    | (.ok (some e), it) => (TextIter.collect env fuel it).map (e :: ·)

/-- `parse_text_dump_with_timestamp` (text_dump.rs 613-619); `parse_text_dump` (594-596) with time 0. -/
def parseTextDump (env : DumpEnv) (s : Src) (time : Nat) : Except Err (List BgpElem) :=
  match TextIter.new env s time with
  | .error e => .error e
  | .ok it => it.collect env (it.src.size + 1)

/-- `for elem in iter.by_ref()` with the filters, in `ElemIterator::next` (default.rs 90-97) and `FallibleElemIterator::next`
(fallible.rs 105-112). Fuel: every element consumes a line. -/
def textFilterLoop (env : DumpEnv) (keep : BgpElem → Bool) : Nat → TextIter → Except Err (Option BgpElem) × TextIter
  | 0, it => (.ok none, it)
  | fuel + 1, it =>
    match it.next env with
    | (.ok (some e), it) => if keep e then (.ok (some e), it) else textFilterLoop env keep fuel it
    | (r, it) => (r, it)

/-- the element iterators on text dumps (default.rs 85-97, fallible.rs 102-112). -/
def textElemNext (env : DumpEnv) (tenv : TextEnv) (fs : List (Filter tenv.Rx)) (it : TextIter) :
    Except Err (Option BgpElem) × TextIter :=
  textFilterLoop env (fun e => e.matchFilters tenv fs) (it.src.size + 1) it

/-! ### detection -/

/-- `str::contains` (std) for a non-empty pattern. -/
def strContains (s pat : Bytes) : Bool := (splitOnce pat s).isSome

/-- the test of `detect_text_dump` (text_dump.rs 70-74) on the bytes read. -/
def looksText (head : Bytes) : Bool :=
  (match head with | [] => false | b :: _ => asciiGraphic b) && utf8Ok (head.take 128) &&
    (strContains (head.take 128) (ascii "BGP table") || strContains (head.take 128) (ascii "Next Hop") ||
      strContains (head.take 128) (ascii "Status codes:"))

/-- `detect_text_dump` (text_dump.rs 65-77) on a `BufReader`: one call of `read`; `none` for an error, also
`Interrupted`. -/
def detectText (s : Src) : Option (Bool × Bytes) × Src :=
  match s.read 256 with
  | (.got c, s) => (some (looksText c, c), s)
  | (.zero, s) => (some (false, []), s)
  | (.interrupted, s) => (none, s)
  | (.failed _, s) => (none, s)

/-- What a parser reads from (`BgpkitParser`, mod.rs 45-53): a reader of MRT data or a text dump. -/
inductive Input where
  | mrt (s : Src)
  | text (it : TextIter)

/-- `from_text_reader_with_timestamp` (mod.rs 255-268); `from_text_reader` (246-250) with time 0. -/
def fromTextReader (env : DumpEnv) (s : Src) (time : Nat) : Except Err Input := (TextIter.new env s time).map .text

/-- `from_auto_reader_with_timestamp` (mod.rs 281-307): `Cursor::new(head).chain(buf_reader)` is the reader with the bytes
put back. -/
def fromAutoReader (env : DumpEnv) (s : Src) (time : Option Nat) : Except Err Input :=
  match detectText s with
  | (none, _) => .error .io
  | (some (isText, head), s) =>
    let chained : Src := { s with evs := push head s.evs }
    if isText then (TextIter.new env chained (time.getD 0)).map .text else .ok (.mrt chained)

/-! ### the time in a file name -/

/-- the days of a month (chrono). -/
def monthDays (y m : Nat) : Nat :=
  if m = 2 then (if y % 4 = 0 ∧ (y % 100 ≠ 0 ∨ y % 400 = 0) then 29 else 28)
  else if m = 4 ∨ m = 6 ∨ m = 9 ∨ m = 11 then 30 else 31

/-- the days before a month. -/
def daysBeforeMonth (y : Nat) : Nat → Nat
  | 0 => 0
  | 1 => 0
  | m + 1 => daysBeforeMonth y m + monthDays y m

/-- `NaiveDate::from_ymd_opt(y, m, d)`, `and_hms_opt(hh, mm, 0)` and `timestamp()` (chrono) for `0 ≤ y ≤ 9999`: seconds since
1970, or `none` if there is no such day or time. -/
def unixTime (y m d hh mm : Nat) : Option Int :=
  if 1 ≤ m ∧ m ≤ 12 ∧ 1 ≤ d ∧ d ≤ monthDays y m ∧ hh < 24 ∧ mm < 60 then
    let days : Nat := 365 * y + (y + 3) / 4 - (y + 99) / 100 + (y + 399) / 400 + daysBeforeMonth y m + (d - 1)
    some (((days : Int) - 719528) * 86400 + (hh * 3600 + mm * 60 : Nat))
  else none

/-- the number that digits stand for (`parse` of two or four ASCII digits). -/
def digitsValue (s : Bytes) : Nat := s.foldl (fun n b => n * 10 + (b.toNat - 48)) 0

/-- a pattern of digits (`0`) and other bytes. -/
def matchesShape : Bytes → Bytes → Bool
  | [], [] => true
  | p :: ps, b :: bs => (if p = 48 then asciiDigit b else b == p) && matchesShape ps bs
  | _, _ => false

/-- the first loop of `infer_timestamp_from_path` (text_dump.rs 400-445): `prev` is the byte before. -/
def inferMinute : Option UInt8 → Bytes → Option Int
  | _, [] => none
  | prev, b :: r =>
    let w := (b :: r).take 15
    let here : Option Int :=
      if matchesShape (ascii "0000-00-00-0000") w = true ∧ (prev.map asciiDigit).getD false = false then
        unixTime (digitsValue (w.take 4)) (digitsValue ((w.drop 5).take 2)) (digitsValue ((w.drop 8).take 2))
          (digitsValue ((w.drop 11).take 2)) (digitsValue ((w.drop 13).take 2))
      else none
    match here with
    | some t => some t
    | none => inferMinute (some b) r

/-- the second loop (text_dump.rs 448-468). -/
def inferDay : Bytes → Option Int
  | [] => none
  | b :: r =>
    let w := (b :: r).take 10
    if matchesShape (ascii "0000.00.00") w = true then
      unixTime (digitsValue (w.take 4)) (digitsValue ((w.drop 5).take 2)) (digitsValue ((w.drop 8).take 2)) 12 0
    else inferDay r

/-- `infer_timestamp_from_path` (text_dump.rs 396-470), in seconds. -/
def inferTime (path : Bytes) : Option Int :=
  match inferMinute none path with
  | some t => some t
  | none => inferDay path

end Verif
