import Verif.Model.Settings
/-
The raw record iterators as objects with their effects (src/parser/iters/raw.rs), and files of raw records
(src/parser/mrt/mrt_record.rs 86-116).
-/
namespace Verif

/-- `RawRecordIterator` (raw.rs 24-27) and the world; the count of calls is left out. -/
structure RawRun (env : TextEnv) where
  parser : Parser env
  world : World

/-- the loop of `RawRecordIterator::next` (raw.rs 44-93). The table of reactions is the same as that of
`handle_record_parse_error`. Fuel: every round that does not return consumes input. -/
def RawRun.loop (pol : Pol) : Nat → RawRun env → Option Raw × RawRun env
  | 0, it => (none, it)
  | fuel + 1, it =>
    match it.parser.input with
    | .text _ => (none, it)
    | .mrt s =>
      match chunk pol s with
      | (.ok raw, s) => (some raw, { it with parser := { it.parser with input := .mrt s } })
      | (.error e, s) =>
        match it.parser.handleError it.world e with
        | (true, w) => RawRun.loop pol fuel ⟨{ it.parser with input := .mrt s }, w⟩
        | (false, w) => (none, ⟨{ it.parser with input := .mrt s }, w⟩)

/-- `RawRecordIterator::next` (raw.rs 38-95). -/
def RawRun.next (pol : Pol) (it : RawRun env) : Option Raw × RawRun env :=
  match it.parser.input with
  | .text _ => (none, it)
  | .mrt _ => it.loop pol (it.parser.input.size + 1)

/-- `into_raw_record_iter` (iters/mod.rs 171-173). -/
def Parser.raws (p : Parser env) (w : World) : RawRun env := ⟨p, w⟩

/-- `FilteredRawRecordIterator` (raw.rs 120-124) and the world. -/
structure FilteredRun (env : TextEnv) where
  inner : RawRun env
  elementor : Elementor
  filters : List (Filter env.Rx)

/-- the loop of `FilteredRawRecordIterator::next` (raw.rs 150-177). Fuel: every round that does not return consumes input. -/
def FilteredRun.loop (pol : Pol) : Nat → FilteredRun env → Option (Raw × MrtRecord) × FilteredRun env
  | 0, it => (none, it)
  | fuel + 1, it =>
    match it.inner.next pol with
    | (none, inner) => (none, { it with inner := inner })
    | (some raw, inner) =>
      let (p, w) := if raw.zebra then inner.parser.warnZebra inner.world else (inner.parser, inner.world)
      match raw.parse with
      | .error e =>
        match p.handleError w ⟨e, some raw.bytes⟩ with
        | (false, w) => (none, { it with inner := ⟨p, w⟩ })
        | (true, w) => FilteredRun.loop pol fuel { it with inner := ⟨p, w⟩ }
      | .ok r =>
        if it.filters.isEmpty then (some (raw, r), { it with inner := ⟨p, w⟩ })
        else
          match (filterKeep env it.filters).step it.elementor r with
          | (true, el) => (some (raw, r), { it with inner := ⟨p, w⟩, elementor := el })
          | (false, el) => FilteredRun.loop pol fuel { it with inner := ⟨p, w⟩, elementor := el }

/-- `FilteredRawRecordIterator::next` (raw.rs 150-177). -/
def FilteredRun.next (pol : Pol) (it : FilteredRun env) : Option (Raw × MrtRecord) × FilteredRun env :=
  it.loop pol (it.inner.parser.input.size + 1)

/-- `into_filtered_raw_record_iter` (iters/mod.rs 200-202, raw.rs 127-134). -/
def Parser.filteredRaws (p : Parser env) (w : World) : FilteredRun env := ⟨p.raws w, .new, p.filters⟩

/-! ### files of raw records -/

/-- A file and how many more octets will reach it before writing fails or the process ends; `none` if that never happens. -/
structure Disk where
  file : Bytes
  room : Option Nat
deriving DecidableEq

/-- `Write::write_all` for a file at its end (std), as used in mrt_record.rs 86-116: whether it returned `Ok`, and the file. -/
def Disk.writeAll (d : Disk) (b : Bytes) : Bool × Disk :=
  match d.room with
  | none => (true, { d with file := d.file ++ b })
  | some k => if b.length ≤ k then (true, ⟨d.file ++ b, some (k - b.length)⟩) else (false, ⟨d.file ++ b.take k, some 0⟩)

/-- the two `write_all` calls (mrt_record.rs 88-89, 113-114). -/
def Raw.put (r : Raw) (d : Disk) : Bool × Disk :=
  match d.writeAll r.headerBytes with
  | (false, d) => (false, d)
  | (true, d) => d.writeAll r.body

/-- `write_raw_bytes` (mrt_record.rs 86-91). Simplification: `File::create` succeeds; it empties the file. -/
def Raw.writeFile (r : Raw) (d : Disk) : Bool × Disk := r.put { d with file := [] }

/-- `append_raw_bytes` (mrt_record.rs 108-116). Simplification: `open` succeeds; a new file is empty. -/
def Raw.appendFile (r : Raw) (d : Disk) : Bool × Disk := r.put d

/-- Records collected in one file, as in the example (mrt_record.rs 101-106), until the first failure. -/
def appendFiles : List Raw → Disk → Bool × Disk
  | [], d => (true, d)
  | r :: rs, d =>
    match r.appendFile d with
    | (false, d) => (false, d)
    | (true, d) => appendFiles rs d

end Verif
