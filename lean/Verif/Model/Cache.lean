import Verif.Model.Bytes
/-
Names of cached files: `new_cached` (src/parser/mod.rs 125-145), `add_suffix_to_filename` (198-210) and `crc32`
(src/parser/utils.rs 351-379). A text is its bytes in UTF-8. What `get_cache_reader` (crate oneio) does with the name is not
modelled.
-/
namespace Verif

/-- one round of the inner loop of `crc32` (utils.rs 362-368). -/
def crcShift (crc : BitVec 32) : BitVec 32 := if crc &&& 1 = 1 then (crc >>> 1) ^^^ 0xedb88320#32 else crc >>> 1

/-- the inner loop (utils.rs 362-368), `n` rounds. -/
def crcShifts : Nat → BitVec 32 → BitVec 32
  | 0, crc => crc
  | n + 1, crc => crcShifts n (crcShift crc)

/-- the table (utils.rs 357-370). -/
def crcTable : List (BitVec 32) := (List.range 256).map fun i => crcShifts 8 (BitVec.ofNat 32 i)

/-- one round of the second loop (utils.rs 373-376). -/
def crcByte (crc : BitVec 32) (byte : UInt8) : BitVec 32 :=
  let index := ((crc ^^^ BitVec.ofNat 32 byte.toNat) &&& 0xff#32).toNat
  (crc >>> 8) ^^^ crcTable.getD index 0

/-- `!crc` after both loops (utils.rs 372-378). -/
def crcOf (input : Bytes) : BitVec 32 := ~~~ (input.foldl crcByte (~~~ 0#32))

/-- a lower case hexadecimal digit (std). -/
def lowerHex (n : Nat) : UInt8 := if n < 10 then UInt8.ofNat (48 + n) else UInt8.ofNat (87 + n)

/-- `format!("{:08x}", n)` (std). -/
def hex8 (n : Nat) : Bytes := [28, 24, 20, 16, 12, 8, 4, 0].map fun k => lowerHex ((n >>> k) % 16)

/-- `crc32` (utils.rs 355-379). -/
def crc32 (input : Bytes) : Bytes := hex8 (crcOf input).toNat

/-- `str::split` at an ASCII character (std): always at least one part. -/
def splitAtByte (sep : UInt8) : Bytes → List Bytes
  | [] => [[]]
  | b :: r =>
    if b = sep then [] :: splitAtByte sep r
    else
      match splitAtByte sep r with
      | [] => [[b]]
      | p :: ps => (b :: p) :: ps

/-- `join` (std). -/
def joinWithByte (sep : UInt8) : List Bytes → Bytes
  | [] => []
  | [p] => p
  | p :: ps => p ++ sep :: joinWithByte sep ps

/-- `add_suffix_to_filename` (mod.rs 199-210). -/
def addSuffix (filename suffix : Bytes) : Bytes :=
  let parts := splitAtByte 46 filename
  if parts.length > 1 then
    match parts.getLast? with
    | some last => joinWithByte 46 (parts.dropLast ++ [suffix ++ 46 :: last])
    | none => []
  else filename ++ 46 :: suffix

/-- the file name that `new_cached` asks for (mod.rs 131-135). -/
def cacheName (path : Bytes) : Bytes :=
  let fileName := ((splitAtByte 47 path).getLast?).getD []
  [99, 97, 99, 104, 101, 45] ++ addSuffix fileName (crc32 path)

end Verif
