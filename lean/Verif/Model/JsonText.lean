import Verif.Model.RisLive
/-
JSON as text, as `serde_json` 1.0 writes it (not in /repo): `to_string` and `to_string_pretty` of a type with `Serialize`, and of
a `serde_json::Value`. Used by `to_json_string` of the RIS Live client messages (src/parser/rislive/messages/client/mod.rs 13-20)
and by the command (src/bin/main.rs 511-532).
-/
namespace Verif

/-- `CompactFormatter` and `PrettyFormatter` of serde_json. -/
inductive JsonStyle where
  | compact
  | pretty
deriving DecidableEq, Repr

/-- what stands before an item, an entry or a closing bracket: in the pretty form a new line with two spaces for each level. -/
def JsonStyle.gap : JsonStyle → Nat → List Char
  | .compact, _ => []
  | .pretty, depth => '\n' :: List.replicate (2 * depth) ' '

/-- what stands between key and value. -/
def JsonStyle.colon : JsonStyle → List Char
  | .compact => [':']
  | .pretty => [':', ' ']

/-- a hexadecimal digit, in lower case. -/
def hexDigit (n : Nat) : Char := if n < 10 then Char.ofNat (48 + n) else Char.ofNat (87 + n)

/-- one character of a string (serde_json `ESCAPE`, `format_escaped_str_contents`). -/
def escapeChar (c : Char) : List Char :=
  if c = '"' then ['\\', '"']
  else if c = '\\' then ['\\', '\\']
  else if c.toNat = 8 then ['\\', 'b']
  else if c.toNat = 9 then ['\\', 't']
  else if c.toNat = 10 then ['\\', 'n']
  else if c.toNat = 12 then ['\\', 'f']
  else if c.toNat = 13 then ['\\', 'r']
  else if c.toNat < 32 then ['\\', 'u', '0', '0', hexDigit (c.toNat / 16), hexDigit (c.toNat % 16)]
  else [c]

/-- a string (serde_json `format_escaped_str`). -/
def writeStr (s : String) : List Char := '"' :: (s.toList.flatMap escapeChar ++ ['"'])

mutual
/-- a value at some depth (serde_json `Serializer`). How a floating point number is written (`ryu`) is the parameter `real`. -/
def writeJson (real : Rat → List Char) (st : JsonStyle) (d : Nat) : Json → List Char
  | .null => ['n', 'u', 'l', 'l']
  | .bool true => ['t', 'r', 'u', 'e']
  | .bool false => ['f', 'a', 'l', 's', 'e']
  | .int (.ofNat n) => decText n
  | .int (.negSucc n) => '-' :: decText (n + 1)
  | .float x => real x
  | .str s => writeStr s
  | .arr [] => ['[', ']']
  | .arr (x :: xs) => '[' :: (st.gap (d + 1) ++ (writeJson real st (d + 1) x ++ (writeItems real st (d + 1) xs ++ (st.gap d ++ [']']))))
  | .obj [] => ['{', '}']
  | .obj ((k, v) :: kvs) =>
    '{' :: (st.gap (d + 1) ++ (writeStr k ++ (st.colon ++ (writeJson real st (d + 1) v ++ (writeEntries real st (d + 1) kvs ++ (st.gap d ++ ['}']))))))
/-- the further items of an array. -/
def writeItems (real : Rat → List Char) (st : JsonStyle) (d : Nat) : List Json → List Char
  | [] => []
  | x :: xs => ',' :: (st.gap d ++ (writeJson real st d x ++ writeItems real st d xs))
/-- the further entries of an object. -/
def writeEntries (real : Rat → List Char) (st : JsonStyle) (d : Nat) : List (String × Json) → List Char
  | [] => []
  | (k, v) :: kvs => ',' :: (st.gap d ++ (writeStr k ++ (st.colon ++ (writeJson real st d v ++ writeEntries real st d kvs))))
end

/-- `BTreeMap::insert` of the map behind `serde_json::Map` (without the feature `preserve_order`). -/
def insertEntry (k : String) (v : Json) : List (String × Json) → List (String × Json)
  | [] => [(k, v)]
  | (k', v') :: r => if k < k' then (k, v) :: (k', v') :: r else if k = k' then (k, v) :: r else (k', v') :: insertEntry k v r

mutual
/-- `serde_json::to_value`, `json!(x)`: objects become maps. -/
def Json.value : Json → Json
  | .arr xs => .arr (valueItems xs)
  | .obj kvs => .obj (valueEntries kvs [])
  | .null => .null
  | .bool b => .bool b
  | .int z => .int z
  | .float x => .float x
  | .str s => .str s
/-- see `Json.value`. -/
def valueItems : List Json → List Json
  | [] => []
  | x :: xs => x.value :: valueItems xs
/-- see `Json.value`: the entries are inserted one after the other. -/
def valueEntries : List (String × Json) → List (String × Json) → List (String × Json)
  | [], m => m
  | (k, v) :: kvs, m => valueEntries kvs (insertEntry k v.value m)
end

/-- `serde_json::to_string(x)`. -/
def jsonText (real : Rat → List Char) (j : Json) : List Char := writeJson real .compact 0 j

/-- `json!(x).to_string()`. -/
def valueText (real : Rat → List Char) (j : Json) : List Char := writeJson real .compact 0 j.value

/-- `serde_json::to_string_pretty(&json!(x))`. -/
def valuePretty (real : Rat → List Char) (j : Json) : List Char := writeJson real .pretty 0 j.value

/-- `to_json_string` (messages/client/mod.rs 13-20): the message as a `Value`, then as text. -/
def ClientMessage.text (real : Rat → List Char) (env : ShowEnv) (m : ClientMessage) : List Char := valueText real (m.json env)

/-- `format_elem` with the two JSON formats (bin/main.rs 511-520). -/
def elemJsonText (real : Rat → List Char) (env : JsonEnv) (e : BgpElem) : List Char := valueText real (elemJson env e)
/-- see `elemJsonText`. -/
def elemJsonPretty (real : Rat → List Char) (env : JsonEnv) (e : BgpElem) : List Char := valuePretty real (elemJson env e)

end Verif
