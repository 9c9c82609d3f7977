import Verif.Model.GenDb

/-!
# JSON as text

`Model/Files.lean` treats a file as a JSON tree or as text that is not JSON. Here the text itself is modelled: what
`serde_json::to_writer` prints for a tree (src/db/mod.rs:56, src/db/index.rs:69, src/db/kv.rs:198), what Python's `json.dump` prints
for a list of strings (data/generate_db.py:31), what `serde_json::from_str` and `from_reader` read
(src/db/index.rs:47, 146, src/api.rs:40, 158), and the files as texts, a write being possibly interrupted after any character.

`serde_json` is an external crate; the reader follows RFC 8259, which its documentation refers to. Simplifications: texts are lists of
characters (the documents of this crate are ASCII; a file that is not UTF-8 is refused by the readers, src/api.rs:39); `\u` escapes
of unpaired surrogates are refused everywhere (the crate refuses them except in the value of an unknown field); a number with a
fraction or an exponent is `.float` whatever its value; integers are exact (the crate turns integers beyond 64 bits into floats: the
decoders refuse both); nesting is not limited (the crate refuses more than 128 levels; the documents of this crate have at most 4).
-/

namespace Chalamet

/-! ## Printing -/

/-- Decimal digits of a number, without leading zeros: `itoa` in `serde_json::to_writer` (src/db/mod.rs:56). -/
def decText (n : Nat) : List Char := Nat.toDigits 10 n

/-- One digit of a `\u` escape, lower case: `serde_json::to_writer` (src/db/mod.rs:56). -/
def hexChar (n : Nat) : Char := if n < 10 then Char.ofNat (48 + n) else Char.ofNat (87 + n)

/-- One character of a printed string: `serde_json::to_writer` (src/db/mod.rs:56) escapes the quotation mark, the backslash and the
control characters below 32. -/
def escText (c : Char) : List Char :=
  if c = '"' then ['\\', '"'] else if c = '\\' then ['\\', '\\']
  else if c.toNat = 8 then ['\\', 'b'] else if c.toNat = 12 then ['\\', 'f'] else if c.toNat = 10 then ['\\', 'n']
  else if c.toNat = 13 then ['\\', 'r'] else if c.toNat = 9 then ['\\', 't']
  else if c.toNat < 32 then ['\\', 'u', '0', '0', hexChar (c.toNat / 16), hexChar (c.toNat % 16)]
  else [c]

/-- A printed string (src/db/mod.rs:56). -/
def strText (s : List Char) : List Char := '"' :: s.flatMap escText ++ ['"']

/-- `,` between the parts: the compact form (src/db/mod.rs:56). -/
def sepText (sep : List Char) : List (List Char) → List Char
  | [] => []
  | [t] => t
  | t :: ts => t ++ sep ++ sepText sep ts

mutual
/-- `serde_json::to_writer` (src/db/mod.rs:56, src/db/index.rs:69, src/db/kv.rs:198): the compact text of a tree. Trees of this crate hold
no `.float`; it is printed as a number with an exponent. -/
def Json.text : Json → List Char
  | .null => "null".toList
  | .bool true => "true".toList
  | .bool false => "false".toList
  | .num n => if n < 0 then '-' :: decText n.natAbs else decText n.natAbs
  | .float => "1e0".toList
  | .str s => strText s
  | .arr l => '[' :: sepText [','] (Json.texts l) ++ [']']
  | .obj fs => '{' :: sepText [','] (Json.fieldTexts fs) ++ ['}']
/-- The elements of an array (src/db/mod.rs:56). -/
def Json.texts : List Json → List (List Char)
  | [] => []
  | j :: l => j.text :: Json.texts l
/-- The members of an object (src/db/mod.rs:52-56). -/
def Json.fieldTexts : List (String × Json) → List (List Char)
  | [] => []
  | (k, j) :: l => (strText k.toList ++ ':' :: j.text) :: Json.fieldTexts l
end

/-- Python's `json.dump(out, f, ensure_ascii=False)` of a list of strings (data/generate_db.py:31): the separator is a comma and a
space. -/
def pyDumpText (l : List (List Char)) : List Char := '[' :: sepText [',', ' '] (l.map strText) ++ [']']

/-! ## Reading -/

/-- White space (reader called at src/db/index.rs:47, 146, src/api.rs:40, 158). -/
def jWs (c : Char) : Bool := c == ' ' || c == '\n' || c == '\t' || c == '\r'

/-- Skipping white space (as above, src/db/index.rs:47). -/
def skipWs (l : List Char) : List Char := l.dropWhile jWs

/-- A decimal digit (as above, src/db/index.rs:47). -/
def jDigit (c : Char) : Bool := decide (48 ≤ c.toNat ∧ c.toNat ≤ 57)

/-- The value of decimal digits (as above, src/db/index.rs:47). -/
def decValue (l : List Char) : Nat := l.foldl (fun a c => a * 10 + (c.toNat - 48)) 0

/-- The value of a hexadecimal digit (as above, src/db/index.rs:47). -/
def hexValue (c : Char) : Option Nat :=
  if 48 ≤ c.toNat ∧ c.toNat ≤ 57 then some (c.toNat - 48)
  else if 97 ≤ c.toNat ∧ c.toNat ≤ 102 then some (c.toNat - 87)
  else if 65 ≤ c.toNat ∧ c.toNat ≤ 70 then some (c.toNat - 55)
  else none

/-- Four hexadecimal digits (as above, src/db/index.rs:47). -/
def hex4 (a b c d : Char) : Option Nat :=
  match hexValue a, hexValue b, hexValue c, hexValue d with
  | some a, some b, some c, some d => some (a * 4096 + b * 256 + c * 16 + d)
  | _, _, _, _ => none

/-- The character after a backslash, but for `u` (as above, src/db/index.rs:47). -/
def escValue (c : Char) : Option Char :=
  if c = '"' then some '"' else if c = '\\' then some '\\' else if c = '/' then some '/'
  else if c = 'b' then some (Char.ofNat 8) else if c = 'f' then some (Char.ofNat 12) else if c = 'n' then some (Char.ofNat 10)
  else if c = 'r' then some (Char.ofNat 13) else if c = 't' then some (Char.ofNat 9) else none

/-- The escape `\uXXXX`, or a surrogate pair of two (as above, src/db/index.rs:47): after `\u`. -/
def pUni : List Char → Option (Char × List Char)
  | a :: b :: c :: d :: r =>
    match hex4 a b c d with
    | none => none
    | some n =>
      if n < 0xD800 ∨ 0xE000 ≤ n then some (Char.ofNat n, r)
      else if 0xDC00 ≤ n then none
      else match r with
        | x :: y :: a :: b :: c :: d :: r =>
          if x = '\\' ∧ y = 'u' then
            match hex4 a b c d with
            | none => none
            | some m =>
              if 0xDC00 ≤ m ∧ m < 0xE000 then some (Char.ofNat (0x10000 + (n - 0xD800) * 1024 + (m - 0xDC00)), r) else none
          else none
        | _ => none
  | _ => none

/-- One character of a string, possibly escaped (as above, src/db/index.rs:47). -/
def pChar : List Char → Option (Char × List Char)
  | [] => none
  | c :: r =>
    if c = '\\' then
      match r with
      | [] => none
      | e :: r => if e = 'u' then pUni r else (escValue e).map fun x => (x, r)
    else if c.toNat < 32 then none
    else some (c, r)

/-- The rest of a string, after the opening quotation mark; the first argument bounds the number of characters
(as above, src/db/index.rs:47). -/
def pStr : Nat → List Char → Option (List Char × List Char)
  | 0, _ => none
  | f + 1, l =>
    if l.head? = some '"' then some ([], l.tail)
    else match pChar l with
      | none => none
      | some (c, r) => (pStr f r).map fun x => (c :: x.1, x.2)

/-- A fraction and an exponent, if any: whether there is one, and what follows; `none` is an error
(as above, src/db/index.rs:47). -/
def pExp (l : List Char) : Option (Bool × List Char) :=
  match l with
  | c :: r =>
    if c = 'e' ∨ c = 'E' then
      let r := if r.head? = some '+' ∨ r.head? = some '-' then r.tail else r
      if (r.takeWhile jDigit).isEmpty then none else some (true, r.dropWhile jDigit)
    else some (false, l)
  | [] => some (false, l)

/-- A fraction, if any (as above, src/db/index.rs:47). -/
def pFrac (l : List Char) : Option (Bool × List Char) :=
  match l with
  | c :: r =>
    if c = '.' then if (r.takeWhile jDigit).isEmpty then none else some (true, r.dropWhile jDigit)
    else some (false, l)
  | [] => some (false, l)

/-- A number (as above, src/db/index.rs:47). -/
def pNum (l : List Char) : Option (Json × List Char) :=
  let neg := decide (l.head? = some '-')
  let l := if l.head? = some '-' then l.tail else l
  let ds := l.takeWhile jDigit
  if ds.isEmpty ∨ (ds.head? = some '0' ∧ 1 < ds.length) then none
  else match pFrac (l.dropWhile jDigit) with
    | none => none
    | some (b₁, l) => match pExp l with
      | none => none
      | some (b₂, l) =>
        some (if b₁ || b₂ then .float else .num (if neg then -(decValue ds : Int) else decValue ds), l)

mutual
/-- A value (as above, src/db/index.rs:47); the first argument bounds the nesting and the number of elements, `parseJson` chooses it
large enough. -/
def pVal : Nat → List Char → Option (Json × List Char)
  | 0, _ => none
  | _ + 1, [] => none
  | f + 1, c :: r =>
    if c = '"' then (pStr (r.length + 1) r).map fun x => (.str x.1, x.2)
    else if c = '[' then
      if (skipWs r).head? = some ']' then some (.arr [], (skipWs r).tail)
      else (pElems f r).map fun x => (.arr x.1, x.2)
    else if c = '{' then
      if (skipWs r).head? = some '}' then some (.obj [], (skipWs r).tail)
      else (pMembers f r).map fun x => (.obj x.1, x.2)
    else if c = 'n' then if r.take 3 = ['u', 'l', 'l'] then some (.null, r.drop 3) else none
    else if c = 't' then if r.take 3 = ['r', 'u', 'e'] then some (.bool true, r.drop 3) else none
    else if c = 'f' then if r.take 4 = ['a', 'l', 's', 'e'] then some (.bool false, r.drop 4) else none
    else pNum (c :: r)
/-- The elements of an array and the closing bracket (as above, src/db/index.rs:47). -/
def pElems : Nat → List Char → Option (List Json × List Char)
  | 0, _ => none
  | f + 1, l =>
    match pVal f (skipWs l) with
    | none => none
    | some (j, r) =>
      match skipWs r with
      | [] => none
      | c :: r =>
        if c = ',' then (pElems f r).map fun x => (j :: x.1, x.2)
        else if c = ']' then some ([j], r)
        else none
/-- The members of an object and the closing brace (as above, src/db/index.rs:146). -/
def pMembers : Nat → List Char → Option (List (String × Json) × List Char)
  | 0, _ => none
  | f + 1, l =>
    if (skipWs l).head? = some '"' then
      match pStr ((skipWs l).tail.length + 1) (skipWs l).tail with
      | none => none
      | some (k, r) =>
        if (skipWs r).head? = some ':' then
          match pVal f (skipWs (skipWs r).tail) with
          | none => none
          | some (j, r) =>
            match skipWs r with
            | [] => none
            | c :: r =>
              if c = ',' then (pMembers f r).map fun x => ((String.ofList k, j) :: x.1, x.2)
              else if c = '}' then some ([(String.ofList k, j)], r)
              else none
        else none
    else none
end

/-- `serde_json::from_str`, `serde_json::from_reader` (src/db/index.rs:47, 146, src/api.rs:40, 158): one value, white space around it. -/
def parseJson (t : List Char) : Res Json :=
  match pVal (2 * t.length + 2) (skipWs t) with
  | none => .err .json
  | some (j, r) => if skipWs r = [] then .ok j else .err .json

/-! ## Files as texts -/

/-- The file system, files being texts (src/db/index.rs:46, 69, 145, src/db/mod.rs:56). -/
abbrev TextFS := Path → Option (List Char)

/-- What the operating system does: `create` fails, the process dies or a write fails after `k` characters, or nothing happens
(src/db/mod.rs:56, src/db/index.rs:69, src/db/kv.rs:198). -/
inductive TextEvent where
  | createFails
  | diesAfter (k : Nat)
  | succeeds

/-- `serde_json::to_writer(&fs::File::create(path)?, &json)?` as text (src/db/mod.rs:56, src/db/index.rs:69, src/db/kv.rs:198). The
file may be complete although the write reported an error (`k` at least the length). -/
def writeText (ev : TextEvent) (fs : TextFS) (path : Path) (t : List Char) : TextFS × Res Unit :=
  match ev with
  | .createFails => (fs, .err .io)
  | .diesAfter k => (fun p => if p = path then some (t.take k) else fs p, .err .json)
  | .succeeds => (fun p => if p = path then some t else fs p, .ok ())

/-- Reading and parsing a file (src/db/index.rs:145-146, src/api.rs:39-40). -/
def readText (readable : Bool) (fs : TextFS) (path : Path) : Res Json :=
  match readable, fs path with
  | true, some t => parseJson t
  | _, _ => .err .io

/-- Two writes, the second only if the first succeeded: `Shard::write_to_file` (src/api.rs:59-67), `KVShard::write_to_file`
(src/api.rs:206-214). A process that dies after the first file is complete and before the second is created is
`.succeeds, .createFails`: the same files. -/
def writeTwoText (ev₁ ev₂ : TextEvent) (fs : TextFS) (dbPath paramsPath : Path) (dbText paramsText : List Char) : TextFS × Res Unit :=
  match writeText ev₁ fs dbPath dbText with
  | (fs, .ok ()) => writeText ev₂ fs paramsPath paramsText
  | (fs, r) => (fs, r)

/-- `Shard::write_to_file` (src/api.rs:59-67). -/
def Shard.writeToTextFile (ev₁ ev₂ : TextEvent) (fs : TextFS) (s : Shard) (dbPath paramsPath : Path) : TextFS × Res Unit :=
  writeTwoText ev₁ ev₂ fs dbPath paramsPath (jMatrix s.db.entries).text
    (paramsFileJson s.baseParams.publicSeed s.baseParams.rhs).text

/-- `KVShard::write_to_file` (src/api.rs:206-214). -/
def KVShard.writeToTextFile (ev₁ ev₂ : TextEvent) (fs : TextFS) (s : KVShard) (dbPath paramsPath : Path) : TextFS × Res Unit :=
  writeTwoText ev₁ ev₂ fs dbPath paramsPath (jMatrix s.db.entries).text
    (paramsFileJson s.baseParams.publicSeed s.baseParams.rhs).text

/-- The script, the file being a text (data/generate_db.py:13-31). -/
def genDbText (ev : TextEvent) (env : String → Option (List Char)) (ent : Nat → U8) (fs : TextFS) : TextFS × Res Unit :=
  match genDbOut env ent with
  | none => (fs, .panic)
  | some out =>
    let r := writeText ev fs (genDbPath env) (pyDumpText out)
    (r.1, r.2.unwrap)

/-- What the readers make of a text: a document, or bytes that are not one (src/db/index.rs:46-47, 145-146, src/api.rs:39-40,
157-158). -/
def textContent (t : List Char) : Content :=
  match parseJson t with
  | .ok j => .json j
  | _ => .raw (t.map fun c => BitVec.ofNat 8 c.toNat)

/-- The files of `Model/Files.lean`, on which `IndexParams::load`, `IndexDatabase::from_file`, `Shard::from_json_file` and
`KVShard::from_json_file` are defined (src/db/index.rs:46-47, 145-146, src/api.rs:39-40, 157-158). -/
def TextFS.view (fs : TextFS) : FS := fun p => (fs p).map textContent

end Chalamet
