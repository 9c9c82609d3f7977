import Verif.Model.Files
import Verif.Model.Cli

/-!
# Model of `data/generate_db.py`

The script that writes the JSON file `Shard::from_json_file` reads. Environment variables are a function
`env` (the value of a variable that is set). An uncaught Python exception ends the script with no further
effect: it is modelled as `Res.panic`. `os.urandom` reads an arbitrary byte stream `ent`.

Simplifications: Python's `int` also accepts digits and spaces outside ASCII and refuses numerals of more
than 4300 digits; neither is modelled. Memory is unbounded.
-/

namespace Chalamet

/-- White space skipped by `int` at both ends (ASCII).
Called at data/generate_db.py:17, 22, 25. -/
def pySpace (c : Char) : Bool := c = ' ' || (9 ≤ c.toNat && c.toNat ≤ 13)

/-- The digits of an integer literal: at least one digit, single underscores allowed between digits.
`seen` says whether the previous character was a digit.
Called at data/generate_db.py:17, 22, 25. -/
def pyDigits : Nat → Bool → List Char → Option Nat
  | acc, seen, [] => if seen then some acc else none
  | acc, seen, c :: cs =>
    if c = '_' then (if seen then pyDigits acc false cs else none)
    else match digitVal c with
      | some d => pyDigits (acc * 10 + d) true cs
      | none => none

/-- `int(s)` for a string: `none` is `ValueError` (data/generate_db.py:17, 22, 25). -/
def pyInt (s : List Char) : Option Int :=
  match ((s.dropWhile pySpace).reverse.dropWhile pySpace).reverse with
  | '-' :: cs => (pyDigits 0 false cs).map fun n => -Int.ofNat n
  | '+' :: cs => (pyDigits 0 false cs).map Int.ofNat
  | cs => (pyDigits 0 false cs).map Int.ofNat

/-- `int(os.getenv(name) or dflt)` (data/generate_db.py:15-17, 22, 25): unset and empty mean the default. -/
def envInt (env : String → Option (List Char)) (name : String) (dflt : Nat) : Option Int :=
  match env name with
  | none => some dflt
  | some [] => some dflt
  | some s => pyInt s

/-- `get_random(length)` before encoding, the `i`-th call (data/generate_db.py:5-7). -/
def genRandom (ent : Nat → U8) (i length : Nat) : List U8 :=
  (List.range length).map fun k => ent (i * length + k)

/-- `get_all_ones(length)` before encoding (data/generate_db.py:9-11). -/
def genAllOnes (length : Nat) : List U8 := List.replicate length 255#8

/-- The list `out` after the loop (data/generate_db.py:18-25). `none` is an exception: a negative exponent makes
`pow(2, v)` a float, which `range`, `os.urandom` and `bytes` multiplication refuse. -/
def genDbOut (env : String → Option (List Char)) (ent : Nat → U8) : Option (List (List Char)) := do
  let v ← envInt env "DB_NUM_ENTRIES_EXP" 16
  if v < 0 then none
  else
    let e ← envInt env "DB_ELEMENT_SIZE_EXP" 13
    if e < 0 then none
    else
      let length := 2 ^ e.toNat
      some ((List.range (2 ^ v.toNat)).map fun i =>
        if env "DB_ALL_ONES" = some ['0'] then b64Encode (genRandom ent i length)
        else b64Encode (genAllOnes length))

/-- `file_name` (data/generate_db.py:26-28). -/
def genDbPath (env : String → Option (List Char)) : Path :=
  match env "DB_OUTPUT_PATH" with
  | none => "rand_db.json".toList
  | some [] => "rand_db.json".toList
  | some p => p

/-- The whole script (data/generate_db.py:13-31): the file system afterwards and whether it ended without an
exception. -/
def genDb (ev : WriteEvent) (env : String → Option (List Char)) (ent : Nat → U8) (fs : FS) :
    FS × Res Unit :=
  match genDbOut env ent with
  | none => (fs, .panic)
  | some out =>
    let r := writeJson ev fs (genDbPath env) (.arr (out.map .str))
    (r.1, r.2.unwrap)

end Chalamet
