import Verif.Model.Utils

/-!
# Model of `pi-rs-cli-utils/src/lib.rs`

Strings are lists of characters. `str::parse` for `u32`, `usize` and `bool` is the standard library's
(`core::num::from_str_radix` with radix 10): written out here from its documentation. The command line itself
(crate `clap`) is external: `parse_cli_flags` is modelled on the four option values `clap` returns.
-/

namespace Chalamet

/-- Value of a decimal digit, as `char::to_digit(10)`.
Used by `parse` (pi-rs-cli-utils/src/lib.rs:55, 94). -/
def digitVal (c : Char) : Option Nat :=
  if '0' ≤ c ∧ c ≤ '9' then some (c.toNat - '0'.toNat) else none

/-- The digit loop of `from_str_radix` for an unsigned type with maximum `bound - 1`: `checked_mul(10)`, then
`checked_add(digit)`.
Called through `parse` (pi-rs-cli-utils/src/lib.rs:55, 59, 76-79, 94). -/
def parseDigits (bound : Nat) : Nat → List Char → Option Nat
  | acc, [] => some acc
  | acc, c :: cs =>
    match digitVal c with
    | none => none
    | some d =>
      if bound ≤ acc * 10 then none
      else if bound ≤ acc * 10 + d then none
      else parseDigits bound (acc * 10 + d) cs

/-- `str::parse` for an unsigned integer type: empty strings and a lone sign are refused, one leading `+` is
skipped, `-` is not a digit.
Called at pi-rs-cli-utils/src/lib.rs:55, 59, 76-79, 94. -/
def parseUnsigned (bound : Nat) : List Char → Option Nat
  | [] => none
  | ['+'] => none
  | '+' :: cs => parseDigits bound 0 cs
  | cs => parseDigits bound 0 cs

/-- `str::parse::<bool>`.
Called at pi-rs-cli-utils/src/lib.rs:100. -/
def parseBool (s : List Char) : Option Bool :=
  if s = "true".toList then some true
  else if s = "false".toList then some false
  else none

/-- `.unwrap()` of an `Option` or of a parse result
(pi-rs-cli-utils/src/lib.rs:53-62, 76-82, 94, 100). -/
def unwrapOpt {α : Type} : Option α → Res α
  | some a => .ok a
  | none => .panic

/-- `parse_exp_to_usize` (pi-rs-cli-utils/src/lib.rs:93-97): `2_u32.pow(exp) as usize`; an exponent of 32 or more
overflows (panic in debug, wraps to 0 in release). -/
def parseExpToUsize (prof : Profile) (v : List Char) : Res Nat := do
  let exp ← unwrapOpt (parseUnsigned (2 ^ 32) v)
  if exp < 32 then .ok (2 ^ exp)
  else match prof with
    | .debug => .panic
    | .release => .ok 0

/-- `parse_val_to_bool` (pi-rs-cli-utils/src/lib.rs:99-102). -/
def parseValToBool (v : List Char) : Res Bool := unwrapOpt (parseBool v)

/-- `struct CLIFlags` (pi-rs-cli-utils/src/lib.rs:4-11). -/
structure CLIFlags where
  m : Nat
  lweDim : Nat
  plaintextBits : Nat
  elemSize : Nat
  offline : Bool
  keyword : Bool
  deriving DecidableEq, Repr

/-- `parse_cli_flags` (pi-rs-cli-utils/src/lib.rs:13-71): the arguments are the values of the four options, `none`
for an option that was not given (the defaults are at lines 23, 31, 39, 47). -/
def parseCliFlags (prof : Profile) (matrixHeight eleSize plaintextBits dim : Option (List Char)) :
    Res CLIFlags := do
  let elemSize ← parseExpToUsize prof (eleSize.getD "13".toList)
  let lweDim ← unwrapOpt (parseUnsigned (2 ^ 64) (dim.getD "2048".toList))
  let bits ← unwrapOpt (parseUnsigned (2 ^ 64) (plaintextBits.getD "10".toList))
  let m ← parseExpToUsize prof (matrixHeight.getD "16".toList)
  .ok { m := m, lweDim := lweDim, plaintextBits := bits, elemSize := elemSize, offline := true,
        keyword := true }

/-- `parse_from_env` (pi-rs-cli-utils/src/lib.rs:73-91); `env` gives the value of a variable that is set and
unicode. -/
def parseFromEnv (prof : Profile) (env : String → Option (List Char)) : Res CLIFlags := do
  let v ← unwrapOpt (env "PIR_ELEM_SIZE_BITS")
  let elemSize ← unwrapOpt (parseUnsigned (2 ^ 64) v)
  let v ← unwrapOpt (env "PIR_LWE_DIM")
  let lweDim ← unwrapOpt (parseUnsigned (2 ^ 64) v)
  let v ← unwrapOpt (env "PIR_PLAINTEXT_BITS")
  let bits ← unwrapOpt (parseUnsigned (2 ^ 64) v)
  let v ← unwrapOpt (env "PIR_NUMBER_OF_ELEMENTS_EXP")
  let m ← parseExpToUsize prof v
  let v ← unwrapOpt (env "BENCH_DB_GEN")
  let offline ← parseValToBool v
  let v ← unwrapOpt (env "BENCH_KV")
  let keyword ← parseValToBool v
  .ok { m := m, lweDim := lweDim, plaintextBits := bits, elemSize := elemSize, offline := offline,
        keyword := keyword }

end Chalamet
