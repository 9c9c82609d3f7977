import Verif.Model.Utils

/-!
# Model of `base64` 0.13 with the standard alphabet (RFC 4648), and `base64_from_u32_slice`

The crate is external to `/repo`; it is called at src/utils.rs:252, src/db/index.rs:181 and
src/db/kv.rs:252. Strings are modelled as lists of characters.
-/

namespace Chalamet

/-- The standard alphabet (RFC 4648 table 1): value to character.
Used by `base64::encode` (src/utils.rs:252) and `base64::decode` (src/db/index.rs:181, src/db/kv.rs:252). -/
def b64Char (v : Nat) : Char :=
  if v < 26 then Char.ofNat (65 + v)
  else if v < 52 then Char.ofNat (97 + (v - 26))
  else if v < 62 then Char.ofNat (48 + (v - 52))
  else if v = 62 then '+' else '/'

/-- Inverse of the alphabet; `none` for characters outside it.
Used by `base64::decode` (src/db/index.rs:181, src/db/kv.rs:252). -/
def b64Val (c : Char) : Option Nat :=
  let n := c.toNat
  if 65 ≤ n ∧ n ≤ 90 then some (n - 65)
  else if 97 ≤ n ∧ n ≤ 122 then some (n - 97 + 26)
  else if 48 ≤ n ∧ n ≤ 57 then some (n - 48 + 52)
  else if n = 43 then some 62
  else if n = 47 then some 63
  else none

/-- `base64::encode`: groups of three bytes become four characters; a final group of one or two
bytes is padded with `=`.
Called at src/utils.rs:252. -/
def b64Encode : List U8 → List Char
  | [] => []
  | [a] =>
    let n := a.toNat * 16
    [b64Char (n / 64), b64Char (n % 64), '=', '=']
  | [a, b] =>
    let n := (a.toNat * 256 + b.toNat) * 4
    [b64Char (n / 4096), b64Char (n / 64 % 64), b64Char (n % 64), '=']
  | a :: b :: c :: rest =>
    let n := (a.toNat * 256 + b.toNat) * 256 + c.toNat
    b64Char (n / 262144) :: b64Char (n / 4096 % 64) :: b64Char (n / 64 % 64) :: b64Char (n % 64)
      :: b64Encode rest

/-- `base64::decode` of a final group of two or three characters (padding removed). Non-zero
trailing bits are refused (`decode_allow_trailing_bits = false`).
Called at src/db/index.rs:181, src/db/kv.rs:252. -/
def b64Tail : List Char → Res (List U8)
  | [] => .ok []
  | [x, y] => match b64Val x, b64Val y with
    | some vx, some vy =>
      let n := vx * 64 + vy
      if n % 16 = 0 then .ok [BitVec.ofNat 8 (n / 16)] else .err .base64
    | _, _ => .err .base64
  | [x, y, z] => match b64Val x, b64Val y, b64Val z with
    | some vx, some vy, some vz =>
      let n := (vx * 64 + vy) * 64 + vz
      if n % 4 = 0 then .ok [BitVec.ofNat 8 (n / 1024), BitVec.ofNat 8 (n / 4)] else .err .base64
    | _, _, _ => .err .base64
  | _ => .err .base64

/-- `base64::decode`: full groups of four alphabet characters; the last group may be padded with
`=` or (as base64 0.13 tolerates) left unpadded or only partly padded, e.g. `YQ=`. Anything else is
a `DecodeError`.
Called at src/db/index.rs:181, src/db/kv.rs:252. -/
def b64Decode : List Char → Res (List U8)
  | [] => .ok []
  | [x, y, '=', '='] => b64Tail [x, y]
  | [x, y, z, '='] => b64Tail [x, y, z]
  | [x, y, '='] => b64Tail [x, y]
  | x :: y :: z :: w :: rest => match b64Val x, b64Val y, b64Val z, b64Val w with
    | some vx, some vy, some vz, some vw => do
      let n := ((vx * 64 + vy) * 64 + vz) * 64 + vw
      let bs ← b64Decode rest
      .ok (BitVec.ofNat 8 (n / 65536) :: BitVec.ofNat 8 (n / 256) :: BitVec.ofNat 8 n :: bs)
    | _, _, _, _ => .err .base64
  | l => b64Tail l

/-- `base64_from_u32_slice` (src/utils.rs:247-253). -/
def base64FromU32Slice (prof : Profile) (v : List U32) (entryBitLen totalBitLen : Nat) :
    Res (List Char) := do
  let bytes ← bytesFromU32Slice prof v entryBitLen totalBitLen
  .ok (b64Encode bytes)

end Chalamet
