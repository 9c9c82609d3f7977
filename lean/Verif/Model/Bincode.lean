import Verif.Model.Utils

/-!
# Model of `bincode` 1.x for `Response(Vec<u32>)`

The crate is external; `bincode::serialize` is called at src/api.rs:78 and src/api.rs:224,
`bincode::deserialize` by the client (src/api.rs:501, 554). Default configuration: fixed-size
little-endian integers, a sequence is its `u64` length followed by its elements; `deserialize`
accepts trailing bytes.
-/

namespace Chalamet

/-- Little-endian bytes of a natural number, fixed width.
Part of `bincode::serialize` (src/api.rs:78, 224). -/
def natToLeBytes : Nat → Nat → List U8
  | 0, _ => []
  | n + 1, x => BitVec.ofNat 8 x :: natToLeBytes n (x / 256)

/-- Little-endian value of a byte string.
Part of `bincode::deserialize`, which clients call on a response (src/api.rs:501, benches/bench.rs:238). -/
def natFromLeBytes (bytes : List U8) : Nat := bytes.foldr (fun b acc => b.toNat + 256 * acc) 0

/-- `bincode::serialize` of a `Vec<u32>` newtype (src/api.rs:78, 224, 461-462). -/
def bincodeSerialize (v : List U32) : List U8 :=
  natToLeBytes 8 v.length ++ v.flatMap u32ToLeBytes

/-- Reading `n` elements; running out of input is an error.
Part of `bincode::deserialize`, as above (src/api.rs:501). -/
def bincodeElems : Nat → List U8 → Res (List U32)
  | 0, _ => .ok []
  | n + 1, a :: b :: c :: d :: rest => do
    let xs ← bincodeElems n rest
    .ok (u32FromLeBytes [a, b, c, d] :: xs)
  | _ + 1, _ => .err .bincode

/-- `bincode::deserialize::<Response>` (as in src/api.rs:501, 554). -/
def bincodeDeserialize (bytes : List U8) : Res (List U32) :=
  if bytes.length < 8 then .err .bincode
  else bincodeElems (natFromLeBytes (bytes.take 8)) (bytes.drop 8)

end Chalamet
