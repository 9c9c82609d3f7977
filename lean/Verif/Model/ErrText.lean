import Verif.Model.JsonText

/-!
# Texts of errors and of debug output

The errors of the other model files are kinds (`Err`). Here the same functions carry, besides the kind, the text that
`Display` prints for the error (src/errors.rs, and the `format!` calls of src/utils.rs, src/api.rs, src/db/kv.rs); and the
text `{:?}` prints for a client's `QueryParams` is modelled as far as its two vectors.
-/

namespace Chalamet

/-- `ResultBoxedError<T>` with the text of the boxed error (src/errors.rs:4-6). -/
inductive TRes (α : Type) where
  | ok (a : α)
  | err (e : Err) (text : List Char)
  | panic
  | diverge
  deriving DecidableEq, Repr

namespace TRes

/-- Statement sequencing and `?`, which passes the boxed error on unchanged (src/api.rs:264-265). -/
def bind {α β : Type} (x : TRes α) (f : α → TRes β) : TRes β :=
  match x with
  | ok a => f a
  | err e t => err e t
  | panic => panic
  | diverge => diverge

/-- Statement order and `?`, with the error text (src/db/index.rs:46-48). -/
instance : Monad TRes where
  pure := ok
  bind := bind

/-- The outcome without the text (src/errors.rs:4-6). -/
def forget {α : Type} : TRes α → Res α
  | ok a => .ok a
  | err e _ => .err e
  | panic => .panic
  | diverge => .diverge

end TRes

/-- `Display` of the errors whose text is fixed: `ErrorQueryParamsReused` (src/errors.rs:37-44), `ErrorOverflownAdd`
(src/errors.rs:51-55), the string error of src/api.rs:357 and 379. The empty text stands for the other kinds, which do not
occur where this is used. -/
def fixedText : Err → List Char
  | .queryParamsReused => "Attempted to reuse query parameters that were used already".toList
  | .overflownAdd => "Attempted to overflow addition".toList
  | .noFilterParams => "No filter parameters set for KV QueryParams".toList
  | _ => []

/-- `Display` of `ErrorUnexpectedInputSize` (src/errors.rs:21-25). -/
def inputSizeText (details : List Char) : List Char := "Unexpected input size error: ".toList ++ details

/-- An outcome whose errors have fixed texts (src/errors.rs:37-55). -/
def Res.withText {α : Type} : Res α → TRes α
  | .ok a => .ok a
  | .err e => .err e (fixedText e)
  | .panic => .panic
  | .diverge => .diverge

/-- `vec_mult_u32_u32` (src/utils.rs:72-87). -/
def vecMultT (row col : List U32) : TRes U32 :=
  if row.length ≠ col.length then
    .err .inputSize (inputSizeText
      ("row_len: ".toList ++ decText row.length ++ ", col_len:".toList ++ decText col.length ++ [',']))
  else (foldRes (dotStep row col) 0#32 (List.range row.length)).withText

/-- `CommonParams::mult_left` (src/db/mod.rs:82-91). -/
def multLeftT (s : List U32) : List (List U32) → List U32 → TRes (List U32 × List U32)
  | [], tape => .ok ([], tape)
  | col :: cols, tape => do
    let sa ← vecMultT s col
    let (e, tape) ← (randomTernary tape).withText
    let (rest, tape) ← multLeftT s cols tape
    .ok ((sa + e) :: rest, tape)

/-- `BaseParams::mult_right` (src/db/mod.rs:59-64). -/
def multRightT (s : List U32) : List (List U32) → TRes (List U32)
  | [] => .ok []
  | col :: cols => do
    let x ← vecMultT s col
    let rest ← multRightT s cols
    .ok (x :: rest)

/-- `QueryParams<IndexDatabase, EmptyAuxParams>::new` (src/api.rs:262-273). -/
def generateIndexQueryParamsT (cp : List (List U32)) (params : IndexParams) (tape : List U32) :
    TRes (QueryParams Unit × List U32) := do
  let (s, tape) ← (randomTernaryVector params.dim tape).withText
  let (lhs, tape) ← multLeftT s cp tape
  let rhs ← multRightT s params.rhs
  .ok ({ lhs := lhs, rhs := rhs, elemSize := params.elemSize,
         plaintextBits := params.plaintextBits, extraParams := none, used := false }, tape)

/-- `QueryParams<KVDatabase, FilterParams>::new` (src/api.rs:334-345). -/
def generateKvQueryParamsT (cp : List (List U32)) (params : KVParams) (tape : List U32) :
    TRes (QueryParams FilterParams × List U32) := do
  let (s, tape) ← (randomTernaryVector params.dim tape).withText
  let (lhs, tape) ← multLeftT s cp tape
  let rhs ← multRightT s params.rhs
  .ok ({ lhs := lhs, rhs := rhs, elemSize := params.elemSize,
         plaintextBits := params.plaintextBits, extraParams := some params.filterParams, used := false }, tape)

/-- `QueryParams<IndexDatabase, _>::generate_query` (src/api.rs:276-294): its two errors have fixed texts. -/
def QueryParams.generateIndexQueryT (prof : Profile) (qp : QueryParams Unit) (rowIndex : Nat) :
    QueryParams Unit × TRes (List U32) :=
  ((qp.generateIndexQuery prof rowIndex).1, (qp.generateIndexQuery prof rowIndex).2.withText)

/-- `QueryParams<KVDatabase, FilterParams>::generate_query` (src/api.rs:348-364). -/
def QueryParams.generateKvQueryT (prof : Profile) (qp : QueryParams FilterParams) (key : Key) :
    QueryParams FilterParams × TRes (List U32) :=
  ((qp.generateKvQuery prof key).1, (qp.generateKvQuery prof key).2.withText)

/-- `{:?}` of a `Vec` of numbers: `[1, 2, 3]` (src/utils.rs:218-221, src/api.rs:248). -/
def dbgVec {w : Nat} (l : List (BitVec w)) : List Char :=
  '[' :: sepText [',', ' '] (l.map fun x => decText x.toNat) ++ [']']

/-- `u32_sized_bytes_from_vec` (src/utils.rs:212-226): the text of the error contains the bytes. -/
def u32SizedBytesFromVecT (bytes : List U8) : TRes (List U8) :=
  if bytes.length = 4 then .ok bytes
  else .err .inputSize (inputSizeText ("Unexpected vector size: ".toList ++ dbgVec bytes))

/-- `bits_to_u32_le` (src/utils.rs:194-210). -/
def bitsToU32LeT (prof : Profile) (bits : List Bool) : TRes U32 := do
  let bytes ← (bitsToBytesLe prof bits).withText
  if bytes.length > 4 then
    .err .inputSize (inputSizeText ("bytes are too long to parse as u16, length: ".toList ++ decText bytes.length))
  else do
    let sized ← u32SizedBytesFromVecT (bytes ++ List.replicate (4 - bytes.length) 0#8)
    .ok (u32FromLeBytes sized)

/-- `{:?}` of a client's `QueryParams` (`derive(Debug)`, src/api.rs:248-257): the two vectors come first. The text of the
other fields (sizes, `PhantomData`, filter parameters, the flag) is left open: `rest`. -/
def QueryParams.dbgText {EP : Type} (rest : List Char) (qp : QueryParams EP) : List Char :=
  "QueryParams { lhs: ".toList ++ dbgVec qp.lhs ++ ", rhs: ".toList ++ dbgVec qp.rhs ++ rest

end Chalamet
