import Verif.Model.Api

/-!
# Many clients and one server

Histories of API calls by any number of client objects against one shard. Rust serialises the calls on one
object (`generate_query` takes `&mut self`, src/api.rs:277, 349) and the server object is never modified
(`respond` takes `&self`, src/api.rs:71, 218), so every execution with threads, sockets and delays is a
sequence of atomic calls. Messages are never removed from the lists: they can be answered or parsed late,
never, several times, or by the wrong object. The event type and the history are ours; every step of a
history is a call of a modelled API function.
-/

namespace Chalamet

/-- The API functions a history is made of. `QP` is the type of query parameter objects, `I` what is asked
for (a row index or a key)
(src/api.rs:262-294, 71-79, 296-330). -/
structure Pir (QP I : Type) where
  gen : List U32 → Res (QP × List U32)
  ask : QP → I → QP × Res (List U32)
  respond : List U32 → Res (List U8)
  parse : QP → I → List U8 → Res (List U32)

/-- One API call. `join`: a new object draws its secrets from a random tape; `copy c`: object
`c` is cloned, or saved and restored (`QueryParams` derives `Clone`, `Serialize` and `Deserialize`,
src/api.rs:249; see C54); `ask c i`: `generate_query(i)`
on object `c`; `serve k`: the server answers the `k`-th query ever sent; `parse c r i`: object `c` parses
the `r`-th response ever sent (as the response for `i`). -/
inductive Event (I : Type) where
  | join (tape : List U32)
  | copy (c : Nat)
  | ask (c : Nat) (i : I)
  | serve (k : Nat)
  | parse (c r : Nat) (i : I)

/-- The state after a history: the objects and the tapes they were made from, the queries sent (by which
object, for what), the responses sent (to which query), the results of parsing (by which object, of which
response, as the response for what).
Objects and messages of src/api.rs:250, 453, 462. -/
structure World (QP I : Type) where
  tapes : List (List U32)
  clients : List QP
  queries : List (Nat × I × List U32)
  responses : List (Nat × List U8)
  outputs : List (Nat × Nat × I × Res (List U32))

/-- No object, no message.
Before any call of src/api.rs:262. -/
def World.init {QP I : Type} : World QP I :=
  { tapes := [], clients := [], queries := [], responses := [], outputs := [] }

/-- Effect of one call; a call that returns an error or panics sends nothing.
Each call is one function of src/api.rs:262-446. -/
def Pir.step {QP I : Type} (S : Pir QP I) (w : World QP I) : Event I → World QP I
  | .join tape =>
    match S.gen tape with
    | .ok (qp, _) => { w with tapes := w.tapes ++ [tape], clients := w.clients ++ [qp] }
    | _ => w
  | .copy c =>
    match w.tapes[c]?, w.clients[c]? with
    | some tape, some qp => { w with tapes := w.tapes ++ [tape], clients := w.clients ++ [qp] }
    | _, _ => w
  | .ask c i =>
    match w.clients[c]? with
    | none => w
    | some qp =>
      match S.ask qp i with
      | (qp', .ok q) => { w with clients := w.clients.set c qp', queries := w.queries ++ [(c, i, q)] }
      | (qp', _) => { w with clients := w.clients.set c qp' }
  | .serve k =>
    match w.queries[k]? with
    | none => w
    | some (_, _, q) =>
      match S.respond q with
      | .ok bytes => { w with responses := w.responses ++ [(k, bytes)] }
      | _ => w
  | .parse c r i =>
    match w.clients[c]?, w.responses[r]? with
    | some qp, some (_, bytes) => { w with outputs := w.outputs ++ [(c, r, i, S.parse qp i bytes)] }
    | _, _ => w

/-- A whole history.
Sequence of calls of src/api.rs:262-446. -/
def Pir.run {QP I : Type} (S : Pir QP I) (evs : List (Event I)) : World QP I :=
  evs.foldl S.step World.init

/-- The index API of one shard: `generate_index_query_params` on the published parameters, `generate_query`,
`respond`, `Response` deserialisation followed by `parse_resp_as_row` (src/api.rs:434-439, 276-318, 71-81). -/
def indexPir (prof : Profile) (prg : Prg) (shard : Shard) : Pir (QueryParams Unit) Nat where
  gen := generateIndexQueryParams (commonParamsFrom prg shard.baseParams.publicSeed shard.baseParams.dim
    shard.baseParams.m) shard.baseParams
  ask := QueryParams.generateIndexQuery prof
  respond := shard.respond
  parse qp _ bytes := bincodeDeserialize bytes >>= qp.parseIndexRow prof

/-- The keyword API of one shard (src/api.rs:442-447, 348-402, 218-227). -/
def kvPir (prof : Profile) (prg : Prg) (shard : KVShard) : Pir (QueryParams FilterParams) Key where
  gen := generateKvQueryParams (commonParamsFrom prg shard.baseParams.publicSeed shard.baseParams.dim
    shard.baseParams.m) shard.baseParams
  ask := QueryParams.generateKvQuery prof
  respond := shard.respond
  parse qp key bytes := bincodeDeserialize bytes >>= fun resp => qp.parseKvRow prof resp key

end Chalamet
