import Verif.Lemmas.System
import Verif.Props.IndexPir
import Verif.Props.Kv

/-!
# Histories with any number of clients: C67

A history is any list of `Event`s (`Verif/Model/System.lean`): objects are created, copied, asked for queries;
the server answers any query ever sent, any number of times, in any order; any object parses any response ever
sent. `(indexPir prof prg shard).run evs` is the state after the history `evs`.
-/

namespace Chalamet
open Spec

/-- **C67 (index).** After every history of calls against one shard: no object has sent two queries; every query
ever sent is for a row of the database and the server answers it; all answers to one query are equal; and
whenever an object has parsed an answer to its own query, it obtained a row of the right width, and this is the
stored row exactly when the noise of the error vector drawn when that object was made is in the window.
Nothing else in the history has any influence. -/
theorem C67_index_history (prof : Profile) (prg : Prg) (seed : List U8) (strs : List (List Char))
    (elems : List (List U8)) (n m T b : Nat)
    (hb1 : 1 ≤ b) (hb : b ≤ 31) (hT : T < 2 ^ 64) (hm0 : 0 < m) (hm : m ≤ elems.length)
    (hdec : strs.map b64Decode = elems.map Res.ok)
    (hlen : ∀ e ∈ elems.take m, T ≤ 8 * e.length) :
    ∃ shard, Shard.fromBase64Strings prof prg seed strs n m T b = .ok shard ∧
      ∀ evs : List (Event Nat),
        let w := (indexPir prof prg shard).run evs
        (∀ c, (w.queries.filter fun x => x.1 == c).length ≤ 1) ∧
        (∀ c i q, (c, i, q) ∈ w.queries → i < m ∧ ∃ bytes, shard.respond q = .ok bytes) ∧
        (∀ k bytes bytes', (k, bytes) ∈ w.responses → (k, bytes') ∈ w.responses → bytes = bytes') ∧
        ∀ (c r i k i' : Nat) (out : Res (List U32)) (bytes : List U8) (q : List U32),
          (c, r, i, out) ∈ w.outputs → w.responses[r]? = some (k, bytes) →
          w.queries[k]? = some (c, i', q) →
          ∃ tape s t1 e t2, w.tapes[c]? = some tape ∧ randomTernaryVector n tape = .ok (s, t1) ∧
            randomTernaryVector m t1 = .ok (e, t2) ∧
            ∃ hi : i' < m, ∃ row, out = .ok row ∧ row.length = width T b ∧
              (row = rowOf b (width T b) elems[i'] ↔
                ∀ j < width T b, InWindow b (dot e (column b j (elems.take m)))) := by
  obtain ⟨shard, hsh, hpir⟩ := C01_index_pir prof prg seed strs elems n m T b hb1 hb hT hm0 hm hdec hlen
  refine ⟨shard, hsh, ?_⟩
  intro evs w
  have hinv : (indexPir prof prg shard).Inv _ _ w := Pir.inv_run (indexPir_good prof prg shard) evs
  refine ⟨hinv.once, ?_, ?_, ?_⟩
  · intro c i q hq
    obtain ⟨tape, qp0, t, _, h2, h3⟩ := hinv.query c i q hq
    obtain ⟨s, t1, e, _, _, hall⟩ := hpir tape qp0 t h2
    obtain ⟨hi, bytes, _, _, hr, _⟩ := hall i _ q h3
    exact ⟨hi, bytes, hr⟩
  · intro k bytes bytes' hr hr'
    obtain ⟨c, i, q, h1, h2⟩ := hinv.response k bytes hr
    obtain ⟨c', i', q', h1', h2'⟩ := hinv.response k bytes' hr'
    rw [h1] at h1'
    cases h1'
    rw [h2] at h2'
    exact Res.ok.inj h2'
  · intro c r i k i' out bytes q ho hr hq
    obtain ⟨tape, qp0, t, k', bytes', g1, g2, g3, g4⟩ := hinv.output c r i out ho
    rw [hr] at g3
    cases g3
    obtain ⟨c1, i1, q1, e1, e2⟩ := hinv.response k bytes (List.mem_of_getElem? hr)
    rw [hq] at e1
    cases e1
    obtain ⟨tape', qp1, t', f1, f2, f3⟩ := hinv.query c i' q (List.mem_of_getElem? hq)
    rw [g1] at f1
    cases f1
    rw [g2] at f2
    cases f2
    obtain ⟨s, t1, e, hs, he, hall⟩ := hpir tape qp0 t g2
    obtain ⟨hi, bytes1, resp, row, a1, a2, a3, a4, _, a6⟩ := hall i' _ q f3
    have e2' : shard.respond q = .ok bytes := e2
    rw [a1] at e2'
    cases e2'
    refine ⟨tape, s, t1, e, t, g1, hs, he, hi, row, ?_, a4, a6⟩
    rw [g4]
    show (bincodeDeserialize bytes >>= qp0.parseIndexRow prof) = _
    rw [a2, Res.bind_ok]
    exact a3

/-- **C67 (keyword).** The same for a key-value shard: whenever an object has parsed, with the key it asked for,
an answer to its own query, and the key is stored, it obtained a row of the right width, which is the stored
value exactly when the noise of its own error vector is in the window. -/
theorem C67_kv_history (prof : Profile) (prg : Prg) (pseed : List U8) (segExp cap0 : Nat)
    (fp0 : Nat → Nat → U32) (filterSeed : List U8) (kvs : List KeyValue) (n m T b : Nat)
    (shard : KVShard) (hb1 : 1 ≤ b) (hb : b ≤ 31) (hT : T < 2 ^ 64)
    (hsh : KVShard.new prof prg pseed segExp cap0 fp0 filterSeed kvs n m T b = .ok shard)
    (hw : ∀ kv ∈ kvs, kv.value.length = width T b)
    (hload : prof = .debug ∨
      ∀ s, slotLoad filterSeed shard.db.filterParams.geom (kvs.map (·.key)) s < 64)
    (evs : List (Event Key)) :
    let w := (kvPir prof prg shard).run evs
    (∀ c, (w.queries.filter fun x => x.1 == c).length ≤ 1) ∧
    (∀ k bytes bytes', (k, bytes) ∈ w.responses → (k, bytes') ∈ w.responses → bytes = bytes') ∧
    ∀ (c r k i : Nat) (hi : i < kvs.length) (out : Res (List U32)) (bytes : List U8) (q : List U32),
      (∀ k (hk : k < kvs.length), i < k → mix256 kvs[k].key filterSeed ≠ mix256 kvs[i].key filterSeed) →
      (c, r, kvs[i].key, out) ∈ w.outputs → w.responses[r]? = some (k, bytes) →
      w.queries[k]? = some (c, kvs[i].key, q) →
      ∃ tape s t1 e t2, w.tapes[c]? = some tape ∧ randomTernaryVector n tape = .ok (s, t1) ∧
        randomTernaryVector shard.baseParams.m t1 = .ok (e, t2) ∧
        ∃ row, out = .ok row ∧ row.length = width T b ∧
          (row = kvs[i].value.map (fun v => BitVec.ofNat 32 (v.toNat % 2 ^ b)) ↔
            ∀ col ∈ shard.db.entries, InWindow b (dot e col)) := by
  intro w
  have hinv : (kvPir prof prg shard).Inv _ _ w := Pir.inv_run (kvPir_good prof prg shard) evs
  refine ⟨hinv.once, ?_, ?_⟩
  · intro k bytes bytes' hr hr'
    obtain ⟨c, i, q, h1, h2⟩ := hinv.response k bytes hr
    obtain ⟨c', i', q', h1', h2'⟩ := hinv.response k bytes' hr'
    rw [h1] at h1'
    cases h1'
    rw [h2] at h2'
    exact Res.ok.inj h2'
  · intro c r k i hi out bytes q hlast ho hr hq
    obtain ⟨tape, qp0, t, k', bytes', g1, g2, g3, g4⟩ := hinv.output c r _ out ho
    rw [hr] at g3
    cases g3
    obtain ⟨c1, i1, q1, e1, e2⟩ := hinv.response k bytes (List.mem_of_getElem? hr)
    rw [hq] at e1
    cases e1
    obtain ⟨tape', qp1, t', f1, f2, f3⟩ := hinv.query c _ q (List.mem_of_getElem? hq)
    rw [g1] at f1
    cases f1
    rw [g2] at f2
    cases f2
    obtain ⟨s, t1, e, hs, he, _, hall⟩ := C04_kv_pir prof prg pseed segExp cap0 fp0 filterSeed kvs n m T b
      shard hb1 hb hT hsh hw hload tape t qp0 g2
    obtain ⟨qp', q', bytes1, resp, row, a0, a1, a2, a3, a4, _, a6⟩ := hall i hi hlast
    have f3' : qp0.generateKvQuery prof kvs[i].key = _ := f3
    rw [a0] at f3'
    obtain ⟨rfl, hq'⟩ := Prod.mk.inj f3'
    cases Res.ok.inj hq'
    have e2' : shard.respond q = .ok bytes := e2
    rw [a1] at e2'
    cases e2'
    refine ⟨tape, s, t1, e, t, g1, hs, he, row, ?_, a4, a6⟩
    rw [g4]
    show (bincodeDeserialize bytes >>= fun resp => qp0.parseKvRow prof resp kvs[i].key) = _
    rw [a2, Res.bind_ok]
    exact a3

/-- Concrete history: two objects and a copy of the second; the copy and the first ask, the queries are answered
out of order and twice, both parse their own answers, the first object is asked again (refused). -/
example :
    let strs := ["AAE=".toList, "/38=".toList, "EjQ=".toList]
    let prg : Prg := fun _ k => BitVec.ofNat 32 (1000003 * k + 17)
    let tape := (List.range 10).map fun k => BitVec.ofNat 32 (2000000000 + k * 300000000)
    let tape' := (List.range 10).map fun k => BitVec.ofNat 32 (1000000000 + k * 100000000)
    (Shard.fromBase64Strings .debug prg [] strs 2 3 16 5 >>= fun shard =>
      let w := (indexPir .debug prg shard).run [.join tape, .join tape', .copy 1, .ask 2 2, .ask 0 1, .serve 1,
        .serve 0, .serve 1, .ask 0 0, .parse 0 2 1, .parse 2 1 2]
      .ok (w.outputs.map fun x => (x.1, x.2.2.2), w.queries.length, w.responses.map (·.1))) =
    .ok ([(0, .ok (rowOf 5 4 [255#8, 127#8])), (2, .ok (rowOf 5 4 [0x12#8, 0x34#8]))], 2, [1, 0, 1]) := by
  decide +kernel

end Chalamet
