import Verif.Model.Bench
import Verif.Props.Reset
import Verif.Props.Client
import Verif.Props.Serde
import Verif.Props.KvStrings
import Verif.Props.KvAccess

/-!
# C101: when the benchmark program runs through
-/

namespace Chalamet
open Spec

/-- The random words suffice for one `generate_…_query_params` call: `n` and then `m` acceptable words. -/
def Spec.Supplies (n m : Nat) (tape : List U32) : Prop :=
  ∃ s t1 e t2, randomTernaryVector n tape = .ok (s, t1) ∧ randomTernaryVector m t1 = .ok (e, t2)

theorem mapRes_const {α β : Type} (x : β) (l : List α) : mapRes (fun _ => Res.ok x) l = .ok (List.replicate l.length x) := by
  induction l with
  | nil => rfl
  | cons a l ih => rw [mapRes_cons, ih]; rfl

theorem shard_params (prg : Prg) (seed : List U8) (elems : List (List U8)) {n m T b : Nat} {tape s t1 e t2 : List U32}
    (hs : randomTernaryVector n tape = .ok (s, t1)) (he : randomTernaryVector m t1 = .ok (e, t2)) :
    ∃ qp, generateIndexQueryParams (commonParamsFrom prg seed n m) (shardOf prg seed elems n m T b).baseParams tape = .ok (qp, t2) ∧
      qp.lhs.length = m ∧ qp.rhs.length = width T b ∧ qp.used = false ∧ qp.plaintextBits = b ∧ qp.elemSize = T ∧
      qp.lhs = vadd ((generateLweMatrixFromSeed prg seed n m).map fun a => dot s a) e := by
  have hr := generateLwe_rect prg seed n m
  obtain ⟨qp, h, h1, h2, h3, h4, h5⟩ := (C25_dimension_check (generateLweMatrixFromSeed prg seed n m)
    (shardOf prg seed elems n m T b).baseParams tape t1 t2 s e hs (by rw [hr.1]; exact he)).2 (by
      intro c hc
      rcases List.mem_append.1 hc with hc | hc
      · exact hr.2 c hc
      · simp only [shardOf, rhsOf, List.mem_map] at hc
        obtain ⟨j, _, rfl⟩ := hc
        simp [shardOf])
  obtain ⟨_, _, _, _, _, hqp⟩ := genParams_spec (n := n) (m := m) (prg := prg) (seed := seed)
    (rhs := (shardOf prg seed elems n m T b).baseParams.rhs) rfl rfl h
  refine ⟨qp, h, by rw [h1, hr.1], by rw [h2]; simp [shardOf, rhsOf], h3, by rw [hqp]; rfl, by rw [hqp]; rfl, h4⟩

/-- **C101 (index).** The benchmark program in index mode, whatever the random bytes of its database, its seeds and random words,
and however often the runner calls each benchmark: it panics when there are at most ten records (it always asks for record 10); it
panics when the mask of record 10 is too large for the addition; otherwise it runs through, and all strings it parses are the same
one. That is the string of record 10 if the noise is in the window (whole bytes, `b` not dividing the size). -/
theorem C101_index (prof : Profile) (prg : Prg) (ent : Nat → U8) (seed : List U8) (tape : List U32) (tapes : Nat → List U32)
    (seeds : Nat → List U8) (m n T b : Nat) (it : BenchIters) (gen : Option Nat) (hb1 : 1 ≤ b) (hb : b ≤ 31) (hT0 : 0 < T)
    (hT : T < 2 ^ 64) (s t1 e t2 : List U32) (hs : randomTernaryVector n tape = .ok (s, t1))
    (he : randomTernaryVector m t1 = .ok (e, t2)) (htapes : ∀ i, Supplies n m (tapes i)) :
    let run := benchIndexMain prof prg ent seed tape tapes seeds m n T b it gen
    let mask := vadd ((generateLweMatrixFromSeed prg seed n m).map fun a => dot s a) e
    (m ≤ 10 → run = .panic) ∧
    (10 < m → 2 ^ 32 ≤ (mask.getD 10 0#32).toNat + 2 ^ (32 - b) → run = .panic) ∧
    (10 < m → (mask.getD 10 0#32).toNat + 2 ^ (32 - b) < 2 ^ 32 →
      ∃ str, run = .ok (List.replicate it.parse str) ∧
        ∀ elems, (benchDbEles ent m ((T + 7) / 8)).map b64Decode = elems.map Res.ok → 8 ∣ T → ¬ b ∣ T →
          (∀ j < width T b, InWindow b (dot e (column b j elems))) →
          (benchDbEles ent m ((T + 7) / 8))[10]? = some str) := by
  intro run mask
  obtain ⟨elems, hstr, hlen, helen, -⟩ := C87_bench_stream ent m ((T + 7) / 8)
  have hfits : ∀ e ∈ elems.take m, (width T b - 1) * b ≤ 8 * e.length := by
    intro e he
    have h2 : (width T b - 1) * b ≤ T := width_mul_le (by omega)
    have := helen e (List.mem_of_mem_take he)
    omega
  have hbuild : ∀ sd, 0 < m → Shard.fromBase64Strings prof prg sd (benchDbEles ent m ((T + 7) / 8)) n m T b =
      .ok (shardOf prg sd elems n m T b) := fun sd hm => by
    rw [hstr]
    exact shard_ok (map_decode_encode elems) hb1 (by omega) hm (by omega) hfits
  obtain ⟨qp, hqp, hl, hr, hu, hbits, hsize, hmask⟩ := shard_params (T := T) (b := b) prg seed elems hs he
  have hw : (shardOf prg seed elems n m T b).db.getRowWidthSelf = .ok (width T b) :=
    getRowWidth_ok (by show 0 < b; omega)
  have hpanic : 0 < m → (∀ q, (qp.generateIndexQuery prof 10).2 ≠ .ok q) →
      (qp.generateIndexQuery prof 10).2 ≠ .diverge → run = .panic := by
    intro hm hq hd
    show benchIndexMain _ _ _ _ _ _ _ _ _ _ _ _ _ = _
    unfold benchIndexMain
    simp only
    rw [hbuild seed hm, Res.unwrap_ok, Res.bind_ok]
    unfold benchClientQuery
    rw [hw, Res.bind_ok]
    simp only [show (shardOf prg seed elems n m T b).baseParams.publicSeed = seed from rfl,
      show (shardOf prg seed elems n m T b).baseParams.dim = n from rfl,
      show (shardOf prg seed elems n m T b).baseParams.m = m from rfl, hqp, Res.unwrap_ok, Res.bind_ok]
    cases h : (qp.generateIndexQuery prof 10).2 with
    | ok q => exact absurd h (hq q)
    | err e => rfl
    | panic => rfl
    | diverge => exact absurd h hd
  refine ⟨?_, ?_, ?_⟩
  · intro hm
    rcases Nat.eq_zero_or_pos m with rfl | hm0
    · show benchIndexMain _ _ _ _ _ _ _ _ _ _ _ _ _ = _
      unfold benchIndexMain
      simp only
      rw [(C61_index_build prof prg seed _ n 0 T b hb1 (by omega)).1 rfl]
      rfl
    · have := C06_out_of_range prof qp 10 (by omega) hu (by omega)
      apply hpanic hm0 <;> simp [this]
  · intro hm hov
    have h10 : 10 < qp.lhs.length := by omega
    have := (C06_index_query_outcome prof qp 10 (by omega) (by omega) hu h10).2.2 (by
      rw [hbits, ← getD_lt h10, hmask]; exact hov)
    apply hpanic (by omega) <;> simp [this]
  · intro hm hov
    have h10 : 10 < qp.lhs.length := by omega
    obtain ⟨q, hq⟩ : ∃ q, (qp.generateIndexQuery prof 10) = ({ qp with used := true }, .ok q) := by
      have := (C06_index_query_outcome prof qp 10 (by omega) (by omega) hu h10).2.1 (by
        rw [hbits, ← getD_lt h10, hmask]; exact hov)
      rw [indexQuery_fresh hu] at this ⊢
      exact ⟨_, Prod.ext rfl this⟩
    have hql : q.length = m := by
      have := (C06_index_query_outcome prof qp 10 (by omega) (by omega) hu h10).2.1 (by
        rw [hbits, ← getD_lt h10, hmask]; exact hov)
      rw [hq] at this
      cases this
      simp [hl]
    set R := (List.range (width T b)).map fun j => dot q (column b j (elems.take m)) with hR
    have hRl : R.length = width T b := by simp [hR]
    have hans : (shardOf prg seed elems n m T b).answer q = .ok R := shard_answer hb1 (by omega) hql
    have hresp : (shardOf prg seed elems n m T b).respond q = .ok (bincodeSerialize R) := by
      unfold Shard.respond
      rw [hans]
      rfl
    have hdes : bincodeDeserialize (bincodeSerialize R) = .ok R := by
      have := (C22_response_round_trip R (by rw [hRl]; exact lt_of_le_of_lt (width_le T b hb1) hT)).1 []
      rwa [List.append_nil] at this
    obtain ⟨bytes, hbytes, _⟩ := C59_index_bytes_length prof { qp with used := true } b T hb1 hb hbits hsize hT0
      (by show _ ≤ qp.rhs.length; omega) R (by omega)
    have hb64 : QueryParams.parseIndexBase64 prof { qp with used := true } R = .ok (b64Encode bytes) := by
      unfold QueryParams.parseIndexBytes at hbytes
      unfold QueryParams.parseIndexBase64 base64FromU32Slice
      obtain ⟨row, h1, h2⟩ := Res.bind_eq_ok.1 hbytes
      rw [h1, Res.bind_ok, h2]
      rfl
    obtain ⟨qp2, hprep, hqp2⟩ := C87_bench_loop prof qp _ 10 q hq it.prepare
    have hsame : QueryParams.parseIndexBase64 prof qp2 R = .ok (b64Encode bytes) := by
      rw [← hb64, ← (Prod.mk.inj hqp2).1]
      rfl
    have hloop : mapRes (fun i => (generateIndexQueryParams (commonParamsFrom prg seed n m)
        (shardOf prg seed elems n m T b).baseParams (tapes i)).dropErr) (List.range it.params) =
        .ok (List.replicate it.params ()) := by
      rw [mapRes_congr (g := fun _ => Res.ok ()), mapRes_const, List.length_range]
      intro i _
      obtain ⟨s', t1', e', t2', a, a'⟩ := htapes i
      obtain ⟨qp', h, _⟩ := shard_params (T := T) (b := b) prg seed elems a a'
      rw [h]
      rfl
    refine ⟨b64Encode bytes, ?_, ?_⟩
    · show benchIndexMain _ _ _ _ _ _ _ _ _ _ _ _ _ = _
      unfold benchIndexMain
      simp only
      rw [hbuild seed (by omega), Res.unwrap_ok, Res.bind_ok]
      have hc : benchClientQuery prof prg (shardOf prg seed elems n m T b) tape tapes it =
          .ok (List.replicate it.parse (b64Encode bytes)) := by
        unfold benchClientQuery
        rw [hw, Res.bind_ok]
        simp only [show (shardOf prg seed elems n m T b).baseParams.publicSeed = seed from rfl,
          show (shardOf prg seed elems n m T b).baseParams.dim = n from rfl,
          show (shardOf prg seed elems n m T b).baseParams.m = m from rfl, hqp, Res.unwrap_ok, Res.bind_ok, hq, hresp, hloop,
          hprep, hdes, hsame, mapRes_const, List.length_range]
      rw [hc, Res.bind_ok]
      cases gen with
      | none => rfl
      | some k =>
        have : benchDbGeneration prof prg (shardOf prg seed elems n m T b) seeds (benchDbEles ent m ((T + 7) / 8)) k =
            .ok ((List.range k).map fun i => shardOf prg (seeds i) elems n m T b) := by
          unfold benchDbGeneration
          rw [hw, Res.bind_ok, mapRes_congr (g := fun i => Res.ok (shardOf prg (seeds i) elems n m T b))]
          · rw [mapRes_eq_ok, List.map_map]
            rfl
          · intro i _
            show (Shard.fromBase64Strings prof prg (seeds i) _ n m T b).unwrap = _
            rw [hbuild (seeds i) (by omega)]
            rfl
        simp only [this, Res.bind_ok]
    · intro elems' hdec h8 hdvd hwin
      have he' : elems' = elems := by
        rw [hstr, map_decode_encode] at hdec
        exact (List.map_injective_iff.2 (fun a b h => Res.ok.inj h) hdec).symm
      subst he'
      have ht : elems'.take m = elems' := List.take_of_length_le (by omega)
      obtain ⟨sh, hsh, hall⟩ := C52_index_bytes prof prg seed (benchDbEles ent m ((T + 7) / 8)) elems' n m T b hb1 hb (by omega)
        (by omega) (by omega) hdec (fun x hx => by have := helen x (List.mem_of_mem_take hx); omega) hdvd
      rw [hbuild seed (by omega)] at hsh
      cases hsh
      obtain ⟨s', t1', e', h1, h2, h3⟩ := hall tape qp t2 hqp
      rw [hs] at h1
      cases h1
      rw [he] at h2
      cases h2
      rw [ht] at h3
      obtain ⟨_, bytes', resp', h4, h4', _, h5⟩ := h3 hwin 10 _ q hq
      rw [hresp] at h4
      cases h4
      rw [hdes] at h4'
      cases h4'
      rw [hb64] at h5
      rw [hstr, List.getElem?_map, List.getElem?_eq_getElem (by omega)]
      exact congrArg some (Res.ok.inj h5).symm

/-! ## Keywords -/

theorem prepare_kv (prof : Profile) (qp : QueryParams FilterParams) (key : Key) (q : List U32)
    (h : qp.generateKvQuery prof key = ({ qp with used := true }, .ok q)) (n : Nat) :
    benchPrepare (QueryParams.generateKvQuery prof) key n { qp with used := true } = .ok { qp with used := true } := by
  have hu : qp.used = false := by
    by_contra hu
    rw [Bool.not_eq_false] at hu
    simp [QueryParams.generateKvQuery, hu] at h
  have hb : (QueryParams.setUsed { qp with used := true } false) = qp := by
    cases qp
    simp_all [QueryParams.setUsed]
  induction n with
  | zero => rfl
  | succ n ih =>
    rw [benchPrepare, hb, h]
    simp only [Res.unwrap_ok, Res.bind_ok]
    exact ih

theorem kvShard_params {prof : Profile} {prg : Prg} {pseed : List U8} {segExp cap0 : Nat} {fp0 : Nat → Nat → U32} {seed : List U8}
    {kvs : List KeyValue} {n m T b : Nat} {shard : KVShard}
    (h : KVShard.new prof prg pseed segExp cap0 fp0 seed kvs n m T b = .ok shard) {tape : List U32}
    (ht : Supplies n shard.baseParams.m tape) :
    ∃ qp t, generateKvQueryParams (commonParamsFrom prg shard.baseParams.publicSeed shard.baseParams.dim shard.baseParams.m)
      shard.baseParams tape = .ok (qp, t) ∧ qp.plaintextBits = b ∧ qp.elemSize = T := by
  obtain ⟨s, t1, e, t2, hs, he⟩ := ht
  obtain ⟨lay, -, hm, hps, hdim, -, -, -, -, -, -, hT, hb, -⟩ := kvShard_shape h
  obtain ⟨-, -, -, -, -, hr, -⟩ := kvShard_dims h
  have hrect := generateLwe_rect prg pseed n shard.baseParams.m
  obtain ⟨qp, h1, -⟩ := (C25_dimension_check_kv (generateLweMatrixFromSeed prg pseed n shard.baseParams.m) shard.baseParams tape
    t1 t2 s e (by rw [hdim]; exact hs) (by rw [hrect.1]; exact he)).2 (by
      intro c hc
      rw [hdim]
      rcases List.mem_append.1 hc with hc | hc
      · exact hrect.2 c hc
      · exact hr c hc)
  refine ⟨qp, t2, by rw [hps, hdim]; exact h1, ?_⟩
  obtain ⟨_, _, _, _, _, hqp⟩ := genKvParams_spec (n := n) (m := shard.baseParams.m) (prg := prg) (seed := pseed)
    (rhs := shard.baseParams.rhs) hdim rfl h1
  rw [hqp]
  exact ⟨hb, hT⟩

/-- The online part for any shard built from strings. -/
theorem benchKv_online (prof : Profile) (sha : Sha) (prg : Prg) (pseed : List U8) (segExp cap0 : Nat) (fp0 : Nat → Nat → U32)
    (filterSeed : List U8) (keywords : List (List U8)) (values : List (List Char)) (elems : List (List U8)) (n m T b : Nat)
    (shard : KVShard) (hb1 : 1 ≤ b) (hb : b ≤ 31) (hT : T < 2 ^ 64) (hdec : values.map b64Decode = elems.map Res.ok)
    (hlen : ∀ e ∈ elems, T ≤ 8 * e.length)
    (hsh : KVShard.fromBase64Strings prof sha prg pseed segExp cap0 fp0 filterSeed keywords values n m T b = .ok shard)
    (tape : List U32) (tapes : Nat → List U32) (it : BenchIters) (htape : Supplies n shard.baseParams.m tape)
    (htapes : ∀ i, Supplies n shard.baseParams.m (tapes i)) :
    ∃ (h0 : 0 < keywords.length) (h1 : 0 < values.length) (key : Key) (qp : QueryParams FilterParams) (t q : List U32)
      (bytes : List U8) (resp : List U32) (str : List Char),
      sha256IntoU64Sized sha keywords[0] = .ok key ∧
      generateKvQueryParams (commonParamsFrom prg shard.baseParams.publicSeed shard.baseParams.dim shard.baseParams.m)
        shard.baseParams tape = .ok (qp, t) ∧
      qp.generateKvQuery prof key = ({ qp with used := true }, .ok q) ∧ shard.respond q = .ok bytes ∧
      bincodeDeserialize bytes = .ok resp ∧ QueryParams.parseKvBase64 prof { qp with used := true } resp key = .ok str ∧
      benchClientKvQuery prof sha prg shard keywords[0] values[0] tape tapes it = .ok (List.replicate it.parse str) := by
  obtain ⟨hke, kvs, hnew, hkl, hkv⟩ := kvStrings_ok hb1 (by omega) hdec hlen hsh
  have hve : values.length = elems.length := by simpa using congrArg List.length hdec
  obtain ⟨lay, -, hm, hps, hdim, hent0, -, hdT, hdb, ⟨h0, hent⟩, hfp, hbT, hbb, -⟩ := kvShard_shape hnew
  obtain ⟨hkey, hval⟩ := hkv 0 h0 (by omega) (by omega)
  have hvl : kvs[0].value.length = width T b := by rw [hval, rowOf_length]
  have hT0 : 0 < T := by
    rcases Nat.eq_zero_or_pos T with rfl | h
    · have : width 0 b = 0 := by unfold width; exact Nat.div_eq_of_lt (by omega)
      omega
    · exact h
  obtain ⟨qp, t, hqp, hq1, hq2⟩ := kvShard_params hnew htape
  obtain ⟨s, t1, e, -, -, hall⟩ := kv_exchange hb1 hb hnew (by omega) hqp
  obtain ⟨q, resp, row, hq, hans, hrow, hrl, -⟩ := hall kvs[0].key
  have hd : b64Decode (values[0]'(by omega)) = .ok (elems[0]'(by omega)) := by
    have := congrArg (fun l => l[0]?) hdec
    simpa [show 0 < values.length by omega, show 0 < elems.length by omega] using this
  have hw : shard.db.getRowWidthSelf = .ok (width T b) := by
    unfold KVDatabase.getRowWidthSelf
    rw [hdT, hdb]
    exact getRowWidth_ok (by omega)
  have hresp : shard.respond q = .ok (bincodeSerialize resp) := by
    unfold KVShard.respond
    rw [hans]
    rfl
  have hrespl : resp.length = width T b := by
    unfold KVShard.answer at hans
    rw [hw, Res.bind_ok] at hans
    rw [mapRes_length hans, List.length_range]
  have hdes : bincodeDeserialize (bincodeSerialize resp) = .ok resp := by
    have := (C22_response_round_trip resp (by rw [hrespl]; exact lt_of_le_of_lt (width_le T b hb1) hT)).1 []
    rwa [List.append_nil] at this
  obtain ⟨bytes, hbytes⟩ : ∃ bytes, bytesFromU32Slice prof row b T = .ok bytes := by
    have hne : row ≠ [] := by
      rintro rfl
      rw [List.length_nil] at hrl
      omega
    obtain ⟨bytes, h1, _⟩ := bytesFromU32Slice_val (prof := prof) (v := row.dropLast)
      (x := row.getLast hne) (b := b) (T := T) (by omega) (by omega)
    rw [List.dropLast_append_getLast] at h1
    exact ⟨bytes, h1⟩
  have hb64 : QueryParams.parseKvBase64 prof { qp with used := true } resp kvs[0].key = .ok (b64Encode bytes) := by
    unfold QueryParams.parseKvBase64 base64FromU32Slice
    rw [hrow, Res.bind_ok]
    simp only [hq1, hq2]
    rw [hbytes]
    rfl
  have hkv0 : KeyValue.fromBase64Strings prof sha (keywords[0]'(by omega)) (values[0]'(by omega)) T b = .ok kvs[0] := by
    unfold KeyValue.fromBase64Strings
    rw [hkey, Res.bind_ok, kvConstructRow_eq hb1, constructRow_ok (by omega) hd
      (le_trans (width_mul_le (by omega)) (hlen _ (List.getElem_mem _))), Res.bind_ok, ← hval]
  have hloop : mapRes (fun i => (generateKvQueryParams (commonParamsFrom prg shard.baseParams.publicSeed shard.baseParams.dim
      shard.baseParams.m) shard.baseParams (tapes i)).dropErr) (List.range it.params) = .ok (List.replicate it.params ()) := by
    rw [mapRes_congr (g := fun _ => Res.ok ()), mapRes_const, List.length_range]
    intro i _
    obtain ⟨qp', t', h, _⟩ := kvShard_params hnew (htapes i)
    rw [h]
    rfl
  refine ⟨by omega, by omega, kvs[0].key, qp, t, q, _, resp, _, hkey, hqp, hq, hresp, hdes, hb64, ?_⟩
  unfold benchClientKvQuery
  simp only [hbT, hbb, hkv0, hw, hqp, hq, hresp, hloop, prepare_kv prof qp _ q hq, hdes, hb64, Res.unwrap_ok, Res.bind_ok,
    mapRes_const, List.length_range]

/-- **C101 (keyword).** The benchmark program in keyword mode. If the first shard cannot be built it panics (or, as C80, hangs). If it
can, the online part runs through for every number of calls, and all strings it parses are the same one; with the flag `offline` the
program runs through if every rebuilding of the shard, each with its own new seeds, succeeds, and otherwise stops like the first
rebuilding that does not. The strings are the value of the first key if the noise is in the window (and further as in C52). -/
theorem C101_kv (prof : Profile) (sha : Sha) (prg : Prg) (utf8 : List Char → List U8) (ent : Nat → U8) (seed : List U8)
    (segExp cap0 : Nat) (fp0 : Nat → Nat → U32) (filterSeed : List U8) (tape : List U32) (tapes : Nat → List U32)
    (seeds fseeds : Nat → List U8) (fps : Nat → Nat → Nat → U32) (m n T b : Nat) (it : BenchIters) (gen : Option Nat)
    (hb1 : 1 ≤ b) (hb : b ≤ 31) (hT : T < 2 ^ 64) :
    let pairs := benchKvElems ent m ((T + 7) / 8)
    let build := fun (sd : List U8) (f : Nat → Nat → U32) (fs : List U8) (m' : Nat) =>
      KVShard.fromBase64Strings prof sha prg sd segExp cap0 f fs (pairs.map fun e => utf8 e.1) (pairs.map fun e => e.2) n m' T b
    let run := benchKvMain prof sha prg utf8 ent seed segExp cap0 fp0 filterSeed tape tapes seeds fseeds fps m n T b it gen
    (build seed fp0 filterSeed m = .diverge → run = .diverge) ∧
    (build seed fp0 filterSeed m = .panic ∨ (∃ e, build seed fp0 filterSeed m = .err e) → run = .panic) ∧
    (∀ shard, build seed fp0 filterSeed m = .ok shard → Supplies n shard.baseParams.m tape →
      (∀ i, Supplies n shard.baseParams.m (tapes i)) →
      ∃ str,
        ((∀ k, gen = some k → ∀ i < k, ∃ sh, build (seeds i) (fps i) (fseeds i) shard.baseParams.m = .ok sh) →
          run = .ok (List.replicate it.parse str)) ∧
        (∀ k, gen = some k → ∀ i < k, (∀ j < i, ∃ sh, build (seeds j) (fps j) (fseeds j) shard.baseParams.m = .ok sh) →
          (build (seeds i) (fps i) (fseeds i) shard.baseParams.m = .diverge → run = .diverge) ∧
          (build (seeds i) (fps i) (fseeds i) shard.baseParams.m = .panic ∨
            (∃ e, build (seeds i) (fps i) (fseeds i) shard.baseParams.m = .err e) → run = .panic)) ∧
        (8 ∣ T → ¬ b ∣ T →
          (prof = .debug ∨ ∀ keys, mapRes (sha256IntoU64Sized sha) (pairs.map fun e => utf8 e.1) = .ok keys →
            ∀ s, slotLoad filterSeed shard.db.filterParams.geom keys s < 64) →
          (∀ i j (hi : i < pairs.length) (hj : j < pairs.length) k₁ k₂, sha256IntoU64Sized sha (utf8 pairs[i].1) = .ok k₁ →
            sha256IntoU64Sized sha (utf8 pairs[j].1) = .ok k₂ → mix256 k₁ filterSeed = mix256 k₂ filterSeed → i = j) →
          (∀ s t1 e t2, randomTernaryVector n tape = .ok (s, t1) → randomTernaryVector shard.baseParams.m t1 = .ok (e, t2) →
            ∀ col ∈ shard.db.entries, InWindow b (dot e col)) →
          (pairs.map fun e => e.2)[0]? = some str)) := by
  intro pairs build run
  have hrun : run = ((build seed fp0 filterSeed m).unwrap >>= fun shard => rd (pairs.map fun e => utf8 e.1) 0 >>= fun k0 =>
      rd (pairs.map fun e => e.2) 0 >>= fun v0 => benchClientKvQuery prof sha prg shard k0 v0 tape tapes it >>= fun strs =>
      match gen with
      | none => .ok strs
      | some k => benchKvDbGeneration prof sha prg shard segExp cap0 seeds fseeds fps (pairs.map fun e => utf8 e.1)
          (pairs.map fun e => e.2) k >>= fun _ => .ok strs) := rfl
  refine ⟨fun h => by rw [hrun, h]; rfl, ?_, ?_⟩
  · rintro (h | ⟨e, h⟩) <;> rw [hrun, h] <;> rfl
  intro shard hsh htape htapes
  obtain ⟨blocks, hpairs, hlen, hsz, -⟩ := C87_bench_kv_stream ent m ((T + 7) / 8)
  have hvals : (pairs.map fun e => e.2) = (blocks.map fun p => p.2).map b64Encode := by
    show (benchKvElems ent m ((T + 7) / 8)).map _ = _
    rw [hpairs, List.map_map, List.map_map]
    rfl
  have hdec : (pairs.map fun e => e.2).map b64Decode = (blocks.map fun p => p.2).map Res.ok := by
    rw [hvals, map_decode_encode]
  have hel : ∀ e ∈ blocks.map fun p => p.2, e.length = (T + 7) / 8 := by
    intro e he
    obtain ⟨p, hp, rfl⟩ := List.mem_map.1 he
    exact (hsz p hp).2
  obtain ⟨h0, h1, key, qp, t, q, bytes, resp, str, a1, a2, a3, a4, a5, a6, a7⟩ := benchKv_online prof sha prg seed segExp cap0 fp0
    filterSeed _ _ _ n m T b shard hb1 hb hT hdec (fun e he => by have := hel e he; omega) hsh tape tapes it htape htapes
  obtain ⟨_, kvs, hnew, _⟩ := kvStrings_ok hb1 (by omega) hdec (fun e he => by have := hel e he; omega) hsh
  obtain ⟨-, -, -, -, hdim, -, -, hdT, hdb, -⟩ := kvShard_shape hnew
  have hheight : shard.db.getMatrixHeight = .ok shard.baseParams.m := 
    (C90_kv_access prof prg seed segExp cap0 fp0 filterSeed kvs n m T b shard hnew).1
  have hw : shard.db.getRowWidthSelf = .ok (width T b) := by
    unfold KVDatabase.getRowWidthSelf
    rw [hdT, hdb]
    exact getRowWidth_ok (by omega)
  have hsh' : build seed fp0 filterSeed m = .ok shard := hsh
  have hnone : gen = none → run = .ok (List.replicate it.parse str) := by
    intro hg
    rw [hrun, hsh', Res.unwrap_ok, Res.bind_ok, rd_ok h0, Res.bind_ok, rd_ok h1, Res.bind_ok, a7, Res.bind_ok, hg]
  have hsome : ∀ k, gen = some k → run =
      (mapRes (fun i => (build (seeds i) (fps i) (fseeds i) shard.baseParams.m).unwrap) (List.range k) >>= fun _ =>
          .ok (List.replicate it.parse str)) := by
    intro k hg
    rw [hrun, hsh', Res.unwrap_ok, Res.bind_ok, rd_ok h0, Res.bind_ok, rd_ok h1, Res.bind_ok, a7, Res.bind_ok, hg]
    simp only
    unfold benchKvDbGeneration
    rw [hw, Res.bind_ok, hheight, Res.bind_ok, hdim, hdT, hdb]
  refine ⟨str, ?_, ?_, ?_⟩
  · intro h
    cases hgen : gen with
    | none => exact hnone hgen
    | some k =>
      have hk := h k hgen
      have : ∃ l, mapRes (fun i => (build (seeds i) (fps i) (fseeds i) shard.baseParams.m).unwrap) (List.range k) = .ok l := by
        have hc : ∀ i, ∃ sh, i < k → build (seeds i) (fps i) (fseeds i) shard.baseParams.m = .ok sh := by
          intro i
          by_cases hi : i < k
          · obtain ⟨sh, e⟩ := hk i hi
            exact ⟨sh, fun _ => e⟩
          · exact ⟨shard, fun h => absurd h hi⟩
        choose g hg using hc
        exact ⟨_, mapRes_ok_of_forall (g := g) fun i hi => by rw [hg i (List.mem_range.1 hi)]; rfl⟩
      obtain ⟨l, e⟩ := this
      rw [hsome k hgen, e, Res.bind_ok]
  · intro k hk i hi hok
    have hfirst := mapRes_range_first (f := fun i => (build (seeds i) (fps i) (fseeds i) shard.baseParams.m).unwrap) hi
      (fun j hj => by obtain ⟨sh, e⟩ := hok j hj; exact ⟨sh, by rw [e]; rfl⟩)
    refine ⟨fun h => ?_, ?_⟩
    · rw [hsome k hk, hfirst, h]
      rfl
    · rintro (h | ⟨e, h⟩) <;>
      · rw [hsome k hk, hfirst, h]
        rfl
  · intro h8 hdvd hload hdist hwin
    obtain ⟨s, t1, e, b1, b2, b3⟩ := C52_kv_bytes prof sha prg seed segExp cap0 fp0 filterSeed _ _ _ n m T b shard hb1 hb hT hdec
      (fun e he => by have := hel e he; omega) hdvd hsh hload (by
        intro i j hi hj k₁ k₂ e1 e2
        simp only [List.getElem_map] at e1 e2
        exact hdist i j (by simpa using hi) (by simpa using hj) k₁ k₂ e1 e2) tape t qp a2
    have hbl : 0 < (blocks.map fun p => p.2).length := by
      rw [hvals, List.length_map] at h1
      exact h1
    obtain ⟨key', qp', q', bytes', resp', c1, c2, c3, c4, -, c5⟩ := b3 (hwin s t1 e t b1 b2) 0 h0 hbl
    rw [a1] at c1
    cases c1
    rw [a3] at c2
    cases c2
    rw [a4] at c3
    cases c3
    rw [a5] at c4
    cases c4
    rw [a6] at c5
    rw [hvals, List.getElem?_map, List.getElem?_eq_getElem hbl]
    exact congrArg some (Res.ok.inj c5).symm

/-! ## Non-vacuity -/

/-- Example data for the benchmark program. -/
def benchEnt : Nat → U8 := fun i => BitVec.ofNat 8 (i * 37 + 5)
def benchTape : List U32 := (List.range 40).map fun i => BitVec.ofNat 32 (i * 715827883)

/-- Index mode with eleven records of 16 bits: two parsed strings, both the string of record 10; with ten records it panics. -/
example :
    benchIndexMain .debug kvExPrg benchEnt [1#8] benchTape (fun _ => benchTape) (fun _ => [2#8]) 11 2 16 5 ⟨1, 3, 1, 2⟩ (some 1) =
      .ok (List.replicate 2 ((benchDbEles benchEnt 11 2).getD 10 [])) ∧
    benchIndexMain .debug kvExPrg benchEnt [1#8] benchTape (fun _ => benchTape) (fun _ => [2#8]) 10 2 16 5 ⟨1, 3, 1, 2⟩ (some 1) =
      .panic := by
  decide +kernel

/-- Keyword mode with three pairs. -/
example :
    benchKvMain .debug kvExSha kvExPrg (fun s => s.map fun c => BitVec.ofNat 8 c.toNat) benchEnt [1#8] 2 12
      (fun i j => BitVec.ofNat 32 (i * 31 + j * 977)) kvExSeed benchTape (fun _ => benchTape) (fun _ => [2#8]) (fun _ => kvExSeed)
      (fun _ _ _ => 0#32) 3 2 16 9 ⟨1, 3, 1, 2⟩ (some 1) =
      .ok (List.replicate 2 ((benchKvElems benchEnt 3 2).map Prod.snd).head!) := by
  decide +kernel

end Chalamet
