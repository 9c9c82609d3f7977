import Verif.Lemmas.RawTape
import Verif.Props.FailureKv
import Verif.Props.Query
import Verif.Props.Server
import Verif.Props.KvServer
import Verif.Props.Sizes

/-!
# Failure rate over raw random words and over whole sessions: C116

C56 fixes the words the secret is drawn from and counts *accepted* noise words. Here a sample point is the whole output of the
operating system's generator: `x : Fin L → Fin (2^32)`, any `L` words, rejected ones included, from which the client draws its
secrets and its errors one after the other. `rawTape x` is the tape of these words, and dividing a count by `(2^32)^L` gives a
probability over a uniform generator.
-/

namespace Chalamet
open Spec Finset

/-- What a client with fresh parameters `qp` gets for row `i`: query, answer, deserialise, parse. -/
def indexAnswer (prof : Profile) (shard : Shard) (qp : QueryParams Unit) (i : Nat) : Res (List U32) := do
  let q ← (qp.generateIndexQuery prof i).2
  let bytes ← shard.respond q
  let resp ← bincodeDeserialize bytes
  (qp.generateIndexQuery prof i).1.parseIndexRow prof resp

/-- What a client with fresh parameters `qp` gets for `key`. -/
def kvAnswer (prof : Profile) (shard : KVShard) (qp : QueryParams FilterParams) (key : Key) : Res (List U32) := do
  let q ← (qp.generateKvQuery prof key).2
  let bytes ← shard.respond q
  let resp ← bincodeDeserialize bytes
  (qp.generateKvQuery prof key).1.parseKvRow prof resp key

/-- A session of at most `k` requests: each one makes fresh parameters from what is left of the tape; what is asked next may
depend on everything received so far. The session ends when the words run out. -/
def Spec.freshSession {α ρ : Type} (gen : List U32 → Res (α × List U32)) (run : α → ρ → Res (List U32))
    (next : List (Res (List U32)) → ρ) : Nat → List (Res (List U32)) → List U32 → List (ρ × Res (List U32))
  | 0, _, _ => []
  | k + 1, past, tape =>
    match gen tape with
    | .ok (qp, tape') =>
      (next past, run qp (next past)) :: freshSession gen run next k (past ++ [run qp (next past)]) tape'
    | _ => []

/-- A session of index requests. -/
def indexSession (prof : Profile) (prg : Prg) (shard : Shard) (next : List (Res (List U32)) → Nat) (k : Nat) (tape : List U32) :
    List (Nat × Res (List U32)) :=
  freshSession (generateIndexQueryParams (commonParamsFrom prg shard.baseParams.publicSeed shard.baseParams.dim shard.baseParams.m)
    shard.baseParams) (indexAnswer prof shard) next k [] tape

/-- A session of keyword requests. -/
def kvSession (prof : Profile) (prg : Prg) (shard : KVShard) (next : List (Res (List U32)) → Key) (k : Nat) (tape : List U32) :
    List (Key × Res (List U32)) :=
  freshSession (generateKvQueryParams (commonParamsFrom prg shard.baseParams.publicSeed shard.baseParams.dim shard.baseParams.m)
    shard.baseParams) (kvAnswer prof shard) next k [] tape

/-! ## Helper lemmas -/

theorem indexExchange_eq (prof : Profile) (prg : Prg) (shard : Shard) (i : Nat) (tape : List U32) :
    indexExchange prof prg shard i tape = (generateIndexQueryParams (commonParamsFrom prg shard.baseParams.publicSeed
      shard.baseParams.dim shard.baseParams.m) shard.baseParams tape >>= fun p => indexAnswer prof shard p.1 i) := rfl

theorem kvExchange_eq (prof : Profile) (prg : Prg) (shard : KVShard) (key : Key) (tape : List U32) :
    kvExchange prof prg shard key tape = (generateKvQueryParams (commonParamsFrom prg shard.baseParams.publicSeed
      shard.baseParams.dim shard.baseParams.m) shard.baseParams tape >>= fun p => kvAnswer prof shard p.1 key) := rfl

theorem one_rate {m : Nat} {Wrong : List U32 → Prop} {ε : ℝ} (h0 : 0 ≤ ε)
    (hW : ((open scoped Classical in (univ.filter fun t : Fin m → Fin 4294967293 =>
        ∃ e rest, randomTernaryVector m (words t) = .ok (e, rest) ∧ Wrong e).card : ℕ) : ℝ) ≤ ε * 4294967293 ^ m) (L : Nat) :
    (cntRaw L (Sampled m fun e _ => Wrong e) : ℝ) ≤ ε * (2 ^ 32) ^ L := by
  classical
  have h1 := cntRaw_uniform L m Wrong
  have h2 := cntRaw_le L (Sampled m fun _ _ => True)
  have h3 : (univ.filter fun t : Fin m → Fin 4294967293 => Wrong (List.ofFn fun i => ternaryOf (BitVec.ofNat 32 (t i)))).card =
      (univ.filter fun t : Fin m → Fin 4294967293 =>
        ∃ e rest, randomTernaryVector m (words t) = .ok (e, rest) ∧ Wrong e).card := by
    congr 1
    refine filter_congr fun t _ => ?_
    rw [words_sampled]
    simp
  rw [h3] at h1
  have h1' := congrArg (Nat.cast (R := ℝ)) h1
  push_cast at h1'
  have h2' : (cntRaw L (Sampled m fun _ _ => True) : ℝ) ≤ (2 ^ 32) ^ L := by exact_mod_cast h2
  have hp : (0 : ℝ) < 4294967293 ^ m := by positivity
  refine le_of_mul_le_mul_right ?_ hp
  rw [h1']
  generalize ((4294967293 : ℝ) ^ m) = M at *
  generalize ((2 : ℝ) ^ 32) ^ L = N at *
  have h4 : (0 : ℝ) ≤ cntRaw L (Sampled m fun _ _ => True) := Nat.cast_nonneg _
  calc _ ≤ (ε * M) * cntRaw L (Sampled m fun _ _ => True) := mul_le_mul_of_nonneg_right hW h4
    _ ≤ (ε * M) * N := mul_le_mul_of_nonneg_left h2' (by positivity)
    _ = _ := by ring

/-- What a client draws and what it gets: parameters are a function of the samples, and a bad outcome needs wrong noise. -/
def Drawn {α ρ : Type} (gen : List U32 → Res (α × List U32)) (run : α → ρ → Res (List U32)) (n m : Nat)
    (f : List U32 → List U32 → α) (bad : ρ → Res (List U32) → Prop) (Wrong : List U32 → Prop) : Prop :=
  ∀ tape qp tape', gen tape = .ok (qp, tape') → ∃ s t1 e, randomTernaryVector n tape = .ok (s, t1) ∧
    randomTernaryVector m t1 = .ok (e, tape') ∧ qp = f s e ∧ ∀ i, bad i (run qp i) → Wrong e

theorem exchange_rate {α ρ : Type} {gen : List U32 → Res (α × List U32)} {run : α → ρ → Res (List U32)} {n m : Nat}
    {f : List U32 → List U32 → α} {bad : ρ → Res (List U32) → Prop} {Wrong : List U32 → Prop}
    (hD : Drawn gen run n m f bad Wrong) {ε : ℝ} (h0 : 0 ≤ ε)
    (hW : ((open scoped Classical in (univ.filter fun t : Fin m → Fin 4294967293 =>
        ∃ e rest, randomTernaryVector m (words t) = .ok (e, rest) ∧ Wrong e).card : ℕ) : ℝ) ≤ ε * 4294967293 ^ m) (L : Nat) :
    (cntRaw L (fun t => ∃ qp t', gen t = .ok (qp, t') ∧ ∃ i, bad i (run qp i)) : ℝ) ≤ ε * (2 ^ 32) ^ L := by
  refine le_trans (Nat.cast_le.2 (cntRaw_mono (Q := Sampled n fun _ => Sampled m fun e _ => Wrong e) ?_))
    (cntRaw_after ε n _ L fun s L' => one_rate h0 hW L')
  rintro t ⟨qp, t', hg, i, hi⟩
  obtain ⟨s, t1, e, h1, h2, _, h3⟩ := hD _ _ _ hg
  exact ⟨s, t1, h1, e, t', h2, h3 i hi⟩

theorem session_rate {α ρ : Type} {gen : List U32 → Res (α × List U32)} {run : α → ρ → Res (List U32)} {n m : Nat}
    {f : List U32 → List U32 → α} {bad : ρ → Res (List U32) → Prop} {Wrong : List U32 → Prop}
    (hD : Drawn gen run n m f bad Wrong) {ε : ℝ} (h0 : 0 ≤ ε)
    (hW : ((open scoped Classical in (univ.filter fun t : Fin m → Fin 4294967293 =>
        ∃ e rest, randomTernaryVector m (words t) = .ok (e, rest) ∧ Wrong e).card : ℕ) : ℝ) ≤ ε * 4294967293 ^ m)
    (next : List (Res (List U32)) → ρ) (k L : Nat) (past : List (Res (List U32))) :
    (cntRaw L (fun t => ∃ p ∈ freshSession gen run next k past t, bad p.1 p.2) : ℝ) ≤ k * ε * (2 ^ 32) ^ L := by
  induction k generalizing L past with
  | zero =>
    rw [cntRaw_false _ (fun t => by simp [freshSession])]
    simp
  | succ k ih =>
    have h1 := exchange_rate hD h0 hW L
    have h2 : (cntRaw L (Sampled n fun s => Sampled m fun e rest =>
        ∃ p ∈ freshSession gen run next k (past ++ [run (f s e) (next past)]) rest, bad p.1 p.2) : ℝ) ≤ k * ε * (2 ^ 32) ^ L :=
      cntRaw_after _ _ _ _ fun s L' => cntRaw_after _ _ _ _ fun e L'' => ih L'' _
    have h3 : cntRaw L (fun t => ∃ p ∈ freshSession gen run next (k + 1) past t, bad p.1 p.2) ≤
        cntRaw L (fun t => ∃ qp t', gen t = .ok (qp, t') ∧ ∃ i, bad i (run qp i)) +
        cntRaw L (Sampled n fun s => Sampled m fun e rest =>
          ∃ p ∈ freshSession gen run next k (past ++ [run (f s e) (next past)]) rest, bad p.1 p.2) := by
      refine cntRaw_or ?_
      rintro t ⟨p, hp, hb⟩
      rw [freshSession] at hp
      split at hp
      · rename_i qp t' hg
        rcases List.mem_cons.1 hp with rfl | hp
        · exact .inl ⟨qp, t', hg, _, hb⟩
        · obtain ⟨s, t1, e, h1, h2, rfl, _⟩ := hD _ _ _ hg
          exact .inr ⟨s, t1, h1, e, t', h2, p, hp, hb⟩
      · simp at hp
    have h4 := (Nat.cast_le (α := ℝ)).2 h3
    push_cast at h4 ⊢
    linarith

theorem failureBound_nonneg (m T b : Nat) : 0 ≤ failureBound m T b := by
  unfold failureBound
  positivity

/-- A wrong row. -/
def wrongRow (elems : List (List U8)) (m T b i : Nat) (r : Res (List U32)) : Prop :=
  ∃ hi : i < elems.length, i < m ∧ ∃ row, r = .ok row ∧ row ≠ rowOf b (width T b) elems[i]

theorem index_drawn (prof : Profile) (prg : Prg) (seed : List U8) (strs : List (List Char))
    (elems : List (List U8)) (n m T b : Nat)
    (hb1 : 1 ≤ b) (hb : b ≤ 31) (hT : T < 2 ^ 64) (hm0 : 0 < m) (hm : m ≤ elems.length)
    (hdec : strs.map b64Decode = elems.map Res.ok) (hlen : ∀ e ∈ elems.take m, T ≤ 8 * e.length) :
    ∃ shard f, Shard.fromBase64Strings prof prg seed strs n m T b = .ok shard ∧
      Drawn (generateIndexQueryParams (commonParamsFrom prg shard.baseParams.publicSeed shard.baseParams.dim shard.baseParams.m)
        shard.baseParams) (indexAnswer prof shard) n m f (wrongRow elems m T b)
        (fun e => ∃ col ∈ (List.range (width T b)).map fun j => column b j (elems.take m), ¬ InWindow b (dot e col)) := by
  obtain ⟨shard, h1, h2⟩ := C01_index_pir prof prg seed strs elems n m T b hb1 hb hT hm0 hm hdec hlen
  refine ⟨shard, fun s e => ⟨vadd ((generateLweMatrixFromSeed prg shard.baseParams.publicSeed shard.baseParams.dim
    shard.baseParams.m).map fun a => dot s a) e, shard.baseParams.rhs.map fun c => dot s c, shard.baseParams.elemSize,
    shard.baseParams.plaintextBits, none, false⟩, h1, ?_⟩
  intro tape qp tape' hgen
  obtain ⟨s, t1, e, hs, he, hall⟩ := h2 _ _ _ hgen
  obtain ⟨s', t1', e', hs', he', hqp⟩ := genParams_spec rfl rfl hgen
  have hsh : shard.baseParams.dim = n ∧ shard.baseParams.m = m := by
    rw [shard_ok hdec hb1 (by omega) hm0 hm (fun e he => le_trans (width_mul_le (by omega)) (hlen e he))] at h1
    cases h1
    exact ⟨rfl, rfl⟩
  rw [hsh.1, hs] at hs'
  cases hs'
  rw [hsh.2, he] at he'
  cases he'
  refine ⟨s, t1, e, hs, he, hqp, ?_⟩
  rintro i ⟨hie, hi, row, hex, hne⟩
  unfold indexAnswer at hex
  obtain ⟨q, hq, hex⟩ := Res.bind_eq_ok.1 hex
  obtain ⟨bytes, hby, hex⟩ := Res.bind_eq_ok.1 hex
  obtain ⟨resp, hre, hex⟩ := Res.bind_eq_ok.1 hex
  obtain ⟨hi', bytes', resp', row', hby', hre', hp', _, _, hiff⟩ :=
    hall i (qp.generateIndexQuery prof i).1 q (Prod.ext rfl hq)
  rw [hby] at hby'
  cases hby'
  rw [hre] at hre'
  cases hre'
  rw [hex] at hp'
  cases hp'
  by_contra hno
  apply hne
  rw [hiff]
  intro j hj
  by_contra hw
  exact hno ⟨column b j (elems.take m), List.mem_map.2 ⟨j, by simpa using hj, rfl⟩, hw⟩

/-- A wrong value for a stored key (the last one stored with its hash). -/
def wrongValue (filterSeed : List U8) (kvs : List KeyValue) (b : Nat) (key : Key) (r : Res (List U32)) : Prop :=
  ∃ i, ∃ hi : i < kvs.length, key = kvs[i].key ∧
    (∀ k (hk : k < kvs.length), i < k → mix256 kvs[k].key filterSeed ≠ mix256 kvs[i].key filterSeed) ∧
    ∃ row, r = .ok row ∧ row ≠ kvs[i].value.map fun v => BitVec.ofNat 32 (v.toNat % 2 ^ b)

theorem kv_drawn (prof : Profile) (prg : Prg) (pseed : List U8) (segExp cap0 : Nat)
    (fp0 : Nat → Nat → U32) (filterSeed : List U8) (kvs : List KeyValue) (n m T b : Nat)
    (shard : KVShard) (hb1 : 1 ≤ b) (hb : b ≤ 31) (hT : T < 2 ^ 64)
    (hsh : KVShard.new prof prg pseed segExp cap0 fp0 filterSeed kvs n m T b = .ok shard)
    (hw : ∀ kv ∈ kvs, kv.value.length = width T b)
    (hload : prof = .debug ∨ ∀ s, slotLoad filterSeed shard.db.filterParams.geom (kvs.map (·.key)) s < 64) :
    ∃ f, Drawn (generateKvQueryParams (commonParamsFrom prg shard.baseParams.publicSeed shard.baseParams.dim shard.baseParams.m)
        shard.baseParams) (kvAnswer prof shard) n shard.baseParams.m f (wrongValue filterSeed kvs b)
        (fun e => ∃ col ∈ shard.db.entries, ¬ InWindow b (dot e col)) := by
  refine ⟨fun s e => ⟨vadd ((generateLweMatrixFromSeed prg shard.baseParams.publicSeed shard.baseParams.dim
    shard.baseParams.m).map fun a => dot s a) e, shard.baseParams.rhs.map fun c => dot s c, shard.baseParams.elemSize,
    shard.baseParams.plaintextBits, some shard.baseParams.filterParams, false⟩, ?_⟩
  intro tape qp tape' hgen
  obtain ⟨s, t1, e, hs, he, _, hall⟩ := C04_kv_pir prof prg pseed segExp cap0 fp0 filterSeed kvs n m
    T b shard hb1 hb hT hsh hw hload _ tape' qp hgen
  obtain ⟨s', t1', e', hs', he', hqp⟩ := genKvParams_spec rfl rfl hgen
  obtain ⟨_, _, _, _, hdim, _⟩ := kvShard_shape hsh
  rw [hdim, hs] at hs'
  cases hs'
  rw [he] at he'
  cases he'
  refine ⟨s, t1, e, hs, he, hqp, ?_⟩
  rintro key ⟨i, hi, rfl, hlast, row, hex, hne⟩
  unfold kvAnswer at hex
  obtain ⟨q, hq, hex2⟩ := Res.bind_eq_ok.1 hex
  obtain ⟨bytes, hby, hex3⟩ := Res.bind_eq_ok.1 hex2
  obtain ⟨resp, hre, hex4⟩ := Res.bind_eq_ok.1 hex3
  obtain ⟨qp', q', bytes', resp', row', hq', hby', hre', hp', _, _, hiff⟩ := hall i hi hlast
  rw [hq'] at hq hex4
  simp only [Res.ok.injEq] at hq
  subst hq
  rw [hby] at hby'
  cases hby'
  rw [hre] at hre'
  cases hre'
  rw [hex4] at hp'
  cases hp'
  by_contra hno
  apply hne
  rw [hiff]
  intro col hc
  by_contra hw
  exact hno ⟨col, hc, hw⟩

open scoped Classical in
theorem index_noise_rate {elems : List (List U8)} {m T b : Nat} (hb1 : 1 ≤ b) (hb : b ≤ 31) (hm : m ≤ elems.length) :
    ((univ.filter fun t : Fin m → Fin 4294967293 => ∃ e rest, randomTernaryVector m (words t) = .ok (e, rest) ∧
      ∃ col ∈ (List.range (width T b)).map fun j => column b j (elems.take m), ¬ InWindow b (dot e col)).card : ℝ) ≤
      failureBound m T b * 4294967293 ^ m := by
  have h := columns_rate (m := m) hb1 ((List.range (width T b)).map fun j => column b j (elems.take m)) (by
    intro col hc
    simp only [List.mem_map] at hc
    obtain ⟨j, _, rfl⟩ := hc
    refine ⟨?_, column_lt (by omega) _⟩
    simp [column, hm])
  rw [List.length_map, List.length_range] at h
  exact h

open scoped Classical in
theorem kv_noise_rate {prof : Profile} {prg : Prg} {pseed : List U8} {segExp cap0 : Nat}
    {fp0 : Nat → Nat → U32} {filterSeed : List U8} {kvs : List KeyValue} {n m T b : Nat}
    {shard : KVShard} (hb1 : 1 ≤ b) (hb : b ≤ 31)
    (hsh : KVShard.new prof prg pseed segExp cap0 fp0 filterSeed kvs n m T b = .ok shard)
    (hw : ∀ kv ∈ kvs, kv.value.length = width T b) :
    ((univ.filter fun t : Fin shard.baseParams.m → Fin 4294967293 =>
      ∃ e rest, randomTernaryVector shard.baseParams.m (words t) = .ok (e, rest) ∧
        ∃ col ∈ shard.db.entries, ¬ InWindow b (dot e col)).card : ℝ) ≤
      failureBound shard.baseParams.m T b * 4294967293 ^ shard.baseParams.m := by
  obtain ⟨lay, hlay, hm, hps, hdim, hent, hcl, _, _, ⟨hk0, hkv⟩, _⟩ := kvShard_shape hsh
  have hdb : KVDatabase.new prof segExp cap0 fp0 filterSeed kvs m T b = .ok shard.db := by
    unfold KVShard.new at hsh
    obtain ⟨db, hdb, hnew⟩ := Res.bind_eq_ok.1 hsh
    obtain ⟨bp, hbp, hnew⟩ := Res.bind_eq_ok.1 hnew
    cases hnew
    exact hdb
  obtain ⟨height, _, _, _, _, hcol⟩ := C37_shared_geometry prof segExp cap0 fp0 filterSeed kvs m T b hb shard.db hdb
  have h := columns_rate (m := shard.baseParams.m) hb1 shard.db.entries
    (fun col hc => ⟨(hcl col hc).trans hm.symm, (hcol col hc).2.1⟩)
  rw [hkv, hw _ (List.getElem_mem hk0)] at h
  exact h

theorem index_answer_cases {prof : Profile} {shard : Shard} {qp : QueryParams Unit} {i b : Nat} (hb1 : 1 ≤ b) (hb : b ≤ 31)
    (hqb : qp.plaintextBits = b) (hu : qp.used = false) (hi : i < qp.lhs.length)
    (hall : ∀ q, (qp.generateIndexQuery prof i).2 = .ok q → ∃ bytes resp row, shard.respond q = .ok bytes ∧
      bincodeDeserialize bytes = .ok resp ∧ (qp.generateIndexQuery prof i).1.parseIndexRow prof resp = .ok row) :
    indexAnswer prof shard qp i = .err .overflownAdd ∨ ∃ row, indexAnswer prof shard qp i = .ok row := by
  obtain ⟨_, h1, h2⟩ := C06_index_query_outcome prof qp i (by omega) (by omega) hu hi
  by_cases h : (qp.lhs[i]).toNat + 2 ^ (32 - qp.plaintextBits) < 2 ^ 32
  · right
    obtain ⟨bytes, resp, row, e1, e2, e3⟩ := hall _ (h1 h)
    refine ⟨row, ?_⟩
    unfold indexAnswer
    rw [h1 h, Res.bind_ok, e1, Res.bind_ok, e2, Res.bind_ok, e3]
  · left
    unfold indexAnswer
    rw [h2 (by omega)]
    rfl

theorem right_of_rates {L N r : Nat} (hL : L = N + r) {P Q : List U32 → Prop} {ε : ℝ}
    (hQ : (cntRaw L Q : ℝ) ≤ ε * (2 ^ 32) ^ L) (h : ∀ t, Sampled N (fun _ _ => True) t → ¬ Q t → P t) :
    (1 - ε - (3 * L / 2 ^ 32) ^ (r + 1)) * (2 ^ 32) ^ L ≤ (cntRaw L P : ℝ) := by
  have h1 := cntRaw_short L N r hL
  have h2 : cntRaw L (fun _ => True) ≤ cntRaw L P + cntRaw L (fun t => Q t ∨ ¬ Sampled N (fun _ _ => True) t) := by
    refine cntRaw_or fun t _ => ?_
    by_cases hq : Q t
    · exact .inr (.inl hq)
    · by_cases hs : Sampled N (fun _ _ => True) t
      · exact .inl (h t hs hq)
      · exact .inr (.inr hs)
  have h3 : cntRaw L (fun t => Q t ∨ ¬ Sampled N (fun _ _ => True) t) ≤ _ := cntRaw_or fun t ht => ht
  rw [cntRaw_true] at h2
  have h4 : (((2 ^ 32) ^ L : ℕ) : ℝ) ≤ ((cntRaw L P + (cntRaw L Q + cntRaw L (fun t => ¬ Sampled N (fun _ _ => True) t)) : ℕ) : ℝ) :=
    Nat.cast_le.2 (h2.trans (Nat.add_le_add_left h3 _))
  rw [Nat.cast_pow, Nat.cast_pow, Nat.cast_add, Nat.cast_add] at h4
  have e : ((2 : ℕ) : ℝ) = 2 := rfl
  rw [e] at h4
  rw [sub_mul, sub_mul, one_mul]
  generalize (3 * (L : ℝ) / 2 ^ 32) ^ (r + 1) = y at *
  generalize ((2 : ℝ) ^ 32) ^ L = z at *
  generalize ε * z = u at *
  generalize y * z = v at *
  linarith

/-! ## C116 -/

open scoped Classical in
/-- **C116 (rejection leaves the noise uniform).** Take all outputs `x` of the generator of `L` words. Among those from which
`n` secret coordinates and `m` error coordinates can be drawn, the fraction with which the error vector satisfies `B` is the
fraction of *accepted* word sequences that do: exactly, for every `L`, `n`, `m` and `B`. -/
theorem C116_uniform (L n m : Nat) (B : List U32 → Prop) :
    (univ.filter fun x : Fin L → Fin (2 ^ 32) => ∃ s t1 e t2, randomTernaryVector n (rawTape x) = .ok (s, t1) ∧
        randomTernaryVector m t1 = .ok (e, t2) ∧ B e).card * 4294967293 ^ m =
      (univ.filter fun t : Fin m → Fin 4294967293 => ∃ e rest, randomTernaryVector m (words t) = .ok (e, rest) ∧ B e).card *
        (univ.filter fun x : Fin L → Fin (2 ^ 32) => ∃ s t1 e t2, randomTernaryVector n (rawTape x) = .ok (s, t1) ∧
          randomTernaryVector m t1 = .ok (e, t2)).card := by
  have h := cntRaw_after_eq (4294967293 ^ m) (univ.filter fun t : Fin m → Fin 4294967293 =>
    B (List.ofFn fun i => ternaryOf (BitVec.ofNat 32 (t i)))).card n (fun _ => Sampled m fun e _ => B e)
    (fun _ => Sampled m fun _ _ => True) L (fun s L' => cntRaw_uniform L' m B)
  have h3 : (univ.filter fun t : Fin m → Fin 4294967293 => B (List.ofFn fun i => ternaryOf (BitVec.ofNat 32 (t i)))).card =
      (univ.filter fun t : Fin m → Fin 4294967293 =>
        ∃ e rest, randomTernaryVector m (words t) = .ok (e, rest) ∧ B e).card := by
    congr 1
    refine filter_congr fun t _ => ?_
    rw [words_sampled]
    simp
  rw [h3] at h
  have h1 : cntRaw L (Sampled n fun _ => Sampled m fun e _ => B e) = (univ.filter fun x : Fin L → Fin (2 ^ 32) =>
      ∃ s t1 e t2, randomTernaryVector n (rawTape x) = .ok (s, t1) ∧ randomTernaryVector m t1 = .ok (e, t2) ∧ B e).card := by
    unfold cntRaw
    congr 1
    refine filter_congr fun x _ => ?_
    constructor
    · rintro ⟨s, t1, h1, e, t2, h2, h3⟩
      exact ⟨s, t1, e, t2, h1, h2, h3⟩
    · rintro ⟨s, t1, e, t2, h1, h2, h3⟩
      exact ⟨s, t1, h1, e, t2, h2, h3⟩
  have h2 : cntRaw L (Sampled n fun _ => Sampled m fun _ _ => True) = (univ.filter fun x : Fin L → Fin (2 ^ 32) =>
      ∃ s t1 e t2, randomTernaryVector n (rawTape x) = .ok (s, t1) ∧ randomTernaryVector m t1 = .ok (e, t2)).card := by
    unfold cntRaw
    congr 1
    refine filter_congr fun x _ => ?_
    constructor
    · rintro ⟨s, t1, h1, e, t2, h2, _⟩
      exact ⟨s, t1, e, t2, h1, h2⟩
    · rintro ⟨s, t1, e, t2, h1, h2⟩
      exact ⟨s, t1, h1, e, t2, h2, trivial⟩
  rw [← h1, ← h2]
  exact h

open scoped Classical in
/-- **C116 (how many words are needed).** `N` samples need more than `N + r` words with probability at most
`(3 (N + r) / 2^32) ^ (r + 1)`. -/
theorem C116_words_needed (N r : Nat) :
    ((univ.filter fun x : Fin (N + r) → Fin (2 ^ 32) => ∀ s rest, randomTernaryVector N (rawTape x) ≠ .ok (s, rest)).card : ℝ) ≤
      (3 * (N + r : ℕ) / 2 ^ 32) ^ (r + 1) * (2 ^ 32) ^ (N + r) := by
  exact le_trans (Nat.cast_le.2 (card_raw_le fun x h => fun ⟨s, rest, h1, _⟩ => h s rest h1)) (cntRaw_short (N + r) N r rfl)

open scoped Classical in
/-- **C116 (index retrieval).** Build a shard from `elems`. Over all outputs of the generator, of any length `L`, secret included: at
most a fraction `failureBound m T b` makes the exchange for row `i` return a wrong row. -/
theorem C116_index_failure_rate (prof : Profile) (prg : Prg) (seed : List U8) (strs : List (List Char))
    (elems : List (List U8)) (n m T b : Nat)
    (hb1 : 1 ≤ b) (hb : b ≤ 31) (hT : T < 2 ^ 64) (hm0 : 0 < m) (hm : m ≤ elems.length)
    (hdec : strs.map b64Decode = elems.map Res.ok) (hlen : ∀ e ∈ elems.take m, T ≤ 8 * e.length) :
    ∃ shard, Shard.fromBase64Strings prof prg seed strs n m T b = .ok shard ∧ ∀ i (hi : i < m) L,
      ((univ.filter fun x : Fin L → Fin (2 ^ 32) => ∃ row, indexExchange prof prg shard i (rawTape x) = .ok row ∧
        row ≠ rowOf b (width T b) elems[i]).card : ℝ) ≤ failureBound m T b * (2 ^ 32) ^ L := by
  obtain ⟨shard, f, h1, hD⟩ := index_drawn prof prg seed strs elems n m T b hb1 hb hT hm0 hm hdec hlen
  refine ⟨shard, h1, fun i hi L => ?_⟩
  refine le_trans (Nat.cast_le.2 (card_raw_le ?_))
    (exchange_rate hD (failureBound_nonneg m T b) (index_noise_rate hb1 hb hm) L)
  rintro x ⟨row, hex, hne⟩
  rw [indexExchange_eq] at hex
  obtain ⟨⟨qp, tape'⟩, hgen, hex⟩ := Res.bind_eq_ok.1 hex
  exact ⟨qp, tape', hgen, i, by omega, hi, row, hex, hne⟩

open scoped Classical in
/-- **C116 (index sessions).** A client makes up to `k` requests to the shard, each with fresh parameters drawn from what is left of
the generator's output, and chooses each row by any rule `next` from what it received before. At most a fraction
`k * failureBound m T b` of the outputs makes *any* of these requests return a wrong row. -/
theorem C116_index_session (prof : Profile) (prg : Prg) (seed : List U8) (strs : List (List Char))
    (elems : List (List U8)) (n m T b : Nat)
    (hb1 : 1 ≤ b) (hb : b ≤ 31) (hT : T < 2 ^ 64) (hm0 : 0 < m) (hm : m ≤ elems.length)
    (hdec : strs.map b64Decode = elems.map Res.ok) (hlen : ∀ e ∈ elems.take m, T ≤ 8 * e.length) :
    ∃ shard, Shard.fromBase64Strings prof prg seed strs n m T b = .ok shard ∧
      ∀ (next : List (Res (List U32)) → Nat) (k L : Nat),
        ((univ.filter fun x : Fin L → Fin (2 ^ 32) => ∃ i, ∃ hi : i < elems.length, i < m ∧
          ∃ row, (i, .ok row) ∈ indexSession prof prg shard next k (rawTape x) ∧
            row ≠ rowOf b (width T b) elems[i]).card : ℝ) ≤ k * failureBound m T b * (2 ^ 32) ^ L := by
  obtain ⟨shard, f, h1, hD⟩ := index_drawn prof prg seed strs elems n m T b hb1 hb hT hm0 hm hdec hlen
  refine ⟨shard, h1, fun next k L => ?_⟩
  refine le_trans (Nat.cast_le.2 (card_raw_le ?_))
    (session_rate hD (failureBound_nonneg m T b) (index_noise_rate hb1 hb hm) next k L [])
  rintro x ⟨i, hie, hi, row, hmem, hne⟩
  exact ⟨_, hmem, hie, hi, row, rfl, hne⟩

open scoped Classical in
/-- **C116 (index retrieval succeeds).** With `r` words more than the `n + m` samples, at least a fraction
`1 - failureBound m T b - (3 (n + m + r) / 2^32)^(r+1)` of the generator's outputs makes the exchange for row `i` return exactly row
`i`, or stop with the overflow error before anything is sent. -/
theorem C116_index_success_rate (prof : Profile) (prg : Prg) (seed : List U8) (strs : List (List Char))
    (elems : List (List U8)) (n m T b : Nat)
    (hb1 : 1 ≤ b) (hb : b ≤ 31) (hT : T < 2 ^ 64) (hm0 : 0 < m) (hm : m ≤ elems.length)
    (hdec : strs.map b64Decode = elems.map Res.ok) (hlen : ∀ e ∈ elems.take m, T ≤ 8 * e.length) :
    ∃ shard, Shard.fromBase64Strings prof prg seed strs n m T b = .ok shard ∧ ∀ i (hi : i < m) r,
      (1 - failureBound m T b - (3 * (n + m + r : ℕ) / 2 ^ 32) ^ (r + 1)) * (2 ^ 32) ^ (n + m + r) ≤
      ((univ.filter fun x : Fin (n + m + r) → Fin (2 ^ 32) =>
        indexExchange prof prg shard i (rawTape x) = .ok (rowOf b (width T b) elems[i]) ∨
        indexExchange prof prg shard i (rawTape x) = .err .overflownAdd).card : ℝ) := by
  obtain ⟨shard, f, h1, hD⟩ := index_drawn prof prg seed strs elems n m T b hb1 hb hT hm0 hm hdec hlen
  refine ⟨shard, h1, fun i hi r => ?_⟩
  have hR := right_of_rates (L := n + m + r) (N := n + m) (r := r) rfl
    (P := fun t => indexExchange prof prg shard i t = .ok (rowOf b (width T b) elems[i]) ∨
      indexExchange prof prg shard i t = .err .overflownAdd)
    (exchange_rate hD (failureBound_nonneg m T b) (index_noise_rate hb1 hb hm) (n + m + r)) (by
      intro t hS hQ
      obtain ⟨s, t1, hs, e, t2, he, _⟩ := sampled_append.1 hS
      obtain ⟨shard', h1', h2⟩ := C01_index_pir prof prg seed strs elems n m T b hb1 hb hT hm0 hm hdec hlen
      rw [h1] at h1'
      cases h1'
      have hsh : shard = shardOf prg seed elems n m T b := by
        rw [shard_ok hdec hb1 (by omega) hm0 hm (fun e he => le_trans (width_mul_le (by omega)) (hlen e he))] at h1
        cases h1
        rfl
      have hd : shard.baseParams.dim = n ∧ shard.baseParams.m = m ∧ shard.baseParams.plaintextBits = b := by
        rw [hsh]
        exact ⟨rfl, rfl, rfl⟩
      have hA := generateLwe_rect prg shard.baseParams.publicSeed shard.baseParams.dim shard.baseParams.m
      have hrhs : ∀ c ∈ shard.baseParams.rhs, c.length = n :=
        (C71_index_sizes prof prg seed strs n m T b shard hb h1).2.1
      obtain ⟨qp, hgen, hll, _, hu, _, _⟩ := (C25_dimension_check (commonParamsFrom prg shard.baseParams.publicSeed
        shard.baseParams.dim shard.baseParams.m) shard.baseParams t t1 t2 s e
        (by rw [hd.1]; exact hs) (by rw [commonParamsFrom, hA.1, hd.2.1]; exact he)).2 (by
          intro c hc
          rcases List.mem_append.1 hc with hc | hc
          · exact hA.2 c hc
          · rw [hd.1]; exact hrhs c hc)
      have hqb : qp.plaintextBits = b := by
        obtain ⟨_, _, _, _, _, hqp⟩ := genParams_spec rfl rfl hgen
        rw [hqp]
        exact hd.2.2
      obtain ⟨_, _, _, _, _, hall⟩ := h2 _ _ _ hgen
      rw [indexExchange_eq, hgen, Res.bind_ok]
      rcases index_answer_cases (prof := prof) (shard := shard) (i := i) hb1 hb hqb hu
        (by rw [hll, commonParamsFrom, hA.1, hd.2.1]; exact hi) (by
          intro q hq
          obtain ⟨_, bytes, resp, row, e1, e2, e3, _⟩ := hall i _ q (Prod.ext rfl hq)
          exact ⟨bytes, resp, row, e1, e2, e3⟩) with h | ⟨row, h⟩
      · exact .inr h
      · left
        by_contra hne
        rw [h] at hne
        exact hQ ⟨qp, t2, hgen, i, by omega, hi, row, h, fun hr => hne (by rw [hr])⟩)
  exact le_trans hR (Nat.cast_le.2 (le_card_raw fun x h => h))

open scoped Classical in
/-- **C116 (keyword retrieval).** The same for the exchange of a stored key (the last one stored with its hash), with the height of
the published matrix in place of `m`. -/
theorem C116_kv_failure_rate (prof : Profile) (prg : Prg) (pseed : List U8) (segExp cap0 : Nat)
    (fp0 : Nat → Nat → U32) (filterSeed : List U8) (kvs : List KeyValue) (n m T b : Nat)
    (shard : KVShard) (hb1 : 1 ≤ b) (hb : b ≤ 31) (hT : T < 2 ^ 64)
    (hsh : KVShard.new prof prg pseed segExp cap0 fp0 filterSeed kvs n m T b = .ok shard)
    (hw : ∀ kv ∈ kvs, kv.value.length = width T b)
    (hload : prof = .debug ∨ ∀ s, slotLoad filterSeed shard.db.filterParams.geom (kvs.map (·.key)) s < 64)
    (i : Nat) (hi : i < kvs.length)
    (hlast : ∀ k (hk : k < kvs.length), i < k → mix256 kvs[k].key filterSeed ≠ mix256 kvs[i].key filterSeed) (L : Nat) :
    ((univ.filter fun x : Fin L → Fin (2 ^ 32) => ∃ row, kvExchange prof prg shard kvs[i].key (rawTape x) = .ok row ∧
      row ≠ kvs[i].value.map fun v => BitVec.ofNat 32 (v.toNat % 2 ^ b)).card : ℝ) ≤
      failureBound shard.baseParams.m T b * (2 ^ 32) ^ L := by
  obtain ⟨f, hD⟩ := kv_drawn prof prg pseed segExp cap0 fp0 filterSeed kvs n m T b shard hb1 hb hT hsh hw hload
  refine le_trans (Nat.cast_le.2 (card_raw_le ?_))
    (exchange_rate hD (failureBound_nonneg _ T b) (kv_noise_rate hb1 hb hsh hw) L)
  rintro x ⟨row, hex, hne⟩
  rw [kvExchange_eq] at hex
  obtain ⟨⟨qp, tape'⟩, hgen, hex⟩ := Res.bind_eq_ok.1 hex
  exact ⟨qp, tape', hgen, _, i, hi, rfl, hlast, row, hex, hne⟩

open scoped Classical in
/-- **C116 (keyword sessions).** As `C116_index_session`: up to `k` keyword requests, each key chosen by any rule from what was
received before; at most a fraction `k * failureBound` of the generator's outputs makes any request for a stored key return a wrong
value. -/
theorem C116_kv_session (prof : Profile) (prg : Prg) (pseed : List U8) (segExp cap0 : Nat)
    (fp0 : Nat → Nat → U32) (filterSeed : List U8) (kvs : List KeyValue) (n m T b : Nat)
    (shard : KVShard) (hb1 : 1 ≤ b) (hb : b ≤ 31) (hT : T < 2 ^ 64)
    (hsh : KVShard.new prof prg pseed segExp cap0 fp0 filterSeed kvs n m T b = .ok shard)
    (hw : ∀ kv ∈ kvs, kv.value.length = width T b)
    (hload : prof = .debug ∨ ∀ s, slotLoad filterSeed shard.db.filterParams.geom (kvs.map (·.key)) s < 64)
    (next : List (Res (List U32)) → Key) (k L : Nat) :
    ((univ.filter fun x : Fin L → Fin (2 ^ 32) => ∃ i, ∃ hi : i < kvs.length,
      (∀ k (hk : k < kvs.length), i < k → mix256 kvs[k].key filterSeed ≠ mix256 kvs[i].key filterSeed) ∧
      ∃ row, (kvs[i].key, .ok row) ∈ kvSession prof prg shard next k (rawTape x) ∧
        row ≠ kvs[i].value.map fun v => BitVec.ofNat 32 (v.toNat % 2 ^ b)).card : ℝ) ≤
      k * failureBound shard.baseParams.m T b * (2 ^ 32) ^ L := by
  obtain ⟨f, hD⟩ := kv_drawn prof prg pseed segExp cap0 fp0 filterSeed kvs n m T b shard hb1 hb hT hsh hw hload
  refine le_trans (Nat.cast_le.2 (card_raw_le ?_))
    (session_rate hD (failureBound_nonneg _ T b) (kv_noise_rate hb1 hb hsh hw) next k L [])
  rintro x ⟨i, hi, hlast, row, hmem, hne⟩
  exact ⟨_, hmem, i, hi, rfl, hlast, row, rfl, hne⟩

open scoped Classical in
/-- **C116 (keyword retrieval succeeds).** With `r` words more than the samples needed, at least a fraction
`1 - failureBound - (3 L / 2^32)^(r+1)` of the generator's outputs of `L` words makes the exchange return exactly the stored value. -/
theorem C116_kv_success_rate (prof : Profile) (prg : Prg) (pseed : List U8) (segExp cap0 : Nat)
    (fp0 : Nat → Nat → U32) (filterSeed : List U8) (kvs : List KeyValue) (n m T b : Nat)
    (shard : KVShard) (hb1 : 1 ≤ b) (hb : b ≤ 31) (hT : T < 2 ^ 64)
    (hsh : KVShard.new prof prg pseed segExp cap0 fp0 filterSeed kvs n m T b = .ok shard)
    (hw : ∀ kv ∈ kvs, kv.value.length = width T b)
    (hload : prof = .debug ∨ ∀ s, slotLoad filterSeed shard.db.filterParams.geom (kvs.map (·.key)) s < 64)
    (i : Nat) (hi : i < kvs.length)
    (hlast : ∀ k (hk : k < kvs.length), i < k → mix256 kvs[k].key filterSeed ≠ mix256 kvs[i].key filterSeed) (r L : Nat)
    (hL : L = n + shard.baseParams.m + r) :
    (1 - failureBound shard.baseParams.m T b - (3 * L / 2 ^ 32) ^ (r + 1)) * (2 ^ 32) ^ L ≤
    ((univ.filter fun x : Fin L → Fin (2 ^ 32) => kvExchange prof prg shard kvs[i].key (rawTape x) =
      .ok (kvs[i].value.map fun v => BitVec.ofNat 32 (v.toNat % 2 ^ b))).card : ℝ) := by
  obtain ⟨f, hD⟩ := kv_drawn prof prg pseed segExp cap0 fp0 filterSeed kvs n m T b shard hb1 hb hT hsh hw hload
  have hR := right_of_rates (L := L) (N := n + shard.baseParams.m) (r := r) hL
    (P := fun t => kvExchange prof prg shard kvs[i].key t = .ok (kvs[i].value.map fun v => BitVec.ofNat 32 (v.toNat % 2 ^ b)))
    (exchange_rate hD (failureBound_nonneg _ T b) (kv_noise_rate hb1 hb hsh hw) L) (by
      intro t hS hQ
      obtain ⟨s, t1, hs, e, t2, he, _⟩ := sampled_append.1 hS
      obtain ⟨lay, hlay, hm, hps, hdim, hent, hcl, _⟩ := kvShard_shape hsh
      have hA := generateLwe_rect prg shard.baseParams.publicSeed shard.baseParams.dim shard.baseParams.m
      have hrhs := (C71_kv_sizes prof prg pseed segExp cap0 fp0 filterSeed kvs n m T b shard hb1 hb hsh).2.2.1
      obtain ⟨qp, hgen, _⟩ := (C25_dimension_check_kv (commonParamsFrom prg shard.baseParams.publicSeed
        shard.baseParams.dim shard.baseParams.m) shard.baseParams t t1 t2 s e
        (by rw [hdim]; exact hs) (by rw [commonParamsFrom, hA.1]; exact he)).2 (by
          intro c hc
          rcases List.mem_append.1 hc with hc | hc
          · exact hA.2 c hc
          · rw [hdim]; exact hrhs c hc)
      obtain ⟨_, _, _, _, _, _, hx⟩ := C04_kv_pir prof prg pseed segExp cap0 fp0 filterSeed kvs n m
        T b shard hb1 hb hT hsh hw hload _ _ _ hgen
      obtain ⟨qp', q, bytes, resp, row, e1, e2, e3, e4, _⟩ := hx i hi hlast
      have hrow : kvAnswer prof shard qp kvs[i].key = .ok row := by
        unfold kvAnswer
        rw [e1, Res.bind_ok, e2, Res.bind_ok, e3, Res.bind_ok, e4]
      rw [kvExchange_eq, hgen, Res.bind_ok]
      by_contra hne
      exact hQ ⟨qp, t2, hgen, _, i, hi, rfl, hlast, row, hrow, fun h => hne (by rw [hrow, h])⟩)
  exact le_trans hR (Nat.cast_le.2 (le_card_raw fun x h => h))

open scoped Classical in
/-- **C116 (a million requests at the default sizes).** With the parameters of the repository's default build (`2^16` rows of `2^13`
bits, 10-bit digits) a session of `2^20` requests, however chosen, returns a wrong row with probability below `2^-38`. -/
theorem C116_default_session (prof : Profile) (prg : Prg) (seed : List U8) (strs : List (List Char))
    (elems : List (List U8)) (n : Nat) (hm : 2 ^ 16 ≤ elems.length)
    (hdec : strs.map b64Decode = elems.map Res.ok) (hlen : ∀ e ∈ elems.take (2 ^ 16), 2 ^ 13 ≤ 8 * e.length) :
    ∃ shard, Shard.fromBase64Strings prof prg seed strs n (2 ^ 16) (2 ^ 13) 10 = .ok shard ∧
      ∀ (next : List (Res (List U32)) → Nat) (L : Nat),
        ((univ.filter fun x : Fin L → Fin (2 ^ 32) => ∃ i, ∃ hi : i < elems.length, i < 2 ^ 16 ∧
          ∃ row, (i, .ok row) ∈ indexSession prof prg shard next (2 ^ 20) (rawTape x) ∧
            row ≠ rowOf 10 (width (2 ^ 13) 10) elems[i]).card : ℝ) ≤ 1 / 2 ^ 38 * (2 ^ 32) ^ L := by
  obtain ⟨shard, h1, h2⟩ := C116_index_session prof prg seed strs elems n (2 ^ 16) (2 ^ 13) 10 (by omega) (by omega) (by norm_num)
    (by norm_num) hm hdec hlen
  refine ⟨shard, h1, fun next L => (h2 next (2 ^ 20) L).trans ?_⟩
  refine mul_le_mul_of_nonneg_right ?_ (by positivity)
  have h3 := C56_default_parameters
  generalize failureBound (2 ^ 16) (2 ^ 13) 10 = x at h3
  have h4 : ((2 ^ 20 : ℕ) : ℝ) * x ≤ ((2 ^ 20 : ℕ) : ℝ) * (1 / 2 ^ 58) := mul_le_mul_of_nonneg_left h3.le (Nat.cast_nonneg _)
  refine h4.trans (le_of_eq ?_)
  norm_num

/-- Non-vacuity of C116: three 2-byte elements with 5-bit digits. From 12 words of the generator, two of them rejected, the client
makes two requests, the second for the row the first digit of the first answer says; both are right. -/
example :
    let strs := ["AAE=".toList, "/38=".toList, "EjQ=".toList]
    let prg : Prg := fun _ k => BitVec.ofNat 32 (1000003 * k + 17)
    let next : List (Res (List U32)) → Nat := fun past => match past with
      | [.ok (d :: _)] => d.toNat % 3
      | _ => 2
    (do let shard ← Shard.fromBase64Strings .debug prg [] strs 2 3 16 5
        .ok (indexSession .debug prg shard next 2 (rawTape ![1, 0xffffffff, 2000000000, 0, 2147483648, 4294967292, 7, 4294967293,
          9, 5, 3000000000, 2147483648]))) =
      .ok [(2, .ok (rowOf 5 (width 16 5) [0x12#8, 0x34#8])), (0, .ok (rowOf 5 (width 16 5) [0#8, 1#8]))] := by decide +kernel

end Chalamet
