import Verif.Model.Cost
import Verif.Props.Birthday

/-! # C121: how much work the operations do

Dropping the counter of `Model/Cost.lean` gives the model; the counts depend on public sizes only. -/

namespace Chalamet
open Spec

theorem Counted.bind_fst {α β : Type} (x : Counted α) (f : α → Counted β) :
    (x.bind f).1 = x.1 >>= fun a => (f a).1 := by
  obtain ⟨r, n⟩ := x
  cases r <;> rfl

theorem Counted.bind_ok {α β : Type} {x : Counted α} {f : α → Counted β} {b : β} (h : (x.bind f).1 = .ok b) :
    ∃ a, x.1 = .ok a ∧ (f a).1 = .ok b ∧ (x.bind f).2 = x.2 + (f a).2 := by
  obtain ⟨r, n⟩ := x
  cases r with
  | ok a => exact ⟨a, rfl, h, rfl⟩
  | err e => cases h
  | panic => cases h
  | diverge => cases h

theorem Counted.bind_le {α β : Type} (x : Counted α) (f : α → Counted β) (m n : Nat) (hx : x.2 ≤ m)
    (hf : ∀ a, x.1 = .ok a → (f a).2 ≤ n) : (x.bind f).2 ≤ m + n := by
  obtain ⟨r, k⟩ := x
  simp only at hx
  cases r with
  | ok a => exact Nat.add_le_add hx (hf a rfl)
  | err e => exact Nat.le_add_right_of_le hx
  | panic => exact Nat.le_add_right_of_le hx
  | diverge => exact Nat.le_add_right_of_le hx

theorem free_fst {α : Type} (r : Res α) : (Counted.free r).1 = r := rfl
theorem free_snd {α : Type} (r : Res α) : (Counted.free r).2 = 0 := rfl

theorem mapC_fst {α β : Type} (f : α → Counted β) (l : List α) : (mapC f l).1 = mapRes (fun a => (f a).1) l := by
  induction l with
  | nil => rfl
  | cons a as ih =>
    rw [mapC, mapRes_cons, Counted.bind_fst]
    congr 1
    funext b
    rw [Counted.bind_fst, ih]
    rfl

theorem mapC_snd {α β : Type} {f : α → Counted β} {l : List α} {bs : List β} {c : Nat}
    (h : (mapC f l).1 = .ok bs) (hc : ∀ a ∈ l, ∀ b, (f a).1 = .ok b → (f a).2 = c) : (mapC f l).2 = l.length * c := by
  induction l generalizing bs with
  | nil => simp [mapC, Counted.free]
  | cons a as ih =>
    rw [mapC] at h ⊢
    obtain ⟨b, h1, h2, h3⟩ := Counted.bind_ok h
    rw [h3]
    obtain ⟨bs', h4, h5, h6⟩ := Counted.bind_ok h2
    rw [h6, hc a (by simp) b h1, ih h4 (fun x hx => hc x (by simp [hx])), free_snd, List.length_cons, Nat.add_mul]
    omega

theorem mapC_le {α β : Type} {f : α → Counted β} {l : List α} {c : Nat} (hc : ∀ a ∈ l, (f a).2 ≤ c) :
    (mapC f l).2 ≤ l.length * c := by
  induction l with
  | nil => simp [mapC, Counted.free]
  | cons a as ih =>
    rw [mapC]
    refine (Counted.bind_le _ _ c (as.length * c) (hc a (by simp)) fun b _ => ?_).trans (by
      rw [List.length_cons, Nat.add_mul]; omega)
    have := Counted.bind_le (mapC f as) (fun bs => Counted.free (.ok (b :: bs))) (as.length * c) 0
      (ih fun x hx => hc x (by simp [hx])) fun _ _ => le_of_eq rfl
    simpa using this

theorem foldC_fst {α σ : Type} (f : σ → α → Counted σ) (s : σ) (l : List α) :
    (foldC f s l).1 = foldRes (fun s a => (f s a).1) s l := by
  induction l generalizing s with
  | nil => rfl
  | cons a as ih =>
    rw [foldC, foldRes_cons, Counted.bind_fst]
    congr 1
    funext b
    exact ih b

theorem foldC_snd {α σ : Type} {f : σ → α → Counted σ} {l : List α} {c : Nat} (s : σ) {s' : σ} (h : (foldC f s l).1 = .ok s')
    (hc : ∀ s a s', (f s a).1 = .ok s' → (f s a).2 = c) : (foldC f s l).2 = l.length * c := by
  induction l generalizing s with
  | nil => simp [foldC, Counted.free]
  | cons a as ih =>
    rw [foldC] at h ⊢
    obtain ⟨b, h1, h2, h3⟩ := Counted.bind_ok h
    rw [h3, hc _ _ _ h1, ih b h2, List.length_cons, Nat.add_mul]
    omega

/-! ## Multiplications -/

theorem dotStepC_fst (row col : List U32) (acc : U32) (i : Nat) : (dotStepC row col acc i).1 = dotStep row col acc i := by
  unfold dotStepC dotStep
  rw [Counted.bind_fst, free_fst]
  congr 1
  funext r
  rw [Counted.bind_fst, free_fst]

theorem dotStepC_snd (row col : List U32) (acc : U32) (i : Nat) (s' : U32) (h : (dotStepC row col acc i).1 = .ok s') :
    (dotStepC row col acc i).2 = 1 := by
  unfold dotStepC at h ⊢
  obtain ⟨a, _, h2, h3⟩ := Counted.bind_ok h
  obtain ⟨b, _, _, h4⟩ := Counted.bind_ok h2
  rw [h3, h4]
  rfl

theorem vecMultC_fst (row col : List U32) : (vecMultC row col).1 = vecMult row col := by
  unfold vecMultC vecMult
  split
  · rfl
  · rw [foldC_fst]
    congr 1
    funext s a
    exact dotStepC_fst row col s a

theorem vecMultC_snd {row col : List U32} {x : U32} (h : (vecMultC row col).1 = .ok x) : (vecMultC row col).2 = row.length := by
  unfold vecMultC at h ⊢
  split at h
  · cases h
  · rename_i hn
    rw [if_neg hn, foldC_snd _ h (dotStepC_snd row col), List.length_range, Nat.mul_one]

theorem indexVecMultC_fst (db : IndexDatabase) (row : List U32) (i : Nat) : (db.vecMultC row i).1 = db.vecMult row i := by
  unfold IndexDatabase.vecMultC IndexDatabase.vecMult
  rw [Counted.bind_fst, free_fst]
  congr 1
  funext col
  split
  · rfl
  · exact congrArg Res.unwrap (vecMultC_fst row col)

theorem indexVecMultC_snd {db : IndexDatabase} {row : List U32} {i : Nat} {x : U32} (h : (db.vecMultC row i).1 = .ok x) :
    (db.vecMultC row i).2 = row.length := by
  unfold IndexDatabase.vecMultC at h ⊢
  obtain ⟨col, _, h2, h3⟩ := Counted.bind_ok h
  rw [h3, free_snd, Nat.zero_add]
  split at h2
  · cases h2
  · rename_i hn
    rw [if_neg hn]
    exact vecMultC_snd (unwrap_eq_ok h2)

theorem kvVecMultC_fst (db : KVDatabase) (row : List U32) (i : Nat) : (db.vecMultC row i).1 = db.vecMult row i := by
  unfold KVDatabase.vecMultC KVDatabase.vecMult
  rw [Counted.bind_fst, free_fst]
  congr 1
  funext col
  exact congrArg Res.unwrap (vecMultC_fst row col)

theorem kvVecMultC_snd {db : KVDatabase} {row : List U32} {i : Nat} {x : U32} (h : (db.vecMultC row i).1 = .ok x) :
    (db.vecMultC row i).2 = row.length := by
  unfold KVDatabase.vecMultC at h ⊢
  obtain ⟨col, _, h2, h3⟩ := Counted.bind_ok h
  rw [h3, free_snd, Nat.zero_add]
  exact vecMultC_snd (unwrap_eq_ok h2)

theorem getRowWidth_eq {T b w : Nat} (h : getRowWidth T b = .ok w) : w = width T b := by
  rcases Nat.eq_zero_or_pos b with rfl | hb
  · simp [getRowWidth] at h
  · rw [getRowWidth_ok hb] at h
    exact (Res.ok.inj h).symm

/-- The counted index shard is the model with a counter. -/
theorem respondC_fst (s : Shard) (q : List U32) : (s.respondC q).1 = s.respond q := by
  unfold Shard.respondC Shard.respond Shard.answer
  rw [Counted.bind_fst, free_fst, Res.bind_assoc']
  congr 1
  funext w
  rw [Counted.bind_fst, mapC_fst]
  simp only [indexVecMultC_fst]
  rfl

theorem kvRespondC_fst (s : KVShard) (q : List U32) : (s.respondC q).1 = s.respond q := by
  unfold KVShard.respondC KVShard.respond KVShard.answer
  rw [Counted.bind_fst, free_fst, Res.bind_assoc']
  congr 1
  funext w
  rw [Counted.bind_fst, mapC_fst]
  simp only [kvVecMultC_fst]
  rfl

/-- **C121 (answering).** Whenever a shard, index or key-value, answers a query, it has done exactly
`row width * length of the query` multiplications, whatever the query and the database contain. -/
theorem C121_respond (s : Shard) (q : List U32) (bytes : List U8) (h : s.respond q = .ok bytes) :
    (s.respondC q).1 = .ok bytes ∧ (s.respondC q).2 = width s.db.elemSize s.db.plaintextBits * q.length := by
  rw [← respondC_fst] at h
  refine ⟨h, ?_⟩
  unfold Shard.respondC at h ⊢
  obtain ⟨w, hw, h2, h3⟩ := Counted.bind_ok h
  obtain ⟨r, h4, _, h5⟩ := Counted.bind_ok h2
  rw [h3, h5, free_snd, free_snd, mapC_snd h4 fun a _ b hb => indexVecMultC_snd hb, List.length_range,
    getRowWidth_eq hw]
  omega

theorem C121_respond_kv (s : KVShard) (q : List U32) (bytes : List U8) (h : s.respond q = .ok bytes) :
    (s.respondC q).1 = .ok bytes ∧ (s.respondC q).2 = width s.db.elemSize s.db.plaintextBits * q.length := by
  rw [← kvRespondC_fst] at h
  refine ⟨h, ?_⟩
  unfold KVShard.respondC at h ⊢
  obtain ⟨w, hw, h2, h3⟩ := Counted.bind_ok h
  obtain ⟨r, h4, _, h5⟩ := Counted.bind_ok h2
  rw [h3, h5, free_snd, free_snd, mapC_snd h4 fun a _ b hb => kvVecMultC_snd hb, List.length_range,
    getRowWidth_eq hw]
  omega

/-! ## Setup -/

theorem generateParamsRhsC_fst {D : Type} [DatabaseMatrix D] (prg : Prg) (db : D) (seed : List U8) (dim : Nat)
    (vm : List U32 → Nat → Counted U32) (hvm : ∀ r i, (vm r i).1 = DatabaseMatrix.vecMult db r i) :
    (generateParamsRhsC prg (DatabaseMatrix.getMatrixHeight db) (DatabaseMatrix.getElemSize db)
      (DatabaseMatrix.getPlaintextBits db) vm seed dim).1 = generateParamsRhs prg db seed dim := by
  unfold generateParamsRhsC generateParamsRhs
  rw [Counted.bind_fst, free_fst]
  congr 1
  funext h
  rw [Counted.bind_fst, free_fst]
  congr 1
  funext lhs
  rw [Counted.bind_fst, free_fst]
  congr 1
  funext w
  rw [mapC_fst]
  congr 1
  funext i
  rw [mapC_fst]
  simp only [hvm]

theorem generateParamsRhsC_snd {prg : Prg} {height : Res Nat} {T b : Nat} {vm : List U32 → Nat → Counted U32}
    {seed : List U8} {dim : Nat} {rhs : List (List U32)} {h : Nat} (hh : height = .ok h)
    (hok : (generateParamsRhsC prg height T b vm seed dim).1 = .ok rhs)
    (hvm : ∀ r i x, (vm r i).1 = .ok x → (vm r i).2 = r.length) :
    (generateParamsRhsC prg height T b vm seed dim).2 = width T b * (dim * h) := by
  subst hh
  unfold generateParamsRhsC at hok ⊢
  obtain ⟨h', e1, h2, e2⟩ := Counted.bind_ok hok
  cases e1
  obtain ⟨lhs, e3, h3, e4⟩ := Counted.bind_ok h2
  obtain ⟨w, e5, h4, e6⟩ := Counted.bind_ok h3
  have hw := getRowWidth_eq e5
  have hrect := generateLwe_rect prg seed dim h
  rcases Nat.eq_zero_or_pos h with rfl | hpos
  · exfalso
    have : generateLweMatrixFromSeed prg seed dim 0 = [] := List.eq_nil_of_length_eq_zero hrect.1
    rw [free_fst, this] at e3
    cases e3
  rw [free_fst, swapMatrixFmt_rect hrect hpos] at e3
  have hl := Res.ok.inj e3
  rw [e2, e4, e6, mapC_snd h4 (c := dim * h), List.length_range, hw, free_snd, free_snd, free_snd]
  · omega
  · intro i _ c hc
    rw [mapC_snd hc (c := h), ← hl, List.length_map, List.length_range]
    intro r hr x hx
    rw [hvm r i x hx]
    rw [← hl] at hr
    obtain ⟨j, _, rfl⟩ := List.mem_map.1 hr
    rw [List.length_map, hrect.1]

theorem indexParamsC_fst (prg : Prg) (seed : List U8) (db : IndexDatabase) (dim : Nat) :
    (IndexParams.newC prg seed db dim).1 = IndexParams.new prg seed db dim := by
  unfold IndexParams.newC IndexParams.new
  rw [Counted.bind_fst]
  have := generateParamsRhsC_fst prg db seed dim db.vecMultC (fun r i => indexVecMultC_fst db r i)
  exact congrArg (fun x => x >>= _) this

theorem kvParamsC_fst (prg : Prg) (seed : List U8) (db : KVDatabase) (dim : Nat) :
    (KVParams.newC prg seed db dim).1 = KVParams.new prg seed db dim := by
  unfold KVParams.newC KVParams.new
  rw [Counted.bind_fst]
  have := generateParamsRhsC_fst prg db seed dim db.vecMultC (fun r i => kvVecMultC_fst db r i)
  refine (congrArg (fun x => x >>= _) this).trans ?_
  congr 1
  funext rhs
  rw [Counted.bind_fst]
  rfl

/-- **C121 (setup).** Whenever the public parameters of a database are computed, this takes exactly
`row width * (LWE dimension * number of rows)` multiplications, whatever the database and the seed contain. -/
theorem C121_setup (prg : Prg) (seed : List U8) (db : IndexDatabase) (dim : Nat) (p : IndexParams)
    (h : IndexParams.new prg seed db dim = .ok p) :
    (IndexParams.newC prg seed db dim).1 = .ok p ∧
    (IndexParams.newC prg seed db dim).2 = width db.elemSize db.plaintextBits * (dim * db.m) := by
  rw [← indexParamsC_fst] at h
  refine ⟨h, ?_⟩
  unfold IndexParams.newC at h ⊢
  obtain ⟨rhs, e1, _, e2⟩ := Counted.bind_ok h
  rw [e2, free_snd, generateParamsRhsC_snd rfl e1 fun r i x hx => indexVecMultC_snd hx, Nat.add_zero]

theorem C121_setup_kv (prg : Prg) (seed : List U8) (db : KVDatabase) (dim : Nat) (p : KVParams)
    (h : KVParams.new prg seed db dim = .ok p) :
    (KVParams.newC prg seed db dim).1 = .ok p ∧
    (KVParams.newC prg seed db dim).2 = width db.elemSize db.plaintextBits * (dim * p.m) := by
  rw [← kvParamsC_fst] at h
  refine ⟨h, ?_⟩
  unfold KVParams.newC at h ⊢
  obtain ⟨rhs, e1, h2, e2⟩ := Counted.bind_ok h
  obtain ⟨ht, e3, e4, e5⟩ := Counted.bind_ok h2
  have hm : p.m = ht := by cases e4; rfl
  rw [free_fst] at e3
  rw [e2, e5, free_snd, free_snd, generateParamsRhsC_snd e3 e1 fun r i x hx => kvVecMultC_snd hx, hm, Nat.add_zero]

/-! ## Client -/

theorem multLeftC_fst (s : List U32) (cp : List (List U32)) (tape : List U32) : (multLeftC s cp tape).1 = multLeft s cp tape := by
  induction cp generalizing tape with
  | nil => rfl
  | cons col cols ih =>
    rw [multLeftC, multLeft, Counted.bind_fst, vecMultC_fst]
    congr 1
    funext sa
    rw [Counted.bind_fst, free_fst]
    congr 1
    funext p
    rw [Counted.bind_fst, ih]
    rfl

theorem multLeftC_snd {s : List U32} {cp : List (List U32)} {tape : List U32} {r : List U32 × List U32}
    (h : (multLeftC s cp tape).1 = .ok r) : (multLeftC s cp tape).2 = cp.length * s.length := by
  induction cp generalizing tape r with
  | nil => simp [multLeftC, Counted.free]
  | cons col cols ih =>
    rw [multLeftC] at h ⊢
    obtain ⟨a, e1, h1, e2⟩ := Counted.bind_ok h
    obtain ⟨⟨e, t⟩, e3, h2, e4⟩ := Counted.bind_ok h1
    obtain ⟨⟨u, v⟩, e5, h3, e6⟩ := Counted.bind_ok h2
    rw [e2, e4, e6, vecMultC_snd e1, ih e5, free_snd, free_snd, List.length_cons, Nat.add_mul]
    omega

theorem multRightC_fst (rhs : List (List U32)) (s : List U32) : (multRightC rhs s).1 = multRight rhs s := by
  unfold multRightC multRight
  rw [mapC_fst]
  simp only [vecMultC_fst]

theorem indexQpC_fst (cp : List (List U32)) (params : IndexParams) (tape : List U32) :
    (generateIndexQueryParamsC cp params tape).1 = generateIndexQueryParams cp params tape := by
  unfold generateIndexQueryParamsC generateIndexQueryParams
  rw [Counted.bind_fst, free_fst]
  congr 1
  funext p
  rw [Counted.bind_fst, multLeftC_fst]
  congr 1
  funext q
  rw [Counted.bind_fst, multRightC_fst]
  rfl

theorem kvQpC_fst (cp : List (List U32)) (params : KVParams) (tape : List U32) :
    (generateKvQueryParamsC cp params tape).1 = generateKvQueryParams cp params tape := by
  unfold generateKvQueryParamsC generateKvQueryParams
  rw [Counted.bind_fst, free_fst]
  congr 1
  funext p
  rw [Counted.bind_fst, multLeftC_fst]
  congr 1
  funext q
  rw [Counted.bind_fst, multRightC_fst]
  rfl

/-- **C121 (client).** Whenever a client prepares query parameters, this takes exactly
`LWE dimension * (columns of the public matrix + row width of the parameters)` multiplications: it grows with the
number of records, and is independent of what is queried. -/
theorem C121_client (cp : List (List U32)) (params : IndexParams) (tape : List U32) (r : QueryParams Unit × List U32)
    (h : generateIndexQueryParams cp params tape = .ok r) :
    (generateIndexQueryParamsC cp params tape).1 = .ok r ∧
    (generateIndexQueryParamsC cp params tape).2 = params.dim * (cp.length + params.rhs.length) := by
  rw [← indexQpC_fst] at h
  refine ⟨h, ?_⟩
  unfold generateIndexQueryParamsC at h ⊢
  obtain ⟨⟨s, t⟩, e1, h1, e2⟩ := Counted.bind_ok h
  obtain ⟨⟨l, t'⟩, e3, h2, e4⟩ := Counted.bind_ok h1
  obtain ⟨rr, e5, h3, e6⟩ := Counted.bind_ok h2
  have hs := (randomTernaryVector_spec e1).1
  rw [e2, e4, e6, free_snd, free_snd, multLeftC_snd e3]
  unfold multRightC at e5 ⊢
  rw [mapC_snd e5 fun col _ x hx => vecMultC_snd hx, hs]
  ring

theorem C121_client_kv (cp : List (List U32)) (params : KVParams) (tape : List U32) (r : QueryParams FilterParams × List U32)
    (h : generateKvQueryParams cp params tape = .ok r) :
    (generateKvQueryParamsC cp params tape).1 = .ok r ∧
    (generateKvQueryParamsC cp params tape).2 = params.dim * (cp.length + params.rhs.length) := by
  rw [← kvQpC_fst] at h
  refine ⟨h, ?_⟩
  unfold generateKvQueryParamsC at h ⊢
  obtain ⟨⟨s, t⟩, e1, h1, e2⟩ := Counted.bind_ok h
  obtain ⟨⟨l, t'⟩, e3, h2, e4⟩ := Counted.bind_ok h1
  obtain ⟨rr, e5, h3, e6⟩ := Counted.bind_ok h2
  have hs := (randomTernaryVector_spec e1).1
  rw [e2, e4, e6, free_snd, free_snd, multLeftC_snd e3]
  unfold multRightC at e5 ⊢
  rw [mapC_snd e5 fun col _ x hx => vecMultC_snd hx, hs]
  ring

/-! ## Passes over the keys -/

theorem free_ok_bind {α β : Type} (a : α) (f : α → Counted β) : (Counted.free (.ok a)).bind f = f a := by
  show ((f a).1, 0 + (f a).2) = f a
  rw [Nat.zero_add]

theorem Counted.bind_snd_of_free {α β : Type} (x : Counted α) (f : α → Counted β) (hf : ∀ a, (f a).2 = 0) :
    (x.bind f).2 = x.2 := by
  obtain ⟨r, k⟩ := x
  cases r with
  | ok a => show k + (f a).2 = k; rw [hf, Nat.add_zero]
  | err e => rfl
  | panic => rfl
  | diverge => rfl

theorem bfpLoopC_fst (prof : Profile) (lay : Layout) (size : Nat) (hashes : List U64) (n : Nat) (st : BState) :
    (bfpLoopC prof lay size hashes n st).1 = bfpLoop prof lay size hashes n st := by
  induction n generalizing st with
  | zero => rfl
  | succ n ih =>
    rw [bfpLoopC, bfpLoop, Counted.bind_fst]
    congr 1
    funext a
    cases a with
    | done stk => rfl
    | peelFailed st' => exact ih st'
    | countError st' => exact ih st'

theorem bfpLoopC_le (prof : Profile) (lay : Layout) (size : Nat) (hashes : List U64) (n : Nat) (st : BState) :
    (bfpLoopC prof lay size hashes n st).2 ≤ n := by
  induction n generalizing st with
  | zero => exact le_refl _
  | succ n ih =>
    rw [bfpLoopC, Nat.add_comm]
    refine Counted.bind_le _ _ 1 n (le_refl _) fun a _ => ?_
    cases a with
    | done stk => exact Nat.zero_le _
    | peelFailed st' => exact ih st'
    | countError st' => exact ih st'

theorem fromSliceC_fst (prof : Profile) (segExp cap0 : Nat) (fp0 : Nat → U32) (seed : List U8) (keys : List Key)
    (data : List U32) (label p : U64) :
    (BinaryFuseP32.fromSliceC prof segExp cap0 fp0 seed keys data label p).1 =
      BinaryFuseP32.fromSlice prof segExp cap0 fp0 seed keys data label p := by
  unfold BinaryFuseP32.fromSliceC BinaryFuseP32.fromSlice
  split
  · rfl
  · rename_i hd
    rw [bfusePFromImpl_eq]
    split
    · rfl
    · rw [Counted.bind_fst, free_fst]
      congr 1
      funext lay
      rw [Counted.bind_fst, free_fst]
      congr 1
      funext hashes
      rw [if_neg (by omega), Counted.bind_fst, bfpLoopC_fst]
      congr 1
      funext stk
      rw [Counted.bind_fst, free_fst]
      rfl

theorem fromSliceC_le (prof : Profile) (segExp cap0 : Nat) (fp0 : Nat → U32) (seed : List U8) (keys : List Key)
    (data : List U32) (label p : U64) :
    (BinaryFuseP32.fromSliceC prof segExp cap0 fp0 seed keys data label p).2 ≤ bfpMaxIter := by
  unfold BinaryFuseP32.fromSliceC
  split
  · exact Nat.zero_le _
  · split
    · exact Nat.zero_le _
    · rw [← Nat.zero_add bfpMaxIter]
      refine Counted.bind_le _ _ 0 _ (le_refl _) fun lay _ => ?_
      rw [← Nat.zero_add bfpMaxIter]
      refine Counted.bind_le _ _ 0 _ (le_refl _) fun hashes _ => ?_
      rw [Counted.bind_snd_of_free _ _ fun stk => by rw [Counted.bind_snd_of_free _ _ fun _ => rfl]; rfl]
      exact bfpLoopC_le _ _ _ _ _ _

theorem columnFilterC_fst (prof : Profile) (segExp cap0 : Nat) (fp0 : Nat → Nat → U32) (seed : List U8)
    (kvs : List KeyValue) (b i : Nat) :
    (columnFilterC prof segExp cap0 fp0 seed kvs b i).1 = columnFilter prof segExp cap0 fp0 seed kvs b i := by
  unfold columnFilterC columnFilter
  rw [Counted.bind_fst, free_fst]
  congr 1
  funext column
  rw [Counted.bind_fst, free_fst]
  congr 1
  funext p
  exact congrArg Res.unwrap (fromSliceC_fst _ _ _ _ _ _ _ _ _)

theorem columnFilterC_le (prof : Profile) (segExp cap0 : Nat) (fp0 : Nat → Nat → U32) (seed : List U8)
    (kvs : List KeyValue) (b i : Nat) : (columnFilterC prof segExp cap0 fp0 seed kvs b i).2 ≤ bfpMaxIter := by
  unfold columnFilterC
  rw [← Nat.zero_add bfpMaxIter]
  refine Counted.bind_le _ _ 0 _ (le_refl _) fun column _ => ?_
  rw [← Nat.zero_add bfpMaxIter]
  refine Counted.bind_le _ _ 0 _ (le_refl _) fun p _ => ?_
  exact fromSliceC_le _ _ _ _ _ _ _ _ _

theorem kvDatabaseC_fst (prof : Profile) (segExp cap0 : Nat) (fp0 : Nat → Nat → U32) (seed : List U8)
    (kvs : List KeyValue) (m T b : Nat) :
    (KVDatabase.newC prof segExp cap0 fp0 seed kvs m T b).1 = KVDatabase.new prof segExp cap0 fp0 seed kvs m T b := by
  unfold KVDatabase.newC KVDatabase.new storageFiltersFromKvs
  rw [Counted.bind_fst, free_fst]
  congr 1
  funext kv0
  rw [Counted.bind_fst, mapC_fst, Res.bind_assoc']
  simp only [columnFilterC_fst]
  congr 1
  funext filters
  rw [Counted.bind_fst, free_fst, Res.bind_assoc']
  congr 1
  funext f0
  rw [Counted.bind_fst, free_fst]
  rfl

/-- The counted key-value constructor is the model with a counter. -/
theorem kvShardC_fst (prof : Profile) (prg : Prg) (pseed : List U8) (segExp cap0 : Nat) (fp0 : Nat → Nat → U32)
    (seed : List U8) (kvs : List KeyValue) (n m T b : Nat) :
    (KVShard.newC prof prg pseed segExp cap0 fp0 seed kvs n m T b).1 =
      KVShard.new prof prg pseed segExp cap0 fp0 seed kvs n m T b := by
  unfold KVShard.newC KVShard.new
  rw [Counted.bind_fst, kvDatabaseC_fst]
  congr 1
  funext db
  rw [Counted.bind_fst, free_fst]
  rfl

theorem kvShardC_snd {prof : Profile} {prg : Prg} {pseed : List U8} {segExp cap0 : Nat} {fp0 : Nat → Nat → U32}
    {seed : List U8} {kvs : List KeyValue} {n m T b : Nat} {kv0 : KeyValue} (h0 : rd kvs 0 = .ok kv0) :
    (KVShard.newC prof prg pseed segExp cap0 fp0 seed kvs n m T b).2 =
      (mapC (columnFilterC prof segExp cap0 fp0 seed kvs b) (List.range kv0.value.length)).2 := by
  unfold KVShard.newC
  rw [Counted.bind_snd_of_free _ _ fun db => by rw [Counted.bind_snd_of_free _ _ fun _ => rfl]; rfl]
  unfold KVDatabase.newC
  rw [h0, free_ok_bind]
  rw [Counted.bind_snd_of_free _ _ fun fs => by
    rw [Counted.bind_snd_of_free _ _ fun f0 => by rw [Counted.bind_snd_of_free _ _ fun _ => rfl]; rfl]
    rfl]

/-- **C121 (passes, upper bound).** Whatever the records, the seed and the parameters, building a key-value shard hashes
and sorts the whole key set at most 100000 times for each word of the first value. -/
theorem C121_passes_bound (prof : Profile) (prg : Prg) (pseed : List U8) (segExp cap0 : Nat) (fp0 : Nat → Nat → U32)
    (seed : List U8) (kv0 : KeyValue) (rest : List KeyValue) (n m T b : Nat) :
    (KVShard.newC prof prg pseed segExp cap0 fp0 seed (kv0 :: rest) n m T b).1 =
      KVShard.new prof prg pseed segExp cap0 fp0 seed (kv0 :: rest) n m T b ∧
    (KVShard.newC prof prg pseed segExp cap0 fp0 seed (kv0 :: rest) n m T b).2 ≤ kv0.value.length * 100000 := by
  refine ⟨kvShardC_fst _ _ _ _ _ _ _ _ _ _ _ _, ?_⟩
  rw [kvShardC_snd (kv0 := kv0) rfl]
  refine (mapC_le (c := 100000) fun i _ => columnFilterC_le _ _ _ _ _ _ _ _).trans ?_
  rw [List.length_range]

theorem bfpLoopC_done {prof : Profile} {lay : Layout} {size : Nat} {hashes : List U64} {n : Nat} {st : BState}
    {stk : List (U64 × Nat)} (h : attempt prof lay size hashes st = .ok (.done stk)) :
    (bfpLoopC prof lay size hashes (n + 1) st).2 = 1 := by
  rw [bfpLoopC, h]
  rfl

theorem bfpLoopC_stuck {prof : Profile} {lay : Layout} {size : Nat} {hashes : List U64} {st : BState}
    (h : attempt prof lay size hashes st = .ok (.peelFailed st)) (n : Nat) :
    (bfpLoopC prof lay size hashes n st).2 = n := by
  induction n with
  | zero => rfl
  | succ n ih =>
    rw [bfpLoopC, h]
    show 1 + (bfpLoopC prof lay size hashes n st).2 = n + 1
    rw [ih, Nat.add_comm]

/-- Passes of one filter. -/
theorem fromSliceC_passes (prof : Profile) (segExp cap0 : Nat) (fp0 : Nat → U32) (seed : List U8)
    (keys : List Key) (data : List U32) (label ptxtMod : U64) (lay : Layout)
    (hlay : bfLayout keys.length segExp cap0 = .ok lay)
    (hseed : seed.length = 32) (hdata : data.length = keys.length)
    (hdebug : prof = .debug → 256 ≤ ptxtMod.toNat)
    (hload : ∀ s, slotLoad seed lay.geom keys s < 64)
    (hdist : (keys.map fun k => mix256 k seed).Nodup) :
    (CanPeel (touchesP seed lay.geom) keys →
      (BinaryFuseP32.fromSliceC prof segExp cap0 fp0 seed keys data label ptxtMod).2 = 1) ∧
    (¬ CanPeel (touchesP seed lay.geom) keys →
      (BinaryFuseP32.fromSliceC prof segExp cap0 fp0 seed keys data label ptxtMod).2 = 100000) := by
  obtain ⟨s, _, hg⟩ := bfLayout_wf hlay
  choose gh hgh using mix256_total hseed
  have hh : mapRes (fun k => mix256 k seed) keys = .ok (keys.map gh) :=
    mapRes_ok_of_forall fun k _ => hgh k
  have hl : (keys.map gh).length = keys.length := by simp
  have hF := (fits_iff (g := lay.geom) hh).2 hload
  have hinj : (keys.map gh).Nodup := by
    have e : (keys.map fun k => mix256 k seed) = (keys.map gh).map Res.ok := by
      rw [List.map_map]
      exact List.map_congr_left fun k _ => hgh k
    rw [e] at hdist
    exact hdist.of_map
  have hnd : keys.Nodup := hinj.of_map
  have hiff : CanPeel (touchesP seed lay.geom) keys ↔
      CanPeel (fun h s => on lay.geom s h = true) (keys.map gh) := by
    rw [Spec.CanPeel.map]
    have : (fun k s => on lay.geom s (gh k) = true) = touchesP seed lay.geom := by
      funext k s
      exact propext (touchesP_iff (hgh k) s)
    rw [this]
  rw [hiff]
  unfold BinaryFuseP32.fromSliceC
  rw [if_neg (by omega), if_neg (by
    rintro ⟨h1, h2⟩
    have := hdebug h1
    rcases h2 with h2 | h2
    · exact h2 hnd
    · omega), hlay, free_ok_bind, hh, free_ok_bind,
    Counted.bind_snd_of_free _ _ fun stk => by rw [Counted.bind_snd_of_free _ _ fun _ => rfl]; rfl]
  obtain ⟨m, hm⟩ : ∃ m, bfpMaxIter = m + 1 := ⟨99999, rfl⟩
  constructor
  · intro hpeel
    rcases attempt_ok (prof := prof) hg hl hF with ⟨stk, hA, _⟩ | hA
    · rw [hm]
      exact bfpLoopC_done hA
    · obtain ⟨stk, e⟩ := attempt_complete hg hl (Or.inr hF) hinj hpeel hA
      cases e
  · intro hpeel
    rcases attempt_ok (prof := prof) hg hl hF with ⟨stk, hA, hS⟩ | hA
    · exact absurd (hS.canPeel hinj) hpeel
    · exact bfpLoopC_stuck hA _

/-- **C121 (passes).** For a well-formed key-value database with pairwise different key hashes and no slot with 64 or
more keys, `KVShard::new` either makes one pass over the keys for each column and returns a shard, or (when the keys
cannot be peeled, see C120 for how often) makes exactly 100000 identical passes over them and panics. -/
theorem C121_passes (prof : Profile) (prg : Prg) (pseed : List U8) (segExp cap0 : Nat)
    (fp0 : Nat → Nat → U32) (seed : List U8) (kvs : List KeyValue) (n m T b : Nat) (lay : Layout)
    (hT : 0 < T) (hb1 : 1 ≤ b) (hb : b ≤ 31) (hdebug : prof = .debug → 8 ≤ b) (hne : kvs ≠ [])
    (hval : ∀ kv ∈ kvs, kv.value.length = width T b)
    (hlay : bfLayout kvs.length segExp cap0 = .ok lay) (hseed : seed.length = 32)
    (hload : ∀ s, slotLoad seed lay.geom (kvs.map (·.key)) s < 64)
    (hdist : (kvs.map fun kv => mix256 kv.key seed).Nodup) :
    (CanPeel (touchesP seed lay.geom) (kvs.map (·.key)) →
      ∃ shard, KVShard.newC prof prg pseed segExp cap0 fp0 seed kvs n m T b = (.ok shard, width T b)) ∧
    (¬ CanPeel (touchesP seed lay.geom) (kvs.map (·.key)) →
      KVShard.newC prof prg pseed segExp cap0 fp0 seed kvs n m T b = (.panic, 100000)) := by
  have hw : 0 < width T b := Nat.div_pos (by omega) (by omega)
  obtain ⟨hA, hB⟩ := C62_kv_build prof prg pseed segExp cap0 fp0 seed kvs n m T b lay hT hb1 hb hdebug hne hval hlay
    hseed hload hdist
  have hlay' : bfLayout (kvs.map (·.key)).length segExp cap0 = .ok lay := by simpa using hlay
  have hdist' : ((kvs.map (·.key)).map fun k => mix256 k seed).Nodup := by
    rw [List.map_map]; exact hdist
  obtain ⟨kv0, rest, rfl⟩ := List.exists_cons_of_ne_nil hne
  have h0 : kv0.value.length = width T b := hval kv0 (by simp)
  generalize hkvs : kv0 :: rest = kvs at *
  have hrd : rd kvs 0 = .ok kv0 := by subst hkvs; rfl
  have hp : pow2U64 prof b = .ok (BitVec.ofNat 64 (2 ^ b)) := by
    unfold pow2U64
    have e : b % 2 ^ 32 = b := Nat.mod_eq_of_lt (by omega)
    simp only [e]
    rw [if_pos (by omega)]
  have h2b : 2 ^ b < 2 ^ 32 := Nat.pow_lt_pow_right (by omega) (by omega)
  have hpn : (BitVec.ofNat 64 (2 ^ b) : U64).toNat = 2 ^ b := by
    rw [BitVec.toNat_ofNat]
    exact Nat.mod_eq_of_lt (by omega)
  have hdb : prof = .debug → 256 ≤ (BitVec.ofNat 64 (2 ^ b) : U64).toNat := by
    intro h
    rw [hpn]
    calc 256 = 2 ^ 8 := rfl
      _ ≤ 2 ^ b := Nat.pow_le_pow_right (by omega) (hdebug h)
  have hcol : ∀ j < width T b, ∃ data : List U32, data.length = (kvs.map (·.key)).length ∧
      columnFilterC prof segExp cap0 fp0 seed kvs b j =
        (BinaryFuseP32.fromSliceC prof segExp cap0 (fp0 j) seed (kvs.map (·.key)) data
          (BitVec.ofNat 64 j) (BitVec.ofNat 64 (2 ^ b))).unwrap := by
    intro j hj
    have h := mapRes_ok_of_forall (f := fun kv : KeyValue => rd kv.value j)
      (g := fun kv => kv.value.getD j 0#32) (l := kvs) (by
        intro kv hkv
        have hl := hval kv hkv
        rw [rd_ok (by omega), getD_lt (by omega)])
    refine ⟨kvs.map fun kv => kv.value.getD j 0#32, by simp, ?_⟩
    unfold columnFilterC
    rw [h, free_ok_bind, hp, free_ok_bind]
  have hpass := fun j data hd => fromSliceC_passes prof segExp cap0 (fp0 j) seed (kvs.map (·.key)) data
    (BitVec.ofNat 64 j) (BitVec.ofNat 64 (2 ^ b)) lay hlay' hseed hd hdb hload hdist'
  constructor
  · intro hpeel
    obtain ⟨shard, hs⟩ := hA hpeel
    refine ⟨shard, Prod.ext ((kvShardC_fst _ _ _ _ _ _ _ _ _ _ _ _).trans hs) ?_⟩
    have hdbok : ∃ bs, mapRes (columnFilter prof segExp cap0 fp0 seed kvs b) (List.range (width T b)) = .ok bs := by
      unfold KVShard.new KVDatabase.new storageFiltersFromKvs at hs
      rw [hrd, Res.bind_ok, h0] at hs
      obtain ⟨db, h1, _⟩ := Res.bind_eq_ok.1 hs
      obtain ⟨p, h2, _⟩ := Res.bind_eq_ok.1 h1
      obtain ⟨bs, h3, _⟩ := Res.bind_eq_ok.1 h2
      exact ⟨bs, h3⟩
    obtain ⟨bs, hbs⟩ := hdbok
    show (KVShard.newC prof prg pseed segExp cap0 fp0 seed kvs n m T b).2 = width T b
    rw [kvShardC_snd hrd, h0, mapC_snd (c := 1) (bs := bs) (by rw [mapC_fst]; simpa only [columnFilterC_fst] using hbs),
      List.length_range, Nat.mul_one]
    intro j hj _ _
    obtain ⟨data, hd, e⟩ := hcol j (List.mem_range.1 hj)
    rw [e]
    exact (hpass j data hd).1 hpeel
  · intro hpeel
    have hs := hB hpeel
    refine Prod.ext ((kvShardC_fst _ _ _ _ _ _ _ _ _ _ _ _).trans hs) ?_
    show (KVShard.newC prof prg pseed segExp cap0 fp0 seed kvs n m T b).2 = 100000
    obtain ⟨data, hd, e⟩ := hcol 0 hw
    have h1 : (columnFilterC prof segExp cap0 fp0 seed kvs b 0).2 = 100000 := by
      rw [e]; exact (hpass 0 data hd).2 hpeel
    have h2 : ∀ f, (columnFilterC prof segExp cap0 fp0 seed kvs b 0).1 ≠ .ok f := by
      intro f hf
      rw [e] at hf
      have hf' := unwrap_eq_ok hf
      rw [fromSliceC_fst] at hf'
      have := (C57_kv_filter prof segExp cap0 (fp0 0) seed (kvs.map (·.key)) data
        (BitVec.ofNat 64 0) (BitVec.ofNat 64 (2 ^ b)) lay hlay' hseed hd
        (by rw [hpn]; exact Nat.two_pow_pos b) (by rw [hpn]; exact h2b) hdb hload hdist').1 ⟨f, hf'⟩
      exact hpeel this
    rw [kvShardC_snd hrd, h0]
    obtain ⟨w, hww⟩ : ∃ w, width T b = w + 1 := ⟨width T b - 1, by omega⟩
    rw [hww, List.range_succ_eq_map, mapC]
    generalize columnFilterC prof segExp cap0 fp0 seed kvs b 0 = x at h1 h2
    obtain ⟨r, k⟩ := x
    cases r with
    | ok a => exact absurd rfl (h2 a)
    | err e => exact h1
    | panic => exact h1
    | diverge => exact h1

/-- **C121 (two records).** With the sizes the library computes, a database of two records whose key hashes differ costs
one pass per column if the hashes do not share their cells, and 100000 passes before a panic if they do (one pair in 64,
`C120_two_count`). -/
theorem C121_two_entries (log : ℚ → ℚ) (hlog : LogAccurate log) (prof : Profile) (filterSeed : List U8) (kv0 kv1 : KeyValue)
    (h0 h1 : U64) (hseed : filterSeed.length = 32) (e0 : mix256 kv0.key filterSeed = .ok h0)
    (e1 : mix256 kv1.key filterSeed = .ok h1) (hne : h0 ≠ h1) (prg : Prg) (pseed : List U8) (fp0 : Nat → Nat → U32)
    (n m T b : Nat) (hT : 0 < T) (hb1 : 1 ≤ b) (hb : b ≤ 31) (hdebug : prof = .debug → 8 ≤ b)
    (hw0 : kv0.value.length = width T b) (hw1 : kv1.value.length = width T b) :
    (SameCells h0.toNat h1.toNat →
      KVShard.newC prof prg pseed (bfSegExp log 2) (bfCap0 log 2) fp0 filterSeed [kv0, kv1] n m T b = (.panic, 100000)) ∧
    (¬ SameCells h0.toNat h1.toNat →
      ∃ shard, KVShard.newC prof prg pseed (bfSegExp log 2) (bfCap0 log 2) fp0 filterSeed [kv0, kv1] n m T b =
        (.ok shard, width T b)) := by
  obtain ⟨hS, hN⟩ := C120_two_entries log hlog prof filterSeed kv0 kv1 h0 h1 hseed e0 e1 hne prg pseed fp0 n m T b hT hb1 hb
    hdebug hw0 hw1
  obtain ⟨lay, hlay, _, _⟩ := sized_layout log hlog 2 (by omega)
  obtain ⟨hA, hB⟩ := C121_passes prof prg pseed (bfSegExp log 2) (bfCap0 log 2) fp0 filterSeed [kv0, kv1] n m T b lay hT hb1 hb
    hdebug (by simp) (by intro kv hkv; simp at hkv; rcases hkv with rfl | rfl <;> assumption) hlay hseed
    (slotLoad_lt_of_length _ _ _ (by simp)) (by simp [e0, e1, hne])
  have hfst := kvShardC_fst prof prg pseed (bfSegExp log 2) (bfCap0 log 2) fp0 filterSeed [kv0, kv1] n m T b
  constructor
  · intro h
    by_cases hp : CanPeel (touchesP filterSeed lay.geom) ([kv0, kv1].map (·.key))
    · obtain ⟨shard, e⟩ := hA hp
      rw [hS h, e] at hfst
      cases hfst
    · exact hB hp
  · intro h
    by_cases hp : CanPeel (touchesP filterSeed lay.geom) ([kv0, kv1].map (·.key))
    · exact hA hp
    · obtain ⟨shard, e⟩ := hN h
      rw [e, hB hp] at hfst
      cases hfst

/-- **C121 (one in a thousand).** At every size from 2 to `2^24` records, for at least one in a thousand tuples of key
hashes `KVShard::new` makes all of its 100000 passes over the keys and then panics. -/
theorem C121_one_in_a_thousand (log : ℚ → ℚ) (hlog : LogAccurate log) (N : Nat) (hN2 : 2 ≤ N) (hN : N ≤ 2 ^ 24) :
    ∃ stuck : Finset (Fin N → Fin (2 ^ 64)), (2 ^ 64) ^ N ≤ 1000 * stuck.card ∧
      ∀ x ∈ stuck, ∀ (prof : Profile) (filterSeed : List U8) (kvs : List KeyValue) (hkv : kvs.length = N),
        filterSeed.length = 32 →
        (∀ i : Fin N, mix256 (kvs[i.val]'(hkv ▸ i.isLt)).key filterSeed = .ok (BitVec.ofFin (x i))) →
        ∀ (prg : Prg) (pseed : List U8) (fp0 : Nat → Nat → U32) (n m T b : Nat), 0 < T → 1 ≤ b → b ≤ 31 →
        (prof = .debug → 8 ≤ b) → (∀ kv ∈ kvs, kv.value.length = width T b) →
        KVShard.newC prof prg pseed (bfSegExp log N) (bfCap0 log N) fp0 filterSeed kvs n m T b = (.panic, 100000) := by
  obtain ⟨lay, hlay, _, _⟩ := sized_layout log hlog N hN
  obtain ⟨stuck, hcard, hall⟩ := stuck_set log hlog N hN2 hN lay hlay
  refine ⟨stuck, share_thousand log hlog N hN2 hN lay hlay stuck hcard, ?_⟩
  intro x hx prof filterSeed kvs hkv hseed hhash prg pseed fp0 n m T b hT0 hb1 hb hdebug hw
  obtain ⟨hinj, hload, hsame⟩ := hall x hx
  have hpanic := (kv_outcome hlay (by omega) x hinj hload prof filterSeed kvs hkv hseed hhash prg pseed fp0 n m T b hT0 hb1 hb
    hdebug hw).1 hsame
  obtain ⟨hld, hnd⟩ := kv_hyps x hinj hload filterSeed kvs hkv hhash
  obtain ⟨hA, hB⟩ := C121_passes prof prg pseed (bfSegExp log N) (bfCap0 log N) fp0 filterSeed kvs n m T b lay hT0 hb1 hb
    hdebug (by rintro rfl; simp at hkv; omega) hw (by rw [hkv]; exact hlay) hseed hld hnd
  have hfst := kvShardC_fst prof prg pseed (bfSegExp log N) (bfCap0 log N) fp0 filterSeed kvs n m T b
  by_cases hp : CanPeel (touchesP filterSeed lay.geom) (kvs.map (·.key))
  · obtain ⟨shard, e⟩ := hA hp
    rw [hpanic, e] at hfst
    cases hfst
  · exact hB hp

/-- Both sides of `C121_passes` occur (the sizes are those of two keys). -/
example : KVShard.newC .debug (fun _ _ => 1#32) [] 2 12 (fun _ _ => 5#32) exSeed
      (exCore.map fun k => { key := k, value := [300#32, 7#32] }) 1 2 16 9 = (.panic, 100000) := by
  obtain ⟨lay, hlay, _, hd, hcore, _⟩ := exCore_stuck
  refine (C121_passes .debug _ _ 2 12 _ exSeed (exCore.map fun k => { key := k, value := [300#32, 7#32] })
    1 2 16 9 lay (by decide) (by decide) (by decide) (by decide) (by simp [exCore]) ?_ hlay (by decide)
    ?_ hd).2 ?_
  · intro kv hkv
    obtain ⟨k, _, rfl⟩ := List.mem_map.1 hkv
    rfl
  · exact slotLoad_lt_of_length _ _ _ (by decide)
  · intro h
    exact (canPeel_iff_no_core _ exCore (by decide)).1 h hcore

example : (KVShard.newC .debug (fun _ _ => 1#32) [] 3 16 (fun _ _ => 5#32) exSeed
      (exKeys.map fun k => { key := k, value := [300#32, 7#32] }) 1 99 16 9).2 = 2 := by
  decide +kernel

/-- A whole exchange: 2 records of two words, LWE dimension 3. -/
example : (match Shard.fromBase64Strings .debug (fun _ _ => 1#32) [] ["AAE=".toList, "AQE=".toList] 3 2 16 8 with
    | .ok s =>
      let q := generateIndexQueryParamsC (commonParamsFrom (fun _ _ => 1#32) [] 3 2) s.baseParams [1#32, 2#32, 3#32, 4#32, 5#32]
      ((IndexParams.newC (fun _ _ => 1#32) [] s.db 3).2, (s.respondC [1#32, 2#32]).2, q.2, (s.respondC [1#32]).2)
    | _ => (0, 0, 0, 0)) = (12, 4, 12, 0) := by decide +kernel

end Chalamet
