import Verif.Spec
import Verif.Model.Db
import Mathlib.Data.BitVec
import Mathlib.Tactic.Ring
import Mathlib.Tactic.Linarith

/-! Linear algebra over `u32` (helper lemmas). -/

namespace Chalamet
open Spec

theorem foldRes_map {α β σ : Type} (f : σ → β → Res σ) (g : α → β) (s : σ) (l : List α) :
    foldRes f s (l.map g) = foldRes (fun s a => f s (g a)) s l := by
  induction l generalizing s with
  | nil => rfl
  | cons a as ih =>
    rw [List.map_cons, foldRes_cons, foldRes_cons]
    cases f s (g a) <;> simp [ih]

theorem dotFold_eq (acc : U32) (r c : List U32) (h : r.length = c.length) :
    foldRes (dotStep r c) acc (List.range r.length) = .ok (acc + dot r c) := by
  induction r generalizing acc c with
  | nil => simp [dot]
  | cons x xs ih =>
    cases c with
    | nil => simp at h
    | cons y ys =>
      rw [List.length_cons, List.range_succ_eq_map, foldRes_cons]
      have e : (fun s a => dotStep (x :: xs) (y :: ys) s (Nat.succ a)) = dotStep xs ys := by
        funext s a
        simp [dotStep, rd]
      have e0 : dotStep (x :: xs) (y :: ys) acc 0 = .ok (acc + x * y) := by simp [dotStep, rd]
      rw [e0, Res.bind_ok, foldRes_map, e, ih _ _ (by simpa using h), dot, BitVec.add_assoc]

theorem vecMult_ok {r c : List U32} (h : r.length = c.length) : vecMult r c = .ok (dot r c) := by
  rw [vecMult, if_neg (by simp [h]), dotFold_eq _ _ _ h, BitVec.zero_add]

theorem vecMult_err {r c : List U32} (h : r.length ≠ c.length) :
    vecMult r c = .err .inputSize := by
  simp [vecMult, h]

theorem vecMult_eq_ok {r c : List U32} {x : U32} :
    vecMult r c = .ok x ↔ r.length = c.length ∧ x = dot r c := by
  by_cases h : r.length = c.length
  · rw [vecMult_ok h]; simp [h, eq_comm]
  · rw [vecMult_err h]; simp [h]

theorem dot_comm (u v : List U32) : dot u v = dot v u := by
  induction u generalizing v with
  | nil => cases v <;> rfl
  | cons x xs ih =>
    cases v with
    | nil => rfl
    | cons y ys => rw [dot, dot, ih]; ring

theorem dot_vadd_left {u v c : List U32} (h : u.length = v.length) :
    dot (vadd u v) c = dot u c + dot v c := by
  induction u generalizing v c with
  | nil => cases v <;> simp_all [vadd, dot]
  | cons x xs ih =>
    cases v with
    | nil => simp at h
    | cons y ys =>
      cases c with
      | nil => simp [dot]
      | cons z zs =>
        have := ih (v := ys) (c := zs) (by simpa using h)
        simp only [vadd, List.zipWith_cons_cons, dot] at this ⊢
        rw [this]; ring

theorem dot_set {u c : List U32} {i : Nat} {v : U32} (hi : i < u.length) (hc : i < c.length) :
    dot (u.set i v) c = dot u c + (v - u[i]) * c[i] := by
  induction u generalizing c i with
  | nil => simp at hi
  | cons x xs ih =>
    cases c with
    | nil => simp at hc
    | cons z zs =>
      cases i with
      | zero => simp only [List.set_cons_zero, dot, List.getElem_cons_zero]; ring
      | succ i =>
        simp only [List.set_cons_succ, dot, List.getElem_cons_succ]
        rw [ih (by simpa using hi) (by simpa using hc)]; ring

@[simp] theorem vadd_length {u v : List U32} (h : u.length = v.length) :
    (vadd u v).length = u.length := by simp [vadd, h]

/-- The inner loop of `swap_matrix_fmt`, cell by cell. -/
theorem swapFold_ok {row : List U32} {acc : List (List U32)} {k : Nat} (h1 : k ≤ row.length) (h2 : k ≤ acc.length) :
    ∃ acc', foldRes (swapPush row) acc (List.range k) = .ok acc' ∧ acc'.length = acc.length ∧
      ∀ i (hi : i < acc.length), acc'[i]? = some (if i < k then acc[i] ++ [row.getD i 0#32] else acc[i]) := by
  induction k with
  | zero => exact ⟨acc, rfl, rfl, by simp⟩
  | succ k ih =>
    obtain ⟨a, e, hl, h⟩ := ih (by omega) (by omega)
    have hk : k < a.length := by omega
    have hak : a[k] = acc[k] := by
      have := h k (by omega)
      rw [List.getElem?_eq_getElem hk] at this
      simpa using this
    refine ⟨a.set k (acc[k] ++ [row[k]]), ?_, by simpa using hl, ?_⟩
    · rw [List.range_succ, foldRes_append, e, Res.bind_ok, foldRes_cons, swapPush, rd_ok (by omega), Res.bind_ok, rd_ok hk,
        Res.bind_ok, wr_ok hk, hak]
      rfl
    · intro i hi
      rw [List.getElem?_set]
      by_cases hik : k = i
      · subst hik
        rw [getD_lt (by omega)]
        simp [hk]
      · rw [if_neg hik, h i hi]
        congr 1
        by_cases h' : i < k
        · rw [if_pos h', if_pos (by omega)]
        · rw [if_neg h', if_neg (by omega)]

theorem swapStep_ok {row : List U32} {acc : List (List U32)} {w : Nat} (h1 : w ≤ row.length) (h2 : acc.length = w) :
    swapStep w acc row = .ok (List.zipWith (fun col x => col ++ [x]) acc row) := by
  obtain ⟨a, e, hl, h⟩ := swapFold_ok (row := row) (acc := acc) (k := w) h1 (by omega)
  rw [swapStep, e]
  congr 1
  apply List.ext_getElem?
  intro i
  by_cases hi : i < acc.length
  · rw [h i hi, if_pos (by omega), List.getElem?_zipWith, List.getElem?_eq_getElem hi, List.getElem?_eq_getElem (by omega),
      getD_lt (by omega)]
  · rw [List.getElem?_eq_none (by omega), List.getElem?_eq_none (by simp; omega)]

/-- `swap_matrix_fmt` of a matrix whose rows are at least as long as the first. -/
theorem swapMatrixFmt_ok {M : List (List U32)} {w : Nat} (hne : M ≠ [])
    (h0 : ∀ r, M.head? = some r → r.length = w) (hrect : ∀ r ∈ M, w ≤ r.length) :
    swapMatrixFmt M = .ok ((List.range w).map fun j => M.map fun r => r.getD j 0#32) := by
  obtain ⟨r0, rs, rfl⟩ := List.exists_cons_of_ne_nil hne
  have hr0 : r0.length = w := h0 r0 rfl
  unfold swapMatrixFmt
  rw [rd_of_some (a := r0) rfl, Res.bind_ok, hr0]
  obtain ⟨s', hs', hI⟩ := foldRes_inv (f := swapStep w)
    (I := fun done acc => acc = (List.range w).map fun j => done.map fun r => r.getD j 0#32)
    (s := List.replicate w []) (l := r0 :: rs)
    (by
      apply List.ext_getElem (by simp)
      intro i h1 h2; simp)
    (by
      intro done a rest s heq hI
      have ha : w ≤ a.length := hrect a (by rw [← heq]; simp)
      refine ⟨_, swapStep_ok ha (by rw [hI]; simp), ?_⟩
      subst hI
      apply List.ext_getElem
      · simp [ha]
      · intro i h1 h2
        have hi : i < w := by simpa using h2
        have hia : i < a.length := by omega
        simp [hia])
  rw [hs', hI]

theorem swapMatrixFmt_nil : swapMatrixFmt [] = .panic := rfl

/-- Rectangular matrices: `h` rows of length `w`. -/
def Rect (M : List (List U32)) (h w : Nat) : Prop := M.length = h ∧ ∀ r ∈ M, r.length = w

theorem swapMatrixFmt_rect {M : List (List U32)} {h w : Nat} (hM : Rect M h w) (hh : 0 < h) :
    swapMatrixFmt M = .ok ((List.range w).map fun j => M.map fun r => r.getD j 0#32) := by
  apply swapMatrixFmt_ok
  · intro e; have := hM.1; simp [e] at this; omega
  · intro r hr; exact hM.2 r (List.mem_of_mem_head? hr)
  · intro r hr; exact le_of_eq (hM.2 r hr).symm

/-- Exchange of the two inner products. -/
theorem dot_range_add_mul (s : List U32) (a : List U32) (f : Nat → U32) (c : U32) (n : Nat)
    (hs : s.length = n) (ha : a.length = n) :
    dot s ((List.range n).map fun k => a.getD k 0#32 * c + f k) =
      dot s a * c + dot s ((List.range n).map f) := by
  induction n generalizing s a f with
  | zero =>
    have h1 : s = [] := List.length_eq_zero_iff.1 hs
    subst h1
    simp [dot]
  | succ n ih =>
    obtain ⟨x, xs, rfl⟩ : ∃ x xs, s = x :: xs := by
      cases s with
      | nil => simp at hs
      | cons x xs => exact ⟨x, xs, rfl⟩
    obtain ⟨y, ys, rfl⟩ : ∃ x xs, a = x :: xs := by
      cases a with
      | nil => simp at ha
      | cons x xs => exact ⟨x, xs, rfl⟩
    have := ih xs ys (fun k => f (k + 1)) (by simpa using hs) (by simpa using ha)
    rw [List.range_succ_eq_map, List.map_cons, List.map_cons, List.map_map, List.map_map, dot, dot,
      dot]
    have e1 : ((fun k => (y :: ys).getD k 0#32 * c + f k) ∘ Nat.succ) =
        fun k => ys.getD k 0#32 * c + f (k + 1) := by
      funext k; simp
    have e2 : (f ∘ Nat.succ) = fun k => f (k + 1) := rfl
    rw [e1, e2, this]
    simp only [List.getD_cons_zero]
    ring

/-- `s · (Aᵀ c) = (A s) · c`. -/
theorem dot_transpose (s : List U32) (A : List (List U32)) (c : List U32) (n : Nat)
    (hs : s.length = n) (hA : ∀ a ∈ A, a.length = n) (hc : c.length = A.length) :
    dot s ((List.range n).map fun k => dot (A.map fun r => r.getD k 0#32) c) =
      dot (A.map fun a => dot s a) c := by
  induction A generalizing c with
  | nil =>
    have : c = [] := List.length_eq_zero_iff.1 hc
    subst this
    simp only [List.map_nil, dot]
    have : ∀ (s : List U32) (l : List Nat), dot s (l.map fun _ => 0#32) = 0#32 := by
      intro s l
      induction l generalizing s with
      | nil => cases s <;> rfl
      | cons a l ih => cases s with
        | nil => rfl
        | cons x xs => simp only [List.map_cons, dot, ih]; simp
    exact this s _
  | cons a A ih =>
    obtain ⟨y, ys, rfl⟩ : ∃ x xs, c = x :: xs := by
      cases c with
      | nil => simp at hc
      | cons x xs => exact ⟨x, xs, rfl⟩
    have h1 := ih ys (fun a ha => hA a (by simp [ha])) (by simpa using hc)
    simp only [List.map_cons, dot]
    rw [dot_range_add_mul s a _ y n hs (hA a (by simp)), h1]

/-! ### ternary sampling -/

theorem ternaryOf_isTernary (v : U32) : IsTernary (ternaryOf v) := by
  unfold ternaryOf IsTernary
  split
  · simp
  · split <;> simp

theorem randomTernary_isTernary {tape tape' : List U32} {x : U32}
    (h : randomTernary tape = .ok (x, tape')) : IsTernary x := by
  induction tape with
  | nil => simp [randomTernary] at h
  | cons v t ih =>
    rw [randomTernary] at h
    split at h
    · exact ih h
    · simp only [Res.ok.injEq, Prod.mk.injEq] at h
      rw [← h.1]; exact ternaryOf_isTernary v

theorem randomTernaryVector_spec {n : Nat} {tape tape' : List U32} {s : List U32}
    (h : randomTernaryVector n tape = .ok (s, tape')) :
    s.length = n ∧ ∀ x ∈ s, IsTernary x := by
  induction n generalizing tape tape' s with
  | zero =>
    simp only [randomTernaryVector, Res.ok.injEq, Prod.mk.injEq] at h
    simp [← h.1]
  | succ n ih =>
    rw [randomTernaryVector] at h
    obtain ⟨⟨x, t1⟩, h1, h⟩ := Res.bind_eq_ok.1 h
    obtain ⟨⟨r, t2⟩, h2, h⟩ := Res.bind_eq_ok.1 h
    simp only [Res.ok.injEq, Prod.mk.injEq] at h
    obtain ⟨h3, h4⟩ := ih h2
    rw [← h.1]
    refine ⟨by simp [h3], ?_⟩
    intro y hy
    rcases List.mem_cons.1 hy with rfl | hy
    · exact randomTernary_isTernary h1
    · exact h4 y hy

/-- `mult_left` draws the same errors as `random_ternary_vector` would. -/
theorem multLeft_spec {s : List U32} {A : List (List U32)} {tape tape' : List U32}
    {lhs : List U32} :
    multLeft s A tape = .ok (lhs, tape') ↔
      (∀ a ∈ A, s.length = a.length) ∧
      ∃ e, randomTernaryVector A.length tape = .ok (e, tape') ∧
        lhs = vadd (A.map fun a => dot s a) e := by
  induction A generalizing tape tape' lhs with
  | nil => simp [multLeft, randomTernaryVector, vadd, eq_comm, and_comm]
  | cons a A ih =>
    rw [multLeft]
    constructor
    · intro h
      obtain ⟨sa, h1, h⟩ := Res.bind_eq_ok.1 h
      obtain ⟨⟨x, t1⟩, h2, h⟩ := Res.bind_eq_ok.1 h
      obtain ⟨⟨rest, t2⟩, h3, h⟩ := Res.bind_eq_ok.1 h
      simp only [Res.ok.injEq, Prod.mk.injEq] at h
      obtain ⟨h4, e, h5, h6⟩ := ih.1 h3
      obtain ⟨h7, h8⟩ := vecMult_eq_ok.1 h1
      refine ⟨?_, x :: e, ?_, ?_⟩
      · intro b hb
        rcases List.mem_cons.1 hb with rfl | hb
        · exact h7
        · exact h4 b hb
      · rw [List.length_cons, randomTernaryVector, h2]
        simp only [Res.bind_ok, h5]
        rw [h.2]
      · rw [← h.1, h6, h8]
        simp [vadd]
    · rintro ⟨hlen, e, he, rfl⟩
      rw [List.length_cons, randomTernaryVector] at he
      obtain ⟨⟨x, t1⟩, h2, he⟩ := Res.bind_eq_ok.1 he
      obtain ⟨⟨e', t2⟩, h3, he⟩ := Res.bind_eq_ok.1 he
      simp only [Res.ok.injEq, Prod.mk.injEq] at he
      have h4 := (ih (tape := t1) (tape' := t2) (lhs := vadd (A.map fun a => dot s a) e')).2
        ⟨fun b hb => hlen b (by simp [hb]), e', h3, rfl⟩
      rw [vecMult_ok (hlen a (by simp)), Res.bind_ok, h2, Res.bind_ok]
      simp only [h4, Res.bind_ok]
      rw [← he.1, he.2]
      simp [vadd]

theorem lweRow_eq (prg : Prg) (n : Nat) (v : List U32) (rng : SeededRng) :
    lweRow prg n v rng = (v ++ (List.range n).map (fun k => prg rng.seed (rng.drawn + k)),
      { rng with drawn := rng.drawn + n }) := by
  induction n generalizing v rng with
  | zero => simp [lweRow]
  | succ n ih =>
    rw [lweRow, ih, List.range_succ_eq_map, List.map_cons, List.map_map]
    simp only [SeededRng.nextU32, List.append_assoc, List.singleton_append, Nat.add_zero, Prod.mk.injEq,
      SeededRng.mk.injEq, true_and]
    refine ⟨?_, by omega⟩
    congr 2
    apply List.map_congr_left
    intro k _
    simp only [Function.comp]
    congr 1
    omega

theorem lweRows_eq (prg : Prg) (d n : Nat) (lhs : List (List U32)) (rng : SeededRng) :
    lweRows prg d n lhs rng = lhs ++ (List.range n).map fun j =>
      (List.range d).map fun k => prg rng.seed (rng.drawn + j * d + k) := by
  induction n generalizing lhs rng with
  | zero => simp [lweRows]
  | succ n ih =>
    rw [lweRows, ih, lweRow_eq, List.range_succ_eq_map, List.map_cons, List.map_map]
    simp only [List.nil_append, List.append_assoc, List.singleton_append, Nat.zero_mul, Nat.add_zero]
    congr 2
    apply List.map_congr_left
    intro j _
    apply List.map_congr_left
    intro k _
    congr 1
    rw [Nat.succ_mul]
    omega

/-- The words of the matrix: row `j` holds the outputs `j * lwe_dim`, `j * lwe_dim + 1`, ... of the generator. -/
theorem generateLwe_eq (prg : Prg) (seed : List U8) (lweDim width : Nat) :
    generateLweMatrixFromSeed prg seed lweDim width =
      (List.range width).map fun j => (List.range lweDim).map fun k => prg seed (j * lweDim + k) := by
  unfold generateLweMatrixFromSeed
  rw [lweRows_eq]
  simp [getSeededRng]

theorem generateLwe_rect (prg : Prg) (seed : List U8) (n h : Nat) :
    Rect (generateLweMatrixFromSeed prg seed n h) h n := by
  rw [generateLwe_eq]
  constructor
  · simp
  · intro r hr
    simp only [List.mem_map] at hr
    obtain ⟨j, _, rfl⟩ := hr
    simp

theorem multRight_ok {rhs : List (List U32)} {s : List U32} (h : ∀ c ∈ rhs, s.length = c.length) :
    multRight rhs s = .ok (rhs.map fun c => dot s c) :=
  mapRes_ok_of_forall fun c hc => vecMult_ok (h c hc)

theorem multRight_eq_ok {rhs : List (List U32)} {s out : List U32} :
    multRight rhs s = .ok out ↔ (∀ c ∈ rhs, s.length = c.length) ∧ out = rhs.map fun c => dot s c := by
  constructor
  · intro h
    have h1 : ∀ c ∈ rhs, s.length = c.length := by
      intro c hc
      have := mapRes_eq_ok.1 h
      have hc' : vecMult s c ∈ rhs.map (fun c => vecMult s c) := List.mem_map.2 ⟨c, hc, rfl⟩
      rw [this] at hc'
      obtain ⟨x, _, hx⟩ := List.mem_map.1 hc'
      exact (vecMult_eq_ok.1 hx.symm).1
    refine ⟨h1, ?_⟩
    rw [multRight_ok h1] at h
    exact (Res.ok.inj h).symm
  · rintro ⟨h1, rfl⟩
    exact multRight_ok h1

end Chalamet
