import Verif.Lemmas.Fuse
import Verif.Props.BFuse
import Mathlib.Algebra.BigOperators.Ring.Finset
import Mathlib.Data.Fintype.BigOperators
import Mathlib.Data.Fintype.Fin

/-! How the final cells depend on the initial contents of the fingerprint array (helper lemmas). -/

namespace Chalamet
open Finset

/-! ## Counting -/

theorem card_coord {N m : Nat} (P : Fin N → Prop) [DecidablePred P] (i : Fin m) :
    (univ.filter fun q : Fin m → Fin N => P (q i)).card * N = (univ.filter P).card * N ^ m := by
  have hset : (univ.filter fun q : Fin m → Fin N => P (q i)) =
      Fintype.piFinset fun k => if k = i then univ.filter P else univ := by
    ext q
    simp only [mem_filter, mem_univ, true_and, Fintype.mem_piFinset]
    constructor
    · rintro h1 k
      split
      · rename_i e; subst e; simpa using h1
      · simp
    · intro h
      have h1 := h i
      simpa using h1
  rw [hset, Fintype.card_piFinset]
  have e1 : N = (∏ k : Fin m, if k = i then N else 1) := by
    rw [prod_ite_eq' univ i]; simp
  have e2 : (univ.filter P).card * N ^ m =
      (∏ k : Fin m, if k = i then (univ.filter P).card else 1) * ∏ k : Fin m, N := by
    rw [prod_ite_eq' univ i]; simp
  rw [e2]
  refine (congrArg (_ * ·) e1).trans ?_
  rw [← prod_mul_distrib, ← prod_mul_distrib]
  apply prod_congr rfl
  intro k _
  by_cases h1 : k = i
  · subst h1; simp
  · simp [h1]

/-- A function that determines coordinate `i` given the others is equidistributed. -/
theorem card_solve {N m : Nat} (P : Fin N → Prop) [DecidablePred P] (i : Fin m)
    (φ : (Fin m → Fin N) → Fin N)
    (h : ∀ x y, (∀ k, k ≠ i → x k = y k) → φ x = φ y → x i = y i) :
    (univ.filter fun q : Fin m → Fin N => P (φ q)).card * N = (univ.filter P).card * N ^ m := by
  have hinj : Function.Injective fun x : Fin m → Fin N => Function.update x i (φ x) := by
    intro x y e
    have h1 : ∀ k, k ≠ i → x k = y k := by
      intro k hk
      have := congrFun e k
      simpa [Function.update_of_ne hk] using this
    have h2 : φ x = φ y := by
      have := congrFun e i
      simpa using this
    funext k
    by_cases hk : k = i
    · subst hk; exact h x y h1 h2
    · exact h1 k hk
  have hsurj := (Finite.injective_iff_bijective.1 hinj).2
  rw [← card_coord P i, ← card_image_of_injective _ hinj]
  congr 2
  ext q
  simp only [mem_image, mem_filter, mem_univ, true_and]
  constructor
  · rintro ⟨x, hx, rfl⟩
    simpa using hx
  · intro hq
    obtain ⟨x, rfl⟩ := hsurj q
    exact ⟨x, by simpa using hq, rfl⟩

/-! ## Xor forms -/

/-- The xor of the cells selected by `c`, among the first `n`. -/
def xsum {w : Nat} (c : Nat → Bool) (f : Nat → BitVec w) : Nat → BitVec w
  | 0 => 0#w
  | n + 1 => xsum c f n ^^^ (if c n then f n else 0#w)

theorem xsum_xor {w : Nat} (c d : Nat → Bool) (f : Nat → BitVec w) (n : Nat) :
    xsum (fun i => c i ^^ d i) f n = xsum c f n ^^^ xsum d f n := by
  induction n with
  | zero => simp [xsum]
  | succ n ih =>
    simp only [xsum, ih]
    have hx : ∀ (p q : Bool) (a b x : BitVec w), a ^^^ b ^^^ (if (p ^^ q) = true then x else 0#w) =
        a ^^^ (if p = true then x else 0#w) ^^^ (b ^^^ (if q = true then x else 0#w)) := by
      intro p q a b x
      ext k hk
      cases p <;> cases q <;> simp <;> cases a[k] <;> cases b[k] <;> cases x[k] <;> rfl
    exact hx _ _ _ _ _

theorem xsum_unit {w : Nat} (i : Nat) (f : Nat → BitVec w) (n : Nat) :
    xsum (fun k => k == i) f n = if i < n then f i else 0#w := by
  induction n with
  | zero => simp [xsum]
  | succ n ih =>
    rw [xsum, ih]
    by_cases h : n = i
    · subst h; simp
    · have e : (if (n == i) = true then f n else 0#w) = 0#w := by simp [h]
      rw [e, BitVec.xor_zero]
      by_cases h2 : i < n
      · rw [if_pos h2, if_pos (show i < n + 1 by omega)]
      · rw [if_neg h2, if_neg (show ¬ i < n + 1 by omega)]

theorem xsum_zero {w : Nat} (c : Nat → Bool) (f : Nat → BitVec w) (n : Nat) (h : ∀ i < n, c i = false) :
    xsum c f n = 0#w := by
  induction n with
  | zero => rfl
  | succ n ih =>
    rw [xsum, ih fun i hi => h i (by omega), h n (by omega)]
    simp

theorem xsum_change {w : Nat} (c : Nat → Bool) (f f' : Nat → BitVec w) (i n : Nat) (hi : i < n)
    (h : ∀ k < n, k ≠ i → f k = f' k) :
    xsum c f n ^^^ xsum c f' n = if c i then f i ^^^ f' i else 0#w := by
  induction n with
  | zero => omega
  | succ n ih =>
    simp only [xsum]
    by_cases e : n = i
    · subst e
      have : ∀ j ≤ n, xsum c f j = xsum c f' j := by
        intro j hj
        induction j with
        | zero => rfl
        | succ j ihj => rw [xsum, xsum, ihj (by omega), h j (by omega) (by omega)]
      rw [this n le_rfl]
      have hx : ∀ a x y : BitVec w, a ^^^ x ^^^ (a ^^^ y) = x ^^^ y := by
        intro a x y
        ext k hk
        simp only [BitVec.getElem_xor]
        cases a[k] <;> cases x[k] <;> cases y[k] <;> rfl
      rw [hx]
      cases c n <;> simp
    · have h1 := ih (by omega) fun k hk hne => h k (by omega) hne
      rw [h n (by omega) e, ← h1]
      have hx : ∀ a b x : BitVec w, a ^^^ x ^^^ (b ^^^ x) = a ^^^ b := by
        intro a b x
        ext k hk
        simp only [BitVec.getElem_xor]
        cases a[k] <;> cases b[k] <;> cases x[k] <;> rfl
      exact hx _ _ _

/-! ## Programs `cell c := k ^ cell a ^ cell b` -/

/-- One assignment: target, two sources, constant. -/
structure XInstr (w : Nat) where
  c : Nat
  a : Nat
  b : Nat
  k : BitVec w

/-- Effect of one assignment. -/
def XInstr.exec {w : Nat} (f : Nat → BitVec w) (i : XInstr w) : Nat → BitVec w :=
  fun s => if s = i.c then i.k ^^^ f i.a ^^^ f i.b else f s

/-- All assignments in order. -/
def xrun {w : Nat} (prog : List (XInstr w)) (f : Nat → BitVec w) : Nat → BitVec w :=
  prog.foldl XInstr.exec f

/-- Every cell after the run is a constant xor some of the initial cells. -/
theorem xrun_form {w n : Nat} (prog : List (XInstr w)) (hp : ∀ i ∈ prog, i.a < n ∧ i.b < n)
    (F : (Nat → BitVec w) → Nat → BitVec w)
    (hF : ∀ s < n, ∃ k c, ∀ f, F f s = k ^^^ xsum c f n) :
    ∀ s < n, ∃ k c, ∀ f, xrun prog (F f) s = k ^^^ xsum c f n := by
  induction prog generalizing F with
  | nil => exact hF
  | cons i prog ih =>
    intro s hs
    have := ih (fun j hj => hp j (by simp [hj])) (fun f => i.exec (F f)) (by
      intro s hs
      obtain ⟨ha, hb⟩ := hp i (by simp)
      by_cases e : s = i.c
      · obtain ⟨ka, ca, ea⟩ := hF _ ha
        obtain ⟨kb, cb, eb⟩ := hF _ hb
        refine ⟨i.k ^^^ ka ^^^ kb, fun j => ca j ^^ cb j, fun f => ?_⟩
        simp only [XInstr.exec, if_pos e, ea, eb, xsum_xor]
        ac_rfl
      · obtain ⟨k, c, e'⟩ := hF s hs
        exact ⟨k, c, fun f => by simp only [XInstr.exec, if_neg e, e']⟩) s hs
    exact this

theorem xrun_form_id {w n : Nat} (prog : List (XInstr w)) (hp : ∀ i ∈ prog, i.a < n ∧ i.b < n) :
    ∀ s < n, ∃ k c, ∀ f, xrun prog f s = k ^^^ xsum c f n := by
  apply xrun_form prog hp fun f => f
  intro s hs
  exact ⟨0#w, fun k => k == s, fun f => by rw [xsum_unit, if_pos hs]; simp⟩

/-- A cell no instruction mentions keeps its content, and does not influence the other cells. -/
theorem xrun_untouched {w : Nat} (prog : List (XInstr w)) (s : Nat)
    (hp : ∀ i ∈ prog, i.a ≠ s ∧ i.b ≠ s ∧ i.c ≠ s) (f f' : Nat → BitVec w)
    (h : ∀ k, k ≠ s → f k = f' k) :
    xrun prog f s = f s ∧ ∀ k, k ≠ s → xrun prog f k = xrun prog f' k := by
  induction prog generalizing f f' with
  | nil => exact ⟨rfl, h⟩
  | cons i prog ih =>
    obtain ⟨ha, hb, hc⟩ := hp i (by simp)
    obtain ⟨h1, h2⟩ := ih (fun j hj => hp j (by simp [hj])) (i.exec f) (i.exec f') (by
      intro k hk
      unfold XInstr.exec
      split
      · rw [h _ ha, h _ hb]
      · exact h k hk)
    refine ⟨?_, h2⟩
    show xrun prog (i.exec f) s = f s
    rw [h1]
    simp [XInstr.exec, Ne.symm hc]

/-! ## The assignment loops are such programs -/

theorem getD_set_fun {α : Type} {l : List α} {c : Nat} {v d : α} (hc : c < l.length) (s : Nat) :
    (l.set c v).getD s d = if s = c then v else l.getD s d := by
  by_cases e : s = c
  · subst e; rw [if_pos rfl, getD_set_self hc]
  · rw [if_neg e, getD_set_ne (fun h => e h.symm)]

/-- A fold whose steps are assignments. -/
theorem fold_xrun {w n : Nat} {E : Type} (step : List (BitVec w) → E → Res (List (BitVec w)))
    (instr : E → XInstr w) (l : List E)
    (hs : ∀ e ∈ l, (instr e).c < n ∧ ∀ B : List (BitVec w), B.length = n →
      step B e = .ok (B.set (instr e).c ((instr e).k ^^^ B.getD (instr e).a 0#w ^^^
        B.getD (instr e).b 0#w))) (B : List (BitVec w)) (hB : B.length = n) :
    ∃ B', foldRes step B l = .ok B' ∧ B'.length = n ∧
      ∀ s, B'.getD s 0#w = xrun (l.map instr) (fun s => B.getD s 0#w) s := by
  induction l generalizing B with
  | nil => exact ⟨B, rfl, hB, fun s => rfl⟩
  | cons e l ih =>
    obtain ⟨hc, h1⟩ := hs e (by simp)
    obtain ⟨B', h2, h3, h4⟩ := ih (fun e he => hs e (by simp [he])) (B.set (instr e).c
      ((instr e).k ^^^ B.getD (instr e).a 0#w ^^^ B.getD (instr e).b 0#w)) (by simpa using hB)
    refine ⟨B', by rw [foldRes_cons, h1 B hB, Res.bind_ok, h2], h3, fun s => ?_⟩
    rw [h4]
    show _ = xrun (l.map instr) ((instr e).exec fun s => B.getD s 0#w) s
    congr 1
    funext s
    rw [getD_set_fun (by rw [hB]; exact hc)]
    rfl

/-- The assignment of one stack entry of a binary fuse filter. -/
def instrX (w : Nat) (g : Geom) (e : U64 × Nat) : XInstr w :=
  { c := slotN g e.1 e.2, a := slotN g e.1 (otherSlots e.2).1, b := slotN g e.1 (otherSlots e.2).2,
    k := (fingerprint e.1).setWidth w }

theorem assignX_run {w : Nat} {g : Geom} {n : Nat} {hashes : List U64} {stk : List (U64 × Nat)}
    (ho : ∀ h, SlotsOk g n h) (hs : Solved g hashes stk) (B : List (BitVec w)) (hB : B.length = n) :
    ∃ B', foldRes (assignStepX g) B stk = .ok B' ∧ B'.length = n ∧
      ∀ s, B'.getD s 0#w = xrun (stk.map (instrX w g)) (fun s => B.getD s 0#w) s := by
  apply fold_xrun _ _ _ _ B hB
  rintro ⟨h, f⟩ he
  exact ⟨slot_lt (ho h) _, fun B hB => assignStepX_eq (ho h) (hs.peel.1 _ he) hB⟩

/-- The assignment of one stack entry of a fuse filter. -/
def instrF (w : Nat) (sl : Nat) (e : KeyIndex) : XInstr w :=
  let (h0, h1, h2) := h012 e.hash sl
  { c := e.index, a := if e.index = h0 then h1 else h0, b := if e.index = h2 then h1 else h2,
    k := (fingerprint e.hash).setWidth w }

theorem fuseAssign_run {w : Nat} {sl : Nat} (hs : 0 < sl) {stk : List KeyIndex}
    (hpl : PeelOrder (fuseOn sl) stk) (B : List (BitVec w)) (hB : B.length = 102 * sl) :
    ∃ B', foldRes (fuseAssignStep sl) B stk = .ok B' ∧ B'.length = 102 * sl ∧
      ∀ s, B'.getD s 0#w = xrun (stk.map (instrF w sl)) (fun s => B.getD s 0#w) s := by
  apply fold_xrun _ _ _ _ B hB
  intro e he
  obtain ⟨hnd, hlt⟩ := fuseHset_spec hs e.hash
  have hon := hpl.1 e he
  unfold fuseOn at hon
  rw [decide_eq_true_iff] at hon
  refine ⟨hlt _ hon, fun B hB => ?_⟩
  have hi : e.index < B.length := by rw [hB]; exact hlt _ hon
  unfold fuseHset at hnd hlt hon
  simp only [List.nodup_cons, List.mem_cons, List.not_mem_nil, or_false, not_or] at hnd hon
  have l0 : (h012 e.hash sl).1 < B.length := by rw [hB]; exact hlt _ (by simp)
  have l1 : (h012 e.hash sl).2.1 < B.length := by rw [hB]; exact hlt _ (by simp)
  have l2 : (h012 e.hash sl).2.2 < B.length := by rw [hB]; exact hlt _ (by simp)
  obtain ⟨⟨n01, n02⟩, n12, _⟩ := hnd
  unfold fuseAssignStep instrF
  simp only [rd_ok l0, rd_ok l1, rd_ok l2, Res.bind_ok]
  rcases hon with e0 | e1 | e2
  · rw [if_pos e0, if_pos e0, if_neg (by rw [e0]; exact n02), getD_lt l1, getD_lt l2, wr_ok hi,
      BitVec.xor_assoc]
  · rw [if_neg (by rw [e1]; exact Ne.symm n01), if_pos e1, if_neg (by rw [e1]; exact Ne.symm n01),
      if_neg (by rw [e1]; exact n12), getD_lt l0, getD_lt l2, wr_ok hi, BitVec.xor_assoc]
  · rw [if_neg (by rw [e2]; exact Ne.symm n02), if_neg (by rw [e2]; exact Ne.symm n12), if_pos e2,
      if_neg (by rw [e2]; exact Ne.symm n02), if_pos e2, getD_lt l0, getD_lt l1, wr_ok hi,
      BitVec.xor_assoc]

end Chalamet
