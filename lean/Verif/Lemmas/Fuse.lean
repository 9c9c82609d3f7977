import Verif.Lemmas.HSet
import Verif.Lemmas.Peels

/-! Peeling and assignment of Fuse filters. -/

namespace Chalamet

theorem reduce_lt (h : U32) {n : Nat} (hn : 0 < n) : reduce h n < n := by
  unfold reduce
  rw [Nat.div_lt_iff_lt_mul (by norm_num)]
  rw [Nat.mul_comm n]
  exact Nat.mul_lt_mul_of_pos_right h.isLt hn

/-- The three slots of a hash are distinct and in range. -/
theorem fuseHset_spec {sl : Nat} (hs : 0 < sl) (h : U64) :
    (fuseHset sl h).Nodup ∧ ∀ i ∈ fuseHset sl h, i < 102 * sl := by
  have h0 := reduce_lt ((rotl64 h 21).setWidth 32) hs
  have h1 := reduce_lt ((rotl64 h 42).setWidth 32) hs
  have h2 := reduce_lt (((0xbf58476d1ce4e5b9#64 * h) >>> 32).setWidth 32) hs
  have hg := reduce_lt (h.setWidth 32) (n := 100) (by norm_num)
  have hm : reduce (h.setWidth 32) 100 * sl ≤ 99 * sl := Nat.mul_le_mul_right _ (by omega)
  unfold fuseHset h012
  simp only [Nat.add_mul, Nat.one_mul]
  constructor
  · simp only [List.nodup_cons, List.mem_cons, List.not_mem_nil, or_false, not_or, List.nodup_nil,
      and_true, not_false_eq_true]
    omega
  · intro i hi
    simp only [List.mem_cons, List.not_mem_nil, or_false] at hi
    omega

/-- `i` is one of the slots of `h`. -/
def fuseOn (sl : Nat) (i : Nat) (h : U64) : Bool := decide (i ∈ fuseHset sl h)

/-- Adding a hash to distinct sets. -/
theorem hAdd_list {prof : Profile} {n : Nat} {h : U64} {l : List Nat} (hnd : l.Nodup)
    (hlt : ∀ i ∈ l, i < n) {C : Nat → Nat} {M : Nat → U64} (hC : ∀ i ∈ l, C i + 1 < 2 ^ 32) :
    foldRes (fun H i => hAdd prof H i h) (HT n C M) l =
      .ok (HT n (fun i => if i ∈ l then C i + 1 else C i) (fun i => if i ∈ l then M i ^^^ h else M i)) := by
  induction l generalizing C M with
  | nil => simp
  | cons a l ih =>
    obtain ⟨ha, hnd⟩ := List.nodup_cons.1 hnd
    rw [foldRes_cons, hAdd_HT (hlt a (by simp)) (hC a (by simp)), Res.bind_ok,
      ih hnd (fun i hi => hlt i (by simp [hi])) (by
        intro i hi
        rw [Function.update_of_ne (by rintro rfl; exact ha hi)]
        exact hC i (by simp [hi]))]
    congr 1
    apply HT_congr
    intro i _
    by_cases e : i = a
    · subst e; simp [ha]
    · simp [e]

theorem oxor_append_one (p : U64 → Bool) (R : List U64) (h : U64) :
    oxor p (R ++ [h]) = if p h then oxor p R ^^^ h else oxor p R := by
  rw [oxor_perm (R' := h :: R) List.perm_append_comm, oxor_cons, BitVec.xor_comm]
  split <;> simp

/-- The populated array. -/
theorem fusePopulate {prof : Profile} {sl : Nat} (hs : 0 < sl) {hashes : List U64}
    (hl : hashes.length < 2 ^ 32) :
    foldRes (fuseAddKey prof sl) (List.replicate (102 * sl) HSet.zero) hashes =
      .ok (HT (102 * sl) (fun i => hashes.countP (fuseOn sl i)) (fun i => oxor (fuseOn sl i) hashes)) := by
  obtain ⟨H, h1, h2⟩ := foldRes_inv (f := fuseAddKey prof sl)
    (s := List.replicate (102 * sl) HSet.zero) (l := hashes)
    (fun done H => H = HT (102 * sl) (fun i => done.countP (fuseOn sl i))
      (fun i => oxor (fuseOn sl i) done))
    (by rw [← HT_zero]; rfl)
    (by
      rintro done a rest H hd rfl
      have hlen : done.length + (rest.length + 1) = hashes.length := by
        have := congrArg List.length hd
        simpa using this
      obtain ⟨hnd, hlt⟩ := fuseHset_spec hs a
      refine ⟨_, hAdd_list hnd hlt ?_, ?_⟩
      · intro i _
        have := List.countP_le_length (p := fuseOn sl i) (l := done)
        omega
      · apply HT_congr
        intro i _
        rw [oxor_append_one, List.countP_append, List.countP_singleton]
        by_cases e : i ∈ fuseHset sl a
        · simp [fuseOn, e]
        · simp [fuseOn, e])
  rw [h1, h2]

/-- Invariant of the peeling loop: `R` are the hashes not yet peeled, `P` the popped slots. -/
structure FInv (sl : Nat) (L : List U64) (s : FState) (R : List U64) (P : List Nat) : Prop where
  H : s.H = HT (102 * sl) (fun i => R.countP (fuseOn sl i)) (fun i => oxor (fuseOn sl i) R)
  q : QInv (102 * sl) (fun i => R.countP (fuseOn sl i)) (fun i => oxor (fuseOn sl i) R) P s.q
  perm : (s.stk.map KeyIndex.hash ++ R).Perm L
  ord : PeelOrder (fuseOn sl) s.stk
  lt : ∀ e ∈ s.stk, e.index < 102 * sl
  dead : ∀ e ∈ s.stk, R.countP (fuseOn sl e.index) = 0
  all : QAll (102 * sl) (fun i => R.countP (fuseOn sl i)) P s.q
  pop0 : ∀ i ∈ P, R.countP (fuseOn sl i) = 0

theorem fuseRemove_list {prof : Profile} {n : Nat} {h : U64} {l : List Nat} {P : List Nat}
    (hnd : l.Nodup) (hlt : ∀ i ∈ l, i < n) {s : FState} {C : Nat → Nat} {M : Nat → U64}
    (hH : s.H = HT n C M) (hq : QInv n C M P s.q) (hC : ∀ i ∈ l, 1 ≤ C i ∧ C i < 2 ^ 32) :
    ∃ q', foldRes (fuseRemoveAt prof n h) s l = .ok { s with
        H := HT n (fun i => if i ∈ l then C i - 1 else C i) (fun i => if i ∈ l then M i ^^^ h else M i)
        q := q' } ∧
      QInv n (fun i => if i ∈ l then C i - 1 else C i) (fun i => if i ∈ l then M i ^^^ h else M i) P q' ∧
      (QAll n C P s.q → QAll n (fun i => if i ∈ l then C i - 1 else C i) P q') := by
  induction l generalizing s C M with
  | nil => refine ⟨s.q, ?_, by simpa using hq, by simp⟩; simp [← hH]
  | cons a l ih =>
    obtain ⟨ha, hnd⟩ := List.nodup_cons.1 hnd
    obtain ⟨q1, e1, e2, e3, e4⟩ := hq.remove (prof := prof) (cap := n) (h := h) le_rfl (hlt a (by simp))
      (hC a (by simp)).1 (hC a (by simp)).2
    obtain ⟨q', f1, f2, f3⟩ := ih hnd (fun i hi => hlt i (by simp [hi]))
      (s := { s with H := HT n (Function.update C a (C a - 1)) (Function.update M a (M a ^^^ h)), q := q1 })
      rfl e3 (by
        intro i hi
        rw [Function.update_of_ne (by rintro rfl; exact ha hi)]
        exact hC i (by simp [hi]))
    have hfun : ∀ i < n, (if i ∈ l then Function.update C a (C a - 1) i - 1 else
          Function.update C a (C a - 1) i) = (if i ∈ a :: l then C i - 1 else C i) ∧
        (if i ∈ l then Function.update M a (M a ^^^ h) i ^^^ h else
          Function.update M a (M a ^^^ h) i) = (if i ∈ a :: l then M i ^^^ h else M i) := by
      intro i _
      by_cases e : i = a
      · subst e; simp [ha]
      · simp [e]
    refine ⟨q', ?_, f2.congr hfun, fun ha => (f3 (e4 ha)).congr fun i hi => (hfun i hi).1⟩
    rw [foldRes_cons]
    unfold fuseRemoveAt at f1 ⊢
    rw [hH, e1, Res.bind_ok, e2, Res.bind_ok, Res.bind_ok, f1]
    simp only
    rw [HT_congr hfun]

/-- One iteration of the peeling loop. -/
theorem fusePeelStep_inv {prof : Profile} {sl : Nat} (hs : 0 < sl) {L : List U64}
    (hL : L.length < 2 ^ 32) {s : FState} {R : List U64} {P : List Nat} {ki : KeyIndex}
    {q : List KeyIndex} (h : FInv sl L s R P) (hq : s.q = ki :: q) :
    ∃ s' R', fusePeelStep prof sl (102 * sl) L.length { s with q := q } ki = .ok s' ∧
      FInv sl L s' R' (ki.index :: P) := by
  have hQ := h.q
  rw [hq] at hQ
  have hlt := hQ.lt ki.index (by simp)
  have hlen := h.perm.length_eq
  rw [List.length_append, List.length_map] at hlen
  have hcl : ∀ i, R.countP (fuseOn sl i) < 2 ^ 32 := by
    intro i
    have := List.countP_le_length (p := fuseOn sl i) (l := R)
    omega
  have hrd : rd s.H ki.index = .ok ⟨BitVec.ofNat 32 (R.countP (fuseOn sl ki.index)),
      oxor (fuseOn sl ki.index) R⟩ := by rw [h.H, HT, rd_tab _ hlt.1]
  unfold fusePeelStep
  simp only [hrd, Res.bind_ok]
  by_cases hc : R.countP (fuseOn sl ki.index) = 0
  · rw [if_pos (by rw [hc])]
    have hA := h.all
    rw [hq] at hA
    refine ⟨_, R, rfl, h.H, hQ.pop, h.perm, h.ord, h.lt, h.dead, hA.pop, ?_⟩
    intro i hi
    rcases List.mem_cons.1 hi with rfl | hi
    · exact hc
    · exact h.pop0 i hi
  · rw [if_neg (by
      rw [show (0#32) = BitVec.ofNat 32 0 from rfl, ofNat32_eq_iff (hcl _) (by norm_num)]
      exact hc)]
    have h1 : R.countP (fuseOn sl ki.index) = 1 := by have := hlt.2; omega
    obtain ⟨R', hperm, hon, h0⟩ := countP_one h1
    have hh : ki.hash = oxor (fuseOn sl ki.index) R := hQ.hash ki (by simp) h1
    rw [← hh] at hperm hon
    have hRl := hperm.length_eq
    rw [List.length_cons] at hRl
    rw [if_neg (by omega)]
    obtain ⟨hnd, hsl⟩ := fuseHset_spec hs ki.hash
    obtain ⟨q', f1, f2, f3⟩ := fuseRemove_list (prof := prof) (h := ki.hash) hnd hsl
      (s := { s with q := q, stk := ki :: s.stk }) h.H hQ.pop (by
        intro i hi
        refine ⟨?_, hcl i⟩
        rw [hperm.countP_eq, List.countP_cons]
        simp [fuseOn, hi])
    have hfun : ∀ i < 102 * sl, (if i ∈ fuseHset sl ki.hash then R.countP (fuseOn sl i) - 1 else
          R.countP (fuseOn sl i)) = R'.countP (fuseOn sl i) ∧
        (if i ∈ fuseHset sl ki.hash then oxor (fuseOn sl i) R ^^^ ki.hash else oxor (fuseOn sl i) R) =
          oxor (fuseOn sl i) R' := by
      intro i _
      rw [hperm.countP_eq, List.countP_cons, oxor_perm hperm, oxor_cons]
      by_cases e : i ∈ fuseHset sl ki.hash
      · simp only [fuseOn, e, decide_true, if_true]
        refine ⟨by omega, ?_⟩
        rw [BitVec.xor_comm, ← BitVec.xor_assoc, BitVec.xor_self, BitVec.zero_xor]
      · simp [fuseOn, e]
    rw [HT_congr hfun] at f1
    have hA := h.all
    rw [hq] at hA
    refine ⟨_, R', f1, ⟨rfl, f2.congr hfun, ?_, ⟨?_, ?_⟩, ?_, ?_,
      (f3 hA.pop).congr fun i hi => (hfun i hi).1, ?_⟩⟩
    · refine List.Perm.trans ?_ h.perm
      rw [List.map_cons, List.cons_append]
      exact List.perm_middle.symm.trans (List.Perm.append_left _ hperm.symm)
    · intro e he
      rcases List.mem_cons.1 he with rfl | he
      · exact hon
      · exact h.ord.1 e he
    · refine List.pairwise_cons.2 ⟨?_, h.ord.2⟩
      intro e he
      have hd := h.dead e he
      rw [List.countP_eq_zero] at hd
      have := hd ki.hash (hperm.mem_iff.2 (by simp))
      simpa using this
    · intro e he
      rcases List.mem_cons.1 he with rfl | he
      · exact hlt.1
      · exact h.lt e he
    · intro e he
      rcases List.mem_cons.1 he with rfl | he
      · exact h0
      · have := h.dead e he
        rw [hperm.countP_eq, List.countP_cons] at this
        omega
    · intro i hi
      rcases List.mem_cons.1 hi with rfl | hi
      · exact h0
      · have := h.pop0 i hi
        rw [hperm.countP_eq, List.countP_cons] at this
        omega

theorem fusePeelLoop_ok {prof : Profile} {sl : Nat} (hs : 0 < sl) {L : List U64}
    (hL : L.length < 2 ^ 32) (fuel : Nat) {s : FState} {R : List U64} {P : List Nat}
    (h : FInv sl L s R P) (hf : 102 * sl ≤ fuel + P.length) :
    ∃ s' R' P', fusePeelLoop prof sl (102 * sl) L.length fuel s = .ok s' ∧ FInv sl L s' R' P' ∧
      s'.q = [] := by
  induction fuel generalizing s R P with
  | zero =>
    have := h.q.length
    have hq : s.q = [] := List.length_eq_zero_iff.1 (by omega)
    exact ⟨s, R, P, by rw [fusePeelLoop, if_pos hq], h, hq⟩
  | succ fuel ih =>
    unfold fusePeelLoop
    cases hq : s.q with
    | nil => exact ⟨s, R, P, rfl, h, hq⟩
    | cons ki q =>
      obtain ⟨s', R', h1, h2⟩ := fusePeelStep_inv (prof := prof) hs hL h hq
      simp only [h1, Res.bind_ok]
      exact ih h2 (by simp; omega)

/-- One attempt always ends; success means a complete peeling order, and a repeated hash is never
peeled. -/
theorem fuseAttempt_ok {prof : Profile} {sl : Nat} (hs : 0 < sl) {L : List U64}
    (hL : L.length < 2 ^ 32) :
    ∃ r, fuseAttempt prof sl (102 * sl) L = .ok r ∧ (∀ stk, r = some stk →
      (stk.map KeyIndex.hash).Perm L ∧ PeelOrder (fuseOn sl) stk ∧ ∀ e ∈ stk, e.index < 102 * sl) ∧
      (L.Nodup → Spec.CanPeel (fun h i => fuseOn sl i h = true) L → ∃ stk, r = some stk) := by
  have hcl : ∀ i < 102 * sl, L.countP (fuseOn sl i) < 2 ^ 32 := by
    intro i _
    have := List.countP_le_length (p := fuseOn sl i) (l := L)
    omega
  obtain ⟨q, hq1, hq2, hq3⟩ := QInv.scan (n := 102 * sl) (cap := 102 * sl)
    (C := fun i => L.countP (fuseOn sl i)) (M := fun i => oxor (fuseOn sl i) L) le_rfl hcl
  have hi : FInv sl L ⟨HT (102 * sl) (fun i => L.countP (fuseOn sl i))
      (fun i => oxor (fuseOn sl i) L), q, []⟩ L [] :=
    ⟨rfl, hq2, by simp, ⟨by simp, List.Pairwise.nil⟩, by simp, by simp, hq3, by simp⟩
  obtain ⟨s', R', P', h1, h2, hq0⟩ := fusePeelLoop_ok (prof := prof) hs hL (102 * sl + 3 * L.length) hi (by simp)
  unfold fuseAttempt
  rw [fusePopulate hs hL, Res.bind_ok, hq1, Res.bind_ok, h1, Res.bind_ok]
  by_cases hfin : s'.stk.length = L.length
  · rw [if_pos hfin]
    refine ⟨_, rfl, ?_, fun _ _ => ⟨_, rfl⟩⟩
    intro stk hstk
    cases hstk
    have hlen := h2.perm.length_eq
    rw [List.length_append, List.length_map] at hlen
    have hR : R' = [] := List.length_eq_zero_iff.1 (by omega)
    have := h2.perm
    rw [hR, List.append_nil] at this
    exact ⟨this, h2.ord, h2.lt⟩
  · rw [if_neg hfin]
    refine ⟨_, rfl, by simp, ?_⟩
    intro hnd hpeel
    exfalso
    have hlen := h2.perm.length_eq
    rw [List.length_append, List.length_map] at hlen
    have hne : R' ≠ [] := by
      rintro rfl
      simp at hlen
      exact hfin hlen
    have hRnd : R'.Nodup := (List.nodup_append.1 (h2.perm.nodup_iff.2 hnd)).2.1
    obtain ⟨h, i, hh, hon, hu⟩ := hpeel.exists_free hne (fun x hx =>
      h2.perm.mem_iff.1 (List.mem_append_right _ hx))
    have hc := countP_unique hRnd hh hon hu
    have hi : i < 102 * sl := (fuseHset_spec hs h).2 i (by simpa [fuseOn] using hon)
    have hm := h2.all i hi hc
    rw [hq0] at hm
    have := h2.pop0 i (by simpa using hm)
    omega

/-- A peeled stack, read from the first peeled entry, is a peeling order of its hashes. -/
theorem PeelOrder.canPeel {on : Nat → U64 → Bool} {stk : List KeyIndex} (h : PeelOrder on stk) :
    Spec.CanPeel (fun h i => on i h = true) (stk.map KeyIndex.hash) := by
  refine ⟨stk.reverse.map KeyIndex.hash, (List.reverse_perm _).map _, ?_⟩
  refine Spec.Peels.of_pivots (p := KeyIndex.index) (fun e he => h.1 e (List.mem_reverse.1 he)) ?_
  rw [List.pairwise_reverse]
  refine h.2.imp ?_
  intro a b hab
  rw [hab]
  simp

/-- A complete peeling order has no repeated hash. -/
theorem PeelOrder.nodup {on : Nat → U64 → Bool} {stk : List KeyIndex} (h : PeelOrder on stk) :
    (stk.map KeyIndex.hash).Nodup := by
  rw [List.Nodup, List.pairwise_map]
  refine List.Pairwise.imp_of_mem (fun {a b} ha hb hab e => ?_) h.2
  rw [e, h.1 b hb] at hab
  cases hab

/-- The equation of `h` in a Fuse filter. -/
def SatF {w : Nat} (sl : Nat) (f : Nat → BitVec w) (h : U64) : Prop :=
  (fingerprint h).setWidth w =
    f (h012 h sl).1 ^^^ f (h012 h sl).2.1 ^^^ f (h012 h sl).2.2

theorem getD_set_self {α : Type} {l : List α} {i : Nat} {v d : α} (h : i < l.length) :
    (l.set i v).getD i d = v := by
  simp [List.getD_eq_getElem?_getD, h]

theorem getD_set_ne {α : Type} {l : List α} {i j : Nat} {v d : α} (h : i ≠ j) :
    (l.set i v).getD j d = l.getD j d := by
  simp [List.getD_eq_getElem?_getD, List.getElem?_set_ne h]

theorem fuseAssign_ok {w : Nat} {sl : Nat} (hs : 0 < sl) {stk : List KeyIndex}
    (hpl : PeelOrder (fuseOn sl) stk) (fp0 : List (BitVec w)) (hl : fp0.length = 102 * sl) :
    ∃ fp, foldRes (fuseAssignStep sl) fp0 stk = .ok fp ∧ fp.length = 102 * sl ∧
      ∀ e ∈ stk, SatF sl (fun i => fp.getD i 0#w) e.hash := by
  obtain ⟨fp, h1, h2, _, h3⟩ := assign_order (on := fuseOn sl) (n := 102 * sl) (0#w)
    (fuseAssignStep sl) (SatF sl)
    (by
      intro f f' h he hsat
      unfold SatF at hsat ⊢
      rw [← he _ (by simp [fuseOn, fuseHset]), ← he _ (by simp [fuseOn, fuseHset]),
        ← he _ (by simp [fuseOn, fuseHset])]
      exact hsat) (fun i => fp0.getD i 0#w) hpl
    (by
      intro fp e he hlen _
      obtain ⟨hnd, hlt⟩ := fuseHset_spec hs e.hash
      have hon := hpl.1 e he
      unfold fuseOn at hon
      rw [decide_eq_true_iff] at hon
      have hi : e.index < fp.length := by rw [hlen]; exact hlt _ hon
      unfold fuseHset at hnd hlt hon
      simp only [List.nodup_cons, List.mem_cons, List.not_mem_nil, or_false, not_or] at hnd hon
      have l0 : (h012 e.hash sl).1 < fp.length := by rw [hlen]; exact hlt _ (by simp)
      have l1 : (h012 e.hash sl).2.1 < fp.length := by rw [hlen]; exact hlt _ (by simp)
      have l2 : (h012 e.hash sl).2.2 < fp.length := by rw [hlen]; exact hlt _ (by simp)
      obtain ⟨⟨n01, n02⟩, n12, _⟩ := hnd
      unfold fuseAssignStep SatF
      simp only [rd_ok l0, rd_ok l1, rd_ok l2, Res.bind_ok]
      rcases hon with e0 | e1 | e2
      · rw [if_pos e0, wr_ok hi]
        refine ⟨_, rfl, ?_⟩
        rw [e0, getD_set_self l0, getD_set_ne n01, getD_set_ne n02, getD_lt l1, getD_lt l2]
        rw [BitVec.xor_assoc, BitVec.xor_assoc, BitVec.xor_self, BitVec.xor_zero]
      · rw [if_neg (by rw [e1]; exact Ne.symm n01), if_pos e1, wr_ok hi]
        refine ⟨_, rfl, ?_⟩
        rw [e1, getD_set_self l1, getD_set_ne (Ne.symm n01), getD_set_ne n12, getD_lt l0, getD_lt l2]
        generalize fp[(h012 e.hash sl).1] = a
        generalize fp[(h012 e.hash sl).2.2] = b
        generalize (fingerprint e.hash).setWidth w = c
        ext k hk
        simp only [BitVec.getElem_xor]
        cases a[k] <;> cases b[k] <;> cases c[k] <;> rfl
      · rw [if_neg (by rw [e2]; exact Ne.symm n02), if_neg (by rw [e2]; exact Ne.symm n12), if_pos e2,
          wr_ok hi]
        refine ⟨_, rfl, ?_⟩
        rw [e2, getD_set_self l2, getD_set_ne (Ne.symm n02), getD_set_ne (Ne.symm n12), getD_lt l0,
          getD_lt l1]
        generalize fp[(h012 e.hash sl).1] = a
        generalize fp[(h012 e.hash sl).2.1] = b
        generalize (fingerprint e.hash).setWidth w = c
        ext k hk
        simp only [BitVec.getElem_xor]
        cases a[k] <;> cases b[k] <;> cases c[k] <;> rfl) fp0 hl (fun _ _ => rfl)
  exact ⟨fp, h1, h2, h3⟩

end Chalamet
