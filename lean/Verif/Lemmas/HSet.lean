import Verif.Model.Fuse
import Verif.Lemmas.Count

/-! Common lemmas about the peeling of Xor and Fuse filters. -/

namespace Chalamet

/-- Xor of the hashes satisfying a predicate. -/
def oxor (p : U64 → Bool) (R : List U64) : U64 := R.foldr (fun h a => (if p h then h else 0#64) ^^^ a) 0#64

theorem oxor_cons (p : U64 → Bool) (h : U64) (R : List U64) :
    oxor p (h :: R) = (if p h then h else 0#64) ^^^ oxor p R := rfl

theorem oxor_perm {p : U64 → Bool} {R R' : List U64} (h : R.Perm R') : oxor p R = oxor p R' := by
  induction h with
  | nil => rfl
  | cons x _ ih => rw [oxor_cons, oxor_cons, ih]
  | swap x y l =>
    simp only [oxor_cons, ← BitVec.xor_assoc]
    rw [BitVec.xor_comm (if p y = true then y else 0#64)]
  | trans _ _ ih1 ih2 => rw [ih1, ih2]

theorem oxor_zero {p : U64 → Bool} {R : List U64} (h : R.countP p = 0) : oxor p R = 0#64 := by
  induction R with
  | nil => rfl
  | cons a R ih =>
    rw [List.countP_cons] at h
    have hp : p a = false := by
      cases e : p a
      · rfl
      · simp [e] at h
    rw [oxor_cons, hp, ih (by omega)]
    simp

/-- A set holding one hash: the mask is that hash, and it can be split off. -/
theorem countP_one {p : U64 → Bool} {R : List U64} (h : R.countP p = 1) :
    ∃ R', R.Perm (oxor p R :: R') ∧ p (oxor p R) = true ∧ R'.countP p = 0 := by
  have hp : 0 < R.countP p := by omega
  obtain ⟨a, ha, hon⟩ := List.countP_pos_iff.1 hp
  have hperm := List.perm_cons_erase ha
  have h0 : (R.erase a).countP p = 0 := by
    have := hperm.countP_eq p
    rw [List.countP_cons, hon] at this
    simp only [if_true] at this
    omega
  have hx : oxor p R = a := by rw [oxor_perm hperm, oxor_cons, hon, oxor_zero h0]; simp
  rw [hx]
  exact ⟨R.erase a, hperm, hon, h0⟩

/-! ### Arrays of sets -/

/-- The array of sets with counts `C` and masks `M`. -/
def HT (n : Nat) (C : Nat → Nat) (M : Nat → U64) : List HSet :=
  tab n fun i => { count := BitVec.ofNat 32 (C i), mask := M i }

theorem HT_congr {n : Nat} {C C' : Nat → Nat} {M M' : Nat → U64}
    (h : ∀ i < n, C i = C' i ∧ M i = M' i) : HT n C M = HT n C' M' :=
  tab_congr fun i hi => by rw [(h i hi).1, (h i hi).2]

theorem HT_zero (n : Nat) : HT n (fun _ => 0) (fun _ => 0#64) = List.replicate n HSet.zero :=
  tab_const n _

theorem hAdd_HT {prof : Profile} {n i : Nat} {C : Nat → Nat} {M : Nat → U64} {h : U64} (hi : i < n)
    (hc : C i + 1 < 2 ^ 32) :
    hAdd prof (HT n C M) i h =
      .ok (HT n (Function.update C i (C i + 1)) (Function.update M i (M i ^^^ h))) := by
  unfold hAdd HT
  have e : BitVec.ofNat 32 (C i) + 1#32 = BitVec.ofNat 32 (C i + 1) := by
    apply BitVec.eq_of_toNat_eq; simp
  rw [rd_tab _ hi, Res.bind_ok, addC_ok (by
    rw [BitVec.toNat_ofNat, Nat.mod_eq_of_lt (by omega)]; simpa using hc), Res.bind_ok, wr_tab _ hi]
  congr 1
  apply tab_congr
  intro k _
  simp only [Function.update_apply]
  split
  · rw [e]
  · rfl

theorem hRemove_HT {prof : Profile} {n i : Nat} {C : Nat → Nat} {M : Nat → U64} {h : U64} (hi : i < n)
    (hc : 1 ≤ C i) (hc' : C i < 2 ^ 32) :
    hRemove prof (HT n C M) i h =
      .ok (HT n (Function.update C i (C i - 1)) (Function.update M i (M i ^^^ h))) := by
  unfold hRemove HT
  have hv : (BitVec.ofNat 32 (C i)).toNat = C i := by
    rw [BitVec.toNat_ofNat, Nat.mod_eq_of_lt hc']
  have hle : (1#32).toNat ≤ (BitVec.ofNat 32 (C i)).toNat := by rw [hv]; exact hc
  have e : BitVec.ofNat 32 (C i) - 1#32 = BitVec.ofNat 32 (C i - 1) := by
    apply BitVec.eq_of_toNat_eq
    rw [BitVec.toNat_sub_of_le hle, hv, BitVec.toNat_ofNat (C i - 1),
      Nat.mod_eq_of_lt (show C i - 1 < 2 ^ 32 by omega)]
    rfl
  rw [rd_tab _ hi, Res.bind_ok, subC_ok hle, Res.bind_ok, wr_tab _ hi]
  congr 1
  apply tab_congr
  intro k _
  simp only [Function.update_apply]
  split
  · rw [e]
  · rfl

theorem ofNat32_eq_iff {a b : Nat} (ha : a < 2 ^ 32) (hb : b < 2 ^ 32) :
    (BitVec.ofNat 32 a = BitVec.ofNat 32 b) ↔ a = b := by
  constructor
  · intro h
    have := congrArg BitVec.toNat h
    rwa [BitVec.toNat_ofNat, BitVec.toNat_ofNat, Nat.mod_eq_of_lt ha, Nat.mod_eq_of_lt hb] at this
  · intro h; rw [h]

/-! ### Queues -/

/-- Invariant of one queue over the sets `0..n-1`: `P` are the indices popped so far. Every index is
queued at most once, when its count becomes 1. -/
structure QInv (n : Nat) (C : Nat → Nat) (M : Nat → U64) (P : List Nat) (q : List KeyIndex) : Prop where
  nd : (q.map KeyIndex.index ++ P).Nodup
  lt : ∀ i ∈ q.map KeyIndex.index ++ P, i < n ∧ C i ≤ 1
  hash : ∀ k ∈ q, C k.index = 1 → k.hash = M k.index

/-- Every set whose count is 1 is queued or was popped. -/
def QAll (n : Nat) (C : Nat → Nat) (P : List Nat) (q : List KeyIndex) : Prop :=
  ∀ i < n, C i = 1 → i ∈ q.map KeyIndex.index ++ P

theorem QAll.pop {n : Nat} {C : Nat → Nat} {P : List Nat} {k : KeyIndex} {q : List KeyIndex}
    (h : QAll n C P (k :: q)) : QAll n C (k.index :: P) q := by
  have hp : (q.map KeyIndex.index ++ k.index :: P).Perm ((k :: q).map KeyIndex.index ++ P) :=
    List.perm_middle
  intro i hi hc
  exact hp.mem_iff.2 (h i hi hc)

theorem QAll.congr {n : Nat} {C C' : Nat → Nat} {P : List Nat} {q : List KeyIndex}
    (h : QAll n C P q) (hc : ∀ i < n, C i = C' i) : QAll n C' P q := by
  intro i hi h1
  exact h i hi (by rw [hc i hi, h1])

theorem QInv.length {n : Nat} {C : Nat → Nat} {M : Nat → U64} {P : List Nat} {q : List KeyIndex}
    (h : QInv n C M P q) : q.length + P.length ≤ n := by
  have : (q.map KeyIndex.index ++ P).Subperm (List.range n) := by
    apply List.subperm_of_subset h.nd
    intro i hi
    exact List.mem_range.2 (h.lt i hi).1
  have := this.length_le
  simpa using this

theorem QInv.pop {n : Nat} {C : Nat → Nat} {M : Nat → U64} {P : List Nat} {k : KeyIndex}
    {q : List KeyIndex} (h : QInv n C M P (k :: q)) : QInv n C M (k.index :: P) q := by
  have hp : (q.map KeyIndex.index ++ k.index :: P).Perm ((k :: q).map KeyIndex.index ++ P) :=
    List.perm_middle
  refine ⟨hp.nodup_iff.2 h.nd, ?_, ?_⟩
  · intro i hi; exact h.lt i (hp.mem_iff.1 hi)
  · intro k' hk'; exact h.hash k' (by simp [hk'])

theorem QInv.congr {n : Nat} {C C' : Nat → Nat} {M M' : Nat → U64} {P : List Nat} {q : List KeyIndex}
    (h : QInv n C M P q) (hc : ∀ i < n, C i = C' i ∧ M i = M' i) : QInv n C' M' P q := by
  refine ⟨h.nd, ?_, ?_⟩
  · intro i hi
    have := h.lt i hi
    rw [← (hc i this.1).1]
    exact this
  · intro k hk hC
    have := h.lt k.index (by simp; exact Or.inl ⟨k, hk, rfl⟩)
    rw [← (hc _ this.1).2]
    exact h.hash k hk (by rw [(hc _ this.1).1]; exact hC)

/-- Pushing a set whose count is 1 and that was never queued. -/
theorem QInv.push {n cap i : Nat} {C : Nat → Nat} {M : Nat → U64} {P : List Nat}
    {q : List KeyIndex} (h : QInv n C M P q) (hn : n ≤ cap) (hi : i < n) (hC : C i < 2 ^ 32)
    (hnew : C i = 1 → i ∉ q.map KeyIndex.index ++ P) :
    ∃ q', tryEnqueue (HT cap C M) cap q i = .ok q' ∧ QInv n C M P q' ∧
      ((C i = 1 ∧ q' = ⟨M i, i⟩ :: q) ∨ (C i ≠ 1 ∧ q' = q)) := by
  unfold tryEnqueue HT
  rw [rd_tab _ (by omega), Res.bind_ok]
  simp only
  rw [show (1#32) = BitVec.ofNat 32 1 from rfl]
  by_cases h1 : C i = 1
  · rw [if_pos (by rw [h1])]
    have hni := hnew h1
    have hq : QInv n C M P (⟨M i, i⟩ :: q) := by
      refine ⟨?_, ?_, ?_⟩
      · exact List.nodup_cons.2 ⟨hni, h.nd⟩
      · intro j hj
        rcases List.mem_cons.1 hj with rfl | hj
        · exact ⟨hi, by simp [h1]⟩
        · exact h.lt j hj
      · intro k hk
        rcases List.mem_cons.1 hk with rfl | hk
        · intro _; rfl
        · exact h.hash k hk
    have hl := hq.length
    rw [List.length_cons] at hl
    rw [if_neg (by omega)]
    exact ⟨_, rfl, hq, Or.inl ⟨h1, rfl⟩⟩
  · rw [if_neg (by rw [ofNat32_eq_iff hC (by norm_num)]; exact h1)]
    exact ⟨q, rfl, h, Or.inr ⟨h1, rfl⟩⟩

/-- Removing a hash from a set and queueing the set when one hash is left. -/
theorem QInv.remove {prof : Profile} {n cap i : Nat} {C : Nat → Nat} {M : Nat → U64} {P : List Nat}
    {q : List KeyIndex} {h : U64} (hq : QInv n C M P q) (hn : n ≤ cap) (hi : i < n) (hC : 1 ≤ C i)
    (hC' : C i < 2 ^ 32) :
    ∃ q', hRemove prof (HT cap C M) i h =
        .ok (HT cap (Function.update C i (C i - 1)) (Function.update M i (M i ^^^ h))) ∧
      tryEnqueue (HT cap (Function.update C i (C i - 1)) (Function.update M i (M i ^^^ h))) cap q i =
        .ok q' ∧
      QInv n (Function.update C i (C i - 1)) (Function.update M i (M i ^^^ h)) P q' ∧
      (QAll n C P q → QAll n (Function.update C i (C i - 1)) P q') := by
  have hq1 : QInv n (Function.update C i (C i - 1)) (Function.update M i (M i ^^^ h)) P q := by
    refine ⟨hq.nd, ?_, ?_⟩
    · intro j hj
      have := hq.lt j hj
      refine ⟨this.1, ?_⟩
      by_cases e : j = i
      · subst e; simp; omega
      · rw [Function.update_of_ne e]; exact this.2
    · intro k hk h1
      have := hq.lt k.index (by simp; exact Or.inl ⟨k, hk, rfl⟩)
      by_cases e : k.index = i
      · rw [e] at this h1
        rw [Function.update_self] at h1
        omega
      · rw [Function.update_of_ne e] at h1 ⊢
        exact hq.hash k hk h1
  obtain ⟨q', h1, h2, h3⟩ := hq1.push (cap := cap) hn hi (by rw [Function.update_self]; omega) (by
    rw [Function.update_self]
    intro h1 hm
    have := hq.lt i hm
    omega)
  refine ⟨q', hRemove_HT (by omega) hC hC', h1, h2, ?_⟩
  intro hall j hj hc
  by_cases e : j = i
  · subst e
    rcases h3 with ⟨_, rfl⟩ | ⟨hne, _⟩
    · simp
    · exact absurd hc hne
  · rw [Function.update_of_ne e] at hc
    have hm := hall j hj hc
    rcases h3 with ⟨_, rfl⟩ | ⟨_, rfl⟩
    · rw [List.map_cons, List.cons_append]
      exact List.mem_cons_of_mem _ hm
    · exact hm

/-- Scanning all sets. -/
theorem QInv.scan {n cap : Nat} {C : Nat → Nat} {M : Nat → U64} (hn : n ≤ cap)
    (hC : ∀ i < n, C i < 2 ^ 32) :
    ∃ q, foldRes (tryEnqueue (HT cap C M) cap) [] (List.range n) = .ok q ∧ QInv n C M [] q ∧
      QAll n C [] q := by
  obtain ⟨q, h1, h2, _, h3⟩ := foldRes_inv (f := tryEnqueue (HT cap C M) cap) (s := []) (l := List.range n)
    (fun done q => QInv n C M [] q ∧ (∀ k ∈ q, k.index ∈ done) ∧
      ∀ i ∈ done, C i = 1 → i ∈ q.map KeyIndex.index)
    ⟨⟨by simp, by simp, by simp⟩, by simp, by simp⟩
    (by
      rintro done a rest q hd ⟨hq, hm, hall⟩
      have ha : a < n := by
        have : a ∈ List.range n := by rw [← hd]; simp
        exact List.mem_range.1 this
      have hnotin : a ∉ done := by
        have hnd : (done ++ a :: rest).Nodup := by rw [hd]; exact List.nodup_range
        intro h
        exact (List.nodup_append.1 hnd).2.2 a h a (by simp) rfl
      obtain ⟨q', e1, e2, e3⟩ := hq.push (cap := cap) hn ha (hC a ha) (by
        intro _ h
        simp only [List.append_nil, List.mem_map] at h
        obtain ⟨k, hk, rfl⟩ := h
        exact hnotin (hm k hk))
      refine ⟨q', e1, e2, ?_, ?_⟩
      · rcases e3 with ⟨_, rfl⟩ | ⟨_, rfl⟩
        · intro k hk
          rcases List.mem_cons.1 hk with rfl | hk
          · simp
          · simp [hm k hk]
        · intro k hk; simp [hm k hk]
      · intro i hi hc
        rcases List.mem_append.1 hi with hi | hi
        · have := hall i hi hc
          rcases e3 with ⟨_, rfl⟩ | ⟨_, rfl⟩
          · exact List.mem_cons_of_mem _ this
          · exact this
        · rw [List.mem_singleton] at hi
          subst hi
          rcases e3 with ⟨_, rfl⟩ | ⟨hne, _⟩
          · simp
          · exact absurd hc hne)
  refine ⟨q, h1, h2, ?_⟩
  intro i hi hc
  rw [List.append_nil]
  exact h3 i (List.mem_range.2 hi) hc

/-! ### Assignment -/

/-- A stack, latest peeled first: the set of an entry is a set of its hash, and of no hash peeled
later. `on i h` says that `i` is one of the sets of `h`. -/
def PeelOrder (on : Nat → U64 → Bool) (stk : List KeyIndex) : Prop :=
  (∀ e ∈ stk, on e.index e.hash = true) ∧ stk.Pairwise fun later earlier => on earlier.index later.hash = false

/-- Assigning in stack order solves the equations of all stacked hashes. When an entry is assigned, its
own cell still has the initial value. -/
theorem assign_order {V : Type} {on : Nat → U64 → Bool} {n : Nat} (d : V)
    (step : List V → KeyIndex → Res (List V)) (Sat : (Nat → V) → U64 → Prop)
    (hcongr : ∀ f f' h, (∀ i, on i h = true → f i = f' i) → Sat f h → Sat f' h)
    (init : Nat → V) {stk : List KeyIndex} (hpl : PeelOrder on stk)
    (hstep : ∀ fp e, e ∈ stk → fp.length = n → fp.getD e.index d = init e.index →
      ∃ v, step fp e = .ok (fp.set e.index v) ∧ Sat (fun i => (fp.set e.index v).getD i d) e.hash)
    (fp0 : List V) (hfp : fp0.length = n) (h0 : ∀ e ∈ stk, fp0.getD e.index d = init e.index) :
    ∃ fp, foldRes step fp0 stk = .ok fp ∧ fp.length = n ∧
      (∀ i, (∀ e ∈ stk, e.index ≠ i) → fp.getD i d = fp0.getD i d) ∧
      ∀ e ∈ stk, Sat (fun i => fp.getD i d) e.hash := by
  induction stk generalizing fp0 with
  | nil => exact ⟨fp0, rfl, hfp, fun _ _ => rfl, by simp⟩
  | cons e rest ih =>
    obtain ⟨v, hv, hsat⟩ := hstep fp0 e (by simp) hfp (h0 e (by simp))
    obtain ⟨hpw, hpr⟩ := List.pairwise_cons.1 hpl.2
    have hne : ∀ y ∈ rest, e.index ≠ y.index := by
      intro y hy h
      have h1 := hpw y hy
      rw [← h, hpl.1 e (by simp)] at h1
      cases h1
    obtain ⟨fp, h1, h2, h3, h4⟩ := ih ⟨fun x hx => hpl.1 x (by simp [hx]), hpr⟩
      (fun fp x hx hl => hstep fp x (by simp [hx]) hl) (fp0.set e.index v) (by simpa using hfp)
      (by
        intro y hy
        rw [List.getD_eq_getElem?_getD, List.getElem?_set_ne (hne y hy), ← List.getD_eq_getElem?_getD]
        exact h0 y (by simp [hy]))
    refine ⟨fp, by rw [foldRes_cons, hv]; exact h1, h2, ?_, ?_⟩
    · intro i hi
      rw [h3 i (fun x hx => hi x (by simp [hx])), List.getD_eq_getElem?_getD,
        List.getElem?_set_ne (hi e (by simp)), ← List.getD_eq_getElem?_getD]
    · intro x hx
      rcases List.mem_cons.1 hx with rfl | hx
      · refine hcongr _ _ _ ?_ hsat
        intro i hi
        refine (h3 _ ?_).symm
        intro y hy e
        have := hpw y hy
        rw [e, hi] at this
        cases this
      · exact h4 x hx

end Chalamet
