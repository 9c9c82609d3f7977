import Verif.Lemmas.Fuse

/-! Peeling and assignment of Xor filters. -/

namespace Chalamet

/-- The set of `h` in block `b` is `i`. -/
def xon (bl b i : Nat) (h : U64) : Bool := decide (xorH b bl h = i)

/-- The cell `s` of the fingerprint array is one of the three cells of `h`. -/
def xorOn (bl s : Nat) (h : U64) : Bool :=
  decide (s = xorH 0 bl h + 0 * bl ∨ s = xorH 1 bl h + 1 * bl ∨ s = xorH 2 bl h + 2 * bl)

theorem xorH_lt {bl : Nat} (hb : 0 < bl) (b : Nat) (h : U64) : xorH b bl h < bl := reduce_lt _ hb

theorem cell_inj {bl b b' i i' : Nat} (hi : i < bl) (hi' : i' < bl) (h : i + b * bl = i' + b' * bl) :
    b = b' ∧ i = i' := by
  have h1 : (i + b * bl) / bl = b := by
    rw [Nat.add_mul_div_right _ _ (by omega), Nat.div_eq_of_lt hi, Nat.zero_add]
  have h2 : (i' + b' * bl) / bl = b' := by
    rw [Nat.add_mul_div_right _ _ (by omega), Nat.div_eq_of_lt hi', Nat.zero_add]
  have : b = b' := by rw [← h1, ← h2, h]
  subst this
  exact ⟨rfl, by omega⟩

theorem xorOn_iff {bl s : Nat} {h : U64} : xorOn bl s h = true ↔ ∃ b < 3, s = xorH b bl h + b * bl := by
  unfold xorOn
  rw [decide_eq_true_iff]
  constructor
  · rintro (h | h | h)
    · exact ⟨0, by omega, h⟩
    · exact ⟨1, by omega, h⟩
    · exact ⟨2, by omega, h⟩
  · rintro ⟨b, hb, h⟩
    have : b = 0 ∨ b = 1 ∨ b = 2 := by omega
    rcases this with rfl | rfl | rfl
    · exact Or.inl h
    · exact Or.inr (Or.inl h)
    · exact Or.inr (Or.inr h)

theorem xorOn_cell {bl b i : Nat} (hb : b < 3) (hi : i < bl) : xorOn bl (i + b * bl) = xon bl b i := by
  funext h
  rw [Bool.eq_iff_iff, xorOn_iff]
  unfold xon
  rw [decide_eq_true_iff]
  have hbl : 0 < bl := by omega
  constructor
  · rintro ⟨b', hb', h⟩
    obtain ⟨rfl, h⟩ := cell_inj hi (xorH_lt hbl b' _) h
    exact h.symm
  · intro h
    exact ⟨b, hb, by rw [h]⟩

/-! ### The three blocks -/

/-- The blocks of sets with counts `C b i` and masks `M b i`. -/
def HH (cap : Nat) (C : Nat → Nat → Nat) (M : Nat → Nat → U64) : List (List HSet) :=
  tab 3 fun b => HT cap (C b) (M b)

/-- Pointwise update of a doubly indexed table. -/
def upd {α : Type} (C : Nat → Nat → α) (b i : Nat) (v : α) : Nat → Nat → α :=
  Function.update C b (Function.update (C b) i v)

theorem upd_block {α : Type} (C : Nat → Nat → α) (b i : Nat) (v : α) :
    upd C b i v b = Function.update (C b) i v := by simp [upd]

theorem upd_other {α : Type} (C : Nat → Nat → α) {b b' : Nat} (i : Nat) (v : α) (h : b' ≠ b) :
    upd C b i v b' = C b' := by simp [upd, h]

theorem upd_apply {α : Type} (C : Nat → Nat → α) (b i : Nat) (v : α) (b' i' : Nat) :
    upd C b i v b' i' = if b' = b ∧ i' = i then v else C b' i' := by
  by_cases h : b' = b
  · subst h
    rw [upd_block, Function.update_apply]
    simp
  · rw [upd_other _ _ _ h]
    simp [h]

theorem wr_HH {cap b : Nat} (hb : b < 3) (C : Nat → Nat → Nat) (M : Nat → Nat → U64) (i c : Nat) (m : U64) :
    wr (HH cap C M) b (HT cap (Function.update (C b) i c) (Function.update (M b) i m)) =
      .ok (HH cap (upd C b i c) (upd M b i m)) := by
  unfold HH
  rw [wr_tab _ hb]
  congr 1
  apply tab_congr
  intro b' _
  by_cases h : b' = b
  · subst h; simp [upd_block]
  · simp [upd_other _ _ _ h, h]

theorem rd_HH {cap b : Nat} (hb : b < 3) (C : Nat → Nat → Nat) (M : Nat → Nat → U64) :
    rd (HH cap C M) b = .ok (HT cap (C b) (M b)) := rd_tab _ hb

theorem HH_congr {cap : Nat} {C C' : Nat → Nat → Nat} {M M' : Nat → Nat → U64}
    (h : ∀ b < 3, ∀ i < cap, C b i = C' b i ∧ M b i = M' b i) : HH cap C M = HH cap C' M' :=
  tab_congr fun b hb => HT_congr (h b hb)

/-! ### Populating -/

theorem xorAddKey_ok {prof : Profile} {cap bl : Nat} (hbl : 0 < bl) (hcap : bl ≤ cap) {h : U64}
    {C : Nat → Nat → Nat} {M : Nat → Nat → U64} (hC : ∀ b i, C b i + 1 < 2 ^ 32) :
    xorAddKey prof bl (HH cap C M) h =
      .ok (HH cap (fun b i => if xon bl b i h then C b i + 1 else C b i)
        (fun b i => if xon bl b i h then M b i ^^^ h else M b i)) := by
  have step : ∀ b < 3, ∀ (C : Nat → Nat → Nat) (M : Nat → Nat → U64),
      C b (xorH b bl h) + 1 < 2 ^ 32 →
      (rd (HH cap C M) b >>= fun Hb => hAdd prof Hb (xorH b bl h) h >>= fun Hb => wr (HH cap C M) b Hb) =
        .ok (HH cap (upd C b (xorH b bl h) (C b (xorH b bl h) + 1))
          (upd M b (xorH b bl h) (M b (xorH b bl h) ^^^ h))) := by
    intro b hb C M hc
    have := xorH_lt hbl b h
    rw [rd_HH hb, Res.bind_ok, hAdd_HT (by omega) hc, Res.bind_ok, wr_HH hb]
  unfold xorAddKey
  rw [foldRes_cons, step 0 (by omega) _ _ (hC _ _), Res.bind_ok, foldRes_cons,
    step 1 (by omega) _ _ (by rw [upd_other _ _ _ (by omega)]; exact hC _ _), Res.bind_ok, foldRes_cons,
    step 2 (by omega) _ _ (by
      rw [upd_other _ _ _ (by omega), upd_other _ _ _ (by omega)]; exact hC _ _), Res.bind_ok,
    foldRes_nil]
  congr 1
  apply HH_congr
  intro b hb i _
  have : b = 0 ∨ b = 1 ∨ b = 2 := by omega
  rcases this with rfl | rfl | rfl
  · simp only [upd_apply, xon]
    by_cases e : xorH 0 bl h = i
    · subst e; simp
    · simp [e, Ne.symm e]
  · simp only [upd_apply, xon]
    by_cases e : xorH 1 bl h = i
    · subst e; simp
    · simp [e, Ne.symm e]
  · simp only [upd_apply, xon]
    by_cases e : xorH 2 bl h = i
    · subst e; simp
    · simp [e, Ne.symm e]

theorem xorPopulate {prof : Profile} {cap bl : Nat} (hbl : 0 < bl) (hcap : bl ≤ cap)
    {hashes : List U64} (hl : hashes.length < 2 ^ 32) :
    foldRes (xorAddKey prof bl) (List.replicate 3 (List.replicate cap HSet.zero)) hashes =
      .ok (HH cap (fun b i => hashes.countP (xon bl b i)) (fun b i => oxor (xon bl b i) hashes)) := by
  obtain ⟨H, h1, h2⟩ := foldRes_inv (f := xorAddKey prof bl)
    (s := List.replicate 3 (List.replicate cap HSet.zero)) (l := hashes)
    (fun done H => H = HH cap (fun b i => done.countP (xon bl b i)) (fun b i => oxor (xon bl b i) done))
    (by
      rw [← HT_zero, ← tab_const]
      rfl)
    (by
      rintro done a rest H hd rfl
      have hlen : done.length + (rest.length + 1) = hashes.length := by
        have := congrArg List.length hd
        simpa using this
      refine ⟨_, xorAddKey_ok hbl hcap ?_, ?_⟩
      · intro b i
        have := List.countP_le_length (p := xon bl b i) (l := done)
        omega
      · apply HH_congr
        intro b _ i _
        rw [oxor_append_one, List.countP_append, List.countP_singleton]
        cases xon bl b i a <;> simp)
  rw [h1, h2]

/-! ### Queues -/

theorem xorEnqueue_ok {cap b : Nat} (hb : b < 3) {C : Nat → Nat → Nat} {M : Nat → Nat → U64}
    {Q : Nat → List KeyIndex} {idx : Nat} {q' : List KeyIndex}
    (h : tryEnqueue (HT cap (C b) (M b)) cap (Q b) idx = .ok q') :
    xorEnqueue cap b (HH cap C M) (tab 3 Q) idx = .ok (tab 3 (Function.update Q b q')) := by
  unfold xorEnqueue
  rw [rd_HH hb, Res.bind_ok, rd_tab _ hb, Res.bind_ok, h, Res.bind_ok, wr_tab _ hb]

theorem xorEnqueue_fold {cap b : Nat} (hb : b < 3) {C : Nat → Nat → Nat} {M : Nat → Nat → U64}
    {l : List Nat} {Q : Nat → List KeyIndex} {q' : List KeyIndex}
    (h : foldRes (tryEnqueue (HT cap (C b) (M b)) cap) (Q b) l = .ok q') :
    foldRes (xorEnqueue cap b (HH cap C M)) (tab 3 Q) l = .ok (tab 3 (Function.update Q b q')) := by
  induction l generalizing Q with
  | nil =>
    rw [foldRes_nil] at h
    cases h
    simp
  | cons a l ih =>
    rw [foldRes_cons] at h
    obtain ⟨q1, h1, h2⟩ := Res.bind_eq_ok.1 h
    rw [foldRes_cons, xorEnqueue_ok hb h1, Res.bind_ok, ih (Q := Function.update Q b q1) (by simpa using h2)]
    simp

theorem xorScan_ok {cap bl : Nat} (hcap : bl ≤ cap) {C : Nat → Nat → Nat} {M : Nat → Nat → U64}
    (hC : ∀ b i, C b i < 2 ^ 32) :
    ∃ Q, xorScan cap bl (HH cap C M) (List.replicate 3 []) = .ok (tab 3 Q) ∧
      (∀ b < 3, QInv bl (C b) (M b) [] (Q b)) ∧ ∀ b < 3, QAll bl (C b) [] (Q b) := by
  have hs := fun b => QInv.scan (n := bl) (cap := cap) (C := C b) (M := M b) hcap (fun i _ => hC b i)
  obtain ⟨q0, a0, b0, c0⟩ := hs 0
  obtain ⟨q1, a1, b1, c1⟩ := hs 1
  obtain ⟨q2, a2, b2, c2⟩ := hs 2
  refine ⟨Function.update (Function.update (Function.update (fun _ => []) 0 q0) 1 q1) 2 q2, ?_, ?_, ?_⟩
  · unfold xorScan
    rw [← tab_const, foldRes_cons, xorEnqueue_fold (by omega) (q' := q0) a0, Res.bind_ok, foldRes_cons,
      xorEnqueue_fold (by omega) (q' := q1) (by simpa using a1), Res.bind_ok, foldRes_cons,
      xorEnqueue_fold (by omega) (q' := q2) (by simpa using a2), Res.bind_ok, foldRes_nil]
  · intro b hb
    have : b = 0 ∨ b = 1 ∨ b = 2 := by omega
    rcases this with rfl | rfl | rfl
    · simpa using b0
    · simpa using b1
    · simpa using b2
  · intro b hb
    have : b = 0 ∨ b = 1 ∨ b = 2 := by omega
    rcases this with rfl | rfl | rfl
    · simpa using c0
    · simpa using c1
    · simpa using c2

/-! ### Peeling -/

/-- Invariant of the peeling loop: `R` are the hashes not yet peeled, `P b` the sets of block `b` popped so
far, `q b` the queue of block `b`. -/
structure XInv (bl : Nat) (L : List U64) (stk : List KeyIndex) (R : List U64) (P : Nat → List Nat)
    (q : Nat → List KeyIndex) (C : Nat → Nat → Nat) (M : Nat → Nat → U64) : Prop where
  qi : ∀ b < 3, QInv bl (C b) (M b) (P b) (q b)
  live : ∀ b < 3, ∀ i < bl, (∀ e ∈ stk, e.index ≠ i + b * bl) →
    C b i = R.countP (xon bl b i) ∧ M b i = oxor (xon bl b i) R
  perm : (stk.map KeyIndex.hash ++ R).Perm L
  ord : PeelOrder (xorOn bl) stk
  dead : ∀ e ∈ stk, R.countP (xorOn bl e.index) = 0
  piv : ∀ e ∈ stk, ∃ b < 3, ∃ i < bl, e.index = i + b * bl ∧ i ∈ P b
  all : ∀ b < 3, QAll bl (C b) (P b) (q b)
  pop0 : ∀ b < 3, ∀ i ∈ P b, R.countP (xon bl b i) = 0

/-- Removing a peeled hash from its sets in the blocks of `l`. -/
theorem xorRemove_list {prof : Profile} {bl b : Nat} (hbl : 0 < bl) {h : U64} {l : List Nat}
    (hnd : l.Nodup) (hl : ∀ j ∈ l, j < 3 ∧ j ≠ b) {s : XState} {C : Nat → Nat → Nat}
    {M : Nat → Nat → U64} {P : Nat → List Nat} {q : Nat → List KeyIndex}
    (hH : s.H = HH (3 * bl) C M) (hQ : s.Q = tab 3 (Function.update q b []))
    (hq : ∀ b < 3, QInv bl (C b) (M b) (P b) (q b))
    (hC : ∀ j ∈ l, 1 ≤ C j (xorH j bl h) ∧ C j (xorH j bl h) < 2 ^ 32) :
    ∃ q' C' M', foldRes (xorRemoveAt prof (3 * bl) bl h) s l =
        .ok { s with H := HH (3 * bl) C' M', Q := tab 3 (Function.update q' b []) } ∧ q' b = q b ∧
      (∀ b < 3, QInv bl (C' b) (M' b) (P b) (q' b)) ∧
      ((∀ b < 3, QAll bl (C b) (P b) (q b)) → ∀ b < 3, QAll bl (C' b) (P b) (q' b)) ∧
      ∀ b i, C' b i = (if b ∈ l ∧ xorH b bl h = i then C b i - 1 else C b i) ∧
        M' b i = (if b ∈ l ∧ xorH b bl h = i then M b i ^^^ h else M b i) := by
  induction l generalizing s C M q with
  | nil =>
    refine ⟨q, C, M, ?_, rfl, hq, id, by simp⟩
    rw [foldRes_nil, ← hH, ← hQ]
  | cons a l ih =>
    obtain ⟨ha, hnd⟩ := List.nodup_cons.1 hnd
    obtain ⟨ha3, hab⟩ := hl a (by simp)
    have hlt := xorH_lt hbl a h
    obtain ⟨q1, e1, e2, e3, e4⟩ := (hq a ha3).remove (prof := prof) (cap := 3 * bl) (h := h) (by omega) hlt
      (hC a (by simp)).1 (hC a (by simp)).2
    have hstep : xorRemoveAt prof (3 * bl) bl h s a = .ok { s with
        H := HH (3 * bl) (upd C a (xorH a bl h) (C a (xorH a bl h) - 1))
          (upd M a (xorH a bl h) (M a (xorH a bl h) ^^^ h))
        Q := tab 3 (Function.update (Function.update q a q1) b []) } := by
      unfold xorRemoveAt
      rw [hH, rd_HH ha3, Res.bind_ok, e1, Res.bind_ok, wr_HH ha3, Res.bind_ok, hQ,
        xorEnqueue_ok ha3 (q' := q1) (by
          rw [upd_block, upd_block, Function.update_of_ne hab]; exact e2), Res.bind_ok,
        Function.update_comm hab]
    obtain ⟨q', C', M', f1, f2, f3, f5, f4⟩ := ih hnd (fun j hj => hl j (by simp [hj]))
      (s := { s with
        H := HH (3 * bl) (upd C a (xorH a bl h) (C a (xorH a bl h) - 1))
          (upd M a (xorH a bl h) (M a (xorH a bl h) ^^^ h))
        Q := tab 3 (Function.update (Function.update q a q1) b []) })
      (C := upd C a (xorH a bl h) (C a (xorH a bl h) - 1))
      (M := upd M a (xorH a bl h) (M a (xorH a bl h) ^^^ h))
      (q := Function.update q a q1) rfl rfl
      (by
        intro b' hb'
        by_cases e : b' = a
        · subst e
          rw [upd_block, upd_block, Function.update_self]
          exact e3
        · rw [upd_other _ _ _ e, upd_other _ _ _ e, Function.update_of_ne e]
          exact hq b' hb')
      (by
        intro j hj
        rw [upd_other _ _ _ (by rintro rfl; exact ha hj)]
        exact hC j (by simp [hj]))
    refine ⟨q', C', M', ?_, ?_, f3, fun hall => f5 ?_, ?_⟩
    rotate_left 2
    · intro b' hb'
      by_cases e : b' = a
      · subst e
        rw [upd_block, Function.update_self]
        exact e4 (hall _ hb')
      · rw [upd_other _ _ _ e, Function.update_of_ne e]
        exact hall b' hb'
    rotate_left
    · rw [foldRes_cons, hstep, Res.bind_ok, f1]
    · rw [f2, Function.update_of_ne (Ne.symm hab)]
    · intro b' i
      rw [(f4 b' i).1, (f4 b' i).2, upd_apply, upd_apply]
      by_cases e : b' = a
      · subst e
        by_cases ei : xorH b' bl h = i
        · subst ei; simp [ha]
        · simp [ei, Ne.symm ei]
      · simp [e]

/-- One iteration of `dequeue!`. -/
theorem xorPeelStep_inv {prof : Profile} {bl b : Nat} (hbl : 0 < bl) {others : List Nat} (hb : b < 3)
    (hnd : others.Nodup) (ho : ∀ j, j ∈ others ↔ j < 3 ∧ j ≠ b) {L : List U64}
    (hL : L.length < 2 ^ 32) {s : XState} {R : List U64} {P : Nat → List Nat} {q : Nat → List KeyIndex}
    {C : Nat → Nat → Nat} {M : Nat → Nat → U64} {ki : KeyIndex} {qb : List KeyIndex}
    (hH : s.H = HH (3 * bl) C M) (hQ : s.Q = tab 3 (Function.update q b []))
    (h : XInv bl L s.stk R P q C M) (hq : q b = ki :: qb) :
    ∃ s' R' q' C' M', xorPeelStep prof (3 * bl) bl L.length b others s ki = .ok s' ∧
      s'.H = HH (3 * bl) C' M' ∧ s'.Q = tab 3 (Function.update q' b []) ∧ q' b = qb ∧
      XInv bl L s'.stk R' (Function.update P b (ki.index :: P b)) q' C' M' := by
  have hQb := h.qi b hb
  rw [hq] at hQb
  have hlt := hQb.lt ki.index (by simp)
  have hnP : ki.index ∉ P b := by
    have := hQb.nd
    rw [List.map_cons, List.cons_append, List.nodup_cons] at this
    intro hm
    exact this.1 (List.mem_append_right _ hm)
  have hnpiv : ∀ e ∈ s.stk, e.index ≠ ki.index + b * bl := by
    intro e he heq
    obtain ⟨b', hb', i', hi', hpe, hmem⟩ := h.piv e he
    rw [hpe] at heq
    obtain ⟨rfl, rfl⟩ := cell_inj hi' hlt.1 heq
    exact hnP hmem
  have hlive := h.live b hb ki.index hlt.1 hnpiv
  have hlen := h.perm.length_eq
  rw [List.length_append, List.length_map] at hlen
  have hcl : ∀ b i, R.countP (xon bl b i) < 2 ^ 32 := by
    intro b i
    have := List.countP_le_length (p := xon bl b i) (l := R)
    omega
  have hpop : ∀ b' < 3, QInv bl (C b') (M b') (Function.update P b (ki.index :: P b) b')
      (Function.update q b qb b') := by
    intro b' hb'
    by_cases e : b' = b
    · subst e
      rw [Function.update_self, Function.update_self]
      exact hQb.pop
    · rw [Function.update_of_ne e, Function.update_of_ne e]
      exact h.qi b' hb'
  have hApop : ∀ b' < 3, QAll bl (C b') (Function.update P b (ki.index :: P b) b')
      (Function.update q b qb b') := by
    intro b' hb'
    by_cases e : b' = b
    · subst e
      rw [Function.update_self, Function.update_self]
      have := h.all b' hb'
      rw [hq] at this
      exact this.pop
    · rw [Function.update_of_ne e, Function.update_of_ne e]
      exact h.all b' hb'
  have hPmem : ∀ b' i, i ∈ Function.update P b (ki.index :: P b) b' →
      (b' = b ∧ i = ki.index) ∨ i ∈ P b' := by
    intro b' i hi
    by_cases e : b' = b
    · subst e
      rw [Function.update_self, List.mem_cons] at hi
      exact hi.imp_left fun h => ⟨rfl, h⟩
    · rw [Function.update_of_ne e] at hi
      exact Or.inr hi
  have hPmono : ∀ b' i, i ∈ P b' → i ∈ Function.update P b (ki.index :: P b) b' := by
    intro b' i hi
    by_cases e : b' = b
    · subst e; simp [hi]
    · rw [Function.update_of_ne e]; exact hi
  have hrd1 : rd s.H b = .ok (HT (3 * bl) (C b) (M b)) := by rw [hH, rd_HH hb]
  have hrd2 : rd (HT (3 * bl) (C b) (M b)) ki.index =
      .ok ⟨BitVec.ofNat 32 (C b ki.index), M b ki.index⟩ := by rw [HT, rd_tab _ (by omega)]
  unfold xorPeelStep
  simp only [hrd1, hrd2, Res.bind_ok]
  by_cases hc : C b ki.index = 0
  · rw [if_pos (by rw [hc])]
    refine ⟨s, R, Function.update q b qb, C, M, rfl, hH, by rw [hQ]; simp, by simp, hpop, h.live, h.perm,
      h.ord, h.dead, ?_, hApop, ?_⟩
    · intro e he
      obtain ⟨b', hb', i', hi', hpe, hmem⟩ := h.piv e he
      exact ⟨b', hb', i', hi', hpe, hPmono _ _ hmem⟩
    · intro b' hb' i hi
      rcases hPmem b' i hi with ⟨rfl, rfl⟩ | hi
      · rw [← hlive.1]; exact hc
      · exact h.pop0 b' hb' i hi
  · rw [if_neg (by
      rw [show (0#32) = BitVec.ofNat 32 0 from rfl,
        ofNat32_eq_iff (by rw [hlive.1]; exact hcl _ _) (by norm_num)]
      exact hc)]
    have h1 : C b ki.index = 1 := by have := hlt.2; omega
    have h1' : R.countP (xon bl b ki.index) = 1 := by rw [← hlive.1]; exact h1
    obtain ⟨R', hperm, hon, h0⟩ := countP_one h1'
    have hh : ki.hash = oxor (xon bl b ki.index) R := by
      rw [hQb.hash ki (by simp) h1, hlive.2]
    rw [← hh] at hperm hon
    have hRl := hperm.length_eq
    rw [List.length_cons] at hRl
    rw [if_neg (by omega)]
    have hxi : xorH b bl ki.hash = ki.index := by
      unfold xon at hon
      simpa using hon
    have hmemR : ki.hash ∈ R := hperm.mem_iff.2 (by simp)
    -- the sets of the peeled hash are not pivots
    have hnp : ∀ j < 3, ∀ e ∈ s.stk, e.index ≠ xorH j bl ki.hash + j * bl := by
      intro j hj e he heq
      have hd := h.dead e he
      rw [List.countP_eq_zero] at hd
      exact hd ki.hash hmemR (by rw [xorOn_iff]; exact ⟨j, hj, heq⟩)
    obtain ⟨q', C', M', f1, f2, f3, f5, f4⟩ := xorRemove_list (prof := prof) (b := b) hbl (h := ki.hash) hnd
      (fun j hj => (ho j).1 hj)
      (s := { s with stk := { hash := ki.hash, index := ki.index + b * bl } :: s.stk })
      (q := Function.update q b qb) hH (by rw [hQ]; simp) hpop (by
        intro j hj
        have hj3 := ((ho j).1 hj).1
        have := h.live j hj3 _ (xorH_lt hbl j ki.hash) (hnp j hj3)
        rw [this.1]
        refine ⟨?_, hcl _ _⟩
        rw [hperm.countP_eq, List.countP_cons]
        simp [xon])
    refine ⟨_, R', q', C', M', f1, rfl, rfl, by rw [f2]; simp, f3, ?_, ?_, ⟨?_, ?_⟩, ?_, ?_, f5 hApop, ?_⟩
    · intro b' hb' i' hi' hpv
      have hold := h.live b' hb' i' hi' (fun e he => hpv e (by simp [he]))
      have hne : ¬ (b' = b ∧ i' = ki.index) := by
        rintro ⟨rfl, rfl⟩
        exact hpv _ (List.mem_cons_self) rfl
      rw [(f4 b' i').1, (f4 b' i').2, hold.1, hold.2, hperm.countP_eq, oxor_perm hperm, oxor_cons,
        List.countP_cons]
      by_cases hx : xorH b' bl ki.hash = i'
      · have hbo : b' ∈ others := by
          rw [ho]
          refine ⟨hb', ?_⟩
          rintro rfl
          exact hne ⟨rfl, by rw [← hx, hxi]⟩
        have hand : b' ∈ others ∧ xorH b' bl ki.hash = i' := ⟨hbo, hx⟩
        have hxt : xon bl b' i' ki.hash = true := by simp [xon, hx]
        simp only [if_pos hand, hxt, if_true]
        refine ⟨by omega, ?_⟩
        rw [BitVec.xor_comm, ← BitVec.xor_assoc, BitVec.xor_self, BitVec.zero_xor]
      · have hand : ¬ (b' ∈ others ∧ xorH b' bl ki.hash = i') := fun h => hx h.2
        have hxt : xon bl b' i' ki.hash = false := by simp [xon, hx]
        simp [if_neg hand, hxt]
    · refine List.Perm.trans ?_ h.perm
      rw [List.map_cons, List.cons_append]
      exact List.perm_middle.symm.trans (List.Perm.append_left _ hperm.symm)
    · intro e he
      rcases List.mem_cons.1 he with rfl | he
      · rw [xorOn_cell hb hlt.1]; exact hon
      · exact h.ord.1 e he
    · refine List.pairwise_cons.2 ⟨?_, h.ord.2⟩
      intro e he
      have hd := h.dead e he
      rw [List.countP_eq_zero] at hd
      simpa using hd ki.hash hmemR
    · intro e he
      rcases List.mem_cons.1 he with rfl | he
      · rw [xorOn_cell hb hlt.1]; exact h0
      · have := h.dead e he
        rw [hperm.countP_eq, List.countP_cons] at this
        omega
    · intro e he
      rcases List.mem_cons.1 he with rfl | he
      · exact ⟨b, hb, ki.index, hlt.1, rfl, by simp⟩
      · obtain ⟨b', hb', i', hi', hpe, hmem⟩ := h.piv e he
        exact ⟨b', hb', i', hi', hpe, hPmono _ _ hmem⟩
    · intro b' hb' i hi
      rcases hPmem b' i hi with ⟨rfl, rfl⟩ | hi
      · exact h0
      · have := h.pop0 b' hb' i hi
        rw [hperm.countP_eq, List.countP_cons] at this
        omega

/-- Number of popped sets. -/
def popped (P : Nat → List Nat) : Nat := (P 0).length + (P 1).length + (P 2).length

theorem popped_update {P : Nat → List Nat} {b i : Nat} (hb : b < 3) :
    popped (Function.update P b (i :: P b)) = popped P + 1 := by
  have : b = 0 ∨ b = 1 ∨ b = 2 := by omega
  unfold popped
  rcases this with rfl | rfl | rfl <;> simp <;> omega

theorem xorDequeue_fold {prof : Profile} {bl b : Nat} (hbl : 0 < bl) {others : List Nat} (hb : b < 3)
    (hnd : others.Nodup) (ho : ∀ j, j ∈ others ↔ j < 3 ∧ j ≠ b) {L : List U64}
    (hL : L.length < 2 ^ 32) (qb : List KeyIndex) {s : XState} {R : List U64} {P : Nat → List Nat}
    {q : Nat → List KeyIndex} {C : Nat → Nat → Nat} {M : Nat → Nat → U64}
    (hH : s.H = HH (3 * bl) C M) (hQ : s.Q = tab 3 (Function.update q b []))
    (h : XInv bl L s.stk R P q C M) (hq : q b = qb) :
    ∃ s' R' P' q' C' M', foldRes (xorPeelStep prof (3 * bl) bl L.length b others) s qb = .ok s' ∧
      s'.H = HH (3 * bl) C' M' ∧ s'.Q = tab 3 q' ∧ q' b = [] ∧ XInv bl L s'.stk R' P' q' C' M' ∧
      popped P' = popped P + qb.length := by
  induction qb generalizing s R P q C M with
  | nil =>
    refine ⟨s, R, P, q, C, M, rfl, hH, ?_, hq, h, rfl⟩
    rw [hQ, ← hq, Function.update_eq_self]
  | cons ki qb ih =>
    obtain ⟨s1, R1, q1, C1, M1, e1, e2, e3, e4, e5⟩ := xorPeelStep_inv (prof := prof) hbl hb hnd ho hL hH hQ h hq
    obtain ⟨s', R', P', q', C', M', f1, f2, f3, f4, f5, f6⟩ := ih e2 e3 e5 e4
    refine ⟨s', R', P', q', C', M', ?_, f2, f3, f4, f5, ?_⟩
    · rw [foldRes_cons, e1, Res.bind_ok, f1]
    · rw [f6, popped_update hb, List.length_cons]; omega

/-- `dequeue!` for one block. -/
theorem xorDequeue_ok {prof : Profile} {bl b : Nat} (hbl : 0 < bl) {others : List Nat} (hb : b < 3)
    (hnd : others.Nodup) (ho : ∀ j, j ∈ others ↔ j < 3 ∧ j ≠ b) {L : List U64}
    (hL : L.length < 2 ^ 32) {s : XState} {R : List U64} {P : Nat → List Nat}
    {q : Nat → List KeyIndex} {C : Nat → Nat → Nat} {M : Nat → Nat → U64}
    (hH : s.H = HH (3 * bl) C M) (hQ : s.Q = tab 3 q) (h : XInv bl L s.stk R P q C M) :
    ∃ s' R' P' q' C' M', xorDequeue prof (3 * bl) bl L.length b others s = .ok s' ∧
      s'.H = HH (3 * bl) C' M' ∧ s'.Q = tab 3 q' ∧ q' b = [] ∧ XInv bl L s'.stk R' P' q' C' M' ∧
      popped P' = popped P + (q b).length ∧ (q b = [] → q' = q ∧ P' = P) := by
  by_cases he : q b = []
  · refine ⟨s, R, P, q, C, M, ?_, hH, hQ, he, h, by rw [he]; rfl, fun _ => ⟨rfl, rfl⟩⟩
    unfold xorDequeue
    rw [hQ, rd_tab _ hb, Res.bind_ok, wr_tab _ hb, Res.bind_ok, he, foldRes_nil, ← he,
      Function.update_eq_self, ← hQ]
  · obtain ⟨s', R', P', q', C', M', f1, f2, f3, f4, f5, f6⟩ := xorDequeue_fold (prof := prof) hbl hb hnd ho hL
      (q b) (s := { s with Q := tab 3 (Function.update q b []) }) hH rfl h rfl
    refine ⟨s', R', P', q', C', M', ?_, f2, f3, f4, f5, f6, fun h => absurd h he⟩
    unfold xorDequeue
    rw [hQ, rd_tab _ hb, Res.bind_ok, wr_tab _ hb, Res.bind_ok, f1]

theorem sum_tab3 (q : Nat → List KeyIndex) :
    ((tab 3 q).map List.length).sum = (q 0).length + (q 1).length + (q 2).length := by
  simp [tab, List.range_succ]
  omega

theorem xorPeelLoop_ok {prof : Profile} {bl : Nat} (hbl : 0 < bl) {L : List U64}
    (hL : L.length < 2 ^ 32) (fuel : Nat) {s : XState} {R : List U64} {P : Nat → List Nat}
    {q : Nat → List KeyIndex} {C : Nat → Nat → Nat} {M : Nat → Nat → U64}
    (hH : s.H = HH (3 * bl) C M) (hQ : s.Q = tab 3 q) (h : XInv bl L s.stk R P q C M)
    (hf : 3 * bl ≤ fuel + popped P) :
    ∃ s' R' P' q' C' M', xorPeelLoop prof (3 * bl) bl L.length fuel s = .ok s' ∧
      XInv bl L s'.stk R' P' q' C' M' ∧ ∀ b < 3, q' b = [] := by
  have hemp : ∀ q : Nat → List KeyIndex, (q 0).length + (q 1).length + (q 2).length = 0 →
      ∀ b < 3, q b = [] := by
    intro q h b hb
    have : b = 0 ∨ b = 1 ∨ b = 2 := by omega
    rcases this with rfl | rfl | rfl <;> exact List.length_eq_zero_iff.1 (by omega)
  induction fuel generalizing s R P q C M with
  | zero =>
    have h0 := (h.qi 0 (by omega)).length
    have h1 := (h.qi 1 (by omega)).length
    have h2 := (h.qi 2 (by omega)).length
    unfold popped at hf
    refine ⟨s, R, P, q, C, M, ?_, h, hemp q (by omega)⟩
    rw [xorPeelLoop, hQ, sum_tab3, if_pos (by omega)]
  | succ fuel ih =>
    unfold xorPeelLoop
    rw [hQ, sum_tab3]
    split
    · rename_i he
      exact ⟨s, R, P, q, C, M, rfl, h, hemp q he⟩
    · rename_i hne
      obtain ⟨s1, R1, P1, q1, C1, M1, a1, a2, a3, a4, a5, a6, a7⟩ := xorDequeue_ok (prof := prof)
        (others := [1, 2]) (b := 0) hbl (by omega) (by decide) (by intro j; simp; omega) hL hH hQ h
      obtain ⟨s2, R2, P2, q2, C2, M2, b1, b2, b3, b4, b5, b6, b7⟩ := xorDequeue_ok (prof := prof)
        (others := [0, 2]) (b := 1) hbl (by omega) (by decide) (by intro j; simp; omega) hL a2 a3 a5
      obtain ⟨s3, R3, P3, q3, C3, M3, c1, c2, c3, c4, c5, c6, c7⟩ := xorDequeue_ok (prof := prof)
        (others := [0, 1]) (b := 2) hbl (by omega) (by decide) (by intro j; simp; omega) hL b2 b3 b5
      rw [a1, Res.bind_ok, b1, Res.bind_ok, c1, Res.bind_ok]
      apply ih c2 c3 c5
      have : popped P + 1 ≤ popped P3 := by
        by_cases e0 : q 0 = []
        · obtain ⟨rfl, rfl⟩ := a7 e0
          by_cases e1 : q1 1 = []
          · obtain ⟨rfl, rfl⟩ := b7 e1
            rw [e0, e1] at hne
            simp only [List.length_nil, Nat.zero_add] at hne
            omega
          · have := List.length_pos_iff.2 e1
            omega
        · have := List.length_pos_iff.2 e0
          omega
      omega

/-- One attempt always ends; success means a complete peeling order. -/
theorem xorAttempt_ok {prof : Profile} {bl : Nat} (hbl : 0 < bl) {L : List U64}
    (hL : L.length < 2 ^ 32) :
    ∃ r, xorAttempt prof (3 * bl) bl L = .ok r ∧ (∀ stk, r = some stk →
      (stk.map KeyIndex.hash).Perm L ∧ PeelOrder (xorOn bl) stk ∧ ∀ e ∈ stk, e.index < 3 * bl) ∧
      (L.Nodup → Spec.CanPeel (fun h i => xorOn bl i h = true) L → ∃ stk, r = some stk) := by
  have hcl : ∀ b i, L.countP (xon bl b i) < 2 ^ 32 := by
    intro b i
    have := List.countP_le_length (p := xon bl b i) (l := L)
    omega
  obtain ⟨q, hq1, hq2, hq3⟩ := xorScan_ok (cap := 3 * bl) (bl := bl) (by omega)
    (C := fun b i => L.countP (xon bl b i)) (M := fun b i => oxor (xon bl b i) L) hcl
  have hi : XInv bl L [] L (fun _ => []) q (fun b i => L.countP (xon bl b i))
      (fun b i => oxor (xon bl b i) L) :=
    ⟨hq2, fun _ _ _ _ _ => ⟨rfl, rfl⟩, by simp, ⟨by simp, List.Pairwise.nil⟩, by simp, by simp, hq3, by simp⟩
  obtain ⟨s', R', P', q', C', M', h1, h2, hq0⟩ := xorPeelLoop_ok (prof := prof) hbl hL (3 * (3 * bl) + 2 * L.length)
    (s := ⟨HH (3 * bl) (fun b i => L.countP (xon bl b i)) (fun b i => oxor (xon bl b i) L), tab 3 q, []⟩)
    rfl rfl hi (by omega)
  unfold xorAttempt
  rw [xorPopulate hbl (by omega) hL, Res.bind_ok, hq1, Res.bind_ok, h1, Res.bind_ok]
  by_cases hfin : s'.stk.length = L.length
  · rw [if_pos hfin]
    refine ⟨_, rfl, ?_, fun _ _ => ⟨_, rfl⟩⟩
    intro stk hstk
    cases hstk
    have hlen := h2.perm.length_eq
    rw [List.length_append, List.length_map] at hlen
    have hR : R' = [] := List.length_eq_zero_iff.1 (by omega)
    have hp := h2.perm
    rw [hR, List.append_nil] at hp
    refine ⟨hp, h2.ord, ?_⟩
    intro e he
    obtain ⟨b, hb, i, hi, hpe, _⟩ := h2.piv e he
    rw [hpe]
    have : b * bl ≤ 2 * bl := Nat.mul_le_mul_right _ (by omega)
    omega
  · rw [if_neg hfin]
    refine ⟨_, rfl, by simp, ?_⟩
    intro hnd hpeel
    exfalso
    have hlen := h2.perm.length_eq
    rw [List.length_append, List.length_map] at hlen
    have hne : R' ≠ [] := by
      rintro rfl
      simp at hlen
      exact hfin hlen
    have hRnd : R'.Nodup := (List.nodup_append.1 (h2.perm.nodup_iff.2 hnd)).2.1
    obtain ⟨h, s, hh, hon, hu⟩ := hpeel.exists_free hne (fun x hx =>
      h2.perm.mem_iff.1 (List.mem_append_right _ hx))
    have hc := countP_unique hRnd hh hon hu
    obtain ⟨b, hb, rfl⟩ := xorOn_iff.1 hon
    have hi := xorH_lt hbl b h
    have hnp : ∀ e ∈ s'.stk, e.index ≠ xorH b bl h + b * bl := by
      intro e he heq
      have := h2.dead e he
      rw [heq] at this
      omega
    rw [xorOn_cell hb hi] at hc
    have hm := h2.all b hb _ hi (by rw [(h2.live b hb _ hi hnp).1]; exact hc)
    rw [hq0 b hb] at hm
    have := h2.pop0 b hb _ (by simpa using hm)
    omega

/-! ### Assignment -/

/-- The equation of `h` in an Xor filter. -/
def SatXor {w : Nat} (bl : Nat) (f : Nat → BitVec w) (h : U64) : Prop :=
  (fingerprint h).setWidth w =
    f (xorH 0 bl h + 0 * bl) ^^^ f (xorH 1 bl h + 1 * bl) ^^^ f (xorH 2 bl h + 2 * bl)

theorem xorAssign_ok {w : Nat} {bl : Nat} (hbl : 0 < bl) {stk : List KeyIndex}
    (hpl : PeelOrder (xorOn bl) stk) :
    ∃ fp, foldRes (xorAssignStep bl) (List.replicate (3 * bl) 0#w) stk = .ok fp ∧ fp.length = 3 * bl ∧
      ∀ e ∈ stk, SatXor bl (fun i => fp.getD i 0#w) e.hash := by
  obtain ⟨fp, h1, h2, _, h3⟩ := assign_order (on := xorOn bl) (n := 3 * bl) (0#w)
    (xorAssignStep bl) (SatXor bl)
    (by
      intro f f' h he hsat
      unfold SatXor at hsat ⊢
      rw [← he _ (xorOn_iff.2 ⟨0, by omega, rfl⟩), ← he _ (xorOn_iff.2 ⟨1, by omega, rfl⟩),
        ← he _ (xorOn_iff.2 ⟨2, by omega, rfl⟩)]
      exact hsat) (fun _ => 0#w) hpl
    (by
      intro fp e he hlen h0
      have hon := hpl.1 e he
      rw [xorOn_iff] at hon
      have x0 := xorH_lt hbl 0 e.hash
      have x1 := xorH_lt hbl 1 e.hash
      have x2 := xorH_lt hbl 2 e.hash
      have l0 : xorH 0 bl e.hash < fp.length := by omega
      have l1 : xorH 1 bl e.hash + bl < fp.length := by omega
      have l2 : xorH 2 bl e.hash + 2 * bl < fp.length := by omega
      unfold xorAssignStep SatXor
      simp only [rd_ok l0, rd_ok l1, rd_ok l2, Res.bind_ok, Nat.zero_mul, Nat.one_mul, Nat.add_zero]
      rw [← getD_lt (d := 0#w) l0, ← getD_lt (d := 0#w) l1, ← getD_lt (d := 0#w) l2]
      obtain ⟨b, hb, hi⟩ := hon
      have hcase : b = 0 ∨ b = 1 ∨ b = 2 := by omega
      rcases hcase with rfl | rfl | rfl
      · simp only [Nat.zero_mul, Nat.add_zero] at hi
        rw [hi] at h0
        rw [hi, wr_ok l0]
        refine ⟨_, rfl, ?_⟩
        rw [getD_set_self l0, getD_set_ne (by omega), getD_set_ne (by omega), h0]
        generalize fp.getD (xorH 1 bl e.hash + bl) 0#w = a
        generalize fp.getD (xorH 2 bl e.hash + 2 * bl) 0#w = b
        generalize (fingerprint e.hash).setWidth w = c
        ext k hk
        simp only [BitVec.getElem_xor, BitVec.getElem_zero]
        cases a[k] <;> cases b[k] <;> cases c[k] <;> rfl
      · simp only [Nat.one_mul] at hi
        rw [hi] at h0
        rw [hi, wr_ok l1]
        refine ⟨_, rfl, ?_⟩
        rw [getD_set_self l1, getD_set_ne (by omega), getD_set_ne (by omega), h0]
        generalize fp.getD (xorH 0 bl e.hash) 0#w = a
        generalize fp.getD (xorH 2 bl e.hash + 2 * bl) 0#w = b
        generalize (fingerprint e.hash).setWidth w = c
        ext k hk
        simp only [BitVec.getElem_xor, BitVec.getElem_zero]
        cases a[k] <;> cases b[k] <;> cases c[k] <;> rfl
      · rw [hi] at h0
        rw [hi, wr_ok l2]
        refine ⟨_, rfl, ?_⟩
        rw [getD_set_self l2, getD_set_ne (by omega), getD_set_ne (by omega), h0]
        generalize fp.getD (xorH 0 bl e.hash) 0#w = a
        generalize fp.getD (xorH 1 bl e.hash + bl) 0#w = b
        generalize (fingerprint e.hash).setWidth w = c
        ext k hk
        simp only [BitVec.getElem_xor, BitVec.getElem_zero]
        cases a[k] <;> cases b[k] <;> cases c[k] <;> rfl)
    (List.replicate (3 * bl) 0#w) (by simp) (by
      intro e _
      rw [List.getD_eq_getElem?_getD, List.getElem?_replicate]
      split <;> rfl)
  exact ⟨fp, h1, h2, h3⟩

end Chalamet
