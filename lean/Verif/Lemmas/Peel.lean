import Verif.Lemmas.Count
import Verif.Lemmas.Peels

/-! The enqueueing and peeling loops of the binary fuse filters, and one construction attempt. -/

namespace Chalamet

/-- The enqueueing loop lists the slots holding one key. -/
theorem enqueue_ok {n : Nat} (C : Nat → U8) :
    ∃ q, foldRes (enqueueStep n (tab n C)) [] (List.range n) = .ok q ∧ q.Nodup ∧
      ∀ i, i ∈ q ↔ i < n ∧ (C i).toNat / 4 = 1 := by
  obtain ⟨q, hq, hlen, hnd, hm⟩ := foldRes_inv (f := enqueueStep n (tab n C)) (s := [])
    (l := List.range n)
    (fun done q => q.length ≤ done.length ∧ q.Nodup ∧ ∀ i, i ∈ q ↔ i ∈ done ∧ (C i).toNat / 4 = 1)
    ⟨by simp, by simp, by simp⟩
    (by
      rintro done a rest q hd ⟨hlen, hnd, hm⟩
      have hl : done.length + (rest.length + 1) = n := by
        have := congrArg List.length hd
        simpa using this
      have ha : a < n := by
        have : a ∈ List.range n := by rw [← hd]; simp
        exact List.mem_range.1 this
      have hnotin : a ∉ done := by
        have hnd : (done ++ a :: rest).Nodup := by rw [hd]; exact List.nodup_range
        intro h
        exact (List.nodup_append.1 hnd).2.2 a h a (by simp) rfl
      have hnq : a ∉ q := fun h => hnotin ((hm a).1 h).1
      unfold enqueueStep
      rw [if_neg (by omega), rd_tab _ ha, Res.bind_ok]
      split
      · rename_i h1
        refine ⟨_, rfl, by simp; omega, List.nodup_cons.2 ⟨hnq, hnd⟩, ?_⟩
        intro i
        rw [List.mem_cons, List.mem_append, List.mem_singleton, hm]
        constructor
        · rintro (rfl | ⟨h, h'⟩)
          · exact ⟨Or.inr rfl, h1⟩
          · exact ⟨Or.inl h, h'⟩
        · rintro ⟨h | rfl, h'⟩
          · exact Or.inr ⟨h, h'⟩
          · exact Or.inl rfl
      · rename_i h1
        refine ⟨_, rfl, by simp; omega, hnd, ?_⟩
        intro i
        rw [List.mem_append, List.mem_singleton, hm]
        constructor
        · rintro ⟨h, h'⟩; exact ⟨Or.inl h, h'⟩
        · rintro ⟨h | rfl, h'⟩
          · exact ⟨h, h'⟩
          · exact absurd h' h1)
  refine ⟨q, hq, hnd, ?_⟩
  intro i
  rw [hm, List.mem_range]

/-- The pivot slot of a stack entry. -/
def pivot (g : Geom) (e : U64 × Nat) : Nat := slotN g e.1 e.2

/-- A stack, latest peeled first: the pivot of an entry is a slot of its hash and is not a slot of any
hash peeled later. -/
def Peelable (g : Geom) (stk : List (U64 × Nat)) : Prop :=
  (∀ e ∈ stk, e.2 < 3) ∧ stk.Pairwise fun later earlier => on g (pivot g earlier) later.1 = false

/-- Invariant of the peeling loop: `R'` are the hashes not yet peeled, `D` the pivots used. -/
structure PInv (g : Geom) (n : Nat) (R : List U64) (s : PState) (R' : List U64) (D : List Nat)
    (C : Nat → U8) (H : Nat → U64) : Prop where
  t : s.t = (tab n C, tab n H)
  live : ∀ i < n, i ∉ D → C i = enc (cnt g R' i) (px g R' i) ∧ H i = hx g R' i
  dead : ∀ i ∈ D, cnt g R' i = 0
  fits : Fits g R'
  perm : (s.stk.map Prod.fst ++ R').Perm R
  stk : Peelable g s.stk
  piv : ∀ e ∈ s.stk, pivot g e ∈ D
  qnd : s.q.Nodup
  qlt : ∀ i ∈ s.q, i < n ∧ i ∉ D ∧ cnt g R' i ≤ 1
  qall : ∀ i < n, i ∉ D → cnt g R' i = 1 → i ∈ s.q

theorem nodup_length_lt {n x : Nat} {q : List Nat} (hnd : q.Nodup) (hlt : ∀ i ∈ q, i < n)
    (hx : x < n) (hnx : x ∉ q) : q.length < n := by
  have : (x :: q).Subperm (List.range n) := by
    apply List.subperm_of_subset (List.nodup_cons.2 ⟨hnx, hnd⟩)
    intro i hi
    rcases List.mem_cons.1 hi with rfl | hi
    · exact List.mem_range.2 hx
    · exact List.mem_range.2 (hlt i hi)
  have := this.length_le
  simp at this
  omega

/-- One "other" slot of a peeled key. -/
theorem peelOther_ok {prof : Profile} {n o x : Nat} {q : List Nat} {C : Nat → U8} {H : Nat → U64}
    {h : U64} (hq : q.length < n) (ho : o < n) (hc : 4 ≤ (C o).toNat) :
    peelOther prof n q (tab n C, tab n H) o (BitVec.ofNat 8 x) h =
      .ok (if (C o).toNat / 4 = 2 then o :: q else q,
        tab n (Function.update C o ((C o - 4#8) ^^^ BitVec.ofNat 8 x)),
        tab n (Function.update H o (H o ^^^ h))) := by
  unfold peelOther
  rw [if_neg (by omega)]
  simp only [rd_tab _ ho, Res.bind_ok, unbump_tab ho hc]

/-- The two other slots of a key, in the order the code visits them. -/
def otherSlots (f : Nat) : Nat × Nat := if f = 0 then (1, 2) else if f = 1 then (2, 0) else (0, 1)

theorem h012_reads {g : Geom} {h : U64} {f : Nat} (hf : f < 3) :
    rd [0, slotN g h 1, slotN g h 2, slotN g h 0, slotN g h 1, 0] (f + 1) =
      .ok (slotN g h (otherSlots f).1) ∧
    rd [0, slotN g h 1, slotN g h 2, slotN g h 0, slotN g h 1, 0] (f + 2) =
      .ok (slotN g h (otherSlots f).2) ∧
    mod3 (f + 1) = (otherSlots f).1 ∧ mod3 (f + 2) = (otherSlots f).2 ∧
    (otherSlots f).1 < 3 ∧ (otherSlots f).2 < 3 ∧ (otherSlots f).1 ≠ f ∧ (otherSlots f).2 ≠ f ∧
    (otherSlots f).1 ≠ (otherSlots f).2 := by
  have : f = 0 ∨ f = 1 ∨ f = 2 := by omega
  rcases this with rfl | rfl | rfl <;> simp [otherSlots, mod3, rd]

theorem slot_inj {g : Geom} {n : Nat} {h : U64} (ho : SlotsOk g n h) {i j : Nat} (hi : i < 3)
    (hj : j < 3) (e : slotN g h i = slotN g h j) : i = j := by
  have h1 : i = 0 ∨ i = 1 ∨ i = 2 := by omega
  have h2 : j = 0 ∨ j = 1 ∨ j = 2 := by omega
  have := ho.d01
  have := ho.d02
  have := ho.d12
  rcases h1 with rfl | rfl | rfl <;> rcases h2 with rfl | rfl | rfl <;>
    first | rfl | (exfalso; omega)

theorem slot_lt {g : Geom} {n : Nat} {h : U64} (ho : SlotsOk g n h) (i : Nat) : slotN g h i < n := by
  match i with
  | 0 => exact ho.l0
  | 1 => exact ho.l1
  | k + 2 => exact ho.l2

theorem pos_slot' {g : Geom} {n : Nat} {h : U64} (ho : SlotsOk g n h) {i : Nat} (hi : i < 3) :
    pos g (slotN g h i) h = i := by
  obtain ⟨a, b, c⟩ := pos_slot ho
  have h1 : i = 0 ∨ i = 1 ∨ i = 2 := by omega
  rcases h1 with rfl | rfl | rfl <;> assumption

theorem on_iff {g : Geom} {s : Nat} {h : U64} : on g s h = true ↔ ∃ i < 3, s = slotN g h i := by
  unfold on
  simp only [decide_eq_true_eq]
  constructor
  · rintro (h | h | h)
    · exact ⟨0, by omega, h⟩
    · exact ⟨1, by omega, h⟩
    · exact ⟨2, by omega, h⟩
  · rintro ⟨i, hi, h⟩
    have h1 : i = 0 ∨ i = 1 ∨ i = 2 := by omega
    rcases h1 with rfl | rfl | rfl
    · exact Or.inl h
    · exact Or.inr (Or.inl h)
    · exact Or.inr (Or.inr h)

/-- The slot of a hash with a given position. -/
theorem slot_pos {g : Geom} {n : Nat} {h : U64} {s : Nat} (ho : SlotsOk g n h)
    (hs : on g s h = true) : pos g s h < 3 ∧ slotN g h (pos g s h) = s := by
  obtain ⟨i, hi, rfl⟩ := on_iff.1 hs
  rw [pos_slot' ho hi]
  exact ⟨hi, rfl⟩

theorem peelStep_inv {prof : Profile} {g : Geom} {n size index : Nat} {q : List Nat}
    {R : List U64} {s : PState} {R' : List U64} {D : List Nat} {C : Nat → U8} {H : Nat → U64}
    (ho : ∀ h, SlotsOk g n h) (hsize : R.length ≤ size) (I : PInv g n R s R' D C H)
    (hq : s.q = index :: q) :
    ∃ s' R'' D' C' H', peelStep prof g n size index { s with q := q } = .ok s' ∧
      PInv g n R s' R'' D' C' H' ∧ s'.q.length + 2 * R''.length < s.q.length + 2 * R'.length := by
  have hqnd := I.qnd
  rw [hq] at hqnd
  obtain ⟨hiq, hqnd⟩ := List.nodup_cons.1 hqnd
  obtain ⟨hin, hiD, hic⟩ := I.qlt index (by rw [hq]; simp)
  have hqlt : ∀ i ∈ q, i < n ∧ i ∉ D ∧ cnt g R' i ≤ 1 := fun i hi => I.qlt i (by rw [hq]; simp [hi])
  obtain ⟨hCi, hHi⟩ := I.live index hin hiD
  unfold peelStep
  simp only [I.t, rd_tab _ hin, Res.bind_ok]
  rw [hCi, enc_div (I.fits _) (px_lt _ _ _)]
  by_cases h1 : cnt g R' index = 1
  · rw [if_pos h1]
    obtain ⟨a, R'', hp, hon, hc0, hha, hpa⟩ := cnt_one h1
    have hoa := ho a
    obtain ⟨hf3, hfs⟩ := slot_pos hoa hon
    rw [enc_mod (I.fits _) (px_lt _ _ _), hHi, hha, hpa]
    generalize hf : pos g index a = f at *
    have hlen : s.stk.length + (R''.length + 1) ≤ size := by
      have h2 := I.perm.length_eq
      have h3 := hp.length_eq
      simp at h2 h3
      omega
    rw [if_neg (by omega)]
    obtain ⟨r1, r2, m1, m2, o1lt, o2lt, o1f, o2f, o12⟩ := h012_reads (g := g) (h := a) hf3
    generalize (otherSlots f).1 = o1 at r1 r2 m1 m2 o1lt o2lt o1f o2f o12
    generalize (otherSlots f).2 = o2 at r1 r2 m1 m2 o1lt o2lt o1f o2f o12
    have hne1 : slotN g a o1 ≠ index := fun e => o1f (slot_inj hoa o1lt hf3 (by rw [e, hfs]))
    have hne2 : slotN g a o2 ≠ index := fun e => o2f (slot_inj hoa o2lt hf3 (by rw [e, hfs]))
    have hne12 : slotN g a o1 ≠ slotN g a o2 := fun e => o12 (slot_inj hoa o1lt o2lt e)
    have hcnt : ∀ i, cnt g R' i = cnt g (a :: R'') i := fun i => cnt_perm hp i
    have hpx : ∀ i, px g R' i = px g (a :: R'') i := fun i => px_perm hp i
    have hhx : ∀ i, hx g R' i = hx g (a :: R'') i := fun i => hx_perm hp i
    have hle : ∀ i, cnt g R'' i ≤ cnt g R' i := by intro i; rw [hcnt, cnt_cons]; omega
    have hnD : ∀ i, slotN g a i ∉ D := by
      intro i hd
      have := I.dead _ hd
      rw [hcnt, cnt_slot] at this
      omega
    have hlive : ∀ i, C (slotN g a i) =
        enc (cnt g (a :: R'') (slotN g a i)) (px g (a :: R'') (slotN g a i)) ∧
        H (slotN g a i) = hx g (a :: R'') (slotN g a i) := by
      intro i
      obtain ⟨x, y⟩ := I.live _ (slot_lt hoa i) (hnD i)
      rw [x, y, hcnt, hpx, hhx]
      exact ⟨rfl, rfl⟩
    have hfit : Fits g (a :: R'') := fun i => by rw [← hcnt]; exact I.fits i
    have hge : ∀ i, 4 ≤ (C (slotN g a i)).toNat := by
      intro i
      rw [(hlive i).1, enc_toNat (hfit _) (px_lt _ _ _), cnt_slot]
      omega
    have hdiv : ∀ i, (C (slotN g a i)).toNat / 4 = cnt g R' (slotN g a i) := by
      intro i
      rw [(hlive i).1, enc_div (hfit _) (px_lt _ _ _), hcnt]
    have hl1 := slot_lt hoa o1
    have hl2 := slot_lt hoa o2
    -- first other slot
    have hq1 : q.length < n := nodup_length_lt hqnd (fun i hi => (hqlt i hi).1) hin hiq
    have e1 : rd [0, (hashOfHash a g).2.1.toNat, (hashOfHash a g).2.2.toNat,
        (hashOfHash a g).1.toNat, (hashOfHash a g).2.1.toNat, 0] (f + 1) = .ok (slotN g a o1) := r1
    have e2 : rd [0, (hashOfHash a g).2.1.toNat, (hashOfHash a g).2.2.toNat,
        (hashOfHash a g).1.toNat, (hashOfHash a g).2.1.toNat, 0] (f + 2) = .ok (slotN g a o2) := r2
    simp only [e1, Res.bind_ok, m1, m2]
    rw [peelOther_ok hq1 hl1 (hge o1)]
    simp only [Res.bind_ok, e2]
    -- second other slot
    generalize hq' : (if (C (slotN g a o1)).toNat / 4 = 2 then slotN g a o1 :: q else q) = q'
    have hq'P : q'.Nodup ∧ index ∉ q' ∧ slotN g a o2 ∉ q' ∨ q'.Nodup ∧ index ∉ q' ∧
        cnt g R' (slotN g a o2) ≤ 1 := by
      by_cases h2 : slotN g a o2 ∈ q
      · right
        refine ⟨?_, ?_, (hqlt _ h2).2.2⟩
        · rw [← hq']
          split
          · rename_i h4
            rw [hdiv] at h4
            exact List.nodup_cons.2 ⟨fun h => by have := (hqlt _ h).2.2; omega, hqnd⟩
          · exact hqnd
        · rw [← hq']
          split
          · rw [List.mem_cons, not_or]; exact ⟨hne1.symm, hiq⟩
          · exact hiq
      · left
        refine ⟨?_, ?_, ?_⟩
        · rw [← hq']
          split
          · rename_i h4
            rw [hdiv] at h4
            exact List.nodup_cons.2 ⟨fun h => by have := (hqlt _ h).2.2; omega, hqnd⟩
          · exact hqnd
        · rw [← hq']
          split
          · rw [List.mem_cons, not_or]; exact ⟨hne1.symm, hiq⟩
          · exact hiq
        · rw [← hq']
          split
          · rw [List.mem_cons, not_or]; exact ⟨hne12.symm, h2⟩
          · exact h2
    have hq'nd : q'.Nodup := by rcases hq'P with h | h <;> exact h.1
    have hq'i : index ∉ q' := by rcases hq'P with h | h <;> exact h.2.1
    have hq'len : q'.length ≤ q.length + 1 := by rw [← hq']; split <;> simp
    have hcnt1 : cnt g R'' (slotN g a o1) + 1 = cnt g R' (slotN g a o1) := by rw [hcnt, cnt_slot]
    have hcnt2 : cnt g R'' (slotN g a o2) + 1 = cnt g R' (slotN g a o2) := by rw [hcnt, cnt_slot]
    have hDmem : ∀ i, i ∉ D → i ≠ index → i ∉ index :: D := by
      intro i h1 h2; rw [List.mem_cons, not_or]; exact ⟨h2, h1⟩
    have hq'lt : ∀ i ∈ q', i < n ∧ i ∉ index :: D ∧ cnt g R'' i ≤ 1 := by
      intro i hi
      rw [← hq'] at hi
      split at hi
      · rename_i h4
        rw [hdiv] at h4
        rcases List.mem_cons.1 hi with rfl | hi
        · exact ⟨hl1, hDmem _ (hnD o1) hne1, by omega⟩
        · obtain ⟨x, y, z⟩ := hqlt i hi
          exact ⟨x, hDmem _ y (fun e => hiq (e ▸ hi)), le_trans (hle i) z⟩
      · obtain ⟨x, y, z⟩ := hqlt i hi
        exact ⟨x, hDmem _ y (fun e => hiq (e ▸ hi)), le_trans (hle i) z⟩
    have hq2 : q'.length < n := nodup_length_lt hq'nd (fun i hi => (hq'lt i hi).1) hin hq'i
    have hoffs : ∀ i, i ≠ index → i ≠ slotN g a o1 → i ≠ slotN g a o2 → on g i a = false := by
      intro i hi1 c1 c2
      cases e : on g i a
      · rfl
      · exfalso
        obtain ⟨j, hj, rfl⟩ := on_iff.1 e
        have hjf : j ≠ f := fun e => hi1 (by rw [e, hfs])
        have hj1 : j ≠ o1 := fun e => c1 (by rw [e])
        have hj2 : j ≠ o2 := fun e => c2 (by rw [e])
        omega
    have hu2 : Function.update C (slotN g a o1)
        ((C (slotN g a o1) - 4#8) ^^^ BitVec.ofNat 8 o1) (slotN g a o2) = C (slotN g a o2) := by
      rw [Function.update_apply, if_neg hne12.symm]
    have hu2h : Function.update H (slotN g a o1) (H (slotN g a o1) ^^^ a) (slotN g a o2) =
        H (slotN g a o2) := by
      rw [Function.update_apply, if_neg hne12.symm]
    rw [peelOther_ok hq2 hl2 (by rw [hu2]; exact hge o2)]
    simp only [Res.bind_ok, hu2, hu2h]
    refine ⟨_, R'', index :: D,
      Function.update (Function.update C (slotN g a o1)
        ((C (slotN g a o1) - 4#8) ^^^ BitVec.ofNat 8 o1)) (slotN g a o2)
        ((C (slotN g a o2) - 4#8) ^^^ BitVec.ofNat 8 o2),
      Function.update (Function.update H (slotN g a o1) (H (slotN g a o1) ^^^ a)) (slotN g a o2)
        (H (slotN g a o2) ^^^ a), rfl, ?_, ?_⟩
    · have hxx : ∀ a b : U64, a ^^^ b ^^^ a = b := by
        intro a b; rw [BitVec.xor_comm a b, BitVec.xor_assoc, BitVec.xor_self, BitVec.xor_zero]
      have hupd : ∀ o, o < 3 → (C (slotN g a o) - 4#8) ^^^ BitVec.ofNat 8 o =
          enc (cnt g R'' (slotN g a o)) (px g R'' (slotN g a o)) := by
        intro o h3
        rw [(hlive o).1]
        exact enc_unbump (on_slot g a o) (pos_slot' hoa h3)
      have hupdh : ∀ o, H (slotN g a o) ^^^ a = hx g R'' (slotN g a o) := by
        intro o
        rw [(hlive o).2, hx_cons, on_slot]
        exact hxx _ _
      constructor
      · rfl
      · intro i hi hd
        rw [List.mem_cons, not_or] at hd
        obtain ⟨hi1, hi2⟩ := hd
        simp only [Function.update_apply]
        by_cases c2 : i = slotN g a o2
        · subst c2
          simp only [if_true]
          exact ⟨hupd o2 o2lt, hupdh o2⟩
        · by_cases c1 : i = slotN g a o1
          · subst c1
            simp only [c2, if_true, if_false]
            exact ⟨hupd o1 o1lt, hupdh o1⟩
          · simp only [c1, c2, if_false]
            have hoff : on g i a = false := hoffs i hi1 c1 c2
            have hp0 : pos g i a = 0 := by
              unfold on at hoff
              simp only [decide_eq_false_iff_not, not_or] at hoff
              exact (off_slot hoff.1 hoff.2.1 hoff.2.2).2
            obtain ⟨x, y⟩ := I.live i hi hi2
            rw [x, y, hcnt, hpx, hhx, cnt_cons, px_cons, hx_cons, hoff, hp0]
            simp
      · intro i hi
        rcases List.mem_cons.1 hi with rfl | hi
        · exact hc0
        · have := I.dead i hi
          have := hle i
          omega
      · exact fun i => le_trans (hle i) (I.fits i)
      · simp only [List.map_cons, List.cons_append]
        refine List.Perm.trans ?_ I.perm
        refine List.Perm.trans ?_ (hp.symm.append_left _)
        exact List.perm_middle.symm
      · constructor
        · intro e he
          rcases List.mem_cons.1 he with rfl | he
          · exact hf3
          · exact I.stk.1 e he
        · refine List.pairwise_cons.2 ⟨?_, I.stk.2⟩
          intro e he
          have hd := I.dead _ (I.piv e he)
          rw [hcnt, cnt_cons] at hd
          cases ee : on g (pivot g e) a
          · rfl
          · simp [ee] at hd
      · intro e he
        rcases List.mem_cons.1 he with rfl | he
        · unfold pivot
          simp only
          rw [hfs]
          simp
        · exact List.mem_cons_of_mem _ (I.piv e he)
      · simp only
        rw [hdiv]
        split
        · rename_i h4
          refine List.nodup_cons.2 ⟨?_, hq'nd⟩
          rcases hq'P with h | h
          · exact h.2.2
          · omega
        · exact hq'nd
      · intro i hi
        simp only at hi
        rw [hdiv] at hi
        split at hi
        · rename_i h4
          rcases List.mem_cons.1 hi with rfl | hi
          · exact ⟨hl2, hDmem _ (hnD o2) hne2, by omega⟩
          · exact hq'lt i hi
        · exact hq'lt i hi
      · intro i hi hd hc1
        rw [List.mem_cons, not_or] at hd
        simp only
        rw [hdiv]
        by_cases c2 : i = slotN g a o2
        · subst c2
          rw [if_pos (by omega)]
          simp
        · have : i ∈ q' := by
            rw [← hq', hdiv]
            by_cases c1 : i = slotN g a o1
            · subst c1
              rw [if_pos (by omega)]
              simp
            · have hoff := hoffs i hd.1 c1 c2
              have hm := I.qall i hi hd.2 (by rw [hcnt, cnt_cons, hoff]; simpa using hc1)
              rw [hq, List.mem_cons] at hm
              have hm := hm.resolve_left hd.1
              split
              · exact List.mem_cons_of_mem _ hm
              · exact hm
          split
          · exact List.mem_cons_of_mem _ this
          · exact this
    · have h3 := hp.length_eq
      simp only [List.length_cons] at h3
      rw [hq]
      simp only [List.length_cons]
      have : (if (C (slotN g a o2)).toNat / 4 = 2 then slotN g a o2 :: q' else q').length ≤
          q'.length + 1 := by split <;> simp
      omega
  · rw [if_neg h1]
    refine ⟨_, R', D, C, H, rfl, ?_, ?_⟩
    · exact { t := rfl, live := I.live, dead := I.dead, fits := I.fits, perm := I.perm,
              stk := I.stk, piv := I.piv, qnd := hqnd, qlt := hqlt
              qall := by
                intro i hi hd hc
                have hm := I.qall i hi hd hc
                rw [hq, List.mem_cons] at hm
                exact hm.resolve_left fun e => h1 (e ▸ hc) }
    · rw [hq]; simp

theorem peelLoop_ok {prof : Profile} {g : Geom} {n size : Nat} {R : List U64}
    (ho : ∀ h, SlotsOk g n h) (hsize : R.length ≤ size) :
    ∀ (fuel : Nat) (s : PState) (R' : List U64) (D : List Nat) (C : Nat → U8) (H : Nat → U64),
      PInv g n R s R' D C H → s.q.length + 2 * R'.length ≤ fuel →
      ∃ s' R'', peelLoop prof g n size fuel s = .ok s' ∧ (s'.stk.map Prod.fst ++ R'').Perm R ∧
        Peelable g s'.stk ∧ ∀ i < n, cnt g R'' i ≠ 1 := by
  intro fuel
  have stop : ∀ (s : PState) (R' : List U64) (D : List Nat) (C : Nat → U8) (H : Nat → U64),
      PInv g n R s R' D C H → s.q = [] → ∀ i < n, cnt g R' i ≠ 1 := by
    intro s R' D C H I hq i hi hc
    by_cases hd : i ∈ D
    · have := I.dead i hd
      omega
    · have := I.qall i hi hd hc
      rw [hq] at this
      simp at this
  induction fuel with
  | zero =>
    intro s R' D C H I hle
    have : s.q = [] := List.length_eq_zero_iff.1 (by omega)
    exact ⟨s, R', by simp [peelLoop, this], I.perm, I.stk, stop _ _ _ _ _ I this⟩
  | succ m ih =>
    intro s R' D C H I hle
    cases hq : s.q with
    | nil => exact ⟨s, R', by simp [peelLoop, hq], I.perm, I.stk, stop _ _ _ _ _ I hq⟩
    | cons index q =>
      obtain ⟨s', R'', D', C', H', h1, h2, h3⟩ := peelStep_inv (prof := prof) ho hsize I hq
      obtain ⟨s'', R3, h4, h5⟩ := ih s' R'' D' C' H' h2 (by omega)
      refine ⟨s'', R3, ?_, h5⟩
      rw [peelLoop]
      simp only [hq, h1, Res.bind_ok, h4]

/-- What a successful attempt returns: a peelable stack of exactly the given hashes (repetitions
apart). -/
structure Solved (g : Geom) (hashes : List U64) (stk : List (U64 × Nat)) : Prop where
  peel : Peelable g stk
  mem : ∀ h, h ∈ stk.map Prod.fst ↔ h ∈ hashes

theorem after_count {prof : Profile} {g : Geom} {n size : Nat} {L R : List U64} {c : CState}
    (ho : ∀ h, SlotsOk g n h) (hL : L.length = size) (I : CInv g n L c R) :
    ∃ q p, foldRes (enqueueStep n c.t.1) [] (List.range n) = .ok q ∧
      peelLoop prof g n size (n + 2 * size) { q := q, t := c.t, stk := [] } = .ok p ∧
      (p.stk.length + c.duplicates = size → Solved g L p.stk) ∧
      (L.Nodup → Spec.CanPeel (fun h s => on g s h = true) L → p.stk.length + c.duplicates = size) := by
  have hRl := I.len
  obtain ⟨q, hq, hnd, hm⟩ := enqueue_ok (n := n) (fun s => enc (cnt g R s) (px g R s))
  have hqn : q.length ≤ n := by
    have : q.Subperm (List.range n) :=
      List.subperm_of_subset hnd fun i hi => List.mem_range.2 ((hm i).1 hi).1
    simpa using this.length_le
  have hp : PInv g n R { q := q, t := c.t, stk := [] } R [] (fun s => enc (cnt g R s) (px g R s))
      (fun s => hx g R s) :=
    { t := I.t
      live := fun _ _ _ => ⟨rfl, rfl⟩
      dead := by simp
      fits := I.fits
      perm := by simp
      stk := ⟨by simp, by simp⟩
      piv := by simp
      qnd := hnd
      qlt := by
        intro i hi
        obtain ⟨h1, h2⟩ := (hm i).1 hi
        rw [enc_div (I.fits _) (px_lt _ _ _)] at h2
        exact ⟨h1, by simp, by omega⟩
      qall := by
        intro i hi _ hc
        exact (hm i).2 ⟨hi, by rw [enc_div (I.fits _) (px_lt _ _ _)]; exact hc⟩ }
  obtain ⟨p, R'', h1, h2, h3, h3'⟩ := peelLoop_ok (prof := prof) ho (size := size) (by omega)
    (n + 2 * size) _ _ _ _ _ hp (by simp only; omega)
  have h4 := h2.length_eq
  simp at h4
  refine ⟨q, p, by rw [I.t]; exact hq, h1, ?_, ?_⟩
  rotate_left
  · intro hnd hpeel
    by_contra hs
    have hne : R'' ≠ [] := by
      intro e
      rw [e] at h4
      simp at h4
      omega
    have hRnd : R.Nodup := nodup_of_subperm I.sub hnd
    have hR''nd : R''.Nodup := (List.nodup_append.1 (h2.nodup_iff.2 hRnd)).2.1
    obtain ⟨h, s, hh, hon, huniq⟩ := hpeel.exists_free hne (fun x hx =>
      (I.mem x).1 (h2.mem_iff.1 (List.mem_append_right _ hx)))
    obtain ⟨j, hj, rfl⟩ := on_iff.1 hon
    apply h3' _ (slot_lt (ho h) j)
    exact cnt_unique hR''nd hh hon huniq
  intro hs
  refine ⟨h3, ?_⟩
  have : R'' = [] := List.length_eq_zero_iff.1 (by omega)
  subst this
  rw [List.append_nil] at h2
  intro h
  rw [h2.mem_iff, I.mem]

/-- One attempt from the initial (= reset) arrays: success or a peeling failure that resets the arrays;
never a panic, a divergence or an `error`. -/
theorem attempt_ok {prof : Profile} {lay : Layout} {s : Nat} {size : Nat} {hashes : List U64}
    (hg : lay.geom.WF lay.arrayLen s lay.segmentCount) (hl : hashes.length = size)
    (hload : Fits lay.geom hashes) :
    (∃ stk, attempt prof lay size hashes (BState.init size lay.arrayLen) = .ok (.done stk) ∧
      Solved lay.geom hashes stk) ∨
    attempt prof lay size hashes (BState.init size lay.arrayLen) =
      .ok (.peelFailed (BState.init size lay.arrayLen)) := by
  have ho := fun h => slotsOk hg h
  obtain ⟨sp, ro, hb, hp, hd⟩ := bucket_ok (bb := blockBits lay.segmentCount)
    (by have := blockBits_le lay.segmentCount; omega) hl
  have hload' : Fits lay.geom (ro.take size) := fun x => by rw [cnt_perm hp]; exact hload x
  obtain ⟨c, R, hc, I⟩ := count_ok (prof := prof) ho hload'
  obtain ⟨q, p, hq, hpl, hsol, _⟩ := after_count (prof := prof) (size := size) ho
    (by rw [hp.length_eq, hl]) I
  unfold attempt
  simp only [BState.init, hb, Res.bind_ok, hc, I.err, hq, hpl]
  by_cases h : p.stk.length + c.duplicates = size
  · left
    rw [if_pos h]
    refine ⟨p.stk, by simp, (hsol h).peel, ?_⟩
    intro x
    rw [(hsol h).mem, hp.mem_iff]
  · right
    rw [if_neg h, hd]
    simp

/-- In debug builds a normal return of an attempt has the same meaning without a load hypothesis. -/
theorem attempt_debug {lay : Layout} {s : Nat} {size : Nat} {hashes : List U64} {r : Attempt}
    (hg : lay.geom.WF lay.arrayLen s lay.segmentCount) (hl : hashes.length = size)
    (hr : attempt .debug lay size hashes (BState.init size lay.arrayLen) = .ok r) :
    (∃ stk, r = .done stk ∧ Solved lay.geom hashes stk) ∨
    r = .peelFailed (BState.init size lay.arrayLen) := by
  have ho := fun h => slotsOk hg h
  obtain ⟨sp, ro, hb, hp, hd⟩ := bucket_ok (bb := blockBits lay.segmentCount)
    (by have := blockBits_le lay.segmentCount; omega) hl
  unfold attempt at hr
  simp only [BState.init, hb, Res.bind_ok] at hr
  obtain ⟨c, hc, hr⟩ := Res.bind_eq_ok.1 hr
  obtain ⟨R, I⟩ := count_debug ho hc
  obtain ⟨q, p, hq, hpl, hsol, _⟩ := after_count (prof := .debug) (size := size) ho
    (by rw [hp.length_eq, hl]) I
  simp only [I.err, hq, hpl, Res.bind_ok] at hr
  by_cases h : p.stk.length + c.duplicates = size
  · left
    rw [if_pos h] at hr
    simp at hr
    refine ⟨p.stk, hr.symm, (hsol h).peel, ?_⟩
    intro x
    rw [(hsol h).mem, hp.mem_iff]
  · right
    rw [if_neg h, hd] at hr
    simp at hr
    rw [← hr]
    rfl

/-- An attempt succeeds whenever the hashes are distinct and can be peeled. -/
theorem attempt_complete {prof : Profile} {lay : Layout} {s : Nat} {size : Nat} {hashes : List U64}
    {r : Attempt} (hg : lay.geom.WF lay.arrayLen s lay.segmentCount) (hl : hashes.length = size)
    (hload : prof = .debug ∨ Fits lay.geom hashes) (hnd : hashes.Nodup)
    (hpeel : Spec.CanPeel (fun h s => on lay.geom s h = true) hashes)
    (hr : attempt prof lay size hashes (BState.init size lay.arrayLen) = .ok r) :
    ∃ stk, r = .done stk := by
  have ho := fun h => slotsOk hg h
  obtain ⟨sp, ro, hb, hp, hd⟩ := bucket_ok (bb := blockBits lay.segmentCount)
    (by have := blockBits_le lay.segmentCount; omega) hl
  unfold attempt at hr
  simp only [BState.init, hb, Res.bind_ok] at hr
  obtain ⟨c, hc, hr⟩ := Res.bind_eq_ok.1 hr
  obtain ⟨R, I⟩ : ∃ R, CInv lay.geom lay.arrayLen (ro.take size) c R := by
    rcases hload with rfl | hF
    · exact count_debug ho hc
    · have hload' : Fits lay.geom (ro.take size) := fun x => by rw [cnt_perm hp]; exact hF x
      obtain ⟨c', R, hc', I⟩ := count_ok (prof := prof) ho hload'
      rw [hc] at hc'
      cases hc'
      exact ⟨R, I⟩
  obtain ⟨q, p, hq, hpl, _, hcomp⟩ := after_count (prof := prof) (size := size) ho
    (by rw [hp.length_eq, hl]) I
  simp only [I.err, hq, hpl, Res.bind_ok] at hr
  rw [if_pos (hcomp (hp.nodup_iff.2 hnd) (hpeel.perm hp))] at hr
  simp at hr
  exact ⟨p.stk, hr.symm⟩

/-- A peelable stack, read from the first peeled entry, is a peeling order of its hashes. -/
theorem Peelable.canPeel {g : Geom} {stk : List (U64 × Nat)} (h : Peelable g stk) :
    Spec.CanPeel (fun h s => on g s h = true) (stk.map Prod.fst) := by
  refine ⟨stk.reverse.map Prod.fst, (List.reverse_perm _).map _, ?_⟩
  refine Spec.Peels.of_pivots (p := pivot g) (fun e _ => on_slot g e.1 e.2) ?_
  rw [List.pairwise_reverse]
  refine h.2.imp ?_
  intro a b hab
  rw [hab]
  simp

theorem Peelable.nodup {g : Geom} {stk : List (U64 × Nat)} (h : Peelable g stk) :
    (stk.map Prod.fst).Nodup := by
  unfold List.Nodup
  rw [List.pairwise_map]
  refine h.2.imp ?_
  intro a b hab e
  rw [e] at hab
  unfold pivot at hab
  rw [on_slot] at hab
  simp at hab

/-- The hashes of a solved stack can be peeled. -/
theorem Solved.canPeel {g : Geom} {hashes : List U64} {stk : List (U64 × Nat)}
    (h : Solved g hashes stk) (hnd : hashes.Nodup) :
    Spec.CanPeel (fun h s => on g s h = true) hashes :=
  h.peel.canPeel.perm ((List.perm_ext_iff_of_nodup hnd h.peel.nodup).2 fun x => (h.mem x).symm)

end Chalamet
