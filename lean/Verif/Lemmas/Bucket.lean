import Verif.Lemmas.Hash
import Mathlib.Data.Finset.Max
import Mathlib.Data.List.Perm.Basic

/-! The bucketing loop of the binary fuse filters: it always terminates and permutes the hashes. -/

namespace Chalamet

theorem perm_of_filter_ne {l₁ l₂ : List U64} (hl : l₁.length = l₂.length)
    (h : (l₁.filter (· ≠ 0#64)).Perm (l₂.filter (· ≠ 0#64))) : l₁.Perm l₂ := by
  have key : ∀ l : List U64, l.Perm (List.replicate (l.length - (l.filter (· ≠ 0#64)).length) 0#64 ++
      l.filter (· ≠ 0#64)) := by
    intro l
    induction l with
    | nil => simp
    | cons a as ih =>
      have hle : (as.filter (· ≠ 0#64)).length ≤ as.length := List.length_filter_le _ _
      by_cases ha : a = 0#64
      · subst ha
        simp only [List.length_cons, ne_eq, not_true_eq_false, decide_false, Bool.false_eq_true,
          not_false_eq_true, List.filter_cons_of_neg] at ih ⊢
        rw [show as.length + 1 - (as.filter (fun x => decide (¬ x = 0#64))).length =
          (as.length - (as.filter (fun x => decide (¬ x = 0#64))).length) + 1 by
            simp only [ne_eq] at hle; omega, List.replicate_succ, List.cons_append]
        exact ih.cons _
      · simp only [ne_eq, ha, not_false_eq_true, decide_true, List.filter_cons_of_pos,
          List.length_cons] at ih ⊢
        rw [Nat.add_sub_add_right]
        exact (ih.cons a).trans List.perm_middle.symm
  refine (key l₁).trans (List.Perm.trans ?_ (key l₂).symm)
  rw [hl, h.length_eq]
  exact h.append_left _

theorem set_perm {α : Type} (l : List α) (i : Nat) (h : i < l.length) (v : α) :
    (l.set i v).Perm (v :: l.eraseIdx i) := by
  induction l generalizing i with
  | nil => simp at h
  | cons a as ih =>
    cases i with
    | zero => simp
    | succ i =>
      simp only [List.set_cons_succ, List.eraseIdx_cons_succ]
      exact ((ih i (by simpa using h)).cons a).trans (List.Perm.swap _ _ _)

theorem self_perm_erase {α : Type} (l : List α) (i : Nat) (h : i < l.length) :
    l.Perm (l[i] :: l.eraseIdx i) := by
  have := set_perm l i h l[i]
  rwa [List.set_getElem_self] at this

theorem blockBitsLoop_le (sc : Nat) : ∀ (fuel bb : Nat), bb ≤ blockBitsLoop sc fuel bb ∧
    blockBitsLoop sc fuel bb ≤ bb + fuel := by
  intro fuel
  induction fuel with
  | zero => intro bb; simp [blockBitsLoop]
  | succ n ih =>
    intro bb
    rw [blockBitsLoop]
    split
    · have := ih (bb + 1); omega
    · omega

theorem blockBits_le (sc : Nat) : 1 ≤ blockBits sc ∧ blockBits sc ≤ 33 := by
  have := blockBitsLoop_le sc 32 1
  unfold blockBits
  omega

/-- The probing loop succeeds when some bucket pointer designates a zero entry. -/
theorem probe_ok {bb : Nat} {sp : List Nat} {ro : List U64} (hsp : sp.length = 2 ^ bb)
    (hb : ∀ i (h : i < sp.length), sp[i] < ro.length)
    (hz : ∃ i, ∃ h : i < sp.length, ro.getD sp[i] 1#64 = 0#64) (s : Nat) (hs : s < 2 ^ bb) :
    ∃ i, ∃ h : i < sp.length, probe bb sp ro (2 ^ bb) s = .ok i ∧ ro.getD sp[i] 1#64 = 0#64 := by
  have hpos := Nat.two_pow_pos bb
  obtain ⟨t, ht, hz⟩ := hz
  have hs' : s < sp.length := by omega
  -- distance to the target
  suffices H : ∀ fuel s, s < 2 ^ bb → (t + 2 ^ bb - s) % 2 ^ bb < fuel →
      ∃ i, ∃ h : i < sp.length, probe bb sp ro fuel s = .ok i ∧ ro.getD sp[i] 1#64 = 0#64 from
    H _ s hs (Nat.mod_lt _ hpos)
  intro fuel
  induction fuel with
  | zero => intro s _ h; omega
  | succ n ih =>
    intro s hs hd
    have hs' : s < sp.length := by omega
    have hbs := hb s hs'
    rw [probe, rd_ok hs', Res.bind_ok, rd_ok hbs, Res.bind_ok]
    by_cases hv : ro[sp[s]] = 0#64
    · refine ⟨s, hs', by simp [hv], by rw [getD_lt hbs]; exact hv⟩
    · simp only [hv, ne_eq, not_false_eq_true, if_true]
      have hst : s ≠ t := by
        rintro rfl
        rw [getD_lt hbs] at hz
        exact hv hz
      apply ih _ (Nat.mod_lt _ hpos)
      rcases Nat.lt_or_ge s t with h | h
      · rw [Nat.mod_eq_of_lt (a := s + 1) (by omega)]
        rw [show t + 2 ^ bb - s = (t - s) + 2 ^ bb by omega, Nat.add_mod_right,
          Nat.mod_eq_of_lt (by omega)] at hd
        rw [show t + 2 ^ bb - (s + 1) = (t - (s + 1)) + 2 ^ bb by omega, Nat.add_mod_right,
          Nat.mod_eq_of_lt (by omega)]
        omega
      · rw [Nat.mod_eq_of_lt (by omega)] at hd
        by_cases e : s + 1 = 2 ^ bb
        · rw [e, Nat.mod_self, Nat.sub_zero, Nat.add_mod_right, Nat.mod_eq_of_lt (by omega)]
          omega
        · rw [Nat.mod_eq_of_lt (a := s + 1) (by omega), Nat.mod_eq_of_lt (by omega)]
          omega

/-- Invariant of the bucketing loop. `sp0` are the initial pointers, `vis` the positions written. -/
structure BInv (size bb : Nat) (sp0 : List Nat) (done : List U64) (st : List Nat × List U64)
    (vis : List Nat) : Prop where
  spLen : st.1.length = 2 ^ bb
  roLen : st.2.length = size + 1
  sentinel : st.2.getD size 0#64 = 1#64
  spLe : ∀ i < 2 ^ bb, st.1.getD i 0 ≤ size
  spGe : ∀ i < 2 ^ bb, sp0.getD i 0 ≤ st.1.getD i 0
  visLen : vis.length = done.length
  visIff : ∀ p, p ∈ vis ↔ ∃ i < 2 ^ bb, sp0.getD i 0 ≤ p ∧ p < st.1.getD i 0
  visZero : ∀ p < size, p ∉ vis → st.2.getD p 1#64 = 0#64
  perm : ((st.2.take size).filter (· ≠ 0#64)).Perm (done.filter (· ≠ 0#64))

theorem BInv.exists_zero {size bb : Nat} {sp0 : List Nat} {done : List U64}
    {st : List Nat × List U64} {vis : List Nat} (h0 : sp0.getD 0 0 = 0)
    (I : BInv size bb sp0 done st vis) (hk : done.length < size) :
    ∃ i, ∃ h : i < st.1.length, st.2.getD st.1[i] 1#64 = 0#64 := by
  -- an unvisited position
  have hex : ∃ p < size, p ∉ vis := by
    by_contra hc
    push Not at hc
    have hsub : (List.range size).Subperm vis := by
      apply List.subperm_of_subset List.nodup_range
      intro p hp
      exact hc p (List.mem_range.1 hp)
    have := hsub.length_le
    rw [List.length_range, I.visLen] at this
    omega
  obtain ⟨p, hp, hpv⟩ := hex
  have hpos := Nat.two_pow_pos bb
  let J := (Finset.range (2 ^ bb)).filter fun j => sp0.getD j 0 ≤ p
  have hJ : J.Nonempty := ⟨0, Finset.mem_filter.2 ⟨Finset.mem_range.2 hpos, by rw [h0]; omega⟩⟩
  obtain ⟨j, hj, hmax⟩ := Finset.exists_max_image J (fun j => st.1.getD j 0) hJ
  simp only [J, Finset.mem_filter, Finset.mem_range] at hj hmax
  have hlt : ∀ i < 2 ^ bb, sp0.getD i 0 ≤ p → st.1.getD i 0 ≤ p := by
    intro i hi hle
    by_contra hc
    exact hpv ((I.visIff p).2 ⟨i, hi, hle, by omega⟩)
  have hq : st.1.getD j 0 ∉ vis := by
    intro hv
    obtain ⟨i, hi, h1, h2⟩ := (I.visIff _).1 hv
    have h3 := hlt j hj.1 hj.2
    have := hmax i ⟨hi, by omega⟩
    omega
  have hjl : j < st.1.length := by rw [I.spLen]; exact hj.1
  refine ⟨j, hjl, ?_⟩
  have e : st.1[j] = st.1.getD j 0 := by rw [getD_lt hjl]
  rw [e]
  exact I.visZero _ (by have := hlt j hj.1 hj.2; omega) hq

theorem bucketStep_inv {size bb : Nat} {sp0 : List Nat} {done : List U64}
    {st : List Nat × List U64} {vis : List Nat} (hbb : bb ≤ 64) (h0 : sp0.getD 0 0 = 0)
    (I : BInv size bb sp0 done st vis) (hk : done.length < size) (hash : U64) :
    ∃ st' p, bucketStep bb st hash = .ok st' ∧ BInv size bb sp0 (done ++ [hash]) st' (p :: vis) := by
  obtain ⟨sp, ro⟩ := st
  have spLen := I.spLen
  have roLen := I.roLen
  have spLe := I.spLe
  simp only at spLen roLen spLe
  have hseg : hash.toNat / 2 ^ (64 - bb) < 2 ^ bb := by
    apply Nat.div_lt_of_lt_mul
    rw [← Nat.pow_add, show 64 - bb + bb = 64 by omega]
    exact hash.isLt
  have hb : ∀ i (h : i < sp.length), sp[i] < ro.length := by
    intro i h
    have := spLe i (by omega)
    rw [getD_lt h] at this
    omega
  obtain ⟨i, hi, hpr, hz⟩ := probe_ok spLen hb (I.exists_zero h0 hk) _ hseg
  have hpl := hb i hi
  have hi2 : i < 2 ^ bb := by omega
  have hps : sp[i] < size := by
    have h1 := spLe i hi2
    rw [getD_lt hi] at h1
    rcases Nat.lt_or_eq_of_le h1 with h | h
    · exact h
    · exfalso
      have hs := I.sentinel
      simp only at hs
      rw [← h, getD_lt hpl] at hs
      rw [getD_lt hpl, hs] at hz
      cases hz
  rw [getD_lt hpl] at hz
  refine ⟨(sp.set i (sp[i] + 1), ro.set sp[i] hash), sp[i], ?_, ?_⟩
  · simp only [bucketStep, hpr, Res.bind_ok, rd_ok hi, wr_ok hpl, wr_ok hi]
  · have hspset : ∀ k, (sp.set i (sp[i] + 1)).getD k 0 = if k = i then sp[i] + 1 else sp.getD k 0 := by
      intro k
      simp only [List.getD_eq_getElem?_getD, List.getElem?_set]
      by_cases e : i = k
      · subst e; simp [hi]
      · simp [e, Ne.symm e]
    constructor
    · simpa using spLen
    · simpa using roLen
    · have hs := I.sentinel
      simp only at hs ⊢
      rw [List.getD_eq_getElem?_getD, List.getElem?_set_ne (by omega), ← List.getD_eq_getElem?_getD]
      exact hs
    · intro k hk
      rw [hspset]
      split
      · omega
      · exact spLe k hk
    · intro k hk
      rw [hspset]
      have := I.spGe k hk
      simp only at this
      split
      · rename_i e; subst e; rw [getD_lt hi] at this; omega
      · exact this
    · simp [I.visLen]
    · intro p
      rw [List.mem_cons, I.visIff]
      simp only
      constructor
      · rintro (rfl | ⟨k, hk, h1, h2⟩)
        · refine ⟨i, hi2, ?_, ?_⟩
          · have := I.spGe i hi2
            simp only at this
            rw [getD_lt hi] at this
            exact this
          · rw [hspset]; simp
        · refine ⟨k, hk, h1, ?_⟩
          rw [hspset]
          split
          · rename_i e; subst e; rw [getD_lt hi] at h2; omega
          · exact h2
      · rintro ⟨k, hk, h1, h2⟩
        rw [hspset] at h2
        split at h2
        · rename_i e; subst e
          by_cases e2 : p = sp[k]
          · exact Or.inl e2
          · exact Or.inr ⟨k, hk, h1, by rw [getD_lt hi]; omega⟩
        · exact Or.inr ⟨k, hk, h1, h2⟩
    · intro p hp hv
      rw [List.mem_cons, not_or] at hv
      simp only
      rw [List.getD_eq_getElem?_getD, List.getElem?_set_ne (Ne.symm hv.1), ← List.getD_eq_getElem?_getD]
      exact I.visZero p hp hv.2
    · simp only
      rw [List.take_set]
      have hpt : sp[i] < (ro.take size).length := by rw [List.length_take]; omega
      have hz' : (ro.take size)[sp[i]] = 0#64 := by rw [List.getElem_take]; exact hz
      have p1 := ((self_perm_erase (ro.take size) _ hpt).filter (· ≠ 0#64))
      rw [hz'] at p1
      simp only [ne_eq, not_true_eq_false, decide_false, Bool.false_eq_true,
          not_false_eq_true, List.filter_cons_of_neg] at p1
      have p2 := ((set_perm (ro.take size) _ hpt hash).filter (· ≠ 0#64))
      refine p2.trans ?_
      have p3 := I.perm
      simp only [ne_eq] at p3
      have p4 : (List.filter (fun x => decide (x ≠ 0#64)) ((ro.take size).eraseIdx sp[i])).Perm
        (List.filter (fun x => decide (x ≠ 0#64)) done) := p1.symm.trans p3
      rw [List.filter_append]
      by_cases e : hash = 0#64
      · subst e
        simpa using p4
      · rw [List.filter_cons_of_pos (by simpa using e)]
        refine (p4.cons hash).trans ?_
        simp only [ne_eq, e, not_false_eq_true, decide_true, List.filter_cons_of_pos, List.filter_nil]
        exact (List.perm_append_singleton _ _).symm

/-- The bucketing loop, started on the reset array, terminates and leaves a permutation of the hashes
followed by the sentinel. -/
theorem bucket_ok {size bb : Nat} (hbb : bb ≤ 64) {hashes : List U64} (hl : hashes.length = size) :
    ∃ sp ro, foldRes (bucketStep bb) (startPosInit size bb, List.replicate size 0#64 ++ [1#64]) hashes
        = .ok (sp, ro) ∧ (ro.take size).Perm hashes ∧ ro.drop size = [1#64] := by
  have hpos := Nat.two_pow_pos bb
  have hlen : (startPosInit size bb).length = 2 ^ bb := by simp [startPosInit]
  have hget : ∀ i < 2 ^ bb, (startPosInit size bb).getD i 0 = i * size / 2 ^ bb := by
    intro i hi
    rw [getD_lt (by omega)]
    simp [startPosInit]
  have h0 : (startPosInit size bb).getD 0 0 = 0 := by rw [hget 0 hpos]; simp
  obtain ⟨⟨sp, ro⟩, hr, vis, I⟩ := foldRes_inv (f := bucketStep bb) (l := hashes)
    (s := (startPosInit size bb, List.replicate size 0#64 ++ [1#64]))
    (fun done st => ∃ vis, BInv size bb (startPosInit size bb) done st vis)
    ⟨[], {
      spLen := hlen
      roLen := by simp
      sentinel := by simp [List.getD_eq_getElem?_getD]
      spLe := by
        intro i hi
        rw [hget i hi]
        apply Nat.div_le_of_le_mul
        exact Nat.mul_le_mul_right _ (by omega)
      spGe := fun _ _ => le_refl _
      visLen := rfl
      visIff := by
        intro p
        constructor
        · intro h; simp at h
        · rintro ⟨i, _, h1, h2⟩
          exact absurd h2 (by simp only; omega)
      visZero := by
        intro p hp _
        simp [List.getD_eq_getElem?_getD, List.getElem?_append, hp]
      perm := by simp }⟩
    (by
      rintro done a rest st hd ⟨vis, I⟩
      have hk : done.length < size := by
        rw [← hl, ← hd]; simp
      obtain ⟨st', p, h1, h2⟩ := bucketStep_inv hbb h0 I hk a
      exact ⟨st', h1, _, h2⟩)
  have roLen := I.roLen
  simp only at roLen
  refine ⟨sp, ro, hr, ?_, ?_⟩
  · apply perm_of_filter_ne
    · rw [List.length_take, roLen, hl]; omega
    · exact I.perm
  · have hs := I.sentinel
    simp only at hs
    rw [List.drop_eq_getElem_cons (by omega), List.drop_of_length_le (by omega)]
    rw [getD_lt (by omega)] at hs
    rw [hs]

end Chalamet
