import Verif.Lemmas.Peel
import Verif.Lemmas.Agree

/-!
# Slot counters that wrap around (for C80)

In a release build the counter byte of a slot shared by exactly 64 keys wraps around to less than 4, which the counting
loop takes for an error; the next attempt then finds its order array full and probes it forever.
-/

namespace Chalamet

theorem bump_release {n i : Nat} {C : Nat → U8} {H : Nat → U64} (hi : i < n) (x : U8) (h : U64) :
    bump .release (tab n C, tab n H) i x h =
      .ok (tab n (Function.update C i ((C i + 4#8) ^^^ x)), tab n (Function.update H i (H i ^^^ h))) := by
  unfold bump
  simp only [rd_tab _ hi, Res.bind_ok, addC, wr_tab _ hi]

/-- In release builds the counting arrays are those of the hashes modulo 256 whatever the load. -/
theorem bump3_release {g : Geom} {n : Nat} {h : U64} {R : List U64} (ho : SlotsOk g n h) :
    bump3 .release g (T g n R) h = .ok (T g n (h :: R)) := by
  obtain ⟨p0, p1, p2⟩ := pos_slot ho
  unfold bump3 T
  rw [bump_release ho.l0, Res.bind_ok, bump_release ho.l1, Res.bind_ok, bump_release ho.l2]
  congr 2
  · apply tab_congr
    intro s _
    simp only [Function.update_apply, ho.d01.symm, ho.d02.symm, ho.d12.symm, if_false]
    split
    · rename_i e; subst e; exact enc_bump (on_slot g h 2) p2
    · rename_i e2
      split
      · rename_i e; subst e; exact enc_bump (on_slot g h 1) p1
      · rename_i e1
        split
        · rename_i e; subst e; exact enc_bump (on_slot g h 0) p0
        · rename_i e0
          obtain ⟨a, b⟩ := off_slot e0 e1 e2
          rw [cnt_cons, px_cons, a, b]
          simp
  · apply tab_congr
    intro s _
    simp only [Function.update_apply, ho.d01.symm, ho.d02.symm, ho.d12.symm, if_false]
    rw [hx_cons]
    by_cases e2 : s = slotN g h 2
    · subst e2; simp [on_slot, BitVec.xor_comm]
    · by_cases e1 : s = slotN g h 1
      · subst e1; simp [on_slot, ho.d12, BitVec.xor_comm]
      · by_cases e0 : s = slotN g h 0
        · subst e0; simp [on_slot, ho.d01, ho.d02, BitVec.xor_comm]
        · obtain ⟨a, b⟩ := off_slot e0 e1 e2
          simp [a, e0, e1, e2]

theorem enc_64 {p : Nat} (hp : p < 4) : (enc 64 p).toNat = p := by
  unfold enc
  rw [BitVec.toNat_ofNat]
  omega

/-- The key that makes the count of a slot 64. -/
theorem countStep_wrap {g : Geom} {n : Nat} {s : CState} {R : List U64} {h : U64} (ho : SlotsOk g n h)
    (ht : s.t = T g n R) (hR : R.length = 63) (hn : h ∉ R) {i : Nat} (hi : cnt g R (slotN g h i) = 63) :
    ∃ s', countStep .release g s h = .ok s' ∧ s'.error = true := by
  have hle : ∀ x, cnt g (h :: R) x ≤ 64 := fun x => by
    have := List.countP_le_length (p := on g x) (l := h :: R)
    simpa [cnt, hR] using this
  have h8 : ∀ x, enc (cnt g (h :: R) x) (px g (h :: R) x) = 8#8 → cnt g (h :: R) x = 2 := by
    intro x hx
    rcases Nat.lt_or_ge (cnt g (h :: R) x) 64 with h1 | h1
    · exact enc_eq_eight (by omega) (px_lt _ _ _) hx
    · have e : cnt g (h :: R) x = 64 := le_antisymm (hle x) h1
      rw [e] at hx
      have := congrArg BitVec.toNat hx
      rw [enc_64 (px_lt _ _ _)] at this
      have := px_lt g (h :: R) x
      have e8 : (8#8 : U8).toNat = 8 := rfl
      omega
  have hw : (enc (cnt g (h :: R) (slotN g h i)) (px g (h :: R) (slotN g h i))).toNat < 4 := by
    rw [cnt_slot, hi, enc_64 (px_lt _ _ _)]
    exact px_lt _ _ _
  rw [countStep_eq, ht, bump3_release ho, Res.bind_ok]
  simp only [T, rd_tab _ ho.l0, rd_tab _ ho.l1, rd_tab _ ho.l2, Res.bind_ok]
  rw [if_neg]
  · refine ⟨_, rfl, ?_⟩
    simp only [decide_eq_true_eq]
    match i with
    | 0 => exact .inl hw
    | 1 => exact .inr (.inl hw)
    | (_ + 2) => exact .inr (.inr hw)
  · intro hd
    simp only [decide_eq_true_eq] at hd
    rcases hd.2 with ⟨a, b⟩ | ⟨a, b⟩ | ⟨a, b⟩ <;> exact hn (dup_mem a (h8 _ b))

/-- An attempt on 64 different hashes that share a slot ends in an error, with the order array full. -/
theorem attempt_wraps {lay : Layout} {k : Nat} (hg : lay.geom.WF lay.arrayLen k lay.segmentCount) {hashes : List U64}
    (hl : hashes.length = 64) (hnd : hashes.Nodup) {s : Nat} (hs : ∀ h ∈ hashes, on lay.geom s h = true) :
    ∃ st, attempt .release lay 64 hashes (BState.init 64 lay.arrayLen) = .ok (.countError st) ∧
      st.reverseOrder.length = 65 ∧ (∀ v ∈ st.reverseOrder, v ∈ hashes ∨ v = 1#64) := by
  have ho := fun h => slotsOk hg h
  obtain ⟨sp, ro, hb, hp, hd⟩ := bucket_ok (bb := blockBits lay.segmentCount)
    (by have := blockBits_le lay.segmentCount; omega) hl
  have hlen : (ro.take 64).length = 64 := by rw [hp.length_eq, hl]
  obtain ⟨L, h, hLh⟩ : ∃ L h, ro.take 64 = L ++ [h] :=
    ⟨(ro.take 64).dropLast, (ro.take 64).getLast (by intro e; simp [e] at hlen), (List.dropLast_append_getLast _).symm⟩
  have hL : L.length = 63 := by
    have := hlen
    rw [hLh] at this
    simpa using this
  have hnd' : (L ++ [h]).Nodup := by rw [← hLh]; exact hp.nodup_iff.2 hnd
  have hhL : h ∉ L := by
    intro hm
    exact (List.nodup_append.1 hnd').2.2 h hm h (by simp) rfl
  have hfit : Fits lay.geom L := fun x => by
    have := List.countP_le_length (p := on lay.geom x) (l := L)
    rw [hL] at this
    exact this
  obtain ⟨c, R, hc, I⟩ := count_ok (prof := .release) ho hfit
  have hRn : R.Perm L := by
    have hLn := (List.nodup_append.1 hnd').1
    obtain ⟨l, hl1, hl2⟩ := I.sub
    have hRnd : R.Nodup := (hl1.symm.nodup_iff).2 (hl2.nodup hLn)
    exact (List.perm_ext_iff_of_nodup hRnd hLn).2 I.mem
  have hmem : h ∈ hashes := hp.mem_iff.1 (by rw [hLh]; simp)
  obtain ⟨i, hi⟩ : ∃ i, s = slotN lay.geom h i := by
    have := hs h hmem
    unfold on at this
    simp only [decide_eq_true_eq] at this
    rcases this with e | e | e
    · exact ⟨0, e⟩
    · exact ⟨1, e⟩
    · exact ⟨2, e⟩
  have hcnt : cnt lay.geom R (slotN lay.geom h i) = 63 := by
    rw [cnt_perm hRn, ← hi, ← hL]
    unfold cnt
    rw [List.countP_eq_length]
    intro x hx
    exact hs x (hp.mem_iff.1 (by rw [hLh]; simp [hx]))
  obtain ⟨c', hc', herr⟩ := countStep_wrap (ho h) I.t (hRn.length_eq.trans hL) (fun hm => hhL (hRn.mem_iff.1 hm)) hcnt
  refine ⟨{ reverseOrder := ro, t2count := c'.t.1, t2hash := c'.t.2 }, ?_, ?_, ?_⟩
  · unfold attempt
    simp only [BState.init, hb, Res.bind_ok, hLh]
    rw [foldRes_append, hc, Res.bind_ok, foldRes_cons, hc', Res.bind_ok, foldRes_nil, Res.bind_ok, if_pos herr]
  · have := congrArg List.length (List.take_append_drop 64 ro)
    rw [List.length_append, hlen, hd] at this
    simpa using this.symm
  · intro v hv
    have hv' : v ∈ ro := hv
    rw [← List.take_append_drop 64 ro, List.mem_append, hd] at hv'
    rcases hv' with h' | h'
    · exact .inl (hp.mem_iff.1 h')
    · exact .inr (by simpa using h')

/-- Probing a full order array never ends. -/
theorem probe_diverge {bb : Nat} {sp : List Nat} {ro : List U64} (hsp : sp.length = 2 ^ bb)
    (hb : ∀ i (h : i < sp.length), sp[i] < ro.length) (hz : ∀ v ∈ ro, v ≠ 0#64) (fuel s : Nat) (hs : s < 2 ^ bb) :
    probe bb sp ro fuel s = .diverge := by
  induction fuel generalizing s with
  | zero => rfl
  | succ n ih =>
    have hs' : s < sp.length := by omega
    have hbs := hb s hs'
    rw [probe, rd_ok hs', Res.bind_ok, rd_ok hbs, Res.bind_ok, if_pos (hz _ (List.getElem_mem hbs))]
    exact ih _ (Nat.mod_lt _ (Nat.two_pow_pos bb))

/-- An attempt that starts with a full order array never ends. -/
theorem attempt_full {prof : Profile} {lay : Layout} {size : Nat} {hashes : List U64} {st : BState} (hne : hashes ≠ [])
    (hlen : st.reverseOrder.length = size + 1) (hz : ∀ v ∈ st.reverseOrder, v ≠ 0#64) :
    attempt prof lay size hashes st = .diverge := by
  obtain ⟨h, t, rfl⟩ := List.exists_cons_of_ne_nil hne
  have hbb := blockBits_le lay.segmentCount
  generalize hB : blockBits lay.segmentCount = bb at hbb
  have hpos := Nat.two_pow_pos bb
  have hsp : (startPosInit size bb).length = 2 ^ bb := by simp [startPosInit]
  have hidx : h.toNat / 2 ^ (64 - bb) < 2 ^ bb := by
    rw [Nat.div_lt_iff_lt_mul (Nat.two_pow_pos _), ← Nat.pow_add, show bb + (64 - bb) = 64 by omega]
    exact h.isLt
  have hb : ∀ i (h : i < (startPosInit size bb).length), (startPosInit size bb)[i] < st.reverseOrder.length := by
    intro i hi
    rw [hsp] at hi
    simp only [startPosInit, List.getElem_map, List.getElem_range]
    rw [hlen]
    have : i * size / 2 ^ bb ≤ size := by
      apply Nat.div_le_of_le_mul
      exact Nat.mul_le_mul_right _ (by omega)
    omega
  unfold attempt
  rw [hB]
  simp only [foldRes_cons, bucketStep]
  rw [probe_diverge hsp hb hz _ _ hidx]
  rfl

end Chalamet
