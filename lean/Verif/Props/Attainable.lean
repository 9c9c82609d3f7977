import Verif.Props.Sizes
import Verif.Props.Slots

/-!
# C91: the sizes for which a filter can be built at all

C75 shows sizes for which `Fuse` construction fails for every set of keys. Here: for all other sizes (and for all sizes of `Xor`
and `BinaryFuse` filters, within the ranges given) some set of distinct keys is accepted at the first attempt, in every build
and for every initial content.
-/

namespace Chalamet

open Spec

/-- Keys whose hashes use up distinct pivots in increasing order can be peeled. -/
theorem exists_keys_of_pivots (T : U64 → Nat → Prop) (seed : U64) (P : List Nat) (hP : P.Pairwise (· < ·))
    (hex : ∀ p ∈ P, ∃ h, T h p ∧ ∀ q ∈ P, q < p → ¬ T h q) :
    ∃ keys : List U64, keys.length = P.length ∧ keys.Nodup ∧ CanPeel (fun k s => T (mix k seed) s) keys := by
  obtain ⟨inv, hinv⟩ : ∃ inv : U64 → U64, ∀ h, mix (inv h) seed = h := by
    obtain ⟨inv, h⟩ := (C32_mix_bijective seed).2.hasRightInverse
    exact ⟨inv, h⟩
  have hex' : ∀ p, ∃ h, p ∈ P → T h p ∧ ∀ q ∈ P, q < p → ¬ T h q := by
    intro p
    by_cases hp : p ∈ P
    · obtain ⟨h, hh⟩ := hex p hp
      exact ⟨h, fun _ => hh⟩
    · exact ⟨0#64, fun h => absurd h hp⟩
  choose H hH using hex'
  have hpw : P.Pairwise fun p q => ¬ T (H q) p := by
    refine List.Pairwise.imp_of_mem ?_ hP
    intro p q hp hq hlt
    exact (hH q hq).2 p hp hlt
  refine ⟨P.map fun p => inv (H p), by simp, ?_, P.map fun p => inv (H p), List.Perm.refl _, ?_⟩
  · unfold List.Nodup
    rw [List.pairwise_map]
    refine List.Pairwise.imp_of_mem ?_ hpw
    intro p q hp hq hn e
    have := congrArg (fun k => mix k seed) e
    simp only [hinv] at this
    rw [← this] at hn
    exact hn (hH p hp).1
  · refine Peels.of_pivots (p := id) (fun p hp => ?_) ?_
    · simp only [hinv, id]
      exact (hH p hp).1
    · refine hpw.imp ?_
      intro p q h
      simpa only [hinv, id] using h

/-! ## Xor -/

/-- **C91 (Xor8/16/32).** Some `n` distinct keys are accepted at the first attempt, for every `n` up to 2.5 million. -/
theorem C91_xor (n : Nat) (hn : n ≤ 2500000) :
    ∃ keys : List U64, keys.length = n ∧ keys.Nodup ∧ ∀ (w : Nat) (prof : Profile),
      ∃ f : Xor w, Xor.fromWithin w prof (xorC0 n) keys 1 = .ok f := by
  have hc := xorC0_eq (n := n) (by omega)
  set bl := (xorC0 n + 32) / 3 with hbl
  have h1 : bl ≤ 2 ^ 20 := by omega
  have h2 : n + 3 ≤ 3 * bl := by omega
  have h0 : 10 ≤ bl := by omega
  have hash : ∀ a < bl, ∀ b < bl, ∀ c < bl, ∃ h : U64, xorH 0 bl h = a ∧ xorH 1 bl h = b ∧ xorH 2 bl h = c := by
    intro a ha b hb c hc
    obtain ⟨t0, l0, h0⟩ := reduce_window (p := 21) (q := 11) (n := bl) (by omega) ha
    obtain ⟨t1, l1, h1⟩ := reduce_window (p := 21) (q := 11) (n := bl) (by omega) hb
    obtain ⟨t2, l2, h2⟩ := reduce_window (p := 21) (q := 11) (n := bl) (by omega) hc
    exact ⟨windows (BitVec.ofNat 21 t0) (BitVec.ofNat 21 t1) (BitVec.ofNat 21 t2),
      reduce_eq_of_window l0 h0 (windows_0 _ _ _), reduce_eq_of_window l1 h1 (windows_1 _ _ _),
      reduce_eq_of_window l2 h2 (windows_2 _ _ _)⟩
  obtain ⟨keys, hl, hnd, hp⟩ := exists_keys_of_pivots (fun h s => ∃ b < 3, s = xorH b bl h + b * bl)
    (splitmixSeed 1#64 0)
    ((List.range' 1 (bl - 1) ++ List.range' (bl + 1) (bl - 1) ++ List.range' (2 * bl + 1) (bl - 1)).take n)
    (by
      refine List.Pairwise.sublist (List.take_sublist _ _) ?_
      rw [List.pairwise_append, List.pairwise_append]
      refine ⟨⟨List.pairwise_lt_range', List.pairwise_lt_range', ?_⟩, List.pairwise_lt_range', ?_⟩
      · intro a ha b hb
        rw [List.mem_range'_1] at ha hb
        omega
      · intro a ha b hb
        rw [List.mem_append, List.mem_range'_1, List.mem_range'_1] at ha
        rw [List.mem_range'_1] at hb
        omega)
    (by
      have key : ∀ p ∈ List.range' 1 (bl - 1) ++ List.range' (bl + 1) (bl - 1) ++ List.range' (2 * bl + 1) (bl - 1),
          p ≠ 0 ∧ p ≠ bl ∧ p ≠ 2 * bl ∧ ∃ h, (∃ b < 3, p = xorH b bl h + b * bl) ∧
            ∀ s, (∃ b < 3, s = xorH b bl h + b * bl) → s = p ∨ s = 0 ∨ s = bl ∨ s = 2 * bl := by
        intro p hp
        rw [List.mem_append, List.mem_append, List.mem_range'_1, List.mem_range'_1, List.mem_range'_1] at hp
        refine ⟨by omega, by omega, by omega, ?_⟩
        have fin : ∀ (h : U64) (a b c : Nat), xorH 0 bl h = a → xorH 1 bl h = b → xorH 2 bl h = c →
            (p = a ∨ p = b + bl ∨ p = c + 2 * bl) →
            (a = p ∨ a = 0) → (b + bl = p ∨ b = 0) → (c + 2 * bl = p ∨ c = 0) →
            (∃ b < 3, p = xorH b bl h + b * bl) ∧
            ∀ s, (∃ b < 3, s = xorH b bl h + b * bl) → s = p ∨ s = 0 ∨ s = bl ∨ s = 2 * bl := by
          intro h a b c ea eb ec hpv h1 h2 h3
          constructor
          · rcases hpv with e | e | e
            · exact ⟨0, by omega, by rw [ea]; omega⟩
            · exact ⟨1, by omega, by rw [eb]; omega⟩
            · exact ⟨2, by omega, by rw [ec]; omega⟩
          · rintro s ⟨x, hx, rfl⟩
            have : x = 0 ∨ x = 1 ∨ x = 2 := by omega
            rcases this with rfl | rfl | rfl
            · rw [ea]; omega
            · rw [eb]; omega
            · rw [ec]; omega
        rcases hp with (hp | hp) | hp
        · obtain ⟨h, ea, eb, ec⟩ := hash p (by omega) 0 (by omega) 0 (by omega)
          exact ⟨h, fin h _ _ _ ea eb ec (by omega) (by omega) (by omega) (by omega)⟩
        · obtain ⟨h, ea, eb, ec⟩ := hash 0 (by omega) (p - bl) (by omega) 0 (by omega)
          exact ⟨h, fin h _ _ _ ea eb ec (by omega) (by omega) (by omega) (by omega)⟩
        · obtain ⟨h, ea, eb, ec⟩ := hash 0 (by omega) 0 (by omega) (p - 2 * bl) (by omega)
          exact ⟨h, fin h _ _ _ ea eb ec (by omega) (by omega) (by omega) (by omega)⟩
      intro p hp
      obtain ⟨_, _, _, h, e1, e2⟩ := key p (List.mem_of_mem_take hp)
      refine ⟨h, e1, fun q hq hlt ht => ?_⟩
      obtain ⟨q1, q2, q3, _⟩ := key q (List.mem_of_mem_take hq)
      rcases e2 q ht with e | e | e | e
      · omega
      · exact q1 e
      · exact q2 e
      · exact q3 e)
  have hlen : keys.length = n := by
    rw [hl, List.length_take, List.length_append, List.length_append, List.length_range', List.length_range',
      List.length_range']
    omega
  refine ⟨keys, hlen, hnd, fun w prof => ?_⟩
  rcases C57_xor w prof (xorC0 n) keys (by omega) hnd 1 with ⟨f, _, h, _⟩ | ⟨_, h⟩
  · exact ⟨f, h⟩
  · exact absurd hp (h 0 (by omega))

/-! ## Fuse -/

/-- Hashes for small segments: entry `c` of list `L - 1` has the cells `99 L`, `100 L` and `101 L + c`. -/
def fuseTail : List (List U64) :=
  [[2161763722730749952#64], [2161763722730749952#64, 8466874394437791744#64],
   [2161763722730749952#64, 11205016779812229120#64, 8466874394437791744#64],
   [12015670270430603264#64, 2161763722730749952#64, 8088477098381957120#64, 8466874394437791744#64],
   [12015670270430603264#64, 2161763722730749952#64, 11205016779812229120#64, 3008514111368538112#64, 8466874394437791744#64],
   [8989198063227084800#64, 2161763722730749952#64, 11205016779812229120#64, 8088477098381957120#64, 3008514111368538112#64,
    8466874394437791744#64],
   [8989198063227084800#64, 12015670270430603264#64, 2161763722730749952#64, 11205016779812229120#64, 8088477098381957120#64,
    3008514111368538112#64, 8466874394437791744#64]]

theorem fuseTail_cells : ∀ L < 8, ∀ c < L,
    fuseHset L ((fuseTail.getD (L - 1) []).getD c 0#64) = [99 * L, 100 * L, 101 * L + c] := by decide +kernel

/-- A hash with a given starting segment and given cells in the first two segments. -/
theorem fuse_hash {L s a b : Nat} (hL : L ≤ 2 ^ 20) (hs : s < 100) (ha : a < L) (hb : b < L) :
    ∃ (h : U64) (c : Nat), c < L ∧ fuseHset L h = [s * L + a, (s + 1) * L + b, (s + 2) * L + c] := by
  obtain ⟨t0, l0, h0⟩ := reduce_window (p := 21) (q := 11) (n := 100) (by norm_num) hs
  obtain ⟨t1, l1, h1⟩ := reduce_window (p := 21) (q := 11) (n := L) (by omega) ha
  obtain ⟨t2, l2, h2⟩ := reduce_window (p := 21) (q := 11) (n := L) (by omega) hb
  have e0 := reduce_eq_of_window l0 h0 (windows_0 (BitVec.ofNat 21 t0) (BitVec.ofNat 21 t1) (BitVec.ofNat 21 t2))
  have e1 := reduce_eq_of_window l1 h1 (windows_1 (BitVec.ofNat 21 t0) (BitVec.ofNat 21 t1) (BitVec.ofNat 21 t2))
  have e2 := reduce_eq_of_window l2 h2 (windows_2 (BitVec.ofNat 21 t0) (BitVec.ofNat 21 t1) (BitVec.ofNat 21 t2))
  have e : ∀ x : U64, rotl64 x 0 = x := by intro x; simp [rotl64]
  rw [e] at e0
  refine ⟨windows (BitVec.ofNat 21 t0) (BitVec.ofNat 21 t1) (BitVec.ofNat 21 t2), _,
    reduce_lt (((0xbf58476d1ce4e5b9#64 * windows (BitVec.ofNat 21 t0) (BitVec.ofNat 21 t1) (BitVec.ofNat 21 t2))
      >>> 32).setWidth 32) (by omega), ?_⟩
  unfold fuseHset h012
  simp only [e0, e1, e2]

/-- Pivots in increasing order, each with a hash that touches no smaller pivot: `101 L - 1` of them for every segment length,
`102 L - 2` for small ones. -/
theorem fuse_pivots {L n : Nat} (h0 : 0 < L) (hL : L ≤ 2 ^ 20) (hn : n + 1 ≤ 101 * L ∨ (L < 8 ∧ n + 2 ≤ 102 * L)) (seed : U64) :
    ∃ keys : List U64, keys.length = n ∧ keys.Nodup ∧ CanPeel (touchesF L seed) keys := by
  obtain ⟨tail, ht1, ht2, ht3⟩ : ∃ tail : List Nat, tail.Pairwise (· < ·) ∧ n ≤ 101 * L - 2 + tail.length ∧
      ∀ p ∈ tail, 101 * L ≤ p ∧ ∃ h, fuseHset L h = [99 * L, 100 * L, p] := by
    rcases hn with hn | ⟨h8, hn⟩
    · obtain ⟨h, c, hc, e⟩ := fuse_hash (s := 99) hL (by norm_num) h0 h0
      refine ⟨[101 * L + c], by simp, by simp; omega, ?_⟩
      intro p hp
      rw [List.mem_singleton] at hp
      subst hp
      exact ⟨by omega, h, by simpa using e⟩
    · refine ⟨List.range' (101 * L) L, List.pairwise_lt_range', by simp; omega, ?_⟩
      intro p hp
      rw [List.mem_range'_1] at hp
      refine ⟨hp.1, (fuseTail.getD (L - 1) []).getD (p - 101 * L) 0#64, ?_⟩
      · have := fuseTail_cells L h8 (p - 101 * L) (by omega)
        rwa [show 101 * L + (p - 101 * L) = p by omega] at this
  have hpos : ∀ p ∈ List.range (99 * L) ++ List.range' (99 * L + 1) (L - 1) ++ List.range' (100 * L + 1) (L - 1) ++ tail,
      p ≠ 99 * L ∧ p ≠ 100 * L ∧ ∃ h, p ∈ fuseHset L h ∧ ∀ x ∈ fuseHset L h, p ≤ x ∨ x = 99 * L ∨ x = 100 * L := by
    intro p hp
    rw [List.mem_append, List.mem_append, List.mem_append, List.mem_range, List.mem_range'_1, List.mem_range'_1] at hp
    have low : p < 100 * L → p ≠ 99 * L → p ≠ 99 * L ∧ p ≠ 100 * L ∧ ∃ h, p ∈ fuseHset L h ∧
        ∀ x ∈ fuseHset L h, p ≤ x ∨ x = 99 * L ∨ x = 100 * L := by
      intro hlt hne
      obtain ⟨h, c, hc, e⟩ := fuse_hash (s := p / L) (a := p % L) (b := 0) hL
        ((Nat.div_lt_iff_lt_mul h0).2 hlt) (Nat.mod_lt _ h0) h0
      have hdm : p / L * L + p % L = p := by rw [Nat.mul_comm]; exact Nat.div_add_mod p L
      have hml := Nat.mod_lt p h0
      refine ⟨hne, by omega, h, by rw [e, hdm]; simp, ?_⟩
      intro x hx
      rw [e, hdm] at hx
      simp only [List.mem_cons, List.not_mem_nil, or_false, Nat.add_mul] at hx
      omega
    rcases hp with ((hp | hp) | hp) | hp
    · exact low (by omega) (by omega)
    · exact low (by omega) (by omega)
    · obtain ⟨h, c, hc, e⟩ := fuse_hash (s := 99) (a := 0) (b := p - 100 * L) hL (by norm_num) h0 (by omega)
      refine ⟨by omega, by omega, h, ?_, ?_⟩
      · rw [e]
        simp only [List.mem_cons]
        omega
      · intro x hx
        rw [e] at hx
        simp only [List.mem_cons, List.not_mem_nil, or_false] at hx
        omega
    · obtain ⟨h1, h, e⟩ := ht3 p hp
      refine ⟨by omega, by omega, h, by rw [e]; simp, ?_⟩
      intro x hx
      rw [e] at hx
      simp only [List.mem_cons, List.not_mem_nil, or_false] at hx
      omega
  obtain ⟨keys, hl, hnd, hp⟩ := exists_keys_of_pivots (fun h s => s ∈ fuseHset L h) seed
    ((List.range (99 * L) ++ List.range' (99 * L + 1) (L - 1) ++ List.range' (100 * L + 1) (L - 1) ++ tail).take n)
    (by
      refine List.Pairwise.sublist (List.take_sublist _ _) ?_
      rw [List.pairwise_append, List.pairwise_append, List.pairwise_append]
      refine ⟨⟨⟨List.pairwise_lt_range, List.pairwise_lt_range', ?_⟩, List.pairwise_lt_range', ?_⟩, ht1, ?_⟩
      · intro a ha b hb
        rw [List.mem_range] at ha
        rw [List.mem_range'_1] at hb
        omega
      · intro a ha b hb
        rw [List.mem_append, List.mem_range, List.mem_range'_1] at ha
        rw [List.mem_range'_1] at hb
        omega
      · intro a ha b hb
        rw [List.mem_append, List.mem_append, List.mem_range, List.mem_range'_1, List.mem_range'_1] at ha
        have := (ht3 b hb).1
        omega)
    (by
      intro p hp
      obtain ⟨_, _, h, e1, e2⟩ := hpos p (List.mem_of_mem_take hp)
      refine ⟨h, e1, fun q hq hlt ht => ?_⟩
      obtain ⟨q1, q2, _⟩ := hpos q (List.mem_of_mem_take hq)
      rcases e2 q ht with e | e | e
      · omega
      · exact q1 e
      · exact q2 e)
  refine ⟨keys, ?_, hnd, hp⟩
  rw [hl, List.length_take, List.length_append, List.length_append, List.length_append, List.length_range, List.length_range',
    List.length_range']
  omega

/-- **C91 (Fuse8/16/32).** From 90 keys on (up to 94 million): with the `102 L` cells the constructor computes for `n` keys, some
`n` distinct keys are accepted, at the first attempt, in every build and for every initial content, if and only if
`n + 2 ≤ 102 L`. -/
theorem C91_fuse (n : Nat) (h90 : 90 ≤ n) (hn : n ≤ 94000000) :
    (∃ keys : List U64, keys.length = n ∧ keys.Nodup ∧ ∀ (w : Nat) (prof : Profile) (fp0 : Nat → BitVec w),
      ∃ f, Fuse.tryFrom w prof (fuseC0 n) fp0 keys = .ok f ∧ f.seed = splitmixSeed 1#64 0) ↔
    n + 2 ≤ 1000 * n / 879 / 102 * 102 := by
  have hc := fuseC0_eq (n := n) (by omega)
  constructor
  · rintro ⟨keys, hl, hnd, h⟩
    by_contra hlt
    obtain ⟨f, hf, _⟩ := h 8 .release (fun _ => 0#8)
    have := C75_fuse_too_small 8 .release (fun _ => 0#8) keys (by omega) (by omega) hnd (by rw [hl]; omega)
    rw [hl, hf] at this
    cases this
  · intro hfit
    rw [← hc] at hfit
    have hb : fuseC0 n * 879 ≤ 1000 * n ∧ 1000 * n < fuseC0 n * 879 + 879 := by rw [hc]; omega
    obtain ⟨keys, hl, hnd, hp⟩ := fuse_pivots (L := fuseC0 n / 102) (n := n) (by omega) (by omega)
      (by clear hc; omega) (splitmixSeed 1#64 0)
    refine ⟨keys, hl, hnd, fun w prof fp0 => ?_⟩
    rcases C57_fuse w prof (fuseC0 n) (by omega) fp0 keys (by omega) hnd with ⟨f, t, h, _, hs, _, hno⟩ | ⟨_, h⟩
    · refine ⟨f, h, ?_⟩
      rw [hs]
      rcases Nat.eq_zero_or_pos t with rfl | ht
      · rfl
      · exact absurd hp (hno 0 ht)
    · exact absurd hp (h 0 (by omega))

/-! ## Binary fuse -/

/-- The cells of the `t`-th key of the construction, and its pivot: no earlier key touches it. The first `3 L - 2` keys use up all
but two of the cells of the first three segments, the others one cell each of the segments after these. -/
def bfEdge (L t : Nat) : Nat × Nat × Nat × Nat :=
  if t < 3 * L - 2 then
    if t % 3 = 0 then (t / 3, L + t / 3, 2 * L + t / 3, 2 * L + t / 3)
    else if t % 3 = 1 then (t / 3 + 1, L + t / 3, 2 * L + t / 3, t / 3 + 1)
    else (t / 3 + 1, L + t / 3 + 1, 2 * L + t / 3, L + t / 3 + 1)
  else (t + 2 - 2 * L, t + 2 - L, t + 2, t + 2)

/-- Slot `s` is one of the three cells. -/
def onEdge (e : Nat × Nat × Nat × Nat) (s : Nat) : Prop := s = e.1 ∨ s = e.2.1 ∨ s = e.2.2.1

theorem bfEdge_pivot (L t : Nat) : onEdge (bfEdge L t) (bfEdge L t).2.2.2 := by
  unfold bfEdge onEdge
  split_ifs <;> simp

theorem bfEdge_fresh {L t u : Nat} (hL : 0 < L) (h : u < t) : ¬ onEdge (bfEdge L u) (bfEdge L t).2.2.2 := by
  unfold bfEdge onEdge
  split_ifs <;> simp only <;> omega

theorem bfEdge_segments {L k t : Nat} (hL : 0 < L) (hk : 0 < k) (ht : t + 2 < (k + 2) * L) :
    (bfEdge L t).1 < k * L ∧ (bfEdge L t).2.1 / L = (bfEdge L t).1 / L + 1 ∧
      (bfEdge L t).2.2.1 / L = (bfEdge L t).1 / L + 2 ∧ (bfEdge L t).2.2.1 < (k + 2) * L ∧
      (bfEdge L t).2.1 < (k + 2) * L := by
  rw [Nat.add_mul] at *
  have hkL : L ≤ k * L := Nat.le_mul_of_pos_left L hk
  have e0 : ∀ x, x < L → x / L = 0 := fun x h => Nat.div_eq_of_lt h
  have e1 : ∀ x, (L + x) / L = x / L + 1 := fun x => by rw [Nat.add_comm, Nat.add_div_right _ hL]
  have e2 : ∀ x, (2 * L + x) / L = x / L + 2 := fun x => by rw [Nat.add_comm, Nat.add_mul_div_right _ _ hL]
  unfold bfEdge
  split_ifs with h1 h2 h3
  · simp only [e1, e2]
    refine ⟨?_, trivial, trivial, ?_, ?_⟩ <;> omega
  · simp only [e1, e2, e0 (t / 3) (by omega), e0 (t / 3 + 1) (by omega)]
    refine ⟨?_, trivial, trivial, ?_, ?_⟩ <;> omega
  · simp only [Nat.add_assoc L, e1, e2, e0 (t / 3) (by omega), e0 (t / 3 + 1) (by omega)]
    refine ⟨?_, trivial, trivial, ?_, ?_⟩ <;> omega
  · simp only
    have a1 : t + 2 - L = L + (t + 2 - 2 * L) := by omega
    have a2 : (t + 2) / L = (t + 2 - 2 * L) / L + 2 := by
      rw [← e2]; congr 1; omega
    rw [a1, e1, a2]
    omega

/-- At most twelve keys share a slot. -/
theorem bfEdge_load {L t s : Nat} (hL : 0 < L) (h : onEdge (bfEdge L t) s) :
    t ∈ [3 * s, 3 * s - 2, 3 * s - 1, s + 2 * L - 2, 3 * (s - L), 3 * (s - L) + 1, 3 * (s - L) - 1, s + L - 2,
      3 * (s - 2 * L), 3 * (s - 2 * L) + 1, 3 * (s - 2 * L) + 2, s - 2] := by
  simp only [List.mem_cons, List.not_mem_nil, or_false]
  unfold bfEdge onEdge at h
  split_ifs at h <;> simp only at h <;> rcases h with h | h | h <;>
    (repeat first | (left; omega) | right | omega)

/-- A binary fuse filter that was returned (release builds: with a seed that loads no slot with 64 or more keys) has at least two
cells more than distinct keys. -/
theorem C91_binary_fuse_bound (w : Nat) (prof : Profile) (segExp cap0 : Nat) (fp0 : Nat → BitVec w) (keys : List U64)
    (hnd : keys.Nodup) (lay : Layout) (hlay : bfLayout keys.length segExp cap0 = .ok lay) (f : BinaryFuse w)
    (hf : BinaryFuse.tryFrom w prof segExp cap0 fp0 keys = .ok f)
    (hload : prof = .debug ∨ ∀ s, slotLoadX f.geom f.seed keys s < 64) : keys.length + 2 ≤ lay.arrayLen := by
  obtain ⟨sx, _, hg⟩ := bfLayout_wf hlay
  rcases List.eq_nil_or_concat keys with rfl | ⟨_, _, hk⟩
  · have h1 := hg.len_eq
    have h2 := Nat.two_pow_pos sx
    have h3 := Nat.mul_le_mul (Nat.le_add_left 2 lay.segmentCount) h2
    simp only [List.length_nil]
    omega
  have hne : keys ≠ [] := by rw [hk]; simp
  unfold BinaryFuse.tryFrom at hf
  rw [bfuseXFromImpl_eq, hlay] at hf
  split at hf
  · cases hf
  rw [Res.bind_ok] at hf
  obtain ⟨⟨stk, sd⟩, hb, hf⟩ := Res.bind_eq_ok.1 hf
  obtain ⟨fp, ha, hf⟩ := Res.bind_eq_ok.1 hf
  cases hf
  have hp := ((bfx_success hg hb).2 hload).canPeel (mix_nodup hnd sd)
  have := hp.length_le (N := lay.arrayLen) (by simpa using hne) (fun h _ =>
      have o := slotsOk hg h
      ⟨{slotN lay.geom h 0, slotN lay.geom h 1, slotN lay.geom h 2}, by
        rw [Finset.card_eq_three]
        exact ⟨_, _, _, o.d01, o.d02, o.d12, rfl⟩, by
        intro s hs
        simp only [Finset.mem_insert, Finset.mem_singleton] at hs
        rcases hs with rfl | rfl | rfl <;> exact on_slot _ _ _⟩) (by
    intro h _ s hs
    have o := slotsOk hg h
    unfold on at hs
    rw [decide_eq_true_eq] at hs
    rcases hs with rfl | rfl | rfl
    · exact o.l0
    · exact o.l1
    · exact o.l2)
  simpa using this

/-- Enough cells: the keys. -/
theorem binary_fuse_keys (n segExp cap0 : Nat) (lay : Layout) (hlay : bfLayout n segExp cap0 = .ok lay)
    (hsmall : lay.arrayLen ≤ 2 ^ 27) (hfit : n + 2 ≤ lay.arrayLen) :
    ∃ keys : List U64, keys.length = n ∧ keys.Nodup ∧ ∀ (w : Nat) (prof : Profile) (fp0 : Nat → BitVec w),
      ∃ f, BinaryFuse.tryFrom w prof segExp cap0 fp0 keys = .ok f ∧ f.seed = splitmixSeed 1#64 0 := by
  obtain ⟨sx, _, hg⟩ := bfLayout_wf hlay
  set L := lay.geom.segmentLength.toNat with hL
  have h0 : 0 < L := by rw [hL, hg.sl]; exact Nat.two_pow_pos sx
  have hlen : (lay.segmentCount + 2) * L = lay.arrayLen := by rw [← hg.len_eq, ← hg.sl]
  have hH : ∀ t, ∃ h : U64, t < n → ∀ s, on lay.geom s h = true ↔ onEdge (bfEdge L t) s := by
    intro t
    by_cases ht : t < n
    · obtain ⟨s1, s2, s3, s4, s5⟩ := bfEdge_segments (k := lay.segmentCount) (t := t) h0 hg.kpos (by omega)
      obtain ⟨h, e⟩ := C64_binary_fuse_hash n segExp cap0 lay hlay hsmall _ _ _ s1 s2 s3
      refine ⟨h, fun _ s => ?_⟩
      have s6 : lay.segmentCount * L ≤ lay.arrayLen := by rw [← hlen]; exact Nat.mul_le_mul_right _ (Nat.le_add_right _ 2)
      unfold on slotN onEdge
      rw [e]
      simp only [BitVec.toNat_ofNat, decide_eq_true_eq]
      rw [Nat.mod_eq_of_lt (by omega), Nat.mod_eq_of_lt (by omega), Nat.mod_eq_of_lt (by omega)]
    · exact ⟨0#64, fun h => absurd h ht⟩
  choose H hH using hH
  obtain ⟨inv, hinv⟩ : ∃ inv : U64 → U64, ∀ h, mix (inv h) (splitmixSeed 1#64 0) = h := by
    obtain ⟨inv, h⟩ := (C32_mix_bijective (splitmixSeed 1#64 0)).2.hasRightInverse
    exact ⟨inv, h⟩
  set keys := (List.range n).reverse.map fun t => inv (H t) with hkeys
  have hlen : keys.length = n := by simp [hkeys]
  have hmem : ∀ t ∈ (List.range n).reverse, t < n := fun t ht => by simpa using ht
  have hpw : (List.range n).reverse.Pairwise fun t u => ¬ on lay.geom (bfEdge L t).2.2.2 (H u) = true := by
    refine List.Pairwise.imp_of_mem ?_ (List.pairwise_reverse.2 (List.pairwise_lt_range (n := n)))
    intro t u ht hu hlt
    rw [hH u (hmem u hu)]
    exact bfEdge_fresh h0 hlt
  have hpiv : ∀ t ∈ (List.range n).reverse, on lay.geom (bfEdge L t).2.2.2 (H t) = true := fun t ht =>
    (hH t (hmem t ht) _).2 (bfEdge_pivot L t)
  have hnd : keys.Nodup := by
    unfold List.Nodup
    rw [hkeys, List.pairwise_map]
    refine List.Pairwise.imp_of_mem ?_ hpw
    intro t u ht hu hn e
    have := congrArg (fun k => mix k (splitmixSeed 1#64 0)) e
    simp only [hinv] at this
    rw [← this] at hn
    exact hn (hpiv t ht)
  have hmap : keys.map (fun k => mix k (splitmixSeed 1#64 0)) = (List.range n).reverse.map H := by
    rw [hkeys, List.map_map]
    exact List.map_congr_left fun p _ => hinv (H p)
  have hpeel : CanPeel (touchesX lay.geom (splitmixSeed 1#64 0)) keys := by
    rw [touchesX_canPeel, hmap]
    exact ⟨_, List.Perm.refl _, Peels.of_pivots (p := fun t => (bfEdge L t).2.2.2) hpiv hpw⟩
  refine ⟨keys, hlen, hnd, fun w prof fp0 => ?_⟩
  rcases C57_binary_fuse w prof segExp cap0 fp0 keys lay (by rw [hlen]; exact hlay) hnd (by
    intro t _ ht s
    rcases Nat.eq_zero_or_pos t with rfl | hpos
    · rw [slotLoadX_eq, hmap]
      unfold cnt
      rw [List.countP_map, List.countP_eq_length_filter]
      have hsub : ((List.range n).reverse.filter ((on lay.geom s) ∘ H)) ⊆ [3 * s, 3 * s - 2, 3 * s - 1, s + 2 * L - 2,
          3 * (s - L), 3 * (s - L) + 1, 3 * (s - L) - 1, s + L - 2,
          3 * (s - 2 * L), 3 * (s - 2 * L) + 1, 3 * (s - 2 * L) + 2, s - 2] := by
        intro p hp
        rw [List.mem_filter] at hp
        exact bfEdge_load h0 ((hH p (hmem p hp.1) s).1 hp.2)
      have := (((List.nodup_reverse.2 List.nodup_range).filter _).subperm hsub).length_le
      simp only [List.length_cons, List.length_nil] at this
      omega
    · exact absurd hpeel (ht 0 hpos)) with ⟨f, t, h, _, hs, _, hno⟩ | ⟨_, h⟩
  · refine ⟨f, h, ?_⟩
    rw [hs]
    rcases Nat.eq_zero_or_pos t with rfl | ht
    · rfl
    · exact absurd hpeel (hno 0 ht)
  · exact absurd hpeel (h 0 (by omega))

/-- **C91 (BinaryFuse8/16/32, any sizes).** With any layout of at most `2^27` cells for `n` keys: some `n` distinct keys are
accepted, at the first attempt, in every build and for every initial content, if and only if `n + 2` is at most the number of
cells. -/
theorem C91_binary_fuse (n segExp cap0 : Nat) (lay : Layout) (hlay : bfLayout n segExp cap0 = .ok lay)
    (hsmall : lay.arrayLen ≤ 2 ^ 27) :
    (∃ keys : List U64, keys.length = n ∧ keys.Nodup ∧ ∀ (w : Nat) (prof : Profile) (fp0 : Nat → BitVec w),
      ∃ f, BinaryFuse.tryFrom w prof segExp cap0 fp0 keys = .ok f ∧ f.seed = splitmixSeed 1#64 0) ↔
    n + 2 ≤ lay.arrayLen := by
  constructor
  · rintro ⟨keys, rfl, hnd, h⟩
    obtain ⟨f, hf, _⟩ := h 8 .debug (fun _ => 0#8)
    exact C91_binary_fuse_bound 8 .debug segExp cap0 _ keys hnd lay hlay f hf (Or.inl rfl)
  · exact binary_fuse_keys n segExp cap0 lay hlay hsmall

/-- For 2^15 keys or more a segment holds at most a seventeenth of the keys. -/
theorem segment_le {n e : Nat} (hn : 2 ^ 15 ≤ n) (he : (e : ℝ) ≤ idealExp n + 1 / 2 ^ 36) : 17 * 2 ^ e ≤ n := by
  have hl2 : 0 < Real.log 2 := Real.log_pos (by norm_num)
  have h3 : 59 * Real.log 2 ≤ 34 * Real.log 3.33 := by
    have : Real.log ((2 : ℝ) ^ 59) ≤ Real.log ((3.33 : ℝ) ^ 34) := Real.log_le_log (by norm_num) (by norm_num)
    rw [Real.log_pow, Real.log_pow] at this
    exact_mod_cast this
  have h17 : 11 * Real.log 17 ≤ 45 * Real.log 2 := by
    have : Real.log ((17 : ℝ) ^ 11) ≤ Real.log ((2 : ℝ) ^ 45) := Real.log_le_log (by norm_num) (by norm_num)
    rw [Real.log_pow, Real.log_pow] at this
    exact_mod_cast this
  have hx : 15 * Real.log 2 ≤ Real.log n := by
    have : Real.log ((2 : ℝ) ^ 15) ≤ Real.log n := Real.log_le_log (by norm_num) (by exact_mod_cast hn)
    rw [Real.log_pow] at this
    exact_mod_cast this
  have h3' : 0 < Real.log 3.33 := by linarith
  have hq : Real.log n / Real.log 3.33 * Real.log 2 ≤ 34 / 59 * Real.log n := by
    rw [div_mul_eq_mul_div, div_le_iff₀ h3']
    have := mul_le_mul_of_nonneg_left h3 (by linarith : (0 : ℝ) ≤ Real.log n)
    nlinarith
  have he' : (e : ℝ) * Real.log 2 ≤ 34 / 59 * Real.log n + 2.2501 * Real.log 2 := by
    have h36 : (1 : ℝ) / 2 ^ 36 ≤ 0.0001 := by norm_num
    unfold idealExp at he
    have : (e : ℝ) ≤ Real.log n / Real.log 3.33 + 2.2501 := by linarith
    have := mul_le_mul_of_nonneg_right this hl2.le
    rw [add_mul] at this
    linarith
  have hlog : Real.log (17 * 2 ^ e) ≤ Real.log n := by
    rw [Real.log_mul (by norm_num) (by positivity), Real.log_pow]
    linarith
  have hn0 : (0 : ℝ) < n := by exact_mod_cast (by omega : 0 < n)
  have := (Real.log_le_log_iff (by positivity) hn0).1 hlog
  exact_mod_cast this

/-- The layout of an empty or one-element filter. -/
theorem bfLayout_tiny (n segExp cap0 : Nat) (h : n ≤ 1) :
    ∃ lay, bfLayout n segExp cap0 = .ok lay ∧ n + 2 ≤ lay.arrayLen ∧ lay.arrayLen ≤ 2 ^ 27 := by
  obtain ⟨s, hs, e⟩ := segmentLength_pow n segExp
  have h1 := Nat.two_pow_pos s
  have h2 : 2 ^ s ≤ 2 ^ 18 := Nat.pow_le_pow_right (by omega) hs
  have e1 : (0 + 2 ^ s - 1) / 2 ^ s = 0 := Nat.div_eq_of_lt (by omega)
  unfold bfLayout
  simp only [e, if_neg (show ¬ n > 1 by omega), e1, Nat.zero_mul]
  rw [if_neg (by simp; omega)]
  refine ⟨_, rfl, ?_, ?_⟩ <;> simp <;> omega

/-- From 11 keys on the segments have at least 16 cells. -/
theorem idealExp_11 {n : Nat} (h : 11 ≤ n) : 4.01 < idealExp n := by
  unfold idealExp
  have h3 : 0 < Real.log 3.33 := Real.log_pos (by norm_num)
  have h1 : 45 * Real.log 3.33 ≤ 25 * Real.log 11 := by
    have : Real.log ((3.33 : ℝ) ^ 45) ≤ Real.log ((11 : ℝ) ^ 25) := Real.log_le_log (by norm_num) (by norm_num)
    rw [Real.log_pow, Real.log_pow] at this
    exact_mod_cast this
  have h2 : Real.log 11 ≤ Real.log n := Real.log_le_log (by norm_num) (by exact_mod_cast h)
  have : 1.8 ≤ Real.log n / Real.log 3.33 := by
    rw [le_div_iff₀ h3]
    linarith
  linarith

/-- With the sizes the library computes there are always at least two cells more than keys. -/
theorem sized_fits (log : ℚ → ℚ) (hlog : LogAccurate log) (n : Nat) (hhi : n ≤ 100000000) :
    ∃ lay, bfLayout n (bfSegExp log n) (bfCap0 log n) = .ok lay ∧ n + 2 ≤ lay.arrayLen ∧ lay.arrayLen ≤ 2 ^ 27 := by
  by_cases h2 : n ≤ 1
  · exact bfLayout_tiny n _ _ h2
  obtain ⟨lay, e, hlay, hsl, he, he', _, h98, _, _, hup⟩ := C76_layout log hlog n (by omega) (by omega)
  obtain ⟨sx, _, hg⟩ := bfLayout_wf hlay
  refine ⟨lay, hlay, ?_, ?_⟩
  · by_cases h13 : 13 ≤ n
    · omega
    have h36 : (1 : ℝ) / 2 ^ 36 ≤ 0.0001 := by norm_num
    have h3 : 3 * lay.geom.segmentLength.toNat ≤ lay.arrayLen := by
      rw [← hg.len_eq, hg.sl]
      exact Nat.mul_le_mul_right _ (by have := hg.kpos; omega)
    have hmin : ∀ a, a ≤ e → a ≤ 18 → 2 ^ a ≤ lay.geom.segmentLength.toNat := by
      intro a h1 h2
      rw [hsl]
      exact le_min (Nat.pow_le_pow_right (by omega) h1) ((Nat.pow_le_pow_right (by omega) h2).trans (by norm_num))
    by_cases h11 : 11 ≤ n
    · have h4 : 4 ≤ e := by
        have := idealExp_11 h11
        by_contra hlt
        have : (e : ℝ) ≤ 3 := by exact_mod_cast (by omega : e ≤ 3)
        linarith
      have := hmin 4 h4 (by omega)
      omega
    · have h4 : 2 ≤ e := by
        have h0 : 0 ≤ Real.log n := Real.log_natCast_nonneg n
        have h3 : 0 < Real.log 3.33 := Real.log_pos (by norm_num)
        have h5 : 0 ≤ Real.log n / Real.log 3.33 := div_nonneg h0 h3.le
        unfold idealExp at he'
        by_contra hlt
        have : (e : ℝ) ≤ 1 := by exact_mod_cast (by omega : e ≤ 1)
        linarith
      have := hmin 2 h4 (by omega)
      omega
  by_cases hlo : n < 2 ^ 15
  · have hc := idealCap_small (n := n) (by omega)
    have hL : (lay.geom.segmentLength.toNat : ℝ) ≤ 262144 := by
      have : lay.geom.segmentLength.toNat ≤ 262144 := by rw [hsl]; exact min_le_right _ _
      exact_mod_cast this
    have hnr : (n : ℝ) ≤ 32768 := by exact_mod_cast (by omega : n ≤ 32768)
    have h27 : (lay.arrayLen : ℝ) ≤ 2 ^ 27 := by
      refine hup.trans (max_le ?_ ?_)
      · norm_num; linarith
      · norm_num; linarith
    exact_mod_cast h27
  have hlo : 2 ^ 15 ≤ n := by omega
  have hL : 17 * lay.geom.segmentLength.toNat ≤ n := by
    have h17 := segment_le hlo he
    omega
  have hcap : idealCap n ≤ 1.21 * n := by
    unfold idealCap
    have hn0 : (0 : ℝ) ≤ n := Nat.cast_nonneg n
    rw [mul_comm (1.21 : ℝ)]
    refine mul_le_mul_of_nonneg_left (max_le (by norm_num) ?_) hn0
    have hl2 : 0 < Real.log 2 := Real.log_pos (by norm_num)
    have hx : 15 * Real.log 2 ≤ Real.log n := by
      have : Real.log ((2 : ℝ) ^ 15) ≤ Real.log n := Real.log_le_log (by norm_num) (by exact_mod_cast hlo)
      rw [Real.log_pow] at this
      exact_mod_cast this
    have hm : Real.log 1000000 ≤ 20 * Real.log 2 := by
      have : Real.log (1000000 : ℝ) ≤ Real.log ((2 : ℝ) ^ 20) := Real.log_le_log (by norm_num) (by norm_num)
      rw [Real.log_pow] at this
      exact_mod_cast this
    have : 0.25 * Real.log 1000000 / Real.log n ≤ 0.335 := by
      rw [div_le_iff₀ (by linarith)]
      linarith
    linarith
  have h27 : (lay.arrayLen : ℝ) ≤ 2 ^ 27 := by
    have hLr : (17 * lay.geom.segmentLength.toNat : ℝ) ≤ n := by exact_mod_cast hL
    have hnr : (n : ℝ) ≤ 100000000 := by exact_mod_cast hhi
    refine hup.trans (max_le ?_ ?_)
    · norm_num; linarith
    · norm_num; linarith
  exact_mod_cast h27

/-- **C91 (BinaryFuse8/16/32).** With the sizes the library computes: some `n` distinct keys are accepted at the first attempt,
for every `n` up to 100 million. -/
theorem C91_binary_fuse_sized (log : ℚ → ℚ) (hlog : LogAccurate log) (n : Nat) (hhi : n ≤ 100000000) :
    ∃ keys : List U64, keys.length = n ∧ keys.Nodup ∧ ∀ (w : Nat) (prof : Profile) (fp0 : Nat → BitVec w),
      ∃ f, BinaryFuse.tryFrom w prof (bfSegExp log n) (bfCap0 log n) fp0 keys = .ok f ∧ f.seed = splitmixSeed 1#64 0 := by
  obtain ⟨lay, hlay, h1, h2⟩ := sized_fits log hlog n hhi
  exact (C91_binary_fuse n _ _ lay hlay h2).2 h1

end Chalamet
