import Verif.Lemmas.Bucket

/-! The counting loop of the binary fuse filters. -/

namespace Chalamet

/-! ### Arrays as functions -/

/-- The array of length `n` with entries `f 0, f 1, ..`. -/
def tab {α : Type} (n : Nat) (f : Nat → α) : List α := (List.range n).map f

@[simp] theorem tab_length {α : Type} (n : Nat) (f : Nat → α) : (tab n f).length = n := by
  simp [tab]

theorem rd_tab {α : Type} {n i : Nat} (f : Nat → α) (h : i < n) : rd (tab n f) i = .ok (f i) := by
  rw [rd_ok (by simpa using h)]
  simp [tab]

theorem wr_tab {α : Type} {n i : Nat} (f : Nat → α) (h : i < n) (v : α) :
    wr (tab n f) i v = .ok (tab n (Function.update f i v)) := by
  rw [wr_ok (by simpa using h)]
  congr 1
  apply List.ext_getElem
  · simp
  · intro k h1 h2
    simp only [tab, List.getElem_set, List.getElem_map, List.getElem_range, Function.update_apply]
    by_cases e : i = k
    · simp [e]
    · simp [e, Ne.symm e]

theorem tab_congr {α : Type} {n : Nat} {f g : Nat → α} (h : ∀ i < n, f i = g i) :
    tab n f = tab n g := by
  apply List.map_congr_left
  intro i hi
  exact h i (List.mem_range.1 hi)

theorem tab_const {α : Type} (n : Nat) (a : α) : tab n (fun _ => a) = List.replicate n a := by
  simp [tab]

/-- A list is its own table. -/
theorem eq_tab {α : Type} (l : List α) (d : α) : l = tab l.length (fun i => l.getD i d) := by
  apply List.ext_getElem
  · simp
  · intro k h1 h2
    simp only [tab, List.getElem_map, List.getElem_range]
    rw [getD_lt h1]

/-! ### Slots of a hash -/

/-- The `i`-th slot. -/
def slotN (g : Geom) (h : U64) : Nat → Nat
  | 0 => (hashOfHash h g).1.toNat
  | 1 => (hashOfHash h g).2.1.toNat
  | _ => (hashOfHash h g).2.2.toNat

/-- Slot membership. -/
def on (g : Geom) (s : Nat) (h : U64) : Bool :=
  s = slotN g h 0 ∨ s = slotN g h 1 ∨ s = slotN g h 2

/-- Position (0, 1 or 2) of the slot in the hash; 0 when not a slot. -/
def pos (g : Geom) (s : Nat) (h : U64) : Nat :=
  if s = slotN g h 1 then 1 else if s = slotN g h 2 then 2 else 0

/-- Number of hashes having the slot. -/
def cnt (g : Geom) (R : List U64) (s : Nat) : Nat := R.countP (on g s)

/-- Exclusive or of the positions. -/
def px (g : Geom) (R : List U64) (s : Nat) : Nat := R.foldr (fun h a => pos g s h ^^^ a) 0

/-- Exclusive or of the hashes having the slot. -/
def hx (g : Geom) (R : List U64) (s : Nat) : U64 :=
  R.foldr (fun h a => (if on g s h then h else 0#64) ^^^ a) 0#64

theorem cnt_cons (g : Geom) (h : U64) (R : List U64) (s : Nat) :
    cnt g (h :: R) s = cnt g R s + if on g s h then 1 else 0 := by
  simp [cnt, List.countP_cons]

theorem px_cons (g : Geom) (h : U64) (R : List U64) (s : Nat) :
    px g (h :: R) s = pos g s h ^^^ px g R s := rfl

theorem hx_cons (g : Geom) (h : U64) (R : List U64) (s : Nat) :
    hx g (h :: R) s = (if on g s h then h else 0#64) ^^^ hx g R s := rfl

theorem cnt_perm {g : Geom} {R R' : List U64} (h : R.Perm R') (s : Nat) : cnt g R s = cnt g R' s :=
  h.countP_eq _

theorem px_perm {g : Geom} {R R' : List U64} (h : R.Perm R') (s : Nat) : px g R s = px g R' s := by
  induction h with
  | nil => rfl
  | cons x _ ih => rw [px_cons, px_cons, ih]
  | swap x y l =>
    simp only [px_cons, ← Nat.xor_assoc]
    rw [Nat.xor_comm (pos g s y)]
  | trans _ _ ih1 ih2 => rw [ih1, ih2]

theorem hx_perm {g : Geom} {R R' : List U64} (h : R.Perm R') (s : Nat) : hx g R s = hx g R' s := by
  induction h with
  | nil => rfl
  | cons x _ ih => rw [hx_cons, hx_cons, ih]
  | swap x y l =>
    simp only [hx_cons, ← BitVec.xor_assoc]
    rw [BitVec.xor_comm (if on g s y = true then y else 0#64)]
  | trans _ _ ih1 ih2 => rw [ih1, ih2]

theorem pos_lt (g : Geom) (s : Nat) (h : U64) : pos g s h < 4 := by
  unfold pos; split
  · omega
  · split <;> omega

theorem px_lt (g : Geom) (R : List U64) (s : Nat) : px g R s < 4 := by
  induction R with
  | nil => simp [px]
  | cons h R ih => rw [px_cons]; exact Nat.xor_lt_two_pow (n := 2) (pos_lt g s h) ih

theorem px_zero {g : Geom} {R : List U64} {s : Nat} (h : cnt g R s = 0) : px g R s = 0 := by
  induction R with
  | nil => rfl
  | cons a R ih =>
    rw [cnt_cons] at h
    have hon : on g s a = false := by
      cases e : on g s a
      · rfl
      · simp [e] at h
    have : pos g s a = 0 := by
      unfold on at hon
      simp only [decide_eq_false_iff_not, not_or] at hon
      unfold pos
      simp [hon]
    rw [px_cons, this, ih (by omega)]
    rfl

theorem hx_zero {g : Geom} {R : List U64} {s : Nat} (h : cnt g R s = 0) : hx g R s = 0#64 := by
  induction R with
  | nil => rfl
  | cons a R ih =>
    rw [cnt_cons] at h
    have hon : on g s a = false := by
      cases e : on g s a
      · rfl
      · simp [e] at h
    rw [hx_cons, hon, ih (by omega)]
    simp

/-- A slot hit once: the hash can be split off. -/
theorem cnt_one {g : Geom} {R : List U64} {s : Nat} (h : cnt g R s = 1) :
    ∃ a R', R.Perm (a :: R') ∧ on g s a = true ∧ cnt g R' s = 0 ∧ hx g R s = a ∧
      px g R s = pos g s a := by
  have hp : 0 < R.countP (on g s) := by unfold cnt at h; omega
  obtain ⟨a, ha, hon⟩ := List.countP_pos_iff.1 hp
  have hperm := List.perm_cons_erase ha
  have h0 : cnt g (R.erase a) s = 0 := by
    have := cnt_perm (g := g) hperm s
    rw [cnt_cons, hon] at this
    simp only [if_true] at this
    omega
  refine ⟨a, R.erase a, hperm, hon, h0, ?_, ?_⟩
  · rw [hx_perm hperm, hx_cons, hon, hx_zero h0]; simp
  · rw [px_perm hperm, px_cons, px_zero h0]; simp

theorem cnt_le_of_subperm {g : Geom} {R L : List U64} (h : R.Subperm L) (s : Nat) :
    cnt g R s ≤ cnt g L s := h.countP_le _

/-! ### The counter bytes -/

/-- A counter byte: number of keys and xor of positions. -/
def enc (n p : Nat) : U8 := BitVec.ofNat 8 (4 * n + p)

theorem enc_toNat {n p : Nat} (hn : n ≤ 63) (hp : p < 4) : (enc n p).toNat = 4 * n + p := by
  unfold enc
  rw [BitVec.toNat_ofNat]
  exact Nat.mod_eq_of_lt (by omega)

theorem enc_div {n p : Nat} (hn : n ≤ 63) (hp : p < 4) : (enc n p).toNat / 4 = n := by
  rw [enc_toNat hn hp]; omega

theorem enc_mod {n p : Nat} (hn : n ≤ 63) (hp : p < 4) : (enc n p).toNat % 4 = p := by
  rw [enc_toNat hn hp]; omega

theorem enc_xor {n p x : Nat} (hp : p < 4) (hx : x < 4) :
    enc n p ^^^ BitVec.ofNat 8 x = enc n (p ^^^ x) := by
  unfold enc
  have key : ∀ y, y < 4 → 4 * n + y = 2 ^ 2 * n + y := by intros; omega
  have hxp : p ^^^ x < 4 := Nat.xor_lt_two_pow (n := 2) hp hx
  rw [← BitVec.ofNat_xor]
  congr 1
  rw [key p hp, key _ hxp]
  apply Nat.eq_of_testBit_eq
  intro i
  rw [Nat.testBit_xor, Nat.testBit_two_pow_mul_add _ hp, Nat.testBit_two_pow_mul_add _ hxp]
  split
  · rw [Nat.testBit_xor]
  · rename_i hi
    have : x.testBit i = false := by
      apply Nat.testBit_lt_two_pow
      calc x < 2 ^ 2 := hx
        _ ≤ 2 ^ i := Nat.pow_le_pow_right (by omega) (by omega)
    rw [this, Bool.xor_false]

theorem enc_add (n p : Nat) : enc n p + 4#8 = enc (n + 1) p := by
  unfold enc
  rw [show (4#8 : U8) = BitVec.ofNat 8 4 from rfl, ← BitVec.ofNat_add]
  congr 1
  omega

theorem enc_sub (n p : Nat) : enc (n + 1) p - 4#8 = enc n p := by
  rw [← enc_add, BitVec.add_sub_cancel]

/-! ### `bump` and `unbump` on tables -/

theorem bump_tab {prof : Profile} {n i : Nat} {C : Nat → U8} {H : Nat → U64} (hi : i < n)
    (hc : (C i).toNat + 4 < 256) (x : U8) (h : U64) :
    bump prof (tab n C, tab n H) i x h =
      .ok (tab n (Function.update C i ((C i + 4#8) ^^^ x)), tab n (Function.update H i (H i ^^^ h))) := by
  unfold bump
  simp only [rd_tab _ hi, Res.bind_ok]
  rw [addC_ok (by simpa using hc)]
  simp only [Res.bind_ok, wr_tab _ hi]

theorem bump_debug {n i : Nat} {C : Nat → U8} {H : Nat → U64} {x : U8} {h : U64} {t' : T2}
    (hi : i < n) (hb : bump .debug (tab n C, tab n H) i x h = .ok t') : (C i).toNat + 4 < 256 := by
  unfold bump at hb
  simp only [rd_tab _ hi, Res.bind_ok] at hb
  obtain ⟨c, hc, _⟩ := Res.bind_eq_ok.1 hb
  unfold addC at hc
  simp only at hc
  split at hc
  · rename_i h1; simpa using h1
  · cases hc

theorem unbump_tab {prof : Profile} {n i : Nat} {C : Nat → U8} {H : Nat → U64} (hi : i < n)
    (hc : 4 ≤ (C i).toNat) (x : U8) (h : U64) :
    unbump prof (tab n C, tab n H) i x h =
      .ok (tab n (Function.update C i ((C i - 4#8) ^^^ x)), tab n (Function.update H i (H i ^^^ h))) := by
  unfold unbump
  simp only [rd_tab _ hi, Res.bind_ok]
  rw [subC_ok (by simpa using hc)]
  simp only [Res.bind_ok, wr_tab _ hi]

/-! ### The counting arrays of a multiset of hashes -/

/-- The counting arrays holding the hashes `R`. -/
def T (g : Geom) (n : Nat) (R : List U64) : T2 :=
  (tab n fun s => enc (cnt g R s) (px g R s), tab n fun s => hx g R s)

theorem T_perm {g : Geom} {n : Nat} {R R' : List U64} (h : R.Perm R') : T g n R = T g n R' := by
  unfold T
  congr 1
  · apply tab_congr; intro i _; rw [cnt_perm h, px_perm h]
  · apply tab_congr; intro i _; rw [hx_perm h]

/-- Counts fit in the counter bytes. -/
def Fits (g : Geom) (R : List U64) : Prop := ∀ s, cnt g R s ≤ 63

/-- Distinctness and range of the slots of a hash. -/
structure SlotsOk (g : Geom) (n : Nat) (h : U64) : Prop where
  l0 : slotN g h 0 < n
  l1 : slotN g h 1 < n
  l2 : slotN g h 2 < n
  d01 : slotN g h 0 ≠ slotN g h 1
  d02 : slotN g h 0 ≠ slotN g h 2
  d12 : slotN g h 1 ≠ slotN g h 2

theorem slotsOk {g : Geom} {len s k : Nat} (hg : g.WF len s k) (h : U64) : SlotsOk g len h := by
  obtain ⟨h0, h1, h2, h3, h4, h5⟩ := hashOfHash_lt hg h
  exact ⟨h0, h1, h2, h3, h4, h5⟩

theorem on_slot (g : Geom) (h : U64) (i : Nat) : on g (slotN g h i) h = true := by
  unfold on
  match i with
  | 0 => simp
  | 1 => simp
  | n + 2 => simp [slotN]

theorem pos_slot {g : Geom} {n : Nat} {h : U64} (ho : SlotsOk g n h) :
    pos g (slotN g h 0) h = 0 ∧ pos g (slotN g h 1) h = 1 ∧ pos g (slotN g h 2) h = 2 := by
  refine ⟨?_, ?_, ?_⟩
  · simp [pos, ho.d01, ho.d02]
  · simp [pos]
  · simp [pos, ho.d12.symm]

theorem cnt_slot (g : Geom) (h : U64) (R : List U64) (i : Nat) :
    cnt g (h :: R) (slotN g h i) = cnt g R (slotN g h i) + 1 := by
  rw [cnt_cons, on_slot]; simp

/-- The three insertions of a key. -/
def bump3 (prof : Profile) (g : Geom) (t : T2) (h : U64) : Res T2 := do
  let t ← bump prof t (slotN g h 0) 0#8 h
  let t ← bump prof t (slotN g h 1) 1#8 h
  bump prof t (slotN g h 2) 2#8 h

/-- The three removals of a key. -/
def unbump3 (prof : Profile) (g : Geom) (t : T2) (h : U64) : Res T2 := do
  let t ← unbump prof t (slotN g h 0) 0#8 h
  let t ← unbump prof t (slotN g h 1) 1#8 h
  unbump prof t (slotN g h 2) 2#8 h

theorem enc_bump {g : Geom} {h : U64} {R : List U64} {s x : Nat} (hs : on g s h = true)
    (hx : pos g s h = x) :
    (enc (cnt g R s) (px g R s) + 4#8) ^^^ BitVec.ofNat 8 x = enc (cnt g (h :: R) s) (px g (h :: R) s) := by
  rw [enc_add, enc_xor (px_lt g R s) (by rw [← hx]; exact pos_lt g s h), cnt_cons, hs, px_cons, hx,
    Nat.xor_comm x]
  simp

theorem enc_unbump {g : Geom} {h : U64} {R : List U64} {s x : Nat} (hs : on g s h = true)
    (hx : pos g s h = x) :
    (enc (cnt g (h :: R) s) (px g (h :: R) s) - 4#8) ^^^ BitVec.ofNat 8 x =
      enc (cnt g R s) (px g R s) := by
  have h4 : x < 4 := by rw [← hx]; exact pos_lt g s h
  rw [cnt_cons, hs]
  simp only [if_true]
  rw [enc_sub, enc_xor (px_lt g _ s) h4, px_cons, hx, Nat.xor_comm x, Nat.xor_assoc, Nat.xor_self,
    Nat.xor_zero]

theorem off_slot {g : Geom} {h : U64} {s : Nat} (h0 : s ≠ slotN g h 0) (h1 : s ≠ slotN g h 1)
    (h2 : s ≠ slotN g h 2) : on g s h = false ∧ pos g s h = 0 := by
  simp [on, pos, h0, h1, h2]

theorem bump3_T {prof : Profile} {g : Geom} {n : Nat} {h : U64} {R : List U64}
    (ho : SlotsOk g n h) (hf : ∀ i, cnt g (h :: R) (slotN g h i) ≤ 63) :
    bump3 prof g (T g n R) h = .ok (T g n (h :: R)) := by
  obtain ⟨p0, p1, p2⟩ := pos_slot ho
  have hc : ∀ i, (enc (cnt g R (slotN g h i)) (px g R (slotN g h i))).toNat + 4 < 256 := by
    intro i
    have h1 := hf i
    rw [cnt_slot] at h1
    have h2 := px_lt g R (slotN g h i)
    rw [enc_toNat (by omega) h2]
    omega
  unfold bump3 T
  rw [bump_tab ho.l0 (hc 0), Res.bind_ok, bump_tab ho.l1, Res.bind_ok, bump_tab ho.l2]
  · congr 2
    · apply tab_congr
      intro s _
      simp only [Function.update_apply, ho.d01.symm, ho.d02.symm, ho.d12.symm, if_false]
      split
      · rename_i e; subst e; exact enc_bump (on_slot g h 2) p2
      · rename_i e2
        split
        · rename_i e; subst e; exact enc_bump (on_slot g h 1) p1
        · rename_i e1
          split
          · rename_i e; subst e; exact enc_bump (on_slot g h 0) p0
          · rename_i e0
            obtain ⟨a, b⟩ := off_slot e0 e1 e2
            rw [cnt_cons, px_cons, a, b]
            simp
    · apply tab_congr
      intro s _
      simp only [Function.update_apply, ho.d01.symm, ho.d02.symm, ho.d12.symm, if_false]
      rw [hx_cons]
      split
      · rename_i e; subst e; rw [on_slot]; simp [BitVec.xor_comm]
      · rename_i e2
        split
        · rename_i e; subst e; rw [on_slot]; simp [BitVec.xor_comm]
        · rename_i e1
          split
          · rename_i e; subst e; rw [on_slot]; simp [BitVec.xor_comm]
          · rename_i e0
            obtain ⟨a, b⟩ := off_slot e0 e1 e2
            rw [a]
            simp
  · simp only [Function.update_apply, ho.d02.symm, ho.d12.symm, if_false]; exact hc 2
  · simp only [Function.update_apply, ho.d01.symm, if_false]; exact hc 1

/-- In debug builds success of the insertions means that the counters did not overflow. -/
theorem bump3_debug {g : Geom} {n : Nat} {h : U64} {R : List U64} {t' : T2} (hR : Fits g R)
    (ho : SlotsOk g n h) (hb : bump3 .debug g (T g n R) h = .ok t') :
    ∀ i, cnt g (h :: R) (slotN g h i) ≤ 63 := by
  have key : ∀ i, (enc (cnt g R (slotN g h i)) (px g R (slotN g h i))).toNat + 4 < 256 →
      cnt g (h :: R) (slotN g h i) ≤ 63 := by
    intro i hi
    rw [enc_toNat (hR _) (px_lt g R _)] at hi
    rw [cnt_slot]; omega
  unfold bump3 T at hb
  obtain ⟨t1, h1, hb⟩ := Res.bind_eq_ok.1 hb
  have c0 := bump_debug ho.l0 h1
  rw [bump_tab ho.l0 c0] at h1
  cases h1
  obtain ⟨t2, h2, hb⟩ := Res.bind_eq_ok.1 hb
  have c1 := bump_debug ho.l1 h2
  rw [bump_tab ho.l1 c1] at h2
  cases h2
  have c2 := bump_debug ho.l2 hb
  simp only [Function.update_apply, ho.d01.symm, ho.d02.symm, ho.d12.symm, if_false] at c1 c2
  intro i
  match i with
  | 0 => exact key 0 c0
  | 1 => exact key 1 c1
  | k + 2 => exact key 2 c2

theorem unbump3_T {prof : Profile} {g : Geom} {n : Nat} {h : U64} {R : List U64}
    (ho : SlotsOk g n h) (hf : ∀ i, cnt g (h :: R) (slotN g h i) ≤ 63) :
    unbump3 prof g (T g n (h :: R)) h = .ok (T g n R) := by
  obtain ⟨p0, p1, p2⟩ := pos_slot ho
  have hc : ∀ i, 4 ≤ (enc (cnt g (h :: R) (slotN g h i)) (px g (h :: R) (slotN g h i))).toNat := by
    intro i
    have h1 := hf i
    have h2 := px_lt g (h :: R) (slotN g h i)
    rw [enc_toNat (by omega) h2, cnt_slot]
    omega
  unfold unbump3 T
  rw [unbump_tab ho.l0 (hc 0), Res.bind_ok, unbump_tab ho.l1, Res.bind_ok, unbump_tab ho.l2]
  · congr 2
    · apply tab_congr
      intro s _
      simp only [Function.update_apply, ho.d01.symm, ho.d02.symm, ho.d12.symm, if_false]
      split
      · rename_i e; subst e; exact enc_unbump (on_slot g h 2) p2
      · rename_i e2
        split
        · rename_i e; subst e; exact enc_unbump (on_slot g h 1) p1
        · rename_i e1
          split
          · rename_i e; subst e; exact enc_unbump (on_slot g h 0) p0
          · rename_i e0
            obtain ⟨a, b⟩ := off_slot e0 e1 e2
            rw [cnt_cons, px_cons, a, b]
            simp
    · apply tab_congr
      intro s _
      simp only [Function.update_apply, ho.d01.symm, ho.d02.symm, ho.d12.symm, if_false]
      have hxx : ∀ a b : U64, a ^^^ b ^^^ a = b := by
        intro a b; rw [BitVec.xor_comm a b, BitVec.xor_assoc, BitVec.xor_self, BitVec.xor_zero]
      split
      · rename_i e; subst e
        rw [hx_cons, on_slot]; simp only [if_true]; exact hxx _ _
      · rename_i e2
        split
        · rename_i e; subst e
          rw [hx_cons, on_slot]; simp only [if_true]; exact hxx _ _
        · rename_i e1
          split
          · rename_i e; subst e
            rw [hx_cons, on_slot]; simp only [if_true]; exact hxx _ _
          · rename_i e0
            obtain ⟨a, b⟩ := off_slot e0 e1 e2
            rw [hx_cons, a]
            simp
  · simp only [Function.update_apply, ho.d02.symm, ho.d12.symm, if_false]; exact hc 2
  · simp only [Function.update_apply, ho.d01.symm, if_false]; exact hc 1

/-- A slot with two hashes xoring to 0 holds two equal hashes. -/
theorem dup_mem {g : Geom} {h : U64} {R : List U64} {i : Nat}
    (hz : hx g (h :: R) (slotN g h i) = 0#64) (hc : cnt g (h :: R) (slotN g h i) = 2) : h ∈ R := by
  rw [cnt_slot] at hc
  obtain ⟨a, R', hp, _, _, ha, _⟩ := cnt_one (g := g) (R := R) (s := slotN g h i) (by omega)
  rw [hx_cons, on_slot, ha] at hz
  simp only [if_true] at hz
  have : h = a := BitVec.xor_eq_zero_iff.1 hz
  subst this
  exact hp.mem_iff.2 (by simp)

theorem enc_eq_eight {n p : Nat} (hn : n ≤ 63) (hp : p < 4) (h : enc n p = 8#8) : n = 2 := by
  have := congrArg BitVec.toNat h
  rw [enc_toNat hn hp] at this
  have e : (8#8 : U8).toNat = 8 := rfl
  omega

/-- Invariant of the counting loop: the arrays hold `R`, the inserted hashes without the detected
duplicates. -/
structure CInv (g : Geom) (n : Nat) (done : List U64) (s : CState) (R : List U64) : Prop where
  t : s.t = T g n R
  len : R.length + s.duplicates = done.length
  mem : ∀ h, h ∈ R ↔ h ∈ done
  sub : R.Subperm done
  fits : Fits g R
  err : s.error = false

theorem countStep_eq (prof : Profile) (g : Geom) (s : CState) (hash : U64) :
    countStep prof g s hash = (bump3 prof g s.t hash >>= fun t => do
      let h1 ← rd t.2 (slotN g hash 0)
      let h2 ← rd t.2 (slotN g hash 1)
      let h3 ← rd t.2 (slotN g hash 2)
      let c1 ← rd t.1 (slotN g hash 0)
      let c2 ← rd t.1 (slotN g hash 1)
      let c3 ← rd t.1 (slotN g hash 2)
      let dup : Bool := h1 &&& h2 &&& h3 = 0#64 ∧
        ((h1 = 0#64 ∧ c1 = 8#8) ∨ (h2 = 0#64 ∧ c2 = 8#8) ∨ (h3 = 0#64 ∧ c3 = 8#8))
      let (t, duplicates) ←
        if dup then do
          let t ← unbump3 prof g t hash
          Res.ok (t, s.duplicates + 1)
        else Res.ok (t, s.duplicates)
      let c1 ← rd t.1 (slotN g hash 0)
      let c2 ← rd t.1 (slotN g hash 1)
      let c3 ← rd t.1 (slotN g hash 2)
      .ok { t := t, duplicates := duplicates,
            error := decide (c1.toNat < 4 ∨ c2.toNat < 4 ∨ c3.toNat < 4) }) := by
  unfold countStep bump3 unbump3 slotN
  simp only [bind_assoc]

theorem countStep_inv {prof : Profile} {g : Geom} {n : Nat} {done : List U64} {s : CState}
    {R : List U64} {h : U64} (ho : SlotsOk g n h) (I : CInv g n done s R)
    (hf : ∀ i, cnt g (h :: R) (slotN g h i) ≤ 63) :
    ∃ s' R', countStep prof g s h = .ok s' ∧ CInv g n (done ++ [h]) s' R' := by
  have hfits : Fits g (h :: R) := by
    intro x
    by_cases hx : on g x h = true
    · unfold on at hx
      simp only [decide_eq_true_eq] at hx
      rcases hx with rfl | rfl | rfl <;> exact hf _
    · rw [cnt_cons]
      simp only [hx]
      exact I.fits x
  have hpx := fun x => px_lt g (h :: R) x
  have err_of : ∀ R'' : List U64, Fits g R'' → h ∈ R'' → ∀ i,
      ¬ (enc (cnt g R'' (slotN g h i)) (px g R'' (slotN g h i))).toNat < 4 := by
    intro R'' hF hm i
    rw [enc_toNat (hF _) (px_lt g R'' _)]
    have : 0 < cnt g R'' (slotN g h i) := List.countP_pos_iff.2 ⟨h, hm, on_slot g h i⟩
    omega
  rw [countStep_eq, I.t, bump3_T ho hf, Res.bind_ok]
  simp only [T, rd_tab _ ho.l0, rd_tab _ ho.l1, rd_tab _ ho.l2, Res.bind_ok]
  split
  · rename_i hd
    have hmem : h ∈ R := by
      simp only [decide_eq_true_eq] at hd
      rcases hd.2 with ⟨a, b⟩ | ⟨a, b⟩ | ⟨a, b⟩
      · exact dup_mem a (enc_eq_eight (hf _) (hpx _) b)
      · exact dup_mem a (enc_eq_eight (hf _) (hpx _) b)
      · exact dup_mem a (enc_eq_eight (hf _) (hpx _) b)
    have hu := unbump3_T (prof := prof) (R := R) ho hf
    unfold T at hu
    rw [hu]
    simp only [rd_tab _ ho.l0, rd_tab _ ho.l1, rd_tab _ ho.l2, Res.bind_ok]
    refine ⟨_, R, rfl, ?_⟩
    constructor
    · rfl
    · have := I.len; simp; omega
    · intro x
      rw [List.mem_append, I.mem, List.mem_singleton]
      constructor
      · exact Or.inl
      · rintro (h' | rfl)
        · exact h'
        · exact (I.mem x).1 hmem
    · exact I.sub.trans (List.sublist_append_left _ _).subperm
    · exact I.fits
    · simp [err_of R I.fits hmem]
  · refine ⟨_, h :: R, rfl, ?_⟩
    constructor
    · rfl
    · have := I.len; simp; omega
    · intro x
      rw [List.mem_append, List.mem_cons, I.mem, List.mem_singleton]
      exact or_comm
    · exact ((List.subperm_cons h).2 I.sub).trans (List.perm_append_singleton h done).symm.subperm
    · exact hfits
    · simp [err_of (h :: R) hfits (by simp)]

theorem countStep_debug {g : Geom} {n : Nat} {done : List U64} {s s' : CState} {R : List U64}
    {h : U64} (ho : SlotsOk g n h) (I : CInv g n done s R) (hs : countStep .debug g s h = .ok s') :
    ∀ i, cnt g (h :: R) (slotN g h i) ≤ 63 := by
  rw [countStep_eq, I.t] at hs
  obtain ⟨t', ht, _⟩ := Res.bind_eq_ok.1 hs
  exact bump3_debug I.fits ho ht

theorem cinv_init (g : Geom) (n : Nat) :
    CInv g n [] { t := (List.replicate n 0#8, List.replicate n 0#64), duplicates := 0, error := false }
      [] where
  t := by
    unfold T cnt px hx enc
    simp [tab_const]
  len := rfl
  mem := fun _ => Iff.rfl
  sub := List.Subperm.refl _
  fits := fun s => by simp [cnt]
  err := rfl

/-- Counting succeeds when no slot is hit by 64 or more hashes. -/
theorem count_ok {prof : Profile} {g : Geom} {n : Nat} (ho : ∀ h, SlotsOk g n h) {L : List U64}
    (hload : Fits g L) :
    ∃ s R, foldRes (countStep prof g)
      { t := (List.replicate n 0#8, List.replicate n 0#64), duplicates := 0, error := false } L = .ok s ∧
      CInv g n L s R := by
  obtain ⟨s, hs, R, I⟩ := foldRes_inv (f := countStep prof g) (l := L)
    (fun done s => ∃ R, CInv g n done s R) ⟨[], cinv_init g n⟩
    (by
      rintro done a rest s hd ⟨R, I⟩
      have hf : ∀ i, cnt g (a :: R) (slotN g a i) ≤ 63 := by
        intro i
        refine le_trans (cnt_le_of_subperm (L := L) ?_ _) (hload _)
        rw [← hd]
        refine ((List.subperm_cons a).2 I.sub).trans ?_
        refine List.Subperm.trans ?_ (List.perm_middle.symm.subperm)
        exact (List.sublist_append_left (a :: done) rest).subperm
      obtain ⟨s', R', h1, h2⟩ := countStep_inv (prof := prof) (ho a) I hf
      exact ⟨s', h1, R', h2⟩)
  exact ⟨s, R, hs, I⟩

/-- In debug builds success of the counting loop suffices. -/
theorem count_debug {g : Geom} {n : Nat} (ho : ∀ h, SlotsOk g n h) {L : List U64} {s : CState}
    (hs : foldRes (countStep .debug g)
      { t := (List.replicate n 0#8, List.replicate n 0#64), duplicates := 0, error := false } L = .ok s) :
    ∃ R, CInv g n L s R := by
  refine foldRes_inv_ok (f := countStep .debug g) (l := L)
    (fun done s => ∃ R, CInv g n done s R) ⟨[], cinv_init g n⟩ ?_ hs
  rintro done a rest s s' hd ⟨R, I⟩ h1
  obtain ⟨s'', R', h2, h3⟩ := countStep_inv (prof := .debug) (ho a) I (countStep_debug (ho a) I h1)
  rw [h1] at h2
  cases h2
  exact ⟨R', h3⟩

end Chalamet
