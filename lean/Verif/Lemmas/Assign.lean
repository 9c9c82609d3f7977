import Verif.Lemmas.Peel

/-! The assignment loops and the retry loops of the binary fuse filters. -/

namespace Chalamet

/-- Assigning the pivots in stack order solves the equations of all stacked hashes. `Sat f h` is the
equation of `h` for the array contents `f`. -/
theorem assign_ok {V : Type} {g : Geom} {n : Nat} (d : V)
    (step : List V → U64 × Nat → Res (List V)) (Sat : (Nat → V) → U64 → Prop)
    (hcongr : ∀ f f' h, (∀ i < 3, f (slotN g h i) = f' (slotN g h i)) → Sat f h → Sat f' h)
    {stk : List (U64 × Nat)} (hpl : Peelable g stk)
    (hstep : ∀ fp e, e ∈ stk → fp.length = n →
      ∃ v, step fp e = .ok (fp.set (pivot g e) v) ∧
        Sat (fun i => (fp.set (pivot g e) v).getD i d) e.1)
    (fp0 : List V) (hfp : fp0.length = n) :
    ∃ fp, foldRes step fp0 stk = .ok fp ∧ fp.length = n ∧
      (∀ i, (∀ e ∈ stk, pivot g e ≠ i) → fp.getD i d = fp0.getD i d) ∧
      ∀ e ∈ stk, Sat (fun i => fp.getD i d) e.1 := by
  induction stk generalizing fp0 with
  | nil => exact ⟨fp0, rfl, hfp, fun _ _ => rfl, by simp⟩
  | cons e rest ih =>
    obtain ⟨v, hv, hsat⟩ := hstep fp0 e (by simp) hfp
    obtain ⟨hpw, hpr⟩ := List.pairwise_cons.1 hpl.2
    obtain ⟨fp, h1, h2, h3, h4⟩ := ih ⟨fun x hx => hpl.1 x (by simp [hx]), hpr⟩
      (fun fp x hx hl => hstep fp x (by simp [hx]) hl) (fp0.set (pivot g e) v) (by simpa using hfp)
    refine ⟨fp, by rw [foldRes_cons, hv]; exact h1, h2, ?_, ?_⟩
    · intro i hi
      rw [h3 i (fun x hx => hi x (by simp [hx])), List.getD_eq_getElem?_getD,
        List.getElem?_set_ne (hi e (by simp)), ← List.getD_eq_getElem?_getD]
    · intro x hx
      rcases List.mem_cons.1 hx with rfl | hx
      · refine hcongr _ _ _ ?_ hsat
        intro i hi
        refine (h3 _ ?_).symm
        intro y hy e
        have := hpw y hy
        rw [e, on_slot] at this
        cases this
      · exact h4 x hx

/-! ### Arithmetic modulo a divisor of `2^32` -/

theorem umod_add_left {p : U32} (hp : p.toNat ∣ 2 ^ 32) (x y : U32) : (x % p + y) % p = (x + y) % p := by
  apply BitVec.eq_of_toNat_eq
  rw [BitVec.toNat_umod, BitVec.toNat_umod, BitVec.toNat_add, BitVec.toNat_add, BitVec.toNat_umod,
    Nat.mod_mod_of_dvd _ hp, Nat.mod_mod_of_dvd _ hp, Nat.mod_add_mod]

theorem solve_entry {p : U32} (hp : p.toNat ∣ 2 ^ 32) (d fa fb mask : U32) :
    (((d % p - fa - fb) % p - mask) % p + fa + fb + mask) % p = d % p := by
  rw [show ((d % p - fa - fb) % p - mask) % p + fa + fb + mask =
    ((d % p - fa - fb) % p - mask) % p + (fa + fb + mask) by ring, umod_add_left hp,
    show (d % p - fa - fb) % p - mask + (fa + fb + mask) = (d % p - fa - fb) % p + (fa + fb) by ring,
    umod_add_left hp, show d % p - fa - fb + (fa + fb) = d % p + 0#32 by rw [BitVec.add_zero]; ring, umod_add_left hp]
  simp

/-! ### `BinaryFuseP32` -/

theorem hmGet_last {hashes : List U64} {data : List U32} {j : Nat} {h : U64}
    (hj : j < hashes.length) (hd : j < data.length) (he : hashes[j] = h)
    (hlast : ∀ k (hk : k < hashes.length), j < k → hashes[k] ≠ h) :
    hmGet hashes data h = some data[j] := by
  unfold hmGet
  induction hashes generalizing data j with
  | nil => simp at hj
  | cons a as ih =>
    cases data with
    | nil => simp at hd
    | cons b bs =>
      rw [List.zip_cons_cons, List.reverse_cons, List.lookup_append]
      cases j with
      | zero =>
        have hn : List.lookup h (as.zip bs).reverse = none := by
          rw [List.lookup_eq_none_iff]
          intro p hp
          rw [List.mem_reverse] at hp
          have := (List.of_mem_zip hp).1
          obtain ⟨k, hk, e⟩ := List.getElem_of_mem this
          have h2 := hlast (k + 1) (by simpa using hk) (by omega)
          simp only [List.getElem_cons_succ, e] at h2
          simpa using Ne.symm h2
        rw [hn]
        simp only [List.getElem_cons_zero] at he
        simp [List.lookup, he]
      | succ j =>
        have := ih (data := bs) (j := j) (by simpa using hj) (by simpa using hd) (by simpa using he)
          (by
            intro k hk hlt
            have := hlast (k + 1) (by simpa using hk) (by omega)
            simpa using this)
        rw [this]
        simp

theorem hmGet_isSome {hashes : List U64} {data : List U32} {h : U64} (hm : h ∈ hashes)
    (hl : hashes.length ≤ data.length) : ∃ d, hmGet hashes data h = some d := by
  cases e : hmGet hashes data h with
  | some d => exact ⟨d, rfl⟩
  | none =>
    exfalso
    unfold hmGet at e
    rw [List.lookup_eq_none_iff] at e
    obtain ⟨k, hk, hh⟩ := List.getElem_of_mem hm
    have := e (hashes[k], data[k]) (by
      rw [List.mem_reverse]
      rw [List.mem_iff_getElem]
      exact ⟨k, by simp; omega, by simp⟩)
    simp [hh] at this

/-- The equation of `h` in a `BinaryFuseP32`: the sum of the three slots and the mask is the datum. -/
def SatP (g : Geom) (hashes : List U64) (data : List U32) (label ptxtMod : U64) (f : Nat → U32)
    (h : U64) : Prop :=
  ∃ d, hmGet hashes data h = some d ∧
    (f (slotN g h 0) + f (slotN g h 1) + f (slotN g h 2) +
      (mix h label % ptxtMod).setWidth 32) % (ptxtMod.setWidth 32 : U32) =
    d % (ptxtMod.setWidth 32 : U32)

theorem h012_full {g : Geom} {h : U64} {f : Nat} (hf : f < 3) :
    rd [slotN g h 0, slotN g h 1, slotN g h 2, slotN g h 0, slotN g h 1, 0] f = .ok (slotN g h f) ∧
    rd [slotN g h 0, slotN g h 1, slotN g h 2, slotN g h 0, slotN g h 1, 0] (f + 1) =
      .ok (slotN g h (otherSlots f).1) ∧
    rd [slotN g h 0, slotN g h 1, slotN g h 2, slotN g h 0, slotN g h 1, 0] (f + 2) =
      .ok (slotN g h (otherSlots f).2) := by
  have : f = 0 ∨ f = 1 ∨ f = 2 := by omega
  rcases this with rfl | rfl | rfl <;> simp [otherSlots, rd]

theorem assignStepP_eq {g : Geom} {n : Nat} {hashes : List U64} {data : List U32}
    {label ptxtMod : U64} {fp : List U32} {h : U64} {f : Nat} {d : U32} (ho : SlotsOk g n h)
    (hf : f < 3) (hd : hmGet hashes data h = some d)
    (hp : (ptxtMod.setWidth 32 : U32) ≠ 0#32) (hl : fp.length = n) :
    assignStepP g hashes data label ptxtMod fp (h, f) =
      .ok (fp.set (slotN g h f)
        (((d % (ptxtMod.setWidth 32 : U32) - fp.getD (slotN g h (otherSlots f).1) 0#32 -
          fp.getD (slotN g h (otherSlots f).2) 0#32) % (ptxtMod.setWidth 32 : U32) -
          (mix h label % ptxtMod).setWidth 32) % (ptxtMod.setWidth 32 : U32))) := by
  have hp2 : ptxtMod ≠ 0#64 := by rintro rfl; exact hp rfl
  obtain ⟨r0, r1, r2⟩ := h012_full (g := g) (h := h) hf
  simp only [slotN] at r0 r1 r2
  have l1 : slotN g h (otherSlots f).1 < fp.length := by rw [hl]; exact slot_lt ho _
  have l2 : slotN g h (otherSlots f).2 < fp.length := by rw [hl]; exact slot_lt ho _
  have l0 : slotN g h f < fp.length := by rw [hl]; exact slot_lt ho _
  unfold assignStepP
  simp only [hd, r0, r1, r2, hp, hp2, or_self, if_false, Res.bind_ok]
  have k1 := rd_ok l1
  have k2 := rd_ok l2
  have k0 := fun v => wr_ok (v := v) l0
  rw [getD_lt l1, getD_lt l2]
  unfold slotN at k0 k1 k2 l0 l1 l2 ⊢
  simp only [k1, k2, k0, Res.bind_ok]

theorem solve_slots {g : Geom} {n : Nat} {h : U64} {f : Nat} (ho : SlotsOk g n h) (hf : f < 3)
    {fp : List U32} (hl : fp.length = n) (v : U32) :
    let fn := fun i => (fp.set (slotN g h f) v).getD i 0#32
    fn (slotN g h 0) + fn (slotN g h 1) + fn (slotN g h 2) =
      v + fp.getD (slotN g h (otherSlots f).1) 0#32 + fp.getD (slotN g h (otherSlots f).2) 0#32 := by
  have l0 : slotN g h f < fp.length := by rw [hl]; exact slot_lt ho _
  have hset : ∀ i < 3, (fp.set (slotN g h f) v).getD (slotN g h i) 0#32 =
      if i = f then v else fp.getD (slotN g h i) 0#32 := by
    intro i hi
    by_cases e : i = f
    · subst e
      simp [List.getD_eq_getElem?_getD, l0]
    · have : slotN g h f ≠ slotN g h i := fun h => e (slot_inj ho hf hi h).symm
      simp [List.getD_eq_getElem?_getD, e, List.getElem?_set_ne this]
  simp only
  rw [hset 0 (by omega), hset 1 (by omega), hset 2 (by omega)]
  have : f = 0 ∨ f = 1 ∨ f = 2 := by omega
  rcases this with rfl | rfl | rfl <;> simp only [otherSlots] <;> norm_num <;> ring

/-- The assignment loop of `BinaryFuseP32` succeeds on a solved stack. -/
theorem assignP_total {g : Geom} {n : Nat} {hashes : List U64} {data : List U32}
    {label ptxtMod : U64} {stk : List (U64 × Nat)} (ho : ∀ h, SlotsOk g n h)
    (hs : Solved g hashes stk) (hl : hashes.length ≤ data.length)
    (hp : (ptxtMod.setWidth 32 : U32) ≠ 0#32) (fp0 : List U32) (hfp : fp0.length = n) :
    ∃ fp, foldRes (assignStepP g hashes data label ptxtMod) fp0 stk = .ok fp ∧ fp.length = n := by
  obtain ⟨fp, h1, h2, _⟩ := assign_ok (g := g) (n := n) 0#32
    (assignStepP g hashes data label ptxtMod) (fun _ _ => True) (fun _ _ _ _ _ => trivial) hs.peel
    (by
      rintro fp ⟨h, f⟩ he hlen
      obtain ⟨d, hd⟩ := hmGet_isSome ((hs.mem h).1 (List.mem_map.2 ⟨_, he, rfl⟩)) hl
      exact ⟨_, assignStepP_eq (ho h) (hs.peel.1 _ he) hd hp hlen, trivial⟩) fp0 hfp
  exact ⟨fp, h1, h2⟩

theorem assignP_sat {g : Geom} {n : Nat} {hashes : List U64} {data : List U32}
    {label ptxtMod : U64} {stk : List (U64 × Nat)} (ho : ∀ h, SlotsOk g n h)
    (hs : Solved g hashes stk) (hl : hashes.length ≤ data.length)
    (hp : (ptxtMod.setWidth 32 : U32) ≠ 0#32) (hdvd : (ptxtMod.setWidth 32 : U32).toNat ∣ 2 ^ 32)
    (fp0 : List U32) (hfp : fp0.length = n) :
    ∃ fp, foldRes (assignStepP g hashes data label ptxtMod) fp0 stk = .ok fp ∧ fp.length = n ∧
      ∀ h ∈ hashes, SatP g hashes data label ptxtMod (fun i => fp.getD i 0#32) h := by
  obtain ⟨fp, h1, h2, _, h3⟩ := assign_ok (g := g) (n := n) 0#32
    (assignStepP g hashes data label ptxtMod) (SatP g hashes data label ptxtMod)
    (by
      rintro f f' h he ⟨d, hd, hs⟩
      refine ⟨d, hd, ?_⟩
      rw [← he 0 (by omega), ← he 1 (by omega), ← he 2 (by omega)]
      exact hs) hs.peel
    (by
      rintro fp ⟨h, f⟩ he hlen
      obtain ⟨d, hd⟩ := hmGet_isSome ((hs.mem h).1 (List.mem_map.2 ⟨_, he, rfl⟩)) hl
      refine ⟨_, assignStepP_eq (ho h) (hs.peel.1 _ he) hd hp hlen, d, hd, ?_⟩
      have := solve_slots (ho h) (hs.peel.1 _ he) hlen
      simp only at this
      simp only [pivot]
      rw [this]
      exact solve_entry hdvd _ _ _ _) fp0 hfp
  refine ⟨fp, h1, h2, ?_⟩
  intro h hh
  obtain ⟨e, he, rfl⟩ := List.mem_map.1 ((hs.mem h).2 hh)
  exact h3 e he

/-- The retry loop: all positive limits agree, and success means a solved stack. -/
theorem bfpLoop_spec {prof : Profile} {lay : Layout} {s size : Nat} {hashes : List U64}
    (hg : lay.geom.WF lay.arrayLen s lay.segmentCount) (hl : hashes.length = size)
    (hload : prof = .debug ∨ Fits lay.geom hashes) :
    (∃ stk, Solved lay.geom hashes stk ∧ ∀ n, 0 < n →
      bfpLoop prof lay size hashes n (BState.init size lay.arrayLen) = .ok stk) ∨
    (∀ n, bfpLoop prof lay size hashes n (BState.init size lay.arrayLen) = .err .filterFailed) ∨
    (prof = .debug ∧ ¬ Fits lay.geom hashes ∧ ∃ r : Res (List (U64 × Nat)), (∀ x, r ≠ .ok x) ∧ ∀ n, 0 < n →
      bfpLoop prof lay size hashes n (BState.init size lay.arrayLen) = r) := by
  have key : ((∃ stk, attempt prof lay size hashes (BState.init size lay.arrayLen) = .ok (.done stk) ∧
      Solved lay.geom hashes stk) ∨
      attempt prof lay size hashes (BState.init size lay.arrayLen) =
        .ok (.peelFailed (BState.init size lay.arrayLen))) ∨
      (prof = .debug ∧ ¬ Fits lay.geom hashes ∧
        ∀ r, attempt prof lay size hashes (BState.init size lay.arrayLen) ≠ .ok r) := by
    by_cases hF : Fits lay.geom hashes
    · exact Or.inl (attempt_ok hg hl hF)
    · have hprof : prof = .debug := hload.resolve_right hF
      subst hprof
      cases hA : attempt .debug lay size hashes (BState.init size lay.arrayLen) with
      | ok r =>
        left
        rcases attempt_debug hg hl hA with ⟨stk, rfl, h⟩ | rfl
        · exact Or.inl ⟨stk, rfl, h⟩
        · exact Or.inr rfl
      | err e => right; exact ⟨rfl, hF, by simp⟩
      | panic => right; exact ⟨rfl, hF, by simp⟩
      | diverge => right; exact ⟨rfl, hF, by simp⟩
  rcases key with (⟨stk, hA, hS⟩ | hA) | ⟨hp, hF, hA⟩
  · left
    refine ⟨stk, hS, ?_⟩
    intro n hn
    obtain ⟨m, rfl⟩ : ∃ m, n = m + 1 := ⟨n - 1, by omega⟩
    rw [bfpLoop, hA]
    rfl
  · right; left
    intro n
    induction n with
    | zero => rfl
    | succ m ih => rw [bfpLoop, hA]; exact ih
  · right; right
    refine ⟨hp, hF, bfpLoop prof lay size hashes 1 (BState.init size lay.arrayLen), ?_, ?_⟩
    · intro x
      rw [bfpLoop]
      intro h
      obtain ⟨r, hr, _⟩ := Res.bind_eq_ok.1 h
      exact hA r hr
    · intro n hn
      obtain ⟨m, rfl⟩ : ∃ m, n = m + 1 := ⟨n - 1, by omega⟩
      rw [bfpLoop, bfpLoop]
      cases h : attempt prof lay size hashes (BState.init size lay.arrayLen) with
      | ok r => exact absurd h (hA r)
      | _ => rfl

end Chalamet
