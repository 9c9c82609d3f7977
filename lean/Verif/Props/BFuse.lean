import Verif.Lemmas.Filter
import Verif.Props.Hash

/-!
# `BinaryFuse8/16/32`: C40
-/

namespace Chalamet

/-- Number of 64-bit keys one of whose three slots under `seed` is `s`. -/
def slotLoadX (g : Geom) (seed : U64) (keys : List U64) (s : Nat) : Nat :=
  (keys.filter fun k =>
    let (i, j, l) := hashOfHash (mix k seed) g
    s = i.toNat ∨ s = j.toNat ∨ s = l.toNat).length

theorem slotLoadX_eq (g : Geom) (seed : U64) (keys : List U64) (s : Nat) :
    slotLoadX g seed keys s = cnt g (keys.map fun k => mix k seed) s := by
  induction keys with
  | nil => rfl
  | cons k ks ih =>
    rw [List.map_cons, cnt_cons, ← ih]
    unfold slotLoadX on slotN
    generalize hashOfHash = F
    rw [List.filter_cons]
    simp only
    split
    · rfl
    · rfl

/-- The equation of a hash in a xor-based filter. -/
def SatX {w : Nat} (g : Geom) (f : Nat → BitVec w) (h : U64) : Prop :=
  (fingerprint h).setWidth w ^^^ (f (slotN g h 0) ^^^ f (slotN g h 1) ^^^ f (slotN g h 2)) = 0#w

theorem assignStepX_eq {w : Nat} {g : Geom} {n : Nat} {fp : List (BitVec w)} {h : U64} {f : Nat}
    (ho : SlotsOk g n h) (hf : f < 3) (hl : fp.length = n) :
    assignStepX g fp (h, f) =
      .ok (fp.set (slotN g h f) ((fingerprint h).setWidth w ^^^
        fp.getD (slotN g h (otherSlots f).1) 0#w ^^^ fp.getD (slotN g h (otherSlots f).2) 0#w)) := by
  obtain ⟨r0, r1, r2⟩ := h012_full (g := g) (h := h) hf
  simp only [slotN] at r0 r1 r2
  have l1 : slotN g h (otherSlots f).1 < fp.length := by rw [hl]; exact slot_lt ho _
  have l2 : slotN g h (otherSlots f).2 < fp.length := by rw [hl]; exact slot_lt ho _
  have l0 : slotN g h f < fp.length := by rw [hl]; exact slot_lt ho _
  unfold assignStepX
  simp only [r0, r1, r2, Res.bind_ok]
  have k1 := rd_ok l1
  have k2 := rd_ok l2
  have k0 := fun v => wr_ok (v := v) l0
  rw [getD_lt l1, getD_lt l2]
  unfold slotN at k0 k1 k2 l0 l1 l2 ⊢
  simp only [k1, k2, k0, Res.bind_ok]

theorem solve_slotsX {w : Nat} {g : Geom} {n : Nat} {h : U64} {f : Nat} (ho : SlotsOk g n h)
    (hf : f < 3) {fp : List (BitVec w)} (hl : fp.length = n) (c : BitVec w) :
    let fn := fun i => (fp.set (slotN g h f) (c ^^^ fp.getD (slotN g h (otherSlots f).1) 0#w ^^^
      fp.getD (slotN g h (otherSlots f).2) 0#w)).getD i 0#w
    c ^^^ (fn (slotN g h 0) ^^^ fn (slotN g h 1) ^^^ fn (slotN g h 2)) = 0#w := by
  have l0 : slotN g h f < fp.length := by rw [hl]; exact slot_lt ho _
  have hset : ∀ v, ∀ i < 3, (fp.set (slotN g h f) v).getD (slotN g h i) 0#w =
      if i = f then v else fp.getD (slotN g h i) 0#w := by
    intro v i hi
    by_cases e : i = f
    · subst e
      simp [List.getD_eq_getElem?_getD, l0]
    · have : slotN g h f ≠ slotN g h i := fun h => e (slot_inj ho hf hi h).symm
      simp [List.getD_eq_getElem?_getD, e, List.getElem?_set_ne this]
  simp only
  rw [hset _ 0 (by omega), hset _ 1 (by omega), hset _ 2 (by omega)]
  have x3 : ∀ c a b : BitVec w, c ^^^ (c ^^^ a ^^^ b ^^^ a ^^^ b) = 0#w ∧
      c ^^^ (b ^^^ (c ^^^ a ^^^ b) ^^^ a) = 0#w ∧ c ^^^ (a ^^^ b ^^^ (c ^^^ a ^^^ b)) = 0#w := by
    intro c a b
    refine ⟨?_, ?_, ?_⟩ <;>
    · ext i hi
      simp only [BitVec.getElem_xor, BitVec.getElem_zero]
      generalize c[i] = x
      generalize a[i] = y
      generalize b[i] = z
      revert x y z
      decide
  have : f = 0 ∨ f = 1 ∨ f = 2 := by omega
  rcases this with rfl | rfl | rfl
  · exact (x3 _ _ _).1
  · exact (x3 _ _ _).2.1
  · exact (x3 _ _ _).2.2

theorem assignX_ok {w : Nat} {g : Geom} {n : Nat} {hashes : List U64} {stk : List (U64 × Nat)}
    (ho : ∀ h, SlotsOk g n h) (hs : Solved g hashes stk) (fp0 : List (BitVec w))
    (hfp : fp0.length = n) :
    ∃ fp, foldRes (assignStepX g) fp0 stk = .ok fp ∧ fp.length = n ∧
      ∀ h ∈ hashes, SatX g (fun i => fp.getD i 0#w) h := by
  obtain ⟨fp, h1, h2, _, h3⟩ := assign_ok (g := g) (n := n) 0#w (assignStepX g) (SatX g)
    (by
      intro f f' h he hs
      unfold SatX at *
      rw [← he 0 (by omega), ← he 1 (by omega), ← he 2 (by omega)]
      exact hs) hs.peel
    (by
      rintro fp ⟨h, f⟩ he hlen
      refine ⟨_, assignStepX_eq (ho h) (hs.peel.1 _ he) hlen, ?_⟩
      exact solve_slotsX (ho h) (hs.peel.1 _ he) hlen _) fp0 hfp
  refine ⟨fp, h1, h2, ?_⟩
  intro h hh
  obtain ⟨e, he, rfl⟩ := List.mem_map.1 ((hs.mem h).2 hh)
  exact h3 e he

/-- The retry loop started at attempt `t`: success gives a solved stack for one of the seeds of the
splitmix sequence; without counter overflow it never panics or diverges. -/
theorem bfxLoop_spec {prof : Profile} {lay : Layout} {s : Nat} {keys : List U64}
    (hg : lay.geom.WF lay.arrayLen s lay.segmentCount) :
    ∀ (n t : Nat), (prof = .debug ∨
      ∀ u, t ≤ u → u < t + n → Fits lay.geom (keys.map fun k => mix k (splitmixSeed 1#64 u))) →
    (∃ stk u, t ≤ u ∧ u < t + n ∧
      bfxLoop prof lay keys n (splitmixState 1#64 (t + 1)) (splitmixSeed 1#64 t)
        (BState.init keys.length lay.arrayLen) = .ok (stk, splitmixSeed 1#64 u) ∧
      Solved lay.geom (keys.map fun k => mix k (splitmixSeed 1#64 u)) stk) ∨
    bfxLoop prof lay keys n (splitmixState 1#64 (t + 1)) (splitmixSeed 1#64 t)
        (BState.init keys.length lay.arrayLen) = .err .filterFailed ∨
    (prof = .debug ∧ (¬ ∀ u, t ≤ u → u < t + n →
        Fits lay.geom (keys.map fun k => mix k (splitmixSeed 1#64 u))) ∧
      ∀ r, bfxLoop prof lay keys n (splitmixState 1#64 (t + 1)) (splitmixSeed 1#64 t)
        (BState.init keys.length lay.arrayLen) ≠ .ok r) := by
  intro n
  induction n with
  | zero => intro t _; right; left; rfl
  | succ m ih =>
    intro t hload
    have hl : (keys.map fun k => mix k (splitmixSeed 1#64 t)).length = keys.length := by simp
    have key : ((∃ stk, attempt prof lay keys.length (keys.map fun k => mix k (splitmixSeed 1#64 t))
          (BState.init keys.length lay.arrayLen) = .ok (.done stk) ∧
        Solved lay.geom (keys.map fun k => mix k (splitmixSeed 1#64 t)) stk) ∨
        attempt prof lay keys.length (keys.map fun k => mix k (splitmixSeed 1#64 t))
          (BState.init keys.length lay.arrayLen) =
          .ok (.peelFailed (BState.init keys.length lay.arrayLen))) ∨
        (prof = .debug ∧ ¬ Fits lay.geom (keys.map fun k => mix k (splitmixSeed 1#64 t)) ∧
          ∀ r, attempt prof lay keys.length (keys.map fun k => mix k (splitmixSeed 1#64 t))
          (BState.init keys.length lay.arrayLen) ≠ .ok r) := by
      by_cases hF : Fits lay.geom (keys.map fun k => mix k (splitmixSeed 1#64 t))
      · exact Or.inl (attempt_ok hg hl hF)
      · have hprof : prof = .debug :=
          hload.resolve_right fun h => hF (h t (le_refl _) (by omega))
        subst hprof
        cases hA : attempt .debug lay keys.length (keys.map fun k => mix k (splitmixSeed 1#64 t))
          (BState.init keys.length lay.arrayLen) with
        | ok r =>
          left
          rcases attempt_debug hg hl hA with ⟨stk, rfl, h⟩ | rfl
          · exact Or.inl ⟨stk, rfl, h⟩
          · exact Or.inr rfl
        | err e => right; exact ⟨rfl, hF, by simp⟩
        | panic => right; exact ⟨rfl, hF, by simp⟩
        | diverge => right; exact ⟨rfl, hF, by simp⟩
    rcases key with (⟨stk, hA, hS⟩ | hA) | ⟨hp, hF, hA⟩
    · left
      refine ⟨stk, t, le_refl _, by omega, ?_, hS⟩
      rw [bfxLoop, hA]
      rfl
    · have e : bfxLoop prof lay keys (m + 1) (splitmixState 1#64 (t + 1)) (splitmixSeed 1#64 t)
          (BState.init keys.length lay.arrayLen) =
          bfxLoop prof lay keys m (splitmixState 1#64 (t + 1 + 1)) (splitmixSeed 1#64 (t + 1))
          (BState.init keys.length lay.arrayLen) := by
        rw [bfxLoop, hA]
        rfl
      rw [e]
      rcases ih (t + 1) (hload.imp_right fun h u h1 h2 => h u (by omega) (by omega)) with
        ⟨stk, u, h1, h2, h3, h4⟩ | h | ⟨h1, h2, h3⟩
      · exact Or.inl ⟨stk, u, by omega, by omega, h3, h4⟩
      · exact Or.inr (Or.inl h)
      · exact Or.inr (Or.inr ⟨h1, fun h => h2 fun u a b => h u (by omega) (by omega), h3⟩)
    · right; right
      refine ⟨hp, fun h => hF (h t (le_refl _) (by omega)), ?_⟩
      intro r
      rw [bfxLoop]
      intro h
      obtain ⟨r, hr, _⟩ := Res.bind_eq_ok.1 h
      exact hA r hr

theorem bfuseXFromImpl_eq (w : Nat) (prof : Profile) (segExp cap0 maxIter : Nat)
    (fp0 : Nat → BitVec w) (keys : List U64) :
    bfuseXFromImpl w prof segExp cap0 maxIter fp0 keys =
    (if prof = .debug ∧ ¬ keys.Nodup then .panic
     else bfLayout keys.length segExp cap0 >>= fun lay =>
      bfxLoop prof lay keys maxIter (splitmixState 1#64 1) (splitmixSeed 1#64 0)
        (BState.init keys.length lay.arrayLen) >>= fun p =>
      foldRes (assignStepX lay.geom) ((List.range lay.arrayLen).map fp0) p.1 >>= fun fp =>
      .ok { seed := p.2, geom := lay.geom, fingerprints := fp }) := rfl

/-- The sentinel at the end of `reverse_order` is never overwritten. -/
def RInv (size : Nat) (ro : List U64) : Prop := ro.length = size + 1 ∧ ro.drop size = [1#64]

theorem probe_zero {bb : Nat} {sp : List Nat} {ro : List U64} : ∀ {fuel i j : Nat}, probe bb sp ro fuel i = .ok j →
    ∃ p, rd sp j = .ok p ∧ rd ro p = .ok 0#64 := by
  intro fuel
  induction fuel with
  | zero => intro i j h; cases h
  | succ fuel ih =>
    intro i j h
    rw [probe] at h
    obtain ⟨p, hp, h⟩ := Res.bind_eq_ok.1 h
    obtain ⟨v, hv, h⟩ := Res.bind_eq_ok.1 h
    split_ifs at h with h0
    · exact ih h
    · cases h
      push Not at h0
      subst h0
      exact ⟨p, hp, hv⟩

theorem bucketStep_RInv {size bb : Nat} {st st' : List Nat × List U64} {h : U64} (hR : RInv size st.2)
    (hs : bucketStep bb st h = .ok st') : RInv size st'.2 := by
  obtain ⟨sp, ro⟩ := st
  unfold bucketStep at hs
  simp only at hs hR
  obtain ⟨i, hi, hs⟩ := Res.bind_eq_ok.1 hs
  obtain ⟨p, hp, hs⟩ := Res.bind_eq_ok.1 hs
  obtain ⟨ro', hw, hs⟩ := Res.bind_eq_ok.1 hs
  obtain ⟨sp', _, hs⟩ := Res.bind_eq_ok.1 hs
  cases hs
  obtain ⟨p', hp', hz⟩ := probe_zero hi
  rw [hp] at hp'
  cases hp'
  unfold wr at hw
  split_ifs at hw with hlt
  cases hw
  obtain ⟨h1, h2⟩ := hR
  have hne : p ≠ size := by
    rintro rfl
    have : ro[p]? = some 1#64 := by
      have := congrArg List.head? h2
      simpa using this
    rw [rd_ok hlt, List.getElem?_eq_getElem hlt] at *
    simp only [Option.some.injEq] at this
    rw [this] at hz
    cases hz
  refine ⟨by simpa using h1, ?_⟩
  rw [List.drop_set_of_lt (by omega)]
  exact h2

theorem bucket_RInv {size bb : Nat} : ∀ {hashes : List U64} {st st' : List Nat × List U64}, RInv size st.2 →
    foldRes (bucketStep bb) st hashes = .ok st' → RInv size st'.2 := by
  intro hashes
  induction hashes with
  | nil => intro st st' hR h; cases h; exact hR
  | cons a l ih =>
    intro st st' hR h
    rw [foldRes] at h
    obtain ⟨s1, h1, h⟩ := Res.bind_eq_ok.1 h
    exact ih (bucketStep_RInv hR h1) h

/-- From whatever state the arrays are in: a failed peeling leaves them as at the beginning, and an `error` keeps the sentinel. -/
theorem attempt_states {prof : Profile} {lay : Layout} {size : Nat} {hashes : List U64} {st : BState} {r : Attempt}
    (hR : RInv size st.reverseOrder) (h : attempt prof lay size hashes st = .ok r) :
    (∃ stk, r = .done stk) ∨ r = .peelFailed (BState.init size lay.arrayLen) ∨
      ∃ st', r = .countError st' ∧ RInv size st'.reverseOrder := by
  unfold attempt at h
  simp only at h
  obtain ⟨⟨sp, ro⟩, hb, h⟩ := Res.bind_eq_ok.1 h
  have hR' := bucket_RInv (st := (_, _)) hR hb
  simp only at h hR'
  obtain ⟨c, _, h⟩ := Res.bind_eq_ok.1 h
  split_ifs at h with he
  · cases h
    exact Or.inr (Or.inr ⟨_, rfl, hR'⟩)
  · obtain ⟨q, _, h⟩ := Res.bind_eq_ok.1 h
    obtain ⟨p, _, h⟩ := Res.bind_eq_ok.1 h
    split_ifs at h
    · cases h; exact Or.inl ⟨_, rfl⟩
    · cases h
      refine Or.inr (Or.inl ?_)
      rw [hR'.2]
      rfl

/-- The retry loop: only the seed that succeeded matters. The arrays are not in their initial state only after an `error`, and then
the seed is still the overloaded one. -/
theorem bfxLoop_success {prof : Profile} {lay : Layout} {s : Nat} {keys : List U64}
    (hg : lay.geom.WF lay.arrayLen s lay.segmentCount) : ∀ (n t : Nat) (st : BState), RInv keys.length st.reverseOrder →
    (st = BState.init keys.length lay.arrayLen ∨
      (prof = .release ∧ ¬ Fits lay.geom (keys.map fun k => mix k (splitmixSeed 1#64 t)))) →
    ∀ stk sd, bfxLoop prof lay keys n (splitmixState 1#64 (t + 1)) (splitmixSeed 1#64 t) st = .ok (stk, sd) →
    ∃ u, t ≤ u ∧ u < t + n ∧ sd = splitmixSeed 1#64 u ∧
      (prof = .debug ∨ Fits lay.geom (keys.map fun k => mix k (splitmixSeed 1#64 u)) →
        Solved lay.geom (keys.map fun k => mix k (splitmixSeed 1#64 u)) stk) := by
  intro n
  induction n with
  | zero => intro t st _ _ stk sd h; cases h
  | succ m ih =>
    intro t st hR hst stk sd h
    have hl : (keys.map fun k => mix k (splitmixSeed 1#64 t)).length = keys.length := by simp
    have hRi : RInv keys.length (BState.init keys.length lay.arrayLen).reverseOrder := by
      simp [RInv, BState.init]
    rw [bfxLoop] at h
    obtain ⟨r, hA, h⟩ := Res.bind_eq_ok.1 h
    -- the outcomes of an attempt that starts from the initial state
    have good : prof = .debug ∨ Fits lay.geom (keys.map fun k => mix k (splitmixSeed 1#64 t)) →
        (∃ stk, r = .done stk ∧ Solved lay.geom (keys.map fun k => mix k (splitmixSeed 1#64 t)) stk) ∨
        r = .peelFailed (BState.init keys.length lay.arrayLen) := by
      intro hF
      have hi : st = BState.init keys.length lay.arrayLen := by
        rcases hst with h | ⟨h1, h2⟩
        · exact h
        · rcases hF with h | h
          · rw [h] at h1; cases h1
          · exact absurd h h2
      rw [hi] at hA
      rcases hF with hd | hF
      · subst hd
        exact attempt_debug hg hl hA
      · rcases attempt_ok (prof := prof) hg hl hF with ⟨stk, e, hs⟩ | e
        · rw [hA] at e; cases e; exact Or.inl ⟨stk, rfl, hs⟩
        · rw [hA] at e; cases e; exact Or.inr rfl
    rcases attempt_states hR hA with ⟨stk', rfl⟩ | rfl | ⟨st', rfl, hR'⟩
    · cases h
      refine ⟨t, le_refl _, by omega, rfl, fun hF => ?_⟩
      rcases good hF with ⟨stk', e, hs⟩ | e
      · cases e; exact hs
      · cases e
    · obtain ⟨u, h1, h2, h3, h4⟩ := ih (t + 1) _ hRi (Or.inl rfl) stk sd h
      exact ⟨u, by omega, by omega, h3, h4⟩
    · have hbad : prof = .release ∧ ¬ Fits lay.geom (keys.map fun k => mix k (splitmixSeed 1#64 t)) := by
        constructor
        · cases prof with
          | release => rfl
          | debug => rcases good (Or.inl rfl) with ⟨_, e, _⟩ | e <;> cases e
        · intro hF
          rcases good (Or.inr hF) with ⟨_, e, _⟩ | e <;> cases e
      obtain ⟨u, h1, h2, h3, h4⟩ := ih t st' hR' (Or.inr hbad) stk sd h
      exact ⟨u, by omega, by omega, h3, h4⟩

/-- A filter that was returned: its seed is one of the sequence, and if that seed overloads no slot the stack solves the equations. -/
theorem bfx_success {prof : Profile} {lay : Layout} {s : Nat} {keys : List U64} {stk : List (U64 × Nat)} {sd : U64}
    (hg : lay.geom.WF lay.arrayLen s lay.segmentCount)
    (h : bfxLoop prof lay keys 1000 (splitmixState 1#64 1) (splitmixSeed 1#64 0) (BState.init keys.length lay.arrayLen) = .ok (stk, sd)) :
    (∃ t < 1000, sd = splitmixSeed 1#64 t) ∧
    ((prof = .debug ∨ ∀ s, slotLoadX lay.geom sd keys s < 64) → Solved lay.geom (keys.map fun k => mix k sd) stk) := by
  obtain ⟨u, _, h2, rfl, h4⟩ := bfxLoop_success hg 1000 0 _ (by simp [RInv, BState.init]) (Or.inl rfl) stk sd h
  refine ⟨⟨u, by omega, rfl⟩, fun hload => h4 (hload.imp_right fun h x => ?_)⟩
  have := h x
  rw [slotLoadX_eq] at this
  omega

/-- **C40.** `BinaryFuse8/16/32` (fingerprints of `w` bits) have no false negatives: if construction
returns a filter, `contains` returns `true` for every input key. Quantified over all key lists (with
repetitions in release builds), unused-slot contents and size values. In release builds the seed of the returned filter
must not load a slot with 64 or more keys (by C82 this is needed); seeds tried before do not matter. -/
theorem C40_no_false_negatives (w : Nat) (prof : Profile) (segExp cap0 : Nat) (fp0 : Nat → BitVec w)
    (keys : List U64) (f : BinaryFuse w)
    (hf : BinaryFuse.tryFrom w prof segExp cap0 fp0 keys = .ok f)
    (hload : prof = .debug ∨ ∀ s, slotLoadX f.geom f.seed keys s < 64)
    (key : U64) (hk : key ∈ keys) : f.contains key = .ok true := by
  unfold BinaryFuse.tryFrom at hf
  rw [bfuseXFromImpl_eq] at hf
  split at hf
  · cases hf
  · obtain ⟨lay, hlay, hf⟩ := Res.bind_eq_ok.1 hf
    obtain ⟨⟨stk, sd⟩, hb, hf⟩ := Res.bind_eq_ok.1 hf
    obtain ⟨fp, ha, hf⟩ := Res.bind_eq_ok.1 hf
    cases hf
    obtain ⟨s, _, hg⟩ := bfLayout_wf hlay
    have ho := fun h => slotsOk hg h
    have h4 := (bfx_success hg hb).2 hload
    obtain ⟨fp', e1, e2, e3⟩ := assignX_ok ho h4 ((List.range lay.arrayLen).map fp0) (by simp)
    rw [ha] at e1
    cases e1
    have hsat := e3 _ (List.mem_map.2 ⟨key, hk, rfl⟩)
    generalize hh : mix key sd = h at hsat
    have l0 : slotN lay.geom h 0 < fp.length := by rw [e2]; exact (ho h).l0
    have l1 : slotN lay.geom h 1 < fp.length := by rw [e2]; exact (ho h).l1
    have l2 : slotN lay.geom h 2 < fp.length := by rw [e2]; exact (ho h).l2
    unfold SatX at hsat
    simp only at hsat
    rw [getD_lt l0, getD_lt l1, getD_lt l2] at hsat
    unfold BinaryFuse.contains
    have k0 := rd_ok l0
    have k1 := rd_ok l1
    have k2 := rd_ok l2
    simp only [slotN] at k0 k1 k2 hsat
    simp only [hh, k0, k1, k2, Res.bind_ok, hsat, decide_true]

/-- **C40.** Construction is total: with distinct keys in debug builds, no `u32` overflow in the size
computation and no overloaded slot, it returns a filter or the construction error. -/
theorem C40_total (w : Nat) (prof : Profile) (segExp cap0 : Nat) (fp0 : Nat → BitVec w)
    (keys : List U64) (lay : Layout) (hlay : bfLayout keys.length segExp cap0 = .ok lay)
    (hdebug : prof = .debug → keys.Nodup)
    (hload : ∀ t < 1000, ∀ s, slotLoadX lay.geom (splitmixSeed 1#64 t) keys s < 64) :
    (∃ f, BinaryFuse.tryFrom w prof segExp cap0 fp0 keys = .ok f ∧ f.geom = lay.geom ∧
      ∃ t < 1000, f.seed = splitmixSeed 1#64 t) ∨
    BinaryFuse.tryFrom w prof segExp cap0 fp0 keys = .err .filterFailed := by
  obtain ⟨s, _, hg⟩ := bfLayout_wf hlay
  have hF : ∀ u, 0 ≤ u → u < 0 + 1000 →
      Fits lay.geom (keys.map fun k => mix k (splitmixSeed 1#64 u)) := by
    intro u _ hu x
    have := hload u (by omega) x
    rw [slotLoadX_eq] at this
    omega
  unfold BinaryFuse.tryFrom
  rw [bfuseXFromImpl_eq, if_neg (by rintro ⟨h1, h2⟩; exact h2 (hdebug h1)), hlay, Res.bind_ok]
  rcases bfxLoop_spec (prof := prof) (keys := keys) hg 1000 0 (Or.inr hF) with
    ⟨stk, u, h1, h2, h3, h4⟩ | h | ⟨_, h, _⟩
  · left
    obtain ⟨fp, e1, e2, e3⟩ := assignX_ok (fun h => slotsOk hg h) h4
      ((List.range lay.arrayLen).map fp0) (by simp)
    simp only [Nat.zero_add] at h3
    rw [h3, Res.bind_ok, e1]
    exact ⟨_, rfl, rfl, u, by omega, rfl⟩
  · right
    simp only [Nat.zero_add] at h
    rw [h]; rfl
  · exact absurd hF h

/-- **C40.** Keys never collide, so a successful filter answers for keys, not for hashes: two different
keys always have different hashes under the filter's seed. -/
theorem C40_keys_do_not_collide (seed k₁ k₂ : U64) (h : k₁ ≠ k₂) : mix k₁ seed ≠ mix k₂ seed :=
  fun e => h ((C32_mix_bijective seed).1 e)

/-- Non-vacuity of C40: a successful construction with noise in the unused slots, and a key that is
rejected. -/
example : ∃ f, BinaryFuse.tryFrom 8 .debug 3 20 (fun i => BitVec.ofNat 8 (i * 37 + 5))
      [1#64, 2#64, 3#64, 0xffffffffffffffff#64] = .ok f ∧
    f.contains 3#64 = .ok true ∧ f.contains 77#64 = .ok false := by
  have h : ((BinaryFuse.tryFrom 8 .debug 3 20 (fun i => BitVec.ofNat 8 (i * 37 + 5))
      [1#64, 2#64, 3#64, 0xffffffffffffffff#64]).bind fun f =>
      .ok (f.contains 3#64, f.contains 77#64)) = .ok (.ok true, .ok false) := by decide +kernel
  obtain ⟨f, hf, h⟩ := Res.bind_eq_ok.1 h
  simp only [Res.ok.injEq, Prod.mk.injEq] at h
  exact ⟨f, hf, h⟩

end Chalamet
