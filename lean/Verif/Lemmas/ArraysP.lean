import Verif.Lemmas.Arrays
import Verif.Lemmas.Kv

/-! Array-level and list-level `bfusep_from_impl!` and `bfuse_from_impl!` agree (helper lemmas). -/

namespace Chalamet

theorem Arrays.init_toB (size capacity bb : Nat) : (Arrays.init size capacity bb).toB = BState.init size capacity := by
  simp only [Arrays.toB, Arrays.init, BState.init, BState.mk.injEq, and_true]
  rw [List.replicate_succ', List.set_append]
  simp

theorem Arrays.init_rel (size capacity bb : Nat) : ARel capacity size bb (Arrays.init size capacity bb) := by
  refine ⟨?_, ?_, ?_, ?_, ?_, ?_, ⟨_, _, _, _, _, rfl⟩⟩ <;> simp [Arrays.init]

theorem bucketStep_length {bb : Nat} {s s' : List Nat × List U64} {hash : U64} (h : bucketStep bb s hash = .ok s') :
    s'.1.length = s.1.length ∧ s'.2.length = s.2.length := by
  unfold bucketStep at h
  obtain ⟨_, _, h⟩ := Res.bind_eq_ok.1 h
  obtain ⟨_, _, h⟩ := Res.bind_eq_ok.1 h
  obtain ⟨_, h1, h⟩ := Res.bind_eq_ok.1 h
  obtain ⟨_, h2, h⟩ := Res.bind_eq_ok.1 h
  cases h
  exact ⟨wr_length h2, wr_length h1⟩

theorem bucket_length {bb : Nat} {s s' : List Nat × List U64} {l : List U64}
    (h : foldRes (bucketStep bb) s l = .ok s') : s'.1.length = s.1.length ∧ s'.2.length = s.2.length := by
  induction l generalizing s with
  | nil => cases h; exact ⟨rfl, rfl⟩
  | cons a l ih =>
    rw [foldRes_cons] at h
    obtain ⟨c1, h1, h⟩ := Res.bind_eq_ok.1 h
    have := ih h
    have := bucketStep_length h1
    omega

theorem arrBucketP_sim {bb : Nat} {seed : List U8} {keys : List Key} {data : List U32} {hashes : List U64}
    (hh : mapRes (fun k => mix256 k seed) keys = .ok hashes) (sp : List Nat) (ro : List U64) (hm0 : HMap)
    (n : Nat) (hn : n ≤ keys.length) (hd : n ≤ data.length) :
    Sim (fun (x : List Nat × List U64 × HMap) (y : List Nat × List U64) =>
        (x.1, x.2.1) = y ∧ x.2.2 = ((hashes.zip data).take n).reverse ++ hm0)
      (foldRes (arrBucketStepP bb seed keys data) (sp, ro, hm0) (List.range n))
      (foldRes (bucketStep bb) (sp, ro) (hashes.take n)) := by
  have hl := mapRes_length hh
  induction n with
  | zero => exact Sim.ok ⟨rfl, by simp⟩
  | succ n ih =>
    have hn' : n < hashes.length := by omega
    rw [List.range_succ, foldRes_append, List.take_add_one (l := hashes), List.getElem?_eq_getElem hn', foldRes_append]
    refine Sim.bind (ih (by omega) (by omega)) ?_
    rintro ⟨sp1, ro1, hm1⟩ ⟨_, _⟩ ⟨h1, h2⟩
    simp only [Prod.mk.injEq] at h1 h2
    obtain ⟨rfl, rfl⟩ := h1
    simp only [Option.toList_some, foldRes_cons, foldRes_nil]
    refine Sim.bind (R := fun (x : List Nat × List U64 × HMap) (y : List Nat × List U64) =>
        (x.1, x.2.1) = y ∧ x.2.2 = ((hashes.zip data).take (n + 1)).reverse ++ hm0) ?_ fun a b h => Sim.ok h
    unfold arrBucketStepP bucketStep
    simp only [rd_ok (show n < keys.length by omega), Res.bind_ok, mapRes_getElem hh (show n < keys.length by omega) hn']
    refine Sim.same _ fun i _ => Sim.same _ fun p hp => Sim.same _ fun ro2 _ => ?_
    rw [rd_ok (show n < data.length by omega), Res.bind_ok, hp, Res.bind_ok]
    refine Sim.same _ fun sp2 _ => Sim.ok ⟨rfl, ?_⟩
    simp only [h2]
    rw [List.take_add_one, List.getElem?_eq_getElem (by simp; omega)]
    simp

/-- Earlier insertions do not shadow, and are repeated by, the last ones. -/
def HmOk (Z hm : HMap) : Prop := ∀ h, hm.lookup h = none ∨ hm.lookup h = Z.lookup h

theorem HmOk.lookup {Z hm : HMap} (h : HmOk Z hm) (x : U64) : (Z ++ hm).lookup x = Z.lookup x := by
  rw [List.lookup_append]
  rcases h x with e | e <;> rw [e] <;> cases Z.lookup x <;> rfl

theorem arrLoopP_sim {prof : Profile} {lay : Layout} {seed : List U8} {keys : List Key} {data : List U32}
    {hashes : List U64} (hh : mapRes (fun k => mix256 k seed) keys = .ok hashes) (hd : keys.length ≤ data.length)
    (hcap : lay.arrayLen ≤ 2 ^ 32) {fuel : Nat} (hf : lay.arrayLen + 2 * keys.length ≤ fuel) (n : Nat) {a : Arrays} {hm : HMap}
    (h : ARel lay.arrayLen keys.length (blockBits lay.segmentCount) a) (hhm : HmOk (hashes.zip data).reverse hm) :
    Sim (fun (x : Nat × Arrays × HMap) stk =>
        ARel lay.arrayLen keys.length (blockBits lay.segmentCount) x.2.1 ∧
        Top id x.2.1.reverseOrder x.1 (stk.map Prod.fst) ∧ Top BitVec.toNat x.2.1.reverseH x.1 (stk.map Prod.snd) ∧
        ∀ h, x.2.2.lookup h = hmGet hashes data h)
      (arrLoopP prof lay seed keys data fuel n a hm)
      (bfpLoop prof lay keys.length hashes n a.toB) := by
  have hl := mapRes_length hh
  induction n generalizing a hm with
  | zero => exact rfl
  | succ n ih =>
    unfold arrLoopP bfpLoop
    dsimp only
    rw [arrStartPos_eq h.sp, Res.bind_ok, attempt_eq, show a.toB.reverseOrder = a.reverseOrder from rfl]
    have hb := arrBucketP_sim (bb := blockBits lay.segmentCount) hh (startPosInit keys.length (blockBits lay.segmentCount))
      a.reverseOrder hm keys.length le_rfl hd
    rw [List.take_of_length_le (l := hashes) (by omega),
      List.take_of_length_le (l := hashes.zip data) (by rw [List.length_zip]; omega)] at hb
    rw [bind_assoc]
    refine Sim.bind_mem hb ?_
    rintro ⟨sp, ro, hm'⟩ y - hlen ⟨h1, h2⟩
    replace hlen := bucket_length hlen
    simp only at h1 h2
    subst h1 h2
    simp only [startPosInit, List.length_map, List.length_range] at hlen
    have hA : ARel lay.arrayLen keys.length (blockBits lay.segmentCount)
        { a with startPos := sp, reverseOrder := ro } :=
      ⟨h.alone, h.t1, h.t2, h.rh, by have := h.ro; simp only; omega, hlen.1, h.h⟩
    refine Sim.bind (arrRest_sim (prof := prof) hcap hf hA) ?_
    rintro ⟨e, a'⟩ y ⟨hA', hE⟩
    have hhm' : HmOk (hashes.zip data).reverse ((hashes.zip data).reverse ++ hm) := by
      intro x
      right
      rw [hhm.lookup]
    match e, y, hE with
    | .done m, .done stk, hE => exact Sim.ok ⟨hA', hE.1, hE.2, fun x => hhm.lookup x⟩
    | .peelFailed, .peelFailed st, hE =>
      simp only at hE ⊢
      subst hE
      exact ih hA' hhm'
    | .countError, .countError st, hE =>
      simp only at hE ⊢
      subst hE
      exact ih hA' hhm'

theorem arrH012_eq (g : Geom) (hash : U64) (x0 x1 x2 x3 x4 x5 : U32) :
    arrH012 g hash [x0, x1, x2, x3, x4, x5] =
      .ok [(hashOfHash hash g).1, (hashOfHash hash g).2.1, (hashOfHash hash g).2.2, (hashOfHash hash g).1,
        (hashOfHash hash g).2.1, x5] := rfl

theorem rd_six0 {α : Type} (a b c d e f : α) : rd [a, b, c, d, e, f] 0 = .ok a := rfl

theorem rd_six1 {α : Type} (a b c d e f : α) : rd [a, b, c, d, e, f] 1 = .ok b := rfl

theorem rd_six2 {α : Type} (a b c d e f : α) : rd [a, b, c, d, e, f] 2 = .ok c := rfl

theorem rd_six3 {α : Type} (a b c d e f : α) : rd [a, b, c, d, e, f] 3 = .ok d := rfl

theorem rd_six4 {α : Type} (a b c d e f : α) : rd [a, b, c, d, e, f] 4 = .ok e := rfl

theorem rd_six5 {α : Type} (a b c d e f : α) : rd [a, b, c, d, e, f] 5 = .ok f := rfl

theorem rd_six6 {α : Type} (a b c d e f : α) : rd [a, b, c, d, e, f] 6 = .panic := rfl

theorem rd_six_panic {α : Type} (a b c d e f : α) (n : Nat) : rd [a, b, c, d, e, f] (n + 6) = .panic := by
  simp [rd]

theorem bind_panic_right {α β : Type} (x : Res α) (h : ∀ e, x ≠ .err e) (h' : x ≠ .diverge) :
    (x >>= fun _ => (.panic : Res β)) = .panic := by
  cases x <;> simp_all

theorem rd_bind_panic {α β : Type} (l : List α) (i : Nat) : (rd l i >>= fun _ => (.panic : Res β)) = .panic := by
  unfold rd
  cases l[i]? <;> rfl

theorem arrAssignStepP_sim {g : Geom} {a : Arrays} {hm : HMap} {hashes : List U64} {data : List U32} {label ptxtMod : U64}
    (hhm : ∀ h, hm.lookup h = hmGet hashes data h) {h012 : List U32} {fp : List U32} {i : Nat} {hash : U64} {found : U8}
    (hh : ∃ x0 x1 x2 x3 x4, h012 = [x0, x1, x2, x3, x4, 0#32])
    (hro : rd a.reverseOrder i = .ok hash) (hrh : rd a.reverseH i = .ok found) :
    Sim (fun (x : List U32 × List U32) y => (∃ x0 x1 x2 x3 x4, x.1 = [x0, x1, x2, x3, x4, 0#32]) ∧ x.2 = y)
      (arrAssignStepP g a hm label ptxtMod (h012, fp) i)
      (assignStepP g hashes data label ptxtMod fp (hash, found.toNat)) := by
  obtain ⟨x0, x1, x2, x3, x4, rfl⟩ := hh
  unfold arrAssignStepP assignStepP
  simp only [hro, hrh, Res.bind_ok, hhm hash, arrH012_eq]
  rcases hmGet hashes data hash with _ | d
  · trivial
  simp only
  split
  · trivial
  generalize (hashOfHash hash g).1 = i1
  generalize (hashOfHash hash g).2.1 = i2
  generalize (hashOfHash hash g).2.2 = i3
  have hk : found.toNat = 0 ∨ found.toNat = 1 ∨ found.toNat = 2 ∨ found.toNat = 3 ∨ found.toNat = 4 ∨
      ∃ k, found.toNat = k + 5 := by
    by_cases h : found.toNat < 5
    · omega
    · exact .inr (.inr (.inr (.inr (.inr ⟨found.toNat - 5, by omega⟩))))
  rcases hk with h | h | h | h | h | ⟨k, h⟩ <;> rw [h]
  iterate 4
    simp only [Nat.reduceAdd, rd_six0, rd_six1, rd_six2, rd_six3, rd_six4, rd_six5, Res.bind_ok]
    exact Sim.same _ fun fx _ => Sim.same _ fun fy _ => Sim.same_right _ fun fz _ =>
      Sim.ok ⟨⟨_, _, _, _, _, rfl⟩, rfl⟩
  · simp only [Nat.reduceAdd, rd_six5, rd_six6, Res.bind_ok, Res.bind_panic]
    rw [rd_bind_panic]
    trivial
  · rw [show k + 5 + 1 = k + 6 from rfl, rd_six_panic, rd_six_panic]
    trivial

theorem arrAssignP_sim {g : Geom} {a : Arrays} {hm : HMap} {hashes : List U64} {data : List U32} {label ptxtMod : U64}
    (hhm : ∀ h, hm.lookup h = hmGet hashes data h) (stk : List (U64 × Nat)) {h012 : List U32} {fp : List U32} {n : Nat}
    (hh : ∃ x0 x1 x2 x3 x4, h012 = [x0, x1, x2, x3, x4, 0#32])
    (hro : Top id a.reverseOrder n (stk.map Prod.fst)) (hrh : Top BitVec.toNat a.reverseH n (stk.map Prod.snd)) :
    Sim (fun (x : List U32 × List U32) y => x.2 = y)
      (foldRes (arrAssignStepP g a hm label ptxtMod) (h012, fp) (List.range n).reverse)
      (foldRes (assignStepP g hashes data label ptxtMod) fp stk) := by
  induction stk generalizing n h012 fp with
  | nil =>
    rw [hro.zero_iff.2 rfl]
    exact Sim.ok rfl
  | cons e stk ih =>
    obtain ⟨hash, found⟩ := e
    obtain ⟨v, hv, rfl, hro'⟩ := Top.pop hro
    obtain ⟨w, hw, hw', hrh'⟩ := Top.pop hrh
    have hn : n = (n - 1) + 1 := by have := hro.len; simp at this; omega
    rw [hn, List.range_succ, List.reverse_append]
    simp only [List.reverse_cons, List.reverse_nil, List.nil_append, List.singleton_append, foldRes_cons]
    simp only at hw'
    subst hw'
    refine Sim.bind (arrAssignStepP_sim hhm hh hv hw) ?_
    rintro ⟨h', fp'⟩ y ⟨h1, h2⟩
    simp only at h1 h2
    subst h2
    exact ih h1 hro' hrh'

theorem bfLayout_arrayLen {size segExp cap0 : Nat} {lay : Layout} (h : bfLayout size segExp cap0 = .ok lay) :
    lay.arrayLen ≤ 2 ^ 32 := by
  obtain ⟨s, _, hg⟩ := bfLayout_wf h
  exact hg.len_lt.le

theorem seedWords_panic {seed : List U8} (h : seed.length ≠ 32) : seedWords seed = .panic := by
  unfold seedWords
  rw [if_pos h]

theorem arrFromP_short {bb : Nat} {seed : List U8} {keys : List Key} {data : List U32} {hashes : List U64}
    (hh : mapRes (fun k => mix256 k seed) keys = .ok hashes) (hbb : bb ≤ 64) (hd : data.length < keys.length) :
    foldRes (arrBucketStepP bb seed keys data)
      (startPosInit keys.length bb, List.replicate keys.length 0#64 ++ [1#64], []) (List.range keys.length) = .panic := by
  have hl := mapRes_length hh
  obtain ⟨sp, ro, hok, -, -⟩ := bucket_ok hbb hl
  set sp0 := startPosInit keys.length bb
  set ro0 := List.replicate keys.length 0#64 ++ [1#64]
  have hsplit : hashes = hashes.take data.length ++ hashes[data.length] :: hashes.drop (data.length + 1) := by
    rw [← List.drop_eq_getElem_cons (by omega), List.take_append_drop]
  rw [hsplit, foldRes_append] at hok
  obtain ⟨⟨sp1, ro1⟩, h1, h2⟩ := Res.bind_eq_ok.1 hok
  rw [foldRes_cons] at h2
  obtain ⟨_, h2, -⟩ := Res.bind_eq_ok.1 h2
  have hs := arrBucketP_sim (bb := bb) hh sp0 ro0 [] data.length hd.le le_rfl
  rw [h1] at hs
  have hr : List.range keys.length = List.range data.length ++ data.length ::
      (List.range (keys.length - data.length - 1)).map (fun i => data.length + 1 + i) := by
    have h3 : keys.length = (data.length + 1) + (keys.length - data.length - 1) := by omega
    conv_lhs => rw [h3, List.range_add, List.range_succ]
    simp
  rw [hr, foldRes_append]
  rcases hx : foldRes (arrBucketStepP bb seed keys data) (sp0, ro0, []) (List.range data.length) with x | e | _ | _
  · rw [hx] at hs
    obtain ⟨sp', ro', hm'⟩ := x
    obtain ⟨e1, -⟩ := hs
    simp only [Prod.mk.injEq] at e1
    obtain ⟨rfl, rfl⟩ := e1
    rw [Res.bind_ok, foldRes_cons]
    have : arrBucketStepP bb seed keys data (sp', ro', hm') data.length = .panic := by
      unfold arrBucketStepP
      unfold bucketStep at h2
      simp only [rd_ok hd, Res.bind_ok, mapRes_getElem hh hd (show data.length < hashes.length by omega)]
      dsimp only at h2
      obtain ⟨i, hi, h2⟩ := Res.bind_eq_ok.1 h2
      obtain ⟨p, hp, h2⟩ := Res.bind_eq_ok.1 h2
      obtain ⟨r, hr, h2⟩ := Res.bind_eq_ok.1 h2
      rw [hi, Res.bind_ok, hp, Res.bind_ok, hr, Res.bind_ok, rd_panic le_rfl]
      rfl
    rw [this]
    rfl
  · rw [hx] at hs; exact hs.elim
  · rw [hx] at hs; exact hs.elim
  · rw [hx] at hs; exact hs.elim

/-- The array program and the list program have the same outcome. -/
theorem arrFromP_eq (prof : Profile) (segExp cap0 maxIter fuel : Nat) (fp0 : Nat → U32)
    (seed : List U8) (keys : List Key) (data : List U32) (label ptxtMod : U64) (hm : 0 < maxIter)
    (hf : ∀ lay, bfLayout keys.length segExp cap0 = .ok lay → lay.arrayLen + 2 * keys.length ≤ fuel) :
    arrFromP prof segExp cap0 maxIter fuel fp0 seed keys data label ptxtMod =
      bfusePFromImpl prof segExp cap0 maxIter fp0 seed keys data label ptxtMod := by
  apply Sim.eq
  unfold arrFromP bfusePFromImpl
  split
  · exact Sim.panic
  dsimp only
  refine Sim.same _ fun lay hlay => ?_
  obtain ⟨n, rfl⟩ : ∃ n, maxIter = n + 1 := ⟨maxIter - 1, by omega⟩
  have hbb := blockBits_le lay.segmentCount
  have hsp := arrStartPos_eq (size := keys.length) (Arrays.init_rel keys.length lay.arrayLen (blockBits lay.segmentCount)).sp
  have hro : (Arrays.init keys.length lay.arrayLen (blockBits lay.segmentCount)).reverseOrder =
      List.replicate keys.length 0#64 ++ [1#64] := congrArg BState.reverseOrder
        (Arrays.init_toB keys.length lay.arrayLen (blockBits lay.segmentCount))
  by_cases hs : seed.length = 32 ∨ keys = []
  · obtain ⟨hashes, hh⟩ : ∃ hashes, mapRes (fun k => mix256 k seed) keys = .ok hashes := by
      rcases hs with hs | rfl
      · exact hashes_total hs keys
      · exact ⟨[], rfl⟩
    rw [hh, Res.bind_ok]
    by_cases hd : data.length < keys.length
    · rw [if_pos ⟨hd, hm⟩]
      unfold arrLoopP
      dsimp only
      rw [hsp, Res.bind_ok, hro, arrFromP_short hh (by omega) hd]
      exact Sim.panic
    · rw [if_neg (by tauto)]
      have hL := arrLoopP_sim (prof := prof) (data := data) hh (by omega) (bfLayout_arrayLen hlay) (hf lay hlay) (n + 1)
        (Arrays.init_rel keys.length lay.arrayLen (blockBits lay.segmentCount)) (hm := []) (fun h => .inl rfl)
      rw [Arrays.init_toB] at hL
      refine Sim.bind hL ?_
      rintro ⟨m, a, hmm⟩ stk ⟨hA, h1, h2, h3⟩
      refine Sim.bind (arrAssignP_sim h3 stk hA.h h1 h2) ?_
      rintro ⟨h', fp⟩ y rfl
      exact Sim.ok rfl
  · push Not at hs
    obtain ⟨k, ks, rfl⟩ : ∃ k ks, keys = k :: ks := by
      cases keys with
      | nil => exact absurd rfl hs.2
      | cons k ks => exact ⟨k, ks, rfl⟩
    have hp : ∀ k, mix256 k seed = .panic := by
      intro k
      unfold mix256
      rw [seedWords_panic hs.1]
      rfl
    have e1 : mapRes (fun k => mix256 k seed) (k :: ks) = .panic := by
      rw [mapRes_cons, hp]
      rfl
    rw [e1]
    unfold arrLoopP
    dsimp only
    rw [hsp, Res.bind_ok, List.length_cons, List.range_succ_eq_map, foldRes_cons]
    have e2 : ∀ x, arrBucketStepP (blockBits lay.segmentCount) seed (k :: ks) data x 0 = .panic := by
      rintro ⟨sp, ro, hm⟩
      unfold arrBucketStepP
      simp only [rd_ok (show 0 < (k :: ks).length by simp), Res.bind_ok, hp]
      rfl
    rw [e2]
    exact Sim.panic

/-! ## `bfuse_from_impl!` -/

theorem arrLoopX_sim {prof : Profile} {lay : Layout} {keys : List U64}
    (hcap : lay.arrayLen ≤ 2 ^ 32) {fuel : Nat} (hf : lay.arrayLen + 2 * keys.length ≤ fuel) (n : Nat) (rng seed : U64)
    {a : Arrays} (h : ARel lay.arrayLen keys.length (blockBits lay.segmentCount) a) :
    Sim (fun (x : Nat × U64 × Arrays) (y : List (U64 × Nat) × U64) =>
        ARel lay.arrayLen keys.length (blockBits lay.segmentCount) x.2.2 ∧ x.2.1 = y.2 ∧
        Top id x.2.2.reverseOrder x.1 (y.1.map Prod.fst) ∧ Top BitVec.toNat x.2.2.reverseH x.1 (y.1.map Prod.snd))
      (arrLoopX prof lay keys fuel n rng seed a) (bfxLoop prof lay keys n rng seed a.toB) := by
  induction n generalizing a rng seed with
  | zero => exact rfl
  | succ n ih =>
    unfold arrLoopX bfxLoop
    dsimp only
    rw [arrStartPos_eq h.sp, Res.bind_ok, attempt_eq, show a.toB.reverseOrder = a.reverseOrder from rfl, foldRes_map,
      bind_assoc]
    refine Sim.same _ ?_
    rintro ⟨sp, ro⟩ hlen
    have hlen' : foldRes (bucketStep (blockBits lay.segmentCount))
        (startPosInit keys.length (blockBits lay.segmentCount), a.reverseOrder) (keys.map fun k => mix k seed) =
        .ok (sp, ro) := by rw [foldRes_map]; exact hlen
    replace hlen := bucket_length hlen'
    simp only [startPosInit, List.length_map, List.length_range] at hlen
    have hA : ARel lay.arrayLen keys.length (blockBits lay.segmentCount)
        { a with startPos := sp, reverseOrder := ro } :=
      ⟨h.alone, h.t1, h.t2, h.rh, by have := h.ro; simp only; omega, hlen.1, h.h⟩
    refine Sim.bind (arrRest_sim (prof := prof) hcap hf hA) ?_
    rintro ⟨e, a'⟩ y ⟨hA', hE⟩
    match e, y, hE with
    | .done m, .done stk, hE => exact Sim.ok ⟨hA', rfl, hE.1, hE.2⟩
    | .peelFailed, .peelFailed st, hE =>
      simp only at hE ⊢
      subst hE
      exact ih _ _ hA'
    | .countError, .countError st, hE =>
      simp only at hE ⊢
      subst hE
      exact ih _ _ hA'

theorem arrAssignStepX_sim {w : Nat} {g : Geom} {a : Arrays} {h012 : List U32} {fp : List (BitVec w)} {i : Nat}
    {hash : U64} {found : U8} (hh : ∃ x0 x1 x2 x3 x4, h012 = [x0, x1, x2, x3, x4, 0#32])
    (hro : rd a.reverseOrder i = .ok hash) (hrh : rd a.reverseH i = .ok found) :
    Sim (fun (x : List U32 × List (BitVec w)) y => (∃ x0 x1 x2 x3 x4, x.1 = [x0, x1, x2, x3, x4, 0#32]) ∧ x.2 = y)
      (arrAssignStepX g a (h012, fp) i) (assignStepX g fp (hash, found.toNat)) := by
  obtain ⟨x0, x1, x2, x3, x4, rfl⟩ := hh
  unfold arrAssignStepX assignStepX
  simp only [hro, hrh, Res.bind_ok, arrH012_eq]
  generalize (hashOfHash hash g).1 = i1
  generalize (hashOfHash hash g).2.1 = i2
  generalize (hashOfHash hash g).2.2 = i3
  have hk : found.toNat = 0 ∨ found.toNat = 1 ∨ found.toNat = 2 ∨ found.toNat = 3 ∨ found.toNat = 4 ∨
      ∃ k, found.toNat = k + 5 := by
    by_cases h : found.toNat < 5
    · omega
    · exact .inr (.inr (.inr (.inr (.inr ⟨found.toNat - 5, by omega⟩))))
  rcases hk with h | h | h | h | h | ⟨k, h⟩ <;> rw [h]
  iterate 4
    simp only [Nat.reduceAdd, rd_six0, rd_six1, rd_six2, rd_six3, rd_six4, rd_six5, Res.bind_ok]
    exact Sim.same _ fun fx _ => Sim.same _ fun fy _ => Sim.same_right _ fun fz _ =>
      Sim.ok ⟨⟨_, _, _, _, _, rfl⟩, rfl⟩
  · simp only [Nat.reduceAdd, rd_six4, rd_six5, rd_six6, Res.bind_ok, Res.bind_panic]
    trivial
  · simp only [show k + 5 + 1 = k + 6 from rfl, rd_six_panic, Res.bind_panic, rd_bind_panic]
    trivial

theorem arrAssignX_sim {w : Nat} {g : Geom} {a : Arrays} (stk : List (U64 × Nat)) {h012 : List U32} {fp : List (BitVec w)}
    {n : Nat} (hh : ∃ x0 x1 x2 x3 x4, h012 = [x0, x1, x2, x3, x4, 0#32])
    (hro : Top id a.reverseOrder n (stk.map Prod.fst)) (hrh : Top BitVec.toNat a.reverseH n (stk.map Prod.snd)) :
    Sim (fun (x : List U32 × List (BitVec w)) y => x.2 = y)
      (foldRes (arrAssignStepX g a) (h012, fp) (List.range n).reverse)
      (foldRes (assignStepX g) fp stk) := by
  induction stk generalizing n h012 fp with
  | nil =>
    rw [hro.zero_iff.2 rfl]
    exact Sim.ok rfl
  | cons e stk ih =>
    obtain ⟨hash, found⟩ := e
    obtain ⟨v, hv, rfl, hro'⟩ := Top.pop hro
    obtain ⟨w, hw, hw', hrh'⟩ := Top.pop hrh
    have hn : n = (n - 1) + 1 := by have := hro.len; simp at this; omega
    rw [hn, List.range_succ, List.reverse_append]
    simp only [List.reverse_cons, List.reverse_nil, List.nil_append, List.singleton_append, foldRes_cons]
    simp only at hw'
    subst hw'
    refine Sim.bind (arrAssignStepX_sim hh hv hw) ?_
    rintro ⟨h', fp'⟩ y ⟨h1, h2⟩
    simp only at h1 h2
    subst h2
    exact ih h1 hro' hrh'

theorem arrFromX_eq (w : Nat) (prof : Profile) (segExp cap0 maxIter fuel : Nat) (fp0 : Nat → BitVec w)
    (keys : List U64)
    (hf : ∀ lay, bfLayout keys.length segExp cap0 = .ok lay → lay.arrayLen + 2 * keys.length ≤ fuel) :
    arrFromX w prof segExp cap0 maxIter fuel fp0 keys = bfuseXFromImpl w prof segExp cap0 maxIter fp0 keys := by
  apply Sim.eq
  unfold arrFromX bfuseXFromImpl
  split
  · exact Sim.panic
  refine Sim.same _ fun lay hlay => ?_
  have hL := arrLoopX_sim (prof := prof) (bfLayout_arrayLen hlay) (hf lay hlay) maxIter (splitmix64 1#64).1
    (splitmix64 1#64).2 (Arrays.init_rel keys.length lay.arrayLen (blockBits lay.segmentCount))
  rw [Arrays.init_toB] at hL
  refine Sim.bind hL ?_
  rintro ⟨m, seed, a⟩ ⟨stk, seed'⟩ ⟨hA, h0, h1, h2⟩
  simp only at h0 h1 h2 hA
  subst h0
  refine Sim.bind (arrAssignX_sim stk hA.h h1 h2) ?_
  rintro ⟨h', fp⟩ y rfl
  exact Sim.ok rfl

end Chalamet
