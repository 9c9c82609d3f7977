import Verif.Model.Arrays
import Verif.Lemmas.Count
import Mathlib.Tactic.Linarith

/-! Simulation between the array-level and the list-level constructions (helper lemmas). -/

namespace Chalamet

/-- Same kind of outcome, and related values. -/
def Sim {α β : Type} (R : α → β → Prop) : Res α → Res β → Prop
  | .ok a, .ok b => R a b
  | .err e, .err e' => e = e'
  | .panic, .panic => True
  | .diverge, .diverge => True
  | _, _ => False

namespace Sim

theorem ok {α β : Type} {R : α → β → Prop} {a : α} {b : β} (h : R a b) : Sim R (.ok a) (.ok b) := h

theorem panic {α β : Type} {R : α → β → Prop} : Sim R (.panic : Res α) (.panic : Res β) := trivial

theorem of_eq {α : Type} {x : Res α} : Sim Eq x x := by cases x <;> simp [Sim]

theorem eq {α : Type} {x y : Res α} (h : Sim Eq x y) : x = y := by
  cases x <;> cases y <;> simp_all [Sim]

theorem mono {α β : Type} {R S : α → β → Prop} {x : Res α} {y : Res β} (h : Sim R x y)
    (hRS : ∀ a b, R a b → S a b) : Sim S x y := by
  cases x <;> cases y <;> simp_all [Sim]

theorem bind {α β γ δ : Type} {R : α → β → Prop} {S : γ → δ → Prop} {x : Res α} {y : Res β}
    {f : α → Res γ} {g : β → Res δ} (h : Sim R x y) (hfg : ∀ a b, R a b → Sim S (f a) (g b)) :
    Sim S (x >>= f) (y >>= g) := by
  cases x <;> cases y <;> simp_all [Sim]

theorem bind_mem {α β γ δ : Type} {R : α → β → Prop} {S : γ → δ → Prop} {x : Res α} {y : Res β}
    {f : α → Res γ} {g : β → Res δ} (h : Sim R x y)
    (hfg : ∀ a b, x = .ok a → y = .ok b → R a b → Sim S (f a) (g b)) :
    Sim S (x >>= f) (y >>= g) := by
  cases x <;> cases y <;> simp_all [Sim]

theorem foldRes {α σ τ : Type} {R : σ → τ → Prop} {f : σ → α → Res σ} {g : τ → α → Res τ}
    (hfg : ∀ s t a, R s t → Sim R (f s a) (g t a)) {s : σ} {t : τ} (h : R s t) (l : List α) :
    Sim R (foldRes f s l) (foldRes g t l) := by
  induction l generalizing s t with
  | nil => exact ok h
  | cons a l ih =>
    rw [foldRes_cons, foldRes_cons]
    exact bind (hfg s t a h) fun s' t' h' => ih h'

theorem foldRes_mem {α σ τ : Type} {R : σ → τ → Prop} {f : σ → α → Res σ} {g : τ → α → Res τ} (l : List α)
    (hfg : ∀ a ∈ l, ∀ s t, R s t → Sim R (f s a) (g t a)) {s : σ} {t : τ} (h : R s t) :
    Sim R (Chalamet.foldRes f s l) (Chalamet.foldRes g t l) := by
  induction l generalizing s t with
  | nil => exact ok h
  | cons a l ih =>
    rw [foldRes_cons, foldRes_cons]
    exact bind (hfg a (by simp) s t h) fun s' t' h' => ih (fun b hb => hfg b (by simp [hb])) h'

/-- Same operation on both sides. -/
theorem same {α γ δ : Type} {S : γ → δ → Prop} (x : Res α) {f : α → Res γ} {g : α → Res δ}
    (h : ∀ a, x = .ok a → Sim S (f a) (g a)) : Sim S (x >>= f) (x >>= g) := by
  cases x with
  | ok a => exact h a rfl
  | err e => exact rfl
  | panic => trivial
  | diverge => trivial

theorem same_right {α γ : Type} {S : γ → α → Prop} (x : Res α) {f : α → Res γ}
    (h : ∀ a, x = .ok a → Sim S (f a) (.ok a)) : Sim S (x >>= f) x := by
  cases x with
  | ok a => exact h a rfl
  | err e => exact rfl
  | panic => trivial
  | diverge => trivial

theorem join_rel {α β γ : Type} {R : α → γ → Prop} {S : β → γ → Prop} {T : α → β → Prop} {x : Res α} {y : Res β}
    {z : Res γ} (hRS : ∀ a b c, R a c → S b c → T a b) (h1 : Sim R x z) (h2 : Sim S y z) : Sim T x y := by
  cases x <;> cases z <;> try exact h1.elim
  all_goals cases y <;> try exact h2.elim
  · exact hRS _ _ _ h1 h2
  · exact Eq.trans h1 (Eq.symm h2)
  · trivial
  · trivial

theorem join {α γ : Type} {R : α → γ → Prop} {x y : Res α} {z : Res γ} (hR : ∀ a b c, R a c → R b c → a = b)
    (h1 : Sim R x z) (h2 : Sim R y z) : x = y := eq (join_rel hR h1 h2)

theorem not_diverge {α β : Type} {R : α → β → Prop} {x : Res α} {y : Res β} (h : Sim R x y) :
    x = .diverge ↔ y = .diverge := by
  cases x <;> cases y <;> simp_all [Sim]

end Sim

theorem foldRes_map {α β σ : Type} (f : σ → β → Res σ) (m : α → β) (s : σ) (l : List α) :
    foldRes f s (l.map m) = foldRes (fun s a => f s (m a)) s l := by
  induction l generalizing s with
  | nil => rfl
  | cons a l ih =>
    rw [List.map_cons, foldRes_cons, foldRes_cons]
    congr 1
    funext s'
    exact ih s'

theorem wr_panic {α : Type} {l : List α} {i : Nat} {v : α} (h : l.length ≤ i) : wr l i v = .panic := by
  rw [wr, if_neg (by omega)]

/-- The live part `arr[..n]` of an array is the stack `q` (top first), seen through `f`. -/
structure Top {α β : Type} (f : α → β) (arr : List α) (n : Nat) (q : List β) : Prop where
  len : n = q.length
  le : n ≤ arr.length
  eq : (arr.take n).map f = q.reverse

namespace Top

theorem empty {α β : Type} (f : α → β) (arr : List α) : Top f arr 0 ([] : List β) := ⟨rfl, by omega, by simp⟩

theorem push {α β : Type} {f : α → β} {arr : List α} {n : Nat} {q : List β} (h : Top f arr n q)
    (hn : n < arr.length) (v : α) : Top f (arr.set n v) (n + 1) (f v :: q) := by
  refine ⟨by simp [← h.len], by simp; omega, ?_⟩
  rw [List.take_add_one, List.take_set_of_le (by omega), List.map_append, h.eq]
  simp [hn]

theorem keep {α β : Type} {f : α → β} {arr : List α} {n : Nat} {q : List β} (h : Top f arr n q)
    (v : α) : Top f (arr.set n v) n q := by
  refine ⟨h.len, by simpa using h.le, ?_⟩
  rw [List.take_set_of_le (by omega), h.eq]

theorem pop {α β : Type} {f : α → β} {arr : List α} {n : Nat} {x : β} {q : List β} (h : Top f arr n (x :: q)) :
    ∃ a, rd arr (n - 1) = .ok a ∧ f a = x ∧ Top f arr (n - 1) q := by
  have hlen := h.len
  have hle := h.le
  have heq := h.eq
  rw [List.length_cons] at hlen
  obtain ⟨k, rfl⟩ : ∃ k, n = k + 1 := ⟨n - 1, by omega⟩
  have hk : k < arr.length := by omega
  rw [List.take_add_one, List.getElem?_eq_getElem hk] at heq
  simp only [Option.toList_some, List.map_append, List.map_cons, List.map_nil, List.reverse_cons] at heq
  have h2 := List.append_inj heq (by simp; omega)
  refine ⟨arr[k], rd_ok hk, by simpa using h2.2, by omega, by omega, h2.1⟩

theorem zero_iff {α β : Type} {f : α → β} {arr : List α} {n : Nat} {q : List β} (h : Top f arr n q) :
    n = 0 ↔ q = [] := by
  rw [h.len, List.length_eq_zero_iff]

end Top

/-! ## Binary fuse -/

/-- Memory of the peeling loop against the list-level state. -/
structure PRel (cap size : Nat) (tail : List U64) (s : PArr) (p : PState) : Prop where
  q : Top BitVec.toNat s.alone s.qsize p.q
  t : s.t = p.t
  ro : Top id s.reverseOrder s.stackSize (p.stk.map Prod.fst)
  rh : Top BitVec.toNat s.reverseH s.stackSize (p.stk.map Prod.snd)
  hcap : s.alone.length = cap
  hsize : s.reverseH.length = size
  rolen : s.reverseOrder.length = size + 1
  htail : s.reverseOrder.drop size = tail
  h : ∃ a b c d e, s.h012 = [a, b, c, d, e, 0#32]
  t1 : s.t.1.length = cap
  t2 : s.t.2.length = cap

theorem wr_length {α : Type} {l l' : List α} {i : Nat} {v : α} (h : wr l i v = .ok l') : l'.length = l.length := by
  unfold wr at h
  split at h
  · cases h; simp
  · cases h

theorem unbump_length {prof : Profile} {t t' : T2} {i : Nat} {x : U8} {hash : U64}
    (h : unbump prof t i x hash = .ok t') : t'.1.length = t.1.length ∧ t'.2.length = t.2.length := by
  unfold unbump at h
  obtain ⟨c, _, h⟩ := Res.bind_eq_ok.1 h
  obtain ⟨c, _, h⟩ := Res.bind_eq_ok.1 h
  obtain ⟨cs, h1, h⟩ := Res.bind_eq_ok.1 h
  obtain ⟨hh, _, h⟩ := Res.bind_eq_ok.1 h
  obtain ⟨hs, h2, h⟩ := Res.bind_eq_ok.1 h
  cases h
  exact ⟨wr_length h1, wr_length h2⟩

theorem bump_length {prof : Profile} {t t' : T2} {i : Nat} {x : U8} {hash : U64}
    (h : bump prof t i x hash = .ok t') : t'.1.length = t.1.length ∧ t'.2.length = t.2.length := by
  unfold bump at h
  obtain ⟨c, _, h⟩ := Res.bind_eq_ok.1 h
  obtain ⟨c, _, h⟩ := Res.bind_eq_ok.1 h
  obtain ⟨cs, h1, h⟩ := Res.bind_eq_ok.1 h
  obtain ⟨hh, _, h⟩ := Res.bind_eq_ok.1 h
  obtain ⟨hs, h2, h⟩ := Res.bind_eq_ok.1 h
  cases h
  exact ⟨wr_length h1, wr_length h2⟩

theorem arrPeelOther_sim {prof : Profile} {cap size : Nat} {tl : List U64} {s : PArr} {p : PState}
    (h : PRel cap size tl s p) (other : U32) (x : U8) (hash : U64) :
    Sim (fun s' (qt : List Nat × T2) => PRel cap size tl s' { p with q := qt.1, t := qt.2 } ∧ s'.h012 = s.h012)
      (arrPeelOther prof s other x hash) (peelOther prof cap p.q p.t other.toNat x hash) := by
  unfold arrPeelOther peelOther
  have hl := h.q.len
  have hc := h.hcap
  by_cases hp : cap ≤ p.q.length
  · rw [if_pos hp, wr_panic (by omega)]
    trivial
  · rw [if_neg hp, wr_ok (by omega)]
    simp only [Res.bind_ok]
    rw [h.t]
    refine Sim.same _ fun c _ => Sim.same _ fun t ht => Sim.ok ⟨⟨?_, rfl, h.ro, h.rh, by simpa using hc,
      h.hsize, h.rolen, h.htail, h.h, ?_, ?_⟩, rfl⟩
    rotate_left
    · rw [(unbump_length ht).1, ← h.t]; exact h.t1
    · rw [(unbump_length ht).2, ← h.t]; exact h.t2
    simp only
    split
    · exact h.q.push (by omega) other
    · exact h.q.keep other

theorem rd_h012 (a b c d e f : U32) (i : Nat) :
    Sim (fun x y => x.toNat = y) (rd [a, b, c, d, e, f] i)
      (rd [a.toNat, b.toNat, c.toNat, d.toNat, e.toNat, f.toNat] i) := by
  match i with
  | 0 | 1 | 2 | 3 | 4 | 5 => exact rfl
  | n + 6 => simp [rd, Sim]

theorem arrPeelStep_sim {prof : Profile} {g : Geom} {cap size : Nat} {tl : List U64} {s : PArr} {p : PState} {index : Nat}
    {q : List Nat} (h : PRel cap size tl s p) (hq : p.q = index :: q) :
    Sim (PRel cap size tl) (arrPeelStep prof g { s with qsize := s.qsize - 1 })
      (peelStep prof g cap size index { p with q := q }) := by
  unfold arrPeelStep peelStep
  have hq' := h.q
  rw [hq] at hq'
  obtain ⟨a, ha, rfl, hpop⟩ := hq'.pop
  simp only [ha, Res.bind_ok, h.t]
  refine Sim.same _ fun c _ => ?_
  split
  · refine Sim.same _ fun hash _ => ?_
    have hl := h.rh.len
    have hsz := h.hsize
    have hro := h.rolen
    rw [List.length_map] at hl
    by_cases hp : size ≤ p.stk.length
    · rw [if_pos hp, wr_panic (by omega)]
      trivial
    · rw [if_neg hp, wr_ok (by omega), Res.bind_ok, wr_ok (by omega)]
      obtain ⟨x0, x1, x2, x3, x4, hh⟩ := h.h
      simp only [Res.bind_ok, hh]
      set i1 := (hashOfHash hash g).1 with hi1
      set i2 := (hashOfHash hash g).2.1 with hi2
      set i3 := (hashOfHash hash g).2.2 with hi3
      have hfound : (BitVec.ofNat 8 (c.toNat % 4)).toNat = c.toNat % 4 := by
        rw [BitVec.toNat_ofNat]; omega
      have hP : PRel cap size tl
          { alone := s.alone, qsize := s.qsize - 1, t := p.t,
            reverseH := s.reverseH.set s.stackSize (BitVec.ofNat 8 (c.toNat % 4)),
            reverseOrder := s.reverseOrder.set s.stackSize hash, stackSize := s.stackSize + 1,
            h012 := [x0, i2, i3, i1, i2, 0#32] }
          { q := q, t := p.t, stk := (hash, c.toNat % 4) :: p.stk } := by
        refine ⟨hpop, rfl, ?_, ?_, h.hcap, by simpa using hsz, by simpa using hro, ?_,
          ⟨_, _, _, _, _, rfl⟩, by rw [← h.t]; exact h.t1, by rw [← h.t]; exact h.t2⟩
        · exact h.ro.push (by omega) hash
        · have := h.rh.push (by omega) (BitVec.ofNat 8 (c.toNat % 4))
          rwa [hfound] at this
        · rw [List.drop_set_of_lt (by omega)]
          exact h.htail
      have hrd : ∀ k, Sim (fun (x : U32) y => x.toNat = y) (rd [x0, i2, i3, i1, i2, 0#32] (k + 1))
          (rd [0, i2.toNat, i3.toNat, i1.toNat, i2.toNat, 0] (k + 1)) := by
        intro k
        match k with
        | 0 | 1 | 2 | 3 | 4 => exact rfl
        | n + 5 => simp [rd, Sim]
      show Sim (PRel cap size tl) (rd [x0, i2, i3, i1, i2, 0#32] (c.toNat % 4 + 1) >>= _) _
      refine Sim.bind (hrd _) ?_
      rintro o1 _ rfl
      refine Sim.bind (arrPeelOther_sim hP o1 _ hash) ?_
      rintro s1 ⟨q1, t1⟩ ⟨h1, e1⟩
      simp only [e1]
      refine Sim.bind (hrd (c.toNat % 4 + 1)) ?_
      rintro o2 _ rfl
      have := arrPeelOther_sim (prof := prof) h1 o2 (BitVec.ofNat 8 (mod3 (c.toNat % 4 + 2))) hash
      simp only at this
      rw [← bind_pure (arrPeelOther prof s1 o2 _ hash)]
      refine Sim.bind this ?_
      rintro s2 ⟨q2, t2⟩ ⟨h2, _⟩
      exact h2
  · exact Sim.ok ⟨hpop, rfl, h.ro, h.rh, h.hcap, h.hsize, h.rolen, h.htail, h.h,
      by rw [← h.t]; exact h.t1, by rw [← h.t]; exact h.t2⟩

theorem arrPeelLoop_sim {prof : Profile} {g : Geom} {cap size : Nat} {tl : List U64} (fuel : Nat) {s : PArr} {p : PState}
    (h : PRel cap size tl s p) :
    Sim (PRel cap size tl) (arrPeelLoop prof g fuel s) (peelLoop prof g cap size fuel p) := by
  induction fuel generalizing s p with
  | zero =>
    unfold arrPeelLoop peelLoop
    by_cases h0 : s.qsize = 0
    · rw [if_pos h0, if_pos (h.q.zero_iff.1 h0)]; exact h
    · rw [if_neg h0, if_neg (fun e => h0 (h.q.zero_iff.2 e))]; trivial
  | succ n ih =>
    unfold arrPeelLoop peelLoop
    split
    · rename_i h0
      have := h.q.zero_iff.1 h0
      rw [this]; exact h
    · rename_i h0
      rcases hq : p.q with _ | ⟨index, q⟩
      · exact absurd (h.q.zero_iff.2 hq) h0
      · exact Sim.bind (arrPeelStep_sim h hq) fun s' p' h' => ih h'

theorem peelOther_length {prof : Profile} {cap : Nat} {q q' : List Nat} {t t' : T2} {other : Nat} {x : U8} {hash : U64}
    (h : peelOther prof cap q t other x hash = .ok (q', t')) : q'.length ≤ q.length + 1 := by
  unfold peelOther at h
  split at h
  · cases h
  · obtain ⟨c, _, h⟩ := Res.bind_eq_ok.1 h
    obtain ⟨t1, _, h⟩ := Res.bind_eq_ok.1 h
    cases h
    split <;> simp

/-- What bounds the number of iterations of the peeling loop. -/
def peelWork (size : Nat) (s : PState) : Nat := s.q.length + 2 * (size - s.stk.length)

theorem peelStep_work {prof : Profile} {g : Geom} {cap size index : Nat} {s s' : PState}
    (h : peelStep prof g cap size index s = .ok s') : peelWork size s' ≤ peelWork size s := by
  unfold peelStep at h
  obtain ⟨c, _, h⟩ := Res.bind_eq_ok.1 h
  split at h
  · obtain ⟨hash, _, h⟩ := Res.bind_eq_ok.1 h
    dsimp only at h
    split at h
    · cases h
    · obtain ⟨o1, _, h⟩ := Res.bind_eq_ok.1 h
      obtain ⟨⟨q1, t1⟩, h1, h⟩ := Res.bind_eq_ok.1 h
      obtain ⟨o2, _, h⟩ := Res.bind_eq_ok.1 h
      obtain ⟨⟨q2, t2⟩, h2, h⟩ := Res.bind_eq_ok.1 h
      cases h
      have l1 := peelOther_length h1
      have l2 := peelOther_length h2
      simp only at l2
      simp only [peelWork, List.length_cons]
      omega
  · cases h
    exact le_rfl

/-- Every peeling ends, and more time changes nothing. -/
theorem peelLoop_fuel {prof : Profile} {g : Geom} {cap size : Nat} (fuel fuel' : Nat) {s : PState}
    (h : peelWork size s ≤ fuel) (h' : fuel ≤ fuel') :
    peelLoop prof g cap size fuel' s = peelLoop prof g cap size fuel s := by
  induction fuel generalizing s fuel' with
  | zero =>
    have hq : s.q = [] := by
      unfold peelWork at h
      exact List.length_eq_zero_iff.1 (by omega)
    cases fuel' with
    | zero => rfl
    | succ n => unfold peelLoop; simp [hq]
  | succ n ih =>
    obtain ⟨m, rfl⟩ : ∃ m, fuel' = m + 1 := ⟨fuel' - 1, by omega⟩
    unfold peelLoop
    rcases hq : s.q with _ | ⟨index, q⟩
    · rfl
    · simp only
      rcases he : peelStep prof g cap size index { s with q := q } with s' | e | _ | _
      · simp only [Res.bind_ok]
        refine ih _ ?_ (by omega)
        have := peelStep_work he
        simp only [peelWork, hq, List.length_cons] at h this ⊢
        omega
      · rfl
      · rfl
      · rfl

theorem foldRes_rd_range {α σ : Type} (f : σ → α → Res σ) (l : List α) (s : σ) (n : Nat) (hn : n ≤ l.length) :
    foldRes (fun s i => rd l i >>= fun a => f s a) s (List.range n) = foldRes f s (l.take n) := by
  induction n with
  | zero => simp
  | succ n ih =>
    rw [List.range_succ, foldRes_append, ih (by omega), List.take_add_one, List.getElem?_eq_getElem (by omega),
      foldRes_append]
    simp only [Option.toList_some, foldRes_cons, foldRes_nil, rd_ok (show n < l.length by omega), Res.bind_ok]

theorem foldRes_wr_range {α : Type} (v : Nat → α) (l : List α) (n : Nat) (hn : n ≤ l.length) :
    foldRes (fun l i => wr l i (v i)) l (List.range n) = .ok ((List.range n).map v ++ l.drop n) := by
  induction n with
  | zero => simp
  | succ n ih =>
    rw [List.range_succ, foldRes_append, ih (by omega)]
    have hd : l.drop n = l[n] :: l.drop (n + 1) := List.drop_eq_getElem_cons (by omega)
    simp only [Res.bind_ok, foldRes_cons, foldRes_nil]
    rw [wr_ok (by simp; omega)]
    simp
    rw [hd]
    rfl

theorem arrStartPos_eq {size bb : Nat} {sp : List Nat} (h : sp.length = 2 ^ bb) :
    arrStartPos size bb sp = .ok (startPosInit size bb) := by
  unfold arrStartPos
  rw [foldRes_wr_range (fun i => (i * size) / 2 ^ bb) sp _ (by omega), List.drop_of_length_le (by omega)]
  simp [startPosInit]

theorem arrFill_eq {α : Type} {n : Nat} {v : α} {l : List α} (h : n ≤ l.length) :
    arrFill n v l = .ok (List.replicate n v ++ l.drop n) := by
  unfold arrFill
  rw [foldRes_wr_range (fun _ => v) l n h]
  simp

theorem arrCount_eq {prof : Profile} {g : Geom} {size : Nat} {ro : List U64} {t : T2} (h : size ≤ ro.length) :
    arrCount prof g size ro t =
      foldRes (countStep prof g) { t := t, duplicates := 0, error := false } (ro.take size) := by
  unfold arrCount
  exact foldRes_rd_range _ _ _ _ h

theorem countStep_length {prof : Profile} {g : Geom} {c c' : CState} {hash : U64}
    (h : countStep prof g c hash = .ok c') :
    c'.t.1.length = c.t.1.length ∧ c'.t.2.length = c.t.2.length := by
  unfold countStep at h
  obtain ⟨ta, h1, h⟩ := Res.bind_eq_ok.1 h
  obtain ⟨tb, h2, h⟩ := Res.bind_eq_ok.1 h
  obtain ⟨tc, h3, h⟩ := Res.bind_eq_ok.1 h
  obtain ⟨_, _, h⟩ := Res.bind_eq_ok.1 h
  obtain ⟨_, _, h⟩ := Res.bind_eq_ok.1 h
  obtain ⟨_, _, h⟩ := Res.bind_eq_ok.1 h
  obtain ⟨_, _, h⟩ := Res.bind_eq_ok.1 h
  obtain ⟨_, _, h⟩ := Res.bind_eq_ok.1 h
  obtain ⟨_, _, h⟩ := Res.bind_eq_ok.1 h
  have l1 := bump_length h1
  have l2 := bump_length h2
  have l3 := bump_length h3
  dsimp only at h
  split at h
  · obtain ⟨td, h5, h⟩ := Res.bind_eq_ok.1 h
    obtain ⟨te, h6, h⟩ := Res.bind_eq_ok.1 h
    obtain ⟨tf, h7, h⟩ := Res.bind_eq_ok.1 h
    simp only [Res.bind_ok] at h
    obtain ⟨_, _, h⟩ := Res.bind_eq_ok.1 h
    obtain ⟨_, _, h⟩ := Res.bind_eq_ok.1 h
    obtain ⟨_, _, h⟩ := Res.bind_eq_ok.1 h
    cases h
    have l5 := unbump_length h5
    have l6 := unbump_length h6
    have l7 := unbump_length h7
    simp only
    omega
  · simp only [Res.bind_ok] at h
    obtain ⟨_, _, h⟩ := Res.bind_eq_ok.1 h
    obtain ⟨_, _, h⟩ := Res.bind_eq_ok.1 h
    obtain ⟨_, _, h⟩ := Res.bind_eq_ok.1 h
    cases h
    simp only
    omega

theorem count_length {prof : Profile} {g : Geom} {c c' : CState} {l : List U64}
    (h : foldRes (countStep prof g) c l = .ok c') :
    c'.t.1.length = c.t.1.length ∧ c'.t.2.length = c.t.2.length := by
  induction l generalizing c with
  | nil => cases h; exact ⟨rfl, rfl⟩
  | cons a l ih =>
    rw [foldRes_cons] at h
    obtain ⟨c1, h1, h⟩ := Res.bind_eq_ok.1 h
    have := ih h
    have := countStep_length h1
    omega

theorem arrEnqueue_sim {cap : Nat} (hc : cap ≤ 2 ^ 32) (t2count : List U8) {alone : List U32} (hl : alone.length = cap) :
    Sim (fun (s : List U32 × Nat) q => Top BitVec.toNat s.1 s.2 q ∧ s.1.length = cap)
      (arrEnqueue cap t2count alone) (foldRes (enqueueStep cap t2count) [] (List.range cap)) := by
  unfold arrEnqueue
  refine Sim.foldRes_mem _ ?_ ⟨Top.empty _ _, hl⟩
  rintro i hi ⟨arr, n⟩ q ⟨ht, hlen⟩
  simp only at ht hlen ⊢
  unfold enqueueStep
  have := ht.len
  rw [List.mem_range] at hi
  by_cases hp : cap ≤ q.length
  · rw [if_pos hp, wr_panic (by omega)]; trivial
  · rw [if_neg hp, wr_ok (by omega), Res.bind_ok]
    refine Sim.same _ fun c _ => ?_
    split
    · refine Sim.ok ⟨?_, by simpa using hlen⟩
      have h := ht.push (by omega) (BitVec.ofNat 32 i)
      rwa [BitVec.toNat_ofNat, Nat.mod_eq_of_lt (by omega)] at h
    · exact Sim.ok ⟨ht.keep _, by simpa using hlen⟩

/-- Sizes of the arrays, which no attempt changes. -/
structure ARel (cap size bb : Nat) (a : Arrays) : Prop where
  alone : a.alone.length = cap
  t1 : a.t2count.length = cap
  t2 : a.t2hash.length = cap
  rh : a.reverseH.length = size
  ro : a.reverseOrder.length = size + 1
  sp : a.startPos.length = 2 ^ bb
  h : ∃ x0 x1 x2 x3 x4, a.h012 = [x0, x1, x2, x3, x4, 0#32]

/-- The arrays kept between attempts, at both levels. -/
def Arrays.toB (a : Arrays) : BState :=
  { reverseOrder := a.reverseOrder, t2count := a.t2count, t2hash := a.t2hash }

/-- How the outcomes of an attempt correspond. -/
def EndRel (cap size bb : Nat) (x : ArrEnd × Arrays) (y : Attempt) : Prop :=
  ARel cap size bb x.2 ∧
  match x.1, y with
  | .done n, .done stk => Top id x.2.reverseOrder n (stk.map Prod.fst) ∧
      Top BitVec.toNat x.2.reverseH n (stk.map Prod.snd)
  | .peelFailed, .peelFailed st => st = x.2.toB
  | .countError, .countError st => st = x.2.toB
  | _, _ => False

/-- The part of `attempt` after bucketing. -/
def attemptRest (prof : Profile) (lay : Layout) (size : Nat) (st : BState) : Res Attempt := do
  let capacity := lay.arrayLen
  let c ← foldRes (countStep prof lay.geom)
    { t := (st.t2count, st.t2hash), duplicates := 0, error := false } (st.reverseOrder.take size)
  if c.error then
    .ok (.countError { reverseOrder := st.reverseOrder, t2count := c.t.1, t2hash := c.t.2 })
  else do
    let q ← foldRes (enqueueStep capacity c.t.1) [] (List.range capacity)
    let p ← peelLoop prof lay.geom capacity size (capacity + 2 * size) { q := q, t := c.t, stk := [] }
    if p.stk.length + c.duplicates = size then .ok (.done p.stk)
    else .ok (.peelFailed {
      reverseOrder := List.replicate size 0#64 ++ st.reverseOrder.drop size
      t2count := List.replicate capacity 0#8
      t2hash := List.replicate capacity 0#64 })

theorem attempt_eq (prof : Profile) (lay : Layout) (size : Nat) (hashes : List U64) (st : BState) :
    attempt prof lay size hashes st =
      (foldRes (bucketStep (blockBits lay.segmentCount)) (startPosInit size (blockBits lay.segmentCount), st.reverseOrder) hashes >>=
        fun p => attemptRest prof lay size { st with reverseOrder := p.2 }) := rfl

theorem arrRest_sim {prof : Profile} {lay : Layout} {size bb fuel : Nat} {a : Arrays} (hcap : lay.arrayLen ≤ 2 ^ 32)
    (hf : lay.arrayLen + 2 * size ≤ fuel)
    (h : ARel lay.arrayLen size bb a) :
    Sim (EndRel lay.arrayLen size bb) (arrRest prof lay size fuel a)
      (attemptRest prof lay size a.toB) := by
  unfold arrRest attemptRest
  rw [arrCount_eq (by have := h.ro; omega)]
  refine Sim.same _ fun c hc => ?_
  have hcl := count_length hc
  simp only at hcl
  have ht1 := h.t1
  have ht2 := h.t2
  split
  · refine Sim.ok ⟨⟨h.alone, ?_, ?_, h.rh, h.ro, h.sp, h.h⟩, rfl⟩
    · simp only; omega
    · simp only; omega
  · refine Sim.bind (arrEnqueue_sim hcap c.t.1 h.alone) ?_
    rintro ⟨alone, qsize⟩ q ⟨hq, hal⟩
    have hql : q.length ≤ lay.arrayLen := by
      have := hq.len
      have := hq.le
      simp only at *
      omega
    rw [← peelLoop_fuel _ fuel (by simp only [peelWork, List.length_nil]; omega) hf]
    refine Sim.bind (arrPeelLoop_sim _ (tl := a.reverseOrder.drop size) (p := { q := q, t := c.t, stk := [] })
      ⟨hq, rfl, Top.empty _ _, Top.empty _ _, hal, h.rh, h.ro, rfl, h.h, by simp only; omega, by simp only; omega⟩) ?_
    intro s p hp
    have hlen := hp.ro.len
    rw [List.length_map] at hlen
    have hs1 := hp.t1
    have hs2 := hp.t2
    have hs3 := hp.rolen
    rw [hlen]
    split
    · exact Sim.ok ⟨⟨hp.hcap, hs1, hs2, hp.hsize, hs3, h.sp, hp.h⟩, hlen ▸ hp.ro, hlen ▸ hp.rh⟩
    · dsimp only
      rw [arrFill_eq (by omega), Res.bind_ok, arrFill_eq (by omega), Res.bind_ok,
        arrFill_eq (by omega), Res.bind_ok]
      simp only [hp.htail]
      rw [List.drop_of_length_le (l := s.t.1) (by omega), List.drop_of_length_le (l := s.t.2) (by omega)]
      refine Sim.ok ⟨⟨hp.hcap, by simp, by simp, hp.hsize, ?_, h.sp, hp.h⟩, ?_⟩
      · have := h.ro
        simp; omega
      · simp [Arrays.toB]

end Chalamet
