import Verif.Lemmas.Arrays

/-! Array-level and list-level `fuse_from_impl!` and `xor_from_impl!` agree (helper lemmas). -/

namespace Chalamet

/-- A queue or stack in memory against a list. -/
structure QRel (cap : Nat) (a : ArrStack) (q : List KeyIndex) : Prop where
  top : Top id a.arr a.size q
  len : a.arr.length = cap

theorem QRel.size {cap : Nat} {a : ArrStack} {q : List KeyIndex} (h : QRel cap a q) : a.size = q.length := h.top.len

theorem QRel.le {cap : Nat} {a : ArrStack} {q : List KeyIndex} (h : QRel cap a q) : q.length ≤ cap := by
  have := h.top.len
  have := h.top.le
  have := h.len
  omega

theorem QRel.empty {cap : Nat} {arr : List KeyIndex} (h : arr.length = cap) : QRel cap ⟨arr, 0⟩ [] := ⟨Top.empty _ _, h⟩

/-- A full array: read backwards it is the stack. -/
theorem QRel.full {a : ArrStack} {q : List KeyIndex} (h : QRel q.length a q) : a.arr.reverse = q := by
  have h1 := h.top.eq
  rw [List.take_of_length_le (by rw [h.len, h.size])] at h1
  rw [List.map_id] at h1
  rw [h1, List.reverse_reverse]

theorem QRel.pop {cap : Nat} {a : ArrStack} {x : KeyIndex} {q : List KeyIndex} (h : QRel cap a (x :: q)) :
    rd a.arr (a.size - 1) = .ok x ∧ QRel cap ⟨a.arr, a.size - 1⟩ q := by
  obtain ⟨y, h1, h2, h3⟩ := h.top.pop
  simp only [id] at h2
  subst h2
  exact ⟨h1, h3, h.len⟩

theorem QRel.push {cap : Nat} {a : ArrStack} {q : List KeyIndex} (h : QRel cap a q) (hc : q.length < cap) (v : KeyIndex) :
    wr a.arr a.size v = .ok (a.arr.set a.size v) ∧ QRel cap ⟨a.arr.set a.size v, a.size + 1⟩ (v :: q) := by
  have hs := h.size
  have hl := h.len
  exact ⟨wr_ok (by omega), h.top.push (by omega) v, by simpa using hl⟩

theorem arrTryEnqueue_sim {H : List HSet} {cap : Nat} {a : ArrStack} {q : List KeyIndex} (h : QRel cap a q) (idx : Nat) :
    Sim (QRel cap) (arrTryEnqueue H a idx) (tryEnqueue H cap q idx) := by
  unfold arrTryEnqueue tryEnqueue
  have hs := h.size
  have hl := h.len
  refine Sim.same _ fun s hrd => ?_
  split
  · split
    · rw [rd_panic (by omega)]
      trivial
    · rename_i hc
      rw [rd_ok (show a.size < a.arr.length by omega)]
      simp only [Res.bind_ok]
      rw [wr_ok (by omega)]
      simp only [Res.bind_ok, hrd]
      rw [rd_ok (show a.size < (a.arr.set a.size _).length by simp; omega)]
      simp only [Res.bind_ok, List.getElem_set_self]
      rw [wr_ok (by simp; omega), List.set_set]
      exact (h.push (by omega) { hash := s.mask, index := idx }).2
  · exact h

theorem hAdd_length {prof : Profile} {H H' : List HSet} {i : Nat} {hash : U64} (h : hAdd prof H i hash = .ok H') :
    H'.length = H.length := by
  unfold hAdd at h
  obtain ⟨_, _, h⟩ := Res.bind_eq_ok.1 h
  obtain ⟨_, _, h⟩ := Res.bind_eq_ok.1 h
  exact wr_length h

theorem hRemove_length {prof : Profile} {H H' : List HSet} {i : Nat} {hash : U64} (h : hRemove prof H i hash = .ok H') :
    H'.length = H.length := by
  unfold hRemove at h
  obtain ⟨_, _, h⟩ := Res.bind_eq_ok.1 h
  obtain ⟨_, _, h⟩ := Res.bind_eq_ok.1 h
  exact wr_length h

/-- A property every step keeps. -/
theorem foldRes_keep {α σ : Type} {f : σ → α → Res σ} (P : σ → Prop) (l : List α)
    (hf : ∀ s a s', P s → f s a = .ok s' → P s') {s s' : σ} (h : P s) (he : foldRes f s l = .ok s') : P s' := by
  induction l generalizing s with
  | nil => cases he; exact h
  | cons a l ih =>
    rw [foldRes_cons] at he
    obtain ⟨t, h1, h2⟩ := Res.bind_eq_ok.1 he
    exact ih (hf _ _ _ h h1) h2

/-! ## Fuse -/

structure FRel (cap n : Nat) (s : FArr) (p : FState) : Prop where
  H : s.H = p.H
  hlen : s.H.length = cap
  q : QRel cap s.q p.q
  stk : QRel n s.stk p.stk

theorem arrFuseRemoveAt_sim {prof : Profile} {cap n : Nat} {s : FArr} {p : FState} (h : FRel cap n s p) (hash : U64)
    (i : Nat) : Sim (FRel cap n) (arrFuseRemoveAt prof hash s i) (fuseRemoveAt prof cap hash p i) := by
  unfold arrFuseRemoveAt fuseRemoveAt
  rw [← h.H]
  refine Sim.same _ fun H hH => ?_
  refine Sim.bind (arrTryEnqueue_sim h.q i) fun a b hq => ?_
  exact Sim.ok ⟨rfl, by simp only; rw [hRemove_length hH]; exact h.hlen, hq, h.stk⟩

theorem arrFuseStep_sim {prof : Profile} {sl cap n : Nat} {s : FArr} {p : FState} {ki : KeyIndex} {q : List KeyIndex}
    (h : FRel cap n s p) (hq : p.q = ki :: q) :
    Sim (FRel cap n) (arrFuseStep prof sl { s with q := { s.q with size := s.q.size - 1 } })
      (fusePeelStep prof sl cap n { p with q := q } ki) := by
  unfold arrFuseStep fusePeelStep
  have hq' := h.q
  rw [hq] at hq'
  obtain ⟨h1, h2⟩ := hq'.pop
  simp only [h1, Res.bind_ok, h.H]
  have hl := h.hlen
  rw [h.H] at hl
  refine Sim.same _ fun set _ => ?_
  split
  · exact Sim.ok ⟨rfl, hl, h2, h.stk⟩
  · have hs := h.stk.size
    have hn := h.stk.len
    split
    · rw [wr_panic (by omega)]
      trivial
    · obtain ⟨h3, h4⟩ := h.stk.push (by omega) ki
      rw [h3, Res.bind_ok]
      exact Sim.foldRes (fun s t a hst => arrFuseRemoveAt_sim hst _ a) (R := FRel cap n) ⟨rfl, hl, h2, h4⟩ _

theorem arrFuseLoop_sim {prof : Profile} {sl cap n : Nat} (fuel : Nat) {s : FArr} {p : FState} (h : FRel cap n s p) :
    Sim (FRel cap n) (arrFuseLoop prof sl fuel s) (fusePeelLoop prof sl cap n fuel p) := by
  induction fuel generalizing s p with
  | zero =>
    unfold arrFuseLoop fusePeelLoop
    by_cases h0 : s.q.size = 0
    · rw [if_pos h0, if_pos (h.q.top.zero_iff.1 h0)]; exact h
    · rw [if_neg h0, if_neg (fun e => h0 (h.q.top.zero_iff.2 e))]; trivial
  | succ f ih =>
    unfold arrFuseLoop fusePeelLoop
    split
    · rename_i h0
      rw [h.q.top.zero_iff.1 h0]; exact h
    · rename_i h0
      rcases hq : p.q with _ | ⟨ki, q⟩
      · exact absurd (h.q.top.zero_iff.2 hq) h0
      · exact Sim.bind (arrFuseStep_sim h hq) fun s' p' h' => ih h'

/-- What bounds the number of iterations of the peeling loop. -/
def fuseWork (n : Nat) (s : FState) : Nat := s.q.length + 3 * (n - s.stk.length)

theorem tryEnqueue_length {H : List HSet} {cap idx : Nat} {q q' : List KeyIndex} (h : tryEnqueue H cap q idx = .ok q') :
    q'.length ≤ q.length + 1 := by
  unfold tryEnqueue at h
  obtain ⟨s, _, h⟩ := Res.bind_eq_ok.1 h
  split at h
  · split at h
    · cases h
    · cases h; simp
  · cases h; omega

theorem fuseRemove_length {prof : Profile} {cap : Nat} {hash : U64} {l : List Nat} {s s' : FState}
    (h : foldRes (fuseRemoveAt prof cap hash) s l = .ok s') :
    s'.q.length ≤ s.q.length + l.length ∧ s'.stk = s.stk := by
  induction l generalizing s with
  | nil => cases h; simp
  | cons a l ih =>
    rw [foldRes_cons] at h
    obtain ⟨t, h1, h2⟩ := Res.bind_eq_ok.1 h
    have := ih h2
    unfold fuseRemoveAt at h1
    obtain ⟨H, _, h1⟩ := Res.bind_eq_ok.1 h1
    obtain ⟨q, hq, h1⟩ := Res.bind_eq_ok.1 h1
    cases h1
    have := tryEnqueue_length hq
    simp only [List.length_cons] at *
    exact ⟨by omega, by tauto⟩

theorem fusePeelStep_work {prof : Profile} {sl cap n : Nat} {s s' : FState} {ki : KeyIndex}
    (h : fusePeelStep prof sl cap n s ki = .ok s') : fuseWork n s' ≤ fuseWork n s := by
  unfold fusePeelStep at h
  obtain ⟨c, _, h⟩ := Res.bind_eq_ok.1 h
  split at h
  · cases h; exact le_rfl
  · split at h
    · cases h
    · have := fuseRemove_length h
      simp only [fuseWork, this.2, List.length_cons, fuseHset, List.length_nil] at *
      omega

theorem fusePeelLoop_fuel {prof : Profile} {sl cap n : Nat} (fuel fuel' : Nat) {s : FState}
    (h : fuseWork n s ≤ fuel) (h' : fuel ≤ fuel') :
    fusePeelLoop prof sl cap n fuel' s = fusePeelLoop prof sl cap n fuel s := by
  induction fuel generalizing s fuel' with
  | zero =>
    have hq : s.q = [] := by
      unfold fuseWork at h
      exact List.length_eq_zero_iff.1 (by omega)
    cases fuel' with
    | zero => rfl
    | succ m => unfold fusePeelLoop; simp [hq]
  | succ k ih =>
    obtain ⟨m, rfl⟩ : ∃ m, fuel' = m + 1 := ⟨fuel' - 1, by omega⟩
    unfold fusePeelLoop
    rcases hq : s.q with _ | ⟨ki, q⟩
    · rfl
    · simp only
      rcases he : fusePeelStep prof sl cap n { s with q := q } ki with s' | e | _ | _
      · simp only [Res.bind_ok]
        refine ih _ ?_ (by omega)
        have := fusePeelStep_work he
        simp only [fuseWork, hq, List.length_cons] at h this ⊢
        omega
      · rfl
      · rfl
      · rfl

theorem fuseAdd_length {prof : Profile} {sl : Nat} {H H' : List HSet} {l : List U64}
    (h : foldRes (fuseAddKey prof sl) H l = .ok H') : H'.length = H.length := by
  refine foldRes_keep (fun K : List HSet => K.length = H.length) l ?_ rfl h
  intro s a s' hs h1
  refine foldRes_keep (fun K : List HSet => K.length = H.length) _ ?_ hs h1
  intro t b t' ht h2
  rw [hAdd_length h2, ht]

theorem map_zero_eq {H : List HSet} {cap : Nat} (h : H.length = cap) :
    (H.map fun _ => HSet.zero) = List.replicate cap HSet.zero := by
  rw [List.map_const', h]

theorem arrFuseRetry_sim {prof : Profile} {sl cap : Nat} {keys : List U64} {fuel : Nat}
    (hf : cap + 3 * keys.length ≤ fuel) (n : Nat) (rng seed : U64) {Q stack : List KeyIndex}
    (hQ : Q.length = cap) (hS : stack.length = keys.length) :
    Sim (fun (x : List KeyIndex × U64) (y : List KeyIndex × U64) => x.1.reverse = y.1 ∧ x.2 = y.2)
      (arrFuseRetry prof sl cap keys fuel n rng seed (List.replicate cap HSet.zero) Q stack)
      (fuseLoop prof sl cap keys n rng seed) := by
  induction n generalizing rng seed Q stack with
  | zero => exact rfl
  | succ n ih =>
    unfold arrFuseRetry fuseLoop fuseAttempt
    rw [foldRes_map, bind_assoc]
    refine Sim.same _ fun H hH => ?_
    have hH' : foldRes (fuseAddKey prof sl) (List.replicate cap HSet.zero) (keys.map fun k => mix k seed) = .ok H := by
      rw [foldRes_map]; exact hH
    have hHl := fuseAdd_length hH'
    rw [List.length_replicate] at hHl
    rw [bind_assoc]
    refine Sim.bind (Sim.foldRes (R := QRel cap) (fun s t a hst => arrTryEnqueue_sim hst a) (QRel.empty hQ) _) ?_
    intro a q hq
    have hql := hq.le
    rw [bind_assoc, List.length_map,
      ← fusePeelLoop_fuel (cap + 3 * keys.length) fuel (by simp only [fuseWork, List.length_nil]; omega) hf]
    refine Sim.bind (arrFuseLoop_sim fuel (p := { H := H, q := q, stk := [] }) ⟨rfl, hHl, hq, QRel.empty hS⟩) ?_
    intro s p h
    have hs := h.stk.size
    rw [hs]
    by_cases hlen : p.stk.length = keys.length
    · rw [if_pos hlen, if_pos hlen]
      refine Sim.ok ⟨?_, rfl⟩
      have := h.stk
      rw [← hlen] at this
      exact this.full
    · rw [if_neg hlen, if_neg hlen, map_zero_eq h.hlen]
      exact ih _ _ h.q.len h.stk.len

theorem arrFuseFrom_eq (w : Nat) (prof : Profile) (c0 maxIter fuel : Nat) (fp0 : Nat → BitVec w) (keys : List U64)
    (hf : c0 + 3 * keys.length ≤ fuel) :
    arrFuseFrom w prof c0 maxIter fuel fp0 keys = fuseFromImpl w prof c0 maxIter fp0 keys := by
  apply Sim.eq
  unfold arrFuseFrom fuseFromImpl
  split
  · exact Sim.panic
  dsimp only
  have hc : c0 / fuseSlots * fuseSlots ≤ c0 := Nat.div_mul_le_self _ _
  refine Sim.bind (arrFuseRetry_sim (by omega) maxIter _ _ (by simp) (by simp)) ?_
  rintro ⟨st, sd⟩ ⟨stk, seed⟩ ⟨h1, h2⟩
  simp only at h1 h2
  subst h1 h2
  exact Sim.of_eq

/-! ## Xor -/

theorem rd_forall₂ {α β : Type} {R : α → β → Prop} {l : List α} {m : List β} (h : List.Forall₂ R l m) (i : Nat) :
    Sim R (rd l i) (rd m i) := by
  induction h generalizing i with
  | nil => simp [rd, Sim]
  | cons h _ ih =>
    cases i with
    | zero => exact h
    | succ i => exact ih i

theorem set_forall₂ {α β : Type} {R : α → β → Prop} {l : List α} {m : List β} (h : List.Forall₂ R l m) (i : Nat) {a : α}
    {b : β} (hab : R a b) : List.Forall₂ R (l.set i a) (m.set i b) := by
  induction h generalizing i with
  | nil => exact .nil
  | cons h1 h2 ih =>
    cases i with
    | zero => exact .cons hab h2
    | succ i => exact .cons h1 (ih i)

theorem wr_forall₂ {α β : Type} {R : α → β → Prop} {l : List α} {m : List β} (h : List.Forall₂ R l m) (i : Nat) {a : α}
    {b : β} (hab : R a b) : Sim (List.Forall₂ R) (wr l i a) (wr m i b) := by
  unfold wr
  rw [h.length_eq]
  split
  · exact set_forall₂ h i hab
  · trivial

/-- While queue `b` is being emptied: `rem` is what is left of it. -/
structure XRem (cap n b : Nat) (rem : List KeyIndex) (s : XArr) (p : XState) : Prop where
  H : s.H = p.H
  hlen : ∀ Hb ∈ s.H, Hb.length = cap
  hlen3 : s.H.length = 3
  Q : List.Forall₂ (QRel cap) s.Q (p.Q.set b rem)
  qb : p.Q[b]? = some []
  stk : QRel n s.stk p.stk

structure XRel (cap n : Nat) (s : XArr) (p : XState) : Prop where
  H : s.H = p.H
  hlen : ∀ Hb ∈ s.H, Hb.length = cap
  hlen3 : s.H.length = 3
  Q : List.Forall₂ (QRel cap) s.Q p.Q
  stk : QRel n s.stk p.stk

theorem arrXorEnqueue_sim {cap b : Nat} {H : List (List HSet)} {Q : List ArrStack} {P : List (List KeyIndex)}
    (h : List.Forall₂ (QRel cap) Q P) (idx : Nat) :
    Sim (List.Forall₂ (QRel cap)) (arrXorEnqueue b H Q idx) (xorEnqueue cap b H P idx) := by
  unfold arrXorEnqueue xorEnqueue
  refine Sim.same _ fun Hb _ => ?_
  refine Sim.bind (rd_forall₂ h b) fun a q haq => ?_
  exact Sim.bind (arrTryEnqueue_sim haq idx) fun a' q' h' => wr_forall₂ h b h'

theorem xorEnqueue_set {cap b j : Nat} (hj : j ≠ b) {H : List (List HSet)} {P : List (List KeyIndex)} (idx : Nat)
    (rem : List KeyIndex) :
    Sim (fun x y => x = y.set b rem ∧ y[b]? = P[b]?) (xorEnqueue cap j H (P.set b rem) idx) (xorEnqueue cap j H P idx) := by
  unfold xorEnqueue
  refine Sim.same _ fun Hb _ => ?_
  have e1 : rd (P.set b rem) j = rd P j := by
    unfold rd
    rw [List.getElem?_set_ne (Ne.symm hj)]
  rw [e1]
  refine Sim.same _ fun q _ => Sim.same _ fun q' _ => ?_
  unfold wr
  rw [List.length_set]
  split
  · exact Sim.ok ⟨(List.set_comm _ _ hj.symm).symm ▸ rfl, List.getElem?_set_ne hj⟩
  · trivial

theorem mem_of_wr {α : Type} {l l' : List α} {i : Nat} {v : α} (h : wr l i v = .ok l') (P : α → Prop)
    (hl : ∀ a ∈ l, P a) (hv : P v) : ∀ a ∈ l', P a := by
  unfold wr at h
  split at h
  · cases h
    intro a ha
    rcases List.mem_or_eq_of_mem_set ha with h | rfl
    · exact hl a h
    · exact hv
  · cases h

theorem rd_mem {α : Type} {l : List α} {i : Nat} {a : α} (h : rd l i = .ok a) : a ∈ l := by
  rw [rd_eq_ok] at h
  exact List.mem_of_getElem? h

theorem arrXorRemoveAt_sim {prof : Profile} {cap bl n b j : Nat} (hj : j ≠ b) {rem : List KeyIndex} {s : XArr} {p : XState}
    (h : XRem cap n b rem s p) (hash : U64) :
    Sim (XRem cap n b rem) (arrXorRemoveAt prof bl hash s j) (xorRemoveAt prof cap bl hash p j) := by
  unfold arrXorRemoveAt xorRemoveAt
  rw [← h.H]
  refine Sim.same _ fun Hj h1 => Sim.same _ fun Hj' h2 => Sim.same _ fun H' h3 => ?_
  have hS := arrXorEnqueue_sim (b := j) (H := H') h.Q (xorH j bl hash)
  have hS' := xorEnqueue_set (cap := cap) hj (H := H') (P := p.Q) (xorH j bl hash) rem
  have hl : ∀ Hb ∈ H', Hb.length = cap := by
    refine mem_of_wr h3 _ h.hlen ?_
    rw [hRemove_length h2]
    exact h.hlen _ (rd_mem h1)
  have hl3 : H'.length = 3 := by rw [wr_length h3]; exact h.hlen3
  generalize arrXorEnqueue j H' s.Q (xorH j bl hash) = x at hS ⊢
  generalize xorEnqueue cap j H' (p.Q.set b rem) (xorH j bl hash) = y at hS hS'
  generalize xorEnqueue cap j H' p.Q (xorH j bl hash) = z at hS' ⊢
  cases y <;> cases x <;> cases z <;> try first | exact hS.elim | exact hS'.elim
  · obtain ⟨e1, e2⟩ := hS'
    subst e1
    exact Sim.ok ⟨rfl, hl, hl3, hS, by simp only [e2]; exact h.qb, h.stk⟩
  · simp only [Sim] at hS hS' ⊢
    subst hS hS'
    rfl
  · trivial
  · trivial

theorem arrXorStep_sim {prof : Profile} {cap bl n b : Nat} {others : List Nat} (ho : b ∉ others) {ki : KeyIndex}
    {rem : List KeyIndex} {s : XArr} {p : XState} {Qb : ArrStack} (h : XRem cap n b rem s p)
    (hQb : s.Q[b]? = some Qb) (hki : rd Qb.arr Qb.size = .ok ki) :
    Sim (XRem cap n b rem) (arrXorStep prof bl b others s) (xorPeelStep prof cap bl n b others p ki) := by
  unfold arrXorStep xorPeelStep
  rw [rd_eq_ok.2 hQb, Res.bind_ok, hki, Res.bind_ok, ← h.H]
  refine Sim.same _ fun Hb _ => Sim.same _ fun set _ => ?_
  split
  · exact Sim.ok h
  · have hs := h.stk.size
    have hn := h.stk.len
    split
    · dsimp only
      rw [wr_panic (by omega)]
      trivial
    · obtain ⟨h3, h4⟩ := h.stk.push (by omega) { ki with index := ki.index + b * bl }
      dsimp only
      rw [h3, Res.bind_ok]
      refine Sim.foldRes_mem (R := XRem cap n b rem) others ?_ ⟨rfl, h.hlen, h.hlen3, h.Q, h.qb, h4⟩
      intro j hj s t hst
      exact arrXorRemoveAt_sim (fun e => ho (by rw [← e]; exact hj)) hst _

theorem forall₂_getElem? {α β : Type} {R : α → β → Prop} {l : List α} {m : List β} (h : List.Forall₂ R l m) {i : Nat} {b : β}
    (hb : m[i]? = some b) : ∃ a, l[i]? = some a ∧ R a b := by
  have := rd_forall₂ h i
  rw [rd_eq_ok.2 hb] at this
  rcases hr : rd l i with a | e | _ | _
  · rw [hr] at this
    exact ⟨a, rd_eq_ok.1 hr, this⟩
  · rw [hr] at this; exact this.elim
  · rw [hr] at this; exact this.elim
  · rw [hr] at this; exact this.elim

theorem arrXorDequeue_sim' {prof : Profile} {cap bl n b : Nat} {others : List Nat} (ho : b ∉ others)
    (rem : List KeyIndex) (fuel : Nat) (hf : rem.length ≤ fuel) {s : XArr} {p : XState} (h : XRem cap n b rem s p) :
    Sim (XRem cap n b []) (arrXorDequeue prof bl b others fuel s)
      (foldRes (xorPeelStep prof cap bl n b others) p rem) := by
  induction rem generalizing fuel s p with
  | nil =>
    have hb : b < p.Q.length := by
      by_contra hc
      have := h.qb
      rw [List.getElem?_eq_none (by omega)] at this
      cases this
    obtain ⟨Qb, hQb, hR⟩ := forall₂_getElem? h.Q (i := b) (b := []) (by simp [hb])
    have h0 := hR.size
    cases fuel <;> unfold arrXorDequeue <;> rw [rd_eq_ok.2 hQb, Res.bind_ok, if_pos (by simpa using h0)] <;> exact h
  | cons ki rem ih =>
    obtain ⟨m, rfl⟩ : ∃ m, fuel = m + 1 := ⟨fuel - 1, by simp at hf; omega⟩
    have hb : b < p.Q.length := by
      by_contra hc
      have := h.qb
      rw [List.getElem?_eq_none (by omega)] at this
      cases this
    obtain ⟨Qb, hQb, hR⟩ := forall₂_getElem? h.Q (i := b) (b := ki :: rem) (by simp [hb])
    have h0 := hR.size
    have hbs : b < s.Q.length := by
      have := h.Q.length_eq
      rw [List.length_set] at this
      omega
    unfold arrXorDequeue
    rw [rd_eq_ok.2 hQb, Res.bind_ok, if_neg (by simp at h0; omega), wr_ok hbs, Res.bind_ok, foldRes_cons]
    obtain ⟨h1, h2⟩ := hR.pop
    refine Sim.bind (arrXorStep_sim ho (Qb := ⟨Qb.arr, Qb.size - 1⟩) (rem := rem) ⟨h.H, h.hlen, h.hlen3, ?_, h.qb, h.stk⟩
      (by simp [hbs]) h1) fun s' p' h' => ih _ (by simp at hf; omega) h'
    have := set_forall₂ h.Q b h2
    rwa [List.set_set] at this

theorem arrXorDequeue_sim {prof : Profile} {cap bl n b : Nat} {others : List Nat} (ho : b ∉ others)
    (fuel : Nat) (hf : cap ≤ fuel) {s : XArr} {p : XState} (h : XRel cap n s p) :
    Sim (XRel cap n) (arrXorDequeue prof bl b others fuel s) (xorDequeue prof cap bl n b others p) := by
  unfold xorDequeue
  rcases hr : p.Q[b]? with _ | q
  · have e1 : rd p.Q b = .panic := by unfold rd; rw [hr]
    have e2 := rd_forall₂ h.Q b
    rw [e1] at e2
    rw [e1, Res.bind_panic]
    have e3 : rd s.Q b = .panic := by
      cases e : rd s.Q b with
      | panic => rfl
      | ok a => rw [e] at e2; exact e2.elim
      | err a => rw [e] at e2; exact e2.elim
      | diverge => rw [e] at e2; exact e2.elim
    cases fuel <;> unfold arrXorDequeue <;> rw [e3] <;> trivial
  · have hb : b < p.Q.length := by
      by_contra hc
      rw [List.getElem?_eq_none (by omega)] at hr
      cases hr
    rw [rd_eq_ok.2 hr, Res.bind_ok, wr_ok hb, Res.bind_ok]
    obtain ⟨a, ha, haq⟩ := forall₂_getElem? h.Q hr
    have hql := haq.le
    have hset : p.Q.set b q = p.Q := by
      rw [List.getElem?_eq_getElem hb] at hr
      cases hr
      exact List.set_getElem_self hb
    refine (arrXorDequeue_sim' (prof := prof) (bl := bl) ho q fuel (by omega)
      (p := { p with Q := p.Q.set b [] }) ⟨h.H, h.hlen, h.hlen3, ?_, by simp [hb], h.stk⟩).mono ?_
    · simp only [List.set_set, hset]
      exact h.Q
    · rintro s' p' h'
      refine ⟨h'.H, h'.hlen, h'.hlen3, ?_, h'.stk⟩
      have hb' : b < p'.Q.length := by
        by_contra hc
        have := h'.qb
        rw [List.getElem?_eq_none (by omega)] at this
        cases this
      have e : p'.Q.set b [] = p'.Q := by
        have := h'.qb
        rw [List.getElem?_eq_getElem hb'] at this
        simp only [Option.some.injEq] at this
        conv_lhs => rw [← this]
        exact List.set_getElem_self hb'
      rw [← e]
      exact h'.Q

theorem sizes_eq {cap : Nat} {Q : List ArrStack} {P : List (List KeyIndex)} (h : List.Forall₂ (QRel cap) Q P) :
    Q.map (·.size) = P.map List.length := by
  induction h with
  | nil => rfl
  | cons h _ ih => simp only [List.map_cons, h.size, ih]

theorem arrXorLoop_sim {prof : Profile} {cap bl n : Nat} (fuel : Nat) (hf : cap ≤ fuel) (m : Nat) {s : XArr} {p : XState}
    (h : XRel cap n s p) :
    Sim (XRel cap n) (arrXorLoop prof bl fuel m s) (xorPeelLoop prof cap bl n m p) := by
  induction m generalizing s p with
  | zero =>
    unfold arrXorLoop xorPeelLoop
    rw [sizes_eq h.Q]
    split
    · exact h
    · trivial
  | succ m ih =>
    unfold arrXorLoop xorPeelLoop
    rw [sizes_eq h.Q]
    split
    · exact h
    · refine Sim.bind (arrXorDequeue_sim (by decide) fuel hf h) fun s1 p1 h1 => ?_
      refine Sim.bind (arrXorDequeue_sim (by decide) fuel hf h1) fun s2 p2 h2 => ?_
      exact Sim.bind (arrXorDequeue_sim (by decide) fuel hf h2) fun s3 p3 h3 => ih h3

/-- Number of queued entries. -/
def qTotal (Q : List (List KeyIndex)) : Nat := (Q.map List.length).sum

theorem qTotal_set {Q : List (List KeyIndex)} {j : Nat} {q v : List KeyIndex} (h : Q[j]? = some q) :
    qTotal (Q.set j v) + q.length = qTotal Q + v.length := by
  unfold qTotal
  induction Q generalizing j with
  | nil => simp at h
  | cons a Q ih =>
    cases j with
    | zero =>
      simp only [List.getElem?_cons_zero, Option.some.injEq] at h
      subst h
      simp only [List.set_cons_zero, List.map_cons, List.sum_cons]
      omega
    | succ j =>
      simp only [List.getElem?_cons_succ] at h
      have := ih h
      simp only [List.set_cons_succ, List.map_cons, List.sum_cons]
      omega

theorem wr_eq_ok {α : Type} {l l' : List α} {i : Nat} {v : α} (h : wr l i v = .ok l') : i < l.length ∧ l' = l.set i v := by
  unfold wr at h
  split at h
  · cases h; exact ⟨by assumption, rfl⟩
  · cases h

theorem xorEnqueue_total {cap b idx : Nat} {H : List (List HSet)} {Q Q' : List (List KeyIndex)}
    (h : xorEnqueue cap b H Q idx = .ok Q') : qTotal Q' ≤ qTotal Q + 1 := by
  unfold xorEnqueue at h
  obtain ⟨Hb, _, h⟩ := Res.bind_eq_ok.1 h
  obtain ⟨q, hq, h⟩ := Res.bind_eq_ok.1 h
  obtain ⟨q', hq', h⟩ := Res.bind_eq_ok.1 h
  obtain ⟨_, rfl⟩ := wr_eq_ok h
  have := qTotal_set (v := q') (rd_eq_ok.1 hq)
  have := tryEnqueue_length hq'
  omega

theorem xorRemove_total {prof : Profile} {cap bl : Nat} {hash : U64} {l : List Nat} {s s' : XState}
    (h : foldRes (xorRemoveAt prof cap bl hash) s l = .ok s') :
    qTotal s'.Q ≤ qTotal s.Q + l.length ∧ s'.stk = s.stk := by
  induction l generalizing s with
  | nil => cases h; simp
  | cons a l ih =>
    rw [foldRes_cons] at h
    obtain ⟨t, h1, h2⟩ := Res.bind_eq_ok.1 h
    have := ih h2
    unfold xorRemoveAt at h1
    obtain ⟨_, _, h1⟩ := Res.bind_eq_ok.1 h1
    obtain ⟨_, _, h1⟩ := Res.bind_eq_ok.1 h1
    obtain ⟨_, _, h1⟩ := Res.bind_eq_ok.1 h1
    obtain ⟨q, hq, h1⟩ := Res.bind_eq_ok.1 h1
    cases h1
    have := xorEnqueue_total hq
    simp only [List.length_cons] at *
    exact ⟨by omega, by tauto⟩

/-- What bounds the number of rounds of the peeling loop. -/
def xorWork (n : Nat) (s : XState) : Nat := qTotal s.Q + 2 * (n - s.stk.length)

theorem xorPeelStep_work {prof : Profile} {cap bl n b : Nat} {others : List Nat} (ho : others.length = 2) {s s' : XState}
    {ki : KeyIndex} (h : xorPeelStep prof cap bl n b others s ki = .ok s') : xorWork n s' ≤ xorWork n s := by
  unfold xorPeelStep at h
  obtain ⟨_, _, h⟩ := Res.bind_eq_ok.1 h
  obtain ⟨c, _, h⟩ := Res.bind_eq_ok.1 h
  split at h
  · cases h; exact le_rfl
  · split at h
    · cases h
    · have := xorRemove_total h
      simp only [xorWork, this.2, List.length_cons, ho] at *
      omega

theorem xorDequeue_work {prof : Profile} {cap bl n b : Nat} {others : List Nat} (ho : others.length = 2) {s s' : XState}
    (h : xorDequeue prof cap bl n b others s = .ok s') :
    xorWork n s' ≤ xorWork n s ∧ (xorWork n s' = xorWork n s → s' = s ∧ s.Q[b]? = some []) := by
  unfold xorDequeue at h
  obtain ⟨q, hq, h⟩ := Res.bind_eq_ok.1 h
  obtain ⟨Q, hQ, h⟩ := Res.bind_eq_ok.1 h
  obtain ⟨hb, rfl⟩ := wr_eq_ok hQ
  have h1 := foldRes_keep (fun t => xorWork n t ≤ xorWork n { s with Q := s.Q.set b [] }) q
    (fun t a t' ht e => (xorPeelStep_work ho e).trans ht) le_rfl h
  have h2 := qTotal_set (v := []) (rd_eq_ok.1 hq)
  simp only [List.length_nil, xorWork] at h1 h2 ⊢
  refine ⟨by omega, fun e => ?_⟩
  have hq0 : q = [] := List.length_eq_zero_iff.1 (by omega)
  subst hq0
  rw [foldRes_nil] at h
  cases h
  have hqb := rd_eq_ok.1 hq
  refine ⟨?_, hqb⟩
  rw [List.getElem?_eq_getElem hb] at hqb
  simp only [Option.some.injEq] at hqb
  have : s.Q.set b [] = s.Q := by
    conv_lhs => rw [← hqb]
    exact List.set_getElem_self hb
  rw [this]

theorem qTotal_three {Q : List (List KeyIndex)} (hl : Q.length = 3) (h0 : Q[0]? = some []) (h1 : Q[1]? = some [])
    (h2 : Q[2]? = some []) : qTotal Q = 0 := by
  match Q, hl with
  | [a, b, c], _ =>
    simp at h0 h1 h2
    subst h0 h1 h2
    rfl

theorem xorEnqueue_length {cap b idx : Nat} {H : List (List HSet)} {Q Q' : List (List KeyIndex)}
    (h : xorEnqueue cap b H Q idx = .ok Q') : Q'.length = Q.length := by
  unfold xorEnqueue at h
  obtain ⟨Hb, _, h⟩ := Res.bind_eq_ok.1 h
  obtain ⟨q, hq, h⟩ := Res.bind_eq_ok.1 h
  obtain ⟨q', hq', h⟩ := Res.bind_eq_ok.1 h
  exact wr_length h

theorem xorDequeue_length {prof : Profile} {cap bl n b : Nat} {others : List Nat} {s s' : XState}
    (h : xorDequeue prof cap bl n b others s = .ok s') : s'.Q.length = s.Q.length := by
  unfold xorDequeue at h
  obtain ⟨q, hq, h⟩ := Res.bind_eq_ok.1 h
  obtain ⟨Q, hQ, h⟩ := Res.bind_eq_ok.1 h
  refine foldRes_keep (fun t : XState => t.Q.length = s.Q.length) q ?_ (wr_length hQ) h
  intro t a t' ht e
  unfold xorPeelStep at e
  obtain ⟨_, _, e⟩ := Res.bind_eq_ok.1 e
  obtain ⟨c, _, e⟩ := Res.bind_eq_ok.1 e
  split at e
  · cases e; exact ht
  · split at e
    · cases e
    · refine foldRes_keep (fun t : XState => t.Q.length = s.Q.length) others
        (s := { t with stk := { hash := a.hash, index := a.index + b * bl } :: t.stk }) ?_ ht e
      intro u j u' hu e
      unfold xorRemoveAt at e
      obtain ⟨_, _, e⟩ := Res.bind_eq_ok.1 e
      obtain ⟨_, _, e⟩ := Res.bind_eq_ok.1 e
      obtain ⟨_, _, e⟩ := Res.bind_eq_ok.1 e
      obtain ⟨q, hq, e⟩ := Res.bind_eq_ok.1 e
      cases e
      rw [← hu]
      exact xorEnqueue_length hq

theorem xorPeelLoop_length {prof : Profile} {cap bl n fuel : Nat} {s s' : XState}
    (h : xorPeelLoop prof cap bl n fuel s = .ok s') (hl : s.Q.length = 3) : s'.Q.length = 3 := by
  induction fuel generalizing s with
  | zero =>
    unfold xorPeelLoop at h
    split at h
    · cases h; exact hl
    · cases h
  | succ m ih =>
    unfold xorPeelLoop at h
    split at h
    · cases h; exact hl
    · obtain ⟨s1, h1, h⟩ := Res.bind_eq_ok.1 h
      obtain ⟨s2, h2, h⟩ := Res.bind_eq_ok.1 h
      obtain ⟨s3, h3, h⟩ := Res.bind_eq_ok.1 h
      refine ih h ?_
      rw [xorDequeue_length h3, xorDequeue_length h2, xorDequeue_length h1, hl]

theorem xorPeelLoop_fuel {prof : Profile} {cap bl n : Nat} (fuel fuel' : Nat) {s : XState} (hl : s.Q.length = 3)
    (h : xorWork n s ≤ fuel) (h' : fuel ≤ fuel') :
    xorPeelLoop prof cap bl n fuel' s = xorPeelLoop prof cap bl n fuel s := by
  induction fuel generalizing s fuel' with
  | zero =>
    have hq : (s.Q.map List.length).sum = 0 := by
      unfold xorWork qTotal at h
      omega
    cases fuel' with
    | zero => rfl
    | succ m => unfold xorPeelLoop; rw [if_pos hq, if_pos hq]
  | succ k ih =>
    obtain ⟨m, rfl⟩ : ∃ m, fuel' = m + 1 := ⟨fuel' - 1, by omega⟩
    unfold xorPeelLoop
    split
    · rfl
    · rename_i hne
      rcases e1 : xorDequeue prof cap bl n 0 [1, 2] s with s1 | e | _ | _
      on_goal 1 => simp only [Res.bind_ok]
      on_goal 1 => rcases e2 : xorDequeue prof cap bl n 1 [0, 2] s1 with s2 | e | _ | _
      on_goal 1 => simp only [Res.bind_ok]
      on_goal 1 => rcases e3 : xorDequeue prof cap bl n 2 [0, 1] s2 with s3 | e | _ | _
      on_goal 1 =>
        simp only [Res.bind_ok]
        have w1 := xorDequeue_work rfl e1
        have w2 := xorDequeue_work rfl e2
        have w3 := xorDequeue_work rfl e3
        have l1 := xorDequeue_length e1
        have l2 := xorDequeue_length e2
        have l3 := xorDequeue_length e3
        refine ih _ (by omega) ?_ (by omega)
        by_contra hc
        have a1 := w1.2 (by omega)
        obtain ⟨rfl, a1⟩ := a1
        have a2 := w2.2 (by omega)
        obtain ⟨rfl, a2⟩ := a2
        have a3 := w3.2 (by omega)
        exact hne (qTotal_three hl a1 a2 a3.2)
      all_goals rfl

theorem xorAdd_keep {prof : Profile} {bl cap : Nat} {H H' : List (List HSet)} {l : List U64} (hl : H.length = 3)
    (hc : ∀ Hb ∈ H, Hb.length = cap) (h : foldRes (xorAddKey prof bl) H l = .ok H') :
    H'.length = 3 ∧ ∀ Hb ∈ H', Hb.length = cap := by
  refine foldRes_keep (fun K : List (List HSet) => K.length = 3 ∧ ∀ Hb ∈ K, Hb.length = cap) l ?_ ⟨hl, hc⟩ h
  intro s a s' hs h1
  refine foldRes_keep (fun K : List (List HSet) => K.length = 3 ∧ ∀ Hb ∈ K, Hb.length = cap) _ ?_ hs h1
  intro t b t' ht h2
  obtain ⟨Hb, hb, h2⟩ := Res.bind_eq_ok.1 h2
  obtain ⟨Hb', hb', h2⟩ := Res.bind_eq_ok.1 h2
  refine ⟨by rw [wr_length h2]; exact ht.1, mem_of_wr h2 _ ht.2 ?_⟩
  rw [hAdd_length hb']
  exact ht.2 _ (rd_mem hb)

theorem forall₂_empty {cap : Nat} {Q : List (List KeyIndex)} (h : ∀ q ∈ Q, q.length = cap) :
    List.Forall₂ (QRel cap) (Q.map fun arr => { arr := arr, size := 0 }) (List.replicate Q.length []) := by
  induction Q with
  | nil => exact .nil
  | cons a Q ih => exact .cons (QRel.empty (h a (by simp))) (ih fun q hq => h q (by simp [hq]))

theorem qTotal_le {cap : Nat} {Q : List ArrStack} {P : List (List KeyIndex)} (h : List.Forall₂ (QRel cap) Q P) :
    qTotal P ≤ P.length * cap := by
  unfold qTotal
  induction h with
  | nil => simp
  | cons h _ ih =>
    have := h.le
    simp only [List.map_cons, List.sum_cons, List.length_cons, Nat.add_mul, Nat.one_mul]
    omega

theorem map_zeros_eq {H : List (List HSet)} {cap : Nat} (h : ∀ Hb ∈ H, Hb.length = cap) (hl : H.length = 3) :
    (H.map fun Hb => Hb.map fun _ => HSet.zero) = List.replicate 3 (List.replicate cap HSet.zero) := by
  rw [List.eq_replicate_iff]
  refine ⟨by simpa using hl, ?_⟩
  intro b hb
  obtain ⟨a, ha, rfl⟩ := List.mem_map.1 hb
  exact map_zero_eq (h a ha)

theorem arrs_length {cap : Nat} {Q : List ArrStack} {P : List (List KeyIndex)} (h : List.Forall₂ (QRel cap) Q P) :
    ∀ q ∈ Q.map (·.arr), q.length = cap := by
  induction h with
  | nil => simp
  | cons h _ ih =>
    intro q hq
    rw [List.map_cons, List.mem_cons] at hq
    rcases hq with rfl | hq
    · exact h.len
    · exact ih q hq

theorem arrXorRetry_sim {prof : Profile} {cap bl : Nat} {keys : List U64} {fuel : Nat}
    (hf : 3 * cap + 2 * keys.length ≤ fuel) (n : Nat) (rng seed : U64) {Q : List (List KeyIndex)} {stack : List KeyIndex}
    (hQ : Q.length = 3) (hQc : ∀ q ∈ Q, q.length = cap) (hS : stack.length = keys.length) :
    Sim (fun (x : List KeyIndex × U64) (y : List KeyIndex × U64) => x.1.reverse = y.1 ∧ x.2 = y.2)
      (arrXorRetry prof bl keys fuel n rng seed (List.replicate 3 (List.replicate cap HSet.zero)) Q stack)
      (xorLoop prof cap bl keys n rng seed) := by
  induction n generalizing rng seed Q stack with
  | zero => exact trivial
  | succ n ih =>
    unfold arrXorRetry xorLoop xorAttempt xorScan
    rw [foldRes_map, bind_assoc]
    refine Sim.same _ fun H hH => ?_
    have hH' : foldRes (xorAddKey prof bl) (List.replicate 3 (List.replicate cap HSet.zero)) (keys.map fun k => mix k seed)
        = .ok H := by
      rw [foldRes_map]; exact hH
    obtain ⟨hH3, hHc⟩ := xorAdd_keep (cap := cap) (by simp) (by simp) hH'
    rw [bind_assoc]
    have h0 := forall₂_empty hQc
    rw [hQ] at h0
    have hscan : Sim (List.Forall₂ (QRel cap))
        (foldRes (fun Q b => foldRes (arrXorEnqueue b H) Q (List.range bl))
          (Q.map fun arr => { arr := arr, size := 0 }) [0, 1, 2])
        (foldRes (fun Q b => foldRes (xorEnqueue cap b H) Q (List.range bl)) (List.replicate 3 []) [0, 1, 2]) := by
      refine Sim.foldRes ?_ h0 _
      intro s t b hst
      refine Sim.foldRes ?_ hst _
      intro s t i hst
      exact arrXorEnqueue_sim hst i
    refine Sim.bind_mem hscan ?_
    intro a q _ hq' hq
    have hq3 : q.length = 3 := by
      refine foldRes_keep (fun t : List (List KeyIndex) => t.length = 3) [0, 1, 2] ?_ (by simp) hq'
      intro t b t' ht e
      refine foldRes_keep (fun t : List (List KeyIndex) => t.length = 3) (List.range bl) ?_ ht e
      intro u i u' hu e
      rw [xorEnqueue_length e, hu]
    have hqt := qTotal_le hq
    rw [hq3] at hqt
    rw [bind_assoc, List.length_map,
      ← xorPeelLoop_fuel (3 * cap + 2 * keys.length) fuel hq3
        (by simp only [xorWork, List.length_nil]; omega) hf]
    refine Sim.bind_mem (arrXorLoop_sim (prof := prof) (bl := bl) (n := keys.length) fuel (by omega) fuel
      (p := { H := H, Q := q, stk := [] }) ⟨rfl, hHc, hH3, hq, QRel.empty hS⟩) ?_
    intro s p _ hp h
    have hs := h.stk.size
    rw [hs]
    by_cases hlen : p.stk.length = keys.length
    · rw [if_pos hlen, if_pos hlen]
      refine Sim.ok ⟨?_, rfl⟩
      have := h.stk
      rw [← hlen] at this
      exact this.full
    · rw [if_neg hlen, if_neg hlen, map_zeros_eq h.hlen h.hlen3]
      refine ih _ _ ?_ (arrs_length h.Q) h.stk.len
      rw [List.length_map, h.Q.length_eq]
      exact xorPeelLoop_length hp hq3

theorem arrXorFrom_eq (w : Nat) (prof : Profile) (c0 fuel : Nat) (keys : List U64) (n : Nat)
    (hf : 3 * (c0 + 32) + 2 * keys.length ≤ fuel) :
    arrXorFrom w prof c0 fuel keys n = Xor.fromWithin w prof c0 keys n := by
  apply Sim.eq
  unfold arrXorFrom Xor.fromWithin
  split
  · exact Sim.panic
  dsimp only
  have hc : (c0 + 32) / 3 * 3 ≤ c0 + 32 := Nat.div_mul_le_self _ _
  refine Sim.bind (arrXorRetry_sim (by omega) n _ _ (by simp) (by simp) (by simp)) ?_
  rintro ⟨st, sd⟩ ⟨stk, seed⟩ ⟨h1, h2⟩
  simp only at h1 h2
  subst h1 h2
  exact Sim.of_eq

end Chalamet
