import Verif.Spec
import Verif.Lemmas.Count
import Mathlib.Data.List.Perm.Basic

/-! Peeling orders. -/

namespace Chalamet.Spec

variable {α β : Type} {touch : α → β → Prop}

/-- In a collection that can be peeled, every non-empty part has a slot touched by one key only. -/
theorem Peels.exists_free {order R : List α} (h : Peels touch order) (hne : R ≠ [])
    (hsub : ∀ x ∈ R, x ∈ order) :
    ∃ k s, k ∈ R ∧ touch k s ∧ ∀ k' ∈ R, k' ≠ k → ¬ touch k' s := by
  induction order with
  | nil =>
    obtain ⟨x, hx⟩ := List.exists_mem_of_ne_nil R hne
    exact absurd (hsub x hx) (by simp)
  | cons k ks ih =>
    obtain ⟨⟨s, hs, hfree⟩, hks⟩ := h
    by_cases hk : k ∈ R
    · refine ⟨k, s, hk, hs, fun k' hk' hne' => hfree k' ?_⟩
      exact (List.mem_cons.1 (hsub k' hk')).resolve_left hne'
    · refine ih hks fun x hx => (List.mem_cons.1 (hsub x hx)).resolve_left ?_
      rintro rfl
      exact hk hx

theorem CanPeel.exists_free {L R : List α} (h : CanPeel touch L) (hne : R ≠ [])
    (hsub : ∀ x ∈ R, x ∈ L) :
    ∃ k s, k ∈ R ∧ touch k s ∧ ∀ k' ∈ R, k' ≠ k → ¬ touch k' s := by
  obtain ⟨o, hp, ho⟩ := h
  exact ho.exists_free hne fun x hx => hp.mem_iff.2 (hsub x hx)

theorem CanPeel.perm {L L' : List α} (h : CanPeel touch L) (hp : L'.Perm L) : CanPeel touch L' := by
  obtain ⟨o, h1, h2⟩ := h
  exact ⟨o, h1.trans hp.symm, h2⟩

theorem Peels.map {γ : Type} {f : γ → α} {order : List γ} :
    Peels touch (order.map f) ↔ Peels (fun x => touch (f x)) order := by
  induction order with
  | nil => exact Iff.rfl
  | cons k ks ih =>
    simp only [List.map_cons, Peels, ih, List.forall_mem_map]

theorem CanPeel.map {γ : Type} {f : γ → α} {L : List γ} :
    CanPeel touch (L.map f) ↔ CanPeel (fun x => touch (f x)) L := by
  constructor
  · rintro ⟨o, hp, ho⟩
    obtain ⟨o', rfl, hp'⟩ : ∃ o', o = List.map f o' ∧ o'.Perm L := by
      have h : Relation.Comp (fun (a : List α) (b : List γ) => a = List.map f b) List.Perm o L := by
        rw [List.eq_map_comp_perm]
        exact hp
      exact h
    exact ⟨o', hp', Peels.map.1 ho⟩
  · rintro ⟨o, hp, ho⟩
    exact ⟨o.map f, hp.map f, Peels.map.2 ho⟩

/-- A list of entries with pivots that later entries do not touch is a peeling order. -/
theorem Peels.of_pivots {γ : Type} {f : γ → α} {p : γ → β} {l : List γ}
    (h1 : ∀ e ∈ l, touch (f e) (p e)) (h2 : l.Pairwise fun a b => ¬ touch (f b) (p a)) :
    Peels touch (l.map f) := by
  induction l with
  | nil => trivial
  | cons e rest ih =>
    obtain ⟨ha, hb⟩ := List.pairwise_cons.1 h2
    refine ⟨⟨p e, h1 e (by simp), ?_⟩, ih (fun x hx => h1 x (List.mem_cons_of_mem _ hx)) hb⟩
    intro k' hk'
    obtain ⟨x, hx, rfl⟩ := List.mem_map.1 hk'
    exact ha x hx

end Chalamet.Spec

namespace Chalamet

theorem nodup_of_subperm {α : Type} {l l' : List α} (h : l.Subperm l') (hn : l'.Nodup) : l.Nodup := by
  obtain ⟨m, hm, hs⟩ := h
  exact hm.nodup_iff.1 (hs.nodup hn)

theorem countP_unique {α : Type} {p : α → Bool} {R : List α} {h : α} (hn : R.Nodup) (hh : h ∈ R)
    (hs : p h = true) (hu : ∀ h' ∈ R, h' ≠ h → ¬ p h' = true) : R.countP p = 1 := by
  induction R with
  | nil => simp at hh
  | cons a R ih =>
    rw [List.countP_cons]
    obtain ⟨ha, hn⟩ := List.nodup_cons.1 hn
    by_cases e : a = h
    · subst e
      rw [hs]
      have : R.countP p = 0 := by
        rw [List.countP_eq_zero]
        intro x hx
        exact hu x (List.mem_cons_of_mem _ hx) (fun e => ha (e ▸ hx))
      simp [this]
    · have hm := (List.mem_cons.1 hh).resolve_left (Ne.symm e)
      have := hu a (by simp) e
      rw [ih hn hm fun h' hh' => hu h' (List.mem_cons_of_mem _ hh')]
      simp [this]

theorem cnt_unique {g : Geom} {R : List U64} {h : U64} {s : Nat} (hn : R.Nodup) (hh : h ∈ R)
    (hs : on g s h = true) (hu : ∀ h' ∈ R, h' ≠ h → ¬ on g s h' = true) : cnt g R s = 1 :=
  countP_unique hn hh hs hu

end Chalamet
