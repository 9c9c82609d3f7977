import Verif.Model.System
import Verif.Lemmas.Noise

/-! Invariants of histories (helper lemmas). -/

namespace Chalamet

/-- What the objects of the two APIs have in common. -/
structure Pir.Good {QP I : Type} (S : Pir QP I) (used : QP → Bool) (mark : QP → QP) : Prop where
  gen_fresh : ∀ tape qp t, S.gen tape = .ok (qp, t) → used qp = false
  ask_used : ∀ qp i, used qp = true → S.ask qp i = (qp, .err .queryParamsReused)
  ask_fresh : ∀ qp i, used qp = false → (S.ask qp i).1 = mark qp
  mark_used : ∀ qp, used (mark qp) = true
  parse_mark : ∀ qp i bytes, S.parse (mark qp) i bytes = S.parse qp i bytes

/-- The invariant. -/
structure Pir.Inv {QP I : Type} (S : Pir QP I) (used : QP → Bool) (mark : QP → QP) (w : World QP I) : Prop where
  len : w.clients.length = w.tapes.length
  client : ∀ (c : Nat) (qp : QP), w.clients[c]? = some qp → ∃ tape qp0 t, w.tapes[c]? = some tape ∧
    S.gen tape = .ok (qp0, t) ∧ (qp = qp0 ∨ qp = mark qp0)
  fresh : ∀ (c : Nat) (qp : QP), w.clients[c]? = some qp → used qp = false → ∀ x ∈ w.queries, x.1 ≠ c
  once : ∀ (c : Nat), (w.queries.filter fun x => x.1 == c).length ≤ 1
  query : ∀ (c : Nat) (i : I) (q : List U32), (c, i, q) ∈ w.queries → ∃ tape qp0 t, w.tapes[c]? = some tape ∧
    S.gen tape = .ok (qp0, t) ∧ S.ask qp0 i = (mark qp0, .ok q)
  response : ∀ (k : Nat) (bytes : List U8), (k, bytes) ∈ w.responses → ∃ c i q, w.queries[k]? = some (c, i, q) ∧
    S.respond q = .ok bytes
  output : ∀ (c r : Nat) (i : I) (out : Res (List U32)), (c, r, i, out) ∈ w.outputs → ∃ tape qp0 t k bytes, w.tapes[c]? = some tape ∧
    S.gen tape = .ok (qp0, t) ∧ w.responses[r]? = some (k, bytes) ∧ out = S.parse qp0 i bytes

theorem getElem?_append_some {α : Type} {l : List α} {k : Nat} {a : α} (h : l[k]? = some a) (m : List α) :
    (l ++ m)[k]? = some a := by
  have hk : k < l.length := by
    by_contra hc
    rw [List.getElem?_eq_none (by omega)] at h
    cases h
  rw [List.getElem?_append_left hk, h]

theorem Pir.Inv.push {QP I : Type} {S : Pir QP I} {used : QP → Bool} {mark : QP → QP}
    {w : World QP I} (h : S.Inv used mark w) (tape : List U32) (qp : QP)
    (hg : ∃ qp0 t, S.gen tape = .ok (qp0, t) ∧ (qp = qp0 ∨ qp = mark qp0)) :
    S.Inv used mark { w with tapes := w.tapes ++ [tape], clients := w.clients ++ [qp] } := by
  refine ⟨by simp [h.len], ?_, ?_, h.once, ?_, h.response, ?_⟩
  · intro c qp' hc
    simp only at hc ⊢
    rcases Nat.lt_or_ge c w.clients.length with hl | hl
    · rw [List.getElem?_append_left hl] at hc
      obtain ⟨tp, qp0, t0, h1, h2, h3⟩ := h.client c qp' hc
      exact ⟨tp, qp0, t0, getElem?_append_some h1 _, h2, h3⟩
    · have hc' : c = w.clients.length := by
        by_contra hne
        rw [List.getElem?_eq_none (by simp; omega)] at hc
        cases hc
      subst hc'
      rw [List.getElem?_append_right le_rfl] at hc
      simp at hc
      subst hc
      obtain ⟨qp0, t0, h2, h3⟩ := hg
      refine ⟨tape, qp0, t0, ?_, h2, h3⟩
      rw [h.len, List.getElem?_append_right le_rfl]
      simp
  · intro c qp' hc hu x hx
    simp only at hc hx
    rcases Nat.lt_or_ge c w.clients.length with hl | hl
    · rw [List.getElem?_append_left hl] at hc
      exact h.fresh c qp' hc hu x hx
    · obtain ⟨c', i', q'⟩ := x
      obtain ⟨tp, _, _, h1, _⟩ := h.query c' i' q' hx
      have : c' < w.tapes.length := by
        by_contra hn
        rw [List.getElem?_eq_none (by omega)] at h1
        cases h1
      have := h.len
      simp only
      omega
  · intro c i q hq
    obtain ⟨tp, qp0, t0, h1, h2, h3⟩ := h.query c i q hq
    exact ⟨tp, qp0, t0, getElem?_append_some h1 _, h2, h3⟩
  · intro c r i out ho
    obtain ⟨tp, qp0, t0, k, bytes, h1, h2, h3, h4⟩ := h.output c r i out ho
    exact ⟨tp, qp0, t0, k, bytes, getElem?_append_some h1 _, h2, h3, h4⟩

theorem Pir.inv_step {QP I : Type} {S : Pir QP I} {used : QP → Bool} {mark : QP → QP}
    (hG : S.Good used mark) {w : World QP I} (h : S.Inv used mark w) (ev : Event I) :
    S.Inv used mark (S.step w ev) := by
  cases ev with
  | join tape =>
    unfold Pir.step
    simp only
    split
    · rename_i qp t hg
      exact h.push tape qp ⟨qp, t, hg, Or.inl rfl⟩
    · exact h
  | copy c =>
    unfold Pir.step
    simp only
    split
    · rename_i tape qp ht hc
      obtain ⟨tp, qp0, t0, h1, h2, h3⟩ := h.client c qp hc
      rw [ht] at h1
      cases h1
      exact h.push tape qp ⟨qp0, t0, h2, h3⟩
    · exact h
  | ask c i =>
    unfold Pir.step
    simp only
    cases hc : w.clients[c]? with
    | none => exact h
    | some qp =>
      simp only
      have hcl : c < w.clients.length := by
        by_contra hn
        rw [List.getElem?_eq_none (by omega)] at hc
        cases hc
      obtain ⟨tp, qp0, t0, g1, g2, g3⟩ := h.client c qp hc
      -- the object table after the call
      have hcl' : ∀ qp' : QP, (qp' = qp0 ∨ qp' = mark qp0) → ∀ (c' : Nat) (qp'' : QP), (w.clients.set c qp')[c']? = some qp'' →
          ∃ (tape : List U32) (qp0 : QP) (t : List U32), w.tapes[c']? = some tape ∧ S.gen tape = .ok (qp0, t) ∧ (qp'' = qp0 ∨ qp'' = mark qp0) := by
        intro qp' hq c' qp'' hc'
        by_cases e : c' = c
        · subst e
          rw [List.getElem?_set_self hcl] at hc'
          cases hc'
          exact ⟨tp, qp0, t0, g1, g2, hq⟩
        · rw [List.getElem?_set_ne (fun h => e h.symm)] at hc'
          exact h.client c' qp'' hc'
      cases hu : used qp with
      | true =>
        rw [hG.ask_used qp i hu]
        simp only
        refine ⟨by simp [h.len], hcl' qp g3, ?_, h.once, h.query, h.response, h.output⟩
        intro c' qp' hc' hu' x hx
        simp only at hc' hx
        by_cases e : c' = c
        · subst e
          rw [List.getElem?_set_self hcl] at hc'
          cases hc'
          rw [hu] at hu'
          cases hu'
        · rw [List.getElem?_set_ne (fun h => e h.symm)] at hc'
          exact h.fresh c' qp' hc' hu' x hx
      | false =>
        have hqp : qp = qp0 := by
          rcases g3 with e | e
          · exact e
          · rw [e, hG.mark_used] at hu; cases hu
        subst hqp
        have hf := hG.ask_fresh qp i hu
        have hno := h.fresh c qp hc hu
        have hfr : ∀ (Q : List (Nat × I × List U32)), (∀ x ∈ Q, x ∈ w.queries ∨ x.1 = c) →
            ∀ c' qp', (w.clients.set c (mark qp))[c']? = some qp' → used qp' = false → ∀ x ∈ Q, x.1 ≠ c' := by
          intro Q hQ c' qp' hc' hu' x hx
          by_cases e : c' = c
          · subst e
            rw [List.getElem?_set_self hcl] at hc'
            cases hc'
            rw [hG.mark_used] at hu'
            cases hu'
          · rw [List.getElem?_set_ne (fun h => e h.symm)] at hc'
            rcases hQ x hx with hx | hx
            · exact h.fresh c' qp' hc' hu' x hx
            · rw [hx]; exact fun h => e h.symm
        split
        · rename_i qp' q heq
          have e1 : qp' = mark qp := by rw [← hf, heq]
          subst e1
          refine ⟨by simp [h.len], hcl' _ (Or.inr rfl), hfr _ ?_, ?_, ?_, ?_, h.output⟩
          · intro x hx
            rcases List.mem_append.1 hx with hx | hx
            · exact Or.inl hx
            · rw [List.mem_singleton] at hx
              subst hx
              exact Or.inr rfl
          · intro c'
            simp only [List.filter_append, List.length_append]
            by_cases e : c' = c
            · subst e
              have : w.queries.filter (fun x => x.1 == c') = [] := by
                rw [List.filter_eq_nil_iff]
                intro x hx
                simpa using hno x hx
              rw [this]
              simp
            · have h1 := h.once c'
              have : [(c, i, q)].filter (fun x => x.1 == c') = [] := by
                simp [Ne.symm e]
              rw [this]
              simpa using h1
          · intro c' i' q' hq
            rcases List.mem_append.1 hq with hq | hq
            · exact h.query c' i' q' hq
            · rw [List.mem_singleton] at hq
              cases hq
              exact ⟨tp, qp, t0, g1, g2, heq⟩
          · intro k bytes hk
            obtain ⟨c', i', q', h1, h2⟩ := h.response k bytes hk
            exact ⟨c', i', q', getElem?_append_some h1 _, h2⟩
        · rename_i qp' r hr heq
          have e1 : qp' = mark qp := by rw [← hf, heq]
          subst e1
          exact ⟨by simp [h.len], hcl' _ (Or.inr rfl), hfr _ (fun x hx => Or.inl hx), h.once, h.query,
            h.response, h.output⟩
  | serve k =>
    unfold Pir.step
    simp only
    split
    · exact h
    · rename_i c i q hq
      split
      · rename_i bytes hb
        refine ⟨h.len, h.client, h.fresh, h.once, h.query, ?_, ?_⟩
        · intro k' bytes' hk
          rcases List.mem_append.1 hk with hk | hk
          · exact h.response k' bytes' hk
          · rw [List.mem_singleton] at hk
            cases hk
            exact ⟨c, i, q, hq, hb⟩
        · intro c r i out ho
          obtain ⟨tp, qp0, t0, k, bytes, h1, h2, h3, h4⟩ := h.output c r i out ho
          exact ⟨tp, qp0, t0, k, bytes, h1, h2, getElem?_append_some h3 _, h4⟩
      · exact h
  | parse c r i =>
    unfold Pir.step
    simp only
    split
    · rename_i qp k bytes hc hr
      refine ⟨h.len, h.client, h.fresh, h.once, h.query, h.response, ?_⟩
      intro c' r' i' out ho
      rcases List.mem_append.1 ho with ho | ho
      · exact h.output c' r' i' out ho
      · rw [List.mem_singleton] at ho
        cases ho
        obtain ⟨tp, qp0, t0, g1, g2, g3⟩ := h.client c qp hc
        refine ⟨tp, qp0, t0, k, bytes, g1, g2, hr, ?_⟩
        rcases g3 with e | e
        · rw [e]
        · rw [e, hG.parse_mark]
    · exact h

theorem Pir.inv_run {QP I : Type} {S : Pir QP I} {used : QP → Bool} {mark : QP → QP}
    (hG : S.Good used mark) (evs : List (Event I)) : S.Inv used mark (S.run evs) := by
  have h0 : S.Inv used mark (World.init : World QP I) := by
    constructor <;> simp [World.init]
  unfold Pir.run
  generalize (World.init : World QP I) = w at h0
  induction evs generalizing w with
  | nil => exact h0
  | cons ev evs ih => exact ih _ (Pir.inv_step hG h0 ev)

theorem indexPir_good (prof : Profile) (prg : Prg) (shard : Shard) :
    (indexPir prof prg shard).Good (·.used) (fun qp => { qp with used := true }) := by
  refine ⟨?_, ?_, ?_, fun _ => rfl, ?_⟩
  · intro tape qp t h
    unfold indexPir generateIndexQueryParams at h
    simp only at h
    obtain ⟨⟨s, t1⟩, _, h⟩ := Res.bind_eq_ok.1 h
    obtain ⟨⟨l, t2⟩, _, h⟩ := Res.bind_eq_ok.1 h
    obtain ⟨r, _, h⟩ := Res.bind_eq_ok.1 h
    cases h
    rfl
  · intro qp i hu
    simp only [indexPir, QueryParams.generateIndexQuery]
    rw [if_pos hu]
  · intro qp i hu
    simp only [indexPir, QueryParams.generateIndexQuery]
    rw [if_neg (by rw [hu]; simp)]
  · intro qp i bytes
    rfl

theorem kvPir_good (prof : Profile) (prg : Prg) (shard : KVShard) :
    (kvPir prof prg shard).Good (·.used) (fun qp => { qp with used := true }) := by
  refine ⟨?_, ?_, ?_, fun _ => rfl, ?_⟩
  · intro tape qp t h
    unfold kvPir generateKvQueryParams at h
    simp only at h
    obtain ⟨⟨s, t1⟩, _, h⟩ := Res.bind_eq_ok.1 h
    obtain ⟨⟨l, t2⟩, _, h⟩ := Res.bind_eq_ok.1 h
    obtain ⟨r, _, h⟩ := Res.bind_eq_ok.1 h
    cases h
    rfl
  · intro qp i hu
    simp only [kvPir, QueryParams.generateKvQuery]
    rw [if_pos hu]
  · intro qp i hu
    simp only [kvPir, QueryParams.generateKvQuery]
    rw [if_neg (by rw [hu]; simp)]
  · intro qp i bytes
    rfl

end Chalamet
