import Verif.Props.System
import Verif.Props.Query
import Verif.Props.Files

/-!
# Copied and restored client objects: C68, C69

`QueryParams` derives `Clone`, `Serialize` and `Deserialize` (src/api.rs:249). Histories are those of
`Verif/Model/System.lean`.
-/

namespace Chalamet
open Spec

theorem Pir.copy_sends {QP I : Type} (S : Pir QP I) (used : QP → Bool) (mark : QP → QP)
    (hG : S.Good used mark) (evs : List (Event I)) (c : Nat) (qp : QP) (i j : I) (q₁ q₂ : List U32)
    (hc : (S.run evs).clients[c]? = some qp)
    (h₁ : (S.ask qp i).2 = .ok q₁) (h₂ : (S.ask qp j).2 = .ok q₂) :
    (S.run (evs ++ [.copy c, .ask c i, .ask (S.run evs).clients.length j])).queries =
      (S.run evs).queries ++ [(c, i, q₁), ((S.run evs).clients.length, j, q₂)] := by
  have hinv := Pir.inv_run hG evs
  unfold Pir.run at *
  rw [List.foldl_append]
  set w := evs.foldl S.step World.init with hw
  have hcl : c < w.clients.length := by
    by_contra hn
    rw [List.getElem?_eq_none (by omega)] at hc
    cases hc
  have htl : c < w.tapes.length := by have := hinv.len; omega
  have ht : w.tapes[c]? = some w.tapes[c] := List.getElem?_eq_getElem htl
  simp only [List.foldl_cons, List.foldl_nil]
  have s1 : S.step w (.copy c) =
      { w with tapes := w.tapes ++ [w.tapes[c]], clients := w.clients ++ [qp] } := by
    simp only [Pir.step, ht, hc]
  obtain ⟨a, ha⟩ : ∃ a, S.ask qp i = (a, .ok q₁) := ⟨_, Prod.ext rfl h₁⟩
  obtain ⟨a', ha'⟩ : ∃ a, S.ask qp j = (a, .ok q₂) := ⟨_, Prod.ext rfl h₂⟩
  have e1 : (w.clients ++ [qp])[c]? = some qp := by rw [List.getElem?_append_left hcl, hc]
  have e2 : ((w.clients ++ [qp]).set c a)[w.clients.length]? = some qp := by
    rw [List.getElem?_set_ne (by omega), List.getElem?_append_right le_rfl]
    simp
  rw [s1]
  simp only [Pir.step, e1, ha, e2, ha', List.append_assoc, List.cons_append, List.nil_append]

/-- **C68 (what a copy can do, index).** After any history, take an object that can still send a query for `i` and
one for `j`. Copy it, then ask the object for `i` and the copy for `j`: both queries are sent. Single use is
not enforced across copies. -/
theorem C68_copy_sends_index (prof : Profile) (prg : Prg) (shard : Shard) (evs : List (Event Nat)) (c : Nat)
    (qp : QueryParams Unit) (i j : Nat) (q₁ q₂ : List U32) :
    let w := (indexPir prof prg shard).run evs
    w.clients[c]? = some qp → (qp.generateIndexQuery prof i).2 = .ok q₁ →
    (qp.generateIndexQuery prof j).2 = .ok q₂ →
    ((indexPir prof prg shard).run (evs ++ [.copy c, .ask c i, .ask w.clients.length j])).queries =
      w.queries ++ [(c, i, q₁), (w.clients.length, j, q₂)] := by
  intro w hc h₁ h₂
  exact Pir.copy_sends _ _ _ (indexPir_good prof prg shard) evs c qp i j q₁ q₂ hc h₁ h₂

/-- **C68 (what a copy can do, keyword).** -/
theorem C68_copy_sends_kv (prof : Profile) (prg : Prg) (shard : KVShard) (evs : List (Event Key)) (c : Nat)
    (qp : QueryParams FilterParams) (i j : Key) (q₁ q₂ : List U32) :
    let w := (kvPir prof prg shard).run evs
    w.clients[c]? = some qp → (qp.generateKvQuery prof i).2 = .ok q₁ →
    (qp.generateKvQuery prof j).2 = .ok q₂ →
    ((kvPir prof prg shard).run (evs ++ [.copy c, .ask c i, .ask w.clients.length j])).queries =
      w.queries ++ [(c, i, q₁), (w.clients.length, j, q₂)] := by
  intro w hc h₁ h₂
  exact Pir.copy_sends _ _ _ (kvPir_good prof prg shard) evs c qp i j q₁ q₂ hc h₁ h₂

/-- **C68 (index).** In any history, whenever two objects drawn from the same randomness (an object and a copy of
it) have both sent a query, the difference of the two queries is `D` at the first index, `-D` at the second and
zero elsewhere: whoever sees both queries learns both indices when they differ, and that they are equal
otherwise. -/
theorem C68_copies_reveal_index (prof : Profile) (prg : Prg) (shard : Shard)
    (hb1 : 1 ≤ shard.baseParams.plaintextBits) (hb : shard.baseParams.plaintextBits ≤ 31)
    (evs : List (Event Nat)) (c c' i j : Nat) (q₁ q₂ : List U32) :
    let w := (indexPir prof prg shard).run evs
    w.tapes[c]? = w.tapes[c']? → (c, i, q₁) ∈ w.queries → (c', j, q₂) ∈ w.queries →
    q₁.length = q₂.length ∧
    (∀ k < q₁.length, q₁.getD k 0#32 - q₂.getD k 0#32 =
      BitVec.ofNat 32 (2 ^ (32 - shard.baseParams.plaintextBits)) *
        ((if k = i then 1#32 else 0#32) - (if k = j then 1#32 else 0#32))) ∧
    (i ≠ j → ∀ k < q₁.length, q₁.getD k 0#32 ≠ q₂.getD k 0#32 ↔ k = i ∨ k = j) := by
  intro w ht h₁ h₂
  have hG := indexPir_good prof prg shard
  have hinv : (indexPir prof prg shard).Inv _ _ w := Pir.inv_run hG evs
  obtain ⟨tape, qp, t, a1, a2, a3⟩ := hinv.query c i q₁ h₁
  obtain ⟨tape', qp', t', b1, b2, b3⟩ := hinv.query c' j q₂ h₂
  rw [ht, b1] at a1
  cases a1
  rw [b2] at a2
  cases a2
  have hu : qp.used = false := hG.gen_fresh _ _ _ b2
  have hbits : qp.plaintextBits = shard.baseParams.plaintextBits := by
    have h : generateIndexQueryParams _ shard.baseParams tape = .ok (qp, t) := b2
    unfold generateIndexQueryParams at h
    obtain ⟨⟨s, t1⟩, _, h⟩ := Res.bind_eq_ok.1 h
    obtain ⟨⟨l, t2⟩, _, h⟩ := Res.bind_eq_ok.1 h
    obtain ⟨r, _, h⟩ := Res.bind_eq_ok.1 h
    cases h
    rfl
  have e₁ : (qp.generateIndexQuery prof i).2 = .ok q₁ := by
    have : qp.generateIndexQuery prof i = _ := a3
    rw [this]
  have e₂ : (qp.generateIndexQuery prof j).2 = .ok q₂ := by
    have : qp.generateIndexQuery prof j = _ := b3
    rw [this]
  have l₁ : q₁.length = qp.lhs.length := by
    obtain ⟨_, _, e⟩ := (indexQuery_ok_iff (by omega) hu).1 e₁
    rw [e, List.length_set]
  have l₂ : q₂.length = qp.lhs.length := by
    obtain ⟨_, _, e⟩ := (indexQuery_ok_iff (by omega) hu).1 e₂
    rw [e, List.length_set]
  obtain ⟨m1, m2⟩ := C09_mask_reuse_index prof qp i j (by omega) (by omega) hu q₁ q₂ e₁ e₂
  rw [hbits] at m1
  rw [l₁, l₂]
  exact ⟨rfl, m1, m2⟩

/-- **C68 (keyword).** The same for keywords: the difference of two queries sent by an object and a copy is `D` times
the difference of the (public) slot sets of the two keys. -/
theorem C68_copies_reveal_kv (prof : Profile) (prg : Prg) (shard : KVShard)
    (hb : shard.baseParams.plaintextBits ≤ 31) (evs : List (Event Key)) (c c' : Nat) (k₁ k₂ : Key)
    (s₁ s₂ : List Nat) (q₁ q₂ : List U32)
    (hs₁ : shard.baseParams.filterParams.getHashEvals prof k₁ = .ok s₁)
    (hs₂ : shard.baseParams.filterParams.getHashEvals prof k₂ = .ok s₂) :
    let w := (kvPir prof prg shard).run evs
    w.tapes[c]? = w.tapes[c']? → (c, k₁, q₁) ∈ w.queries → (c', k₂, q₂) ∈ w.queries →
    q₁.length = q₂.length ∧ ∀ k < q₁.length, q₁.getD k 0#32 - q₂.getD k 0#32 =
      BitVec.ofNat 32 (2 ^ (32 - shard.baseParams.plaintextBits)) *
        (BitVec.ofNat 32 (s₁.count k) - BitVec.ofNat 32 (s₂.count k)) := by
  intro w ht h₁ h₂
  have hG := kvPir_good prof prg shard
  have hinv : (kvPir prof prg shard).Inv _ _ w := Pir.inv_run hG evs
  obtain ⟨tape, qp, t, a1, a2, a3⟩ := hinv.query c k₁ q₁ h₁
  obtain ⟨tape', qp', t', b1, b2, b3⟩ := hinv.query c' k₂ q₂ h₂
  rw [ht, b1] at a1
  cases a1
  rw [b2] at a2
  cases a2
  have hu : qp.used = false := hG.gen_fresh _ _ _ b2
  have hbits : qp.plaintextBits = shard.baseParams.plaintextBits ∧
      qp.extraParams = some shard.baseParams.filterParams := by
    have h : generateKvQueryParams _ shard.baseParams tape = .ok (qp, t) := b2
    unfold generateKvQueryParams at h
    obtain ⟨⟨s, t1⟩, _, h⟩ := Res.bind_eq_ok.1 h
    obtain ⟨⟨l, t2⟩, _, h⟩ := Res.bind_eq_ok.1 h
    obtain ⟨r, _, h⟩ := Res.bind_eq_ok.1 h
    cases h
    exact ⟨rfl, rfl⟩
  have e₁ : (qp.generateKvQuery prof k₁).2 = .ok q₁ := by
    have : qp.generateKvQuery prof k₁ = _ := a3
    rw [this]
  have e₂ : (qp.generateKvQuery prof k₂).2 = .ok q₂ := by
    have : qp.generateKvQuery prof k₂ = _ := b3
    rw [this]
  have hlen : ∀ (key : Key) (s : List Nat) (q : List U32),
      shard.baseParams.filterParams.getHashEvals prof key = .ok s → (qp.generateKvQuery prof key).2 = .ok q →
      q.length = qp.lhs.length := by
    intro key s q hs hq
    rw [kvQuery_fresh hu, kvQueryBody_eq (by omega) hbits.2 hs] at hq
    obtain ⟨p, e, hl, _⟩ := addAt_spec _ s qp.lhs (addAt_eq_ok hq)
    dsimp only at hq
    rw [e] at hq
    cases hq
    exact hl
  have m := C09_mask_reuse_kv prof qp _ k₁ k₂ s₁ s₂ (by omega) hu hbits.2 hs₁ hs₂ q₁ q₂ e₁ e₂
  rw [hbits.1] at m
  rw [hlen _ _ _ hs₁ e₁, hlen _ _ _ hs₂ e₂]
  exact ⟨rfl, m⟩

/-- Concrete case: an object, its copy, and a query of each (rows 1 and 2 of three): the queries differ in
positions 1 and 2 only. -/
example :
    let strs := ["AAE=".toList, "/38=".toList, "EjQ=".toList]
    let prg : Prg := fun _ k => BitVec.ofNat 32 (1000003 * k + 17)
    let tape := (List.range 10).map fun k => BitVec.ofNat 32 (2000000000 + k * 300000000)
    (Shard.fromBase64Strings .debug prg [] strs 2 3 16 5 >>= fun shard =>
      let w := (indexPir .debug prg shard).run [.join tape, .copy 0, .ask 0 1, .ask 1 2]
      .ok (decide (w.tapes[0]? = w.tapes[1]?), w.queries.map fun x => (x.1, x.2.1),
        (List.range 3).map fun k => ((w.queries.getD 0 default).2.2.getD k 0#32 -
          (w.queries.getD 1 default).2.2.getD k 0#32))) =
    Res.ok (true, [(0, 1), (1, 2)], [0#32, 0x08000000#32, 0xf8000000#32]) := by
  decide +kernel

/-- **C69 (documents).** A keyword client object saved with serde and restored from the document without its
`extra_params` field, or with that field set to null, is restored without an error and is the same object
without filter parameters. -/
theorem C69_document (q : QueryParams FilterParams) (h3 : q.elemSize < 2 ^ 64) (h4 : q.plaintextBits < 2 ^ 64) :
    QueryParams.fromJson FilterParams.fromJson (.obj [("lhs", jU32s q.lhs), ("rhs", jU32s q.rhs),
      ("elem_size", jNat q.elemSize), ("plaintext_bits", jNat q.plaintextBits), ("db", .null),
      ("used", .bool q.used)]) = .ok { q with extraParams := none } ∧
    QueryParams.fromJson FilterParams.fromJson (.obj [("lhs", jU32s q.lhs), ("rhs", jU32s q.rhs),
      ("elem_size", jNat q.elemSize), ("plaintext_bits", jNat q.plaintextBits), ("db", .null),
      ("extra_params", .null), ("used", .bool q.used)]) = .ok { q with extraParams := none } := by
  have hb : decBool (.bool q.used) = .ok q.used := rfl
  have hnl : decNull .null = .ok () := rfl
  constructor
  · have hs : structFields ["lhs", "rhs", "elem_size", "plaintext_bits", "db", "extra_params", "used"]
        (.obj [("lhs", jU32s q.lhs), ("rhs", jU32s q.rhs), ("elem_size", jNat q.elemSize),
          ("plaintext_bits", jNat q.plaintextBits), ("db", .null), ("used", .bool q.used)]) =
        .ok [some (jU32s q.lhs), some (jU32s q.rhs), some (jNat q.elemSize), some (jNat q.plaintextBits),
          some .null, none, some (.bool q.used)] := by
      simp [structFields]
    unfold QueryParams.fromJson
    rw [hs, Res.bind_ok, QueryParams.ofFields, req_some, decList_jU32s, Res.bind_ok, req_some,
      decList_jU32s, Res.bind_ok, req_some, decUsize_jNat h3, Res.bind_ok, req_some, decUsize_jNat h4,
      Res.bind_ok, req_some, hnl, Res.bind_ok, opt, Res.bind_ok, req_some, hb, Res.bind_ok]
  · have := queryParams_json (enc := FilterParams.toJson) (dec := FilterParams.fromJson)
      { q with extraParams := none } (by intro a h; cases h) (by intro a h; exact Json.noConfusion h) h3 h4
    exact this

/-- **C69.** A keyword client object without filter parameters never panics on a query and never sends one: a fresh
object is spent and reports the missing parameters, and parsing any response, of any length, as any key
reports the same error as a row, as bytes and as base64. -/
theorem C69_no_filter_params (prof : Profile) (qp : QueryParams FilterParams) (key : Key) (resp : List U32)
    (hb1 : 1 ≤ qp.plaintextBits) (hb : qp.plaintextBits ≤ 31) (hx : qp.extraParams = none) :
    qp.generateKvQuery prof key =
      ({ qp with used := true }, .err (if qp.used then .queryParamsReused else .noFilterParams)) ∧
    qp.parseKvRow prof resp key = .err .noFilterParams ∧
    qp.parseKvBytes prof resp key = .err .noFilterParams ∧
    qp.parseKvBase64 prof resp key = .err .noFilterParams := by
  have hrow : qp.parseKvRow prof resp key = .err .noFilterParams := by
    unfold QueryParams.parseKvRow
    rw [getRoundingFactor_ok hb, Res.bind_ok, getRoundingFloor_ok hb1 hb, Res.bind_ok, getPlaintextSize_ok hb,
      Res.bind_ok, hx]
  refine ⟨?_, hrow, ?_, ?_⟩
  · unfold QueryParams.generateKvQuery
    cases hu : qp.used with
    | true =>
      cases qp
      simp_all
    | false =>
      unfold kvQueryBody
      rw [getRoundingFactor_ok hb, Res.bind_ok, hx]
      rfl
  · unfold QueryParams.parseKvBytes
    rw [hrow]
    rfl
  · unfold QueryParams.parseKvBase64
    rw [hrow]
    rfl

end Chalamet
