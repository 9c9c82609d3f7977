import Verif.Props.KvRevealMax
import Verif.Props.Server

/-!
# C122: what the published parameters and a whole session reveal

C93 bounds one response. Here a client may use the published parameters (`IndexParams`, `KVParams`) and any number of responses,
choosing every query after seeing the parameters and all the earlier responses. The parameters are themselves `n` inner products of
every column with the public matrix, so they count like `n` responses; with few records they may give everything away.
-/

namespace Chalamet
open Spec

/-- The responses of a server to the first `k` queries of a client who chooses each query from the responses seen so far. -/
def Spec.transcript {Q R : Type} (respond : Q → R) (strategy : List R → Q) : Nat → List R
  | 0 => []
  | k + 1 => transcript respond strategy k ++ [respond (strategy (transcript respond strategy k))]

theorem transcript_length {Q R : Type} (respond : Q → R) (strategy : List R → Q) (k : Nat) :
    (transcript respond strategy k).length = k := by
  induction k with
  | zero => rfl
  | succ k ih => simp [transcript, ih]

/-- Servers that are told apart by no word among `n` in the parameters and by no word in each of `K` responses: two of more than
`32 * (n + K)` bits look the same. -/
theorem session_collision {P R : Type} {k b n K : Nat} (params : (Fin k → Fin (2 ^ b)) → P)
    (respond : (Fin k → Fin (2 ^ b)) → List U32 → R) (pw : (Fin k → Fin (2 ^ b)) → Fin n → U32)
    (rw_ : (Fin k → Fin (2 ^ b)) → List U32 → U32) (hp : ∀ x y, pw x = pw y → params x = params y)
    (hr : ∀ x y q, rw_ x q = rw_ y q → respond x q = respond y q) (hk : 32 * (n + K) < b * k)
    (strategy : P → List R → List U32) :
    ∃ x y, x ≠ y ∧ params x = params y ∧
      transcript (respond x) (strategy (params x)) K = transcript (respond y) (strategy (params y)) K := by
  obtain ⟨x, y, hxy, heq⟩ := Fintype.exists_ne_map_eq_of_card_lt
    (fun x : Fin k → Fin (2 ^ b) => ((fun i : Fin n => (pw x i).toFin), fun t : Fin K =>
      (rw_ x (strategy (params x) (transcript (respond x) (strategy (params x)) t))).toFin)) (by
      simp only [Fintype.card_prod, Fintype.card_fun, Fintype.card_fin]
      rw [← Nat.pow_mul, ← Nat.pow_mul, ← Nat.pow_mul, ← Nat.pow_add]
      exact Nat.pow_lt_pow_right (by omega) (by omega))
  have h1 := congrArg Prod.fst heq
  have h2 := congrArg Prod.snd heq
  simp only at h1 h2
  have hpe : params x = params y := hp x y (funext fun i => BitVec.toFin_inj.1 (congrFun h1 i))
  refine ⟨x, y, hxy, hpe, ?_⟩
  have key : ∀ t, t ≤ K → transcript (respond x) (strategy (params x)) t = transcript (respond y) (strategy (params y)) t := by
    intro t
    induction t with
    | zero => intro _; rfl
    | succ t ih =>
      intro ht
      have := BitVec.toFin_inj.1 (congrFun h2 ⟨t, ht⟩)
      simp only at this
      rw [transcript, transcript]
      rw [← ih (by omega), ← hpe] at this ⊢
      rw [hr x y _ this]
  exact key K (le_refl _)

/-- **C122 (a session reads no more).** Take any strategy for a client who sees the published parameters and then sends `K` queries,
each chosen after all earlier responses, and any records `is` with `b * k > 32 * (n + K)`. There are two databases that agree in all
other records and differ in the digits of one of these, whose servers publish the same parameters and give the same responses. -/
theorem C122_session_index (prof : Profile) (prg : Prg) (seed : List U8) (n m T b K : Nat) (hb1 : 1 ≤ b) (hb : b ≤ 31)
    (hbT : b ≤ T) (hm0 : 0 < m) (strategy : IndexParams → List (Res (List U8)) → List U32) (is : List Nat) (hnd : is.Nodup)
    (hi : ∀ i ∈ is, i < m) (hk : 32 * (n + K) < b * is.length) :
    ∃ (e₁ e₂ : List (List U8)) (s₁ s₂ : Shard), e₁.length = m ∧ e₂.length = m ∧
      (∀ e ∈ e₁ ++ e₂, e.length = (T + 7) / 8) ∧ (∀ i, i ∉ is → e₁[i]? = e₂[i]?) ∧
      (∃ i ∈ is, rowOf b (width T b) (e₁.getD i []) ≠ rowOf b (width T b) (e₂.getD i [])) ∧
      Shard.fromBase64Strings prof prg seed (e₁.map b64Encode) n m T b = .ok s₁ ∧
      Shard.fromBase64Strings prof prg seed (e₂.map b64Encode) n m T b = .ok s₂ ∧
      s₁.baseParams = s₂.baseParams ∧
      transcript s₁.respond (strategy s₁.baseParams) K = transcript s₂.respond (strategy s₂.baseParams) K := by
  let k := is.length
  let el : (Fin k → Fin (2 ^ b)) → List (List U8) := fun x => (List.range m).map fun i =>
    bytesOf ((T + 7) / 8) (if h : is.idxOf i < k then (x ⟨is.idxOf i, h⟩).val else 0)
  have hval : ∀ (x : Fin k → Fin (2 ^ b)) (i : Nat), (if h : is.idxOf i < k then (x ⟨is.idxOf i, h⟩).val else 0) < 2 ^ b := by
    intro x i
    split
    · exact Fin.isLt _
    · exact Nat.two_pow_pos b
  have h8 : 2 ^ b ≤ 2 ^ (8 * ((T + 7) / 8)) := Nat.pow_le_pow_right (by omega) (by omega)
  have hlen : ∀ x, (el x).length = m := fun x => by simp [el]
  have hbytes : ∀ x, ∀ e ∈ el x, e.length = (T + 7) / 8 := by
    intro x e he
    obtain ⟨i, _, rfl⟩ := List.mem_map.1 he
    exact bytesOf_length _ _
  have hsh : ∀ x, Shard.fromBase64Strings prof prg seed ((el x).map b64Encode) n m T b =
      .ok (shardOf prg seed (el x) n m T b) := fun x =>
    shard_ok (by simp [b64Decode_encode]) hb1 (by omega) hm0 (le_of_eq (hlen x).symm) (by
      intro e he
      rw [hbytes x e (List.mem_of_mem_take he)]
      exact le_trans (width_mul_le (T := T) (by omega)) (by omega))
  have hcol : ∀ x j, 0 < j → column b j (el x) = List.replicate m 0#32 := by
    intro x j hj
    apply List.ext_getElem (by simp [column, hlen])
    intro i h1 h2
    simp only [column, el, List.getElem_map, List.getElem_range, List.getElem_replicate]
    rw [leNat_bytesOf _ _ (lt_of_lt_of_le (hval x i) h8)]
    unfold digit
    rw [Nat.div_eq_of_lt (lt_of_lt_of_le (hval x i) (Nat.pow_le_pow_right (by omega) (Nat.le_mul_of_pos_right b hj)))]
    simp
  have htake : ∀ x, (el x).take m = el x := fun x => List.take_of_length_le (le_of_eq (hlen x))
  have hresp : ∀ x q, (q.length = m → (shardOf prg seed (el x) n m T b).respond q =
          .ok (bincodeSerialize ((List.range (width T b)).map fun j => dot q (column b j (el x))))) ∧
        (q.length ≠ m → (shardOf prg seed (el x) n m T b).respond q = .panic) := by
    intro x q
    obtain ⟨f, g1, g2, hr⟩ := C20_respond prof prg seed _ n m T b _ (by omega) (by omega) (hsh x)
    have hf : f = el x := by
      rw [List.take_of_length_le (by simp [hlen]), List.map_map] at g2
      have : (b64Decode ∘ b64Encode) = Res.ok := by funext e; exact b64Decode_encode e
      rw [this] at g2
      exact (List.map_injective_iff.2 (fun a b h => Res.ok.inj h) g2).symm
    rw [hf] at hr
    exact hr q
  obtain ⟨x, y, hxy, hpe, hse⟩ := session_collision (k := k) (b := b) (n := n) (K := K)
    (fun x => (shardOf prg seed (el x) n m T b).baseParams) (fun x q => (shardOf prg seed (el x) n m T b).respond q)
    (fun x t => dot ((generateLweMatrixFromSeed prg seed n m).map fun r => r.getD t.val 0#32) (column b 0 (el x)))
    (fun x q => dot q (column b 0 (el x)))
    (by
      intro x y h
      simp only [shardOf, rhsOf, htake]
      congr 1
      apply List.map_congr_left
      intro j _
      rcases Nat.eq_zero_or_pos j with rfl | hj
      · apply List.map_congr_left
        intro t ht
        exact congrFun h ⟨t, List.mem_range.1 ht⟩
      · rw [hcol x j hj, hcol y j hj])
    (by
      intro x y q h
      by_cases hq : q.length = m
      · rw [(hresp x q).1 hq, (hresp y q).1 hq]
        congr 2
        apply List.map_congr_left
        intro j _
        rcases Nat.eq_zero_or_pos j with rfl | hj
        · exact h
        · rw [hcol x j hj, hcol y j hj]
      · rw [(hresp x q).2 hq, (hresp y q).2 hq])
    hk strategy
  refine ⟨el x, el y, _, _, hlen x, hlen y, ?_, ?_, ?_, hsh x, hsh y, hpe, hse⟩
  · intro e he
    rcases List.mem_append.1 he with he | he
    · exact hbytes x e he
    · exact hbytes y e he
  · intro i hi
    have : ¬ is.idxOf i < k := by
      rw [List.idxOf_lt_length_iff]; exact hi
    by_cases him : i < m
    · simp [el, him, this]
    · simp [el, him]
  · obtain ⟨t, ht⟩ := Function.ne_iff.1 hxy
    have hit := hi is[t.val] (List.getElem_mem _)
    refine ⟨is[t.val], List.getElem_mem _, ?_⟩
    have hidx : is.idxOf is[t.val] = t.val := hnd.idxOf_getElem _ _
    have hd : ∀ z : Fin k → Fin (2 ^ b), (rowOf b (width T b) ((el z).getD is[t.val] [])).getD 0 0#32 =
        BitVec.ofNat 32 (z t).val := by
      intro z
      have hw : 0 < width T b := by unfold width; exact Nat.div_pos (by omega) (by omega)
      rw [getD_lt (by rw [rowOf_length]; exact hw), getD_lt (by rw [hlen]; exact hit)]
      simp only [rowOf, el, List.getElem_map, List.getElem_range]
      rw [leNat_bytesOf _ _ (lt_of_lt_of_le (hval z _) h8)]
      unfold digit
      simp only [Nat.mul_zero, Nat.pow_zero, Nat.div_one, hidx, k, t.isLt, dite_true, Fin.eta]
      rw [Nat.mod_eq_of_lt (Fin.isLt _)]
    intro hcon
    have h1 := hd x
    rw [hcon, hd y] at h1
    apply ht
    have hp : 2 ^ b ≤ 2 ^ 31 := Nat.pow_le_pow_right (by omega) hb
    have h2 := congrArg BitVec.toNat h1
    rw [BitVec.toNat_ofNat, BitVec.toNat_ofNat, Nat.mod_eq_of_lt (by have := (y t).isLt; omega),
      Nat.mod_eq_of_lt (by have := (x t).isLt; omega)] at h2
    exact Fin.ext h2.symm

theorem mapRes_congr' {α β : Type} {f g : α → Res β} {l : List α} (h : ∀ a ∈ l, f a = g a) : mapRes f l = mapRes g l := by
  induction l with
  | nil => rfl
  | cons a l ih =>
    rw [mapRes_cons, mapRes_cons, h a (by simp), ih fun c hc => h c (by simp [hc])]

/-- **C122 (keywords).** The same for key-value databases: the keys, and so the filter, are known to the client; nothing else is
needed for two lists of pairs, with different first digits for one of the keys at the positions `is`, to publish the same parameters
and to answer all of a session of `K` adaptively chosen queries in the same way. -/
theorem C122_session_kv (prof : Profile) (prg : Prg) (pseed : List U8) (segExp cap0 : Nat) (fp0 : Nat → Nat → U32)
    (seed : List U8) (kvs : List KeyValue) (n m T b K : Nat) (hb1 : 1 ≤ b) (hb : b ≤ 31) (shard : KVShard)
    (hsh : KVShard.new prof prg pseed segExp cap0 fp0 seed kvs n m T b = .ok shard)
    (hval : ∀ kv ∈ kvs, kv.value.length = width T b) (strategy : KVParams → List (Res (List U8)) → List U32) (is : List Nat)
    (hnd : is.Nodup) (hi : ∀ i ∈ is, i < kvs.length) (hk : 32 * (n + K) < b * is.length) :
    ∃ (kvs₁ kvs₂ : List KeyValue) (s₁ s₂ : KVShard),
      kvs₁.map (·.key) = kvs.map (·.key) ∧ kvs₂.map (·.key) = kvs.map (·.key) ∧
      (∀ i, i ∉ is → kvs₁[i]? = kvs[i]? ∧ kvs₂[i]? = kvs[i]?) ∧
      (∃ i ∈ is, ∃ (h₁ : i < kvs₁.length) (h₂ : i < kvs₂.length) (d₁ d₂ : U32), kvs₁[i].value[0]? = some d₁ ∧
        kvs₂[i].value[0]? = some d₂ ∧ d₁.toNat < 2 ^ b ∧ d₂.toNat < 2 ^ b ∧ d₁ ≠ d₂) ∧
      (∀ i j, 0 < j → ∀ (h₁ : i < kvs₁.length) (h₂ : i < kvs₂.length), kvs₁[i].value[j]? = kvs₂[i].value[j]?) ∧
      KVShard.new prof prg pseed segExp cap0 fp0 seed kvs₁ n m T b = .ok s₁ ∧
      KVShard.new prof prg pseed segExp cap0 fp0 seed kvs₂ n m T b = .ok s₂ ∧
      s₁.baseParams = s₂.baseParams ∧
      transcript s₁.respond (strategy s₁.baseParams) K = transcript s₂.respond (strategy s₂.baseParams) K := by
  have hex := fun x : Fin is.length → Fin (2 ^ b) => C62_values_play_no_part prof prg pseed segExp cap0 fp0 fp0 seed kvs
    (withFirst kvs is x) n m T b hb1 hb shard hsh hval (withFirst_value kvs is x hval) (withFirst_keys kvs is x)
  choose sh hshx hfpx hmx _ using hex
  have hw0 : 0 < width T b := by
    obtain ⟨hdb, -⟩ := kvShard_db hsh
    obtain ⟨-, -, w, h0, hwv, hw0, -⟩ := kvNew_ok hdb
    rw [hwv, hval _ (List.getElem_mem _)] at hw0
    exact hw0
  have hT0 : 0 < T := by
    rcases Nat.eq_zero_or_pos T with rfl | h
    · exact absurd hw0 (by unfold width; rw [Nat.zero_add, Nat.div_eq_of_lt (by omega)]; omega)
    · exact h
  have hlt : (2 : Nat) ^ b ≤ 2 ^ 31 := Nat.pow_le_pow_right (by omega) hb
  have hrest : ∀ (x y : Fin is.length → Fin (2 ^ b)) (i j : Nat), 0 < j → ∀ (h₁ : i < (withFirst kvs is x).length)
      (h₂ : i < (withFirst kvs is y).length), (withFirst kvs is x)[i].value[j]? = (withFirst kvs is y)[i].value[j]? := by
    intro x y i j hj h₁ h₂
    have h0 : i < kvs.length := by simpa [withFirst] using h₁
    rw [withFirst_getElem kvs is x i h₁ h0, withFirst_getElem kvs is y i h₂ h0]
    split
    · simp only
      rw [List.getElem?_set_ne (by omega), List.getElem?_set_ne (by omega)]
    · rfl
  have hcols : ∀ x, (sh x).db.entries.length = width T b ∧ (∀ col ∈ (sh x).db.entries, col.length = shard.baseParams.m) := by
    intro x
    obtain ⟨c1, ⟨_, l1⟩, r1⟩ := C70_kv_respond prof prg pseed segExp cap0 fp0 seed _ n m T b _ hb1 (hshx x)
    rw [withFirst_value kvs is x hval _ (List.getElem_mem _)] at l1
    exact ⟨l1, by rw [← hmx x]; exact c1⟩
  have hcol : ∀ x y j, 0 < j → ∀ (h₁ : j < (sh x).db.entries.length) (h₂ : j < (sh y).db.entries.length),
      (sh x).db.entries[j] = (sh y).db.entries[j] := fun x y j hj h₁ h₂ =>
    kvColumn_congr (kvShard_db (hshx x)).1 (kvShard_db (hshx y)).1
          (by rw [withFirst_keys, withFirst_keys]) j h₁ h₂ (fun i g₁ g₂ => hrest x y i j hj g₁ g₂)
  have hA := generateLwe_rect prg pseed n shard.baseParams.m
  have hm0 : 0 < shard.baseParams.m := by
    obtain ⟨lay, -, em, -, -, -, -, -, -, -, -, -, -, lhs, hl, -⟩ := kvShard_shape hsh
    rw [em]
    rcases Nat.eq_zero_or_pos lay.arrayLen with h | h
    · rw [h] at hl
      rw [List.length_eq_zero_iff.1 (generateLwe_rect prg pseed n 0).1] at hl
      rw [swapMatrixFmt_nil] at hl
      cases hl
    · exact h
  obtain ⟨x, y, hxy, hpe, hse⟩ := session_collision (k := is.length) (b := b) (n := n) (K := K)
    (fun x => (sh x).baseParams) (fun x q => (sh x).respond q)
    (fun x t => dot ((generateLweMatrixFromSeed prg pseed n shard.baseParams.m).map fun r => r.getD t.val 0#32)
      ((sh x).db.entries.getD 0 []))
    (fun x q => dot q ((sh x).db.entries.getD 0 []))
    (by
      intro x y h
      obtain ⟨lx, -, mx, p1, p2, -, -, -, -, -, p3, p4, p5, lhs, hl, hr⟩ := kvShard_shape (hshx x)
      obtain ⟨ly, -, my, q1, q2, -, -, -, -, -, q3, q4, q5, lhs', hl', hr'⟩ := kvShard_shape (hshx y)
      have ex : lx.arrayLen = shard.baseParams.m := by rw [← mx, hmx]
      have ey : ly.arrayLen = shard.baseParams.m := by rw [← my, hmx]
      rw [ex, swapMatrixFmt_rect hA hm0] at hl
      rw [ey, swapMatrixFmt_rect hA hm0] at hl'
      cases hl
      cases hl'
      have hrhs : (sh x).baseParams.rhs = (sh y).baseParams.rhs := by
        rw [getRowWidth_ok (by omega), Res.bind_ok] at hr hr'
        have : ∀ z : Res (List (List U32)), z = .ok (sh x).baseParams.rhs → z = .ok (sh y).baseParams.rhs →
            (sh x).baseParams.rhs = (sh y).baseParams.rhs := by
          intro z h1 h2
          rw [h1] at h2
          exact Res.ok.inj h2
        refine this _ hr ?_
        rw [← hr']
        apply mapRes_congr'
        intro j hj
        have hj := List.mem_range.1 hj
        have hjx : j < (sh x).db.entries.length := by rw [(hcols x).1]; exact hj
        have hjy : j < (sh y).db.entries.length := by rw [(hcols y).1]; exact hj
        apply mapRes_congr'
        intro r hr
        obtain ⟨t, ht, rfl⟩ := List.mem_map.1 hr
        unfold KVDatabase.vecMult
        rw [rd_ok hjx, rd_ok hjy, Res.bind_ok, Res.bind_ok,
          vecMult_ok (by rw [(hcols x).2 _ (List.getElem_mem _)]; simp [hA.1]),
          vecMult_ok (by rw [(hcols y).2 _ (List.getElem_mem _)]; simp [hA.1])]
        rcases Nat.eq_zero_or_pos j with rfl | hj0
        · have := congrFun h ⟨t, List.mem_range.1 ht⟩
          simp only [getD_lt hjx, getD_lt hjy] at this
          rw [this]
        · rw [hcol x y j hj0 hjx hjy]
      have hfp : (sh x).baseParams.filterParams = (sh y).baseParams.filterParams := by rw [hfpx, hfpx]
      have hmm : (sh x).baseParams.m = (sh y).baseParams.m := by rw [hmx, hmx]
      revert hrhs hfp hmm p1 p2 p4 p5 q1 q2 q4 q5
      generalize (sh x).baseParams = u
      generalize (sh y).baseParams = v
      intro p1 p2 p4 p5 q1 q2 q4 q5 h1 h2 h3
      cases u
      cases v
      simp_all)
    (by
      intro x y q h
      obtain ⟨c1, ⟨_, l1⟩, r1⟩ := C70_kv_respond prof prg pseed segExp cap0 fp0 seed _ n m T b _ hb1 (hshx x)
      obtain ⟨c2, ⟨_, l2⟩, r2⟩ := C70_kv_respond prof prg pseed segExp cap0 fp0 seed _ n m T b _ hb1 (hshx y)
      have l1 := (hcols x).1
      have l2 := (hcols y).1
      by_cases hql : q.length = shard.baseParams.m
      · rw [(r1 q).1 ⟨by rw [hmx]; exact hql, by omega⟩, (r2 q).1 ⟨by rw [hmx]; exact hql, by omega⟩]
        congr 2
        apply List.ext_getElem (by simp [l1, l2])
        intro j h1 h2
        have hj1 : j < (sh x).db.entries.length := by simp at h1; omega
        have hj2 : j < (sh y).db.entries.length := by omega
        rw [List.getElem_map, List.getElem_map, List.getElem_take, List.getElem_take]
        rcases Nat.eq_zero_or_pos j with rfl | hj
        · simpa only [getD_lt hj1, getD_lt hj2] using h
        · rw [hcol x y j hj hj1 hj2]
      · rw [(r1 q).2 hT0 (Or.inl (by rw [hmx]; exact hql)), (r2 q).2 hT0 (Or.inl (by rw [hmx]; exact hql))])
    hk strategy
  refine ⟨withFirst kvs is x, withFirst kvs is y, sh x, sh y, withFirst_keys _ _ _, withFirst_keys _ _ _, ?_, ?_, hrest x y,
    hshx x, hshx y, hpe, hse⟩
  · intro i hni
    have hno : ∀ z : Fin is.length → Fin (2 ^ b), (withFirst kvs is z)[i]? = kvs[i]? := by
      intro z
      by_cases hil : i < kvs.length
      · rw [List.getElem?_eq_getElem (by rw [withFirst_length]; exact hil), List.getElem?_eq_getElem hil,
          withFirst_getElem kvs is z i _ hil, dif_neg (by rw [List.idxOf_lt_length_iff]; exact hni)]
      · rw [List.getElem?_eq_none (by rw [withFirst_length]; omega), List.getElem?_eq_none (by omega)]
    exact ⟨hno x, hno y⟩
  · obtain ⟨t, ht⟩ := Function.ne_iff.1 hxy
    have hit := hi is[t.val] (List.getElem_mem _)
    have hidx : is.idxOf is[t.val] = t.val := hnd.idxOf_getElem _ _
    have hd : ∀ (z : Fin is.length → Fin (2 ^ b)) (h : is[t.val] < (withFirst kvs is z).length),
        (withFirst kvs is z)[is[t.val]].value[0]? = some (BitVec.ofNat 32 (z t).val) := by
      intro z h
      rw [withFirst_getElem kvs is z _ h hit, dif_pos (by rw [hidx]; exact t.isLt)]
      simp only [hidx]
      rw [List.getElem?_set_self (by rw [hval _ (List.getElem_mem _)]; exact hw0)]
    have hv : ∀ z : Fin is.length → Fin (2 ^ b), (BitVec.ofNat 32 (z t).val).toNat = (z t).val := by
      intro z
      rw [BitVec.toNat_ofNat]
      exact Nat.mod_eq_of_lt (by have := (z t).isLt; omega)
    refine ⟨is[t.val], List.getElem_mem _, by rw [withFirst_length]; exact hit, by rw [withFirst_length]; exact hit, _, _,
      hd x _, hd y _, by rw [hv]; exact (x t).isLt, by rw [hv]; exact (y t).isLt, ?_⟩
    intro hcon
    have := congrArg BitVec.toNat hcon
    rw [hv, hv] at this
    exact ht (Fin.ext this)

/-- **C122 (the parameters answer queries).** Anybody holding the published parameters computes, without the server, the response to
every query that is a weighted sum of the columns of the public matrix. -/
theorem C122_parameters_answer_index (prof : Profile) (prg : Prg) (seed : List U8) (strs : List (List Char)) (n m T b : Nat)
    (shard : Shard) (hb : b ≤ 32) (hT : 0 < T) (h : Shard.fromBase64Strings prof prg seed strs n m T b = .ok shard)
    (w : List U32) (hw : w.length = n) :
    shard.respond ((commonParamsFrom prg shard.baseParams.publicSeed shard.baseParams.dim shard.baseParams.m).map fun row => dot w row) =
      .ok (bincodeSerialize (shard.baseParams.rhs.map fun col => dot w col)) := by
  obtain ⟨elems', -, hdec', hr⟩ := C20_respond prof prg seed strs n m T b shard hb hT h
  obtain ⟨hb1, hm0, elems, hl, hlm, hdec, _, rfl⟩ := shardInv hb h
  have hee : elems' = elems := by
    rw [hdec] at hdec'
    exact (List.map_injective_iff.2 (fun a b h => Res.ok.inj h) hdec').symm
  rw [hee] at hr
  have hA := generateLwe_rect prg seed n m
  have htake : elems.take m = elems := List.take_of_length_le (by omega)
  rw [(hr _).1 (by simp [shardOf, commonParamsFrom, hA.1])]
  congr 2
  simp only [shardOf, rhsOf, htake, List.map_map]
  apply List.map_congr_left
  intro j _
  exact (dot_transpose w _ _ n hw hA.2 (by simp [column, hl, hA.1])).symm

/-- Weighted sums of a row of the right-hand side of a key-value server are weighted sums of the stored column. -/
theorem kvRhs_dot (prof : Profile) (prg : Prg) (pseed : List U8) (segExp cap0 : Nat) (fp0 : Nat → Nat → U32)
    (seed : List U8) (kvs : List KeyValue) (n m T b : Nat) (hb1 : 1 ≤ b) (shard : KVShard)
    (hsh : KVShard.new prof prg pseed segExp cap0 fp0 seed kvs n m T b = .ok shard)
    (hwid : ∀ kv ∈ kvs, width T b ≤ kv.value.length) (w : List U32) (hw : w.length = n) :
    shard.baseParams.publicSeed = pseed ∧ shard.baseParams.dim = n ∧
    shard.baseParams.rhs.length = width T b ∧ width T b ≤ shard.db.entries.length ∧
    (∀ c ∈ shard.db.entries, c.length = shard.baseParams.m) ∧
    ∀ j (h1 : j < shard.baseParams.rhs.length) (h2 : j < shard.db.entries.length), dot w shard.baseParams.rhs[j] =
      dot ((commonParamsFrom prg shard.baseParams.publicSeed shard.baseParams.dim shard.baseParams.m).map fun row => dot w row)
        shard.db.entries[j] := by
  obtain ⟨c1, ⟨_, l1⟩, r1⟩ := C70_kv_respond prof prg pseed segExp cap0 fp0 seed _ n m T b _ hb1 hsh
  have hle : width T b ≤ shard.db.entries.length := by rw [l1]; exact hwid _ (List.getElem_mem _)
  obtain ⟨lay, -, mx, p1, p2, -, -, -, -, -, -, -, -, lhs, hl, hr⟩ := kvShard_shape hsh
  rw [← mx] at hl
  have hA := generateLwe_rect prg pseed n shard.baseParams.m
  have hm0 : 0 < shard.baseParams.m := by
    rcases Nat.eq_zero_or_pos shard.baseParams.m with h | h
    · rw [h, List.length_eq_zero_iff.1 (generateLwe_rect prg pseed n 0).1, swapMatrixFmt_nil] at hl
      cases hl
    · exact h
  rw [swapMatrixFmt_rect hA hm0] at hl
  cases hl
  rw [getRowWidth_ok (by omega), Res.bind_ok] at hr
  have hrl : shard.baseParams.rhs.length = width T b := by rw [mapRes_length hr, List.length_range]; rfl
  refine ⟨p1, p2, hrl, hle, c1, ?_⟩
  rw [p1, p2]
  intro j hj2 hje
  have hj : j < width T b := by omega
  have e := mapRes_getElem hr (i := j) (by rw [List.length_range]; exact hj) hj2
  have e' : Res.ok shard.baseParams.rhs[j] = Res.ok ((List.range n).map fun t =>
      dot ((generateLweMatrixFromSeed prg pseed n shard.baseParams.m).map fun r => r.getD t 0#32) shard.db.entries[j]) := by
    rw [← e]
    simp only [List.getElem_range]
    rw [show (List.range n).map (fun t => dot ((generateLweMatrixFromSeed prg pseed n shard.baseParams.m).map fun r => r.getD t 0#32)
        shard.db.entries[j]) = ((List.range n).map fun t => (generateLweMatrixFromSeed prg pseed n shard.baseParams.m).map
        fun r => r.getD t 0#32).map fun r => dot r shard.db.entries[j] by simp]
    apply mapRes_ok_of_forall
    intro r hr
    obtain ⟨t, ht, rfl⟩ := List.mem_map.1 hr
    unfold KVDatabase.vecMult
    rw [rd_ok hje, Res.bind_ok, vecMult_ok (by rw [c1 _ (List.getElem_mem _)]; simp [hA.1])]
    rfl
  rw [Res.ok.inj e']
  exact dot_transpose w _ _ n hw hA.2 (by rw [c1 _ (List.getElem_mem _), hA.1])

/-- The same for key-value servers. -/
theorem C122_parameters_answer_kv (prof : Profile) (prg : Prg) (pseed : List U8) (segExp cap0 : Nat) (fp0 : Nat → Nat → U32)
    (seed : List U8) (kvs : List KeyValue) (n m T b : Nat) (hb1 : 1 ≤ b) (shard : KVShard)
    (hsh : KVShard.new prof prg pseed segExp cap0 fp0 seed kvs n m T b = .ok shard)
    (hwid : ∀ kv ∈ kvs, width T b ≤ kv.value.length) (w : List U32) (hw : w.length = n) :
    shard.respond ((commonParamsFrom prg shard.baseParams.publicSeed shard.baseParams.dim shard.baseParams.m).map fun row => dot w row) =
      .ok (bincodeSerialize (shard.baseParams.rhs.map fun col => dot w col)) := by
  obtain ⟨-, -, r1⟩ := C70_kv_respond prof prg pseed segExp cap0 fp0 seed _ n m T b _ hb1 hsh
  obtain ⟨p1, p2, hrl, hle, c1, hd⟩ := kvRhs_dot prof prg pseed segExp cap0 fp0 seed kvs n m T b hb1 shard hsh hwid w hw
  rw [(r1 _).1 ⟨by simp [commonParamsFrom, p1, p2, (generateLwe_rect prg pseed n shard.baseParams.m).1], hle⟩]
  congr 2
  apply List.ext_getElem (by simp [hrl, hle])
  intro j h1 h2
  have hj : j < width T b := by simp at h2; omega
  rw [List.getElem_map, List.getElem_map, List.getElem_take, hd j (by omega) (by omega)]

/-- **C122 (parameters may give a record away).** Record `i` can be read from the published parameters alone, with no query, by
anyone who finds weights `w` for the columns of the public matrix under which row `i` weighs 1 and every other row 0: digit `j` of
the record is the weighted sum of row `j` of the right-hand side. -/
theorem C122_parameters_give_away (prof : Profile) (prg : Prg) (seed : List U8) (strs : List (List Char)) (n m T b i : Nat)
    (shard : Shard) (hb : b ≤ 32) (h : Shard.fromBase64Strings prof prg seed strs n m T b = .ok shard) (hi : i < m)
    (w : List U32) (hw : w.length = n)
    (hone : ∀ r (hr : r < (commonParamsFrom prg shard.baseParams.publicSeed shard.baseParams.dim shard.baseParams.m).length),
      dot w (commonParamsFrom prg shard.baseParams.publicSeed shard.baseParams.dim shard.baseParams.m)[r] =
        if r = i then 1#32 else 0#32) :
    ∃ e : List U8, (strs[i]?).map b64Decode = some (.ok e) ∧ shard.baseParams.rhs.length = width T b ∧
      ∀ j (hj : j < shard.baseParams.rhs.length),
        dot w shard.baseParams.rhs[j] = BitVec.ofNat 32 (digit b (leNat e) j) := by
  obtain ⟨hb1, hm0, elems, hl, hlm, hdec, _, rfl⟩ := shardInv hb h
  have hA := generateLwe_rect prg seed n m
  have htake : elems.take m = elems := List.take_of_length_le (by omega)
  have hiel : i < elems.length := by omega
  refine ⟨elems[i], ?_, by simp [shardOf, rhsOf], ?_⟩
  · have := congrArg (fun l => l[i]?) hdec
    simp only [List.getElem?_map, List.getElem?_take, hi, if_true, List.getElem?_eq_getElem hiel, Option.map_some] at this
    exact this
  · intro j hj
    have hj' : j < width T b := by simpa [shardOf, rhsOf] using hj
    simp only [shardOf, rhsOf, htake, List.getElem_map, List.getElem_range]
    rw [dot_transpose w _ _ n hw hA.2 (by simp [column, hl, hA.1])]
    have hu : ((generateLweMatrixFromSeed prg seed n m).map fun a => dot w a) = (List.replicate m 0#32).set i 1#32 := by
      apply List.ext_getElem (by simp [hA.1])
      intro r h1 h2
      rw [List.getElem_map, List.getElem_set, List.getElem_replicate]
      have hr : r < (generateLweMatrixFromSeed prg seed n m).length := by simpa using h1
      have e : dot w (generateLweMatrixFromSeed prg seed n m)[r] = if r = i then 1#32 else 0#32 := hone r hr
      rw [e]
      by_cases hri : r = i
      · simp [hri]
      · rw [if_neg hri, if_neg (Ne.symm hri)]
    rw [hu, dot_unit (by simp [column, hl]) hi, getD_lt (by simp [column, hl]; exact hi)]
    simp [column]

/-- Non-vacuity: a concrete server with two records and LWE dimension 3, weights that read record 0 (which is 1) from its published
parameters; three records of 31-bit digits against dimension 1 and one query. -/
example : (∃ s, Shard.fromBase64Strings .debug (fun _ i => BitVec.ofNat 32 i) (List.replicate 32 0#8)
      ["AQA=".toList, "BwA=".toList] 3 2 10 10 = .ok s ∧
      commonParamsFrom (fun _ i => BitVec.ofNat 32 i) s.baseParams.publicSeed s.baseParams.dim s.baseParams.m =
        [[0#32, 1#32, 2#32], [3#32, 4#32, 5#32]] ∧
      dot [0x55555554#32, 1#32, 0#32] [0#32, 1#32, 2#32] = 1#32 ∧ dot [0x55555554#32, 1#32, 0#32] [3#32, 4#32, 5#32] = 0#32 ∧
      s.baseParams.rhs.map (dot [0x55555554#32, 1#32, 0#32]) = [1#32]) ∧
    32 * (1 + 1) < 31 * [2, 0, 1].length :=
  ⟨⟨_, rfl, by decide +kernel, by decide +kernel, by decide +kernel, by decide +kernel⟩, by decide⟩

/-- Non-vacuity for keywords: dimension 1 and one query against three keys with 22-bit digits. -/
example : ∃ shard, KVShard.new .debug wPrg [7#8] 3 12 wFp0 exSeed wKvs 1 99 44 22 = .ok shard ∧
    (∀ kv ∈ wKvs, kv.value.length = width 44 22) ∧ [0, 2, 1].Nodup ∧ (∀ i ∈ [0, 2, 1], i < wKvs.length) ∧
    32 * (1 + 1) < 22 * [0, 2, 1].length :=
  exOk _ _ (by decide +kernel)

end Chalamet
