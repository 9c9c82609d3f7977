import Verif.Lemmas.Xor

/-!
# Xor8/16/32 and HashProxy: C41, C42, C45

`c0` is the value of `(1.23 * num_keys as f64) as usize`; the theorems hold for all values. The retry loop
of `Xor8::from` is unbounded; `Xor.fromWithin .. n` observes it for `n` attempts, `diverge` meaning that it
is still running.
-/

namespace Chalamet

theorem xorLoop_spec {prof : Profile} {bl : Nat} (hbl : 0 < bl) {keys : List U64}
    (hl : keys.length < 2 ^ 32) (n : Nat) (rng seed : U64) :
    xorLoop prof (3 * bl) bl keys n rng seed = .diverge ∨
    ∃ stk seed', (∀ m, n ≤ m → xorLoop prof (3 * bl) bl keys m rng seed = .ok (stk, seed')) ∧
      (stk.map KeyIndex.hash).Perm (keys.map fun k => mix k seed') ∧ PeelOrder (xorOn bl) stk := by
  induction n generalizing rng seed with
  | zero => exact Or.inl rfl
  | succ n ih =>
    obtain ⟨r, h1, h2, _⟩ := xorAttempt_ok (prof := prof) hbl (L := keys.map fun k => mix k seed)
      (by simpa using hl)
    cases r with
    | none =>
      have hstep : ∀ m, xorLoop prof (3 * bl) bl keys (m + 1) rng seed =
          xorLoop prof (3 * bl) bl keys m (splitmix64 rng).1 (splitmix64 rng).2 := by
        intro m
        conv_lhs => unfold xorLoop
        rw [h1, Res.bind_ok]
      rcases ih (splitmix64 rng).1 (splitmix64 rng).2 with h | ⟨stk, seed', h, h'⟩
      · left; rw [hstep]; exact h
      · right
        refine ⟨stk, seed', ?_, h'⟩
        intro m hm
        obtain ⟨m, rfl⟩ : ∃ k, m = k + 1 := ⟨m - 1, by omega⟩
        rw [hstep]
        exact h m (by omega)
    | some stk =>
      right
      refine ⟨stk, seed, ?_, (h2 stk rfl).1, (h2 stk rfl).2.1⟩
      intro m hm
      obtain ⟨m, rfl⟩ : ∃ k, m = k + 1 := ⟨m - 1, by omega⟩
      unfold xorLoop
      rw [h1, Res.bind_ok]

theorem xorFrom_spec (w : Nat) {prof : Profile} {c0 : Nat} {keys : List U64}
    (hl : keys.length < 2 ^ 32) (hd : prof = .debug → keys.Nodup) (n : Nat) :
    Xor.fromWithin w prof c0 keys n = .diverge ∨
    ∃ f, (∀ m, n ≤ m → Xor.fromWithin w prof c0 keys m = .ok f) ∧ f.blockLength = (c0 + 32) / 3 ∧
      f.fingerprints.length = 3 * ((c0 + 32) / 3) ∧ keys.Nodup ∧
      ∀ k ∈ keys, SatXor ((c0 + 32) / 3) (fun i => f.fingerprints.getD i 0#w) (mix k f.seed) := by
  have hbl : 0 < (c0 + 32) / 3 := by omega
  have hcap : (c0 + 32) / 3 * 3 = 3 * ((c0 + 32) / 3) := Nat.mul_comm _ _
  have hb : 3 * ((c0 + 32) / 3) / 3 = (c0 + 32) / 3 := by omega
  have hunf : ∀ m, Xor.fromWithin w prof c0 keys m = (do
      let (stk, seed) ← xorLoop prof (3 * ((c0 + 32) / 3)) ((c0 + 32) / 3) keys m
        (splitmix64 1#64).1 (splitmix64 1#64).2
      let B ← foldRes (xorAssignStep ((c0 + 32) / 3)) (List.replicate (3 * ((c0 + 32) / 3)) 0#w) stk
      .ok { seed := seed, blockLength := (c0 + 32) / 3, fingerprints := B }) := by
    intro m
    unfold Xor.fromWithin
    rw [if_neg (by rintro ⟨h, h'⟩; exact h' (hd h))]
    simp only [hcap, hb]
  rcases xorLoop_spec (prof := prof) hbl hl n (splitmix64 1#64).1 (splitmix64 1#64).2 with
    h | ⟨stk, seed, h1, h2, h3⟩
  · left; rw [hunf, h]; rfl
  · right
    obtain ⟨fp, e1, e2, e3⟩ := xorAssign_ok (w := w) hbl h3
    refine ⟨{ seed := seed, blockLength := (c0 + 32) / 3, fingerprints := fp }, ?_, rfl, e2, ?_, ?_⟩
    · intro m hm
      rw [hunf, h1 m hm, Res.bind_ok]
      simp only [e1, Res.bind_ok]
    · have := h2.nodup_iff.1 h3.nodup
      exact this.of_map
    · intro k hk
      have hm : mix k seed ∈ stk.map KeyIndex.hash := h2.mem_iff.2 (List.mem_map.2 ⟨k, hk, rfl⟩)
      obtain ⟨e, he, hh⟩ := List.mem_map.1 hm
      rw [← hh]
      exact e3 e he

theorem xorH_cell_lt {bl : Nat} (hbl : 0 < bl) {j : Nat} (hj : j < 3) (h : U64) :
    xorH j bl h + j * bl < 3 * bl := by
  have := xorH_lt hbl j h
  have : j = 0 ∨ j = 1 ∨ j = 2 := by omega
  rcases this with rfl | rfl | rfl <;> omega

/-- A lookup in a Xor filter of the right length returns a verdict. -/
theorem xor_contains_eq {w : Nat} {f : Xor w} {k : U64} (hbl : 0 < f.blockLength)
    (hlen : f.fingerprints.length = 3 * f.blockLength) :
    ∃ b, f.contains k = .ok b ∧
      (SatXor f.blockLength (fun i => f.fingerprints.getD i 0#w) (mix k f.seed) → b = true) := by
  have l0 := xorH_cell_lt hbl (j := 0) (by norm_num) (mix k f.seed)
  have l1 := xorH_cell_lt hbl (j := 1) (by norm_num) (mix k f.seed)
  have l2 := xorH_cell_lt hbl (j := 2) (by norm_num) (mix k f.seed)
  rw [← hlen] at l0 l1 l2
  rw [Nat.zero_mul, Nat.add_zero] at l0
  rw [Nat.one_mul] at l1
  have key : ∀ (h : U64) (a b c : BitVec w), rd f.fingerprints (xorH 0 f.blockLength h) = .ok a →
      rd f.fingerprints (xorH 1 f.blockLength h + f.blockLength) = .ok b →
      rd f.fingerprints (xorH 2 f.blockLength h + 2 * f.blockLength) = .ok c → mix k f.seed = h →
      f.contains k = .ok (decide ((fingerprint h).setWidth w = a ^^^ b ^^^ c)) := by
    intro h a b c ha hb hc hm
    unfold Xor.contains
    rw [hm]
    simp only [ha, hb, hc, Res.bind_ok]
  refine ⟨_, key _ _ _ _ (rd_ok l0) (rd_ok l1) (rd_ok l2) rfl, ?_⟩
  intro hs
  rw [decide_eq_true_eq]
  unfold SatXor at hs
  rw [Nat.zero_mul, Nat.add_zero, Nat.one_mul] at hs
  simp only at hs
  rw [getD_lt l0, getD_lt l1, getD_lt l2] at hs
  exact hs

theorem xorFrom_nodup {w : Nat} {prof : Profile} {c0 : Nat} {keys : List U64} {n : Nat} {f : Xor w}
    (hf : Xor.fromWithin w prof c0 keys n = .ok f) : prof = .debug → keys.Nodup := by
  intro hp
  by_contra hn
  unfold Xor.fromWithin at hf
  rw [if_pos ⟨hp, hn⟩] at hf
  cases hf

/-- **C41.** Xor8/16/32 have no false negatives: whenever construction returns, every input key is
reported as contained, for every fingerprint width, capacity and number of attempts. -/
theorem C41_no_false_negatives (w : Nat) (prof : Profile) (c0 : Nat) (keys : List U64)
    (hl : keys.length < 2 ^ 32) (n : Nat) (f : Xor w)
    (hf : Xor.fromWithin w prof c0 keys n = .ok f) (k : U64) (hk : k ∈ keys) :
    f.contains k = .ok true := by
  rcases xorFrom_spec w (c0 := c0) hl (xorFrom_nodup hf) n with h | ⟨f', h1, h2, h3, _, h4⟩
  · rw [h] at hf; cases hf
  · rw [h1 n le_rfl] at hf
    cases hf
    obtain ⟨b, e1, e2⟩ := xor_contains_eq (f := f) (k := k) (by rw [h2]; omega) (by rw [h2]; exact h3)
    rw [e1, e2 (by rw [h2]; exact h4 k hk)]

/-- **C41 (totality).** With (in debug builds) distinct keys, construction never panics and never returns
an error: after any number of attempts it is still running or has returned a filter of
`(c0 + 32) / 3 * 3` cells, the same however long it is observed; lookups of *any* key in it answer. -/
theorem C41_total (w : Nat) (prof : Profile) (c0 : Nat) (keys : List U64)
    (hl : keys.length < 2 ^ 32) (hd : prof = .debug → keys.Nodup) (n : Nat) :
    Xor.fromWithin w prof c0 keys n = .diverge ∨
    ∃ f, (∀ m, n ≤ m → Xor.fromWithin w prof c0 keys m = .ok f) ∧
      f.fingerprints.length = (c0 + 32) / 3 * 3 ∧ ∀ k, ∃ b, f.contains k = .ok b := by
  rcases xorFrom_spec w (c0 := c0) hl hd n with h | ⟨f, h1, h2, h3, _, h4⟩
  · exact Or.inl h
  · refine Or.inr ⟨f, h1, by rw [h3]; exact Nat.mul_comm _ _, fun k => ?_⟩
    obtain ⟨b, e1, _⟩ := xor_contains_eq (f := f) (k := k) (by rw [h2]; omega) (by rw [h2]; exact h3)
    exact ⟨b, e1⟩

/-- **C42.** Duplicate keys: Xor construction panics in debug builds and, in release builds, never
returns, however many attempts it makes. -/
theorem C42_duplicates (w : Nat) (c0 : Nat) (keys : List U64) (hl : keys.length < 2 ^ 32)
    (hdup : ¬ keys.Nodup) :
    (∀ n, Xor.fromWithin w .debug c0 keys n = .panic) ∧
    ∀ n, Xor.fromWithin w .release c0 keys n = .diverge := by
  constructor
  · intro n
    unfold Xor.fromWithin
    rw [if_pos ⟨rfl, hdup⟩]
  · intro n
    rcases xorFrom_spec w (c0 := c0) (prof := .release) hl (by simp) n with h | ⟨f, _, _, _, h, _⟩
    · exact h
    · exact absurd h hdup

/-- **C45.** `HashProxy` over any filter without false negatives has no false negatives, for every key
type and every hasher: `mk` is the inner construction and `has` the inner lookup. -/
theorem C45_no_false_negatives {K F : Type} (mk : List U64 → Res F) (has : F → U64 → Res Bool)
    (hash : K → U64)
    (hinner : ∀ ks f, ks.length < 2 ^ 32 → mk ks = .ok f → ∀ k ∈ ks, has f k = .ok true)
    (keys : List K) (hl : keys.length < 2 ^ 32) (f : F) (hf : HashProxy.from mk hash keys = .ok f) (k : K)
    (hk : k ∈ keys) :
    HashProxy.contains has hash f k = .ok true :=
  hinner _ f (by simpa using hl) hf _ (List.mem_map.2 ⟨k, hk, rfl⟩)

/-- **C45 over Xor.** The proxies over Xor8/16/32 that the crate documents. -/
theorem C45_over_xor {K : Type} (w : Nat) (prof : Profile) (c0 : Nat) (hash : K → U64) (n : Nat)
    (keys : List K) (hl : keys.length < 2 ^ 32) (f : Xor w)
    (hf : HashProxy.from (fun ks => Xor.fromWithin w prof c0 ks n) hash keys = .ok f) (k : K)
    (hk : k ∈ keys) :
    HashProxy.contains Xor.contains hash f k = .ok true :=
  C45_no_false_negatives _ _ hash
    (fun ks f hks hf k hk => C41_no_false_negatives w prof c0 ks hks n f hf k hk) keys hl f hf k hk

/-- **C45 (collisions).** If two keys of the list have the same 64-bit hash (in particular if a key is
repeated), construction of a proxy over Xor panics in debug builds and never returns in release builds,
even when the keys themselves are distinct. -/
theorem C45_hash_collision {K : Type} (w : Nat) (c0 : Nat) (hash : K → U64) (keys : List K)
    (hl : keys.length < 2 ^ 32) (i j : Nat) (hij : i < j) (hj : j < keys.length)
    (hcol : hash (keys[i]'(by omega)) = hash keys[j]) :
    (∀ n, HashProxy.from (fun ks => Xor.fromWithin w .debug c0 ks n) hash keys = .panic) ∧
    ∀ n, HashProxy.from (fun ks => Xor.fromWithin w .release c0 ks n) hash keys = .diverge := by
  have hdup : ¬ (keys.map hash).Nodup := by
    intro hn
    have h := (List.nodup_iff_injective_getElem).1 hn
    have := @h ⟨i, by simp; omega⟩ ⟨j, by simpa using hj⟩ (by simpa using hcol)
    simp at this
    omega
  exact C42_duplicates w c0 (keys.map hash) (by simpa using hl) hdup

/-- Non-vacuity of C41: a construction that succeeds, a stored and a missing key. -/
example : (Xor.fromWithin 8 .debug 4 [1#64, 2#64, 3#64, 4#64] 3).isOk = true ∧
    (Xor.fromWithin 8 .debug 4 [1#64, 2#64, 3#64, 4#64] 3 >>= fun f => f.contains 3#64) = .ok true ∧
    (Xor.fromWithin 8 .debug 4 [1#64, 2#64, 3#64, 4#64] 3 >>= fun f => f.contains 9#64) = .ok false := by
  decide +kernel

/-- Non-vacuity of C42. -/
example : ¬ [5#64, 6#64, 5#64].Nodup := by decide

/-- Non-vacuity of C45: byte strings with a (poor) hasher; the proxy is built and answers; two distinct
keys that collide. -/
example : (HashProxy.from (fun ks => Xor.fromWithin 8 .debug 4 ks 3)
      (fun s : List Nat => BitVec.ofNat 64 s.sum) [[1, 2], [7], [8, 9]]).isOk = true ∧
    (HashProxy.from (fun ks => Xor.fromWithin 8 .debug 4 ks 3)
      (fun s : List Nat => BitVec.ofNat 64 s.sum) [[1, 2], [7], [8, 9]] >>=
      fun f => HashProxy.contains Xor.contains (fun s : List Nat => BitVec.ofNat 64 s.sum) f [7]) = .ok true ∧
    (fun s : List Nat => BitVec.ofNat 64 s.sum) [1, 2] = (fun s : List Nat => BitVec.ofNat 64 s.sum) [2, 1] := by
  decide +kernel

end Chalamet
