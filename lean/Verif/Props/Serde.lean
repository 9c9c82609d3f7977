import Verif.Model.Serde
import Verif.Lemmas.Bincode
import Verif.Props.Documents
import Verif.Props.KvAccess
import Verif.Props.Witnesses

/-!
# C96 and C97: serialised databases and shards

C96: JSON documents of databases and shards. C97: the `bincode` form of every serialisable type but strings.
-/

namespace Chalamet
open Spec

/-! ## JSON -/

/-- **C96 (index databases).** A JSON document is accepted as an index database exactly if it holds its four fields, once each. -/
theorem C96_index_database (j : Json) (d : IndexDatabase) :
    IndexDatabase.fromJson j = .ok d ↔ (d.m < 2 ^ 64 ∧ d.elemSize < 2 ^ 64 ∧ d.plaintextBits < 2 ^ 64) ∧
      Spec.Record ["entries", "m", "elem_size", "plaintext_bits"]
        [jMatrix d.entries, jNat d.m, jNat d.elemSize, jNat d.plaintextBits] j := by
  unfold IndexDatabase.fromJson
  constructor
  · intro h
    obtain ⟨fs, hf, h⟩ := Res.bind_eq_ok.1 h
    match fs, h with
    | [a, b, c, d'], h =>
      unfold IndexDatabase.ofFields at h
      obtain ⟨_, ha, h⟩ := Res.bind_eq_ok.1 h
      obtain ⟨_, hb, h⟩ := Res.bind_eq_ok.1 h
      obtain ⟨_, hc, h⟩ := Res.bind_eq_ok.1 h
      obtain ⟨_, hd, h⟩ := Res.bind_eq_ok.1 h
      cases h
      simp only [req_iff, decUsize_iff, decMatrix_iff] at ha hb hc hd
      obtain ⟨_, rfl, rfl⟩ := ha
      obtain ⟨_, rfl, rfl, h2⟩ := hb
      obtain ⟨_, rfl, rfl, h3⟩ := hc
      obtain ⟨_, rfl, rfl, h4⟩ := hd
      refine ⟨⟨h2, h3, h4⟩, ?_⟩
      rw [← structFields_iff (by simp), hf]
      rfl
  · rintro ⟨⟨h2, h3, h4⟩, hr⟩
    rw [(structFields_iff (by simp)).2 hr, Res.bind_ok]
    simp only [List.map_cons, List.map_nil]
    rw [IndexDatabase.ofFields, req_some, decList_jMatrix, Res.bind_ok, req_some, decUsize_jNat h2, Res.bind_ok, req_some,
      decUsize_jNat h3, Res.bind_ok, req_some, decUsize_jNat h4, Res.bind_ok]

/-- **C96 (key-value databases).** The same for key-value databases; `filter_params` is a nested document. -/
theorem C96_kv_database (j : Json) (d : KVDatabase) :
    KVDatabase.fromJson j = .ok d ↔ (d.m < 2 ^ 64 ∧ d.elemSize < 2 ^ 64 ∧ d.plaintextBits < 2 ^ 64) ∧
      ∃ fp, FilterParams.fromJson fp = .ok d.filterParams ∧
      Spec.Record ["entries", "m", "elem_size", "plaintext_bits", "filter_params"]
        [jMatrix d.entries, jNat d.m, jNat d.elemSize, jNat d.plaintextBits, fp] j := by
  unfold KVDatabase.fromJson
  constructor
  · intro h
    obtain ⟨fs, hf, h⟩ := Res.bind_eq_ok.1 h
    match fs, h with
    | [a, b, c, d', e], h =>
      unfold KVDatabase.ofFields at h
      obtain ⟨_, ha, h⟩ := Res.bind_eq_ok.1 h
      obtain ⟨_, hb, h⟩ := Res.bind_eq_ok.1 h
      obtain ⟨_, hc, h⟩ := Res.bind_eq_ok.1 h
      obtain ⟨_, hd, h⟩ := Res.bind_eq_ok.1 h
      obtain ⟨_, he, h⟩ := Res.bind_eq_ok.1 h
      cases h
      simp only [req_iff, decUsize_iff, decMatrix_iff] at ha hb hc hd he
      obtain ⟨_, rfl, rfl⟩ := ha
      obtain ⟨_, rfl, rfl, h2⟩ := hb
      obtain ⟨_, rfl, rfl, h3⟩ := hc
      obtain ⟨_, rfl, rfl, h4⟩ := hd
      obtain ⟨fp, rfl, h5⟩ := he
      refine ⟨⟨h2, h3, h4⟩, fp, h5, ?_⟩
      rw [← structFields_iff (by simp), hf]
      rfl
  · rintro ⟨⟨h2, h3, h4⟩, fp, h5, hr⟩
    rw [(structFields_iff (by simp)).2 hr, Res.bind_ok]
    simp only [List.map_cons, List.map_nil]
    rw [KVDatabase.ofFields, req_some, decList_jMatrix, Res.bind_ok, req_some, decUsize_jNat h2, Res.bind_ok, req_some,
      decUsize_jNat h3, Res.bind_ok, req_some, decUsize_jNat h4, Res.bind_ok, req_some, h5, Res.bind_ok]

/-- **C96 (shards).** A document is accepted as an index shard exactly if it holds, once each, a document of its database and one
of its parameters. -/
theorem C96_shard (j : Json) (s : Shard) :
    Shard.fromJson j = .ok s ↔ ∃ jd jp, IndexDatabase.fromJson jd = .ok s.db ∧ IndexParams.fromJson jp = .ok s.baseParams ∧
      Spec.Record ["db", "base_params"] [jd, jp] j := by
  unfold Shard.fromJson
  constructor
  · intro h
    obtain ⟨fs, hf, h⟩ := Res.bind_eq_ok.1 h
    match fs, h with
    | [a, b], h =>
      unfold Shard.ofFields at h
      obtain ⟨_, ha, h⟩ := Res.bind_eq_ok.1 h
      obtain ⟨_, hb, h⟩ := Res.bind_eq_ok.1 h
      cases h
      simp only [req_iff] at ha hb
      obtain ⟨jd, rfl, h1⟩ := ha
      obtain ⟨jp, rfl, h2⟩ := hb
      refine ⟨jd, jp, h1, h2, ?_⟩
      rw [← structFields_iff (by simp), hf]
      rfl
  · rintro ⟨jd, jp, h1, h2, hr⟩
    rw [(structFields_iff (by simp)).2 hr, Res.bind_ok]
    simp only [List.map_cons, List.map_nil]
    rw [Shard.ofFields, req_some, h1, Res.bind_ok, req_some, h2, Res.bind_ok]

/-- **C96 (keyword shards).** -/
theorem C96_kv_shard (j : Json) (s : KVShard) :
    KVShard.fromJson j = .ok s ↔ ∃ jd jp, KVDatabase.fromJson jd = .ok s.db ∧ KVParams.fromJson jp = .ok s.baseParams ∧
      Spec.Record ["db", "base_params"] [jd, jp] j := by
  unfold KVShard.fromJson
  constructor
  · intro h
    obtain ⟨fs, hf, h⟩ := Res.bind_eq_ok.1 h
    match fs, h with
    | [a, b], h =>
      unfold KVShard.ofFields at h
      obtain ⟨_, ha, h⟩ := Res.bind_eq_ok.1 h
      obtain ⟨_, hb, h⟩ := Res.bind_eq_ok.1 h
      cases h
      simp only [req_iff] at ha hb
      obtain ⟨jd, rfl, h1⟩ := ha
      obtain ⟨jp, rfl, h2⟩ := hb
      refine ⟨jd, jp, h1, h2, ?_⟩
      rw [← structFields_iff (by simp), hf]
      rfl
  · rintro ⟨jd, jp, h1, h2, hr⟩
    rw [(structFields_iff (by simp)).2 hr, Res.bind_ok]
    simp only [List.map_cons, List.map_nil]
    rw [KVShard.ofFields, req_some, h1, Res.bind_ok, req_some, h2, Res.bind_ok]


/-! ## bincode -/

namespace Spec

/-- `dec` reads exactly what `enc` writes: a byte string is read as `a`, leaving `rest`, iff it is what is written for `a`
followed by `rest` (and `a` is in range); every other byte string is an error value. -/
def Faithful {α : Type} (enc : α → List U8) (dec : List U8 → Res (α × List U8)) (inRange : α → Prop) : Prop :=
  ∀ l, (∀ a rest, dec l = .ok (a, rest) ↔ inRange a ∧ l = enc a ++ rest) ∧
    ((∀ a rest, dec l ≠ .ok (a, rest)) → dec l = .err .bincode)

end Spec

theorem natToLeBytes_leNat (l : List U8) : natToLeBytes l.length (leNat l) = l := by
  induction l with
  | nil => rfl
  | cons b bs ih =>
    rw [List.length_cons, natToLeBytes, leNat]
    have hb := b.isLt
    congr 1
    · apply BitVec.eq_of_toNat_eq
      rw [BitVec.toNat_ofNat]
      omega
    · rw [show (b.toNat + 256 * leNat bs) / 256 = leNat bs by omega, ih]

theorem rNat_faithful (w : Nat) : Faithful (natToLeBytes w) (rNat w) (· < 256 ^ w) := by
  intro l
  unfold rNat
  by_cases hl : l.length < w
  · simp only [if_pos hl]
    refine ⟨?_, by simp⟩
    intro a rest
    constructor
    · intro h; cases h
    · rintro ⟨_, rfl⟩
      rw [List.length_append, natToLeBytes_length] at hl
      omega
  · simp only [if_neg hl]
    refine ⟨?_, fun h => absurd rfl (h _ _)⟩
    intro a rest
    have ht : (l.take w).length = w := by rw [List.length_take]; omega
    rw [natFromLeBytes, natFromLe_eq]
    constructor
    · intro h
      simp only [Res.ok.injEq, Prod.mk.injEq] at h
      obtain ⟨rfl, rfl⟩ := h
      have := leNat_lt (l.take w)
      have h2 := natToLeBytes_leNat (l.take w)
      rw [ht] at this h2
      exact ⟨this, by rw [h2, List.take_append_drop]⟩
    · rintro ⟨ha, rfl⟩
      have := natToLeBytes_length w a
      rw [List.take_append_of_le_length (by omega), List.take_of_length_le (by omega), natToLeBytes_val,
        Nat.mod_eq_of_lt ha, List.drop_append_of_le_length (by omega), List.drop_of_length_le (by omega)]
      rfl

/-- A reader followed by a continuation. -/
theorem Spec.Faithful.bind_iff {α β : Type} {enc : α → List U8} {dec : List U8 → Res (α × List U8)} {P : α → Prop}
    (h : Faithful enc dec P) {l : List U8} {k : α × List U8 → Res β} {b : β} :
    (dec l >>= k) = .ok b ↔ ∃ a rest, P a ∧ l = enc a ++ rest ∧ k (a, rest) = .ok b := by
  constructor
  · intro e
    obtain ⟨⟨a, r⟩, h1, h2⟩ := Res.bind_eq_ok.1 e
    obtain ⟨hp, hl⟩ := ((h l).1 a r).1 h1
    exact ⟨a, r, hp, hl, h2⟩
  · rintro ⟨a, r, hp, hl, h2⟩
    rw [((h l).1 a r).2 ⟨hp, hl⟩, Res.bind_ok, h2]

def OkOrBin {α : Type} (x : Res α) : Prop := (∃ a, x = .ok a) ∨ x = .err .bincode

theorem OkOrBin.bind {α β : Type} {x : Res α} {k : α → Res β} (hx : OkOrBin x) (hk : ∀ a, OkOrBin (k a)) :
    OkOrBin (x >>= k) := by
  rcases hx with ⟨a, rfl⟩ | rfl
  · exact hk a
  · exact Or.inr rfl

theorem Spec.Faithful.okOrBin {α : Type} {enc : α → List U8} {dec : List U8 → Res (α × List U8)} {P : α → Prop}
    (h : Faithful enc dec P) (l : List U8) : OkOrBin (dec l) := by
  by_cases hc : ∀ a rest, dec l ≠ .ok (a, rest)
  · exact Or.inr ((h l).2 hc)
  · push Not at hc
    obtain ⟨a, r, h⟩ := hc
    exact Or.inl ⟨_, h⟩

theorem faithful_intro {α : Type} {enc : α → List U8} {dec : List U8 → Res (α × List U8)} {P : α → Prop}
    (h1 : ∀ l a rest, dec l = .ok (a, rest) ↔ P a ∧ l = enc a ++ rest) (h2 : ∀ l, OkOrBin (dec l)) : Faithful enc dec P := by
  intro l
  refine ⟨h1 l, fun hn => ?_⟩
  rcases h2 l with ⟨⟨a, r⟩, h⟩ | h
  · exact absurd h (hn a r)
  · exact h

theorem rWord_faithful (w k : Nat) (hk : 2 ^ k = 256 ^ w) :
    Faithful (fun x : BitVec k => natToLeBytes w x.toNat)
      (fun l => rNat w l >>= fun (x, l) => .ok (BitVec.ofNat k x, l)) (fun _ => True) := by
  apply faithful_intro
  · intro l a rest
    rw [(rNat_faithful w).bind_iff]
    constructor
    · rintro ⟨x, r, hx, rfl, h⟩
      simp only [Res.ok.injEq, Prod.mk.injEq] at h
      obtain ⟨rfl, rfl⟩ := h
      rw [BitVec.toNat_ofNat, hk, Nat.mod_eq_of_lt hx]
      exact ⟨trivial, rfl⟩
    · rintro ⟨_, rfl⟩
      exact ⟨a.toNat, rest, by rw [← hk]; exact a.isLt, rfl, by simp⟩
  · intro l
    exact ((rNat_faithful w).okOrBin l).bind fun _ => Or.inl ⟨_, rfl⟩

theorem rU32_faithful : Faithful bU32 rU32 (fun _ => True) := rWord_faithful 4 32 (by norm_num)
theorem rU64_faithful : Faithful bU64 rU64 (fun _ => True) := rWord_faithful 8 64 (by norm_num)
theorem rU8_faithful : Faithful (fun x : U8 => [x]) rU8 (fun _ => True) := by
  have := rWord_faithful 1 8 (by norm_num)
  have e : (fun x : U8 => natToLeBytes 1 x.toNat) = fun x => [x] := by
    funext x
    simp [natToLeBytes]
  rw [e] at this
  exact this

theorem rUsize_faithful : Faithful bUsize (rNat 8) (· < 2 ^ 64) := by
  have := rNat_faithful 8
  rw [show (256 : Nat) ^ 8 = 2 ^ 64 by norm_num] at this
  exact this

theorem rMany_faithful {α : Type} {enc : α → List U8} {dec : List U8 → Res (α × List U8)} {P : α → Prop}
    (h : Faithful enc dec P) (n : Nat) :
    Faithful (fun l : List α => l.flatMap enc) (rMany dec n) (fun l => l.length = n ∧ ∀ a ∈ l, P a) := by
  induction n with
  | zero =>
    apply faithful_intro
    · intro l a rest
      simp only [rMany, Res.ok.injEq, Prod.mk.injEq]
      constructor
      · rintro ⟨rfl, rfl⟩; simp
      · rintro ⟨⟨h1, _⟩, rfl⟩
        rw [List.length_eq_zero_iff] at h1
        subst h1
        simp
    · intro l; exact Or.inl ⟨_, rfl⟩
  | succ n ih =>
    apply faithful_intro
    · intro l as rest
      simp only [rMany]
      rw [h.bind_iff]
      constructor
      · rintro ⟨a, r, ha, rfl, h2⟩
        simp only at h2
        rw [ih.bind_iff] at h2
        obtain ⟨as', r', ⟨hl, hP⟩, rfl, h3⟩ := h2
        simp only [Res.ok.injEq, Prod.mk.injEq] at h3
        obtain ⟨rfl, rfl⟩ := h3
        refine ⟨⟨by simp [hl], ?_⟩, by simp⟩
        intro x hx
        rcases List.mem_cons.1 hx with rfl | hx
        · exact ha
        · exact hP x hx
      · rintro ⟨⟨hl, hP⟩, rfl⟩
        cases as with
        | nil => simp at hl
        | cons a as =>
          refine ⟨a, as.flatMap enc ++ rest, hP a (by simp), by simp, ?_⟩
          simp only
          rw [ih.bind_iff]
          exact ⟨as, rest, ⟨by simpa using hl, fun x hx => hP x (by simp [hx])⟩, rfl, rfl⟩
    · intro l
      exact (h.okOrBin l).bind fun _ => (ih.okOrBin _).bind fun _ => Or.inl ⟨_, rfl⟩

theorem rVec_faithful {α : Type} {enc : α → List U8} {dec : List U8 → Res (α × List U8)} {P : α → Prop}
    (h : Faithful enc dec P) : Faithful (bVec enc) (rVec dec) (fun l => l.length < 2 ^ 64 ∧ ∀ a ∈ l, P a) := by
  apply faithful_intro
  · intro l as rest
    unfold rVec
    rw [rUsize_faithful.bind_iff]
    constructor
    · rintro ⟨n, r, hn, rfl, h2⟩
      simp only at h2
      obtain ⟨⟨hl, hP⟩, rfl⟩ := ((rMany_faithful h n _).1 _ _).1 h2
      subst hl
      exact ⟨⟨hn, hP⟩, by simp [bVec, bUsize]⟩
    · rintro ⟨⟨hn, hP⟩, rfl⟩
      exact ⟨as.length, as.flatMap enc ++ rest, hn, by simp [bVec, bUsize],
        ((rMany_faithful h as.length _).1 _ _).2 ⟨⟨rfl, hP⟩, rfl⟩⟩
  · intro l
    exact (rUsize_faithful.okOrBin l).bind fun _ => (rMany_faithful h _).okOrBin _

/-- Seeds: 32 bytes. -/
theorem rSeed_faithful : Faithful (fun l : List U8 => l) (rMany rU8 32) (fun l => l.length = 32) := by
  have := rMany_faithful rU8_faithful 32
  simpa using this

/-- Lengths a serialised matrix can have. -/
def MatrixFits (l : List (List U32)) : Prop := l.length < 2 ^ 64 ∧ ∀ r ∈ l, r.length < 2 ^ 64

theorem rVecU32_faithful : Faithful (bVec bU32) (rVec rU32) (fun l => l.length < 2 ^ 64) := by
  simpa using rVec_faithful rU32_faithful

theorem rMatrix_faithful : Faithful bMatrix rMatrix MatrixFits := rVec_faithful rVecU32_faithful

/-- A structure with one field more. -/
theorem Spec.Faithful.field {α β γ : Type} {e1 : α → List U8} {d1 : List U8 → Res (α × List U8)} {P : α → Prop}
    (h1 : Faithful e1 d1 P) {e2 : β → List U8} {d2 : List U8 → Res (β × List U8)} {Q : β → Prop} (h2 : Faithful e2 d2 Q)
    (mk : α → β → γ) (f : γ → α) (g : γ → β) (hf : ∀ a b, f (mk a b) = a) (hg : ∀ a b, g (mk a b) = b)
    (hmk : ∀ c, mk (f c) (g c) = c) :
    Faithful (fun c => e1 (f c) ++ e2 (g c)) (fun l => d1 l >>= fun (a, l) => d2 l >>= fun (b, l) => .ok (mk a b, l))
      (fun c => P (f c) ∧ Q (g c)) := by
  apply faithful_intro
  · intro l c rest
    rw [h1.bind_iff]
    constructor
    · rintro ⟨a, r, ha, rfl, h⟩
      simp only at h
      rw [h2.bind_iff] at h
      obtain ⟨b, r', hb, rfl, h⟩ := h
      simp only [Res.ok.injEq, Prod.mk.injEq] at h
      obtain ⟨rfl, rfl⟩ := h
      rw [hf, hg]
      exact ⟨⟨ha, hb⟩, by simp⟩
    · rintro ⟨⟨ha, hb⟩, rfl⟩
      refine ⟨f c, e2 (g c) ++ rest, ha, by simp, ?_⟩
      simp only
      rw [h2.bind_iff]
      exact ⟨g c, rest, hb, rfl, by rw [hmk]⟩
  · intro l
    exact (h1.okOrBin l).bind fun _ => (h2.okOrBin _).bind fun _ => Or.inl ⟨_, rfl⟩

/-! ### The values that can be written -/

/-- Filter parameters as the type system allows them: a seed of 32 bytes. -/
def FilterParams.Fits (p : FilterParams) : Prop := p.seed.length = 32
/-- Index databases: `usize` fields and lengths. -/
def IndexDatabase.Fits (d : IndexDatabase) : Prop :=
  MatrixFits d.entries ∧ d.m < 2 ^ 64 ∧ d.elemSize < 2 ^ 64 ∧ d.plaintextBits < 2 ^ 64
/-- Index parameters: a seed of 32 bytes, `usize` fields and lengths. -/
def IndexParams.Fits (p : IndexParams) : Prop :=
  p.dim < 2 ^ 64 ∧ p.m < 2 ^ 64 ∧ p.publicSeed.length = 32 ∧ MatrixFits p.rhs ∧ p.elemSize < 2 ^ 64 ∧ p.plaintextBits < 2 ^ 64
/-- Key-value databases. -/
def KVDatabase.Fits (d : KVDatabase) : Prop :=
  MatrixFits d.entries ∧ d.m < 2 ^ 64 ∧ d.elemSize < 2 ^ 64 ∧ d.plaintextBits < 2 ^ 64 ∧ d.filterParams.Fits
/-- Keyword parameters. -/
def KVParams.Fits (p : KVParams) : Prop :=
  p.dim < 2 ^ 64 ∧ p.m < 2 ^ 64 ∧ p.publicSeed.length = 32 ∧ MatrixFits p.rhs ∧ p.elemSize < 2 ^ 64 ∧ p.plaintextBits < 2 ^ 64 ∧
    p.filterParams.Fits
/-- Client state. -/
def QueryParams.Fits {EP : Type} (P : EP → Prop) (q : QueryParams EP) : Prop :=
  q.lhs.length < 2 ^ 64 ∧ q.rhs.length < 2 ^ 64 ∧ q.elemSize < 2 ^ 64 ∧ q.plaintextBits < 2 ^ 64 ∧
    (∀ e, q.extraParams = some e → P e)

/-- **C97 (filter parameters).** -/
theorem C97_filter_params : Faithful FilterParams.toBytes FilterParams.ofBytes FilterParams.Fits := by
  apply faithful_intro
  · intro l p rest
    unfold FilterParams.ofBytes
    simp only [rSeed_faithful.bind_iff, rU32_faithful.bind_iff, Res.ok.injEq, Prod.mk.injEq]
    constructor
    · rintro ⟨s, r, hs, rfl, a, r1, -, rfl, b, r2, -, rfl, c, r3, -, rfl, rfl, rfl⟩
      exact ⟨hs, by simp [FilterParams.toBytes]⟩
    · rintro ⟨hs, rfl⟩
      exact ⟨p.seed, _, hs, by simp only [FilterParams.toBytes, List.append_assoc], _, _, trivial, rfl, _, _, trivial, rfl, _, _, trivial, rfl, rfl, rfl⟩
  · intro l
    exact (rSeed_faithful.okOrBin l).bind fun _ => (rU32_faithful.okOrBin _).bind fun _ => (rU32_faithful.okOrBin _).bind fun _ =>
      (rU32_faithful.okOrBin _).bind fun _ => Or.inl ⟨_, rfl⟩

/-- **C97 (index databases).** -/
theorem C97_index_database : Faithful IndexDatabase.toBytes IndexDatabase.ofBytes IndexDatabase.Fits := by
  apply faithful_intro
  · intro l p rest
    unfold IndexDatabase.ofBytes
    simp only [rMatrix_faithful.bind_iff, rUsize_faithful.bind_iff, Res.ok.injEq, Prod.mk.injEq]
    constructor
    · rintro ⟨s, r, hs, rfl, a, r1, ha, rfl, b, r2, hb, rfl, c, r3, hc, rfl, rfl, rfl⟩
      exact ⟨⟨hs, ha, hb, hc⟩, by simp [IndexDatabase.toBytes]⟩
    · rintro ⟨⟨hs, ha, hb, hc⟩, rfl⟩
      exact ⟨_, _, hs, by simp only [IndexDatabase.toBytes, List.append_assoc], _, _, ha, rfl, _, _, hb, rfl, _, _, hc, rfl, rfl, rfl⟩
  · intro l
    exact (rMatrix_faithful.okOrBin l).bind fun _ => (rUsize_faithful.okOrBin _).bind fun _ =>
      (rUsize_faithful.okOrBin _).bind fun _ => (rUsize_faithful.okOrBin _).bind fun _ => Or.inl ⟨_, rfl⟩

/-- **C97 (index parameters).** -/
theorem C97_index_params : Faithful IndexParams.toBytes IndexParams.ofBytes IndexParams.Fits := by
  apply faithful_intro
  · intro l p rest
    unfold IndexParams.ofBytes
    simp only [rMatrix_faithful.bind_iff, rUsize_faithful.bind_iff, rSeed_faithful.bind_iff, Res.ok.injEq, Prod.mk.injEq]
    constructor
    · rintro ⟨d, r0, hd, rfl, a, r1, ha, rfl, b, r2, hb, rfl, c, r3, hc, rfl, e, r4, he, rfl, f, r5, hf, rfl, rfl, rfl⟩
      exact ⟨⟨hd, ha, hb, hc, he, hf⟩, by simp [IndexParams.toBytes]⟩
    · rintro ⟨⟨hd, ha, hb, hc, he, hf⟩, rfl⟩
      exact ⟨_, _, hd, by simp only [IndexParams.toBytes, List.append_assoc], _, _, ha, rfl, _, _, hb, rfl, _, _, hc, rfl,
        _, _, he, rfl, _, _, hf, rfl, rfl, rfl⟩
  · intro l
    exact (rUsize_faithful.okOrBin l).bind fun _ => (rUsize_faithful.okOrBin _).bind fun _ =>
      (rSeed_faithful.okOrBin _).bind fun _ => (rMatrix_faithful.okOrBin _).bind fun _ =>
      (rUsize_faithful.okOrBin _).bind fun _ => (rUsize_faithful.okOrBin _).bind fun _ => Or.inl ⟨_, rfl⟩

/-- **C97 (key-value databases).** -/
theorem C97_kv_database : Faithful KVDatabase.toBytes KVDatabase.ofBytes KVDatabase.Fits := by
  apply faithful_intro
  · intro l p rest
    unfold KVDatabase.ofBytes
    simp only [rMatrix_faithful.bind_iff, rUsize_faithful.bind_iff, C97_filter_params.bind_iff, Res.ok.injEq, Prod.mk.injEq]
    constructor
    · rintro ⟨s, r, hs, rfl, a, r1, ha, rfl, b, r2, hb, rfl, c, r3, hc, rfl, d, r4, hd, rfl, rfl, rfl⟩
      exact ⟨⟨hs, ha, hb, hc, hd⟩, by simp [KVDatabase.toBytes]⟩
    · rintro ⟨⟨hs, ha, hb, hc, hd⟩, rfl⟩
      exact ⟨_, _, hs, by simp only [KVDatabase.toBytes, List.append_assoc], _, _, ha, rfl, _, _, hb, rfl, _, _, hc, rfl,
        _, _, hd, rfl, rfl, rfl⟩
  · intro l
    exact (rMatrix_faithful.okOrBin l).bind fun _ => (rUsize_faithful.okOrBin _).bind fun _ =>
      (rUsize_faithful.okOrBin _).bind fun _ => (rUsize_faithful.okOrBin _).bind fun _ =>
      (C97_filter_params.okOrBin _).bind fun _ => Or.inl ⟨_, rfl⟩

/-- **C97 (keyword parameters).** -/
theorem C97_kv_params : Faithful KVParams.toBytes KVParams.ofBytes KVParams.Fits := by
  apply faithful_intro
  · intro l p rest
    unfold KVParams.ofBytes
    simp only [rMatrix_faithful.bind_iff, rUsize_faithful.bind_iff, rSeed_faithful.bind_iff, C97_filter_params.bind_iff,
      Res.ok.injEq, Prod.mk.injEq]
    constructor
    · rintro ⟨d, r0, hd, rfl, a, r1, ha, rfl, b, r2, hb, rfl, c, r3, hc, rfl, e, r4, he, rfl, f, r5, hf, rfl, g, r6, hg, rfl, rfl, rfl⟩
      exact ⟨⟨hd, ha, hb, hc, he, hf, hg⟩, by simp [KVParams.toBytes]⟩
    · rintro ⟨⟨hd, ha, hb, hc, he, hf, hg⟩, rfl⟩
      exact ⟨_, _, hd, by simp only [KVParams.toBytes, List.append_assoc], _, _, ha, rfl, _, _, hb, rfl, _, _, hc, rfl,
        _, _, he, rfl, _, _, hf, rfl, _, _, hg, rfl, rfl, rfl⟩
  · intro l
    exact (rUsize_faithful.okOrBin l).bind fun _ => (rUsize_faithful.okOrBin _).bind fun _ =>
      (rSeed_faithful.okOrBin _).bind fun _ => (rMatrix_faithful.okOrBin _).bind fun _ =>
      (rUsize_faithful.okOrBin _).bind fun _ => (rUsize_faithful.okOrBin _).bind fun _ =>
      (C97_filter_params.okOrBin _).bind fun _ => Or.inl ⟨_, rfl⟩

/-- **C97 (index shards).** -/
theorem C97_shard : Faithful Shard.toBytes Shard.ofBytes (fun s => s.db.Fits ∧ s.baseParams.Fits) :=
  C97_index_database.field C97_index_params Shard.mk Shard.db Shard.baseParams (fun _ _ => rfl) (fun _ _ => rfl) (fun _ => rfl)

/-- **C97 (keyword shards).** -/
theorem C97_kv_shard : Faithful KVShard.toBytes KVShard.ofBytes (fun s => s.db.Fits ∧ s.baseParams.Fits) :=
  C97_kv_database.field C97_kv_params KVShard.mk KVShard.db KVShard.baseParams (fun _ _ => rfl) (fun _ _ => rfl) (fun _ => rfl)

/-- **C97 (key-value pairs).** -/
theorem C97_key_value : Faithful KeyValue.toBytes KeyValue.ofBytes (fun kv => kv.key.length = 4 ∧ kv.value.length < 2 ^ 64) := by
  have h : Faithful (fun l : List U64 => l.flatMap bU64) (rMany rU64 4) (fun l => l.length = 4) := by
    simpa using rMany_faithful rU64_faithful 4
  exact h.field rVecU32_faithful KeyValue.mk KeyValue.key KeyValue.value (fun _ _ => rfl) (fun _ _ => rfl) (fun _ => rfl)

theorem rBool_faithful : Faithful bBool rBool (fun _ => True) := by
  apply faithful_intro
  · intro l b rest
    unfold rBool
    rw [(rNat_faithful 1).bind_iff]
    constructor
    · rintro ⟨x, r, hx, rfl, h⟩
      simp only at h
      split_ifs at h with h0 h1
      · cases h; subst h0; exact ⟨trivial, by simp [bBool, natToLeBytes]⟩
      · cases h; subst h1; exact ⟨trivial, by simp [bBool, natToLeBytes]⟩
    · rintro ⟨_, rfl⟩
      cases b
      · exact ⟨0, rest, by norm_num, by simp [bBool, natToLeBytes], by simp⟩
      · exact ⟨1, rest, by norm_num, by simp [bBool, natToLeBytes], by simp⟩
  · intro l
    refine ((rNat_faithful 1).okOrBin l).bind fun ⟨x, r⟩ => ?_
    simp only
    split_ifs
    · exact Or.inl ⟨_, rfl⟩
    · exact Or.inl ⟨_, rfl⟩
    · exact Or.inr rfl

theorem rOption_faithful {α : Type} {enc : α → List U8} {dec : List U8 → Res (α × List U8)} {P : α → Prop}
    (h : Faithful enc dec P) : Faithful (bOption enc) (rOption dec) (fun o => ∀ a, o = some a → P a) := by
  apply faithful_intro
  · intro l o rest
    unfold rOption
    rw [(rNat_faithful 1).bind_iff]
    constructor
    · rintro ⟨x, r, hx, rfl, e⟩
      simp only at e
      split_ifs at e with h0 h1
      · cases e; subst h0; exact ⟨by simp, by simp [bOption, natToLeBytes]⟩
      · subst h1
        split at e
        · rename_i a l' hd
          cases e
          obtain ⟨hp, rfl⟩ := ((h _).1 _ _).1 hd
          exact ⟨by rintro b ⟨⟩; exact hp, by simp [bOption, natToLeBytes]⟩
        all_goals cases e
    · rintro ⟨hP, rfl⟩
      cases o with
      | none => exact ⟨0, rest, by norm_num, by simp [bOption, natToLeBytes], by simp⟩
      | some a =>
        refine ⟨1, enc a ++ rest, by norm_num, by simp [bOption, natToLeBytes], ?_⟩
        simp only
        rw [((h _).1 a rest).2 ⟨hP a rfl, rfl⟩]
        simp
  · intro l
    refine ((rNat_faithful 1).okOrBin l).bind fun ⟨x, r⟩ => ?_
    simp only
    split_ifs
    · exact Or.inl ⟨_, rfl⟩
    · rcases h.okOrBin r with ⟨⟨a, r'⟩, e⟩ | e
      · rw [e]; exact Or.inl ⟨_, rfl⟩
      · rw [e]; exact Or.inr rfl
    · exact Or.inr rfl

theorem queryParams_faithful {EP : Type} {enc : EP → List U8} {dec : List U8 → Res (EP × List U8)} {P : EP → Prop}
    (h : Faithful enc dec P) : Faithful (QueryParams.toBytes enc) (QueryParams.ofBytes dec) (QueryParams.Fits P) := by
  apply faithful_intro
  · intro l p rest
    unfold QueryParams.ofBytes
    simp only [rVecU32_faithful.bind_iff, rUsize_faithful.bind_iff, (rOption_faithful h).bind_iff, rBool_faithful.bind_iff,
      Res.ok.injEq, Prod.mk.injEq]
    constructor
    · rintro ⟨d, r0, hd, rfl, a, r1, ha, rfl, b, r2, hb, rfl, c, r3, hc, rfl, e, r4, he, rfl, f, r5, -, rfl, rfl, rfl⟩
      exact ⟨⟨hd, ha, hb, hc, he⟩, by simp [QueryParams.toBytes]⟩
    · rintro ⟨⟨hd, ha, hb, hc, he⟩, rfl⟩
      exact ⟨_, _, hd, by simp only [QueryParams.toBytes, List.append_assoc], _, _, ha, rfl, _, _, hb, rfl, _, _, hc, rfl,
        _, _, he, rfl, _, _, trivial, rfl, rfl, rfl⟩
  · intro l
    exact (rVecU32_faithful.okOrBin l).bind fun _ => (rVecU32_faithful.okOrBin _).bind fun _ =>
      (rUsize_faithful.okOrBin _).bind fun _ => (rUsize_faithful.okOrBin _).bind fun _ =>
      ((rOption_faithful h).okOrBin _).bind fun _ => (rBool_faithful.okOrBin _).bind fun _ => Or.inl ⟨_, rfl⟩

/-- **C97 (client state).** Of both kinds of client; in particular the flag `used` survives. -/
theorem C97_query_params :
    Faithful (QueryParams.toBytes bUnit) (QueryParams.ofBytes rUnit) (QueryParams.Fits fun _ => True) ∧
    Faithful (QueryParams.toBytes FilterParams.toBytes) (QueryParams.ofBytes FilterParams.ofBytes) (QueryParams.Fits FilterParams.Fits) := by
  refine ⟨queryParams_faithful ?_, queryParams_faithful C97_filter_params⟩
  apply faithful_intro
  · intro l a rest
    simp [rUnit, bUnit, eq_comm]
  · intro l
    exact Or.inl ⟨_, rfl⟩


/-! ### What follows from `Faithful` -/

/-- **C97 (round trip).** For every type above: what was written is read back whatever follows it, different values are written
differently, and every proper prefix of what was written (a truncated copy) is an error value. -/
theorem C97_round_trip {α : Type} {enc : α → List U8} {dec : List U8 → Res (α × List U8)} {P : α → Prop}
    (h : Faithful enc dec P) (a : α) (ha : P a) :
    (∀ extra, bincodeDe dec (enc a ++ extra) = .ok a) ∧
    (∀ k, k < (enc a).length → bincodeDe dec ((enc a).take k) = .err .bincode) ∧
    (∀ a', P a' → enc a = enc a' → a = a') ∧
    (∀ l b, bincodeDe dec l = .ok b → P b ∧ enc b <+: l) := by
  have hself : ∀ b, P b → ∀ extra, dec (enc b ++ extra) = .ok (b, extra) := fun b hb extra => ((h _).1 b extra).2 ⟨hb, rfl⟩
  refine ⟨fun extra => ?_, fun k hk => ?_, fun a' ha' he => ?_, fun l b hl => ?_⟩
  · unfold bincodeDe
    rw [hself a ha, Res.bind_ok]
  · unfold bincodeDe
    rcases h.okOrBin ((enc a).take k) with ⟨⟨b, r⟩, e⟩ | e
    · obtain ⟨hb, e2⟩ := ((h _).1 _ _).1 e
      have e3 : enc a = enc b ++ (r ++ (enc a).drop k) := by
        rw [← List.append_assoc, ← e2, List.take_append_drop]
      have e4 := hself a ha []
      rw [List.append_nil, e3, hself b hb] at e4
      simp only [Res.ok.injEq, Prod.mk.injEq, List.append_eq_nil_iff, List.drop_eq_nil_iff] at e4
      omega
    · rw [e]; rfl
  · have e1 := hself a ha []
    rw [he, hself a' ha' []] at e1
    cases e1
    rfl
  · unfold bincodeDe at hl
    obtain ⟨⟨b', r⟩, e, hl⟩ := Res.bind_eq_ok.1 hl
    cases hl
    obtain ⟨hb, rfl⟩ := ((h _).1 _ _).1 e
    exact ⟨hb, List.prefix_append _ _⟩

/-- **C97 (queries and responses).** The functions `respond` and the client use are the instance of this format for `Vec<u32>`. -/
theorem C97_vec (v : List U32) : bincodeSerialize v = bVec bU32 v := by
  unfold bincodeSerialize bVec
  congr 1
  apply List.flatMap_congr
  intro x _
  simp [bU32, u32ToLeBytes, natToLeBytes, List.range_succ, BitVec.ofNat, Fin.ofNat, Nat.div_div_eq_div_mul]

theorem bincodeElems_eq (n : Nat) (l : List U8) : bincodeElems n l = (rMany rU32 n l >>= fun p => .ok p.1) := by
  induction n generalizing l with
  | zero => rfl
  | succ n ih =>
    match l with
    | a :: b :: c :: d :: rest =>
      rw [bincodeElems, ih]
      simp only [rMany, rU32, rNat, List.length_cons, if_neg (show ¬ rest.length + 1 + 1 + 1 + 1 < 4 by omega), Res.bind_ok,
        List.take_succ_cons, List.take_zero, List.drop_succ_cons, List.drop_zero]
      cases rMany rU32 n rest <;> rfl
    | [] => rfl
    | [_] => rfl
    | [_, _] => rfl
    | [_, _, _] => rfl

/-- **C97 (responses, reading).** -/
theorem C97_vec_read (l : List U8) : bincodeDeserialize l = bincodeDe (rVec rU32) l := by
  unfold bincodeDeserialize bincodeDe rVec rNat
  split_ifs with h
  · rfl
  · rw [bincodeElems_eq]; rfl

/-! ## Shards that were built -/

theorem okOrJson_indexDatabase (j : Json) : OkOrJson (IndexDatabase.fromJson j) := by
  refine (okOrJson_structFields _ j).bind fun fs => ?_
  unfold IndexDatabase.ofFields
  split
  · exact (okOrJson_req okOrJson_matrix _).bind fun _ => (okOrJson_req okOrJson_decUsize _).bind fun _ =>
      (okOrJson_req okOrJson_decUsize _).bind fun _ => (okOrJson_req okOrJson_decUsize _).bind fun _ => .ok _
  · exact .inr rfl

theorem okOrJson_kvDatabase (j : Json) : OkOrJson (KVDatabase.fromJson j) := by
  refine (okOrJson_structFields _ j).bind fun fs => ?_
  unfold KVDatabase.ofFields
  split
  · exact (okOrJson_req okOrJson_matrix _).bind fun _ => (okOrJson_req okOrJson_decUsize _).bind fun _ =>
      (okOrJson_req okOrJson_decUsize _).bind fun _ => (okOrJson_req okOrJson_decUsize _).bind fun _ =>
      (okOrJson_req okOrJson_filterParams _).bind fun _ => .ok _
  · exact .inr rfl

/-- **C96 (no document panics).** Every JSON document is decoded or refused with an error value. -/
theorem C96_total (j : Json) :
    ((∃ d, IndexDatabase.fromJson j = .ok d) ∨ IndexDatabase.fromJson j = .err .json) ∧
    ((∃ d, KVDatabase.fromJson j = .ok d) ∨ KVDatabase.fromJson j = .err .json) ∧
    ((∃ s, Shard.fromJson j = .ok s) ∨ Shard.fromJson j = .err .json) ∧
    ((∃ s, KVShard.fromJson j = .ok s) ∨ KVShard.fromJson j = .err .json) := by
  refine ⟨okOrJson_indexDatabase j, okOrJson_kvDatabase j, ?_, ?_⟩
  · refine (okOrJson_structFields _ j).bind fun fs => ?_
    unfold Shard.ofFields
    split
    · exact (okOrJson_req okOrJson_indexDatabase _).bind fun _ => (okOrJson_req okOrJson_indexParams _).bind fun _ => .ok _
    · exact .inr rfl
  · refine (okOrJson_structFields _ j).bind fun fs => ?_
    unfold KVShard.ofFields
    split
    · exact (okOrJson_req okOrJson_kvDatabase _).bind fun _ => (okOrJson_req okOrJson_kvParams _).bind fun _ => .ok _
    · exact .inr rfl

/-- **C96 (round trip).** Databases and shards of values the types can hold are read back from their own documents. -/
theorem C96_round_trip :
    (∀ d : IndexDatabase, d.Fits → IndexDatabase.fromJson d.toJson = .ok d) ∧
    (∀ d : KVDatabase, d.Fits → KVDatabase.fromJson d.toJson = .ok d) ∧
    (∀ s : Shard, s.db.Fits → s.baseParams.Fits → Shard.fromJson s.toJson = .ok s) ∧
    (∀ s : KVShard, s.db.Fits → s.baseParams.Fits → KVShard.fromJson s.toJson = .ok s) := by
  have h1 : ∀ d : IndexDatabase, d.Fits → IndexDatabase.fromJson d.toJson = .ok d := by
    rintro d ⟨-, h⟩
    exact (C96_index_database _ d).2 ⟨h, record_self rfl (by simp)⟩
  have h2 : ∀ d : KVDatabase, d.Fits → KVDatabase.fromJson d.toJson = .ok d := by
    rintro d ⟨-, h1, h2, h3, h4⟩
    exact (C96_kv_database _ d).2 ⟨⟨h1, h2, h3⟩, _, C54_filter_params _ h4, record_self rfl (by simp)⟩
  refine ⟨h1, h2, ?_, ?_⟩
  · rintro s hd ⟨a, b, c, -, d, e⟩
    exact (C96_shard _ s).2 ⟨_, _, h1 _ hd, C54_index_params _ c a b d e, record_self rfl (by simp)⟩
  · rintro s hd ⟨a, b, c, -, d, e, f⟩
    exact (C96_kv_shard _ s).2 ⟨_, _, h2 _ hd, C54_kv_params _ c f a b d e, record_self rfl (by simp)⟩

theorem width_le (T b : Nat) (hb : 1 ≤ b) : width T b ≤ T := by
  unfold width
  rcases Nat.eq_zero_or_pos T with rfl | hT
  · rw [Nat.div_eq_of_lt (by omega)]
  · rw [Nat.div_le_iff_le_mul_add_pred hb]
    have := Nat.mul_le_mul_left T hb
    rw [mul_comm T b] at this
    omega

theorem shard_fits {prof : Profile} {prg : Prg} {seed : List U8} {strs : List (List Char)} {n m T b : Nat} {shard : Shard}
    (hs : seed.length = 32) (hn : n < 2 ^ 64) (hm : m < 2 ^ 64) (hT : T < 2 ^ 64) (hb : b ≤ 32)
    (h : Shard.fromBase64Strings prof prg seed strs n m T b = .ok shard) : shard.db.Fits ∧ shard.baseParams.Fits := by
  obtain ⟨hb1, hm0, elems, hl, _, hdec, _, rfl⟩ := shardInv hb h
  have hw := width_le T b hb1
  refine ⟨⟨⟨?_, ?_⟩, hm, hT, by simp only [shardOf, dbOf]; omega⟩, hn, hm, hs, ⟨?_, ?_⟩, hT, by simp only [shardOf]; omega⟩
  · simp only [shardOf, dbOf, List.length_map, List.length_range]; omega
  · intro r hr
    simp only [shardOf, dbOf, List.mem_map] at hr
    obtain ⟨j, -, rfl⟩ := hr
    rw [column, List.length_map, List.length_take]
    omega
  · simp only [shardOf, rhsOf, List.length_map, List.length_range]; omega
  · intro r hr
    simp only [shardOf, rhsOf, List.mem_map] at hr
    obtain ⟨j, -, rfl⟩ := hr
    simpa using hn

/-- **C97 (a restored index shard).** Every shard the constructor returns can be written and read back, as `bincode` or as a JSON
document: the copy is the same shard (so it answers every query and every client parameter request alike), whatever follows it in
the file; every truncated copy is refused with an error value. -/
theorem C97_shard_restored (prof : Profile) (prg : Prg) (seed : List U8) (strs : List (List Char)) (n m T b : Nat) (shard : Shard)
    (hs : seed.length = 32) (hn : n < 2 ^ 64) (hm : m < 2 ^ 64) (hT : T < 2 ^ 64) (hb : b ≤ 32)
    (h : Shard.fromBase64Strings prof prg seed strs n m T b = .ok shard) :
    (∀ extra, bincodeDe Shard.ofBytes (shard.toBytes ++ extra) = .ok shard) ∧
    (∀ k, k < shard.toBytes.length → bincodeDe Shard.ofBytes (shard.toBytes.take k) = .err .bincode) ∧
    Shard.fromJson shard.toJson = .ok shard := by
  have hf := shard_fits hs hn hm hT hb h
  obtain ⟨h1, h2, -⟩ := C97_round_trip C97_shard shard hf
  exact ⟨h1, h2, C96_round_trip.2.2.1 shard hf.1 hf.2⟩

theorem kvShard_dims {prof : Profile} {prg : Prg} {pseed : List U8} {segExp cap0 : Nat} {fp0 : Nat → Nat → U32} {seed : List U8}
    {kvs : List KeyValue} {n m T b : Nat} {shard : KVShard}
    (h : KVShard.new prof prg pseed segExp cap0 fp0 seed kvs n m T b = .ok shard) :
    1 ≤ b ∧ shard.baseParams.m < 2 ^ 32 ∧ shard.db.m = m ∧ shard.db.filterParams.seed = seed ∧
      shard.baseParams.rhs.length = width T b ∧ (∀ r ∈ shard.baseParams.rhs, r.length = n) ∧
      ∀ c ∈ shard.db.entries, c.length = shard.baseParams.m := by
  obtain ⟨lay, hlay, h1, -, -, -, hcol, -, -, -, -, -, -, lhs, hlhs, hrhs⟩ := kvShard_shape h
  obtain ⟨db, hdb, h'⟩ := Res.bind_eq_ok.1 (by unfold KVShard.new at h; exact h)
  obtain ⟨bp, hbp, h'⟩ := Res.bind_eq_ok.1 h'
  cases h'
  obtain ⟨_, _, _, _, _, _, _, _, hfp, hdm, _⟩ := kvNew_ok hdb
  simp only at *
  obtain ⟨s, _, hg⟩ := bfLayout_wf hlay
  have hlt := hg.len_lt
  have hgt : 0 < lay.arrayLen := by
    rw [← hg.len_eq]; positivity
  rw [swapMatrixFmt_rect (generateLwe_rect prg pseed n lay.arrayLen) hgt] at hlhs
  cases hlhs
  obtain ⟨w, hw, hrhs⟩ := Res.bind_eq_ok.1 hrhs
  have hb1 : 1 ≤ b := by
    rcases Nat.eq_zero_or_pos b with rfl | hb
    · simp [getRowWidth] at hw
    · exact hb
  have hww : width T b = w := by
    rw [getRowWidth_ok hb1] at hw
    cases hw
    rfl
  refine ⟨hb1, by omega, hdm, by rw [hfp], ?_, ?_, fun c hc => by rw [hcol c hc, h1]⟩
  · have := mapRes_length hrhs; rw [List.length_range] at this; omega
  · intro r hr
    obtain ⟨j, hj, rfl⟩ := List.getElem_of_mem hr
    have hj' : j < (List.range w).length := by rw [← mapRes_length hrhs]; exact hj
    have := mapRes_length (mapRes_getElem hrhs hj' hj)
    simpa using this

theorem kvShard_fits {prof : Profile} {prg : Prg} {pseed : List U8} {segExp cap0 : Nat} {fp0 : Nat → Nat → U32} {seed : List U8}
    {kvs : List KeyValue} {n m T b : Nat} {shard : KVShard} (hps : pseed.length = 32) (hs : seed.length = 32)
    (hv : ∀ kv ∈ kvs, kv.value.length < 2 ^ 64) (hn : n < 2 ^ 64) (hm : m < 2 ^ 64) (hT : T < 2 ^ 64) (hb : b < 2 ^ 64)
    (h : KVShard.new prof prg pseed segExp cap0 fp0 seed kvs n m T b = .ok shard) : shard.db.Fits ∧ shard.baseParams.Fits := by
  obtain ⟨hb1, hmm, hdm, hds, hrl, hr, hc⟩ := kvShard_dims h
  obtain ⟨lay, hlay, h1, h2, h3, -, hcol, h4, h5, ⟨h0, hlen⟩, h6, h7, h8, -⟩ := kvShard_shape h
  have hw := width_le T b hb1
  refine ⟨⟨⟨?_, ?_⟩, by omega, by omega, by omega, by rw [FilterParams.Fits, hds]; exact hs⟩, by omega, by omega,
    by rw [h2]; exact hps, ⟨by omega, ?_⟩, by omega, by omega, by rw [h6]; exact hs⟩
  · rw [hlen]; exact hv _ (List.getElem_mem _)
  · intro c hc'; have := hc c hc'; omega
  · intro r hr'; have := hr r hr'; omega

/-- **C97 (a restored keyword shard).** The same for keyword shards, for every segment-length and capacity computation, every
initial content of the filter arrays, and plaintext widths of any size. -/
theorem C97_kv_shard_restored (prof : Profile) (prg : Prg) (pseed : List U8) (segExp cap0 : Nat) (fp0 : Nat → Nat → U32)
    (seed : List U8) (kvs : List KeyValue) (n m T b : Nat) (shard : KVShard) (hps : pseed.length = 32) (hs : seed.length = 32)
    (hv : ∀ kv ∈ kvs, kv.value.length < 2 ^ 64) (hn : n < 2 ^ 64) (hm : m < 2 ^ 64) (hT : T < 2 ^ 64) (hb : b < 2 ^ 64)
    (h : KVShard.new prof prg pseed segExp cap0 fp0 seed kvs n m T b = .ok shard) :
    (∀ extra, bincodeDe KVShard.ofBytes (shard.toBytes ++ extra) = .ok shard) ∧
    (∀ k, k < shard.toBytes.length → bincodeDe KVShard.ofBytes (shard.toBytes.take k) = .err .bincode) ∧
    KVShard.fromJson shard.toJson = .ok shard := by
  have hf := kvShard_fits hps hs hv hn hm hT hb h
  obtain ⟨h1, h2, -⟩ := C97_round_trip C97_kv_shard shard hf
  exact ⟨h1, h2, C96_round_trip.2.2.2 shard hf.1 hf.2⟩

/-! ## Sizes -/

theorem flatMap_length_const {α : Type} {enc : α → List U8} {l : List α} {c : Nat} (h : ∀ a ∈ l, (enc a).length = c) :
    (l.flatMap enc).length = l.length * c := by
  induction l with
  | nil => simp
  | cons a l ih =>
    rw [List.flatMap_cons, List.length_append, h a (by simp), ih fun x hx => h x (by simp [hx]), List.length_cons]
    ring

theorem bMatrix_length {M : List (List U32)} {c : Nat} (h : ∀ r ∈ M, r.length = c) :
    (bMatrix M).length = 8 + M.length * (8 + 4 * c) := by
  unfold bMatrix bVec
  rw [List.length_append, natToLeBytes_length, flatMap_length_const (c := 8 + 4 * c)]
  intro r hr
  rw [List.length_append, natToLeBytes_length, flatMap_length_const (c := 4), h r hr, mul_comm]
  intro a _
  exact natToLeBytes_length 4 _

/-- **C97 (size of an index shard).** With `w = ⌈T / b⌉`: the parameters a client downloads take `72 + w·(8 + 4·n)` bytes and the
whole shard `104 + w·(16 + 4·(m + n))`. -/
theorem C97_shard_size (prof : Profile) (prg : Prg) (seed : List U8) (strs : List (List Char)) (n m T b : Nat) (shard : Shard)
    (hs : seed.length = 32) (hb : b ≤ 32) (h : Shard.fromBase64Strings prof prg seed strs n m T b = .ok shard) :
    shard.baseParams.toBytes.length = 72 + width T b * (8 + 4 * n) ∧
    shard.toBytes.length = 104 + width T b * (16 + 4 * (m + n)) := by
  obtain ⟨hb1, hm0, elems, hl, _, hdec, _, rfl⟩ := shardInv hb h
  have hp : (shardOf prg seed elems n m T b).baseParams.toBytes.length = 72 + width T b * (8 + 4 * n) := by
    simp only [IndexParams.toBytes, List.length_append, bUsize, natToLeBytes_length, shardOf]
    rw [bMatrix_length (c := n), hs]
    · simp only [rhsOf, List.length_map, List.length_range]; ring
    · intro r hr
      simp only [rhsOf, List.mem_map] at hr
      obtain ⟨j, -, rfl⟩ := hr
      simp
  refine ⟨hp, ?_⟩
  simp only [Shard.toBytes, IndexDatabase.toBytes, List.length_append, bUsize, natToLeBytes_length, hp]
  rw [bMatrix_length (c := m)]
  · simp only [shardOf, dbOf, List.length_map, List.length_range]; ring
  · intro r hr
    simp only [shardOf, dbOf, List.mem_map] at hr
    obtain ⟨j, -, rfl⟩ := hr
    rw [column, List.length_map, List.length_take]
    omega

/-- **C97 (size of a keyword shard).** With `N` the number of slots of the filter: the parameters take `116 + ⌈T / b⌉·(8 + 4·n)`
bytes and the whole shard, whose values have `w` words, `192 + w·(8 + 4·N) + ⌈T / b⌉·(8 + 4·n)`. -/
theorem C97_kv_shard_size (prof : Profile) (prg : Prg) (pseed : List U8) (segExp cap0 : Nat) (fp0 : Nat → Nat → U32)
    (seed : List U8) (kvs : List KeyValue) (n m T b w : Nat) (shard : KVShard) (hps : pseed.length = 32) (hs : seed.length = 32)
    (hw : ∀ kv ∈ kvs, kv.value.length = w)
    (h : KVShard.new prof prg pseed segExp cap0 fp0 seed kvs n m T b = .ok shard) :
    shard.baseParams.toBytes.length = 116 + width T b * (8 + 4 * n) ∧
    shard.toBytes.length = 192 + w * (8 + 4 * shard.baseParams.m) + width T b * (8 + 4 * n) := by
  obtain ⟨hb1, hmm, hdm, hds, hrl, hr, hc⟩ := kvShard_dims h
  obtain ⟨lay, hlay, h1, h2, h3, -, hcol, h4, h5, ⟨h0, hlen⟩, h6, h7, h8, -⟩ := kvShard_shape h
  have hf : ∀ fp : FilterParams, fp.seed.length = 32 → fp.toBytes.length = 44 := by
    intro fp hfp
    simp [FilterParams.toBytes, bU32, natToLeBytes_length, hfp]
  have hp : shard.baseParams.toBytes.length = 116 + width T b * (8 + 4 * n) := by
    simp only [KVParams.toBytes, List.length_append, bUsize, natToLeBytes_length]
    rw [bMatrix_length hr, h2, hps, hf _ (by rw [h6]; exact hs), hrl]
    ring
  refine ⟨hp, ?_⟩
  simp only [KVShard.toBytes, KVDatabase.toBytes, List.length_append, bUsize, natToLeBytes_length, hp]
  rw [bMatrix_length hc, hf _ (by rw [hds]; exact hs), hlen, hw _ (List.getElem_mem _)]
  ring

/-! ## What is not checked -/

/-- **C97 (nothing is checked).** The reader accepts every shard its types can hold, however inconsistent: for every `m`, `n` and
every database whose columns do not have `m` rows there are files that are read as a shard advertising `m` rows and that panics on
every query of `m` words. -/
theorem C97_unchecked (db : IndexDatabase) (hdb : db.Fits) (bp : IndexParams) (hbp : bp.Fits) (h0 : db.plaintextBits ≠ 0)
    (hT : db.elemSize ≠ 0) (hc : ∀ c ∈ db.entries, c.length ≠ bp.m) :
    ∃ file shard, bincodeDe Shard.ofBytes file = .ok shard ∧ shard.baseParams.m = bp.m ∧
      ∀ q : List U32, q.length = bp.m → shard.respond q = .panic := by
  have h := (C97_round_trip C97_shard ⟨db, bp⟩ ⟨hdb, hbp⟩).1 []
  refine ⟨_, _, h, rfl, ?_⟩
  intro q hq
  have hp : (List.range (width db.elemSize db.plaintextBits)) = 0 :: (List.range' 1 (width db.elemSize db.plaintextBits - 1)) := by
    have : 0 < width db.elemSize db.plaintextBits := by
      unfold width
      exact Nat.div_pos (by omega) (by omega)
    rw [List.range_eq_range']
    conv_lhs => rw [show width db.elemSize db.plaintextBits = (width db.elemSize db.plaintextBits - 1) + 1 by omega]
    rw [List.range'_succ]
  have hv : db.vecMult q 0 = .panic := by
    unfold IndexDatabase.vecMult
    rcases he : db.entries with _ | ⟨c, cs⟩
    · rfl
    · have := hc c (by rw [he]; simp)
      change (if q.length ≠ c.length then _ else _) = _
      rw [if_pos (by omega)]
  have hw : db.getRowWidthSelf = .ok (width db.elemSize db.plaintextBits) := getRowWidth_ok (by omega)
  unfold Shard.respond Shard.answer
  simp only [hw, Res.bind_ok, hp, mapRes, hv]
  rfl

/-! ## The hypotheses can be met -/

/-- A shard is built, written in 168 bytes, and read back; without its last byte it is refused. -/
example : ∃ shard, Shard.fromBase64Strings .debug (fun _ i => BitVec.ofNat 32 (i * 7919)) (List.replicate 32 3#8)
      ["AAEC".toList, "/w==".toList, "QUI=".toList] 2 2 8 4 = .ok shard ∧ shard.toBytes.length = 168 ∧
    bincodeDe Shard.ofBytes shard.toBytes = .ok shard ∧ bincodeDe Shard.ofBytes (shard.toBytes.take 167) = .err .bincode ∧
    Shard.fromJson shard.toJson = .ok shard := by
  obtain ⟨shard, h, -⟩ := exOk (Shard.fromBase64Strings .debug (fun _ i => BitVec.ofNat 32 (i * 7919)) (List.replicate 32 3#8)
      ["AAEC".toList, "/w==".toList, "QUI=".toList] 2 2 8 4) (fun _ => True) (by decide +kernel)
  obtain ⟨h1, h2, h3⟩ := C97_shard_restored _ _ _ _ _ _ _ _ shard (by decide) (by decide) (by decide) (by decide) (by decide) h
  have h4 := (C97_shard_size _ _ _ _ _ _ _ _ shard (by decide) (by decide) h).2
  have h4 : shard.toBytes.length = 168 := h4
  exact ⟨shard, h, h4, by simpa using h1 [], h2 167 (by omega), h3⟩

/-- A keyword shard. -/
example : ∃ shard, KVShard.new .debug wPrg (List.replicate 32 7#8) 3 12 wFp0 exSeed wKvs 2 99 16 9 = .ok shard ∧
    bincodeDe KVShard.ofBytes shard.toBytes = .ok shard ∧ bincodeDe KVShard.ofBytes (shard.toBytes.take 100) = .err .bincode ∧
    KVShard.fromJson shard.toJson = .ok shard := by
  obtain ⟨shard, h, -⟩ := exOk (KVShard.new .debug wPrg (List.replicate 32 7#8) 3 12 wFp0 exSeed wKvs 2 99 16 9)
    (fun _ => True) (by decide +kernel)
  obtain ⟨h1, h2, h3⟩ := C97_kv_shard_restored _ _ _ _ _ _ _ _ _ _ _ _ shard (by decide) (by decide) (by decide) (by decide)
    (by decide) (by decide) (by decide) h
  have h4 := (C97_kv_shard_size _ _ _ _ _ _ _ _ _ _ _ _ 2 shard (by decide) (by decide) (by decide) h).2
  exact ⟨shard, h, by simpa using h1 [], h2 100 (by omega), h3⟩

/-- An inconsistent shard that is read: two columns of one row, three rows advertised. -/
example : ∃ file shard, bincodeDe Shard.ofBytes file = .ok shard ∧ shard.baseParams.m = 3 ∧
    ∀ q : List U32, q.length = 3 → shard.respond q = .panic :=
  C97_unchecked ⟨[[1#32], [2#32]], 3, 8, 4⟩ ⟨⟨by decide, by decide⟩, by decide, by decide, by decide⟩
    ⟨2, 3, List.replicate 32 0#8, [], 8, 4⟩ ⟨by decide, by decide, by decide, ⟨by decide, by decide⟩, by decide, by decide⟩
    (by decide) (by decide) (by decide)

/-- A client state that was used stays used. -/
example : bincodeDe (QueryParams.ofBytes rUnit) (QueryParams.toBytes bUnit
    { lhs := [1#32, 2#32], rhs := [3#32], elemSize := 8, plaintextBits := 4, extraParams := none, used := true }) =
    .ok { lhs := [1#32, 2#32], rhs := [3#32], elemSize := 8, plaintextBits := 4, extraParams := none, used := true } := by
  have := (C97_round_trip C97_query_params.1
    { lhs := [1#32, 2#32], rhs := [3#32], elemSize := 8, plaintextBits := 4, extraParams := none, used := true }
    ⟨by decide, by decide, by decide, by decide, by simp⟩).1 []
  simpa using this

/-- The layout, on a client state: two words and their count, one word and its count, two sizes, the tag of the parameters of the
filter and the parameters, the flag. -/
example : (QueryParams.toBytes FilterParams.toBytes
      { lhs := [0x01020304#32, 5#32], rhs := [6#32], elemSize := 258, plaintextBits := 10,
        extraParams := some { seed := List.replicate 32 9#8, geom := ⟨8#32, 7#32, 24#32⟩ }, used := true }) =
    [2, 0, 0, 0, 0, 0, 0, 0, 4, 3, 2, 1, 5, 0, 0, 0, 1, 0, 0, 0, 0, 0, 0, 0, 6, 0, 0, 0, 2, 1, 0, 0, 0, 0, 0, 0, 10, 0, 0, 0, 0, 0, 0, 0,
     1] ++ List.replicate 32 9#8 ++ [8, 0, 0, 0, 7, 0, 0, 0, 24, 0, 0, 0, 1] := by decide +kernel

/-- The layout, on parameters. -/
example : IndexParams.toBytes
      { dim := 2, m := 3, publicSeed := List.replicate 32 9#8, rhs := [[1#32, 2#32], []],
        elemSize := 4, plaintextBits := 5 } =
    [2, 0, 0, 0, 0, 0, 0, 0, 3, 0, 0, 0, 0, 0, 0, 0] ++ List.replicate 32 9#8 ++ [2, 0, 0, 0, 0, 0, 0, 0] ++
    [2, 0, 0, 0, 0, 0, 0, 0, 1, 0, 0, 0, 2, 0, 0, 0] ++ [0, 0, 0, 0, 0, 0, 0, 0] ++
    [4, 0, 0, 0, 0, 0, 0, 0, 5, 0, 0, 0, 0, 0, 0, 0] := by decide +kernel

end Chalamet
