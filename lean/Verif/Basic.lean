/-!
# Basic vocabulary of the model

Outcomes of Rust functions, build profiles, and checked array accesses.
Nothing here models a specific function of `/repo`; it is the shared encoding of Rust's
`Result`, panics, non-termination and slice indexing used by every model file.
-/

namespace Chalamet

/-- Rust `u8`
(src/utils.rs:153). -/
abbrev U8 := BitVec 8
/-- Rust `u32`
(src/utils.rs:72). -/
abbrev U32 := BitVec 32
/-- Rust `u64`
(src/utils.rs:255). -/
abbrev U64 := BitVec 64

/-- Error values (`Result::Err`), as declared in `src/errors.rs:10-57` and as produced by
`.into()` from strings, by `base64::decode`, `bincode` and `serde_json`. Error payload strings are
dropped (simplification) except for the two fixed messages of `BinaryFuseP32`. -/
inductive Err where
  /-- `ErrorUnexpectedInputSize` (src/errors.rs:10-31) -/
  | inputSize
  /-- `ErrorQueryParamsReused` (src/errors.rs:33-46) -/
  | queryParamsReused
  /-- `ErrorOverflownAdd` (src/errors.rs:48-57) -/
  | overflownAdd
  /-- "No filter parameters set for KV QueryParams" (src/api.rs:357, 379) -/
  | noFilterParams
  /-- "Number of keys (..) does not match number of values (..)" (src/db/kv.rs:152-159) -/
  | kvCountMismatch
  /-- "Error occurred constructing KVs: .." (src/db/kv.rs:174-176) -/
  | kvConstruct
  /-- `base64::DecodeError` -/
  | base64
  /-- `bincode::Error` -/
  | bincode
  /-- `serde_json::Error` -/
  | json
  /-- `std::io::Error` -/
  | io
  /-- "Failed to construct binary fuse filter." / "Failed to construct fuse filter." -/
  | filterFailed
  /-- "The data should correspond to the number of keys" (bff-modp/src/bfusep32.rs:79) -/
  | dataLen
  deriving DecidableEq, Repr

/-- Outcome of running a Rust function: a value, a `Result::Err`, a panic, or no termination
(for instance `panic!`, `Err` and `Ok` at src/utils.rs:72-87, src/db/index.rs:56-65; a loop without exit at bff-modp/src/prelude/xor.rs:90-157). -/
inductive Res (α : Type) where
  | ok (a : α)
  | err (e : Err)
  | panic
  | diverge
  deriving DecidableEq, Repr

namespace Res

/-- Sequencing: the first non-`ok` outcome is the outcome.
Rust statement sequencing and `?` (src/db/index.rs:46-48). -/
def bind {α β : Type} (x : Res α) (f : α → Res β) : Res β :=
  match x with
  | ok a => f a
  | err e => err e
  | panic => panic
  | diverge => diverge

/-- Statement order and `?` (src/db/index.rs:46-48). -/
instance : Monad Res where
  pure := ok
  bind := bind

@[simp] theorem pure_eq {α : Type} (a : α) : (pure a : Res α) = ok a := rfl
@[simp] theorem bind_ok {α β : Type} (a : α) (f : α → Res β) : (ok a >>= f) = f a := rfl
@[simp] theorem bind_err {α β : Type} (e : Err) (f : α → Res β) :
    ((err e : Res α) >>= f) = err e := rfl
@[simp] theorem bind_panic {α β : Type} (f : α → Res β) : ((panic : Res α) >>= f) = panic := rfl
@[simp] theorem bind_diverge {α β : Type} (f : α → Res β) :
    ((diverge : Res α) >>= f) = diverge := rfl
@[simp] theorem map_ok {α β : Type} (a : α) (f : α → β) : f <$> (ok a) = ok (f a) := rfl

theorem bind_eq_ok {α β : Type} {x : Res α} {f : α → Res β} {b : β} :
    (x >>= f) = ok b ↔ ∃ a, x = ok a ∧ f a = ok b := by
  cases x <;> simp

theorem bind_assoc' {α β γ : Type} (x : Res α) (f : α → Res β) (g : β → Res γ) :
    ((x >>= f) >>= g) = (x >>= fun a => f a >>= g) := by
  cases x <;> rfl

/-- The monad laws, so that sequencing may be regrouped (src/db/index.rs:46-48). -/
instance : LawfulMonad Res := LawfulMonad.mk' Res
  (id_map := by intro α x; cases x <;> rfl)
  (pure_bind := by intros; rfl)
  (bind_assoc := by intro α β γ x f g; cases x <;> rfl)

/-- The outcome carries a value.
Test on an outcome, in statements only (src/api.rs:276-294). -/
def isOk {α : Type} : Res α → Bool
  | ok _ => true
  | _ => false

/-- Rust `.unwrap()` on a `Result`: an error becomes a panic
(src/db/index.rs:64, src/db/kv.rs:193). -/
def unwrap {α : Type} : Res α → Res α
  | err _ => panic
  | r => r

@[simp] theorem unwrap_ok {α : Type} (a : α) : (ok a).unwrap = ok a := rfl
@[simp] theorem unwrap_panic {α : Type} : (panic : Res α).unwrap = panic := rfl
@[simp] theorem unwrap_err {α : Type} (e : Err) : (err e : Res α).unwrap = panic := rfl

end Res

/-- Cargo build profile: `debug` has overflow checks and `debug_assertions`; `release` wraps
(`debug_assert!` at bff-modp/src/prelude/bfusep.rs:22-26). -/
inductive Profile where
  | debug
  | release
  deriving DecidableEq, Repr

/-- Rust slice/vector read `l[i]`: panics when out of bounds
(for instance src/db/index.rs:64). -/
def rd {α : Type} (l : List α) (i : Nat) : Res α :=
  match l[i]? with
  | some a => .ok a
  | none => .panic

/-- Rust slice/vector write `l[i] = v`: panics when out of bounds
(for instance bff-modp/src/prelude/bfusep.rs:88). -/
def wr {α : Type} (l : List α) (i : Nat) (v : α) : Res (List α) :=
  if i < l.length then .ok (l.set i v) else .panic

/-- Rust `a + b` on an unsigned machine integer: panics on overflow under overflow checks,
otherwise wraps
(for instance bff-modp/src/prelude/bfusep.rs:99). -/
def addC {w : Nat} (prof : Profile) (a b : BitVec w) : Res (BitVec w) :=
  match prof with
  | .release => .ok (a + b)
  | .debug => if a.toNat + b.toNat < 2 ^ w then .ok (a + b) else .panic

/-- Rust `a - b` on an unsigned machine integer: panics on underflow under overflow checks,
otherwise wraps
(for instance bff-modp/src/prelude/bfusep.rs:114). -/
def subC {w : Nat} (prof : Profile) (a b : BitVec w) : Res (BitVec w) :=
  match prof with
  | .release => .ok (a - b)
  | .debug => if b.toNat ≤ a.toNat then .ok (a - b) else .panic

/-- `iter.map(f).collect::<Result<Vec<_>, _>>()` (and plain `map(..).collect()` with panicking
bodies): elements are produced in order, the first failure is the outcome
(for instance src/db/index.rs:181-191). -/
def mapRes {α β : Type} (f : α → Res β) : List α → Res (List β)
  | [] => .ok []
  | a :: as => do
    let b ← f a
    let bs ← mapRes f as
    return b :: bs

/-- `for a in l { s = f(s, a) }` with a body that can fail
(for instance src/utils.rs:45-49). -/
def foldRes {α σ : Type} (f : σ → α → Res σ) (s : σ) : List α → Res σ
  | [] => .ok s
  | a :: as => f s a >>= fun s' => foldRes f s' as

theorem rd_ok {α : Type} {l : List α} {i : Nat} (h : i < l.length) : rd l i = .ok l[i] := by
  simp [rd, List.getElem?_eq_getElem h]

theorem rd_of_some {α : Type} {l : List α} {i : Nat} {a : α} (h : l[i]? = some a) :
    rd l i = .ok a := by
  simp [rd, h]

theorem rd_panic {α : Type} {l : List α} {i : Nat} (h : l.length ≤ i) : rd l i = .panic := by
  simp [rd, List.getElem?_eq_none h]

theorem rd_eq_ok {α : Type} {l : List α} {i : Nat} {a : α} : rd l i = .ok a ↔ l[i]? = some a := by
  unfold rd
  cases h : l[i]? <;> simp

theorem getD_lt {α : Type} {l : List α} {i : Nat} {d : α} (h : i < l.length) :
    l.getD i d = l[i] := by
  simp [List.getElem?_eq_getElem h]

theorem wr_ok {α : Type} {l : List α} {i : Nat} {v : α} (h : i < l.length) :
    wr l i v = .ok (l.set i v) := by
  simp [wr, h]

@[simp] theorem mapRes_nil {α β : Type} (f : α → Res β) : mapRes f [] = .ok [] := rfl

theorem mapRes_cons {α β : Type} (f : α → Res β) (a : α) (as : List α) :
    mapRes f (a :: as) = (f a >>= fun b => mapRes f as >>= fun bs => .ok (b :: bs)) := rfl

theorem mapRes_eq_ok {α β : Type} {f : α → Res β} {l : List α} {bs : List β} :
    mapRes f l = .ok bs ↔ l.map f = bs.map Res.ok := by
  induction l generalizing bs with
  | nil => cases bs <;> simp
  | cons a as ih =>
    rw [mapRes_cons]
    constructor
    · intro h
      obtain ⟨b, hb, h⟩ := Res.bind_eq_ok.1 h
      obtain ⟨bs', hbs, h⟩ := Res.bind_eq_ok.1 h
      cases h
      simp [hb, ih.1 hbs]
    · intro h
      cases bs with
      | nil => simp at h
      | cons b bs =>
        simp only [List.map_cons, List.cons.injEq] at h
        simp [h.1, ih.2 h.2]

theorem mapRes_ok_of_forall {α β : Type} {f : α → Res β} {g : α → β} {l : List α}
    (h : ∀ a ∈ l, f a = .ok (g a)) : mapRes f l = .ok (l.map g) := by
  rw [mapRes_eq_ok, List.map_map]
  exact List.map_congr_left h

theorem mapRes_length {α β : Type} {f : α → Res β} {l : List α} {bs : List β}
    (h : mapRes f l = .ok bs) : bs.length = l.length := by
  have := congrArg List.length (mapRes_eq_ok.1 h)
  simpa using this.symm

theorem mapRes_getElem? {α β : Type} {f : α → Res β} {l : List α} {bs : List β}
    (h : mapRes f l = .ok bs) (i : Nat) : (l[i]?).map f = (bs[i]?).map Res.ok := by
  have := congrArg (fun x => x[i]?) (mapRes_eq_ok.1 h)
  simpa using this

theorem mapRes_congr {α β : Type} {f g : α → Res β} {l : List α}
    (h : ∀ a ∈ l, f a = g a) : mapRes f l = mapRes g l := by
  induction l with
  | nil => rfl
  | cons a as ih =>
    rw [mapRes_cons, mapRes_cons, h a (by simp), ih (fun b hb => h b (by simp [hb]))]

@[simp] theorem foldRes_nil {α σ : Type} (f : σ → α → Res σ) (s : σ) :
    foldRes f s [] = .ok s := rfl

theorem foldRes_cons {α σ : Type} (f : σ → α → Res σ) (s : σ) (a : α) (as : List α) :
    foldRes f s (a :: as) = (f s a >>= fun s' => foldRes f s' as) := rfl

theorem foldRes_append {α σ : Type} (f : σ → α → Res σ) (s : σ) (l₁ l₂ : List α) :
    foldRes f s (l₁ ++ l₂) = (foldRes f s l₁ >>= fun s' => foldRes f s' l₂) := by
  induction l₁ generalizing s with
  | nil => rfl
  | cons a as ih =>
    rw [List.cons_append, foldRes_cons, foldRes_cons]
    cases f s a <;> simp [ih]

/-- Invariant rule for loops: every body step succeeds and preserves the invariant. -/
theorem foldRes_inv {α σ : Type} {f : σ → α → Res σ} (I : List α → σ → Prop) {s : σ} {l : List α}
    (h0 : I [] s)
    (hstep : ∀ (done : List α) (a : α) (rest : List α) (s : σ), done ++ a :: rest = l → I done s →
      ∃ s', f s a = .ok s' ∧ I (done ++ [a]) s') :
    ∃ s', foldRes f s l = .ok s' ∧ I l s' := by
  suffices H : ∀ (rest done : List α) (s : σ), done ++ rest = l → I done s →
      ∃ s', foldRes f s rest = .ok s' ∧ I l s' from H l [] s rfl h0
  intro rest
  induction rest with
  | nil => intro done s hd hI; exact ⟨s, rfl, by simpa [← hd] using hI⟩
  | cons a as ih =>
    intro done s hd hI
    obtain ⟨s', hs', hI'⟩ := hstep done a as s hd hI
    obtain ⟨s'', hs'', hI''⟩ := ih (done ++ [a]) s' (by simpa using hd) hI'
    exact ⟨s'', by rw [foldRes_cons, hs']; exact hs'', hI''⟩

/-- Partial-correctness rule for loops. -/
theorem foldRes_inv_ok {α σ : Type} {f : σ → α → Res σ} (I : List α → σ → Prop) {s s₁ : σ}
    {l : List α} (h0 : I [] s)
    (hstep : ∀ (done : List α) (a : α) (rest : List α) (s s' : σ), done ++ a :: rest = l →
      I done s → f s a = .ok s' → I (done ++ [a]) s')
    (h : foldRes f s l = .ok s₁) : I l s₁ := by
  suffices H : ∀ (rest done : List α) (s : σ), done ++ rest = l → I done s →
      foldRes f s rest = .ok s₁ → I l s₁ from H l [] s rfl h0 h
  intro rest
  induction rest with
  | nil => intro done s hd hI h; cases h; simpa [← hd] using hI
  | cons a as ih =>
    intro done s hd hI h
    rw [foldRes_cons] at h
    obtain ⟨s', hs', h⟩ := Res.bind_eq_ok.1 h
    exact ih (done ++ [a]) s' (by simpa using hd) (hstep done a as s s' hd hI hs') h

theorem addC_ok {w : Nat} {prof : Profile} {a b : BitVec w} (h : a.toNat + b.toNat < 2 ^ w) :
    addC prof a b = .ok (a + b) := by
  cases prof <;> simp [addC, h]

theorem subC_ok {w : Nat} {prof : Profile} {a b : BitVec w} (h : b.toNat ≤ a.toNat) :
    subC prof a b = .ok (a - b) := by
  cases prof <;> simp [subC, h]

end Chalamet
