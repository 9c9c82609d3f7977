import Verif.Model.Cli
import Mathlib.Data.Nat.Digits.Lemmas
import Mathlib.Tactic.Ring
import Mathlib.Tactic.IntervalCases

/-!
# Flags and environment variables: C72

`IsDecimal s n` says, independently of the model, that the text `s` is a decimal numeral of `n`.
-/

namespace Chalamet

/-- `s` is a non-empty string of decimal digits, most significant first, possibly after one `+` sign, with value
`n` (leading zeros allowed). -/
def IsDecimal (s : List Char) (n : Nat) : Prop :=
  ∃ ds : List Nat, ds ≠ [] ∧ (∀ d ∈ ds, d < 10) ∧ Nat.ofDigits 10 ds.reverse = n ∧
    (s = ds.map (fun d => Char.ofNat (48 + d)) ∨ s = '+' :: ds.map (fun d => Char.ofNat (48 + d)))

theorem digitVal_ofNat {d : Nat} (h : d < 10) : digitVal (Char.ofNat (48 + d)) = some d := by
  interval_cases d <;> decide

theorem digitVal_some {c : Char} {d : Nat} (h : digitVal c = some d) : d < 10 ∧ c = Char.ofNat (48 + d) := by
  unfold digitVal at h
  split at h
  · rename_i hc
    have h1 : ('0'.toNat : Nat) ≤ c.toNat := hc.1
    have h2 : c.toNat ≤ ('9'.toNat : Nat) := hc.2
    have e0 : '0'.toNat = 48 := rfl
    have e9 : '9'.toNat = 57 := rfl
    simp only [Option.some.injEq] at h
    refine ⟨by omega, ?_⟩
    rw [show 48 + d = c.toNat by omega, Char.ofNat_toNat]
  · cases h

theorem parseDigits_map {bound : Nat} (ds : List Nat) (hd : ∀ d ∈ ds, d < 10) (acc : Nat) (ha : acc < bound) :
    parseDigits bound acc (ds.map fun d => Char.ofNat (48 + d)) =
      if acc * 10 ^ ds.length + Nat.ofDigits 10 ds.reverse < bound then
        some (acc * 10 ^ ds.length + Nat.ofDigits 10 ds.reverse) else none := by
  induction ds generalizing acc with
  | nil => simp [parseDigits, ha]
  | cons d ds ih =>
    have hd0 := hd d (by simp)
    have hds : ∀ x ∈ ds, x < 10 := fun x hx => hd x (by simp [hx])
    have hp : 0 < 10 ^ ds.length := Nat.pos_of_ne_zero (by simp)
    have e : acc * 10 ^ (d :: ds).length + Nat.ofDigits 10 (d :: ds).reverse =
        (acc * 10 + d) * 10 ^ ds.length + Nat.ofDigits 10 ds.reverse := by
      rw [List.reverse_cons, Nat.ofDigits_append, List.length_reverse, List.length_cons, Nat.ofDigits_singleton]
      ring
    have hge : acc * 10 + d ≤ (acc * 10 + d) * 10 ^ ds.length := Nat.le_mul_of_pos_right _ hp
    rw [List.map_cons, parseDigits, digitVal_ofNat hd0]
    simp only
    rw [e]
    split
    · rw [if_neg (by omega)]
    · split
      · rw [if_neg (by omega)]
      · exact ih hds _ (by omega)

theorem parseDigits_some {bound : Nat} (cs : List Char) (acc n : Nat) (h : parseDigits bound acc cs = some n) :
    ∃ ds : List Nat, (∀ d ∈ ds, d < 10) ∧ cs = ds.map fun d => Char.ofNat (48 + d) := by
  induction cs generalizing acc with
  | nil => exact ⟨[], by simp, rfl⟩
  | cons c cs ih =>
    rw [parseDigits] at h
    split at h
    · cases h
    · rename_i d hd
      split at h
      · cases h
      · split at h
        · cases h
        · obtain ⟨ds, h1, h2⟩ := ih _ h
          obtain ⟨hd10, hc⟩ := digitVal_some hd
          refine ⟨d :: ds, ?_, by rw [List.map_cons, ← h2, ← hc]⟩
          intro x hx
          rcases List.mem_cons.1 hx with rfl | hx
          · exact hd10
          · exact h1 x hx

theorem digit_ne_plus {d : Nat} (h : d < 10) : Char.ofNat (48 + d) ≠ '+' := by
  interval_cases d <;> decide

/-- **C72 (numbers).** An unsigned number is parsed exactly when the text is a decimal numeral whose value fits
the type (32 bits for exponents, 64 bits for sizes), and the result is that value. -/
theorem C72_parse_number (bound : Nat) (hb : 0 < bound) (s : List Char) (n : Nat) :
    parseUnsigned bound s = some n ↔ IsDecimal s n ∧ n < bound := by
  have key : ∀ (ds : List Nat), (∀ d ∈ ds, d < 10) →
      (parseDigits bound 0 (ds.map fun d => Char.ofNat (48 + d)) = some n ↔
        Nat.ofDigits 10 ds.reverse = n ∧ n < bound) := by
    intro ds hd
    rw [parseDigits_map ds hd 0 hb, Nat.zero_mul, Nat.zero_add]
    split
    · rename_i h
      constructor
      · intro e; cases e; exact ⟨rfl, h⟩
      · rintro ⟨e, _⟩; rw [e]
    · rename_i h
      constructor
      · intro e; cases e
      · rintro ⟨e, h'⟩; omega
  have hplus : ∀ cs, parseUnsigned bound ('+' :: cs) = if cs = [] then none else parseDigits bound 0 cs := by
    intro cs
    cases cs <;> simp [parseUnsigned]
  have hdig : ∀ (ds : List Nat), ds ≠ [] → (∀ d ∈ ds, d < 10) →
      parseUnsigned bound (ds.map fun d => Char.ofNat (48 + d)) =
        parseDigits bound 0 (ds.map fun d => Char.ofNat (48 + d)) := by
    intro ds hne hd
    cases ds with
    | nil => exact absurd rfl hne
    | cons d ds =>
      have hp := digit_ne_plus (hd d (by simp))
      rw [List.map_cons]
      unfold parseUnsigned
      split
      · rename_i h; exact absurd h (List.cons_ne_nil _ _)
      · rename_i h; exact absurd (List.cons.inj h).1 hp
      · rename_i h; exact absurd (List.cons.inj h).1 hp
      · rfl
  constructor
  · intro h
    have hne : s ≠ [] := by rintro rfl; cases h
    obtain ⟨c, cs, rfl⟩ := List.exists_cons_of_ne_nil hne
    by_cases hc : c = '+'
    · subst hc
      rw [hplus] at h
      split at h
      · cases h
      · rename_i hcs
        obtain ⟨ds, h1, rfl⟩ := parseDigits_some _ _ _ h
        obtain ⟨h2, h3⟩ := (key ds h1).1 h
        exact ⟨⟨ds, by rintro rfl; exact hcs rfl, h1, h2, Or.inr rfl⟩, h3⟩
    · have h' : parseDigits bound 0 (c :: cs) = some n := by
        unfold parseUnsigned at h
        split at h
        · cases h
        · cases h
        · rename_i heq; cases heq; exact absurd rfl hc
        · exact h
      obtain ⟨ds, h1, h4⟩ := parseDigits_some _ _ _ h'
      rw [h4] at h' ⊢
      obtain ⟨h2, h3⟩ := (key ds h1).1 h'
      refine ⟨⟨ds, ?_, h1, h2, Or.inl rfl⟩, h3⟩
      rintro rfl
      cases h4
  · rintro ⟨⟨ds, hne, hd, hv, hs⟩, hn⟩
    rcases hs with rfl | rfl
    · rw [hdig ds hne hd]
      exact (key ds hd).2 ⟨hv, hn⟩
    · rw [hplus, if_neg (by simpa using hne)]
      exact (key ds hd).2 ⟨hv, hn⟩

/-- **C72 (exponents).** `parse_exp_to_usize` on a numeral of `e`: `2^e` below 32; from 32 on a panic in debug builds
and 0 in release builds; a panic in both when `e` does not fit 32 bits; a panic on anything that is not a
numeral. -/
theorem C72_exponent (prof : Profile) (s : List Char) :
    (∀ e, IsDecimal s e → e < 32 → parseExpToUsize prof s = .ok (2 ^ e)) ∧
    (∀ e, IsDecimal s e → 32 ≤ e → e < 2 ^ 32 →
      parseExpToUsize .debug s = .panic ∧ parseExpToUsize .release s = .ok 0) ∧
    (∀ e, IsDecimal s e → 2 ^ 32 ≤ e → parseExpToUsize prof s = .panic) ∧
    ((∀ e, ¬ IsDecimal s e) → parseExpToUsize prof s = .panic) := by
  have hok : ∀ e, IsDecimal s e → e < 2 ^ 32 → parseUnsigned (2 ^ 32) s = some e :=
    fun e h1 h2 => (C72_parse_number (2 ^ 32) (by decide) s e).2 ⟨h1, h2⟩
  have hbad : (∀ e, IsDecimal s e → ¬ e < 2 ^ 32) → parseUnsigned (2 ^ 32) s = none := by
    intro h
    cases hp : parseUnsigned (2 ^ 32) s with
    | none => rfl
    | some e =>
      have := (C72_parse_number (2 ^ 32) (by decide) s e).1 hp
      exact absurd this.2 (h e this.1)
  refine ⟨?_, ?_, ?_, ?_⟩
  · intro e h1 h2
    unfold parseExpToUsize
    rw [hok e h1 (by omega)]
    simp [unwrapOpt, h2]
  · intro e h1 h2 h3
    unfold parseExpToUsize
    rw [hok e h1 h3]
    simp [unwrapOpt, show ¬ e < 32 by omega]
  · intro e h1 h2
    unfold parseExpToUsize
    rw [hbad ?_]
    · rfl
    · intro e' h1' hlt
      -- the value of a numeral is unique
      have : e' = e := by
        have a := (C72_parse_number (e + e' + 1) (by omega) s e).2 ⟨h1, by omega⟩
        have b := (C72_parse_number (e + e' + 1) (by omega) s e').2 ⟨h1', by omega⟩
        rw [a] at b
        exact (Option.some.inj b).symm
      omega
  · intro h
    unfold parseExpToUsize
    rw [hbad (fun e he => absurd he (h e))]
    rfl

/-- **C72 (environment).** `parse_from_env` returns flags exactly when all six variables are set, the three sizes are
numerals below `2^64`, the number of elements is given by an exponent below `2^32` (below 32 in debug builds)
and the two switches are `true` or `false`; the flags are then these values. In every other case it
panics. -/
theorem C72_env (prof : Profile) (env : String → Option (List Char)) (f : CLIFlags) :
    (parseFromEnv prof env = .ok f ↔
      (∃ s, env "PIR_ELEM_SIZE_BITS" = some s ∧ IsDecimal s f.elemSize ∧ f.elemSize < 2 ^ 64) ∧
      (∃ s, env "PIR_LWE_DIM" = some s ∧ IsDecimal s f.lweDim ∧ f.lweDim < 2 ^ 64) ∧
      (∃ s, env "PIR_PLAINTEXT_BITS" = some s ∧ IsDecimal s f.plaintextBits ∧ f.plaintextBits < 2 ^ 64) ∧
      (∃ s e, env "PIR_NUMBER_OF_ELEMENTS_EXP" = some s ∧ IsDecimal s e ∧
        ((e < 32 ∧ f.m = 2 ^ e) ∨ (prof = .release ∧ 32 ≤ e ∧ e < 2 ^ 32 ∧ f.m = 0))) ∧
      env "BENCH_DB_GEN" = some (if f.offline then "true".toList else "false".toList) ∧
      env "BENCH_KV" = some (if f.keyword then "true".toList else "false".toList)) ∧
    ((∀ f, parseFromEnv prof env ≠ .ok f) → parseFromEnv prof env = .panic) := by
  have hsz : ∀ (v : String) (n : Nat), ((unwrapOpt (env v) >>= fun s => unwrapOpt (parseUnsigned (2 ^ 64) s)) =
      .ok n ↔ ∃ s, env v = some s ∧ IsDecimal s n ∧ n < 2 ^ 64) := by
    intro v n
    cases env v with
    | none => simp [unwrapOpt]
    | some s =>
      simp only [unwrapOpt, Res.bind_ok, Option.some.injEq, exists_eq_left']
      rw [← C72_parse_number (2 ^ 64) (by decide)]
      cases parseUnsigned (2 ^ 64) s <;> simp [unwrapOpt]
  have hm : ∀ (v : String) (n : Nat), ((unwrapOpt (env v) >>= fun s => parseExpToUsize prof s) =
      .ok n ↔ ∃ s e, env v = some s ∧ IsDecimal s e ∧
        ((e < 32 ∧ n = 2 ^ e) ∨ (prof = .release ∧ 32 ≤ e ∧ e < 2 ^ 32 ∧ n = 0))) := by
    intro v n
    cases env v with
    | none => simp [unwrapOpt]
    | some s =>
      simp only [unwrapOpt, Res.bind_ok, Option.some.injEq]
      obtain ⟨h1, h2, h3, h4⟩ := C72_exponent prof s
      constructor
      · intro h
        by_cases hx : ∃ e, IsDecimal s e
        · obtain ⟨e, he⟩ := hx
          rcases Nat.lt_or_ge e 32 with hl | hl
          · rw [h1 e he hl] at h
            cases h
            exact ⟨s, e, rfl, he, Or.inl ⟨hl, rfl⟩⟩
          · rcases Nat.lt_or_ge e (2 ^ 32) with hl' | hl'
            · obtain ⟨g1, g2⟩ := h2 e he hl hl'
              cases prof with
              | debug => rw [g1] at h; cases h
              | release =>
                rw [g2] at h
                cases h
                exact ⟨s, e, rfl, he, Or.inr ⟨rfl, hl, hl', rfl⟩⟩
            · rw [h3 e he hl'] at h; cases h
        · rw [h4 (fun e he => hx ⟨e, he⟩)] at h; cases h
      · rintro ⟨s', e, rfl, he, ⟨hl, rfl⟩ | ⟨rfl, hl, hl', rfl⟩⟩
        · exact h1 e he hl
        · exact (h2 e he hl hl').2
  have hbl : ∀ (v : String) (x : Bool), ((unwrapOpt (env v) >>= fun s => parseValToBool s) = .ok x ↔
      env v = some (if x then "true".toList else "false".toList)) := by
    intro v x
    cases env v with
    | none => simp [unwrapOpt]
    | some s =>
      simp only [unwrapOpt, Res.bind_ok, Option.some.injEq, parseValToBool, parseBool]
      by_cases ht : s = "true".toList
      · subst ht
        cases x <;> simp [unwrapOpt]
      · rw [if_neg ht]
        by_cases hf : s = "false".toList
        · subst hf
          cases x <;> simp [unwrapOpt]
        · rw [if_neg hf]
          cases x <;> simp_all [unwrapOpt]
  have hform : parseFromEnv prof env =
      ((unwrapOpt (env "PIR_ELEM_SIZE_BITS") >>= fun s => unwrapOpt (parseUnsigned (2 ^ 64) s)) >>= fun el =>
      (unwrapOpt (env "PIR_LWE_DIM") >>= fun s => unwrapOpt (parseUnsigned (2 ^ 64) s)) >>= fun d =>
      (unwrapOpt (env "PIR_PLAINTEXT_BITS") >>= fun s => unwrapOpt (parseUnsigned (2 ^ 64) s)) >>= fun b =>
      (unwrapOpt (env "PIR_NUMBER_OF_ELEMENTS_EXP") >>= fun s => parseExpToUsize prof s) >>= fun m =>
      (unwrapOpt (env "BENCH_DB_GEN") >>= fun s => parseValToBool s) >>= fun o =>
      (unwrapOpt (env "BENCH_KV") >>= fun s => parseValToBool s) >>= fun k =>
      Res.ok { m := m, lweDim := d, plaintextBits := b, elemSize := el, offline := o, keyword := k }) := by
    unfold parseFromEnv
    have assoc : ∀ {α β γ : Type} (x : Res α) (g : α → Res β) (k : β → Res γ),
        (x >>= g >>= k) = (x >>= fun a => g a >>= k) := by
      intro α β γ x g k
      cases x <;> rfl
    simp only [assoc]
  have hpan : ∀ {α : Type} (o : Option α), unwrapOpt o = .panic ∨ ∃ a, unwrapOpt o = .ok a := by
    intro α o
    cases o
    · exact Or.inl rfl
    · exact Or.inr ⟨_, rfl⟩
  constructor
  · rw [hform]
    simp only [Res.bind_eq_ok (x := (_ >>= _ : Res _))]
    constructor
    · rintro ⟨el, h1, d, h2, b, h3, m, h4, o, h5, k, h6, h7⟩
      cases h7
      exact ⟨(hsz _ _).1 h1, (hsz _ _).1 h2, (hsz _ _).1 h3, (hm _ _).1 h4, (hbl _ _).1 h5, (hbl _ _).1 h6⟩
    · rintro ⟨h1, h2, h3, h4, h5, h6⟩
      exact ⟨_, (hsz _ _).2 h1, _, (hsz _ _).2 h2, _, (hsz _ _).2 h3, _, (hm _ _).2 h4, _, (hbl _ _).2 h5, _,
        (hbl _ _).2 h6, rfl⟩
  · intro hno
    have hexp : ∀ s, parseExpToUsize prof s = .panic ∨ ∃ a, parseExpToUsize prof s = .ok a := by
      intro s
      unfold parseExpToUsize
      rcases hpan (parseUnsigned (2 ^ 32) s) with h | ⟨a, h⟩
      · rw [h]; exact Or.inl rfl
      · rw [h, Res.bind_ok]
        split
        · exact Or.inr ⟨_, rfl⟩
        · cases prof
          · exact Or.inl rfl
          · exact Or.inr ⟨_, rfl⟩
    have hbind : ∀ {α β : Type} (x : Res α) (g : α → Res β), (x = .panic ∨ ∃ a, x = .ok a) →
        (∀ a, g a = .panic ∨ ∃ c, g a = .ok c) → ((x >>= g) = .panic ∨ ∃ c, (x >>= g) = .ok c) := by
      intro α β x g hx hg
      rcases hx with rfl | ⟨a, rfl⟩
      · exact Or.inl rfl
      · exact hg a
    have : parseFromEnv prof env = .panic ∨ ∃ f, parseFromEnv prof env = .ok f := by
      unfold parseFromEnv
      repeat first
        | exact Or.inr ⟨_, rfl⟩
        | refine hbind _ _ (hpan _) fun _ => ?_
        | refine hbind _ _ (hexp _) fun _ => ?_
        | refine hbind (parseValToBool _) _ (hpan _) fun _ => ?_
    rcases this with h | ⟨f, h⟩
    · exact h
    · exact absurd h (hno f)

/-- **C72 (options).** Every option that is not given has its default (16, 13, 10, 2048). When the four values in
force are numerals, the two exponents below 32, the flags are `2^` the first, `2^` the second, and the other
two values. -/
theorem C72_options (prof : Profile) (h e p d : Option (List Char)) (hv ev pv dv : Nat)
    (h1 : IsDecimal (h.getD ['1', '6']) hv) (h2 : IsDecimal (e.getD ['1', '3']) ev)
    (h3 : IsDecimal (p.getD ['1', '0']) pv) (h4 : IsDecimal (d.getD ['2', '0', '4', '8']) dv)
    (l1 : hv < 32) (l2 : ev < 32) (l3 : pv < 2 ^ 64) (l4 : dv < 2 ^ 64) :
    parseCliFlags prof h e p d = .ok (CLIFlags.mk (m := 2 ^ hv) (lweDim := dv) (plaintextBits := pv)
      (elemSize := 2 ^ ev) (offline := true) (keyword := true)) := by
  unfold parseCliFlags
  rw [show "16".toList = ['1', '6'] by decide, show "13".toList = ['1', '3'] by decide,
    show "10".toList = ['1', '0'] by decide, show "2048".toList = ['2', '0', '4', '8'] by decide,
    (C72_exponent prof _).1 ev h2 l2, (C72_exponent prof _).1 hv h1 l1,
    (C72_parse_number (2 ^ 64) (by decide) _ dv).2 ⟨h4, l4⟩,
    (C72_parse_number (2 ^ 64) (by decide) _ pv).2 ⟨h3, l3⟩]
  rfl

theorem parseSize_iff (s : List Char) (n : Nat) :
    unwrapOpt (parseUnsigned (2 ^ 64) s) = .ok n ↔ IsDecimal s n ∧ n < 2 ^ 64 := by
  rw [← C72_parse_number (2 ^ 64) (by decide)]
  cases parseUnsigned (2 ^ 64) s <;> simp [unwrapOpt]

theorem parseExp_iff (prof : Profile) (s : List Char) (n : Nat) :
    parseExpToUsize prof s = .ok n ↔ ∃ e, IsDecimal s e ∧
      ((e < 32 ∧ n = 2 ^ e) ∨ (prof = .release ∧ 32 ≤ e ∧ e < 2 ^ 32 ∧ n = 0)) := by
  obtain ⟨h1, h2, h3, h4⟩ := C72_exponent prof s
  constructor
  · intro h
    by_cases hx : ∃ e, IsDecimal s e
    · obtain ⟨e, he⟩ := hx
      rcases Nat.lt_or_ge e 32 with hl | hl
      · rw [h1 e he hl] at h
        cases h
        exact ⟨e, he, Or.inl ⟨hl, rfl⟩⟩
      · rcases Nat.lt_or_ge e (2 ^ 32) with hl' | hl'
        · obtain ⟨g1, g2⟩ := h2 e he hl hl'
          cases prof with
          | debug => rw [g1] at h; cases h
          | release =>
            rw [g2] at h
            cases h
            exact ⟨e, he, Or.inr ⟨rfl, hl, hl', rfl⟩⟩
        · rw [h3 e he hl'] at h; cases h
    · rw [h4 (fun e he => hx ⟨e, he⟩)] at h; cases h
  · rintro ⟨e, he, ⟨hl, rfl⟩ | ⟨rfl, hl, hl', rfl⟩⟩
    · exact h1 e he hl
    · exact (h2 e he hl hl').2

theorem unwrapOpt_cases {α : Type} (o : Option α) : (∃ a, unwrapOpt o = .ok a) ∨ unwrapOpt o = .panic := by
  cases o with
  | none => exact Or.inr rfl
  | some a => exact Or.inl ⟨a, rfl⟩

theorem parseExp_cases (prof : Profile) (s : List Char) :
    (∃ a, parseExpToUsize prof s = .ok a) ∨ parseExpToUsize prof s = .panic := by
  unfold parseExpToUsize
  rcases unwrapOpt_cases (parseUnsigned (2 ^ 32) s) with ⟨a, h⟩ | h
  · rw [h, Res.bind_ok]
    split
    · exact Or.inl ⟨_, rfl⟩
    · cases prof
      · exact Or.inr rfl
      · exact Or.inl ⟨_, rfl⟩
  · rw [h]; exact Or.inr rfl

/-- **C72 (options, exactly).** `parse_cli_flags` returns flags exactly when the two exponents are decimal numerals below 32
(in release builds: below `2^32`, and 32 or more silently gives 0) and the two sizes are decimal numerals below `2^64`, with
the documented default in place of an option that is not given; the flags are then these numbers, with both switches on.
Otherwise it panics. -/
theorem C72_options_exact (prof : Profile) (h e p d : Option (List Char)) :
    (∀ f, parseCliFlags prof h e p d = .ok f ↔
      (∃ v, IsDecimal (h.getD ['1', '6']) v ∧
        ((v < 32 ∧ f.m = 2 ^ v) ∨ (prof = .release ∧ 32 ≤ v ∧ v < 2 ^ 32 ∧ f.m = 0))) ∧
      (∃ v, IsDecimal (e.getD ['1', '3']) v ∧
        ((v < 32 ∧ f.elemSize = 2 ^ v) ∨ (prof = .release ∧ 32 ≤ v ∧ v < 2 ^ 32 ∧ f.elemSize = 0))) ∧
      (IsDecimal (p.getD ['1', '0']) f.plaintextBits ∧ f.plaintextBits < 2 ^ 64) ∧
      (IsDecimal (d.getD ['2', '0', '4', '8']) f.lweDim ∧ f.lweDim < 2 ^ 64) ∧
      f.offline = true ∧ f.keyword = true) ∧
    ((∀ f, parseCliFlags prof h e p d ≠ .ok f) → parseCliFlags prof h e p d = .panic) := by
  have e1 : h.getD ['1', '6'] = h.getD "16".toList := rfl
  have e2 : e.getD ['1', '3'] = e.getD "13".toList := rfl
  have e3 : p.getD ['1', '0'] = p.getD "10".toList := rfl
  have e4 : d.getD ['2', '0', '4', '8'] = d.getD "2048".toList := rfl
  rw [e1, e2, e3, e4]
  constructor
  · intro f
    rw [← parseExp_iff, ← parseExp_iff, ← parseSize_iff, ← parseSize_iff]
    unfold parseCliFlags
    constructor
    · intro hf
      obtain ⟨a, g1, hf⟩ := Res.bind_eq_ok.1 hf
      obtain ⟨b, g2, hf⟩ := Res.bind_eq_ok.1 hf
      obtain ⟨c, g3, hf⟩ := Res.bind_eq_ok.1 hf
      obtain ⟨m, g4, hf⟩ := Res.bind_eq_ok.1 hf
      cases hf
      exact ⟨g4, g1, g3, g2, rfl, rfl⟩
    · rintro ⟨g4, g1, g3, g2, g5, g6⟩
      rw [g1, Res.bind_ok, g2, Res.bind_ok, g3, Res.bind_ok, g4, Res.bind_ok, ← g5]
      obtain ⟨m, l, b, el, o, k⟩ := f
      simp only at g5 g6
      rw [g5, g6]
  · intro hno
    unfold parseCliFlags at hno ⊢
    rcases parseExp_cases prof (e.getD "13".toList) with ⟨a, g1⟩ | g1
    · rw [g1, Res.bind_ok] at hno ⊢
      rcases unwrapOpt_cases (parseUnsigned (2 ^ 64) (d.getD "2048".toList)) with ⟨b, g2⟩ | g2
      · rw [g2, Res.bind_ok] at hno ⊢
        rcases unwrapOpt_cases (parseUnsigned (2 ^ 64) (p.getD "10".toList)) with ⟨c, g3⟩ | g3
        · rw [g3, Res.bind_ok] at hno ⊢
          rcases parseExp_cases prof (h.getD "16".toList) with ⟨m, g4⟩ | g4
          · rw [g4, Res.bind_ok] at hno
            exact absurd rfl (hno _)
          · rw [g4]; rfl
        · rw [g3]; rfl
      · rw [g2]; rfl
    · rw [g1]; rfl

/-- **C72 (defaults).** Without options: `2^16` records of `2^13` bits, 10 plaintext bits, dimension 2048. -/
theorem C72_defaults (prof : Profile) :
    parseCliFlags prof none none none none = .ok (CLIFlags.mk (m := 65536) (lweDim := 2048)
      (plaintextBits := 10) (elemSize := 8192) (offline := true) (keyword := true)) := by
  refine C72_options prof none none none none 16 13 10 2048 ?_ ?_ ?_ ?_ (by decide) (by decide) (by decide)
    (by decide)
  · exact ⟨[1, 6], by decide, by decide, by decide, Or.inl (by decide)⟩
  · exact ⟨[1, 3], by decide, by decide, by decide, Or.inl (by decide)⟩
  · exact ⟨[1, 0], by decide, by decide, by decide, Or.inl (by decide)⟩
  · exact ⟨[2, 0, 4, 8], by decide, by decide, by decide, Or.inl (by decide)⟩

/-- Concrete cases: leading zeros and a sign are accepted, a minus sign, blanks and the empty string are not;
exponent 40 gives zero records in a release build. -/
example : IsDecimal "+007".toList 7 ∧ parseUnsigned (2 ^ 32) "+007".toList = some 7 ∧
    parseUnsigned (2 ^ 32) "-1".toList = none ∧ parseUnsigned (2 ^ 32) " 1".toList = none ∧
    parseUnsigned (2 ^ 32) [] = none ∧ parseUnsigned (2 ^ 32) "4294967296".toList = none ∧
    parseExpToUsize .release "40".toList = .ok 0 ∧ parseExpToUsize .debug "40".toList = .panic :=
  ⟨⟨[0, 0, 7], by decide, by decide, by decide, Or.inr (by decide)⟩, by decide +kernel⟩

end Chalamet
