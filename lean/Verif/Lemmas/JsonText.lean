import Verif.Model.JsonText
import Mathlib.Tactic.SplitIfs
import Mathlib.Tactic.Push
import Mathlib.Data.List.TakeWhile

/-!
# The JSON grammar and the reader
-/

namespace Chalamet

namespace Spec

/-- White space of RFC 8259. -/
def Ws (w : List Char) : Prop := ∀ c ∈ w, c = ' ' ∨ c = '\n' ∨ c = '\t' ∨ c = '\r'

/-- A decimal digit. -/
def Digit (c : Char) : Prop := 48 ≤ c.toNat ∧ c.toNat ≤ 57

/-- One or more digits. -/
def Digits (t : List Char) : Prop := t ≠ [] ∧ ∀ c ∈ t, Digit c

/-- The integer part of a number: digits without a leading zero. -/
def IntPart (t : List Char) : Prop := Digits t ∧ (t.head? = some '0' → t = ['0'])

/-- The number written with decimal digits: every digit counts ten times the next. -/
def decimal : List Char → Nat
  | [] => 0
  | c :: t => (c.toNat - 48) * 10 ^ t.length + decimal t

/-- The hexadecimal digits and their values. -/
def HexDigits : List (Char × Nat) :=
  [('0', 0), ('1', 1), ('2', 2), ('3', 3), ('4', 4), ('5', 5), ('6', 6), ('7', 7), ('8', 8), ('9', 9),
   ('a', 10), ('b', 11), ('c', 12), ('d', 13), ('e', 14), ('f', 15), ('A', 10), ('B', 11), ('C', 12), ('D', 13), ('E', 14), ('F', 15)]

/-- Four hexadecimal digits and the number they write. -/
def Hex4 (a b c d : Char) (n : Nat) : Prop :=
  ∃ x y z w, (a, x) ∈ HexDigits ∧ (b, y) ∈ HexDigits ∧ (c, z) ∈ HexDigits ∧ (d, w) ∈ HexDigits ∧
    n = x * 16 ^ 3 + y * 16 ^ 2 + z * 16 + w

/-- A fraction: a point and digits. -/
def Frac (t : List Char) : Prop := ∃ d, Digits d ∧ t = '.' :: d

/-- An exponent: `e` or `E`, possibly a sign, digits. -/
def Expo (t : List Char) : Prop := ∃ e s d, (e = 'e' ∨ e = 'E') ∧ (s = [] ∨ s = ['+'] ∨ s = ['-']) ∧ Digits d ∧ t = e :: (s ++ d)

/-- A sign, possibly absent, of a value. -/
def Sign (neg : Bool) (t : List Char) : Prop := t = if neg then ['-'] else []

/-- The simple escapes. -/
def Escapes : List (Char × Char) :=
  [('"', '"'), ('\\', '\\'), ('/', '/'), ('b', Char.ofNat 8), ('f', Char.ofNat 12), ('n', Char.ofNat 10), ('r', Char.ofNat 13),
   ('t', Char.ofNat 9)]

/-- A character of a string and how it can be written. -/
inductive StrChar : Char → List Char → Prop
  | plain {c : Char} : c ≠ '"' → c ≠ '\\' → 32 ≤ c.toNat → StrChar c [c]
  | simple {e c : Char} : (e, c) ∈ Escapes → StrChar c ['\\', e]
  | code {a b c d : Char} {n : Nat} : Hex4 a b c d n → (n < 0xD800 ∨ 0xE000 ≤ n) →
      StrChar (Char.ofNat n) ['\\', 'u', a, b, c, d]
  | pair {a b c d a' b' c' d' : Char} {n m : Nat} : Hex4 a b c d n → Hex4 a' b' c' d' m →
      0xD800 ≤ n → n < 0xDC00 → 0xDC00 ≤ m → m < 0xE000 →
      StrChar (Char.ofNat (0x10000 + (n - 0xD800) * 1024 + (m - 0xDC00))) ['\\', 'u', a, b, c, d, '\\', 'u', a', b', c', d']

/-- The characters of a string between the quotation marks. -/
inductive StrBody : List Char → List Char → Prop
  | nil : StrBody [] []
  | cons {c : Char} {t : List Char} {s u : List Char} : StrChar c t → StrBody s u → StrBody (c :: s) (t ++ u)

mutual
/-- `JsonText j t`: the text `t` is a way to write the value `j` (RFC 8259), no white space around it. -/
inductive JsonText : Json → List Char → Prop
  | null : JsonText .null ['n', 'u', 'l', 'l']
  | tru : JsonText (.bool true) ['t', 'r', 'u', 'e']
  | fals : JsonText (.bool false) ['f', 'a', 'l', 's', 'e']
  | num {neg : Bool} {s t : List Char} : Sign neg s → IntPart t → JsonText (.num (if neg then -(decimal t : Int) else decimal t)) (s ++ t)
  | frac {neg : Bool} {s t u : List Char} : Sign neg s → IntPart t → Frac u → JsonText .float (s ++ t ++ u)
  | expo {neg : Bool} {s t u : List Char} : Sign neg s → IntPart t → Expo u → JsonText .float (s ++ t ++ u)
  | fracExpo {neg : Bool} {s t u v : List Char} : Sign neg s → IntPart t → Frac u → Expo v → JsonText .float (s ++ t ++ u ++ v)
  | str {s t : List Char} : StrBody s t → JsonText (.str s) ('"' :: (t ++ ['"']))
  | arrNil {w : List Char} : Ws w → JsonText (.arr []) ('[' :: (w ++ [']']))
  | arr {l : List Json} {t : List Char} : Elements l t → JsonText (.arr l) ('[' :: (t ++ [']']))
  | objNil {w : List Char} : Ws w → JsonText (.obj []) ('{' :: (w ++ ['}']))
  | obj {l : List (String × Json)} {t : List Char} : Members l t → JsonText (.obj l) ('{' :: (t ++ ['}']))
/-- One or more elements, separated by commas, white space around them. -/
inductive Elements : List Json → List Char → Prop
  | one {j : Json} {w t w' : List Char} : Ws w → JsonText j t → Ws w' → Elements [j] (w ++ (t ++ w'))
  | cons {j : Json} {l : List Json} {w t w' u : List Char} : Ws w → JsonText j t → Ws w' → Elements l u →
      Elements (j :: l) (w ++ (t ++ (w' ++ ',' :: u)))
/-- One or more members, separated by commas, white space around names and values. -/
inductive Members : List (String × Json) → List Char → Prop
  | one {k s : List Char} {j : Json} {w w₂ w₃ w₄ t : List Char} : Ws w → StrBody k s → Ws w₂ → Ws w₃ → JsonText j t → Ws w₄ →
      Members [(String.ofList k, j)] (w ++ '"' :: (s ++ '"' :: (w₂ ++ ':' :: (w₃ ++ (t ++ w₄)))))
  | cons {k s : List Char} {j : Json} {l : List (String × Json)} {w w₂ w₃ w₄ t u : List Char} : Ws w → StrBody k s → Ws w₂ → Ws w₃ →
      JsonText j t → Ws w₄ → Members l u →
      Members ((String.ofList k, j) :: l) (w ++ '"' :: (s ++ '"' :: (w₂ ++ ':' :: (w₃ ++ (t ++ (w₄ ++ ',' :: u))))))
end

/-- A document: a value with white space around it. -/
def Document (j : Json) (t : List Char) : Prop := ∃ w v w', Ws w ∧ JsonText j v ∧ Ws w' ∧ t = w ++ v ++ w'

end Spec

open Spec

/-! ## White space and digits -/

instance (c : Char) : Decidable (Digit c) := inferInstanceAs (Decidable (48 ≤ c.toNat ∧ c.toNat ≤ 57))

theorem jWs_iff (c : Char) : jWs c = true ↔ c = ' ' ∨ c = '\n' ∨ c = '\t' ∨ c = '\r' := by
  simp [jWs, or_assoc]

theorem jDigit_iff (c : Char) : jDigit c = true ↔ Digit c := by simp [jDigit, Digit]

theorem dropWhile_app {p : Char → Bool} {w r : List Char} (hw : ∀ c ∈ w, p c = true) (hr : ∀ c, r.head? = some c → p c = false) :
    (w ++ r).dropWhile p = r ∧ (w ++ r).takeWhile p = w := by
  induction w with
  | nil =>
    cases r with
    | nil => simp
    | cons c r =>
      have := hr c rfl
      simp [this]
  | cons a w ih =>
    have h1 := hw a (by simp)
    obtain ⟨h2, h3⟩ := ih fun c hc => hw c (by simp [hc])
    simp [h1, h2, h3]

theorem skipWs_app {w r : List Char} (hw : Ws w) (hr : ∀ c, r.head? = some c → jWs c = false) : skipWs (w ++ r) = r :=
  (dropWhile_app (fun c hc => (jWs_iff c).2 (hw c hc)) hr).1

theorem skipWs_split (l : List Char) : ∃ w, Ws w ∧ l = w ++ skipWs l ∧ ∀ c, (skipWs l).head? = some c → jWs c = false := by
  refine ⟨l.takeWhile jWs, ?_, (List.takeWhile_append_dropWhile).symm, ?_⟩
  · intro c hc
    exact (jWs_iff c).1 (List.mem_takeWhile_imp hc)
  · intro c hc
    unfold skipWs at hc
    have := List.head?_dropWhile_not jWs l
    rw [hc] at this
    simpa using this

theorem digits_split (l : List Char) : (∀ c ∈ l.takeWhile jDigit, Digit c) ∧ l = l.takeWhile jDigit ++ l.dropWhile jDigit :=
  ⟨fun c hc => (jDigit_iff c).1 (List.mem_takeWhile_imp hc), (List.takeWhile_append_dropWhile).symm⟩

theorem decValue_eq (t : List Char) : decValue t = decimal t := by
  have key : ∀ (t : List Char) (a : Nat), t.foldl (fun a c => a * 10 + (c.toNat - 48)) a = a * 10 ^ t.length + decimal t := by
    intro t
    induction t with
    | nil => intro a; simp [decimal]
    | cons c t ih =>
      intro a
      rw [List.foldl_cons, ih, decimal, List.length_cons, Nat.pow_succ, Nat.add_mul]
      simp only [Nat.mul_assoc, Nat.mul_comm 10, Nat.add_assoc]
  have := key t 0
  simpa [decValue] using this

theorem char_eq {c : Char} {n : Nat} (h : c.toNat = n) : c = Char.ofNat n := by
  subst h
  exact (Char.ofNat_toNat c).symm

theorem hexValue_iff (c : Char) (n : Nat) : hexValue c = some n ↔ (c, n) ∈ HexDigits := by
  constructor
  · intro h
    unfold hexValue at h
    split_ifs at h with h1 h2 h3 <;> cases h
    · have : c.toNat = 48 ∨ c.toNat = 49 ∨ c.toNat = 50 ∨ c.toNat = 51 ∨ c.toNat = 52 ∨ c.toNat = 53 ∨ c.toNat = 54 ∨ c.toNat = 55 ∨
        c.toNat = 56 ∨ c.toNat = 57 := by omega
      rcases this with h | h | h | h | h | h | h | h | h | h <;> rw [char_eq h] <;> decide
    · have : c.toNat = 97 ∨ c.toNat = 98 ∨ c.toNat = 99 ∨ c.toNat = 100 ∨ c.toNat = 101 ∨ c.toNat = 102 := by omega
      rcases this with h | h | h | h | h | h <;> rw [char_eq h] <;> decide
    · have : c.toNat = 65 ∨ c.toNat = 66 ∨ c.toNat = 67 ∨ c.toNat = 68 ∨ c.toNat = 69 ∨ c.toNat = 70 := by omega
      rcases this with h | h | h | h | h | h <;> rw [char_eq h] <;> decide
  · intro h
    have key : ∀ p ∈ HexDigits, hexValue p.1 = some p.2 := by decide
    exact key _ h

theorem hex4_iff (a b c d : Char) (n : Nat) : hex4 a b c d = some n ↔ Hex4 a b c d n := by
  unfold hex4 Hex4
  constructor
  · intro h
    split at h
    · rename_i x y z w h1 h2 h3 h4
      simp only [Option.some.injEq] at h
      exact ⟨x, y, z, w, (hexValue_iff _ _).1 h1, (hexValue_iff _ _).1 h2, (hexValue_iff _ _).1 h3, (hexValue_iff _ _).1 h4, by omega⟩
    · cases h
  · rintro ⟨x, y, z, w, h1, h2, h3, h4, rfl⟩
    rw [(hexValue_iff _ _).2 h1, (hexValue_iff _ _).2 h2, (hexValue_iff _ _).2 h3, (hexValue_iff _ _).2 h4]

/-! ## Strings -/

theorem escValue_iff (e c : Char) : escValue e = some c ↔ (e, c) ∈ Escapes := by
  unfold escValue Escapes
  simp only [List.mem_cons, Prod.mk.injEq, List.not_mem_nil, or_false]
  constructor
  · intro h
    split_ifs at h with h1 h2 h3 h4 h5 h6 h7 h8 <;> cases h <;> simp_all
  · rintro (⟨rfl, rfl⟩ | ⟨rfl, rfl⟩ | ⟨rfl, rfl⟩ | ⟨rfl, rfl⟩ | ⟨rfl, rfl⟩ | ⟨rfl, rfl⟩ | ⟨rfl, rfl⟩ | ⟨rfl, rfl⟩) <;> rfl

theorem pUni_sound {l r : List Char} {c : Char} (h : pUni l = some (c, r)) : ∃ t, StrChar c ('\\' :: 'u' :: t) ∧ l = t ++ r := by
  unfold pUni at h
  split at h
  · rename_i a b c' d r'
    split at h
    · cases h
    · rename_i n hn
      split_ifs at h with h1 h2
      · cases h
        exact ⟨[a, b, c', d], .code ((hex4_iff _ _ _ _ _).1 hn) h1, rfl⟩
      · split at h
        · rename_i x y a' b' c'' d' r''
          split_ifs at h with h3
          split at h
          · cases h
          · rename_i m hm
            split_ifs at h with h4
            simp only [Option.some.injEq, Prod.mk.injEq] at h
            obtain ⟨rfl, rfl⟩ := h
            obtain ⟨rfl, rfl⟩ := h3
            exact ⟨[a, b, c', d, '\\', 'u', a', b', c'', d'], .pair ((hex4_iff _ _ _ _ _).1 hn) ((hex4_iff _ _ _ _ _).1 hm) (by omega) (by omega) h4.1 h4.2, rfl⟩
        · cases h
  · cases h

theorem pChar_sound {l r : List Char} {c : Char} (hq : l.head? ≠ some '"') (h : pChar l = some (c, r)) : ∃ t, StrChar c t ∧ l = t ++ r := by
  unfold pChar at h
  split at h
  · cases h
  · rename_i x r'
    split_ifs at h with h1 h2
    · split at h
      · cases h
      · rename_i e r''
        split_ifs at h with h3
        · obtain ⟨t, ht, rfl⟩ := pUni_sound h
          subst h1 h3
          exact ⟨_, ht, rfl⟩
        · rw [Option.map_eq_some_iff] at h
          obtain ⟨y, hy, e1⟩ := h
          cases e1
          subst h1
          exact ⟨['\\', e], .simple ((escValue_iff _ _).1 hy), rfl⟩
    · cases h
      refine ⟨[_], .plain ?_ h1 (by omega), rfl⟩
      rintro rfl
      simp at hq

theorem pStr_sound {f : Nat} {l s r : List Char} (h : pStr f l = some (s, r)) : ∃ t, StrBody s t ∧ l = t ++ '"' :: r := by
  induction f generalizing l s with
  | zero => cases h
  | succ f ih =>
    unfold pStr at h
    split_ifs at h with h1
    · cases h
      cases l with
      | nil => cases h1
      | cons a l =>
        simp only [List.head?_cons, Option.some.injEq] at h1
        subst h1
        exact ⟨[], .nil, rfl⟩
    · split at h
      · cases h
      · rename_i c r' hc
        rw [Option.map_eq_some_iff] at h
        obtain ⟨⟨s', r''⟩, h2, e⟩ := h
        cases e
        obtain ⟨t, ht, rfl⟩ := pChar_sound h1 hc
        obtain ⟨u, hu, rfl⟩ := ih h2
        exact ⟨t ++ u, .cons ht hu, by simp⟩

theorem strChar_read {c : Char} {t : List Char} (h : StrChar c t) (r : List Char) :
    pChar (t ++ r) = some (c, r) ∧ (t ++ r).head? ≠ some '"' ∧ 0 < t.length := by
  cases h with
  | plain h1 h2 h3 =>
    refine ⟨?_, by simpa using h1, by simp⟩
    simp only [List.cons_append, List.nil_append, pChar]
    rw [if_neg h2, if_neg (by omega)]
  | @simple e c h =>
    have h' := (escValue_iff e c).2 h
    refine ⟨?_, by simp, by simp⟩
    have hu : e ≠ 'u' := by
      rintro rfl
      revert h'
      simp [escValue]
    simp [pChar, hu, h']
  | code h1 h2 =>
    rw [← hex4_iff] at h1
    refine ⟨?_, by simp, by simp⟩
    simp only [List.cons_append, List.nil_append, pChar, if_true, pUni, h1, h2]
  | pair h1 h2 h3 h4 h5 h6 =>
    rw [← hex4_iff] at h1 h2
    refine ⟨?_, by simp, by simp⟩
    simp only [List.cons_append, List.nil_append, pChar, if_true, pUni, h1, h2]
    rw [if_neg (by omega), if_neg (by omega)]
    simp [h5, h6]

theorem strBody_read {s t : List Char} (h : StrBody s t) (r : List Char) (f : Nat) (hf : t.length < f) :
    pStr f (t ++ '"' :: r) = some (s, r) := by
  induction h generalizing f with
  | nil =>
    cases f with
    | zero => omega
    | succ f => simp [pStr]
  | @cons c t s u hc _ ih =>
    cases f with
    | zero => omega
    | succ f =>
      obtain ⟨h1, h2, h3⟩ := strChar_read hc (u ++ '"' :: r)
      rw [List.length_append] at hf
      rw [List.append_assoc, pStr, if_neg h2, h1]
      simp only
      rw [ih f (by omega)]
      rfl

/-! ## Numbers -/

theorem digit_not {c : Char} (h : Digit c) (x : Char) (hx : ¬ Digit x) : c ≠ x := by
  rintro rfl
  exact hx h

/-- What may follow a number. -/
def NumEnd (r : List Char) : Prop := ∀ c, r.head? = some c → ¬ Digit c ∧ c ≠ '.' ∧ c ≠ 'e' ∧ c ≠ 'E'

theorem pExp_sound {l r : List Char} {b : Bool} (h : pExp l = some (b, r)) :
    (b = false ∧ r = l) ∨ (b = true ∧ ∃ t, Expo t ∧ l = t ++ r) := by
  unfold pExp at h
  split at h
  · rename_i c r'
    split_ifs at h with h1 h2
    · simp only at h
      split_ifs at h with h3
      · cases h
        obtain ⟨h4, h5⟩ := digits_split r'.tail
        refine Or.inr ⟨rfl, ?_⟩
        cases r' with
        | nil => simp at h2
        | cons s r'' =>
          simp only [List.head?_cons, Option.some.injEq, List.tail_cons] at h2 h3 h4 h5 ⊢
          refine ⟨c :: ([s] ++ r''.takeWhile jDigit), ⟨c, [s], _, h1, ?_, ⟨by simpa using h3, h4⟩, rfl⟩, ?_⟩
          · rcases h2 with rfl | rfl <;> simp
          · rw [List.cons_append, List.append_assoc, ← h5]
            simp
    · simp only at h
      split_ifs at h with h3
      · cases h
        obtain ⟨h4, h5⟩ := digits_split r'
        refine Or.inr ⟨rfl, c :: ([] ++ r'.takeWhile jDigit), ⟨c, [], _, h1, Or.inl rfl, ⟨by simpa using h3, h4⟩, rfl⟩, ?_⟩
        rw [List.nil_append, List.cons_append, ← h5]
    · cases h
      exact Or.inl ⟨rfl, rfl⟩
  · cases h
    exact Or.inl ⟨rfl, rfl⟩

theorem pFrac_sound {l r : List Char} {b : Bool} (h : pFrac l = some (b, r)) :
    (b = false ∧ r = l) ∨ (b = true ∧ ∃ t, Frac t ∧ l = t ++ r) := by
  unfold pFrac at h
  split at h
  · rename_i c r'
    split_ifs at h with h1 h3
    · cases h
      obtain ⟨h4, h5⟩ := digits_split r'
      refine Or.inr ⟨rfl, '.' :: r'.takeWhile jDigit, ⟨_, ⟨by simpa using h3, h4⟩, rfl⟩, ?_⟩
      rw [List.cons_append, ← h5, h1]
    · cases h
      exact Or.inl ⟨rfl, rfl⟩
  · cases h
    exact Or.inl ⟨rfl, rfl⟩

theorem pNum_sound {l r : List Char} {j : Json} (h : pNum l = some (j, r)) : ∃ t, JsonText j t ∧ l = t ++ r := by
  unfold pNum at h
  simp only at h
  obtain ⟨neg, s, l', hs, hl, hneg, hl'⟩ : ∃ neg s l', Sign neg s ∧ l = s ++ l' ∧ decide (l.head? = some '-') = neg ∧
      (if l.head? = some '-' then l.tail else l) = l' := by
    by_cases hh : l.head? = some '-'
    · cases l with
      | nil => cases hh
      | cons a l =>
        simp only [List.head?_cons, Option.some.injEq] at hh
        subst hh
        exact ⟨true, ['-'], l, rfl, rfl, by simp, by simp⟩
    · exact ⟨false, [], l, rfl, rfl, by simp [hh], by simp [hh]⟩
  rw [hneg, hl'] at h
  subst hl
  clear hneg hl'
  by_cases h1 : (l'.takeWhile jDigit).isEmpty = true ∨ (l'.takeWhile jDigit).head? = some '0' ∧ 1 < (l'.takeWhile jDigit).length
  · rw [if_pos h1] at h; cases h
  rw [if_neg h1] at h
  push Not at h1
  obtain ⟨hd, e1⟩ := digits_split l'
  have hi : IntPart (l'.takeWhile jDigit) := by
    refine ⟨⟨by simpa using h1.1, hd⟩, fun h0 => ?_⟩
    have h2 := h1.2 h0
    have h3 : (l'.takeWhile jDigit) ≠ [] := by simpa using h1.1
    match hh : l'.takeWhile jDigit with
    | [] => exact absurd hh h3
    | [a] => rw [hh] at h0; simp only [List.head?_cons, Option.some.injEq] at h0; rw [h0]
    | a :: b :: t => rw [hh] at h2; simp at h2
  split at h
  · cases h
  · rename_i b₁ l₁ hf
    split at h
    · cases h
    · rename_i b₂ l₂ he
      simp only [Option.some.injEq, Prod.mk.injEq] at h
      obtain ⟨rfl, rfl⟩ := h
      rcases pFrac_sound hf with ⟨rfl, rfl⟩ | ⟨rfl, u, hu, e2⟩ <;> rcases pExp_sound he with ⟨rfl, rfl⟩ | ⟨rfl, v, hv, e3⟩
      · refine ⟨_, by rw [decValue_eq]; exact .num hs hi, ?_⟩
        rw [List.append_assoc, ← e1]
      · refine ⟨_, .expo hs hi hv, ?_⟩
        rw [List.append_assoc, List.append_assoc, ← e3, ← e1]
      · refine ⟨_, .frac hs hi hu, ?_⟩
        rw [List.append_assoc, List.append_assoc, ← e2, ← e1]
      · refine ⟨_, .fracExpo hs hi hu hv, ?_⟩
        rw [List.append_assoc, List.append_assoc, List.append_assoc, ← e3, ← e2, ← e1]

theorem digits_read {d r : List Char} (hd : ∀ c ∈ d, Digit c) (hr : ∀ c, r.head? = some c → ¬ Digit c) :
    (d ++ r).takeWhile jDigit = d ∧ (d ++ r).dropWhile jDigit = r := by
  obtain ⟨h1, h2⟩ := dropWhile_app (p := jDigit) (w := d) (r := r) (fun c hc => (jDigit_iff c).2 (hd c hc))
    (fun c hc => by simpa [← Bool.not_eq_true, jDigit_iff] using hr c hc)
  exact ⟨h2, h1⟩

theorem pExp_none {r : List Char} (h : NumEnd r) : pExp r = some (false, r) := by
  unfold pExp
  split
  · rename_i c r'
    have := h c rfl
    rw [if_neg (by simp [this])]
  · rfl

theorem pExp_read {t r : List Char} (h : Expo t) (hr : NumEnd r) : pExp (t ++ r) = some (true, r) := by
  obtain ⟨e, s, d, he, hs, ⟨hd0, hd⟩, rfl⟩ := h
  obtain ⟨h1, h2⟩ := digits_read hd fun c hc => (hr c hc).1
  have h3 : (if (s ++ d ++ r).head? = some '+' ∨ (s ++ d ++ r).head? = some '-' then (s ++ d ++ r).tail else s ++ d ++ r) = d ++ r := by
    rcases hs with rfl | rfl | rfl
    · cases d with
      | nil => exact absurd rfl hd0
      | cons a d =>
        have ha := hd a (by simp)
        rw [if_neg]
        · rfl
        · have h4 := digit_not ha '+' (by decide)
          have h5 := digit_not ha '-' (by decide)
          simp [h4, h5]
    · simp
    · simp
  simp only [List.cons_append, pExp, if_pos he, h3, h1, h2]
  simp [hd0]

theorem pFrac_none {r : List Char} (h : r.head? ≠ some '.') : pFrac r = some (false, r) := by
  unfold pFrac
  split
  · rename_i c r'
    rw [if_neg (by simpa using h)]
  · rfl

theorem pFrac_read {t r : List Char} (h : Frac t) (hr : ∀ c, r.head? = some c → ¬ Digit c) : pFrac (t ++ r) = some (true, r) := by
  obtain ⟨d, ⟨hd0, hd⟩, rfl⟩ := h
  obtain ⟨h1, h2⟩ := digits_read hd hr
  simp only [List.cons_append, pFrac, if_true, h1, h2]
  simp [hd0]

theorem pNum_core {neg : Bool} {s t q : List Char} (hs : Sign neg s) (ht : IntPart t) (hq : ∀ c, q.head? = some c → ¬ Digit c) :
    pNum (s ++ t ++ q) = match pFrac q with
      | none => none
      | some (b₁, l) => match pExp l with
        | none => none
        | some (b₂, l) => some (if b₁ || b₂ then .float else .num (if neg then -(decValue t : Int) else decValue t), l) := by
  obtain ⟨⟨ht0, htd⟩, htz⟩ := ht
  obtain ⟨h1, h2⟩ := digits_read htd hq
  have h3 : decide ((s ++ t ++ q).head? = some '-') = neg ∧ (if (s ++ t ++ q).head? = some '-' then (s ++ t ++ q).tail else s ++ t ++ q) = t ++ q := by
    cases neg
    · simp only [Sign, Bool.false_eq_true, if_false] at hs
      subst hs
      cases t with
      | nil => exact absurd rfl ht0
      | cons a t =>
        have := digit_not (htd a (by simp)) '-' (by decide)
        simp [this]
    · simp only [Sign, if_true] at hs
      subst hs
      simp
  have h4 : ¬ (t.isEmpty = true ∨ (t.head? = some '0' ∧ 1 < t.length)) := by
    rintro (h | ⟨h, h'⟩)
    · exact ht0 (by simpa using h)
    · rw [htz h] at h'; simp at h'
  unfold pNum
  simp only [h3.1, h3.2, h1, h2]
  rw [if_neg h4]
  rfl

theorem frac_head {u r : List Char} (h : Frac u) : ∀ c, (u ++ r).head? = some c → ¬ Digit c := by
  obtain ⟨d, -, rfl⟩ := h
  rintro c ⟨⟩
  decide

theorem expo_head {u r : List Char} (h : Expo u) : ∀ c, (u ++ r).head? = some c → ¬ Digit c ∧ c ≠ '.' := by
  obtain ⟨e, s, d, he, -, -, rfl⟩ := h
  rintro c ⟨⟩
  rcases he with rfl | rfl <;> decide

/-- Values that are numbers. -/
def IsNumber : Json → Prop
  | .num _ => True
  | .float => True
  | _ => False

theorem num_read {neg : Bool} {s t : List Char} (hs : Sign neg s) (ht : IntPart t) {r : List Char} (hr : NumEnd r) :
    pNum (s ++ t ++ r) = some (.num (if neg then -(decimal t : Int) else decimal t), r) := by
  rw [← decValue_eq, pNum_core hs ht fun c hc => (hr c hc).1, pFrac_none fun h => (hr _ h).2.1 rfl]
  simp only
  rw [pExp_none hr]
  rfl

theorem frac_read {neg : Bool} {s t u : List Char} (hs : Sign neg s) (ht : IntPart t) (hu : Frac u) {r : List Char} (hr : NumEnd r) :
    pNum (s ++ t ++ (u ++ r)) = some (.float, r) := by
  rw [pNum_core hs ht (frac_head hu), pFrac_read hu fun c hc => (hr c hc).1]
  simp only
  rw [pExp_none hr]
  rfl

theorem expo_read {neg : Bool} {s t u : List Char} (hs : Sign neg s) (ht : IntPart t) (hu : Expo u) {r : List Char} (hr : NumEnd r) :
    pNum (s ++ t ++ (u ++ r)) = some (.float, r) := by
  rw [pNum_core hs ht fun c hc => (expo_head hu c hc).1, pFrac_none fun h => (expo_head hu _ h).2 rfl]
  simp only
  rw [pExp_read hu hr]
  rfl

theorem fracExpo_read {neg : Bool} {s t u v : List Char} (hs : Sign neg s) (ht : IntPart t) (hu : Frac u) (hv : Expo v) {r : List Char}
    (hr : NumEnd r) : pNum (s ++ t ++ (u ++ (v ++ r))) = some (.float, r) := by
  rw [pNum_core hs ht (frac_head hu), pFrac_read hu fun c hc => (expo_head hv c hc).1]
  simp only
  rw [pExp_read hv hr]
  rfl

/-! ## Values -/

theorem signInt_head {neg : Bool} {s t : List Char} (hs : Sign neg s) (ht : IntPart t) (r : List Char) :
    ∃ c u, s ++ t ++ r = c :: u ∧ (c = '-' ∨ Digit c) := by
  cases neg
  · simp only [Sign, Bool.false_eq_true, if_false] at hs
    subst hs
    cases t with
    | nil => exact absurd rfl ht.1.1
    | cons a t => exact ⟨a, t ++ r, rfl, Or.inr (ht.1.2 a (by simp))⟩
  · simp only [Sign, if_true] at hs
    subst hs
    exact ⟨'-', t ++ r, rfl, Or.inl rfl⟩

theorem num_dispatch {f : Nat} {c : Char} {u : List Char} (h : c = '-' ∨ Digit c) : pVal (f + 1) (c :: u) = pNum (c :: u) := by
  have key : ∀ x : Char, ¬ Digit x → x ≠ '-' → c ≠ x := by
    intro x h1 h2
    rcases h with rfl | h
    · exact h2.symm
    · exact digit_not h x h1
  unfold pVal
  rw [if_neg (key _ (by decide) (by decide)), if_neg (key _ (by decide) (by decide)), if_neg (key _ (by decide) (by decide)),
    if_neg (key _ (by decide) (by decide)), if_neg (key _ (by decide) (by decide)), if_neg (key _ (by decide) (by decide))]

/-- The first character of a value. -/
def ValHead (c : Char) : Prop := c = 'n' ∨ c = 't' ∨ c = 'f' ∨ c = '"' ∨ c = '[' ∨ c = '{' ∨ c = '-' ∨ Digit c

theorem ValHead.ne {c : Char} (h : ValHead c) : jWs c = false ∧ c ≠ ']' ∧ c ≠ '}' := by
  rcases h with rfl | rfl | rfl | rfl | rfl | rfl | rfl | h
  iterate 7 decide
  refine ⟨?_, digit_not h _ (by decide), digit_not h _ (by decide)⟩
  rw [← Bool.not_eq_true, jWs_iff]
  rintro (rfl | rfl | rfl | rfl) <;> revert h <;> decide

theorem val_head {j : Json} {t : List Char} (h : JsonText j t) : ∃ c u, t = c :: u ∧ ValHead c := by
  have key : ∀ {neg : Bool} {s t : List Char}, Sign neg s → IntPart t → ∀ r, ∃ c u, s ++ t ++ r = c :: u ∧ ValHead c := by
    intro neg s t hs ht r
    obtain ⟨c, u, e, h⟩ := signInt_head hs ht r
    refine ⟨c, u, e, ?_⟩
    unfold ValHead
    rcases h with h | h <;> simp [h]
  cases h with
  | null => exact ⟨_, _, rfl, by simp [ValHead]⟩
  | tru => exact ⟨_, _, rfl, by simp [ValHead]⟩
  | fals => exact ⟨_, _, rfl, by simp [ValHead]⟩
  | num h1 h2 => simpa using key h1 h2 []
  | frac h1 h2 h3 => exact key h1 h2 _
  | expo h1 h2 h3 => exact key h1 h2 _
  | fracExpo h1 h2 h3 h4 => simpa using key h1 h2 (_ ++ _)
  | str h => exact ⟨_, _, rfl, by simp [ValHead]⟩
  | arrNil h => exact ⟨_, _, rfl, by simp [ValHead]⟩
  | arr h => exact ⟨_, _, rfl, by simp [ValHead]⟩
  | objNil h => exact ⟨_, _, rfl, by simp [ValHead]⟩
  | obj h => exact ⟨_, _, rfl, by simp [ValHead]⟩

theorem skipWs_val {w t r : List Char} {j : Json} (hw : Ws w) (h : JsonText j t) : skipWs (w ++ (t ++ r)) = t ++ r := by
  obtain ⟨c, u, rfl, hc⟩ := val_head h
  apply skipWs_app hw
  rintro d ⟨⟩
  exact hc.ne.1

theorem skipWs_char {w r : List Char} {c : Char} (hw : Ws w) (h : jWs c = false) : skipWs (w ++ c :: r) = c :: r := by
  apply skipWs_app hw
  rintro d ⟨⟩
  exact h

theorem numEnd_ws {w r : List Char} {c : Char} (hw : Ws w) (hc : c = ',' ∨ c = ']' ∨ c = '}') : NumEnd (w ++ c :: r) := by
  intro d hd
  cases w with
  | nil =>
    cases hd
    rcases hc with rfl | rfl | rfl <;> decide
  | cons a w =>
    simp only [List.cons_append, List.head?_cons, Option.some.injEq] at hd
    subst hd
    rcases hw a (by simp) with rfl | rfl | rfl | rfl <;> decide

theorem elements_head {l : List Json} {t : List Char} (h : Elements l t) (r : List Char) : (skipWs (t ++ r)).head? ≠ some ']' := by
  cases h with
  | one hw hj _ =>
    rw [List.append_assoc, List.append_assoc, skipWs_val hw hj]
    obtain ⟨c, u, rfl, hc⟩ := val_head hj
    simpa using hc.ne.2.1
  | cons hw hj _ _ =>
    rw [List.append_assoc, List.append_assoc, skipWs_val hw hj]
    obtain ⟨c, u, rfl, hc⟩ := val_head hj
    simpa using hc.ne.2.1

theorem members_head {l : List (String × Json)} {t : List Char} (h : Members l t) (r : List Char) :
    (skipWs (t ++ r)).head? ≠ some '}' := by
  cases h with
  | one hw _ _ _ _ _ =>
    rw [List.append_assoc, List.cons_append, skipWs_char hw (by decide)]
    simp
  | cons hw _ _ _ _ _ _ =>
    rw [List.append_assoc, List.cons_append, skipWs_char hw (by decide)]
    simp

mutual
theorem val_read {j : Json} {t : List Char} (h : JsonText j t) (f : Nat) (r : List Char) (hf : 2 * t.length ≤ f)
    (hr : IsNumber j → NumEnd r) : pVal f (t ++ r) = some (j, r) := by
  have hf0 : ∃ g, f = g + 1 := by
    obtain ⟨c, u, rfl, _⟩ := val_head h
    exact ⟨f - 1, by simp at hf; omega⟩
  obtain ⟨g, rfl⟩ := hf0
  match h with
  | .null => simp [pVal]
  | .tru => simp [pVal]
  | .fals => simp [pVal]
  | .num h1 h2 =>
    obtain ⟨c, u, e, hc⟩ := signInt_head h1 h2 r
    rw [e, num_dispatch hc, ← e]
    exact num_read h1 h2 (hr trivial)
  | .frac (s := s) (t := t) (u := u) h1 h2 h3 =>
    obtain ⟨c, u', e, hc⟩ := signInt_head h1 h2 (u ++ r)
    rw [List.append_assoc, e, num_dispatch hc, ← e]
    exact frac_read h1 h2 h3 (hr trivial)
  | .expo (s := s) (t := t) (u := u) h1 h2 h3 =>
    obtain ⟨c, u', e, hc⟩ := signInt_head h1 h2 (u ++ r)
    rw [List.append_assoc, e, num_dispatch hc, ← e]
    exact expo_read h1 h2 h3 (hr trivial)
  | .fracExpo (s := s) (t := t) (u := u) (v := v) h1 h2 h3 h4 =>
    obtain ⟨c, u', e, hc⟩ := signInt_head h1 h2 (u ++ (v ++ r))
    rw [List.append_assoc, List.append_assoc, e, num_dispatch hc, ← e]
    exact fracExpo_read h1 h2 h3 h4 (hr trivial)
  | .str (s := s) (t := t) h1 =>
    rw [List.cons_append, List.append_assoc, List.singleton_append]
    simp only [pVal, if_true]
    rw [strBody_read h1 r _ (by simp; omega)]
    rfl
  | .arrNil (w := w) h1 =>
    rw [List.cons_append, List.append_assoc, List.singleton_append]
    simp [pVal, skipWs_char (r := r) (c := ']') h1 (by decide)]
  | .arr (l := l) (t := t) h1 =>
    have := elems_read h1 g r (by simp only [List.length_cons, List.length_append] at hf; omega)
    rw [List.cons_append, List.append_assoc, List.singleton_append]
    simp [pVal, elements_head h1 (']' :: r), this]
  | .objNil (w := w) h1 =>
    rw [List.cons_append, List.append_assoc, List.singleton_append]
    simp [pVal, skipWs_char (r := r) (c := '}') h1 (by decide)]
  | .obj (l := l) (t := t) h1 =>
    have := members_read h1 g r (by simp only [List.length_cons, List.length_append] at hf; omega)
    rw [List.cons_append, List.append_assoc, List.singleton_append]
    simp [pVal, members_head h1 ('}' :: r), this]

theorem elems_read {l : List Json} {t : List Char} (h : Elements l t) (f : Nat) (r : List Char) (hf : 2 * t.length + 1 ≤ f) :
    pElems f (t ++ ']' :: r) = some (l, r) := by
  obtain ⟨g, rfl⟩ : ∃ g, f = g + 1 := ⟨f - 1, by omega⟩
  match h with
  | .one (j := j) (w := w) (t := t) (w' := w') hw hj hw' =>
    simp only [List.length_append] at hf
    have := val_read hj g (w' ++ ']' :: r) (by omega) fun _ => numEnd_ws hw' (by simp)
    rw [List.append_assoc, List.append_assoc, pElems, skipWs_val hw hj, this]
    simp only
    rw [skipWs_char hw' (by decide)]
    simp
  | .cons (j := j) (l := l) (w := w) (t := t) (w' := w') (u := u) hw hj hw' hl =>
    simp only [List.length_append, List.length_cons] at hf
    have h1 := val_read hj g (w' ++ ',' :: (u ++ ']' :: r)) (by omega) fun _ => numEnd_ws hw' (by simp)
    have h2 := elems_read hl g r (by omega)
    rw [List.append_assoc, List.append_assoc, List.append_assoc, List.cons_append, pElems, skipWs_val hw hj, h1]
    simp only
    rw [skipWs_char hw' (by decide)]
    simp [h2]

theorem members_read {l : List (String × Json)} {t : List Char} (h : Members l t) (f : Nat) (r : List Char)
    (hf : 2 * t.length + 1 ≤ f) : pMembers f (t ++ '}' :: r) = some (l, r) := by
  obtain ⟨g, rfl⟩ : ∃ g, f = g + 1 := ⟨f - 1, by omega⟩
  match h with
  | .one (k := k) (s := s) (j := j) (w := w) (w₂ := w₂) (w₃ := w₃) (w₄ := w₄) (t := t) hw hk h2 h3 hj h4 =>
    simp only [List.length_append, List.length_cons] at hf
    have e1 := val_read hj g (w₄ ++ '}' :: r) (by omega) fun _ => numEnd_ws h4 (by simp)
    simp only [List.append_assoc, List.cons_append]
    rw [pMembers, skipWs_char hw (by decide)]
    simp only [List.head?_cons, if_true, List.tail_cons]
    rw [strBody_read hk _ _ (by simp; omega)]
    simp only
    rw [skipWs_char h2 (by decide)]
    simp only [List.head?_cons, if_true, List.tail_cons]
    rw [skipWs_val h3 hj, e1]
    simp only
    rw [skipWs_char h4 (by decide)]
    simp
  | .cons (k := k) (s := s) (j := j) (l := l) (w := w) (w₂ := w₂) (w₃ := w₃) (w₄ := w₄) (t := t) (u := u) hw hk h2 h3 hj h4 hl =>
    simp only [List.length_append, List.length_cons] at hf
    have e1 := val_read hj g (w₄ ++ ',' :: (u ++ '}' :: r)) (by omega) fun _ => numEnd_ws h4 (by simp)
    have e2 := members_read hl g r (by omega)
    simp only [List.append_assoc, List.cons_append]
    rw [pMembers, skipWs_char hw (by decide)]
    simp only [List.head?_cons, if_true, List.tail_cons]
    rw [strBody_read hk _ _ (by simp; omega)]
    simp only
    rw [skipWs_char h2 (by decide)]
    simp only [List.head?_cons, if_true, List.tail_cons]
    rw [skipWs_val h3 hj, e1]
    simp only
    rw [skipWs_char h4 (by decide)]
    simp [e2]
end

theorem cons_of_head {l : List Char} {c : Char} (h : l.head? = some c) : l = c :: l.tail := by
  cases l with
  | nil => cases h
  | cons a l => simp only [List.head?_cons, Option.some.injEq] at h; subst h; rfl

theorem sound (f : Nat) :
    (∀ l j r, pVal f l = some (j, r) → ∃ t, JsonText j t ∧ l = t ++ r) ∧
    (∀ l js r, pElems f l = some (js, r) → ∃ t, Elements js t ∧ l = t ++ ']' :: r) ∧
    (∀ l ms r, pMembers f l = some (ms, r) → ∃ t, Members ms t ∧ l = t ++ '}' :: r) := by
  induction f with
  | zero => refine ⟨?_, ?_, ?_⟩ <;> (intro l a r h; cases h)
  | succ f ih =>
    obtain ⟨ihv, ihe, ihm⟩ := ih
    refine ⟨?_, ?_, ?_⟩
    · intro l j r h
      cases l with
      | nil => cases h
      | cons c l =>
        unfold pVal at h
        split_ifs at h with h1 h2 h3 h4 h5 h6 h7 h8 h9 h10 h11
        · rw [Option.map_eq_some_iff] at h
          obtain ⟨⟨s, r'⟩, hs, e⟩ := h
          cases e
          obtain ⟨t, ht, rfl⟩ := pStr_sound hs
          subst h1
          exact ⟨_, .str ht, by simp⟩
        · cases h
          obtain ⟨w, hw, e, -⟩ := skipWs_split l
          have e2 := cons_of_head h3
          subst h2
          refine ⟨_, .arrNil hw, ?_⟩
          rw [List.cons_append, List.append_assoc, List.singleton_append, ← e2, ← e]
        · rw [Option.map_eq_some_iff] at h
          obtain ⟨⟨s, r'⟩, hs, e⟩ := h
          cases e
          obtain ⟨t, ht, rfl⟩ := ihe _ _ _ hs
          subst h2
          exact ⟨_, .arr ht, by simp⟩
        · cases h
          obtain ⟨w, hw, e, -⟩ := skipWs_split l
          have e2 := cons_of_head h5
          subst h4
          refine ⟨_, .objNil hw, ?_⟩
          rw [List.cons_append, List.append_assoc, List.singleton_append, ← e2, ← e]
        · rw [Option.map_eq_some_iff] at h
          obtain ⟨⟨s, r'⟩, hs, e⟩ := h
          cases e
          obtain ⟨t, ht, rfl⟩ := ihm _ _ _ hs
          subst h4
          exact ⟨_, .obj ht, by simp⟩
        · cases h
          subst h6
          refine ⟨_, .null, ?_⟩
          conv_lhs => rw [← List.take_append_drop 3 l, h7]
          rfl
        · cases h
          subst h8
          refine ⟨_, .tru, ?_⟩
          conv_lhs => rw [← List.take_append_drop 3 l, h9]
          rfl
        · cases h
          subst h10
          refine ⟨_, .fals, ?_⟩
          conv_lhs => rw [← List.take_append_drop 4 l, h11]
          rfl
        · exact pNum_sound h
    · intro l js r h
      unfold pElems at h
      split at h
      · cases h
      · rename_i j r₁ hv
        obtain ⟨t, ht, e1⟩ := ihv _ _ _ hv
        obtain ⟨w, hw, e2, -⟩ := skipWs_split l
        obtain ⟨w', hw', e3, -⟩ := skipWs_split r₁
        split at h
        · cases h
        · rename_i c r₂ hr
          split_ifs at h with h1 h2
          · rw [Option.map_eq_some_iff] at h
            obtain ⟨⟨s, r'⟩, hs, e⟩ := h
            cases e
            obtain ⟨u, hu, rfl⟩ := ihe _ _ _ hs
            subst h1
            refine ⟨_, .cons hw ht hw' hu, ?_⟩
            rw [e2, e1, e3, hr]
            simp
          · cases h
            subst h2
            refine ⟨_, .one hw ht hw', ?_⟩
            rw [e2, e1, e3, hr]
            simp
    · intro l ms r h
      unfold pMembers at h
      split_ifs at h with h0
      split at h
      · cases h
      · rename_i k r₁ hk
        obtain ⟨w, hw, e0, -⟩ := skipWs_split l
        obtain ⟨s, hs, e1⟩ := pStr_sound hk
        have e0' := cons_of_head h0
        split_ifs at h with h1
        obtain ⟨w₂, hw₂, e2, -⟩ := skipWs_split r₁
        have e2' := cons_of_head h1
        split at h
        · cases h
        · rename_i j r₂ hv
          obtain ⟨t, ht, e3⟩ := ihv _ _ _ hv
          obtain ⟨w₃, hw₃, e4, -⟩ := skipWs_split (skipWs r₁).tail
          obtain ⟨w₄, hw₄, e5, -⟩ := skipWs_split r₂
          split at h
          · cases h
          · rename_i c r₃ hr
            split_ifs at h with h3 h4
            · rw [Option.map_eq_some_iff] at h
              obtain ⟨⟨m', r'⟩, hs', e⟩ := h
              cases e
              obtain ⟨u, hu, rfl⟩ := ihm _ _ _ hs'
              subst h3
              refine ⟨_, .cons hw hs hw₂ hw₃ ht hw₄ hu, ?_⟩
              rw [e0, e0', e1, e2, e2', e4, e3, e5, hr]
              simp
            · cases h
              subst h4
              refine ⟨_, .one hw hs hw₂ hw₃ ht hw₄, ?_⟩
              rw [e0, e0', e1, e2, e2', e4, e3, e5, hr]
              simp

end Chalamet
