import Verif.Lemmas.JsonText
import Verif.Props.Written

/-!
# C99: files as texts

The reader accepts exactly the texts of the JSON grammar (`Spec.Document`); what is written is read back; a file cut short at any
character is never mistaken for a document.
-/

namespace Chalamet
open Spec

theorem jsonText_length {j : Json} {t : List Char} (h : JsonText j t) : 0 < t.length := by
  obtain ⟨c, u, rfl, _⟩ := val_head h
  simp

theorem numEnd_of_ws {w : List Char} (h : Ws w) : NumEnd w := by
  intro c hc
  cases w with
  | nil => cases hc
  | cons a w =>
    simp only [List.head?_cons, Option.some.injEq] at hc
    subst hc
    rcases h a (by simp) with rfl | rfl | rfl | rfl <;> decide

theorem skipWs_eq_nil {l : List Char} : skipWs l = [] ↔ Ws l := by
  constructor
  · intro h
    obtain ⟨w, hw, e, -⟩ := skipWs_split l
    rw [h, List.append_nil] at e
    rwa [e]
  · intro h
    have := skipWs_app (r := []) h (by simp)
    simpa using this

/-- **C99 (the reader).** A text is read as the document `j` exactly if it is one of the ways to write `j` allowed by RFC 8259, white
space around it; every other text is an error value. -/
theorem C99_reader (t : List Char) :
    (∀ j, parseJson t = .ok j ↔ Document j t) ∧ ((∀ j, ¬ Document j t) → parseJson t = .err .json) := by
  have key : ∀ j, parseJson t = .ok j ↔ Document j t := by
    intro j
    constructor
    · intro h
      unfold parseJson at h
      split at h
      · cases h
      · rename_i j' r hv
        split_ifs at h with hr
        cases h
        obtain ⟨v, hj, e⟩ := (sound _).1 _ _ _ hv
        obtain ⟨w, hw, e2, -⟩ := skipWs_split t
        exact ⟨w, v, r, hw, hj, skipWs_eq_nil.1 hr, by rw [e2, e]; simp⟩
    · rintro ⟨w, v, w', hw, hj, hw', rfl⟩
      unfold parseJson
      rw [List.append_assoc, skipWs_val hw hj, val_read hj _ w' (by simp; omega) fun _ => numEnd_of_ws hw']
      simp only
      rw [if_pos (skipWs_eq_nil.2 hw')]
  refine ⟨key, fun h => ?_⟩
  unfold parseJson
  split
  · rfl
  · rename_i j r hv
    split_ifs with hr
    · refine absurd ((key j).1 ?_) (h j)
      unfold parseJson
      rw [hv]
      simp only
      rw [if_pos hr]
    · rfl

/-- **C99 (no ambiguity).** A text is a way to write at most one document. -/
theorem C99_unambiguous (t : List Char) (j j' : Json) (h : Document j t) (h' : Document j' t) : j = j' := by
  have h1 := ((C99_reader t).1 j).2 h
  rw [((C99_reader t).1 j').2 h'] at h1
  cases h1
  rfl

/-- **C99 (cut short).** A document that is an array or an object, written in any way, is not a document any more when anything is
missing at its end: the reader returns an error value. -/
theorem C99_truncated (t : List Char) (j : Json) (h : JsonText j t) (hj : (∃ l, j = .arr l) ∨ ∃ l, j = .obj l) (k : Nat)
    (hk : k < t.length) : parseJson (t.take k) = .err .json := by
  refine (C99_reader _).2 fun j' => ?_
  rintro ⟨w, v, w', hw, hv, -, e⟩
  have hj' : ¬ IsNumber j := by rcases hj with ⟨l, rfl⟩ | ⟨l, rfl⟩ <;> simp [IsNumber]
  -- the first character
  have hhead : ∃ c u, t = c :: u ∧ (c = '[' ∨ c = '{') := by
    rcases hj with ⟨l, rfl⟩ | ⟨l, rfl⟩ <;> cases h <;> exact ⟨_, _, rfl, by simp⟩
  obtain ⟨c, u, ht, hc⟩ := hhead
  have hwn : w = [] := by
    cases w with
    | nil => rfl
    | cons a w =>
      exfalso
      have ha : (t.take k).head? = some a := by rw [e]; rfl
      have : t.head? = some a := by
        cases k with
        | zero => simp at ha
        | succ k => simpa [ht] using ha
      rw [ht] at this
      simp only [List.head?_cons, Option.some.injEq] at this
      subst this
      have := hw c (by simp)
      rcases hc with rfl | rfl <;> revert this <;> decide
  subst hwn
  have ht2 : t = v ++ (w' ++ t.drop k) := by
    conv_lhs => rw [← List.take_append_drop k t, e]
    simp
  have hn' : ¬ IsNumber j' := by
    intro hn
    have hh : v.head? = some c := by
      obtain ⟨x, y, rfl, -⟩ := val_head hv
      rw [ht] at ht2
      simp only [List.cons_append, List.cons.injEq] at ht2
      simp [ht2.1]
    have key : ∀ {neg : Bool} {s t r : List Char}, Sign neg s → IntPart t → (s ++ t ++ r).head? = some c → False := by
      intro neg s t r hs ht hh
      obtain ⟨x, y, e, hx⟩ := signInt_head hs ht r
      rw [e] at hh
      simp only [List.head?_cons, Option.some.injEq] at hh
      subst hh
      rcases hc with rfl | rfl <;> revert hx <;> decide
    cases hv with
    | num h1 h2 => exact key (r := []) h1 h2 (by simpa using hh)
    | frac h1 h2 h3 => exact key h1 h2 hh
    | expo h1 h2 h3 => exact key h1 h2 hh
    | fracExpo h1 h2 h3 h4 => rw [List.append_assoc] at hh; exact key h1 h2 hh
    | _ => exact hn
  have e1 := val_read h (2 * t.length) [] (le_refl _) fun h => absurd h hj'
  have e2 := val_read hv (2 * t.length) (w' ++ t.drop k) (by
    have := congrArg List.length ht2
    rw [List.length_append] at this
    omega) fun h => absurd h hn'
  rw [← ht2] at e2
  rw [List.append_nil, e2] at e1
  simp only [Option.some.injEq, Prod.mk.injEq, List.append_eq_nil_iff, List.drop_eq_nil_iff] at e1
  omega

/-! ## Printing -/

theorem decText_int (n : Nat) : IntPart (decText n) ∧ decimal (decText n) = n := by
  have hd : ∀ n, ∀ c ∈ decText n, Digit c := by
    intro n c hc
    have := Nat.isDigit_of_mem_toDigits (by omega) (by omega) hc
    rw [Char.isDigit] at this
    simp only [Bool.and_eq_true, decide_eq_true_eq] at this
    exact this
  refine ⟨⟨⟨Nat.toDigits_ne_nil, hd n⟩, ?_⟩, ?_⟩
  · induction n using Nat.strong_induction_on with
    | _ n ih =>
      intro h
      unfold decText at h ⊢
      by_cases h10 : n < 10
      · rw [Nat.toDigits_of_lt_base h10] at h ⊢
        simp only [List.head?_cons, Option.some.injEq] at h
        rw [h]
      · rw [Nat.toDigits_of_base_le (by omega) (by omega)] at h ⊢
        exfalso
        have hne : Nat.toDigits 10 (n / 10) ≠ [] := Nat.toDigits_ne_nil
        rw [List.head?_append_of_ne_nil _ hne] at h
        have h2 := ih (n / 10) (by omega) h
        have h3 := Nat.ofDigitChars_ten_toDigits (n := n / 10)
        rw [show Nat.toDigits 10 (n / 10) = ['0'] from h2] at h3
        have : n / 10 = 0 := by rw [← h3]; rfl
        omega
  · have := Nat.ofDigitChars_ten_toDigits (n := n)
    rw [Nat.ofDigitChars_eq_foldl] at this
    rw [← decValue_eq]
    unfold decValue decText
    have e : (fun (a : Nat) (c : Char) => a * 10 + (c.toNat - 48)) = fun a c => 10 * a + (c.toNat - '0'.toNat) := by
      funext a c
      rw [mul_comm]
      rfl
    rw [e, this]

theorem hexChar_ok (a b : Nat) (ha : a < 2) (hb : b < 16) : Hex4 '0' '0' (hexChar a) (hexChar b) (a * 16 + b) := by
  rw [← hex4_iff]
  have key : ∀ a, a < 2 → ∀ b, b < 16 → hex4 '0' '0' (hexChar a) (hexChar b) = some (a * 16 + b) := by decide
  exact key a ha b hb

theorem escText_ok (c : Char) : StrChar c (escText c) := by
  unfold escText
  have hc : ∀ n, c.toNat = n → c = Char.ofNat n := by
    rintro n rfl
    exact (Char.ofNat_toNat c).symm
  split_ifs with h1 h2 h3 h4 h5 h6 h7 h8
  · subst h1; exact .simple (by decide)
  · subst h2; exact .simple (by decide)
  · rw [hc _ h3]; exact .simple (by decide)
  · rw [hc _ h4]; exact .simple (by decide)
  · rw [hc _ h5]; exact .simple (by decide)
  · rw [hc _ h6]; exact .simple (by decide)
  · rw [hc _ h7]; exact .simple (by decide)
  · have h := StrChar.code (hexChar_ok (c.toNat / 16) (c.toNat % 16) (by omega) (by omega)) (Or.inl (by omega))
    rwa [show c.toNat / 16 * 16 + c.toNat % 16 = c.toNat by omega, Char.ofNat_toNat] at h
  · exact .plain h1 h2 (by omega)

theorem strBody_ok (s : List Char) : StrBody s (s.flatMap escText) := by
  induction s with
  | nil => exact .nil
  | cons c s ih => exact .cons (escText_ok c) ih

theorem ws_nil : Ws [] := by intro c hc; cases hc

theorem ws_space : Ws [' '] := by intro c hc; simp at hc; simp [hc]

/-- Elements printed one after another, with some white space after the commas. -/
theorem elements_ok {sep : List Char} (hs : Ws sep) : ∀ (l : List Json) (ts : List (List Char)) (w : List Char), Ws w → l ≠ [] →
    List.Forall₂ JsonText l ts → Elements l (w ++ sepText (',' :: sep) ts) := by
  intro l
  induction l with
  | nil => intro _ _ _ h; exact absurd rfl h
  | cons j l ih =>
    intro ts w hw _ h
    cases h with
    | @cons _ t _ ts hj hl =>
      cases hl with
      | nil =>
        have := Elements.one hw hj ws_nil
        simpa [sepText] using this
      | @cons j' t' l ts hj' hl' =>
        have h1 := ih (t' :: ts) sep hs (by simp) (.cons hj' hl')
        have h2 := Elements.cons hw hj ws_nil h1
        simpa [sepText] using h2

theorem members_ok : ∀ (l : List (String × Json)) (ts : List (List Char)), l ≠ [] →
    List.Forall₂ (fun kv t => ∃ u, JsonText kv.2 u ∧ t = strText kv.1.toList ++ ':' :: u) l ts → Members l (sepText [','] ts) := by
  intro l
  induction l with
  | nil => intro _ h; exact absurd rfl h
  | cons kv l ih =>
    intro ts _ h
    obtain ⟨k, j⟩ := kv
    cases h with
    | @cons _ t _ ts hj hl =>
      obtain ⟨u, hj, rfl⟩ := hj
      cases hl with
      | nil =>
        have := Members.one ws_nil (strBody_ok k.toList) ws_nil ws_nil hj ws_nil
        simpa [sepText, strText] using this
      | @cons kv' t' l ts hj' hl' =>
        have h1 := ih (t' :: ts) (by simp) (.cons hj' hl')
        have h2 := Members.cons ws_nil (strBody_ok k.toList) ws_nil ws_nil hj ws_nil h1
        simpa [sepText, strText] using h2

mutual
/-- **C99 (the writer).** What is printed for a document is a way to write it. -/
theorem C99_writer : (j : Json) → JsonText j j.text
  | .null => .null
  | .bool true => .tru
  | .bool false => .fals
  | .num n => by
    obtain ⟨h1, h2⟩ := decText_int n.natAbs
    rw [Json.text]
    split_ifs with hn
    · have := JsonText.num (neg := true) (s := ['-']) rfl h1
      rw [h2, if_pos rfl, show -(n.natAbs : Int) = n by omega] at this
      exact this
    · have := JsonText.num (neg := false) (s := []) rfl h1
      rw [h2, if_neg (by simp), show (n.natAbs : Int) = n by omega] at this
      exact this
  | .float => by
    have := JsonText.expo (neg := false) (s := []) (t := ['1']) (u := ['e', '0']) rfl ⟨⟨by simp, by decide⟩, by decide⟩
      ⟨'e', [], ['0'], Or.inl rfl, Or.inl rfl, ⟨by simp, by decide⟩, rfl⟩
    exact this
  | .str s => by
    have := JsonText.str (strBody_ok s)
    simpa [Json.text, strText] using this
  | .arr l => by
    cases l with
    | nil => exact .arrNil ws_nil
    | cons j l =>
      have := elements_ok ws_nil (j :: l) (Json.texts (j :: l)) [] ws_nil (by simp) (C99_writer_list (j :: l))
      exact .arr this
  | .obj l => by
    cases l with
    | nil => exact .objNil ws_nil
    | cons j l =>
      have := members_ok (j :: l) (Json.fieldTexts (j :: l)) (by simp) (C99_writer_fields (j :: l))
      exact .obj this
theorem C99_writer_list : (l : List Json) → List.Forall₂ JsonText l (Json.texts l)
  | [] => .nil
  | j :: l => .cons (C99_writer j) (C99_writer_list l)
theorem C99_writer_fields : (l : List (String × Json)) →
    List.Forall₂ (fun kv t => ∃ u, JsonText kv.2 u ∧ t = strText kv.1.toList ++ ':' :: u) l (Json.fieldTexts l)
  | [] => .nil
  | (_, j) :: l => .cons ⟨_, C99_writer j, rfl⟩ (C99_writer_fields l)
end

/-- **C99 (round trip).** What is printed for a document is read back as that document. -/
theorem C99_round_trip (j : Json) : parseJson j.text = .ok j :=
  ((C99_reader _).1 j).2 ⟨[], j.text, [], ws_nil, C99_writer j, ws_nil, by simp⟩

/-! ## Files -/

theorem parse_cases (t : List Char) : (∃ j, parseJson t = .ok j) ∨ parseJson t = .err .json := by
  by_cases h : ∃ j, Document j t
  · obtain ⟨j, h⟩ := h
    exact Or.inl ⟨j, ((C99_reader t).1 j).2 h⟩
  · exact Or.inr ((C99_reader t).2 fun j hj => h ⟨j, hj⟩)

/-- **C99 (files).** Reading a file and parsing its text is reading the document the text denotes, or an error value. -/
theorem C99_read (readable : Bool) (fs : TextFS) (path : Path) : readText readable fs path = readJson readable fs.view path := by
  unfold readText readJson TextFS.view textContent
  cases readable
  · rfl
  · cases h : fs path with
    | none => simp
    | some t =>
      rcases parse_cases t with ⟨j, hj⟩ | hj <;> simp [hj]

/-- What a single write leaves: everything else as it was; the file as it was (it could not be created), complete, or cut short and
then not a document. -/
theorem writeText_states {ev : TextEvent} {fs fs' : TextFS} {path : Path} {j : Json} {t : List Char} {r : Res Unit}
    (hj : (∃ l, j = .arr l) ∨ ∃ l, j = .obj l) (ht : JsonText j t) (h : writeText ev fs path t = (fs', r)) :
    (∀ p, p ≠ path → fs' p = fs p) ∧
    ((ev = .createFails ∧ fs' path = fs path ∧ r = .err .io) ∨
     (readText true fs' path = .ok j ∧ (r = .ok () → ev = .succeeds)) ∨
     (readText true fs' path = .err .json ∧ r = .err .json)) := by
  have hp : parseJson t = .ok j := ((C99_reader t).1 j).2 ⟨[], t, [], ws_nil, ht, ws_nil, by simp⟩
  cases ev with
  | createFails =>
    cases h
    exact ⟨fun _ _ => rfl, Or.inl ⟨rfl, rfl, rfl⟩⟩
  | diesAfter k =>
    simp only [writeText, Prod.mk.injEq] at h
    obtain ⟨rfl, rfl⟩ := h
    refine ⟨fun p hp => by simp [hp], Or.inr ?_⟩
    by_cases hk : k < t.length
    · exact Or.inr ⟨by simp [readText, C99_truncated t j ht hj k hk], rfl⟩
    · refine Or.inl ⟨?_, by simp⟩
      simp [readText, List.take_of_length_le (Nat.le_of_not_lt hk), hp]
  | succeeds =>
    simp only [writeText, Prod.mk.injEq] at h
    obtain ⟨rfl, rfl⟩ := h
    exact ⟨fun p hp => by simp [hp], Or.inr (Or.inl ⟨by simp [readText, hp], fun _ => rfl⟩)⟩

/-- The possible states of the two files after an attempt to write the documents `d₁` and `d₂` into them. -/
def Spec.AfterWrite (fs fs' : TextFS) (p₁ p₂ : Path) (d₁ d₂ : Json) (r : Res Unit) : Prop :=
  (∀ p, p ≠ p₁ → p ≠ p₂ → fs' p = fs p) ∧
  (fs' p₁ = fs p₁ ∨ readText true fs' p₁ = .ok d₁ ∨ readText true fs' p₁ = .err .json) ∧
  (fs' p₂ = fs p₂ ∨ readText true fs' p₂ = .ok d₂ ∨ readText true fs' p₂ = .err .json) ∧
  (fs' p₂ ≠ fs p₂ → readText true fs' p₁ = .ok d₁) ∧
  (r = .ok () → readText true fs' p₁ = .ok d₁ ∧ readText true fs' p₂ = .ok d₂)

theorem writeTwoText_states {ev₁ ev₂ : TextEvent} {fs fs' : TextFS} {p₁ p₂ : Path} {d₁ d₂ : Json} {r : Res Unit} (hp : p₁ ≠ p₂)
    (h₁ : (∃ l, d₁ = .arr l) ∨ ∃ l, d₁ = .obj l) (h₂ : (∃ l, d₂ = .arr l) ∨ ∃ l, d₂ = .obj l)
    (h : writeTwoText ev₁ ev₂ fs p₁ p₂ d₁.text d₂.text = (fs', r)) : AfterWrite fs fs' p₁ p₂ d₁ d₂ r := by
  unfold writeTwoText at h
  rcases hw : writeText ev₁ fs p₁ d₁.text with ⟨fs₁, r₁⟩
  obtain ⟨k1, k2⟩ := writeText_states h₁ (C99_writer d₁) hw
  rw [hw] at h
  by_cases hr : r₁ = .ok ()
  · subst hr
    simp only at h
    obtain ⟨k3, k4⟩ := writeText_states h₂ (C99_writer d₂) h
    have e1 : readText true fs₁ p₁ = .ok d₁ := by
      rcases k2 with ⟨-, -, k⟩ | ⟨k, -⟩ | ⟨-, k⟩
      · cases k
      · exact k
      · cases k
    have e2 : readText true fs' p₁ = .ok d₁ := by
      rw [← e1]
      unfold readText
      rw [k3 p₁ hp]
    have e3 : fs₁ p₂ = fs p₂ := k1 p₂ hp.symm
    refine ⟨fun p h1 h2 => (k3 p h2).trans (k1 p h1), Or.inr (Or.inl e2), ?_, fun _ => e2, ?_⟩
    · rw [← e3]
      rcases k4 with ⟨-, k, -⟩ | ⟨k, -⟩ | ⟨k, -⟩
      · exact Or.inl k
      · exact Or.inr (Or.inl k)
      · exact Or.inr (Or.inr k)
    · rintro rfl
      rcases k4 with ⟨-, -, k⟩ | ⟨k, -⟩ | ⟨-, k⟩
      · cases k
      · exact ⟨e2, k⟩
      · cases k
  · have h' : (fs₁, r₁) = (fs', r) := by
      rw [← h]
      cases r₁ with
      | ok a => exact absurd rfl hr
      | err e => rfl
      | panic => rfl
      | diverge => rfl
    cases h'
    refine ⟨fun p h1 _ => k1 p h1, ?_, Or.inl (k1 p₂ hp.symm), fun k => absurd (k1 p₂ hp.symm) k, fun k => absurd k hr⟩
    rcases k2 with ⟨-, k, -⟩ | ⟨k, -⟩ | ⟨k, -⟩
    · exact Or.inl k
    · exact Or.inr (Or.inl k)
    · exact Or.inr (Or.inr k)

/-- **C99 (crash points).** Whatever happens while `write_to_file` of a shard of either kind runs (a file cannot be created, a write
fails or the process dies after any character), reading one of the two files afterwards gives what it gave before, or the complete new
document, or an error value; never another document. The parameters file changes only once the database file is complete. If the
call succeeded, both hold the new documents. -/
theorem C99_crash (ev₁ ev₂ : TextEvent) (fs fs' : TextFS) (s : Shard) (k : KVShard) (p₁ p₂ : Path) (hp : p₁ ≠ p₂) (r : Res Unit) :
    (s.writeToTextFile ev₁ ev₂ fs p₁ p₂ = (fs', r) →
      AfterWrite fs fs' p₁ p₂ (jMatrix s.db.entries) (paramsFileJson s.baseParams.publicSeed s.baseParams.rhs) r) ∧
    (k.writeToTextFile ev₁ ev₂ fs p₁ p₂ = (fs', r) →
      AfterWrite fs fs' p₁ p₂ (jMatrix k.db.entries) (paramsFileJson k.baseParams.publicSeed k.baseParams.rhs) r) :=
  ⟨fun h => writeTwoText_states hp (Or.inl ⟨_, rfl⟩) (Or.inr ⟨_, rfl⟩) h,
   fun h => writeTwoText_states hp (Or.inl ⟨_, rfl⟩) (Or.inr ⟨_, rfl⟩) h⟩

/-- The text of `json.dump` is a way to write the list. -/
theorem pyDump_json (l : List (List Char)) : JsonText (.arr (l.map .str)) (pyDumpText l) := by
  unfold pyDumpText
  cases l with
  | nil => exact .arrNil ws_nil
  | cons a l =>
    have h : List.Forall₂ JsonText ((a :: l).map Json.str) ((a :: l).map strText) := by
      generalize a :: l = l
      induction l with
      | nil => exact .nil
      | cons s l ih =>
        refine .cons ?_ ih
        have := JsonText.str (strBody_ok s)
        simpa [strText] using this
    have := elements_ok ws_space ((a :: l).map Json.str) ((a :: l).map strText) [] ws_nil (by simp) h
    exact .arr this

/-- **C99 (interrupted files).** The same for the text of any array or object, by whomever it was written, and for all readers: a file
that holds a proper beginning of it makes `from_json_file` panic (index and key-value), and `from_file` and `load` return an error
value. -/
theorem C99_interrupted (j : Json) (t : List Char) (ht : JsonText j t) (hj : (∃ l, j = .arr l) ∨ ∃ l, j = .obj l) (k : Nat)
    (hk : k < t.length) (fs : TextFS) (p : Path) (hf : fs p = some (t.take k)) :
    (∀ prof prg seed n m T b, Shard.fromJsonFile prof prg seed true fs.view p n m T b = .panic) ∧
    (∀ prof prg pseed sha utf8 segExp cap0 fp0 seed n m T b,
      KVShard.fromJsonFile prof prg pseed sha utf8 segExp cap0 fp0 seed true fs.view p n m T b = .panic) ∧
    (∀ prof m T b, IndexDatabase.fromFile prof true fs.view p m T b = .err .json) ∧
    IndexParams.load true fs.view p = .err .json := by
  have h := C99_read true fs p
  have h2 : readText true fs p = .err .json := by
    simp only [readText, hf]
    exact C99_truncated _ _ ht hj k hk
  rw [h2] at h
  refine ⟨?_, ?_, ?_, ?_⟩
  · intros
    unfold Shard.fromJsonFile
    rw [← h]
    rfl
  · intros
    unfold KVShard.fromJsonFile
    rw [← h]
    rfl
  · intros
    unfold IndexDatabase.fromFile
    rw [← h]
    rfl
  · unfold IndexParams.load
    rw [← h]
    rfl

/-- **C99 (the generated file).** The text `generate_db.py` writes denotes the list of strings it computed, and every proper
beginning of it is an error: if the script was interrupted, `from_json_file` panics and `from_file` returns an error value. -/
theorem C99_generated (l : List (List Char)) :
    parseJson (pyDumpText l) = .ok (.arr (l.map .str)) ∧
    ∀ k, k < (pyDumpText l).length → ∀ (fs : TextFS) (p : Path), fs p = some ((pyDumpText l).take k) →
      (∀ prof prg seed n m T b, Shard.fromJsonFile prof prg seed true fs.view p n m T b = .panic) ∧
      ∀ prof m T b, IndexDatabase.fromFile prof true fs.view p m T b = .err .json := by
  refine ⟨((C99_reader _).1 _).2 ⟨[], _, [], ws_nil, pyDump_json l, ws_nil, by simp⟩, ?_⟩
  intro k hk fs p hf
  obtain ⟨h1, -, h2, -⟩ := C99_interrupted _ _ (pyDump_json l) (Or.inl ⟨_, rfl⟩) k hk fs p hf
  exact ⟨h1, h2⟩

theorem view_put (fs : TextFS) (path : Path) (t : List Char) (c : Content)
    (h : textContent t = c) :
    TextFS.view (fun p => if p = path then some t else fs p) = fs.view.put path c := by
  funext p
  unfold TextFS.view FS.put
  by_cases hp : p = path
  · simp only [hp, if_true, Option.map_some, h]
  · simp [hp]

/-- **C99 (the files of the model).** Whatever happens to a write of a text, the readers find the same as after one of the three
outcomes of `Model/Files.lean`; a write that succeeds is `.succeeds`. -/
theorem C99_refines (ev : TextEvent) (fs : TextFS) (path : Path) (j : Json) (t : List Char) (ht : JsonText j t)
    (hj : (∃ l, j = .arr l) ∨ ∃ l, j = .obj l) : ∃ ev', (writeText ev fs path t).1.view = (writeJson ev' fs.view path j).1 ∧
      ((writeText ev fs path t).2 = (writeJson ev' fs.view path j).2 ∨ ∃ k, ev = .diesAfter k ∧ t.length ≤ k) ∧
      (ev = .succeeds → ev' = .succeeds) := by
  have hp : parseJson t = .ok j := ((C99_reader t).1 j).2 ⟨[], t, [], ws_nil, ht, ws_nil, by simp⟩
  cases ev with
  | createFails => exact ⟨.createFails, rfl, Or.inl rfl, by simp⟩
  | diesAfter k =>
    by_cases hk : k < t.length
    · refine ⟨.writeFails ((t.take k).map fun c => BitVec.ofNat 8 c.toNat), ?_, Or.inl rfl, by simp⟩
      exact view_put _ _ _ _ (by rw [textContent, C99_truncated t j ht hj k hk])
    · refine ⟨.succeeds, ?_, Or.inr ⟨k, rfl, Nat.le_of_not_lt hk⟩, fun _ => rfl⟩
      exact view_put _ _ _ _ (by rw [textContent, List.take_of_length_le (Nat.le_of_not_lt hk), hp])
  | succeeds =>
    exact ⟨.succeeds, view_put _ _ _ _ (by rw [textContent, hp]), Or.inl rfl, fun _ => rfl⟩

/-- **C99 (the script).** Run to its end, `generate_db.py` leaves the file `C86` says, as a text. -/
theorem C99_generator (env : String → Option (List Char)) (ent : Nat → U8) (fs : TextFS) :
    (genDbText .succeeds env ent fs).1.view = (genDb .succeeds env ent fs.view).1 ∧
    (genDbText .succeeds env ent fs).2 = (genDb .succeeds env ent fs.view).2 := by
  unfold genDbText genDb
  cases genDbOut env ent with
  | none => exact ⟨rfl, rfl⟩
  | some out =>
    obtain ⟨ev', h1, h2, h3⟩ := C99_refines .succeeds fs (genDbPath env) _ _ (pyDump_json out) (Or.inl ⟨_, rfl⟩)
    obtain rfl := h3 rfl
    exact ⟨h1, rfl⟩

/-- For the examples: the printed text of what was read, which determines it. -/
def exText : Res Json → List Char
  | .ok j => j.text
  | _ => []

theorem exText_eq {r : Res Json} {j : Json} (h : exText r = j.text) : r = .ok j := by
  have hl := jsonText_length (C99_writer j)
  cases r with
  | ok j' =>
    have h1 := C99_round_trip j'
    simp only [exText] at h
    rw [h, C99_round_trip j] at h1
    cases h1
    rfl
  | _ => rw [← h] at hl; simp [exText] at hl

theorem exErr {t : List Char} (h : exText (parseJson t) = []) : parseJson t = .err .json := by
  rcases parse_cases t with ⟨j, hj⟩ | hj
  · rw [hj] at h
    have hl := jsonText_length (C99_writer j)
    simp only [exText] at h
    rw [h] at hl
    simp at hl
  · exact hj

/-- A document with every kind of value. -/
def exJson : Json :=
  .obj [("a\n", .arr [.num (-12), .num 0, .float, .null, .bool true]), ("é", .str ['\u00e9', '"', '\\', Char.ofNat 1, '😀']), ("", .obj [])]

/-- It is read from a text with white space and escapes. -/
example : parseJson " { \"a\\n\" : [ -12 , 0,1.5E+3,null ,\ttrue],\n\"\\u00e9\":\"é\\\"\\\\\\u0001\\ud83d\\uDE00\", \"\" : { } } ".toList = .ok exJson :=
  exText_eq (by decide +kernel)

/-- What is printed for it. -/
example : exJson.text = "{\"a\\n\":[-12,0,1e0,null,true],\"é\":\"é\\\"\\\\\\u0001😀\",\"\":{}}".toList := by
  decide +kernel

example : parseJson exJson.text = .ok exJson ∧ ∀ k, k < exJson.text.length → parseJson (exJson.text.take k) = .err .json :=
  ⟨C99_round_trip _, fun k hk => C99_truncated _ _ (C99_writer _) (Or.inr ⟨_, rfl⟩) k hk⟩

/-- Texts that are refused. -/
example : ∀ t ∈ ["", " ", "01", "-", "1.", "1e", "[1,]", "[1 2]", "{\"a\"}", "{a:1}", "\"", "\"\\x\"", "\"\\ud800\"", "nul", "truE", "1 2", "\u00a0null"],
    parseJson t.toList = .err .json := by
  have h : ∀ t ∈ ["", " ", "01", "-", "1.", "1e", "[1,]", "[1 2]", "{\"a\"}", "{a:1}", "\"", "\"\\x\"", "\"\\ud800\"", "nul", "truE", "1 2", "\u00a0null"],
    exText (parseJson t.toList) = [] := by decide +kernel
  exact fun t ht => exErr (h t ht)

/-- Arrays and objects are needed: a number cut short is another number. -/
example : parseJson "123".toList = .ok (.num 123) ∧ parseJson ("123".toList.take 2) = .ok (.num 12) :=
  ⟨exText_eq (by decide +kernel), exText_eq (by decide +kernel)⟩

theorem exReadErr {fs : TextFS} {p : Path} (hs : (fs p).isSome = true) (h : exText (readText true fs p) = []) :
    readText true fs p = .err .json := by
  obtain ⟨t, ht⟩ := Option.isSome_iff_exists.1 hs
  simp only [readText, ht] at h ⊢
  exact exErr h

/-- For the example below. -/
def exShard : Shard := ⟨⟨[[1#32, 2#32], [3#32, 4#32]], 2, 8, 8⟩, ⟨1, 2, List.replicate 32 7#8, [[5#32], [6#32]], 8, 8⟩⟩

/-- A crash while the parameters are written over older ones: the database is the new one, the parameters are unreadable. -/
example : ∃ (fs fs' : TextFS) (r : Res Unit), readText true fs "p".toList = .ok (.arr []) ∧
    exShard.writeToTextFile .succeeds (.diesAfter 40) fs "d".toList "p".toList = (fs', r) ∧
    readText true fs' "d".toList = .ok (jMatrix [[1#32, 2#32], [3#32, 4#32]]) ∧ readText true fs' "p".toList = .err .json := by
  refine ⟨fun _ => some "[ ]".toList, _, _, exText_eq (by decide +kernel), rfl, exText_eq (by decide +kernel),
    exReadErr (by decide +kernel) (by decide +kernel)⟩

end Chalamet
