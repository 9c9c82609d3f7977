import Verif.Model.GenDb
import Verif.Props.Cli
import Verif.Props.Files
import Verif.Props.Build
import Verif.Props.Server

/-!
# The database generator and what is served from its file: C86

`IsDecimal s n` (`Verif/Props/Cli.lean`) says that the text `s` is a decimal numeral of `n`.
-/

namespace Chalamet
open Spec

/-- Variable `name` selects the exponent `n`: unset or empty selects the default, a decimal numeral its
value. -/
def SelectsExp (env : String → Option (List Char)) (name : String) (dflt n : Nat) : Prop :=
  ((env name = none ∨ env name = some []) ∧ n = dflt) ∨ ∃ s, env name = some s ∧ IsDecimal s n

/-- The output file selected by the environment. -/
def SelectsPath (env : String → Option (List Char)) (p : Path) : Prop :=
  ((env "DB_OUTPUT_PATH" = none ∨ env "DB_OUTPUT_PATH" = some []) ∧ p = "rand_db.json".toList) ∨
    (p ≠ [] ∧ env "DB_OUTPUT_PATH" = some p)

/-! ## Python integers -/

theorem pyDigits_map (ds : List Nat) (hd : ∀ d ∈ ds, d < 10) (acc : Nat) (seen : Bool) :
    pyDigits acc seen (ds.map fun d => Char.ofNat (48 + d)) =
      if seen = true ∨ ds ≠ [] then some (acc * 10 ^ ds.length + Nat.ofDigits 10 ds.reverse) else none := by
  induction ds generalizing acc seen with
  | nil => cases seen <;> simp [pyDigits]
  | cons d ds ih =>
    have hd0 := hd d (by simp)
    have hne : Char.ofNat (48 + d) ≠ '_' := by interval_cases d <;> decide
    rw [List.map_cons, pyDigits, if_neg hne, digitVal_ofNat hd0]
    simp only
    rw [ih (fun x hx => hd x (by simp [hx])), if_pos (Or.inl rfl), if_pos (Or.inr (by simp)),
      List.reverse_cons, Nat.ofDigits_append, List.length_reverse, List.length_cons, Nat.ofDigits_singleton]
    congr 1
    ring

theorem pySpace_digit {d : Nat} (h : d < 10) : pySpace (Char.ofNat (48 + d)) = false := by
  interval_cases d <;> decide

theorem strip_of_ends {s : List Char} (hh : ∀ c, s.head? = some c → pySpace c = false)
    (ht : ∀ c, s.getLast? = some c → pySpace c = false) :
    ((s.dropWhile pySpace).reverse.dropWhile pySpace).reverse = s := by
  have h1 : ∀ t : List Char, (∀ c, t.head? = some c → pySpace c = false) → t.dropWhile pySpace = t := by
    intro t ht
    cases t with
    | nil => rfl
    | cons c t => rw [List.dropWhile_cons, if_neg (by simp [ht c rfl])]
  rw [h1 s hh, h1 s.reverse (by intro c hc; apply ht; rwa [List.head?_reverse] at hc), List.reverse_reverse]

theorem pyInt_decimal {s : List Char} {n : Nat} (h : IsDecimal s n) : pyInt s = some (n : Int) := by
  obtain ⟨ds, hne, hd, hv, hs⟩ := h
  have hlast : ∀ c, (ds.map fun d => Char.ofNat (48 + d)).getLast? = some c → pySpace c = false := by
    intro c hc
    rw [List.getLast?_map, Option.map_eq_some_iff] at hc
    obtain ⟨d, hd', rfl⟩ := hc
    exact pySpace_digit (hd d (List.mem_of_getLast? hd'))
  have hval : pyDigits 0 false (ds.map fun d => Char.ofNat (48 + d)) = some n := by
    rw [pyDigits_map ds hd, if_pos (Or.inr hne), hv]
    simp
  unfold pyInt
  rcases hs with rfl | rfl
  · rw [strip_of_ends ?_ hlast]
    · obtain ⟨d, ds, rfl⟩ := List.exists_cons_of_ne_nil hne
      have h0 := hd d (by simp)
      have hp : Char.ofNat (48 + d) ≠ '+' := digit_ne_plus h0
      have hm : Char.ofNat (48 + d) ≠ '-' := by interval_cases d <;> decide
      rw [List.map_cons] at hval ⊢
      split
      · rename_i heq; exact absurd (List.cons.inj heq).1 hm
      · rename_i heq; exact absurd (List.cons.inj heq).1 hp
      · rw [hval]; rfl
    · intro c hc
      rw [List.head?_map, Option.map_eq_some_iff] at hc
      obtain ⟨d, hd', rfl⟩ := hc
      exact pySpace_digit (hd d (List.mem_of_head? hd'))
  · rw [strip_of_ends]
    · simp only [hval]
      rfl
    · intro c hc
      cases hc
      decide
    · intro c hc
      rw [List.getLast?_cons_of_ne_nil (by simpa using hne)] at hc
      exact hlast c hc

theorem envInt_selects {env : String → Option (List Char)} {name : String} {dflt n : Nat}
    (h : SelectsExp env name dflt n) : envInt env name dflt = some (n : Int) := by
  unfold envInt
  rcases h with ⟨h | h, rfl⟩ | ⟨s, h, hs⟩
  · rw [h]
  · rw [h]
  · rw [h]
    have : s ≠ [] := by
      rintro rfl
      obtain ⟨ds, hne, _, _, h | h⟩ := hs
      · exact hne (by simpa using h.symm)
      · cases h
    obtain ⟨c, cs, rfl⟩ := List.exists_cons_of_ne_nil this
    exact pyInt_decimal hs

theorem genDbPath_selects {env : String → Option (List Char)} {p : Path} (h : SelectsPath env p) :
    genDbPath env = p := by
  unfold genDbPath
  rcases h with ⟨h | h, rfl⟩ | ⟨hne, h⟩
  · rw [h]
  · rw [h]
  · rw [h]
    obtain ⟨c, cs, rfl⟩ := List.exists_cons_of_ne_nil hne
    rfl

/-! ## The file -/

/-- **C86 (file).** With exponents `v` and `e` selected by the environment, the script makes `2^v` elements of
`2^e` *bytes* each (whatever `DB_ELEMENT_SIZE_BITS` says): all bytes `0xFF` unless `DB_ALL_ONES` is exactly
`0`, and in that case consecutive bytes of the random source. It replaces the selected file, and no other, by
the JSON array of their base64 encodings; if the file cannot be created nothing changes, and if writing fails the
old contents are gone too. -/
theorem C86_generated_file (env : String → Option (List Char)) (ent : Nat → U8) (v e : Nat) (p : Path)
    (hv : SelectsExp env "DB_NUM_ENTRIES_EXP" 16 v) (he : SelectsExp env "DB_ELEMENT_SIZE_EXP" 13 e)
    (hp : SelectsPath env p) :
    ∃ elems : List (List U8), elems.length = 2 ^ v ∧ (∀ x ∈ elems, x.length = 2 ^ e) ∧
      (env "DB_ALL_ONES" ≠ some ['0'] → ∀ x ∈ elems, ∀ y ∈ x, y = 255#8) ∧
      (env "DB_ALL_ONES" = some ['0'] → elems.flatten = (List.range (2 ^ v * 2 ^ e)).map ent) ∧
      ∀ fs : FS,
        (∃ fs', genDb .succeeds env ent fs = (fs', .ok ()) ∧
          fs' p = some (.json (.arr (elems.map fun x => .str (b64Encode x)))) ∧ ∀ q, q ≠ p → fs' q = fs q) ∧
        genDb .createFails env ent fs = (fs, .panic) ∧
        (∀ t, ∃ fs', genDb (.writeFails t) env ent fs = (fs', .panic) ∧ fs' p = some (.raw t) ∧
          ∀ q, q ≠ p → fs' q = fs q) := by
  set elems : List (List U8) := (List.range (2 ^ v)).map fun i =>
    if env "DB_ALL_ONES" = some ['0'] then genRandom ent i (2 ^ e) else genAllOnes (2 ^ e) with helems
  have hout : genDbOut env ent = some (elems.map b64Encode) := by
    unfold genDbOut
    rw [envInt_selects hv, envInt_selects he]
    simp only [Option.bind_eq_bind, Option.bind_some, Int.toNat_natCast]
    rw [if_neg (by omega), if_neg (by omega), helems, List.map_map]
    congr 1
    apply List.map_congr_left
    intro i _
    simp only [Function.comp_apply]
    split <;> rfl
  refine ⟨elems, by simp [helems], ?_, ?_, ?_, ?_⟩
  · intro x hx
    rw [helems, List.mem_map] at hx
    obtain ⟨i, _, rfl⟩ := hx
    split <;> simp [genRandom, genAllOnes]
  · intro h x hx y hy
    rw [helems, List.mem_map] at hx
    obtain ⟨i, _, rfl⟩ := hx
    rw [if_neg h] at hy
    exact List.eq_of_mem_replicate hy
  · intro h
    rw [helems]
    simp only [h, if_true]
    generalize 2 ^ v = N
    induction N with
    | zero => simp
    | succ N ih =>
      rw [List.range_succ, List.map_append, List.flatten_append, ih, Nat.succ_mul, List.range_add,
        List.map_append]
      congr 1
      simp [genRandom, Function.comp_def]
  · intro fs
    have hm : (elems.map b64Encode).map Json.str = elems.map fun x => .str (b64Encode x) := by
      rw [List.map_map]; rfl
    have hp' := genDbPath_selects hp
    refine ⟨⟨fs.put p (.json (.arr (elems.map fun x => .str (b64Encode x)))), ?_, ?_, ?_⟩, ?_, ?_⟩
    · unfold genDb
      rw [hout, hp']
      simp only [writeJson, hm, Res.unwrap_ok]
    · simp [FS.put]
    · intro q hq
      simp [FS.put, hq]
    · unfold genDb
      rw [hout]
      rfl
    · intro t
      refine ⟨fs.put p (.raw t), ?_, by simp [FS.put], fun q hq => by simp [FS.put, hq]⟩
      unfold genDb
      rw [hout, hp']
      rfl

/-- `s` is no integer text, or a negative one: it has a character other than digits, white space (tab to carriage
return, blank), underscores and signs, or it is `-` followed by a numeral of a positive number. -/
def RejectedExp (s : List Char) : Prop :=
  (∃ c ∈ s, (∀ d < 10, c ≠ Char.ofNat (48 + d)) ∧ ¬ (9 ≤ c.toNat ∧ c.toNat ≤ 13) ∧ c ≠ ' ' ∧ c ≠ '_' ∧
    c ≠ '+' ∧ c ≠ '-') ∨
  ∃ ds : List Nat, (∀ d ∈ ds, d < 10) ∧ 0 < Nat.ofDigits 10 ds.reverse ∧
    s = '-' :: ds.map fun d => Char.ofNat (48 + d)

theorem pyDigits_none {cs : List Char} {c : Char} (hc : c ∈ cs) (hd : digitVal c = none) (hu : c ≠ '_')
    (acc : Nat) (seen : Bool) : pyDigits acc seen cs = none := by
  induction cs generalizing acc seen with
  | nil => cases hc
  | cons a cs ih =>
    rw [pyDigits]
    rcases List.mem_cons.1 hc with rfl | hc
    · rw [if_neg hu, hd]
    · split
      · split
        · exact ih hc _ _
        · rfl
      · split
        · exact ih hc _ _
        · rfl

theorem mem_dropWhile_of_not {p : Char → Bool} {l : List Char} {c : Char} (h : c ∈ l) (hp : p c = false) :
    c ∈ l.dropWhile p := by
  induction l with
  | nil => cases h
  | cons a l ih =>
    rw [List.dropWhile_cons]
    rcases List.mem_cons.1 h with rfl | h
    · simp [hp]
    · split
      · exact ih h
      · simp [h]

theorem pyInt_rejected {s : List Char} (h : RejectedExp s) : pyInt s = none ∨ ∃ z : Int, z < 0 ∧ pyInt s = some z := by
  rcases h with ⟨c, hc, h1, h2, h3, h4, h5, h6⟩ | ⟨ds, hd, hpos, rfl⟩
  · left
    have hsp : pySpace c = false := by
      unfold pySpace
      simp only [h3, decide_false, Bool.false_or, Bool.and_eq_false_iff, decide_eq_false_iff_not]
      by_cases h : 9 ≤ c.toNat
      · exact Or.inr fun h' => h2 ⟨h, h'⟩
      · exact Or.inl h
    have hdv : digitVal c = none := by
      cases hv : digitVal c with
      | none => rfl
      | some d =>
        obtain ⟨hd, rfl⟩ := digitVal_some hv
        exact absurd rfl (h1 d hd)
    have hmem : c ∈ ((s.dropWhile pySpace).reverse.dropWhile pySpace).reverse := by
      rw [List.mem_reverse]
      apply mem_dropWhile_of_not _ hsp
      rw [List.mem_reverse]
      exact mem_dropWhile_of_not hc hsp
    unfold pyInt
    split
    · rename_i cs heq
      rw [heq] at hmem
      rcases List.mem_cons.1 hmem with rfl | hmem
      · exact absurd rfl h6
      · rw [pyDigits_none hmem hdv h4]; rfl
    · rename_i cs heq
      rw [heq] at hmem
      rcases List.mem_cons.1 hmem with rfl | hmem
      · exact absurd rfl h5
      · rw [pyDigits_none hmem hdv h4]; rfl
    · rw [pyDigits_none hmem hdv h4]; rfl
  · right
    have hne : ds ≠ [] := by rintro rfl; simp at hpos
    refine ⟨-Int.ofNat (Nat.ofDigits 10 ds.reverse), by simp only [Int.ofNat_eq_natCast]; omega, ?_⟩
    unfold pyInt
    rw [strip_of_ends]
    · simp only [pyDigits_map ds hd, if_pos (Or.inr hne : false = true ∨ ds ≠ [])]
      simp
    · intro c hc; cases hc; decide
    · intro c hc
      rw [List.getLast?_cons_of_ne_nil (by simpa using hne), List.getLast?_map, Option.map_eq_some_iff] at hc
      obtain ⟨d, hd', rfl⟩ := hc
      exact pySpace_digit (hd d (List.mem_of_getLast? hd'))

/-- **C86 (bad environment).** If one of the two exponents is not an integer or is negative, the script ends with
an exception and no file is touched. -/
theorem C86_bad_exponent (ev : WriteEvent) (env : String → Option (List Char)) (ent : Nat → U8) (fs : FS)
    (name : String) (hname : name = "DB_NUM_ENTRIES_EXP" ∨ name = "DB_ELEMENT_SIZE_EXP") (s : List Char)
    (hs : env name = some s) (hbad : RejectedExp s) : genDb ev env ent fs = (fs, .panic) := by
  have hne : s ≠ [] := by
    rintro rfl
    rcases hbad with ⟨c, hc, _⟩ | ⟨ds, _, _, h⟩
    · cases hc
    · cases h
  have hval : ∀ dflt, envInt env name dflt = none ∨ ∃ z : Int, z < 0 ∧ envInt env name dflt = some z := by
    intro dflt
    unfold envInt
    rw [hs]
    obtain ⟨c, cs, rfl⟩ := List.exists_cons_of_ne_nil hne
    exact pyInt_rejected hbad
  have hout : genDbOut env ent = none := by
    unfold genDbOut
    rcases hname with rfl | rfl
    · rcases hval 16 with h | ⟨z, hz, h⟩
      · rw [h]; rfl
      · rw [h]
        simp only [Option.bind_eq_bind, Option.bind_some]
        rw [if_pos hz]
    · cases envInt env "DB_NUM_ENTRIES_EXP" 16 with
      | none => rfl
      | some v =>
        simp only [Option.bind_eq_bind, Option.bind_some]
        split
        · rfl
        · rcases hval 13 with h | ⟨z, hz, h⟩
          · rw [h]; rfl
          · rw [h]
            simp only [Option.bind_some]
            rw [if_pos hz]
  unfold genDb
  rw [hout]

/-! ## Loading it -/

theorem leNat_take (e : List U8) (k : Nat) : leNat (e.take k) = leNat e % 2 ^ (8 * k) := by
  induction e generalizing k with
  | nil => simp [leNat]
  | cons x e ih =>
    cases k with
    | zero => simp [leNat, Nat.mod_one]
    | succ k =>
      rw [List.take_succ_cons, leNat, leNat, ih]
      have hx : x.toNat < 256 := x.isLt
      rw [show 8 * (k + 1) = 8 + 8 * k by ring, Nat.pow_add, Nat.mod_mul]
      rw [show (2 : Nat) ^ 8 = 256 by rfl]
      have h1 : (x.toNat + 256 * leNat e) % 256 = x.toNat := by omega
      have h2 : (x.toNat + 256 * leNat e) / 256 = leNat e := by omega
      rw [h1, h2]

theorem digit_mod_pow {b N k j : Nat} (h : b * j + b ≤ k) : digit b (N % 2 ^ k) j = digit b N j := by
  unfold digit
  have hs : 2 ^ k = 2 ^ (b * j) * 2 ^ (k - b * j) := by
    rw [← Nat.pow_add]; congr 1; omega
  rw [hs, Nat.mod_mul_right_div_self, Nat.mod_mod_of_dvd]
  exact Nat.pow_dvd_pow 2 (by omega)

theorem rowOf_prefix {b w k : Nat} {x y : List U8} (h : x.take k = y.take k) (hk : b * w ≤ 8 * k) :
    rowOf b w x = rowOf b w y := by
  unfold rowOf
  apply List.map_congr_left
  intro j hj
  rw [List.mem_range] at hj
  have hle : b * j + b ≤ 8 * k := by
    calc b * j + b = b * (j + 1) := by ring
      _ ≤ b * w := Nat.mul_le_mul_left _ hj
      _ ≤ 8 * k := hk
  rw [← digit_mod_pow (N := leNat x) hle, ← digit_mod_pow (N := leNat y) hle, ← leNat_take, ← leNat_take, h]

theorem served_prefix {prof : Profile} {b T : Nat} (hb1 : 1 ≤ b) (hb : b ≤ 32) {x : List U8} {k : Nat}
    (hT : T = 8 * k) (hk : k ≤ x.length) (hdvd : ¬ b ∣ T) :
    base64FromU32Slice prof (rowOf b (width T b) x) b T = .ok (b64Encode (x.take k)) := by
  obtain ⟨bytes, h1, h2, h3⟩ := decode_digits (prof := prof) (N := leNat x) (by omega) hb hdvd
  have hbytes : bytes = x.take k := by
    apply leNat_inj
    · rw [h2, List.length_take]; omega
    · rw [h3, leNat_take, hT]
  unfold base64FromU32Slice
  rw [show rowOf b (width T b) x = (List.range ((T + b - 1) / b)).map fun j =>
    BitVec.ofNat 32 (digit b (leNat x) j) from rfl, h1, hbytes]
  rfl

/-- **C86 (loading).** Load a file holding the base64 encodings of elements of `len` bytes each, at least `m ≥ 1`
of them, with an element size of `k` bytes (`8 * k` bits) and a plaintext size `b` not dividing `8 * k`.
* If `k ≤ len` the shard is built and lists the first `k` bytes of each element: the other `len - k` bytes are
  neither stored nor reported, and no error is raised.
* If the elements are more than a plaintext too short the load panics. -/
theorem C86_load_generated (prof : Profile) (prg : Prg) (seed : List U8) (fs : FS) (p : Path)
    (elems : List (List U8)) (n m len k b : Nat) (hb1 : 1 ≤ b) (hb : b ≤ 32) (hdvd : ¬ b ∣ 8 * k)
    (hm0 : 0 < m) (hm : m ≤ elems.length) (hlen : ∀ x ∈ elems, x.length = len)
    (hfile : fs p = some (.json (.arr (elems.map fun x => .str (b64Encode x))))) :
    (k ≤ len → ∃ shard, Shard.fromJsonFile prof prg seed true fs p n m (8 * k) b = .ok shard ∧
      shard.rowIter prof = .ok ((elems.take m).map fun x => b64Encode (x.take k)) ∧
      ∀ elems' : List (List U8), elems'.length = elems.length →
        (∀ x ∈ elems', x.length = len) →
        (elems'.map fun x => x.take (k + 4)) = (elems.map fun x => x.take (k + 4)) →
        ∀ fs' : FS, fs' p = some (.json (.arr (elems'.map fun x => .str (b64Encode x)))) →
          Shard.fromJsonFile prof prg seed true fs' p n m (8 * k) b = .ok shard) ∧
    (8 * len < (width (8 * k) b - 1) * b →
      Shard.fromJsonFile prof prg seed true fs p n m (8 * k) b = .panic) := by
  have hstr : ∀ l : List (List U8), (l.map fun x => Json.str (b64Encode x)) = (l.map b64Encode).map Json.str := by
    intro l; rw [List.map_map]; rfl
  have hload : ∀ (l : List (List U8)) (g : FS), g p = some (.json (.arr (l.map fun x => .str (b64Encode x)))) →
      Shard.fromJsonFile prof prg seed true g p n m (8 * k) b =
        Shard.fromBase64Strings prof prg seed (l.map b64Encode) n m (8 * k) b := by
    intro l g hg
    exact ((C55_index_from_json prof prg seed g p n m (8 * k) b).1 (l.map b64Encode) (by rw [hg, hstr])).2
  constructor
  · intro hk
    have hok : ∀ l : List (List U8), (∀ x ∈ l, x.length = len) → m ≤ l.length →
        Shard.fromBase64Strings prof prg seed (l.map b64Encode) n m (8 * k) b =
          .ok (shardOf prg seed l n m (8 * k) b) := by
      intro l hl hml
      refine shard_ok (map_decode_encode l) hb1 hb hm0 hml ?_
      intro x hx
      have := hl x (List.mem_of_mem_take hx)
      have h2 : (width (8 * k) b - 1) * b ≤ 8 * k := width_mul_le (by omega)
      omega
    refine ⟨shardOf prg seed elems n m (8 * k) b, by rw [hload elems fs hfile, hok elems hlen hm], ?_, ?_⟩
    · unfold Shard.rowIter
      rw [mapRes_eq_ok]
      apply List.ext_getElem (by simp [shardOf, dbOf, hm])
      intro i h1 h2
      have hi : i < m := by simpa [shardOf, dbOf] using h1
      simp only [List.getElem_map, List.getElem_range, List.getElem_take]
      unfold IndexDatabase.getDbEntry
      rw [shardOf_getDbEntry hi hm, Res.bind_ok]
      exact served_prefix hb1 hb rfl
        (by rw [hlen _ (List.getElem_mem _)]; exact hk) hdvd
    · intro elems' hl' hlen' hpre fs' hfs'
      rw [hload elems' fs' hfs', hok elems' hlen' (by omega)]
      have hrows : ∀ i (h : i < elems.length), rowOf b (width (8 * k) b) (elems'[i]'(by omega)) =
          rowOf b (width (8 * k) b) elems[i] := by
        intro i h
        apply rowOf_prefix (k := k + 4)
        · have h1 : (elems'.map fun x => x.take (k + 4))[i]'(by simp; omega) =
              (elems.map fun x => x.take (k + 4))[i]'(by simpa using h) := by simp only [hpre]
          simpa using h1
        · have hw : width (8 * k) b * b ≤ 8 * k + b - 1 := Nat.div_mul_le_self _ _
          rw [Nat.mul_comm]
          omega
      have hcol : ∀ j < width (8 * k) b, column b j (elems'.take m) = column b j (elems.take m) := by
        intro j hj
        apply List.ext_getElem (by simp [column, hl'])
        intro i h1 h2
        have hi : i < elems.length := by
          have : i < m ∧ i < elems.length := by simpa [column] using h2
          exact this.2
        have h := congrArg (fun r => r[j]?) (hrows i hi)
        simpa [rowOf, hj, column] using h
      have hdb : dbOf elems' m (8 * k) b = dbOf elems m (8 * k) b := by
        unfold dbOf
        congr 1
        exact List.map_congr_left fun j hj => hcol j (List.mem_range.1 hj)
      have hrhs : rhsOf prg seed n m (width (8 * k) b) (fun j => column b j (elems'.take m)) =
          rhsOf prg seed n m (width (8 * k) b) (fun j => column b j (elems.take m)) := by
        unfold rhsOf
        apply List.map_congr_left
        intro j hj
        simp only [hcol j (List.mem_range.1 hj)]
      unfold shardOf
      rw [hdb, hrhs]
  · intro hshort
    rw [hload elems fs hfile]
    have h0 : 0 < elems.length := by omega
    refine ((C61_index_build prof prg seed (elems.map b64Encode) n m (8 * k) b hb1 hb).2.2 0 hm0
      (by intro j hj; omega)).2 (b64Encode elems[0]) (by simp [h0]) |>.2 elems[0] (b64Decode_encode _) ?_
    rw [hlen _ (List.getElem_mem _)]
    exact hshort

/-- **C86 (defaults).** Run the generator with no variables set and load its file with the default retrieval
parameters (`2^16` elements of `2^13` bits, 10-bit plaintexts): the file holds `2^16` elements of 8192 bytes, the
shard is built without complaint, and it serves the first 1024 bytes of each: seven eighths of every element
are lost. -/
theorem C86_default_truncation (prof : Profile) (prg : Prg) (seed : List U8) (ent : Nat → U8) (fs : FS) (n : Nat)
    (env : String → Option (List Char)) (henv : ∀ name, name ≠ "DB_ALL_ONES" → env name = none) :
    ∃ (elems : List (List U8)) (fs' : FS) (shard : Shard), genDb .succeeds env ent fs = (fs', .ok ()) ∧
      fs' "rand_db.json".toList = some (.json (.arr (elems.map fun x => .str (b64Encode x)))) ∧
      elems.length = 2 ^ 16 ∧ (∀ x ∈ elems, x.length = 8192) ∧
      Shard.fromJsonFile prof prg seed true fs' "rand_db.json".toList n (2 ^ 16) (2 ^ 13) 10 = .ok shard ∧
      shard.rowIter prof = .ok (elems.map fun x => b64Encode (x.take 1024)) := by
  obtain ⟨elems, h1, h2, _, _, h5⟩ := C86_generated_file env ent 16 13 "rand_db.json".toList
    (Or.inl ⟨Or.inl (henv _ (by decide)), rfl⟩) (Or.inl ⟨Or.inl (henv _ (by decide)), rfl⟩)
    (Or.inl ⟨Or.inl (henv _ (by decide)), rfl⟩)
  obtain ⟨⟨fs', h6, h7, _⟩, _⟩ := h5 fs
  have h2' : ∀ x ∈ elems, x.length = 8192 := h2
  obtain ⟨shard, h8, h9, _⟩ := (C86_load_generated prof prg seed fs' _ elems n (2 ^ 16) 8192 1024 10 (by omega)
    (by omega) (by decide) (by decide) (le_of_eq h1.symm) h2' h7).1 (by omega)
  refine ⟨elems, fs', shard, h6, h7, h1, h2', h8, ?_⟩
  rw [h9, List.take_of_length_le (le_of_eq h1)]

/-! ## Non-vacuity -/

/-- An environment asking for `2^1` random elements of `2^1` bytes. -/
def genDbExEnv : String → Option (List Char) := fun name =>
  if name = "DB_NUM_ENTRIES_EXP" then some "1".toList
  else if name = "DB_ELEMENT_SIZE_EXP" then some "+01".toList
  else if name = "DB_ALL_ONES" then some "0".toList
  else if name = "DB_ELEMENT_SIZE_BITS" then some "8192".toList
  else if name = "DB_OUTPUT_PATH" then some "x".toList
  else none

/-- C86: the hypotheses hold of it, and the two strings are the encodings of the bytes 7, 8 and 9, 10. -/
example : SelectsExp genDbExEnv "DB_NUM_ENTRIES_EXP" 16 1 ∧ SelectsExp genDbExEnv "DB_ELEMENT_SIZE_EXP" 13 1 ∧
    SelectsPath genDbExEnv "x".toList ∧
    genDbOut genDbExEnv (fun i => BitVec.ofNat 8 (7 + i)) = some ["Bwg=".toList, "CQo=".toList] :=
  ⟨Or.inr ⟨"1".toList, rfl, [1], by decide, by decide, by decide, Or.inl (by decide)⟩,
   Or.inr ⟨"+01".toList, rfl, [0, 1], by decide, by decide, by decide, Or.inr (by decide)⟩,
   Or.inr ⟨by decide, rfl⟩, by decide +kernel⟩

/-- C86: rejected exponents, and Python's other spellings of integers. -/
example : RejectedExp "-3".toList ∧ RejectedExp "1.5".toList ∧ pyInt " 1_6\n".toList = some 16 ∧
    pyInt "1__6".toList = none ∧ pyInt "".toList = none :=
  ⟨Or.inr ⟨[3], by decide, by decide, by decide⟩,
   Or.inl ⟨'.', by decide, by decide, by decide, by decide, by decide, by decide, by decide⟩,
   by decide +kernel, by decide +kernel, by decide +kernel⟩

/-- C86: two-byte elements served as one byte (5-bit plaintexts). -/
example : ∃ shard, Shard.fromJsonFile .debug (fun _ i => BitVec.ofNat 32 i) [] true
    (FS.put (fun _ => none) "x".toList (.json (.arr [.str "Bwg=".toList, .str "CQo=".toList]))) "x".toList 1 2 8 5 =
      .ok shard ∧ shard.rowIter .debug = .ok ["Bw==".toList, "CQ==".toList] := by
  refine ((C86_load_generated .debug _ [] _ "x".toList [[7#8, 8#8], [9#8, 10#8]] 1 2 2 1 5 (by omega) (by omega)
    (by decide) (by omega) (by decide) (by decide) ?_).1 (by omega)).imp fun shard h => ⟨h.1, ?_⟩
  · have h1 : b64Encode [7#8, 8#8] = "Bwg=".toList := by decide +kernel
    have h2 : b64Encode [9#8, 10#8] = "CQo=".toList := by decide +kernel
    simp only [FS.put, if_true, List.map_cons, List.map_nil, h1, h2]
  · rw [h.2.1]
    decide +kernel

end Chalamet
