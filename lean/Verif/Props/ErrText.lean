import Verif.Model.ErrText
import Verif.Props.JsonText
import Verif.Props.Query
import Verif.Props.KvQuery

/-! # C118, C119: what error messages and debug output say -/

namespace Chalamet
open Spec

@[simp] theorem forget_withText {α : Type} (x : Res α) : x.withText.forget = x := by cases x <;> rfl

@[simp] theorem forget_bind {α β : Type} (x : TRes α) (f : α → TRes β) :
    (x >>= f).forget = (x.forget >>= fun a => (f a).forget) := by cases x <;> rfl

@[simp] theorem tbind_ok {α β : Type} (a : α) (f : α → TRes β) : ((TRes.ok a) >>= f) = f a := rfl
@[simp] theorem tbind_err {α β : Type} (e : Err) (t : List Char) (f : α → TRes β) :
    ((TRes.err e t : TRes α) >>= f) = .err e t := rfl
@[simp] theorem tbind_panic {α β : Type} (f : α → TRes β) : ((TRes.panic : TRes α) >>= f) = .panic := rfl
@[simp] theorem tbind_diverge {α β : Type} (f : α → TRes β) : ((TRes.diverge : TRes α) >>= f) = .diverge := rfl

theorem vecMultT_forget (r c : List U32) : (vecMultT r c).forget = vecMult r c := by
  unfold vecMultT vecMult
  split
  · rfl
  · rw [forget_withText]

theorem multLeftT_forget (s : List U32) : ∀ (cols : List (List U32)) (tape : List U32),
    (multLeftT s cols tape).forget = multLeft s cols tape
  | [], _ => rfl
  | col :: cols, tape => by
    rw [multLeftT, multLeft, forget_bind, vecMultT_forget]
    refine congrArg _ (funext fun sa => ?_)
    rw [forget_bind, forget_withText]
    refine congrArg _ (funext fun p => ?_)
    rw [forget_bind, multLeftT_forget s cols]
    rfl

theorem multRightT_forget (s : List U32) : ∀ (cols : List (List U32)),
    (multRightT s cols).forget = multRight cols s
  | [] => rfl
  | col :: cols => by
    rw [multRightT, multRight, mapRes_cons, forget_bind, vecMultT_forget]
    refine congrArg _ (funext fun x => ?_)
    rw [forget_bind, multRightT_forget s cols]
    rfl

/-- **C118 (the texts belong to the model's errors).** Leaving out the texts gives the functions of the model: same
outcomes, same error kinds. -/
theorem C118_texts_refine :
    (∀ cp params tape, (generateIndexQueryParamsT cp params tape).forget = generateIndexQueryParams cp params tape) ∧
    (∀ cp params tape, (generateKvQueryParamsT cp params tape).forget = generateKvQueryParams cp params tape) ∧
    (∀ prof (qp : QueryParams Unit) i, ((qp.generateIndexQueryT prof i).1, (qp.generateIndexQueryT prof i).2.forget) =
      qp.generateIndexQuery prof i) ∧
    (∀ prof (qp : QueryParams FilterParams) key, ((qp.generateKvQueryT prof key).1, (qp.generateKvQueryT prof key).2.forget) =
      qp.generateKvQuery prof key) ∧
    (∀ prof bits, (bitsToU32LeT prof bits).forget = bitsToU32Le prof bits) ∧
    (∀ r c, (vecMultT r c).forget = vecMult r c) := by
  refine ⟨?_, ?_, ?_, ?_, ?_, vecMultT_forget⟩
  · intro cp params tape
    unfold generateIndexQueryParamsT generateIndexQueryParams
    simp only [forget_bind, forget_withText, multLeftT_forget, multRightT_forget]
    rfl
  · intro cp params tape
    unfold generateKvQueryParamsT generateKvQueryParams
    simp only [forget_bind, forget_withText, multLeftT_forget, multRightT_forget]
    rfl
  · intro prof qp i
    simp [QueryParams.generateIndexQueryT]
  · intro prof qp key
    simp [QueryParams.generateKvQueryT]
  · intro prof bits
    unfold bitsToU32LeT bitsToU32Le
    rw [forget_bind, forget_withText]
    refine congrArg _ (funext fun bytes => ?_)
    split
    · rfl
    · rw [forget_bind]
      refine congrArg (· >>= _) ?_
      unfold u32SizedBytesFromVecT u32SizedBytesFromVec
      split <;> rfl

theorem decText_repr (n : Nat) : decText n = (toString n).toList := by
  show _ = (Nat.repr n).toList
  simp [decText, Nat.repr]

/-- The text of the error for vectors of `r` and `c` words that should have the same length. -/
def Spec.sizeMessage (r c : Nat) : String := 
  "Unexpected input size error: row_len: " ++ toString r ++ ", col_len:" ++ toString c ++ ","

theorem sizeMessage_toList (r c : Nat) : (Spec.sizeMessage r c).toList = inputSizeText
    ("row_len: ".toList ++ decText r ++ ", col_len:".toList ++ decText c ++ [',']) := by
  unfold Spec.sizeMessage inputSizeText
  rw [decText_repr, decText_repr]
  have e1 : "Unexpected input size error: row_len: ".toList = "Unexpected input size error: ".toList ++ "row_len: ".toList := by
    decide +kernel
  have e2 : ",".toList = [','] := by decide +kernel
  rw [String.toList_append, String.toList_append, String.toList_append, String.toList_append, e1, e2]
  simp only [List.append_assoc]

theorem vecMultT_ok {r c : List U32} (h : r.length = c.length) : vecMultT r c = .ok (dot r c) := by
  have h1 := vecMult_ok h
  unfold vecMult at h1
  rw [if_neg (by simp [h])] at h1
  unfold vecMultT
  rw [if_neg (by simp [h]), h1]
  rfl

theorem vecMultT_err {r c : List U32} (h : r.length ≠ c.length) :
    vecMultT r c = .err .inputSize (sizeMessage r.length c.length).toList := by
  rw [sizeMessage_toList, vecMultT, if_pos h]

theorem randomTernary_cases (tape : List U32) : (∃ p, randomTernary tape = .ok p) ∨ randomTernary tape = .diverge := by
  induction tape with
  | nil => right; rfl
  | cons v t ih =>
    rw [randomTernary]
    split
    · exact ih
    · left; exact ⟨_, rfl⟩

theorem randomTernaryVector_cases (n : Nat) : ∀ tape : List U32,
    (∃ p, randomTernaryVector n tape = .ok p) ∨ randomTernaryVector n tape = .diverge := by
  induction n with
  | zero => intro tape; left; exact ⟨_, rfl⟩
  | succ n ih =>
    intro tape
    rw [randomTernaryVector]
    rcases randomTernary_cases tape with ⟨p, h⟩ | h
    · rw [h, Res.bind_ok]
      rcases ih p.2 with ⟨p', h'⟩ | h'
      · left; exact ⟨(p.1 :: p'.1, p'.2), by simp only [h', Res.bind_ok]⟩
      · right; simp only [h', Res.bind_diverge]
    · right; rw [h, Res.bind_diverge]

/-- The first column that has not `n` words. -/
def Spec.firstOff (n : Nat) (cols : List (List U32)) : Option (List U32) := cols.find? fun c => decide (c.length ≠ n)

theorem multLeftT_cases (s : List U32) : ∀ (cols : List (List U32)) (tape : List U32),
    match firstOff s.length cols with
    | none => (∃ p, multLeftT s cols tape = .ok p) ∨ multLeftT s cols tape = .diverge
    | some c => multLeftT s cols tape = .err .inputSize (sizeMessage s.length c.length).toList ∨ multLeftT s cols tape = .diverge
  | [], tape => by
    show (∃ p, _) ∨ _
    exact Or.inl ⟨_, rfl⟩
  | col :: cols, tape => by
    unfold firstOff
    rw [List.find?_cons]
    by_cases h : s.length = col.length
    · rw [show decide (col.length ≠ s.length) = false by simp [h]]
      have ih := fun t => multLeftT_cases s cols t
      unfold firstOff at ih
      rw [multLeftT, vecMultT_ok h, tbind_ok]
      rcases randomTernary_cases tape with ⟨p, hp⟩ | hp
      · rw [hp]
        specialize ih p.2
        simp only
        split
        · rename_i h1
          rw [h1] at ih
          rcases ih with ⟨p', h'⟩ | h'
          · left; exact ⟨_, by simp only [Res.withText, tbind_ok, h']; rfl⟩
          · right; simp only [Res.withText, tbind_ok, h', tbind_diverge]
        · rename_i c h1
          rw [h1] at ih
          rcases ih with h' | h'
          · left; simp only [Res.withText, tbind_ok, h', tbind_err]
          · right; simp only [Res.withText, tbind_ok, h', tbind_diverge]
      · rw [hp]
        simp only [Res.withText, tbind_diverge]
        split <;> exact Or.inr trivial
    · rw [show decide (col.length ≠ s.length) = true by simp [Ne.symm h]]
      left
      rw [multLeftT, vecMultT_err h, tbind_err]

theorem multRightT_cases (s : List U32) : ∀ (cols : List (List U32)),
    match firstOff s.length cols with
    | none => ∃ r, multRightT s cols = .ok r
    | some c => multRightT s cols = .err .inputSize (sizeMessage s.length c.length).toList
  | [] => ⟨_, rfl⟩
  | col :: cols => by
    unfold firstOff
    rw [List.find?_cons]
    by_cases h : s.length = col.length
    · rw [show decide (col.length ≠ s.length) = false by simp [h]]
      have ih := multRightT_cases s cols
      unfold firstOff at ih
      rw [multRightT, vecMultT_ok h, tbind_ok]
      simp only
      split
      · rename_i h1
        rw [h1] at ih
        obtain ⟨r, hr⟩ := ih
        exact ⟨_, by rw [hr, tbind_ok]⟩
      · rename_i c h1
        rw [h1] at ih
        rw [ih, tbind_err]
    · rw [show decide (col.length ≠ s.length) = true by simp [Ne.symm h]]
      show _ = _
      rw [multRightT, vecMultT_err h, tbind_err]

theorem new_cases {α : Type} (n : Nat) (cp rhs : List (List U32)) (tape : List U32) (mk : List U32 → List U32 → α) (x : TRes (α × List U32))
    (hx : x = ((randomTernaryVector n tape).withText >>= fun p => multLeftT p.1 cp p.2 >>= fun p' =>
      multRightT p.1 rhs >>= fun r => .ok (mk p'.1 r, p'.2))) :
    match firstOff n (cp ++ rhs) with
    | none => ∀ e t, x ≠ .err e t
    | some c => x = .err .inputSize (sizeMessage n c.length).toList ∨ x = .diverge := by
  rcases randomTernaryVector_cases n tape with ⟨p, hp⟩ | hp
  · have hl : p.1.length = n := (randomTernaryVector_spec (s := p.1) (tape' := p.2) hp).1
    rw [hp] at hx
    simp only [Res.withText, tbind_ok] at hx
    have h1 := multLeftT_cases p.1 cp p.2
    have h2 := multRightT_cases p.1 rhs
    rw [hl] at h1 h2
    have hf : firstOff n (cp ++ rhs) = (firstOff n cp).or (firstOff n rhs) := List.find?_append
    rw [hf]
    cases e1 : firstOff n cp with
    | none =>
      rw [e1] at h1
      rw [Option.none_or]
      rcases h1 with ⟨p', h1⟩ | h1
      · rw [h1, tbind_ok] at hx
        cases e2 : firstOff n rhs with
        | none =>
          rw [e2] at h2
          obtain ⟨r, h2⟩ := h2
          rw [h2, tbind_ok] at hx
          intro e t h
          rw [hx] at h
          cases h
        | some c =>
          rw [e2] at h2
          left
          rw [hx, show multRightT p.1 rhs = _ from h2, tbind_err]
      · rw [h1, tbind_diverge] at hx
        cases firstOff n rhs with
        | none => intro e t h; rw [hx] at h; cases h
        | some c => exact Or.inr hx
    | some c =>
      rw [e1] at h1
      rw [Option.some_or]
      rcases h1 with h1 | h1
      · left; rw [hx, h1, tbind_err]
      · right; rw [hx, h1, tbind_diverge]
  · rw [hp] at hx
    simp only [Res.withText, tbind_diverge] at hx
    cases firstOff n (cp ++ rhs) with
    | none => intro e t h; rw [hx] at h; cases h
    | some c => exact Or.inr hx

/-- **C118 (preparing a request).** Whatever the random words, `QueryParams::new` either has no error, when all columns of
the public matrices have `dim` words, or fails with the message naming `dim` and the length of the first column that has
not. So the message is decided by the public parameters alone: nothing of the secret is in it. -/
theorem C118_new_texts :
    (∀ (cp : List (List U32)) (params : IndexParams) (tape : List U32),
      match firstOff params.dim (cp ++ params.rhs) with
      | none => ∀ e t, generateIndexQueryParamsT cp params tape ≠ .err e t
      | some c => generateIndexQueryParamsT cp params tape = .err .inputSize (sizeMessage params.dim c.length).toList ∨
          generateIndexQueryParamsT cp params tape = .diverge) ∧
    (∀ (cp : List (List U32)) (params : KVParams) (tape : List U32),
      match firstOff params.dim (cp ++ params.rhs) with
      | none => ∀ e t, generateKvQueryParamsT cp params tape ≠ .err e t
      | some c => generateKvQueryParamsT cp params tape = .err .inputSize (sizeMessage params.dim c.length).toList ∨
          generateKvQueryParamsT cp params tape = .diverge) :=
  ⟨fun cp params tape => new_cases params.dim cp params.rhs tape
      (fun l r => (⟨l, r, params.elemSize, params.plaintextBits, none, false⟩ : QueryParams Unit)) _ rfl,
   fun cp params tape => new_cases params.dim cp params.rhs tape
      (fun l r => (⟨l, r, params.elemSize, params.plaintextBits, some params.filterParams, false⟩ : QueryParams FilterParams)) _ rfl⟩

theorem indexQuery_errs {prof : Profile} {qp : QueryParams Unit} {i : Nat} {e : Err}
    (h : (qp.generateIndexQuery prof i).2 = .err e) : (qp.used = true ∧ e = .queryParamsReused) ∨ (qp.used = false ∧ e = .overflownAdd) := by
  unfold QueryParams.generateIndexQuery at h
  split at h
  · rename_i hu
    cases h
    exact Or.inl ⟨hu, rfl⟩
  · rename_i hu
    refine Or.inr ⟨by simpa using hu, ?_⟩
    unfold indexQueryBody at h
    simp only at h
    have hd : ∀ e, getRoundingFactor prof qp.plaintextBits ≠ .err e := by
      intro e
      unfold getRoundingFactor getPlaintextSize
      repeat' first | split | simp
    cases hf : getRoundingFactor prof qp.plaintextBits with
    | err e' => exact absurd hf (hd e')
    | panic => rw [hf] at h; cases h
    | diverge => rw [hf] at h; cases h
    | ok d =>
      rw [hf, Res.bind_ok] at h
      cases hx : rd qp.lhs i with
      | err e' => unfold rd at hx; split at hx <;> cases hx
      | panic => rw [hx] at h; cases h
      | diverge => rw [hx] at h; cases h
      | ok x =>
        rw [hx, Res.bind_ok] at h
        split at h
        · unfold wr at h; split at h <;> cases h
        · cases h; rfl

/-- **C118 (index requests).** The error message of `generate_query` is one of two fixed sentences: the first exactly for used
parameters, the second only for fresh ones. Neither the row asked for nor anything of the masks is in the text. -/
theorem C118_index_query_text (prof : Profile) (qp : QueryParams Unit) (i : Nat) (e : Err) (t : List Char)
    (h : (qp.generateIndexQueryT prof i).2 = .err e t) :
    (qp.used = true ∧ e = .queryParamsReused ∧ t = "Attempted to reuse query parameters that were used already".toList) ∨
    (qp.used = false ∧ e = .overflownAdd ∧ t = "Attempted to overflow addition".toList) := by
  unfold QueryParams.generateIndexQueryT at h
  simp only at h
  cases hr : (qp.generateIndexQuery prof i).2 with
  | ok a => rw [hr] at h; cases h
  | panic => rw [hr] at h; cases h
  | diverge => rw [hr] at h; cases h
  | err e' =>
    rw [hr] at h
    cases h
    rcases indexQuery_errs hr with ⟨h1, rfl⟩ | ⟨h1, rfl⟩
    · exact Or.inl ⟨h1, rfl, rfl⟩
    · exact Or.inr ⟨h1, rfl, rfl⟩

theorem NoErr' {α : Type} {x : Res α} (h : ∀ e, x ≠ .err e) {β : Type} {f : α → Res β} {e : Err} (hx : (x >>= f) = .err e) :
    ∃ a, x = .ok a ∧ f a = .err e := by
  cases x with
  | ok a => exact ⟨a, rfl, hx⟩
  | err e' => exact absurd rfl (h e')
  | panic => cases hx
  | diverge => cases hx

theorem rounding_noErr (prof : Profile) (b : Nat) (e : Err) : getRoundingFactor prof b ≠ .err e := by
  unfold getRoundingFactor getPlaintextSize
  repeat' first | split | simp

theorem addAt_noErr (d : U32) : ∀ (is : List Nat) (l : List U32) (e : Err), foldRes (addAtStep d) l is ≠ .err e
  | [], _, _ => by intro h; cases h
  | i :: is, l, e => by
    intro h
    rw [foldRes] at h
    obtain ⟨l', _, h⟩ := NoErr' (fun e' h' => by
      unfold addAtStep at h'
      obtain ⟨x, _, h'⟩ := NoErr' (fun e'' h'' => by unfold rd at h''; split at h'' <;> cases h'') h'
      unfold wr at h'
      split at h' <;> cases h') h
    exact addAt_noErr d is l' e h

/-- **C118 (keyword requests).** The error message of the keyword `generate_query` is one of two fixed sentences, decided by the
flag and by the absence of filter parameters: nothing about the key or the masks is in it, or in whether it appears. -/
theorem C118_kv_query_text (prof : Profile) (qp : QueryParams FilterParams) (key : Key) (e : Err) (t : List Char)
    (h : (qp.generateKvQueryT prof key).2 = .err e t) :
    (qp.used = true ∧ e = .queryParamsReused ∧ t = "Attempted to reuse query parameters that were used already".toList) ∨
    (qp.used = false ∧ qp.extraParams = none ∧ e = .noFilterParams ∧ t = "No filter parameters set for KV QueryParams".toList) := by
  unfold QueryParams.generateKvQueryT QueryParams.generateKvQuery at h
  by_cases hu : qp.used = true
  · rw [if_pos hu] at h
    cases h
    exact Or.inl ⟨hu, rfl, rfl⟩
  · rw [if_neg hu] at h
    simp only at h
    right
    have hb : kvQueryBody prof qp key = .err e ∧ t = fixedText e := by
      cases hr : kvQueryBody prof qp key with
      | ok a => rw [hr] at h; cases h
      | panic => rw [hr] at h; cases h
      | diverge => rw [hr] at h; cases h
      | err e' => rw [hr] at h; cases h; exact ⟨rfl, rfl⟩
    obtain ⟨hb, rfl⟩ := hb
    unfold kvQueryBody at hb
    obtain ⟨d, _, hb⟩ := NoErr' (rounding_noErr prof _) hb
    cases hx : qp.extraParams with
    | none =>
      rw [hx] at hb
      cases hb
      exact ⟨by simpa using hu, rfl, rfl, rfl⟩
    | some fp =>
      rw [hx] at hb
      exfalso
      simp only at hb
      have hev : ∀ e, fp.getHashEvals prof key ≠ .err e := by
        intro e' he
        unfold FilterParams.getHashEvals BinaryFuseP32.hashEval at he
        obtain ⟨hsh, _, he⟩ := NoErr' (fun e'' h'' => by
          unfold mix256 at h''
          obtain ⟨_, _, h''⟩ := NoErr' (fun e3 h3 => by unfold seedWords at h3; split at h3 <;> cases h3) h''
          cases h'') he
        obtain ⟨_, _, he⟩ := NoErr' (fun e'' h'' => by
          unfold hashOfHashC at h''
          obtain ⟨_, _, h''⟩ := NoErr' (fun e3 h3 => by unfold addC at h3; repeat' first | split at h3 | cases h3) h''
          obtain ⟨_, _, h''⟩ := NoErr' (fun e3 h3 => by unfold addC at h3; repeat' first | split at h3 | cases h3) h''
          cases h'') he
        cases he
      obtain ⟨idx, _, hb⟩ := NoErr' hev hb
      exact addAt_noErr d idx _ _ hb

/-- **C118 (numbers).** `bits_to_u32_le` fails exactly for more than 32 bits, with a message that gives the number of bytes and
nothing of their content; the other message of its code path, which prints the bytes, never appears. -/
theorem C118_bits_text (prof : Profile) (bits : List Bool) :
    (bits.length ≤ 32 → ∃ x, bitsToU32LeT prof bits = .ok x) ∧
    (32 < bits.length → bitsToU32LeT prof bits = .err .inputSize
      ("Unexpected input size error: bytes are too long to parse as u16, length: " ++ toString ((bits.length + 7) / 8)).toList) := by
  obtain ⟨bytes, h1, h2, _⟩ := bitsToBytesLe_spec prof bits
  constructor
  · intro h
    unfold bitsToU32LeT
    rw [h1]
    simp only [Res.withText, tbind_ok]
    rw [if_neg (by omega), u32SizedBytesFromVecT, if_pos (by rw [List.length_append, List.length_replicate]; omega), tbind_ok]
    exact ⟨_, rfl⟩
  · intro h
    unfold bitsToU32LeT
    rw [h1]
    simp only [Res.withText, tbind_ok]
    rw [if_pos (by omega), h2, decText_repr, String.toList_append]
    have e1 : "Unexpected input size error: bytes are too long to parse as u16, length: ".toList =
      "Unexpected input size error: ".toList ++ "bytes are too long to parse as u16, length: ".toList := by decide +kernel
    rw [e1, List.append_assoc]
    rfl

theorem decText_cancel {a b : Nat} {r r' : List Char} (hr : ∀ c, r.head? = some c → ¬ Digit c)
    (hr' : ∀ c, r'.head? = some c → ¬ Digit c) (h : decText a ++ r = decText b ++ r') : a = b ∧ r = r' := by
  have h1 := digits_read (decText_int a).1.1.2 hr
  have h2 := digits_read (decText_int b).1.1.2 hr'
  rw [h] at h1
  have e := h1.1.symm.trans h2.1
  refine ⟨?_, h1.2.symm.trans h2.2⟩
  rw [← (decText_int a).2, ← (decText_int b).2, e]

/-- **C118 (messages can be told apart).** The size message tells both lengths, and differs from the two sentences of
`generate_query` and from the one for missing filter parameters; these three differ from each other. -/
theorem C118_texts_distinct :
    (∀ r c r' c', sizeMessage r c = sizeMessage r' c' → r = r' ∧ c = c') ∧
    (∀ r c, (sizeMessage r c).toList ∉ [fixedText .queryParamsReused, fixedText .overflownAdd, fixedText .noFilterParams]) ∧
    [fixedText .queryParamsReused, fixedText .overflownAdd, fixedText .noFilterParams].Nodup := by
  refine ⟨?_, ?_, by decide +kernel⟩
  · intro r c r' c' h
    have h := congrArg String.toList h
    rw [sizeMessage_toList, sizeMessage_toList] at h
    unfold inputSizeText at h
    have h := List.append_cancel_left h
    rw [List.append_assoc, List.append_assoc, List.append_assoc, List.append_assoc, List.append_assoc, List.append_assoc] at h
    have h := List.append_cancel_left h
    have hc : ∀ (t : List Char) (x : Char), (", col_len:".toList ++ t).head? = some x → ¬ Digit x := by
      intro t x hx
      have e : ", col_len:".toList = ',' :: " col_len:".toList := by decide +kernel
      rw [e, List.cons_append, List.head?_cons] at hx
      cases hx
      unfold Digit; decide
    obtain ⟨e1, h⟩ := decText_cancel (hc _) (hc _) h
    have h := List.append_cancel_left h
    have hd : ∀ (x : Char), [','].head? = some x → ¬ Digit x := by
      intro x hx
      cases hx
      unfold Digit; decide
    exact ⟨e1, (decText_cancel hd hd h).1⟩
  · intro r c h
    rw [sizeMessage_toList] at h
    have hh : ((inputSizeText ("row_len: ".toList ++ decText r ++ ", col_len:".toList ++ decText c ++ [','])).head?) = some 'U' := by
      have e : "Unexpected input size error: ".toList = 'U' :: "nexpected input size error: ".toList := by decide +kernel
      unfold inputSizeText
      rw [e]; rfl
    have hall : ∀ t ∈ [fixedText .queryParamsReused, fixedText .overflownAdd, fixedText .noFilterParams], t.head? ≠ some 'U' := by
      decide +kernel
    exact hall _ h hh

/-! ## C119: debug output -/

theorem sep_cancel : ∀ (l l' : List U32) (r r' : List Char), sepText [',', ' '] (l.map fun x => decText x.toNat) ++ ']' :: r =
    sepText [',', ' '] (l'.map fun x => decText x.toNat) ++ ']' :: r' → l = l' ∧ r = r' := by
  have hb : ∀ (t : List Char) (x : Char), (']' :: t).head? = some x → ¬ Digit x := by
    intro t x hx; cases hx; unfold Digit; decide
  have hcm : ∀ (t : List Char) (x : Char), (',' :: t).head? = some x → ¬ Digit x := by
    intro t x hx; cases hx; unfold Digit; decide
  have hne : ∀ n (t : List Char), (decText n ++ t).head? ≠ some ']' := by
    intro n t h
    obtain ⟨⟨⟨h1, h2⟩, _⟩, _⟩ := decText_int n
    cases hd : decText n with
    | nil => exact h1 hd
    | cons c cs =>
      rw [hd] at h h2
      cases h
      have := h2 ']' (by simp)
      unfold Digit at this
      revert this; decide
  have hsep : ∀ (x : U32) (xs : List U32) (t : List Char), ∃ u, sepText [',', ' '] ((x :: xs).map fun x => decText x.toNat) ++ t =
      decText x.toNat ++ u ∧ u = (match xs with
        | [] => t
        | y :: ys => ',' :: ' ' :: (sepText [',', ' '] ((y :: ys).map fun x => decText x.toNat) ++ t)) := by
    intro x xs t
    cases xs with
    | nil => exact ⟨_, rfl, rfl⟩
    | cons y ys => exact ⟨_, by simp [sepText, List.append_assoc], rfl⟩
  intro l
  induction l with
  | nil =>
    intro l' r r' h
    cases l' with
    | nil =>
      simp only [List.map_nil, sepText, List.nil_append, List.cons.injEq, true_and] at h
      exact ⟨rfl, h⟩
    | cons x xs =>
      obtain ⟨u, h1, _⟩ := hsep x xs (']' :: r')
      rw [h1] at h
      exact absurd (congrArg List.head? h.symm) (by simpa [sepText] using hne _ u)
  | cons x xs ih =>
    intro l' r r' h
    cases l' with
    | nil =>
      obtain ⟨u, h1, _⟩ := hsep x xs (']' :: r)
      rw [h1] at h
      exact absurd (congrArg List.head? h) (by simpa [sepText] using hne _ u)
    | cons y ys =>
      obtain ⟨u, h1, hu⟩ := hsep x xs (']' :: r)
      obtain ⟨v, h2, hv⟩ := hsep y ys (']' :: r')
      rw [h1, h2] at h
      have hu' : ∀ c, u.head? = some c → ¬ Digit c := by
        rw [hu]; cases xs with
        | nil => exact hb _
        | cons _ _ => exact hcm _
      have hv' : ∀ c, v.head? = some c → ¬ Digit c := by
        rw [hv]; cases ys with
        | nil => exact hb _
        | cons _ _ => exact hcm _
      obtain ⟨e1, e2⟩ := decText_cancel hu' hv' h
      have exy : x = y := BitVec.eq_of_toNat_eq e1
      rw [hu, hv] at e2
      cases xs with
      | nil =>
        cases ys with
        | nil =>
          simp only [List.cons.injEq, true_and] at e2
          exact ⟨by rw [exy], e2⟩
        | cons z zs => exact absurd (congrArg List.head? e2) (by simp)
      | cons w ws =>
        cases ys with
        | nil => exact absurd (congrArg List.head? e2) (by simp)
        | cons z zs =>
          simp only [List.cons.injEq, true_and] at e2
          obtain ⟨e3, e4⟩ := ih (z :: zs) r r' e2
          exact ⟨by rw [exy, e3], e4⟩

theorem dbgVec_cancel {l l' : List U32} {r r' : List Char} (h : dbgVec l ++ r = dbgVec l' ++ r') : l = l' ∧ r = r' := by
  unfold dbgVec at h
  simp only [List.cons_append, List.append_assoc, List.cons.injEq, true_and, List.nil_append] at h
  exact sep_cancel _ _ _ _ h

theorem dbgText_inj {EP : Type} {rest rest' : List Char} {qp qp' : QueryParams EP} (h : qp.dbgText rest = qp'.dbgText rest') :
    qp.lhs = qp'.lhs ∧ qp.rhs = qp'.rhs := by
  unfold QueryParams.dbgText at h
  rw [List.append_assoc, List.append_assoc, List.append_assoc, List.append_assoc, List.append_assoc, List.append_assoc] at h
  obtain ⟨h1, h⟩ := dbgVec_cancel (List.append_cancel_left h)
  exact ⟨h1, (dbgVec_cancel (List.append_cancel_left h)).1⟩

open Classical in
/-- The first masks that print as `t`. -/
noncomputable def lhsOf (EP : Type) (t : List Char) : List U32 :=
  if h : ∃ p : QueryParams EP × List Char, p.1.dbgText p.2 = t then (Classical.choose h).1.lhs else []

theorem lhsOf_eq {EP : Type} (qp : QueryParams EP) (rest : List Char) : lhsOf EP (qp.dbgText rest) = qp.lhs := by
  have h : ∃ p : QueryParams EP × List Char, p.1.dbgText p.2 = qp.dbgText rest := ⟨(qp, rest), rfl⟩
  unfold lhsOf
  rw [dif_pos h]
  exact (dbgText_inj (Classical.choose_spec h)).1

theorem pow_ne_zero32 {b : Nat} (hb1 : 1 ≤ b) (hb : b ≤ 31) : BitVec.ofNat 32 (2 ^ (32 - b)) ≠ 0#32 := by
  intro h
  have := congrArg BitVec.toNat h
  rw [BitVec.toNat_ofNat, Nat.mod_eq_of_lt (Nat.pow_lt_pow_right (by omega) (by omega))] at this
  have h2 := Nat.two_pow_pos (32 - b)
  simp at this

theorem dbgText_used {EP : Type} (qp : QueryParams EP) (rest : List Char) :
    ({ qp with used := true } : QueryParams EP).dbgText rest = qp.dbgText rest := rfl

/-- **C119 (index).** There is one reader that tells the row asked for from what `{:?}` prints for the client's `QueryParams`
(before or after the request) and the query on the wire, for all parameters, rows and texts of the remaining fields. -/
theorem C119_debug_reveals_row : ∃ reader : List Char → List U32 → Nat,
    ∀ (prof : Profile) (rest rest' : List Char) (qp qp' : QueryParams Unit) (i : Nat) (q : List U32),
      1 ≤ qp.plaintextBits → qp.plaintextBits ≤ 31 → qp.generateIndexQuery prof i = (qp', .ok q) →
      reader (qp.dbgText rest) q = i ∧ reader (qp'.dbgText rest') q = i := by
  classical
  refine ⟨fun t q => if h : ∃ k, q[k]? ≠ (lhsOf Unit t)[k]? then Nat.find h else 0, ?_⟩
  intro prof rest rest' qp qp' i q hb1 hb hq
  have hu : qp.used = false := by
    by_contra h
    unfold QueryParams.generateIndexQuery at hq
    rw [if_pos (by simpa using h)] at hq
    cases (Prod.mk.inj hq).2
  have hi : i < qp.lhs.length := by
    by_contra h
    have h2 := congrArg Prod.snd hq
    rw [indexQuery_fresh hu] at h2
    simp only at h2
    unfold indexQueryBody at h2
    obtain ⟨d, _, h2⟩ := Res.bind_eq_ok.1 h2
    obtain ⟨x, h3, _⟩ := Res.bind_eq_ok.1 h2
    unfold rd at h3
    rw [List.getElem?_eq_none (by omega)] at h3
    cases h3
  obtain ⟨_, h1, h2⟩ := C06_index_query_outcome prof qp i hb1 hb hu hi
  have hl : qp'.lhs = qp.lhs := by
    have := congrArg Prod.fst hq
    simp only at this
    rw [← this, indexQuery_fresh hu]
  have hqe : q = qp.lhs.set i (qp.lhs[i] + BitVec.ofNat 32 (2 ^ (32 - qp.plaintextBits))) := by
    have e := congrArg Prod.snd hq
    simp only at e
    rw [e] at h1 h2
    rcases Nat.lt_or_ge ((qp.lhs[i]).toNat + 2 ^ (32 - qp.plaintextBits)) (2 ^ 32) with h | h
    · exact Res.ok.inj (h1 h)
    · cases h2 h
  have key : ∀ L, L = qp.lhs → (if h : ∃ k, q[k]? ≠ L[k]? then Nat.find h else 0) = i := by
    intro L hL
    subst hL
    have hne : ∀ k, q[k]? ≠ qp.lhs[k]? ↔ k = i := by
      intro k
      rw [hqe]
      constructor
      · intro h
        by_contra hk
        exact h (List.getElem?_set_ne (Ne.symm hk))
      · rintro rfl h
        rw [List.getElem?_set_self hi, List.getElem?_eq_getElem hi] at h
        have h := Option.some.inj h
        exact pow_ne_zero32 hb1 hb (by simpa using h)
    have hex : ∃ k, q[k]? ≠ qp.lhs[k]? := ⟨i, (hne i).2 rfl⟩
    rw [dif_pos hex]
    exact (hne _).1 (Nat.find_spec hex)
  refine ⟨key _ (lhsOf_eq qp rest), key _ ?_⟩
  rw [lhsOf_eq, hl]

/-- **C119 (keyword).** There is one reader that tells the three slots of the key asked for, hence which of the candidate keys
with different slots it was, from the printed `QueryParams` and the query on the wire. -/
theorem C119_debug_reveals_slots : ∃ reader : List Char → List U32 → Set Nat,
    ∀ (prof : Profile) (size segExp cap0 : Nat) (lay : Layout) (rest : List Char) (fp : FilterParams)
      (qp qp' : QueryParams FilterParams) (key : Key) (q : List U32),
      bfLayout size segExp cap0 = .ok lay → fp.geom = lay.geom → fp.seed.length = 32 → qp.extraParams = some fp →
      qp.lhs.length = lay.arrayLen → 1 ≤ qp.plaintextBits → qp.plaintextBits ≤ 31 →
      qp.generateKvQuery prof key = (qp', .ok q) →
      ∃ slots, fp.getHashEvals prof key = .ok slots ∧ slots.length = 3 ∧ slots.Nodup ∧
        (∀ k, k ∈ reader (qp.dbgText rest) q ↔ k ∈ slots) ∧ (∀ k, k ∈ reader (qp'.dbgText rest) q ↔ k ∈ slots) := by
  refine ⟨fun t q => {k | q[k]? ≠ (lhsOf FilterParams t)[k]?}, ?_⟩
  intro prof size segExp cap0 lay rest fp qp qp' key q hlay hg hs hfp hl hb1 hb hq
  have hu : qp.used = false := by
    by_contra h
    unfold QueryParams.generateKvQuery at hq
    rw [if_pos (by simpa using h)] at hq
    cases (Prod.mk.inj hq).2
  obtain ⟨slots, q', h1, h2, h3, h4, h5, h6, h7⟩ := C07_kv_query_outcome prof size segExp cap0 lay hlay fp hg hs qp hb hfp hu hl key
  have hqq : q' = q := by
    have h := congrArg Prod.snd hq
    simp only at h
    rw [h5] at h
    exact Res.ok.inj h
  subst hqq
  have hl' : qp'.lhs = qp.lhs := by
    have := congrArg Prod.fst hq
    simp only at this
    rw [← this, kvQuery_fresh hu]
  have main : ∀ k, q'[k]? ≠ qp.lhs[k]? ↔ k ∈ slots := by
    intro k
    rcases Nat.lt_or_ge k lay.arrayLen with hk | hk
    · have e := h7 k hk
      rw [getD_lt (by omega), getD_lt (by omega)] at e
      rw [List.getElem?_eq_getElem (by omega), List.getElem?_eq_getElem (by omega), e]
      split
      · rename_i hm
        refine ⟨fun _ => hm, fun _ h => ?_⟩
        have h := Option.some.inj h
        exact pow_ne_zero32 hb1 hb (by simpa using h)
      · rename_i hm
        exact ⟨fun h => absurd (by rw [BitVec.add_zero]) h, fun h => absurd h hm⟩
    · rw [List.getElem?_eq_none (by omega), List.getElem?_eq_none (by omega)]
      exact ⟨fun h => absurd rfl h, fun h => absurd (h4 k h) (by omega)⟩
  refine ⟨slots, h1, h2, h3, ?_, ?_⟩
  · intro k
    rw [Set.mem_ofPred_eq, lhsOf_eq]
    exact main k
  · intro k
    rw [Set.mem_ofPred_eq, lhsOf_eq, hl']
    exact main k

/-- **C119 (answers).** The same print also holds the mask of the answer: two clients whose `QueryParams` print the same vectors and
that use the same sizes parse every response alike, so whoever has the text and the response has the row. -/
theorem C119_debug_reveals_answer (prof : Profile) (rest rest' : List Char) (qp qp' : QueryParams Unit)
    (h : qp.dbgText rest = qp'.dbgText rest') (hT : qp.elemSize = qp'.elemSize) (hb : qp.plaintextBits = qp'.plaintextBits)
    (resp : List U32) : qp.parseIndexRow prof resp = qp'.parseIndexRow prof resp := by
  have h2 := (dbgText_inj h).2
  unfold QueryParams.parseIndexRow
  rw [h2, hT, hb]

/-! ## Concrete cases -/

/-- A column of the wrong length: the whole message. -/
example : vecMultT [1#32, 2#32] [1#32, 2#32, 3#32] =
    .err .inputSize "Unexpected input size error: row_len: 2, col_len:3,".toList := by decide +kernel

/-- Requests that fail with each message. -/
example : (QueryParams.generateIndexQueryT .release ⟨[5#32, 6#32], [], 8, 4, none, true⟩ 0).2 =
      .err .queryParamsReused "Attempted to reuse query parameters that were used already".toList ∧
    (QueryParams.generateIndexQueryT .release ⟨[5#32, 0xffffffff#32], [], 8, 4, none, false⟩ 1).2 =
      .err .overflownAdd "Attempted to overflow addition".toList ∧
    (QueryParams.generateKvQueryT .debug ⟨[5#32, 6#32], [], 8, 4, none, false⟩ [1#64, 2#64, 3#64, 4#64]).2 =
      .err .noFilterParams "No filter parameters set for KV QueryParams".toList := by decide +kernel

/-- A printed client and its query. -/
example : (⟨[5#32, 6#32], [7#32], 8, 4, none, false⟩ : QueryParams Unit).dbgText " }".toList =
      "QueryParams { lhs: [5, 6], rhs: [7] }".toList ∧
    QueryParams.generateIndexQuery .release ⟨[5#32, 6#32], [7#32], 8, 4, none, false⟩ 1 =
      (⟨[5#32, 6#32], [7#32], 8, 4, none, true⟩, .ok [5#32, 268435462#32]) := by decide +kernel

/-- 33 bits do not fit. -/
example : bitsToU32LeT .debug (List.replicate 33 true) =
    .err .inputSize "Unexpected input size error: bytes are too long to parse as u16, length: 5".toList := by decide +kernel

end Chalamet
