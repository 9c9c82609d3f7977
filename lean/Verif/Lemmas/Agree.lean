import Verif.Model.Files
import Verif.Model.Fuse

/-!
# Debug and release builds agree whenever the debug build does not panic

`Agree x y` says that either the first outcome is a panic or both outcomes are the same. It is preserved by
sequencing, loops and `unwrap`, and holds between the two profiles of checked addition and subtraction; hence
it holds between the two profiles of every modelled function.
-/

namespace Chalamet

/-- The first outcome is a panic, or both are equal. -/
def Agree {α : Type} (x y : Res α) : Prop := x = .panic ∨ x = y

namespace Agree

theorem refl {α : Type} (x : Res α) : Agree x x := .inr rfl
theorem panic {α : Type} (y : Res α) : Agree .panic y := .inl rfl

theorem bind {α β : Type} {x y : Res α} {f g : α → Res β} (h : Agree x y)
    (hf : ∀ a, Agree (f a) (g a)) : Agree (x >>= f) (y >>= g) := by
  rcases h with rfl | rfl
  · exact .inl rfl
  · cases x with
    | ok a => exact hf a
    | err e => exact .inr rfl
    | panic => exact .inr rfl
    | diverge => exact .inr rfl

theorem unwrap {α : Type} {x y : Res α} (h : Agree x y) : Agree x.unwrap y.unwrap := by
  rcases h with rfl | rfl
  · exact .inl rfl
  · exact .inr rfl

theorem ite {α : Type} {c : Prop} [Decidable c] {x y x' y' : Res α} (h : Agree x y) (h' : Agree x' y') :
    Agree (if c then x else x') (if c then y else y') := by
  split
  · exact h
  · exact h'

theorem mapRes {α β : Type} {f g : α → Res β} (h : ∀ a, Agree (f a) (g a)) (l : List α) :
    Agree (mapRes f l) (Chalamet.mapRes g l) := by
  induction l with
  | nil => exact refl _
  | cons a l ih => exact bind (h a) fun b => bind ih fun bs => refl _

theorem foldRes {α σ : Type} {f g : σ → α → Res σ} (h : ∀ s a, Agree (f s a) (g s a)) (s : σ) (l : List α) :
    Agree (foldRes f s l) (Chalamet.foldRes g s l) := by
  induction l generalizing s with
  | nil => exact refl _
  | cons a l ih => exact bind (h s a) fun s' => ih s'

theorem addC {w : Nat} (a b : BitVec w) : Agree (addC .debug a b) (Chalamet.addC .release a b) := by
  unfold Chalamet.addC
  dsimp only
  split
  · exact refl _
  · exact panic _

theorem subC {w : Nat} (a b : BitVec w) : Agree (subC .debug a b) (Chalamet.subC .release a b) := by
  unfold Chalamet.subC
  dsimp only
  split
  · exact refl _
  · exact panic _

/-- A debug assertion. -/
theorem guard {α : Type} {c : Prop} [Decidable (Profile.debug = .debug ∧ c)]
    [Decidable (Profile.release = .debug ∧ c)] {x y : Res α} (h : Agree x y) :
    Agree (if Profile.debug = .debug ∧ c then .panic else x)
      (if Profile.release = .debug ∧ c then .panic else y) := by
  rw [if_neg (c := Profile.release = .debug ∧ c) (by simp)]
  split
  · exact panic _
  · exact h

theorem collectEager {α β : Type} {f g : α → Res β} (h : ∀ a, Agree (f a) (g a)) (l : List α) :
    Agree (collectEager f l) (Chalamet.collectEager g l) := by
  induction l with
  | nil => exact refl _
  | cons a l ih =>
    unfold Chalamet.collectEager
    rcases h a with e | e
    · rw [e]; exact panic _
    · rw [← e]
      rcases ih with e' | e'
      · rw [e']
        cases f a with
        | diverge => exact refl _
        | _ => exact panic _
      · rw [e']; exact refl _

/-! ## The functions of the library -/

macro "agree_step" : tactic => `(tactic| first
  | exact Agree.refl _
  | exact Agree.panic _
  | exact Agree.addC _ _
  | exact Agree.subC _ _
  | (refine Agree.bind ?_ ?_)
  | (refine Agree.unwrap ?_)
  | (refine Agree.foldRes ?_ _ _)
  | (refine Agree.mapRes ?_ _)
  | (refine Agree.guard ?_)
  | (refine Agree.ite ?_ ?_)
  | intro _
  | split)

theorem getPlaintextSize (b : Nat) :
    Agree (getPlaintextSize .debug b) (Chalamet.getPlaintextSize .release b) := by
  unfold Chalamet.getPlaintextSize
  repeat agree_step

theorem getRoundingFactor (b : Nat) :
    Agree (getRoundingFactor .debug b) (Chalamet.getRoundingFactor .release b) :=
  bind (getPlaintextSize b) fun _ => refl _

theorem getRoundingFloor (b : Nat) :
    Agree (getRoundingFloor .debug b) (Chalamet.getRoundingFloor .release b) :=
  bind (getRoundingFactor b) fun _ => refl _

theorem pow2U64 (b : Nat) : Agree (pow2U64 .debug b) (Chalamet.pow2U64 .release b) := by
  unfold Chalamet.pow2U64
  repeat agree_step

theorem bitsToBytesStep (bytes : List U8) (ib : Nat × Bool) :
    Agree (bitsToBytesStep .debug bytes ib) (Chalamet.bitsToBytesStep .release bytes ib) := by
  unfold Chalamet.bitsToBytesStep
  repeat agree_step

theorem bitsToBytesLe (bits : List Bool) :
    Agree (bitsToBytesLe .debug bits) (Chalamet.bitsToBytesLe .release bits) :=
  foldRes bitsToBytesStep _ _

theorem bitsToU32Le (bits : List Bool) :
    Agree (bitsToU32Le .debug bits) (Chalamet.bitsToU32Le .release bits) :=
  bind (bitsToBytesLe bits) fun _ => refl _

theorem bytesFromU32Slice (v : List U32) (b t : Nat) :
    Agree (bytesFromU32Slice .debug v b t) (Chalamet.bytesFromU32Slice .release v b t) := by
  unfold Chalamet.bytesFromU32Slice
  exact ite (refl _) (bind (refl _) fun _ => bitsToBytesLe _)

theorem base64FromU32Slice (v : List U32) (b t : Nat) :
    Agree (base64FromU32Slice .debug v b t) (Chalamet.base64FromU32Slice .release v b t) :=
  bind (bytesFromU32Slice v b t) fun _ => refl _

theorem rowDigit (bits : List Bool) (b i : Nat) :
    Agree (rowDigit .debug bits b i) (Chalamet.rowDigit .release bits b i) := by
  unfold Chalamet.rowDigit
  repeat (first | exact bitsToU32Le _ | agree_step)

theorem constructRow (e : List Char) (b w : Nat) :
    Agree (constructRow .debug e b w) (Chalamet.constructRow .release e b w) :=
  bind (refl _) fun _ => mapRes (fun i => rowDigit _ _ i) _

theorem constructRows (es : List (List Char)) (m t b : Nat) :
    Agree (constructRows .debug es m t b) (Chalamet.constructRows .release es m t b) :=
  bind (refl _) fun _ => mapRes (fun _ => bind (refl _) fun _ => constructRow _ _ _) _

theorem indexDatabase_new (es : List (List Char)) (m t b : Nat) :
    Agree (IndexDatabase.new .debug es m t b) (IndexDatabase.new .release es m t b) :=
  bind (constructRows _ _ _ _) fun _ => refl _

theorem kvConstructRow (e : List Char) (b t : Nat) :
    Agree (kvConstructRow .debug e b t) (Chalamet.kvConstructRow .release e b t) :=
  bind (refl _) fun _ => bind (refl _) fun _ => mapRes (fun i => rowDigit _ _ i) _

theorem keyValue (sha : Sha) (k : List U8) (v : List Char) (t b : Nat) :
    Agree (KeyValue.fromBase64Strings .debug sha k v t b) (KeyValue.fromBase64Strings .release sha k v t b) :=
  bind (refl _) fun _ => bind (kvConstructRow _ _ _) fun _ => refl _

/-! ### Filters -/

theorem bump (t : T2) (i : Nat) (x : U8) (h : U64) :
    Agree (bump .debug t i x h) (Chalamet.bump .release t i x h) := by
  unfold Chalamet.bump
  repeat agree_step

theorem unbump (t : T2) (i : Nat) (x : U8) (h : U64) :
    Agree (unbump .debug t i x h) (Chalamet.unbump .release t i x h) := by
  unfold Chalamet.unbump
  repeat agree_step

theorem countStep (g : Geom) (s : CState) (h : U64) :
    Agree (countStep .debug g s h) (Chalamet.countStep .release g s h) := by
  unfold Chalamet.countStep
  repeat (first | exact bump _ _ _ _ | exact unbump _ _ _ _ | agree_step)

theorem peelOther (cap : Nat) (q : List Nat) (t : T2) (o : Nat) (x : U8) (h : U64) :
    Agree (peelOther .debug cap q t o x h) (Chalamet.peelOther .release cap q t o x h) := by
  unfold Chalamet.peelOther
  repeat (first | exact unbump _ _ _ _ | agree_step)

theorem peelStep (g : Geom) (cap size i : Nat) (s : PState) :
    Agree (peelStep .debug g cap size i s) (Chalamet.peelStep .release g cap size i s) := by
  unfold Chalamet.peelStep
  repeat (first | exact peelOther _ _ _ _ _ _ | agree_step)

theorem peelLoop (g : Geom) (cap size fuel : Nat) (s : PState) :
    Agree (peelLoop .debug g cap size fuel s) (Chalamet.peelLoop .release g cap size fuel s) := by
  induction fuel generalizing s with
  | zero => exact refl _
  | succ n ih =>
    unfold Chalamet.peelLoop
    split
    · exact refl _
    · exact bind (peelStep _ _ _ _ _) fun s' => ih s'

theorem attempt (lay : Layout) (size : Nat) (hs : List U64) (st : BState) :
    Agree (attempt .debug lay size hs st) (Chalamet.attempt .release lay size hs st) := by
  unfold Chalamet.attempt
  repeat (first | exact countStep _ _ _ | exact peelLoop _ _ _ _ _ | agree_step)

theorem bfpLoop (lay : Layout) (size : Nat) (hs : List U64) (n : Nat) (st : BState) :
    Agree (bfpLoop .debug lay size hs n st) (Chalamet.bfpLoop .release lay size hs n st) := by
  induction n generalizing st with
  | zero => exact refl _
  | succ n ih =>
    unfold Chalamet.bfpLoop
    refine bind (attempt _ _ _ _) fun a => ?_
    cases a with
    | done s => exact refl _
    | peelFailed s => exact ih s
    | countError s => exact ih s

theorem bfusePFromImpl (segExp cap0 maxIter : Nat) (fp0 : Nat → U32) (seed : List U8) (keys : List Key)
    (data : List U32) (label p : U64) :
    Agree (bfusePFromImpl .debug segExp cap0 maxIter fp0 seed keys data label p)
      (Chalamet.bfusePFromImpl .release segExp cap0 maxIter fp0 seed keys data label p) := by
  unfold Chalamet.bfusePFromImpl
  repeat (first | exact bfpLoop _ _ _ _ _ | agree_step)

theorem fromSlice (segExp cap0 : Nat) (fp0 : Nat → U32) (seed : List U8) (keys : List Key)
    (data : List U32) (label p : U64) :
    Agree (BinaryFuseP32.fromSlice .debug segExp cap0 fp0 seed keys data label p)
      (BinaryFuseP32.fromSlice .release segExp cap0 fp0 seed keys data label p) :=
  ite (refl _) (bfusePFromImpl _ _ _ _ _ _ _ _ _)

theorem columnFilter (segExp cap0 : Nat) (fp0 : Nat → Nat → U32) (seed : List U8) (kvs : List KeyValue)
    (b i : Nat) :
    Agree (columnFilter .debug segExp cap0 fp0 seed kvs b i)
      (Chalamet.columnFilter .release segExp cap0 fp0 seed kvs b i) :=
  bind (refl _) fun _ => bind (pow2U64 _) fun _ => unwrap (fromSlice _ _ _ _ _ _ _ _)

theorem kvDatabase_new (segExp cap0 : Nat) (fp0 : Nat → Nat → U32) (seed : List U8) (kvs : List KeyValue)
    (m t b : Nat) :
    Agree (KVDatabase.new .debug segExp cap0 fp0 seed kvs m t b)
      (KVDatabase.new .release segExp cap0 fp0 seed kvs m t b) :=
  bind (refl _) fun _ =>
    bind (bind (mapRes (fun i => columnFilter _ _ _ _ _ _ i) _) fun _ => refl _) fun _ => refl _

theorem kvDatabase_fromBase64Strings (sha : Sha) (segExp cap0 : Nat) (fp0 : Nat → Nat → U32)
    (seed : List U8) (keys : List (List U8)) (values : List (List Char)) (m t b : Nat) :
    Agree (KVDatabase.fromBase64Strings .debug sha segExp cap0 fp0 seed keys values m t b)
      (KVDatabase.fromBase64Strings .release sha segExp cap0 fp0 seed keys values m t b) := by
  unfold KVDatabase.fromBase64Strings
  refine ite (refl _) ?_
  rcases collectEager (fun kv : List U8 × List Char => keyValue sha kv.1 kv.2 t b) (keys.zip values)
    with e | e
  · rw [e]; exact panic _
  · rw [← e]
    split
    · exact kvDatabase_new _ _ _ _ _ _ _ _
    · exact refl _
    · exact refl _
    · exact refl _

theorem bfxLoop (lay : Layout) (keys : List U64) (n : Nat) (rng seed : U64) (st : BState) :
    Agree (bfxLoop .debug lay keys n rng seed st) (Chalamet.bfxLoop .release lay keys n rng seed st) := by
  induction n generalizing rng seed st with
  | zero => exact refl _
  | succ n ih =>
    unfold Chalamet.bfxLoop
    refine bind (attempt _ _ _ _) fun a => ?_
    cases a with
    | done s => exact refl _
    | peelFailed s => exact ih _ _ s
    | countError s => exact ih _ _ s

theorem binaryFuse (w segExp cap0 : Nat) (fp0 : Nat → BitVec w) (keys : List U64) :
    Agree (BinaryFuse.tryFrom w .debug segExp cap0 fp0 keys)
      (BinaryFuse.tryFrom w .release segExp cap0 fp0 keys) := by
  unfold BinaryFuse.tryFrom bfuseXFromImpl
  repeat (first | exact bfxLoop _ _ _ _ _ _ | agree_step)

theorem hAdd (H : List HSet) (i : Nat) (h : U64) :
    Agree (hAdd .debug H i h) (Chalamet.hAdd .release H i h) := by
  unfold Chalamet.hAdd
  repeat agree_step

theorem hRemove (H : List HSet) (i : Nat) (h : U64) :
    Agree (hRemove .debug H i h) (Chalamet.hRemove .release H i h) := by
  unfold Chalamet.hRemove
  repeat agree_step

theorem fusePeelStep (sl cap n : Nat) (s : FState) (ki : KeyIndex) :
    Agree (fusePeelStep .debug sl cap n s ki) (Chalamet.fusePeelStep .release sl cap n s ki) := by
  unfold Chalamet.fusePeelStep fuseRemoveAt
  repeat (first | exact hRemove _ _ _ | agree_step)

theorem fusePeelLoop (sl cap n fuel : Nat) (s : FState) :
    Agree (fusePeelLoop .debug sl cap n fuel s) (Chalamet.fusePeelLoop .release sl cap n fuel s) := by
  induction fuel generalizing s with
  | zero => exact refl _
  | succ f ih =>
    unfold Chalamet.fusePeelLoop
    split
    · exact refl _
    · exact bind (fusePeelStep _ _ _ _ _) fun s' => ih s'

theorem fuseAttempt (sl cap : Nat) (hs : List U64) :
    Agree (fuseAttempt .debug sl cap hs) (Chalamet.fuseAttempt .release sl cap hs) := by
  unfold Chalamet.fuseAttempt fuseAddKey
  repeat (first | exact hAdd _ _ _ | exact fusePeelLoop _ _ _ _ _ | agree_step)

theorem fuseLoop (sl cap : Nat) (keys : List U64) (n : Nat) (rng seed : U64) :
    Agree (fuseLoop .debug sl cap keys n rng seed) (Chalamet.fuseLoop .release sl cap keys n rng seed) := by
  induction n generalizing rng seed with
  | zero => exact refl _
  | succ n ih =>
    unfold Chalamet.fuseLoop
    refine bind (fuseAttempt _ _ _) fun a => ?_
    cases a with
    | none => exact ih _ _
    | some s => exact refl _

theorem fuse (w c0 : Nat) (fp0 : Nat → BitVec w) (keys : List U64) :
    Agree (Fuse.tryFrom w .debug c0 fp0 keys) (Fuse.tryFrom w .release c0 fp0 keys) := by
  unfold Fuse.tryFrom fuseFromImpl
  repeat (first | exact fuseLoop _ _ _ _ _ _ | agree_step)

theorem xorDequeue (cap bl n b : Nat) (others : List Nat) (s : XState) :
    Agree (xorDequeue .debug cap bl n b others s) (Chalamet.xorDequeue .release cap bl n b others s) := by
  unfold Chalamet.xorDequeue xorPeelStep xorRemoveAt
  repeat (first | exact hRemove _ _ _ | agree_step)

theorem xorPeelLoop (cap bl n fuel : Nat) (s : XState) :
    Agree (xorPeelLoop .debug cap bl n fuel s) (Chalamet.xorPeelLoop .release cap bl n fuel s) := by
  induction fuel generalizing s with
  | zero => exact refl _
  | succ f ih =>
    unfold Chalamet.xorPeelLoop
    exact ite (refl _) (bind (xorDequeue _ _ _ _ _ _) fun s => bind (xorDequeue _ _ _ _ _ _) fun s =>
      bind (xorDequeue _ _ _ _ _ _) fun s => ih s)

theorem xorAttempt (cap bl : Nat) (hs : List U64) :
    Agree (xorAttempt .debug cap bl hs) (Chalamet.xorAttempt .release cap bl hs) := by
  unfold Chalamet.xorAttempt xorAddKey
  repeat (first | exact hAdd _ _ _ | exact xorPeelLoop _ _ _ _ _ | agree_step)

theorem xorLoop (cap bl : Nat) (keys : List U64) (n : Nat) (rng seed : U64) :
    Agree (xorLoop .debug cap bl keys n rng seed) (Chalamet.xorLoop .release cap bl keys n rng seed) := by
  induction n generalizing rng seed with
  | zero => exact refl _
  | succ n ih =>
    unfold Chalamet.xorLoop
    refine bind (xorAttempt _ _ _) fun a => ?_
    cases a with
    | none => exact ih _ _
    | some s => exact refl _

theorem xor (w c0 : Nat) (keys : List U64) (n : Nat) :
    Agree (Xor.fromWithin w .debug c0 keys n) (Xor.fromWithin w .release c0 keys n) := by
  unfold Xor.fromWithin
  repeat (first | exact xorLoop _ _ _ _ _ _ | agree_step)

/-! ### The client -/

theorem roundCoord (f fl l r : U32) :
    Agree (roundCoord .debug f fl l r) (Chalamet.roundCoord .release f fl l r) := by
  unfold Chalamet.roundCoord
  repeat agree_step

theorem indexQueryBody (qp : QueryParams Unit) (i : Nat) :
    Agree (indexQueryBody .debug qp i) (Chalamet.indexQueryBody .release qp i) :=
  bind (getRoundingFactor _) fun _ => refl _

theorem getHashEvals (fp : FilterParams) (k : Key) :
    Agree (fp.getHashEvals .debug k) (fp.getHashEvals .release k) := by
  unfold FilterParams.getHashEvals BinaryFuseP32.hashEval hashOfHashC
  repeat agree_step

theorem kvQueryBody (qp : QueryParams FilterParams) (k : Key) :
    Agree (kvQueryBody .debug qp k) (Chalamet.kvQueryBody .release qp k) := by
  refine bind (getRoundingFactor _) fun _ => ?_
  cases qp.extraParams with
  | none => exact refl _
  | some fp => exact bind (getHashEvals fp k) fun _ => refl _

theorem parseIndexRow (qp : QueryParams Unit) (r : List U32) :
    Agree (qp.parseIndexRow .debug r) (qp.parseIndexRow .release r) := by
  unfold QueryParams.parseIndexRow
  repeat (first | exact getRoundingFactor _ | exact getRoundingFloor _ | exact getPlaintextSize _ | exact roundCoord _ _ _ _ | agree_step)

theorem parseKvRow (qp : QueryParams FilterParams) (r : List U32) (k : Key) :
    Agree (qp.parseKvRow .debug r k) (qp.parseKvRow .release r k) := by
  unfold QueryParams.parseKvRow
  repeat (first | exact getRoundingFactor _ | exact getRoundingFloor _ | exact getPlaintextSize _ | exact roundCoord _ _ _ _ | agree_step)

end Agree

end Chalamet
