import Verif.Basic

/-!
# Independent specifications

Small mathematical definitions used in the statements of the property theorems. They do not refer to
the model.
-/

namespace Chalamet.Spec

/-- A byte string read as a little-endian integer. -/
def leNat : List U8 → Nat
  | [] => 0
  | b :: bs => b.toNat + 256 * leNat bs

/-- A bit string read as a little-endian (least significant bit first) integer. -/
def bitsNat : List Bool → Nat
  | [] => 0
  | b :: bs => b.toNat + 2 * bitsNat bs

/-- Digit `i` of `n` in base `2^b`. -/
def digit (b n i : Nat) : Nat := n / 2 ^ (b * i) % 2 ^ b

/-- Inner product modulo `2^32`. -/
def dot : List U32 → List U32 → U32
  | x :: xs, y :: ys => x * y + dot xs ys
  | _, _ => 0#32

/-- Coordinatewise sum modulo `2^32`. -/
def vadd (u v : List U32) : List U32 := List.zipWith (· + ·) u v

/-- The integer in `[-2^31, 2^31)` represented by a word (two's complement). -/
def signed (x : U32) : Int := x.toInt

/-- The word is one of `0, 1, -1`. -/
def IsTernary (x : U32) : Prop := x = 0#32 ∨ x = 1#32 ∨ x = BitVec.allOnes 32

/-- Number of non-zero coordinates. -/
def weight (e : List U32) : Nat := (e.filter (· ≠ 0#32)).length

/-- Number of base-`2^b` digits of a `T`-bit element (least `w` with `w*b ≥ T`). -/
def width (T b : Nat) : Nat := (T + b - 1) / b

/-- The element (a byte string) as a row of its first `w` base-`2^b` digits. -/
def rowOf (b w : Nat) (e : List U8) : List U32 :=
  (List.range w).map fun j => BitVec.ofNat 32 (digit b (leNat e) j)

/-- Digit `j` of every element, top to bottom. -/
def column (b j : Nat) (elems : List (List U8)) : List U32 :=
  elems.map fun e => BitVec.ofNat 32 (digit b (leNat e) j)

/-- The decryption window `(-D/2, D/2]`, `D = 2^(32-b)`. -/
def InWindow (b : Nat) (nu : U32) : Prop :=
  -(2 ^ (31 - b) : Int) < signed nu ∧ signed nu ≤ 2 ^ (31 - b)

/-- `order` is a peeling order: every key touches some slot that no later key touches. -/
def Peels {α β : Type} (touch : α → β → Prop) : List α → Prop
  | [] => True
  | k :: ks => (∃ s, touch k s ∧ ∀ k' ∈ ks, ¬ touch k' s) ∧ Peels touch ks

/-- The keys can be peeled: some ordering of them is a peeling order. -/
def CanPeel {α β : Type} (touch : α → β → Prop) (keys : List α) : Prop :=
  ∃ order, order.Perm keys ∧ Peels touch order

end Chalamet.Spec
