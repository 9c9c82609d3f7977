import Verif.Model.Utils
import Mathlib.Data.Int.Log
import Mathlib.Data.Rat.Floor
import Mathlib.Algebra.Ring.Parity

/-!
# Model of the floating-point size computations

The other model files take the sizes computed in floating point as arguments (`c0` of the Xor and Fuse filters,
`segExp` and `cap0` of the binary fuse filters) and prove everything for arbitrary values. Here are the
computations themselves, so that the sizes can be stated in terms of the number of keys.

A finite non-negative `f64` is the rational number it denotes. Every operation is the exact rational operation
followed by `rne`, rounding to the nearest of the numbers with 53 significant bits, ties to even (IEEE 754
binary64, the only rounding mode of Rust). Simplification: exponents are unbounded; all values here are between
2^-2 and 2^65 or 0, so overflow and subnormal numbers cannot occur. `libm::log` is an arbitrary function.
-/

namespace Chalamet

/-- The nearest integer, the even one of the two when there is a tie.
Used by every `f64` operation below (bff-modp/src/prelude/bfuse.rs:13). -/
def roundEven (q : ℚ) : ℤ :=
  if Int.fract q < 1 / 2 then ⌊q⌋
  else if 1 / 2 < Int.fract q then ⌊q⌋ + 1
  else if Even ⌊q⌋ then ⌊q⌋ else ⌊q⌋ + 1

/-- The distance between consecutive 53-bit numbers around `x > 0`.
Used by every `f64` operation below (bff-modp/src/prelude/bfuse.rs:13). -/
def ulp (x : ℚ) : ℚ := 2 ^ (Int.log 2 x - 52)

/-- Rounding to 53 significant bits (IEEE 754 binary64, round to nearest even).
Used by every `f64` operation below and for the literals (bff-modp/src/prelude/bfuse.rs:13, 23-24). -/
def rne (x : ℚ) : ℚ := roundEven (x / ulp x) * ulp x

/-- `n as f64` for an unsigned integer
(bff-modp/src/prelude/bfuse.rs:13, 85, xor.rs:73, fuse.rs:90). -/
def f64OfNat (n : Nat) : ℚ := rne n

/-- The product of two `f64`
(bff-modp/src/prelude/bfuse.rs:24, 85, xor.rs:73, fuse.rs:90). -/
def f64Mul (a b : ℚ) : ℚ := rne (a * b)

/-- The quotient of two `f64`
(bff-modp/src/prelude/bfuse.rs:13, 24, fuse.rs:7). -/
def f64Div (a b : ℚ) : ℚ := rne (a / b)

/-- The sum of two `f64`
(bff-modp/src/prelude/bfuse.rs:13, 24). -/
def f64Add (a b : ℚ) : ℚ := rne (a + b)

/-- `x as usize` / `x as u32` (truncation, saturating at the largest value of a type with `bits` bits)
(bff-modp/src/prelude/bfuse.rs:13, 85, xor.rs:73, fuse.rs:90). -/
def f64ToUint (bits : Nat) (x : ℚ) : Nat := min ⌊x⌋₊ (2 ^ bits - 1)

/-- `libm::round` of a non-negative number: halves are rounded away from zero
(bff-modp/src/prelude/bfuse.rs:85, bfusep.rs:34). -/
def f64Round (x : ℚ) : ℚ := ⌊x + 1 / 2⌋

/-- `libm::floor`
(bff-modp/src/prelude/bfuse.rs:13). -/
def f64Floor (x : ℚ) : ℚ := ⌊x⌋

/-- `(1.23 * num_keys as f64) as usize` (bff-modp/src/prelude/xor.rs:73). The literal is the nearest `f64`. -/
def xorC0 (numKeys : Nat) : Nat := f64ToUint 64 (f64Mul (rne (123 / 100)) (f64OfNat numKeys))

/-- `FUSE_OVERHEAD = 1.0 / 0.879` (bff-modp/src/prelude/fuse.rs:7). -/
def fuseOverhead : ℚ := f64Div 1 (rne (879 / 1000))

/-- `(FUSE_OVERHEAD * num_keys as f64) as usize` (bff-modp/src/prelude/fuse.rs:90). -/
def fuseC0 (numKeys : Nat) : Nat := f64ToUint 64 (f64Mul fuseOverhead (f64OfNat numKeys))

/-- `floor(log(size as f64) / log(3.33_f64) + 2.25) as u32` (bff-modp/src/prelude/bfuse.rs:13); `log` is
`libm::log`. -/
def bfSegExp (log : ℚ → ℚ) (size : Nat) : Nat :=
  f64ToUint 32 (f64Floor (f64Add (f64Div (log (f64OfNat size)) (log (rne (333 / 100)))) (9 / 4)))

/-- `size_factor(3, size)` (bff-modp/src/prelude/bfuse.rs:20-29): `fmax(1.125, 0.875 + 0.25 * log(1000000) /
log(size))`. Used for at least two keys only (for one key the division is by zero). -/
def bfSizeFactor (log : ℚ → ℚ) (size : Nat) : ℚ :=
  max (9 / 8) (f64Add (7 / 8)
    (f64Div (f64Mul (1 / 4) (log (f64OfNat 1000000))) (log (f64OfNat size))))

/-- `round(size as f64 * size_factor) as u32` (bff-modp/src/prelude/bfuse.rs:84-85, bfusep.rs:33-34). -/
def bfCap0 (log : ℚ → ℚ) (size : Nat) : Nat :=
  f64ToUint 32 (f64Round (f64Mul (f64OfNat size) (bfSizeFactor log size)))

/-- `((i as f64) / 8f64).floor() as usize` (src/utils.rs:174). -/
def byteIndex (i : Nat) : Nat := f64ToUint 64 (f64Floor (f64Div (f64OfNat i) 8))

/-- One iteration of the loop of `bits_to_bytes_le` (src/utils.rs:172-178), with the index computed in `f64` as in the code. -/
def bitsToBytesStepF64 (prof : Profile) (bytes : List U8) (ib : Nat × Bool) : Res (List U8) :=
  if ib.2 then do
    let old ← rd bytes (byteIndex ib.1)
    let new ← addC prof old (BitVec.ofNat 8 (2 ^ (ib.1 % 8)))
    wr bytes (byteIndex ib.1) new
  else .ok bytes

/-- `bits_to_bytes_le` (src/utils.rs:170-180), with the index computed in `f64` as in the code. -/
def bitsToBytesLeF64 (prof : Profile) (bits : List Bool) : Res (List U8) :=
  foldRes (bitsToBytesStepF64 prof) (List.replicate ((bits.length + 7) / 8) 0#8)
    ((List.range bits.length).zip bits)

end Chalamet
