import Verif.Basic

/-!
# Model of `bff-modp/analysis/src/zeroes.rs`

The tool that prints how many fingerprints are zero in a window sliding over a filter. Only the counting loop is
modelled, on any array of fingerprints; drawing the keys, building the filter and choosing it by the argument are
the other models' subject.
-/

namespace Chalamet

/-- State of the loop: the counter and what was printed so far (bff-modp/analysis/src/zeroes.rs:26-37). -/
structure ZeroesState where
  zeroes : Nat
  printed : List Nat

/-- One iteration (bff-modp/analysis/src/zeroes.rs:27-37). `zeroes` is a `usize`: `zeroes -= 1` at zero panics in debug builds
and wraps in release builds; `zeroes += 1` cannot overflow. -/
def zeroesStep {n : Nat} (prof : Profile) (windowSize : Nat) (fp : List (BitVec n)) (st : ZeroesState) (i : Nat) :
    Res ZeroesState := do
  let t ← rd fp i
  let z := if t = 0#n then st.zeroes + 1 else st.zeroes
  let old ← if windowSize < i then rd fp (i - windowSize) else .ok 1#n
  let z ←
    if windowSize < i ∧ old = 0#n then
      match z with
      | 0 => match prof with
        | .debug => .panic
        | .release => .ok (2 ^ 64 - 1)
      | k + 1 => .ok k
    else .ok z
  let printed := if windowSize < i ∧ i % 333 = 0 then st.printed ++ [z] else st.printed
  .ok { zeroes := z, printed := printed }

/-- The whole loop: what is printed (bff-modp/analysis/src/zeroes.rs:24-37). -/
def printZeroes {n : Nat} (prof : Profile) (windowSize : Nat) (fp : List (BitVec n)) : Res (List Nat) := do
  let st ← foldRes (zeroesStep prof windowSize fp) { zeroes := 0, printed := [] } (List.range fp.length)
  .ok st.printed

end Chalamet
