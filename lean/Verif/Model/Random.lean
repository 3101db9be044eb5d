import Mathlib.Algebra.Order.Field.Rat
import Mathlib.Tactic.NormNum

/-!
# Linear congruential random numbers (`src/random.c`, `RANDOM_LCG`)

The other generators of the file (MKL, GSL and `drand48`) are calls to libraries and are not modelled.
-/
namespace Ascot.Random

/-- `random_lcg_integer`, src/random.c:80-87: the state after one call, which is also the result. -/
def next (r : UInt64) : UInt64 := 2862933555777941757 * r + 3037000493

/-- `random_lcg_uniform`, src/random.c:89-93, 105: the number made from the new state.  Exact arithmetic instead of `double`. -/
def uniform (r : UInt64) : ℚ := r.toNat / 18446744073709551615

/-- `n` uniform numbers and the final state, src/random.c:100-107. -/
def uniformSimd : Nat → UInt64 → List ℚ × UInt64
  | 0, s => ([], s)
  | n + 1, s => let (l, s') := uniformSimd n (next s); (uniform (next s) :: l, s')

/-- One round of the rejection loop, src/random.c:119-121: `x1`, `x2`, `w` and the state. -/
def round (s : UInt64) : ℚ × ℚ × ℚ × UInt64 :=
  let s1 := next s
  let s2 := next s1
  let x1 := 2 * uniform s1 - 1
  let x2 := 2 * uniform s2 - 1
  (x1, x2, x1 * x1 + x2 * x2, s2)

/-- The rejection loop `while( w >= 1.0 )`, src/random.c:117-122; `none` if it has not ended after `fuel` rounds. -/
def draw : Nat → UInt64 → Option (ℚ × ℚ × ℚ × UInt64)
  | 0, _ => none
  | fuel + 1, s => let o := round s; if o.2.2.1 ≥ 1 then draw fuel o.2.2.2 else some o

/-- An array after `r[i] = v`. -/
def write {V : Type} (r : Nat → V) (i : Nat) (v : V) : Nat → V := fun j => if j = i then v else r j

/-- `random_lcg_normal_simd`, src/random.c:109-130, in the geometric form that is compiled (src/ascot5.h:115).
The loop starts at `i` and `rounds` rounds are left.  `g x w` stands for `x * sqrt(-2*log(w)/w)`. -/
def normalLoop {V : Type} (g : ℚ → ℚ → V) (fuel n : Nat) : (rounds i : Nat) → (Nat → V) → UInt64 → Option ((Nat → V) × UInt64)
  | 0, _, r, s => some (r, s)
  | k + 1, i, r, s =>
    match draw fuel s with
    | none => none
    | some (x1, x2, w, s') =>
      let r := write r i (g x1 w)
      let isEven := (n + 1) % 2
      let r := if (i : Int) < (n : Int) - 2 ∨ isEven > 0 then write r (i + 1) (g x2 w) else r
      normalLoop g fuel n k (i + 2) r s'

/-- The loop `for(int i = 0; i < n; i=i+2)` has `(n+1)/2` rounds. -/
def normalSimd {V : Type} (g : ℚ → ℚ → V) (fuel n : Nat) (r : Nat → V) (s : UInt64) : Option ((Nat → V) × UInt64) :=
  normalLoop g fuel n ((n + 1) / 2) 0 r s

end Ascot.Random
