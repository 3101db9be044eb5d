import Verif.Model.Linint

/-!
# Cubic splines
-/
namespace Ascot.Spline
variable {K : Type} [Field K]

/-- The polynomial `a + b d + c d² + e d³`. -/
structure Cubic (K : Type) where
  a : K
  b : K
  c : K
  e : K

def Cubic.val (q : Cubic K) (d : K) : K := q.a + q.b * d + q.c * d ^ 2 + q.e * d ^ 3
/-- First and second derivatives. -/
def Cubic.der (q : Cubic K) (d : K) : K := q.b + 2 * q.c * d + 3 * q.e * d ^ 2
def Cubic.der2 (q : Cubic K) (d : K) : K := 2 * q.c + 6 * q.e * d

/-- The cubics `q 0`, …, `q (n - 2)`, each on the unit interval, form a natural spline through the values `f`. -/
structure NaturalSpline (n : Nat) (f : Nat → K) (q : Nat → Cubic K) : Prop where
  left : ∀ i, i + 1 < n → (q i).val 0 = f i
  right : ∀ i, i + 1 < n → (q i).val 1 = f (i + 1)
  der : ∀ i, i + 2 < n → (q i).der 1 = (q (i + 1)).der 0
  der2 : ∀ i, i + 2 < n → (q i).der2 1 = (q (i + 1)).der2 0
  first : (q 0).der2 0 = 0
  last : (q (n - 2)).der2 1 = 0

/-- The cubics `q 0`, …, `q (n - 1)` form a periodic spline through the values `f`; index 0 follows `n - 1`. -/
structure PeriodicSpline (n : Nat) (f : Nat → K) (q : Nat → Cubic K) : Prop where
  left : ∀ i < n, (q i).val 0 = f i
  right : ∀ i < n, (q i).val 1 = f ((i + 1) % n)
  der : ∀ i < n, (q i).der 1 = (q ((i + 1) % n)).der 0
  der2 : ∀ i < n, (q i).der2 1 = (q ((i + 1) % n)).der2 0

/-- The cubics form a spline through the values `f` with the given boundary condition. -/
def IsSpline (n : Nat) (bc : Linint.BC) (f : Nat → K) (q : Nat → Cubic K) : Prop :=
  match bc with
  | .natural => NaturalSpline n f q
  | .periodic => PeriodicSpline n f q

/-- Value, first or second derivative. -/
inductive Op
  | val
  | der
  | der2

/-- The value or derivative at the fraction `d` of a cell of width `g`. -/
def Cubic.op (q : Cubic K) (o : Op) (g d : K) : K :=
  match o with
  | .val => q.val d
  | .der => q.der d / g
  | .der2 => q.der2 d / (g * g)

end Ascot.Spline
