import Verif.Model.Linint

/-!
# Cubic spline coefficients (`src/spline/splinecomp.c`, `src/spline/splineexpl.c`)

`K` stands for `real`; the data `f` are an array of `n` elements.  Each element of the work arrays is
computed once from elements computed before it, so that a loop over an array is written as a recursion on
the index.  `none` is returned for sizes for which the code accesses its arrays outside of their bounds.
-/
namespace Ascot.Spline
open Ascot.Linint

variable {K : Type} [Field K]

/-- Forward sweep, superdiagonal: src/spline/splinecomp.c:46-51, 83-91, splineexpl.c:44-50, 82-91. -/
def sweepP (p0 : K) : Nat → K
  | 0 => p0
  | i + 1 => 1 / (4 - sweepP p0 i)

/-- Forward sweep, right-hand side: the same lines. -/
def sweepY (p0 y0 : K) (y : Nat → K) : Nat → K
  | 0 => y0
  | i + 1 => (y (i + 1) - sweepY p0 y0 y i) / (4 - sweepP p0 i)

/-- Forward sweep of the periodic system, right column: src/spline/splinecomp.c:84-92. -/
def sweepR : Nat → K
  | 0 => 1 / 4
  | i + 1 => -sweepR i / (4 - sweepP (1 / 4) i)

/-- The variables `l`, `dlast` and `Y[n-1]` of the periodic system after `k` rounds of the loop,
src/spline/splinecomp.c:64-67, 86-90. -/
def sweepLast (y : Nat → K) (ylast : K) : Nat → K × K × K
  | 0 => (1, 4, ylast)
  | k + 1 =>
    let (l, dlast, yl) := sweepLast y ylast k
    (-l * sweepP (1 / 4) k, dlast - l * sweepR k, yl - l * sweepY (1 / 4) (y 0 / 4) y k)

/-- Back substitution: `back p y r last n j` is `D[n-1-j]`; `r` is the right column (zero if there is none).
src/spline/splinecomp.c:54-57, 101-106. -/
def back (p y r : Nat → K) (last : K) (n : Nat) : Nat → K
  | 0 => last
  | j + 1 => y (n - 2 - j) - p (n - 2 - j) * back p y r last n j - r (n - 2 - j) * last

/-- The system with natural boundary conditions of the compact form, src/spline/splinecomp.c:34-57. -/
def naturalComp (f : Nat → K) (n : Nat) (i : Nat) : K :=
  let y := fun i => 6 * (f (i + 1) - 2 * f i + f (i - 1))
  back (sweepP 0) (sweepY 0 (0 / 2) y) (fun _ => 0) 0 n (n - 1 - i)

/-- The system with natural boundary conditions of the explicit form, src/spline/splineexpl.c:35-57. -/
def naturalExpl (f : Nat → K) (n : Nat) (i : Nat) : K :=
  let y := fun i => 3 * (f (i + 1) - f (i - 1))
  let p := sweepP (1 / 2)
  let y' := sweepY (1 / 2) (3 * (f 1 - f 0) / 2) y
  let last := (3 * (f (n - 1) - f (n - 2)) - y' (n - 2)) / (2 - p (n - 2))
  back p y' (fun _ => 0) last n (n - 1 - i)

/-- The periodic system, with right-hand side `y`: src/spline/splinecomp.c:82-106 and
src/spline/splineexpl.c:80-104. -/
def cyclic (y : Nat → K) (n : Nat) (i : Nat) : K :=
  let p := sweepP (1 / 4)
  let y' := sweepY (1 / 4) (y 0 / 4) y
  let (l, dlast, yl) := sweepLast y (y (n - 1)) (n - 3)
  let blast := 1 - l * p (n - 3)
  let dlast := dlast - l * sweepR (n - 3)
  let yl := yl - l * y' (n - 3)
  let p2 := (1 - sweepR (n - 3)) / (4 - p (n - 3))
  let y2 := (y (n - 2) - y' (n - 3)) / (4 - p (n - 3))
  let last := (yl - blast * y2) / (dlast - blast * p2)
  back (fun i => if i = n - 2 then p2 else p i) (fun i => if i = n - 2 then y2 else y' i)
    (fun i => if i = n - 2 then 0 else sweepR i) last n (n - 1 - i)

/-- Right-hand side of the periodic system of the compact form, src/spline/splinecomp.c:74-78. -/
def rhsComp (f : Nat → K) (n : Nat) (i : Nat) : K :=
  if i = 0 then 6 * (f 1 - 2 * f 0 + f (n - 1))
  else if i = n - 1 then 6 * (f 0 - 2 * f (n - 1) + f (n - 2))
  else 6 * (f (i + 1) - 2 * f i + f (i - 1))

/-- Right-hand side of the periodic system of the explicit form, src/spline/splineexpl.c:71-76. -/
def rhsExpl (f : Nat → K) (n : Nat) (i : Nat) : K :=
  if i = 0 then 3 * (f 1 - f (n - 1))
  else if i = n - 1 then 3 * (f 0 - f (n - 2))
  else 3 * (f (i + 1) - f (i - 1))

/-- Sizes for which all accesses of the solvers are within their arrays: with natural boundary conditions
`p[0]` is written to an array of `n - 1` elements, with periodic ones `r[0]` to an array of `n - 2` elements,
src/spline/splinecomp.c:29, 46, 69, 84. -/
def sizeOk (n : Nat) : BC → Bool
  | .natural => decide (2 ≤ n)
  | .periodic => decide (3 ≤ n)

/-- The second derivatives (for unit spacing) solved by `splinecomp`. -/
def second (f : Nat → K) (n : Nat) (bc : BC) (i : Nat) : K :=
  match bc with
  | .natural => naturalComp f n i
  | .periodic => cyclic (rhsComp f n) n i

/-- The first derivatives (for unit spacing) solved by `splineexpl`. -/
def first (f : Nat → K) (n : Nat) (bc : BC) (i : Nat) : K :=
  match bc with
  | .natural => naturalExpl f n i
  | .periodic => cyclic (rhsExpl f n) n i

/-- `splinecomp`, src/spline/splinecomp.c:22-125: the array `c` of `2 n` elements. -/
def splinecomp (f : Nat → K) (n : Nat) (bc : BC) : Option (List K) :=
  if sizeOk n bc then some ((List.range n).flatMap fun i => [f i, second f n bc i]) else none

/-- The four coefficients of cell `i`, src/spline/splineexpl.c:113-116, 121-124. -/
def cellExpl (f : Nat → K) (n : Nat) (bc : BC) (i : Nat) : List K :=
  let d := first f n bc
  if i = n - 1 then
    [f (n - 1), d (n - 1), 3 * (f 0 - f (n - 1)) - 2 * d (n - 1) - d 0, 2 * (f (n - 1) - f 0) + d (n - 1) + d 0]
  else
    [f i, d i, 3 * (f (i + 1) - f i) - 2 * d i - d (i + 1), 2 * (f i - f (i + 1)) + d i + d (i + 1)]

/-- Number of cells: one fewer than points with natural boundary conditions. -/
def cells (n : Nat) : BC → Nat
  | .natural => n - 1
  | .periodic => n

/-- `splineexpl`, src/spline/splineexpl.c:22-131: the elements of the array `c` that are written. -/
def splineexpl (f : Nat → K) (n : Nat) (bc : BC) : Option (List K) :=
  if sizeOk n bc then some ((List.range (cells n bc)).flatMap (cellExpl f n bc)) else none

end Ascot.Spline
