import Verif.Spec.Spline

/-!
# Tensor products of the one-dimensional compact spline

On a cell of width `g` a cubic is given by its values `u`, `v` and second derivatives `s`, `t` at the two ends.
-/
namespace Ascot.Interp
open Ascot.Spline
variable {K : Type} [Field K]

def k3 (d : K) : K := d ^ 3 - d
def k3' (d : K) : K := 3 * d ^ 2 - 1

/-- Value, first or second derivative at the fraction `d` of the cell. -/
def _root_.Ascot.Spline.Op.at (o : Op) (g d u v s t : K) : K :=
  match o with
  | .val => (1 - d) * u + d * v + g * g / 6 * (k3 (1 - d) * s + k3 d * t)
  | .der => 1 / g * (v - u) + g / 6 * (k3' d * t - k3' (1 - d) * s)
  | .der2 => (1 - d) * s + d * t

/-- One dimension: coefficients `f`, `fxx` at index `n` and `n + x1`. -/
def tensor1 (ox : Op) (C : Int → K) (n x1 : Int) (dx xg : K) : K :=
  ox.at xg dx (C n) (C (n + x1)) (C (n + 1)) (C (n + x1 + 1))

/-- Two dimensions: the coefficients at each point are `f`, `fxx`, `fyy`, `fxxyy`. -/
def tensor2 (ox oy : Op) (C : Int → K) (n x1 y1 : Int) (dx dy xg yg : K) : K :=
  let col (m q : Int) := oy.at yg dy (C (m + q)) (C (m + y1 + q)) (C (m + q + 2)) (C (m + y1 + q + 2))
  ox.at xg dx (col n 0) (col (n + x1) 0) (col n 1) (col (n + x1) 1)

/-- Three dimensions: `f`, `fxx`, `fyy`, `fzz`, `fxxyy`, `fxxzz`, `fyyzz`, `fxxyyzz`. -/
def tensor3 (ox oy oz : Op) (C : Int → K) (n x1 y1 z1 : Int) (dx dy dz xg yg zg : K) : K :=
  let line (m q qz : Int) := oz.at zg dz (C (m + q)) (C (m + z1 + q)) (C (m + qz)) (C (m + z1 + qz))
  let plane (m q qz qy qyz : Int) := oy.at yg dy (line m q qz) (line (m + y1) q qz) (line m qy qyz) (line (m + y1) qy qyz)
  ox.at xg dx (plane n 0 3 2 6) (plane (n + x1) 0 3 2 6) (plane n 1 5 4 7) (plane (n + x1) 1 5 4 7)

/-- `x` is at the fraction `d` of the cell that begins at grid point `i`, up to whole periods on a periodic axis.
On other axes the last point is at fraction 1 of the last cell. -/
structure On [LinearOrder K] [FloorRing K] (a : Linint.Axis K) (x : K) (i : Nat) (d : K) : Prop where
  lt : i < a.n
  last : a.bc = .natural → i + 1 < a.n
  d0 : 0 ≤ d
  d1 : d ≤ 1
  one : d = 1 → a.bc = .natural ∧ i + 2 = a.n
  at_ : ∃ k : Int, (a.bc = .natural → k = 0) ∧ x = a.min + (i + d) * a.grid + k * (a.max - a.min)

end Ascot.Interp
