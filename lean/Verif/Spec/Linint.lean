import Verif.Model.Linint

/-!
# Grids and multilinear interpolation
-/
namespace Ascot.Linint
variable {K : Type} [Field K] [LinearOrder K] [FloorRing K]

/-- `x` is at the fraction `d` of the cell that begins at grid point `i`: on a periodic axis up to whole
periods, on any other axis between the first and the last point. -/
structure On (a : Axis K) (x : K) (i : Nat) (d : K) : Prop where
  lt : i < a.n
  last : a.bc = .natural → i + 1 < a.n
  d0 : 0 ≤ d
  d1 : d < 1
  at_ : ∃ k : Int, (a.bc = .natural → k = 0) ∧ x = a.min + (i + d) * a.grid + k * (a.max - a.min)

/-- The straight line from `u` (at 0) to `v` (at 1). -/
def line (u v d : K) : K := u + d * (v - u)

/-- The value between the points `i` and `i + 1`, the first point following the last. -/
def cell1 (n : Nat) (t : Nat → K) (i : Nat) (d : K) : K := line (t i) (t ((i + 1) % n)) d

def cell2 (nx ny : Nat) (t : Nat → Nat → K) (i j : Nat) (d e : K) : K :=
  cell1 ny (fun j => cell1 nx (fun i => t i j) i d) j e

def cell3 (nx ny nz : Nat) (t : Nat → Nat → Nat → K) (i j k : Nat) (d e f : K) : K :=
  cell1 ny (fun j => cell1 nz (fun k => cell1 nx (fun i => t i j k) i d) k f) j e

end Ascot.Linint
