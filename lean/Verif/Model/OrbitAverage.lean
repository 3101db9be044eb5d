import Mathlib.Analysis.Real.Sqrt

/-!
# Average along a poloidal transit (`getorbit_average`, a5py/routines/runmixin.py:418-468)

Numbers are real numbers, angles are in degrees and positions Cartesian (the conversion `pol2cart` is left out).
-/
namespace Ascot.OrbitAverage

/-- A point of the orbit, with the quantity to be averaged. -/
structure Pt where
  mileage : ℝ
  x : ℝ
  y : ℝ
  z : ℝ
  pitch : ℝ
  pol : ℝ
  val : ℝ

/-- `np.argmax` of a condition: the first index where it holds, zero if it holds nowhere. -/
def argmax {α : Type} (c : α → Bool) (l : List α) : ℕ := if l.findIdx c < l.length then l.findIdx c else 0

/-- `i1` and `i2` for an orbit that turns from the sign `c` to the sign `c'`, a5py/routines/runmixin.py:446-452. -/
def turns {α : Type} (c c' : α → Bool) (l : List α) : ℕ × ℕ :=
  let i1 := argmax c l
  let i2 := argmax c' (l.drop i1) + i1
  (i1, argmax c (l.drop i2) + i2)

noncomputable def pos (p : Pt) : Bool := decide (0 < p.pitch)
noncomputable def neg (p : Pt) : Bool := decide (p.pitch < 0)

/-- `i1` and `i2`, a5py/routines/runmixin.py:444-458; the orbit is the list `a :: l`. -/
noncomputable def limits (a : Pt) (l : List Pt) : ℕ × ℕ :=
  if (a :: l).any neg ∧ (a :: l).any pos then
    if neg a ∨ (l.head?.any neg) then turns pos neg (a :: l) else turns neg pos (a :: l)
  else if (l.getLastD a).pol > a.pol then (1, argmax (fun p => decide (p.pol > a.pol + 360)) (a :: l))
  else (1, argmax (fun p => decide (p.pol < a.pol - 360)) (a :: l))

/-- `l[i1-1:i2]`; if `i1` is zero the slice starts from the last element. -/
def slice {α : Type} (l : List α) (i1 i2 : ℕ) : List α :=
  (l.take i2).drop (if i1 = 0 then l.length - 1 else i1 - 1)

/-- The part of the orbit that is averaged over; `none` if it is empty, for which `mileage[0]` raises `IndexError`. -/
noncomputable def transit (a : Pt) (l : List Pt) : Option (List Pt) :=
  match slice (a :: l) (limits a l).1 (limits a l).2 with
  | [] => none
  | w => some w

/-- Distance of two points, an element of `ds`, a5py/routines/runmixin.py:465. -/
noncomputable def ds (p q : Pt) : ℝ := √((q.x - p.x) ^ 2 + (q.y - p.y) ^ 2 + (q.z - p.z) ^ 2)

/-- `np.sum(val[1:]*ds)` and `np.sum(ds)`, a5py/routines/runmixin.py:466. -/
noncomputable def sums : List Pt → ℝ × ℝ
  | [] => (0, 0)
  | [_] => (0, 0)
  | p :: q :: l => (q.val * ds p q + (sums (q :: l)).1, ds p q + (sums (q :: l)).2)

/-- `avg`, a5py/routines/runmixin.py:466; `none` if it is not a number. -/
noncomputable def avg (w : List Pt) : Option ℝ := if (sums w).2 = 0 then none else some ((sums w).1 / (sums w).2)

end Ascot.OrbitAverage
