import Verif.Model.Dist

/-!
# Specification of histograms
-/
namespace Ascot.Dist

variable {K : Type} [Field K] [LinearOrder K]

/-- The axis has bins and a non-empty range. -/
def Axis.Valid (a : Axis K) : Prop := 0 < a.n ∧ a.min < a.max

/-- The value lies in bin `i` of the axis: the range is divided into `n` equal bins, each with
its lower but without its upper end. -/
def InBin (a : Axis K) (i : Nat) (x : K) : Prop :=
  a.min + i * ((a.max - a.min) / a.n) ≤ x ∧ x < a.min + (i + 1) * ((a.max - a.min) / a.n)

/-- The values lie in the cell with the given bin on each axis. -/
def InCell : List (Axis K) → List Nat → List K → Prop
  | [], [], [] => True
  | a :: as, i :: is, x :: xs => InBin a i x ∧ InCell as is xs
  | _, _, _ => False

/-- The bin numbers form a cell of the histogram. -/
def Cell (axes : List (Axis K)) (is : List Nat) : Prop := List.Forall₂ (fun i a => i < a.n) is axes

/-- The values lie in the range of every axis. -/
def Inside (axes : List (Axis K)) (xs : List K) : Prop :=
  List.Forall₂ (fun x a => a.min ≤ x ∧ x < a.max) xs axes

/-- The cells correspond one to one to the elements of the allocated array. -/
structure Good (d : Hist K) : Prop where
  bound : ∀ is, Cell d.axes is → d.index is < d.size
  inj : ∀ is js, Cell d.axes is → Cell d.axes js → d.index is = d.index js → is = js
  surj : ∀ k < d.size, ∃ is, Cell d.axes is ∧ d.index is = k

/-- Weight times time step. -/
def Lane.deposit (l : Lane K) : K := l.weight * (l.timeF - l.timeI)

open Classical in
/-- Sum of weight times time step over the running markers in a cell. -/
noncomputable def cellSum (axes : List (Axis K)) (is : List Nat) (lanes : List (Lane K)) : K :=
  (lanes.map (fun l => if l.running = true ∧ InCell axes is l.coords then l.deposit else 0)).sum

open Classical in
/-- Sum of weight times time step over the running markers inside the grid. -/
noncomputable def insideSum (axes : List (Axis K)) (lanes : List (Lane K)) : K :=
  (lanes.map (fun l => if l.running = true ∧ Inside axes l.coords then l.deposit else 0)).sum

end Ascot.Dist
