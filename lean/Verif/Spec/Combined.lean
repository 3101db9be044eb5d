import Mathlib.Algebra.BigOperators.Group.List.Basic
import Mathlib.Data.List.Nodup
import Verif.Model.Combine

/-!
# What a run has to say

A group of a run is a table: it has one row for each marker (or each recorded point of an orbit), and
its columns are the datasets of the file.  A distribution has a value in each of its bins.
-/
namespace Ascot.Combined

variable {K : Type} [CommRing K] [LinearOrder K] [IsStrictOrderedRing K]

/-- A row: the values of its quantities. -/
abbrev Row (K : Type) := String → K

/-- The datasets are those named, and the `i`-th element of each is its quantity of the `i`-th row. -/
def Table (names : List String) (rows : List (Row K)) (g : Combine.Fields K) : Prop :=
  g.map (·.1) = names ∧ ∀ x ∈ g, x.2 = rows.map fun r => r x.1

/-- The group is there if `names` are given. -/
def Grp (names : Option (List String)) (rows : List (Row K)) (g : Option (Combine.Fields K)) : Prop :=
  match names, g with
  | none, none => True
  | some ns, some g => ns.Nodup ∧ Table ns rows g
  | _, _ => False

/-- A collection of a distribution: its name, the edges of the bins, and how many bins there are along
each axis. -/
structure Axes (K : Type) where
  name : String
  edges : List (List K)
  shape : List ℕ

/-- What is collected in a run. -/
structure Layout (K : Type) where
  inistate : Option (List String)
  endstate : Option (List String)
  orbit : Option (List String)
  transcoef : Option (List String)
  dists : List (Axes K)

/-- What has been collected: the rows of the states, of the orbits and of the transport coefficients, and
the values of the distributions in their bins. -/
structure Doc (K : Type) where
  inistate : List (Row K)
  endstate : List (Row K)
  orbit : List (Row K)
  transcoef : List (Row K)
  dist : String → ℕ → K

/-- The distribution has these axes and these values. -/
def DistOf (a : Axes K) (v : ℕ → K) (x : String × Combine.Dist K) : Prop :=
  x.1 = a.name ∧ x.2.edges = a.edges ∧ x.2.shape = a.shape ∧
    x.2.ordinate = (List.range a.shape.prod).map v

/-- The run holds what has been collected. -/
structure Holds (lay : Layout K) (d : Doc K) (r : Combine.Run K) : Prop where
  inistate : Grp lay.inistate d.inistate r.inistate
  endstate : Grp lay.endstate d.endstate r.endstate
  orbit : Grp lay.orbit d.orbit r.orbit
  transcoef : Grp lay.transcoef d.transcoef r.transcoef
  once : (lay.dists.map Axes.name).Nodup
  dists : List.Forall₂ (fun a x => DistOf a (d.dist a.name) x) lay.dists r.dists

/-- One simulation of all markers: all rows, and the sums of the distributions. -/
def total (l : List (Doc K)) : Doc K where
  inistate := l.flatMap Doc.inistate
  endstate := l.flatMap Doc.endstate
  orbit := l.flatMap Doc.orbit
  transcoef := l.flatMap Doc.transcoef
  dist n i := (l.map fun d => d.dist n i).sum

/-- The state of a marker after it has been continued, as it is meant in
a5py/ascot5io/coreio/tools.py:237-243: `time`, `mileage` and `cputime` are added. -/
def resumed (r s : Row K) : Row K := fun n =>
  if n = "time" ∨ n = "mileage" ∨ n = "cputime" then r n + s n else s n

/-- The markers after some have been continued: those that have not been keep their states. -/
def renew (l l' : List (Row K)) : List (Row K) :=
  l.map fun r => match l'.find? fun s => s "ids" = r "ids" with
    | none => r
    | some s => resumed r s

/-- The identifiers are distinct and in increasing order. -/
def Ordered (l : List (Row K)) : Prop := l.Pairwise fun a b => a "ids" < b "ids"

end Ascot.Combined
