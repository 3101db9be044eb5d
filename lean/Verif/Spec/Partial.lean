import Mathlib.Analysis.Calculus.Deriv.Basic
import Mathlib.Analysis.Calculus.Deriv.Add
import Verif.Model.Coord

/-!
# Derivative of a function whose evaluation may fail
-/
namespace Ascot.Spec
open Filter Topology

/-- Around `x` the evaluation `F` succeeds, and its results have the derivative `d` at `x`. -/
def HasPartial (F : ℝ → Option ℝ) (d x : ℝ) : Prop := ∃ g : ℝ → ℝ, (∀ᶠ y in 𝓝 x, F y = some (g y)) ∧ HasDerivAt g d x

theorem HasPartial.unique {F : ℝ → Option ℝ} {d d' x : ℝ} (h : HasPartial F d x) (h' : HasPartial F d' x) : d = d' := by
  obtain ⟨g, hg, hd⟩ := h
  obtain ⟨g', hg', hd'⟩ := h'
  have : g =ᶠ[𝓝 x] g' := by
    filter_upwards [hg, hg'] with y h1 h2
    rw [h1] at h2
    exact Option.some.inj h2
  exact hd.unique (hd'.congr_of_eventuallyEq this)

open Ascot.Coord

/-- The evaluation `F` gives a vector field around `(r, phi, z)`, and `j` consists of its components and their partial derivatives. -/
def IsJacobian (F : ℝ → ℝ → ℝ → Option (V3 ℝ)) (j : Jac) (r phi z : ℝ) : Prop :=
  F r phi z = some ⟨j.a.v, j.b.v, j.c.v⟩
    ∧ (HasPartial (fun y => (F y phi z).map V3.x) j.a.d1 r
      ∧ HasPartial (fun y => (F r y z).map V3.x) j.a.d2 phi
      ∧ HasPartial (fun y => (F r phi y).map V3.x) j.a.d3 z)
    ∧ (HasPartial (fun y => (F y phi z).map V3.y) j.b.d1 r
      ∧ HasPartial (fun y => (F r y z).map V3.y) j.b.d2 phi
      ∧ HasPartial (fun y => (F r phi y).map V3.y) j.b.d3 z)
    ∧ (HasPartial (fun y => (F y phi z).map V3.z) j.c.d1 r
      ∧ HasPartial (fun y => (F r y z).map V3.z) j.c.d2 phi
      ∧ HasPartial (fun y => (F r phi y).map V3.z) j.c.d3 z)

/-- Divergence of a vector field in cylindrical coordinates, from its components and their derivatives. -/
noncomputable def divergence (j : Jac) (r : ℝ) : ℝ := j.a.v / r + j.a.d1 + j.b.d2 / r + j.c.d3

end Ascot.Spec
