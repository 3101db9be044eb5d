import Mathlib.Analysis.Calculus.Deriv.Basic
import Mathlib.Analysis.SpecialFunctions.Sqrt

/-! # What the quantities of a magnetic field mean, in cylindrical coordinates -/
namespace Ascot.InputEval.Spec

/-- A vector field at a fixed time, `(r, phi, z)` to its three components. -/
structure VField where
  R : ℝ → ℝ → ℝ → ℝ
  P : ℝ → ℝ → ℝ → ℝ
  Z : ℝ → ℝ → ℝ → ℝ

/-- Partial derivatives. -/
noncomputable def dR (f : ℝ → ℝ → ℝ → ℝ) (r p z : ℝ) : ℝ := deriv (fun x => f x p z) r
noncomputable def dP (f : ℝ → ℝ → ℝ → ℝ) (r p z : ℝ) : ℝ := deriv (fun x => f r x z) p
noncomputable def dZ (f : ℝ → ℝ → ℝ → ℝ) (r p z : ℝ) : ℝ := deriv (fun x => f r p x) z

/-- All partial derivatives of a function exist at a point. -/
def Smooth (f : ℝ → ℝ → ℝ → ℝ) (r p z : ℝ) : Prop :=
  DifferentiableAt ℝ (fun x => f x p z) r ∧ DifferentiableAt ℝ (fun x => f r x z) p ∧ DifferentiableAt ℝ (fun x => f r p x) z

/-- `div B = (1/r) ∂(r B_r)/∂r + (1/r) ∂B_phi/∂phi + ∂B_z/∂z` -/
noncomputable def div (B : VField) (r p z : ℝ) : ℝ :=
  1 / r * dR (fun x p z => x * B.R x p z) r p z + 1 / r * dP B.P r p z + dZ B.Z r p z

/-- The components of the curl. -/
noncomputable def curlR (B : VField) (r p z : ℝ) : ℝ := 1 / r * dP B.Z r p z - dZ B.P r p z
noncomputable def curlP (B : VField) (r p z : ℝ) : ℝ := dZ B.R r p z - dR B.Z r p z
noncomputable def curlZ (B : VField) (r p z : ℝ) : ℝ :=
  1 / r * (dR (fun x p z => x * B.P x p z) r p z - dP B.R r p z)

/-- The magnitude of the field. -/
noncomputable def norm (B : VField) (r p z : ℝ) : ℝ := Real.sqrt (B.R r p z ^ 2 + B.P r p z ^ 2 + B.Z r p z ^ 2)

/-- The quantities that `input_eval_list` lists, a5py/ascotpy/__init__.py:308-430. -/
def listed : List String :=
  ["rho", "psi", "br", "bphi", "bz", "bpol", "bnorm", "brdr", "brdphi", "brdz", "bphidr", "bphidphi", "bphidz", "bzdr",
    "bzdphi", "bzdz", "divb", "gradbr", "gradbphi", "gradbz", "curlbr", "curlbphi", "curlbz", "jr", "jphi", "jz", "jnorm",
    "er", "ephi", "ez", "ne", "te", "zeff", "n0", "alphaeig", "phieig", "mhd_br", "mhd_bphi", "mhd_bz", "mhd_er",
    "mhd_ephi", "mhd_ez", "mhd_phi", "db/b (mhd)", "psi (bzr)", "rho (bzr)", "theta", "zeta", "dpsidr (bzr)",
    "dpsidphi (bzr)", "dpsidz (bzr)", "dthetadr", "dthetadphi", "dthetadz", "dzetadr", "dzetadphi", "dzetadz", "qprof",
    "bjac", "bjacxb2"]

/-- Coordinate number `i` when an array of one value stands for all points. -/
def coord (l : List ℝ) (i : ℕ) : Option ℝ := if l.length = 1 then l[0]? else l[i]?

end Ascot.InputEval.Spec
