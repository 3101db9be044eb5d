import Mathlib.Data.Real.Basic

/-!
# Potentials of MHD modes without parallel electric field (`mhd_consistent_potentials`, a5py/templates/poincare.py:327-393)

Numbers are real numbers without units; `none` stands for the infinities and `nan` of IEEE arithmetic.  Only stationary
modes are modelled.  The profiles that `input_eval_safetyfactor` gives are parameters, as functions of rho.
-/
namespace Ascot.MhdPotentials

/-- The dictionary of an `MHD_STAT` input, a5py/ascot5io/mhd.py:94-131.  The potentials have indices `[radius, mode]`. -/
structure Data where
  nmode : ℕ
  nrho : ℕ
  rhomin : ℝ
  rhomax : ℝ
  nmodes : ℕ → ℤ
  mmodes : ℕ → ℤ
  amplitude : ℕ → ℝ
  omega : ℕ → ℝ
  phase : ℕ → ℝ
  alpha : ℕ → ℕ → Option ℝ
  phi : ℕ → ℕ → Option ℝ

/-- `q`, `I`, `g` of `input_eval_safetyfactor`, a5py/ascotpy/__init__.py:1581-1620, as functions of rho. -/
structure Profiles where
  q : ℝ → ℝ
  I : ℝ → ℝ
  g : ℝ → ℝ

/-- Division of floating-point numbers; by zero it gives no number. -/
noncomputable def div (a b : ℝ) : Option ℝ := if b = 0 then none else some (a / b)

/-- Element `j` of `np.linspace(rhomin, rhomax, nrho)`, a5py/templates/poincare.py:371. -/
noncomputable def node (d : Data) (j : ℕ) : ℝ := d.rhomin + j * ((d.rhomax - d.rhomin) / ((d.nrho : ℝ) - 1))

/-- `( (g*q + I) / ( nmode[i] * q - mmode[i] ) ) * alpha * omega[i]`, a5py/templates/poincare.py:381-382. -/
noncomputable def phiOf (p : Profiles) (d : Data) (i j : ℕ) : Option ℝ :=
  let q := p.q (node d j)
  (div (p.g (node d j) * q + p.I (node d j)) (d.nmodes i * q - d.mmodes i)).bind fun c =>
    (d.alpha j i).map fun a => c * a * d.omega i

/-- `( ( nmode[i] * q - mmode[i] ) / (g*q + I) ) * phi / omega[i]`, a5py/templates/poincare.py:387-388. -/
noncomputable def alphaOf (p : Profiles) (d : Data) (i j : ℕ) : Option ℝ :=
  let q := p.q (node d j)
  (div (d.nmodes i * q - d.mmodes i) (p.g (node d j) * q + p.I (node d j))).bind fun c =>
    (d.phi j i).bind fun f => div (c * f) (d.omega i)

/-- `np.zeros((n, nrho))` and the loop over modes that assigns rows, a5py/templates/poincare.py:379-383, 385-389. -/
def rows (n : ℕ) (f : ℕ → ℕ → Option ℝ) : ℕ → ℕ → Option ℝ :=
  (List.range n).foldl (fun t i => fun i' j => if i' = i then f i j else t i' j) fun _ _ => some 0

/-- `mhd_consistent_potentials`, a5py/templates/poincare.py:354-393; `none` for the exception. -/
noncomputable def consistent (which : String) (p : Profiles) (d : Data) : Option (String × Data) :=
  if which ∉ ["Phi", "alpha"] then none
  else if which = "Phi" then
    let t := rows d.nmode (phiOf p d)
    some ("MHD_STAT", { d with phi := fun j i => t i j })
  else
    let t := rows d.nmode (alphaOf p d)
    some ("MHD_STAT", { d with alpha := fun j i => t i j })

end Ascot.MhdPotentials
