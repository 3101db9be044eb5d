import Verif.Model.Suzuki

/-!
# What the beam-stopping model supports

The composition is described by the effective charge, the hydrogen species and the impurities with the range of effective charge for
which the paper tabulates them (S. Suzuki et al. 1998, tables 2b, 2c, 3b, 3c).
-/
namespace Ascot.Suzuki

/-- Effective charge: density times charge squared over density times charge. -/
noncomputable def effCharge (ions : List Ion) : ℝ :=
  (ions.map fun i => i.dens * (i.znum : ℝ) ^ 2).sum / (ions.map fun i => i.dens * (i.znum : ℝ)).sum

/-- Hydrogen isotopes. -/
def IsHydrogen (i : Ion) : Prop := i.znum = 1

/-- Impurities with tabulated coefficients at effective charge `zeff`; the ranges are open at both ends. -/
def Tabulated (zeff : ℝ) (z : ℤ) : Prop :=
  (z = 2 ∧ 1 < zeff ∧ zeff < 2.1) ∨ (z = 3 ∧ 1 < zeff ∧ zeff < 3) ∨ (z = 4 ∧ 1 < zeff ∧ zeff < 4) ∨
  (z = 5 ∧ 1 < zeff ∧ zeff < 5) ∨ (z = 6 ∧ 1 < zeff ∧ zeff < 6 ∧ zeff ≠ 5) ∨ (z = 7 ∧ 1 < zeff ∧ zeff < 5) ∨
  (z = 8 ∧ 1 < zeff ∧ zeff < 5) ∨ (z = 26 ∧ 1 < zeff ∧ zeff < 5)

/-- Number of hydrogen species. -/
def nHydrogen (ions : List Ion) : Nat := ions.countP fun i => i.znum = 1

/-- Compositions that fit in the local arrays and in the tables. -/
structure Fits (ions : List Ion) : Prop where
  hyd : nHydrogen ions ≤ 3
  imp : ions.length - nHydrogen ions ≤ 16
  mass : ∀ i ∈ ions, i.znum = 1 → i.anum = 1 ∨ i.anum = 2 ∨ i.anum = 3
  tab : ∀ i ∈ ions, i.znum ≠ 1 → Tabulated (effCharge ions) i.znum

end Ascot.Suzuki
