import Verif.Model.EfieldFile
import Verif.Lemmas.PyFile
import Verif.Props.C106_Efield
import Verif.Props.C131_PlasmaFile
set_option linter.unusedSectionVars false
set_option linter.unusedSimpArgs false

/-!
# C133: the electric field that the simulation sees is the one the user wrote

A user calls `write_hdf5` of one of the electric fields of the Python interface, the program reads the file and
evaluates the field.
-/
namespace Ascot.C133
open Ascot.PyFile Ascot.EfieldFile Ascot.Coord Ascot.C106
open Ascot.Efield (evalE)
open Ascot.MarkerFile (Group readReals)

/-- The uniform field: whatever three numbers the user wrote are the Cartesian components at every point and time. -/
theorem uniform (junk : ℕ → ℝ) (ex ey ez : ℝ) :
    ∃ g d, writeTC [ex, ey, ez] = .done g ∧ readEfield junk (only "E_TC" g) = .ok d ∧
      ∀ (b : Bfield.Data) (r phi z t : ℝ) (old : V3 ℝ),
        ∃ E, evalE d b r phi z t old = some (E, 0) ∧ vecRpz2xyz E phi = ⟨ex, ey, ez⟩ := by
  refine ⟨_, .tc ⟨ex, ey, ez⟩, by simp [writeTC, createAll, create, Elems.length]; rfl, ?_,
    fun b r phi z t old => C106.uniform _ b r phi z t old⟩
  rw [readEfield, lastFound_only (r := readTC) (by simp) (by simp)]
  simp [readTC, readReals, put, empty]
  rfl

/-- Any other number of components is refused by the Python interface, and no group is written. -/
theorem uniform_refused {exyz : List ℝ} (h : exyz.length ≠ 3) : writeTC exyz = .refused := by simp [writeTC, h]

/-- The group that a correct call of `E_1DS.write_hdf5` makes is read. -/
theorem read1DS_eq (junk : ℕ → ℝ) (nrho : ℕ) (rhomin rhomax reff : ℝ) (dv : ℕ → ℝ) :
    ∃ g, write1DS nrho rhomin rhomax (tab nrho dv) reff = .done g ∧
      ∀ d, Efield.init1DS nrho rhomin rhomax reff (ext junk fun i : Fin nrho => dv i) = some d →
        readEfield junk (only "E_1DS" g) = .ok (.e1 d) := by
  have hw : ∃ g, write1DS nrho rhomin rhomax (tab nrho dv) reff = .done g ∧ g.ints "nrho" = some [(nrho : ℤ)] ∧
      g.reals "rhomin" = some [rhomin] ∧ g.reals "rhomax" = some [rhomax] ∧ g.reals "reff" = some [reff] ∧
      g.reals "dvdrho" = some (tab nrho dv) := by
    refine ⟨?w, ?a, ?b⟩
    case a =>
      unfold write1DS
      simp only [tab_length, ne_eq, not_true, if_false]
      rw [createAll_done (by simp [Elems.length])]
    case b => simp [put, empty]
  obtain ⟨g, hg, h1, h2, h3, h4, h5⟩ := hw
  refine ⟨g, hg, fun d hd => ?_⟩
  rw [readEfield, lastFound_only (r := read1DS junk) (by simp) (by simp)]
  unfold read1DS
  rw [readCount_eq h1, ok_bind, readReal_eq h2, ok_bind, readReal_eq h3, ok_bind, readReal_eq h4, ok_bind, readReals_tab h5,
    ok_bind, hd]
  rfl

/-- The radial field: inside the profile it is minus the gradient of every potential whose derivative with respect to rho is the
natural cubic spline through the values that the user wrote, times the effective minor radius; outside it is zero.  `partial`: for
effective minor radius one. -/
theorem radial_partial (junk : ℕ → ℝ) (nrho : ℕ) (rhomin rhomax reff : ℝ) (dv : ℕ → ℝ) (hn : 2 ≤ nrho) (hm : rhomin < rhomax)
    (hreff : reff = 1) :
    ∃ g d F, write1DS nrho rhomin rhomax (tab nrho dv) reff = .done g ∧ readEfield junk (only "E_1DS" g) = .ok d ∧
      C97.SplineOf nrho rhomin rhomax (fun i => reff * dv i) F ∧
      (∀ (b : Bfield.Data) (r phi z t : ℝ) (g : Grad) (old : V3 ℝ), r ≠ 0 → Bfield.evalRhoDrho b r phi z = some (g, 0) →
        rhomin ≤ g.v → g.v ≤ rhomax → ∃ E, evalE d b r phi z t old = some (E, 0) ∧
          ∀ (rho : ℝ → ℝ → ℝ → ℝ) (V : ℝ → ℝ), HasGrad rho r phi z g → HasDerivAt V (F g.v) g.v →
            IsMinusGradient (fun r phi z => V (rho r phi z)) r phi z E) ∧
      ∀ (b : Bfield.Data) (r phi z t : ℝ) (g : Grad) (old : V3 ℝ), r ≠ 0 → Bfield.evalRhoDrho b r phi z = some (g, 0) →
        (g.v < rhomin ∨ rhomax < g.v) → evalE d b r phi z t old = some (⟨0, 0, 0⟩, 0) := by
  obtain ⟨g, hg, hr⟩ := read1DS_eq junk nrho rhomin rhomax reff dv
  obtain ⟨d, F, hd, hF, hin⟩ := C106.radial_partial (reff := reff) (dv := ext junk fun i : Fin nrho => dv i) hn hm hreff
  obtain ⟨d', hd', hout, -⟩ := C106.outside (reff := reff) (dv := ext junk fun i : Fin nrho => dv i) hn hm
  obtain rfl : d = d' := Option.some.inj (hd.symm.trans hd')
  exact ⟨g, .e1 d, F, hg, hr d hd, C131.splineOf_congr (fun i hi => by rw [ext_lt hi]) hF, hin, hout⟩

/-- A table whose length is not the number of radii is refused. -/
theorem radial_refused {nrho : ℕ} {rhomin rhomax reff : ℝ} {dv : List ℝ} (h : dv.length ≠ nrho) :
    write1DS nrho rhomin rhomax dv reff = .refused := by simp [write1DS, h]

/-- **Violation.** The effective minor radius that the user writes has no effect: with gradient 1 and radius 2 the field at a
point where rho grows with slope one along R is -1, not -2. -/
theorem reff_violation (junk : ℕ → ℝ) :
    ∃ g d, write1DS 2 0 1 (tab 2 fun _ => 1) 2 = .done g ∧ readEfield junk (only "E_1DS" g) = .ok d ∧
      Bfield.evalRhoDrho wedge (1 / 4) 0 0 = some (⟨1 / 2, 1, 0, 0⟩, 0) ∧
      evalE d wedge (1 / 4) 0 0 0 ⟨0, 0, 0⟩ = some (⟨-1, 0, 0⟩, 0) := by
  obtain ⟨g, hg, hr⟩ := read1DS_eq junk 2 0 1 2 fun _ => 1
  obtain ⟨d, F, e, h, ha, hb, hin⟩ :=
    C106.init_eq (n := 2) le_rfl (zero_lt_one' ℝ) 2 (ext junk fun i : Fin 2 => (fun _ => 1 : ℕ → ℝ) i)
  refine ⟨g, .e1 d, hg, hr d e, wedge_rho 0 0, ?_⟩
  have hF : F (1 / 2) = 1 :=
    spline_const le_rfl zero_lt_one (C131.splineOf_congr (fun i hi => by rw [ext_lt hi]) h) (by norm_num) (by norm_num)
  rw [eval_in (by norm_num) (wedge_rho 0 0) (by rw [ha]; norm_num) (by rw [hb]; norm_num) (hin _ (by norm_num) (by norm_num)), hF]
  norm_num

/-- **Violation.** The fields tabulated in three dimensions, which the Python interface offers and writes, are refused by the
program. -/
theorem threeD_violation (junk : ℕ → ℝ) (nr nphi nz : ℕ) (rmin rmax zmin zmax phimin phimax : ℝ) (er ephi ez : ℕ → ℕ → ℕ → ℝ) :
    ∃ g, write3D ⟨rmin, rmax, nr, zmin, zmax, nz, phimin, phimax, nphi, nd3 nr nphi nz er, nd3 nr nphi nz ephi,
      nd3 nr nphi nz ez⟩ = .done g ∧
      readEfield junk (only "E_3D" g) = .fail ∧ readEfield junk (only "E_3DS" g) = .fail := by
  refine ⟨?w, ?a, ?b⟩
  case a =>
    unfold write3D
    simp only [nd3_T_flat]
    rw [if_neg (by simp [nd3]), if_neg (by simp [nd3]), if_neg (by simp [nd3])]
    rw [createAll_done (by simp [Elems.length])]
  case b => exact ⟨lastFound_unknown (by simp), lastFound_unknown (by simp)⟩

/-! ### The hypotheses can be met -/

example : ∃ g, Bfield.evalRhoDrho wedge (1 / 4) 0 0 = some (g, 0) ∧ (0 : ℝ) ≤ g.v ∧ g.v ≤ 1 :=
  ⟨_, wedge_rho 0 0, by norm_num, by norm_num⟩

end Ascot.C133
