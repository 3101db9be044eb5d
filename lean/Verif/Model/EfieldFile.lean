import Verif.Model.PyFile
import Verif.Model.Efield

/-!
# Electric field files (`a5py/ascot5io/efield.py`, `src/hdf5io/hdf5_efield.c`)
-/
namespace Ascot.EfieldFile
open Ascot.PyFile
open Ascot.Efield (E1DS init1DS Data)
open Ascot.MarkerFile (Group readReals)
open Ascot.Options (Res)

/-! ### The Python side -/

/-- `E_TC.write_hdf5`, a5py/ascot5io/efield.py:65-76. -/
def writeTC (exyz : List ℝ) : Written :=
  if exyz.length ≠ 3 then .refused else
  createAll empty [⟨"exyz", [3, 1], .reals exyz⟩]

/-- `E_1DS.write_hdf5`, a5py/ascot5io/efield.py:583-597. -/
def write1DS (nrho : ℕ) (rhomin rhomax : ℝ) (dvdrho : List ℝ) (reff : ℝ) : Written :=
  if dvdrho.length ≠ nrho then .refused else
  createAll empty
    [⟨"nrho", [1, 1], .ints [nrho]⟩, ⟨"rhomin", [1, 1], .reals [rhomin]⟩, ⟨"rhomax", [1, 1], .reals [rhomax]⟩,
     ⟨"dvdrho", [nrho, 1], .reals dvdrho⟩, ⟨"reff", [1, 1], .reals [reff]⟩]

/-- The arguments of `E_3D.write_hdf5` and `E_3DS.write_hdf5`, a5py/ascot5io/efield.py:130-131, 268-269. -/
structure In3D where
  rmin : ℝ
  rmax : ℝ
  nr : ℕ
  zmin : ℝ
  zmax : ℝ
  nz : ℕ
  phimin : ℝ
  phimax : ℝ
  nphi : ℕ
  er : Nd
  ephi : Nd
  ez : Nd

/-- `E_3D.write_hdf5` and `E_3DS.write_hdf5`, a5py/ascot5io/efield.py:180-211, 318-349, which differ in the name of
the group only. -/
def write3D (u : In3D) : Written :=
  if u.er.shape ≠ [u.nr, u.nphi, u.nz] then .refused else
  if u.ephi.shape ≠ [u.nr, u.nphi, u.nz] then .refused else
  if u.ez.shape ≠ [u.nr, u.nphi, u.nz] then .refused else
  createAll empty
    [⟨"rmin", [1], .reals [u.rmin]⟩, ⟨"rmax", [1], .reals [u.rmax]⟩, ⟨"nr", [1], .ints [u.nr]⟩,
     ⟨"phimin", [1], .reals [u.phimin]⟩, ⟨"phimax", [1], .reals [u.phimax]⟩, ⟨"nphi", [1], .ints [u.nphi]⟩,
     ⟨"zmin", [1], .reals [u.zmin]⟩, ⟨"zmax", [1], .reals [u.zmax]⟩, ⟨"nz", [1], .ints [u.nz]⟩,
     ⟨"er", [u.nz, u.nphi, u.nr], .reals u.er.T.flat⟩, ⟨"ephi", [u.nz, u.nphi, u.nr], .reals u.ephi.T.flat⟩,
     ⟨"ez", [u.nz, u.nphi, u.nr], .reals u.ez.T.flat⟩]

/-! ### The C side -/

/-- `hdf5_efield_read_TC`, src/hdf5io/hdf5_efield.c:119-129, with `E_TC_init`, src/Efield/E_TC.c:25-35. -/
noncomputable def readTC (g : Group) : Res Data := do
  let exyz ← readReals g "exyz" 3
  pure (.tc ⟨exyz 0, exyz 1, exyz 2⟩)

/-- `hdf5_efield_read_1DS`, src/hdf5io/hdf5_efield.c:79-99. -/
noncomputable def read1DS (junk : ℕ → ℝ) (g : Group) : Res Data := do
  let nrho ← readCount g "nrho"
  let rhomin ← readReal g "rhomin"
  let rhomax ← readReal g "rhomax"
  let reff ← readReal g "reff"
  let dvdrho ← readReals g "dvdrho" nrho
  match init1DS nrho rhomin rhomax reff (ext junk dvdrho) with
  | some d => pure (.e1 d)
  | none => .ub

/-- `hdf5_efield_init`, src/hdf5io/hdf5_efield.c:53-69. -/
noncomputable def readEfield (junk : ℕ → ℝ) (f : String → Option Group) : Res Data :=
  lastFound f [("E_TC", readTC), ("E_1DS", read1DS junk)]

end Ascot.EfieldFile
