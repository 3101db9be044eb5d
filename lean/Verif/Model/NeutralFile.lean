import Verif.Model.PyFile
import Verif.Model.Neutral

/-!
# Neutral files (`a5py/ascot5io/neutral.py`, `src/hdf5io/hdf5_neutral.c`)
-/
namespace Ascot.NeutralFile
open Ascot.PyFile
open Ascot.Neutral (init1D init3D Data)
open Ascot.MarkerFile (Group readReals readInts eCharge)
open Ascot.Options (Res deg2rad)

/-! ### The Python side -/

/-- The argument `maxwellian`: a number (by default 1) or an array. -/
inductive Mx where
  | number (k : ℤ)
  | array (xs : List ℤ)

/-- The comparison `maxwellian == 1` as a condition; `none` is an exception: the truth value of an array with other
than one element is not defined (numpy accepted arrays without elements, with a warning, in earlier versions). -/
def Mx.isOne : Mx → Option Bool
  | .number k => some (k = 1)
  | .array [k] => some (k = 1)
  | .array _ => none

/-- `maxwellian.size`; `none` is an exception: a number has no such attribute. -/
def Mx.size : Mx → Option ℕ
  | .number _ => none
  | .array xs => some xs.length

/-- `maxwellian != 1 and maxwellian.size != nspecies` (lines 84-85, 234-235) and `if maxwellian == 1: maxwellian =
np.ones((nspecies,1))` (lines 95-96, 245-246), a5py/ascot5io/neutral.py: the array that is written; `none` if an exception is raised. -/
def Mx.resolve (m : Mx) (nspecies : ℕ) : Option (List ℤ) := do
  if ← m.isOne then
    return List.replicate nspecies 1
  else
    if (← m.size) ≠ nspecies then none
    else match m with
      | .number _ => none
      | .array xs => return xs

/-- The arguments of `N0_1D.write_hdf5`, a5py/ascot5io/neutral.py:38-40. -/
structure In1D where
  rhomin : ℝ
  rhomax : ℝ
  nrho : ℕ
  nspecies : ℕ
  anum : List ℤ
  znum : List ℤ
  density : Nd
  temperature : Nd
  maxwellian : Mx

/-- `N0_1D.write_hdf5`, a5py/ascot5io/neutral.py:78-117. -/
def write1D (u : In1D) : Written :=
  if u.density.shape ≠ [u.nrho, u.nspecies] then .refused else
  if u.temperature.shape ≠ [u.nrho, u.nspecies] then .refused else
  if u.anum.length ≠ u.nspecies ∨ u.znum.length ≠ u.nspecies then .refused else
  match u.maxwellian.resolve u.nspecies with
  | none => .refused
  | some mx => createAll empty
    [⟨"rhomin", [1], .reals [u.rhomin]⟩, ⟨"rhomax", [1], .reals [u.rhomax]⟩, ⟨"nrho", [1], .ints [u.nrho]⟩,
     ⟨"nspecies", [1], .ints [u.nspecies]⟩, ⟨"anum", [u.nspecies], .ints u.anum⟩, ⟨"znum", [u.nspecies], .ints u.znum⟩,
     ⟨"maxwellian", [u.nspecies], .ints mx⟩, ⟨"density", [u.nspecies, u.nrho], .reals u.density.T.flat⟩,
     ⟨"temperature", [u.nspecies, u.nrho], .reals u.temperature.T.flat⟩]

/-- The arguments of `N0_3D.write_hdf5`, a5py/ascot5io/neutral.py:171-173. -/
structure In3D where
  rmin : ℝ
  rmax : ℝ
  nr : ℕ
  zmin : ℝ
  zmax : ℝ
  nz : ℕ
  phimin : ℝ
  phimax : ℝ
  nphi : ℕ
  nspecies : ℕ
  anum : List ℤ
  znum : List ℤ
  density : Nd
  temperature : Nd
  maxwellian : Mx

/-- `N0_3D.write_hdf5`, a5py/ascot5io/neutral.py:228-269. -/
def write3D (u : In3D) : Written :=
  if u.density.shape ≠ [u.nr, u.nphi, u.nz, u.nspecies] then .refused else
  if u.temperature.shape ≠ [u.nr, u.nphi, u.nz, u.nspecies] then .refused else
  if u.anum.length ≠ u.nspecies ∨ u.znum.length ≠ u.nspecies then .refused else
  match u.maxwellian.resolve u.nspecies with
  | none => .refused
  | some mx => createAll empty
    [⟨"rmin", [1], .reals [u.rmin]⟩, ⟨"rmax", [1], .reals [u.rmax]⟩, ⟨"nr", [1], .ints [u.nr]⟩,
     ⟨"phimin", [1], .reals [u.phimin]⟩, ⟨"phimax", [1], .reals [u.phimax]⟩, ⟨"nphi", [1], .ints [u.nphi]⟩,
     ⟨"zmin", [1], .reals [u.zmin]⟩, ⟨"zmax", [1], .reals [u.zmax]⟩, ⟨"nz", [1], .ints [u.nz]⟩,
     ⟨"nspecies", [1], .ints [u.nspecies]⟩, ⟨"anum", [u.nspecies], .ints u.anum⟩, ⟨"znum", [u.nspecies], .ints u.znum⟩,
     ⟨"maxwellian", [u.nspecies], .ints mx⟩,
     ⟨"density", [u.nspecies, u.nphi, u.nz, u.nr], .reals (u.density.transpose [3, 1, 2, 0]).flat⟩,
     ⟨"temperature", [u.nspecies, u.nphi, u.nz, u.nr], .reals (u.temperature.transpose [3, 1, 2, 0]).flat⟩]

/-! ### The C side -/

/-- `hdf5_neutral_init_1D`, src/hdf5io/hdf5_neutral.c:66-114. -/
noncomputable def read1D (g : Group) : Res (Data ℝ) := do
  let nrho ← readCount g "nrho"
  let rhomin ← readReal g "rhomin"
  let rhomax ← readReal g "rhomax"
  let ns ← readCount g "nspecies"
  let anum ← readInts g "anum" ns
  let znum ← readInts g "znum" ns
  let mx ← readInts g "maxwellian" ns
  let den ← readReals g "density" (ns * nrho)
  let tem ← readReals g "temperature" (ns * nrho)
  match init1D nrho rhomin rhomax ns (List.ofFn anum) (List.ofFn znum) (List.ofFn mx) (List.ofFn den)
      (List.ofFn fun i => tem i * eCharge) with
  | some d => pure (.d1 d)
  | none => .ub

/-- `hdf5_neutral_init_3D`, src/hdf5io/hdf5_neutral.c:126-191. -/
noncomputable def read3D (g : Group) : Res (Data ℝ) := do
  let nr ← readCount g "nr"
  let nphi ← readCount g "nphi"
  let nz ← readCount g "nz"
  let rmin ← readReal g "rmin"
  let rmax ← readReal g "rmax"
  let phimin ← readReal g "phimin"
  let phimax ← readReal g "phimax"
  let zmin ← readReal g "zmin"
  let zmax ← readReal g "zmax"
  let ns ← readCount g "nspecies"
  let anum ← readInts g "anum" ns
  let znum ← readInts g "znum" ns
  let mx ← readInts g "maxwellian" ns
  let den ← readReals g "density" (ns * nr * nphi * nz)
  let tem ← readReals g "temperature" (ns * nr * nphi * nz)
  match init3D nr rmin rmax nphi (deg2rad phimin) (deg2rad phimax) nz zmin zmax ns (List.ofFn anum) (List.ofFn znum)
      (List.ofFn mx) (List.ofFn den) (List.ofFn fun i => tem i * eCharge) with
  | some d => pure (.d3 d)
  | none => .ub

/-- `hdf5_neutral_init`, src/hdf5io/hdf5_neutral.c:38-55. -/
noncomputable def readNeutral (f : String → Option Group) : Res (Data ℝ) :=
  lastFound f [("N0_1D", read1D), ("N0_3D", read3D)]

end Ascot.NeutralFile
