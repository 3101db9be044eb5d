import Verif.Model.PyFile
import Verif.Model.SplineSetup
import Verif.Model.Mhd

/-!
# MHD files (`a5py/ascot5io/mhd.py`, `src/hdf5io/hdf5_mhd.c`)
-/
namespace Ascot.MhdFile
open Ascot.PyFile Ascot.Mhd Ascot.SplineSetup
open Ascot.MarkerFile (Group readReals readInts)
open Ascot.Options (Res)

/-! ### The Python side -/

/-- The arguments of `MHD_STAT.write_hdf5`, a5py/ascot5io/mhd.py:94-95. -/
structure InStat where
  nmode : ℕ
  nmodes : List ℤ
  mmodes : List ℤ
  amplitude : List ℝ
  omega : List ℝ
  phase : List ℝ
  alpha : Nd
  phi : Nd
  nrho : ℕ
  rhomin : ℝ
  rhomax : ℝ

/-- `MHD_STAT.write_hdf5`, a5py/ascot5io/mhd.py:137-171. -/
def writeStat (u : InStat) : Written :=
  if u.nmodes.length ≠ u.nmode then .refused else
  if u.mmodes.length ≠ u.nmode then .refused else
  if u.alpha.shape ≠ [u.nrho, u.nmode] then .refused else
  if u.phi.shape ≠ [u.nrho, u.nmode] then .refused else
  createAll empty
    [⟨"nmode", [1], .ints [u.nmode]⟩, ⟨"nrho", [1], .ints [u.nrho]⟩, ⟨"rhomin", [1], .reals [u.rhomin]⟩, ⟨"rhomax", [1], .reals [u.rhomax]⟩,
     ⟨"nmodes", [u.nmode], .ints u.nmodes⟩, ⟨"mmodes", [u.nmode], .ints u.mmodes⟩,
     ⟨"amplitude", [u.nmode], .reals u.amplitude⟩, ⟨"omega", [u.nmode], .reals u.omega⟩, ⟨"phase", [u.nmode], .reals u.phase⟩,
     ⟨"alpha", [u.nmode, u.nrho], .reals u.alpha.T.flat⟩, ⟨"phi", [u.nmode, u.nrho], .reals u.phi.T.flat⟩]

/-- The arguments of `MHD_NONSTAT.write_hdf5`, a5py/ascot5io/mhd.py:268-270. -/
structure InNonstat where
  nmode : ℕ
  nmodes : List ℤ
  mmodes : List ℤ
  amplitude : List ℝ
  omega : List ℝ
  phase : List ℝ
  alpha : Nd
  phi : Nd
  nrho : ℕ
  rhomin : ℝ
  rhomax : ℝ
  ntime : ℕ
  tmin : ℝ
  tmax : ℝ

/-- `MHD_NONSTAT.write_hdf5`, a5py/ascot5io/mhd.py:318-355. -/
def writeNonstat (u : InNonstat) : Written :=
  if u.nmodes.length ≠ u.nmode then .refused else
  if u.mmodes.length ≠ u.nmode then .refused else
  if u.alpha.shape ≠ [u.nrho, u.ntime, u.nmode] then .refused else
  if u.phi.shape ≠ [u.nrho, u.ntime, u.nmode] then .refused else
  createAll empty
    [⟨"nmode", [1], .ints [u.nmode]⟩, ⟨"nrho", [1], .ints [u.nrho]⟩, ⟨"rhomin", [1], .reals [u.rhomin]⟩, ⟨"rhomax", [1], .reals [u.rhomax]⟩,
     ⟨"nmodes", [u.nmode], .ints u.nmodes⟩, ⟨"mmodes", [u.nmode], .ints u.mmodes⟩,
     ⟨"amplitude", [u.nmode], .reals u.amplitude⟩, ⟨"omega", [u.nmode], .reals u.omega⟩, ⟨"phase", [u.nmode], .reals u.phase⟩,
     ⟨"ntime", [1], .ints [u.ntime]⟩, ⟨"tmin", [1], .reals [u.tmin]⟩, ⟨"tmax", [1], .reals [u.tmax]⟩,
     ⟨"alpha", [u.nmode, u.ntime, u.nrho], .reals u.alpha.T.flat⟩, ⟨"phi", [u.nmode, u.ntime, u.nrho], .reals u.phi.T.flat⟩]

/-! ### The C side -/

/-- The loop over the modes of `mhd_stat_init` and `mhd_nonstat_init`: `none` if a spline has too few points. -/
def modes {P : Type} (nmode : ℕ) (n m : Fin nmode → ℤ) (amplitude omega phase : Fin nmode → ℝ) (alpha phi : ℕ → Option P) :
    Option (List (Mode P)) :=
  (List.finRange nmode).mapM fun i : Fin nmode => do
    let a ← alpha i.val
    let f ← phi i.val
    return ⟨n i, m i, amplitude i, omega i, phase i, a, f⟩

/-- The splines of `mhd_stat_init`, src/mhd/mhd_stat.c:47-58: the profile of mode `i` begins at element `i*nrho`. -/
noncomputable def profStat (t : ℕ → ℝ) (nrho : ℕ) (rhomin rhomax : ℝ) (i : ℕ) : Option Spline1 :=
  setup1 (fun k => t (i * nrho + k)) nrho rhomin rhomax

/-- The splines of `mhd_nonstat_init`, src/mhd/mhd_nonstat.c:46-59: the profile of mode `i` begins at element `i*nrho*ntime`. -/
noncomputable def profNonstat (t : ℕ → ℝ) (nrho ntime : ℕ) (rhomin rhomax tmin tmax : ℝ) (i : ℕ) : Option SplineT :=
  (setup2 (fun k => t (i * nrho * ntime + k)) nrho ntime .natural .natural rhomin rhomax tmin tmax).map fun s rho t =>
    (s.df rho t).map fun d => ⟨d.v, d.r, d.z⟩

/-- `hdf5_mhd_read_stat`, src/hdf5io/hdf5_mhd.c:59-107, with `mhd_stat_init`, src/mhd/mhd_stat.c:23-76. -/
noncomputable def readStat (junk : ℕ → ℝ) (g : Group) : Res Data := do
  let nmode ← readCount g "nmode"
  let nrho ← readCount g "nrho"
  let rhomin ← readReal g "rhomin"
  let rhomax ← readReal g "rhomax"
  let n ← readInts g "nmodes" nmode
  let m ← readInts g "mmodes" nmode
  let omega ← readReals g "omega" nmode
  let phase ← readReals g "phase" nmode
  let amplitude ← readReals g "amplitude" nmode
  let alpha ← readReals g "alpha" (nrho * nmode)
  let phi ← readReals g "phi" (nrho * nmode)
  match modes nmode n m amplitude omega phase (profStat (ext junk alpha) nrho rhomin rhomax) (profStat (ext junk phi) nrho rhomin rhomax) with
  | some l => pure (.stat l)
  | none => .ub

/-- `hdf5_mhd_read_nonstat`, src/hdf5io/hdf5_mhd.c:118-175, with `mhd_nonstat_init`, src/mhd/mhd_nonstat.c:23-79. -/
noncomputable def readNonstat (junk : ℕ → ℝ) (g : Group) : Res Data := do
  let nmode ← readCount g "nmode"
  let nrho ← readCount g "nrho"
  let rhomin ← readReal g "rhomin"
  let rhomax ← readReal g "rhomax"
  let ntime ← readCount g "ntime"
  let tmin ← readReal g "tmin"
  let tmax ← readReal g "tmax"
  let n ← readInts g "nmodes" nmode
  let m ← readInts g "mmodes" nmode
  let omega ← readReals g "omega" nmode
  let phase ← readReals g "phase" nmode
  let amplitude ← readReals g "amplitude" nmode
  let alpha ← readReals g "alpha" (nrho * ntime * nmode)
  let phi ← readReals g "phi" (nrho * ntime * nmode)
  match modes nmode n m amplitude omega phase (profNonstat (ext junk alpha) nrho ntime rhomin rhomax tmin tmax)
      (profNonstat (ext junk phi) nrho ntime rhomin rhomax tmin tmax) with
  | some l => pure (.nonstat l)
  | none => .ub

/-- `hdf5_mhd_init`, src/hdf5io/hdf5_mhd.c:31-48. -/
noncomputable def readMhd (junk : ℕ → ℝ) (f : String → Option Group) : Res Data :=
  lastFound f [("MHD_STAT", readStat junk), ("MHD_NONSTAT", readNonstat junk)]

end Ascot.MhdFile
