import Verif.Model.Dist
import Verif.Model.HistG
import Verif.Model.MarkerFile

/-!
# Writing distributions (`src/hdf5io/hdf5_dist.c`, `src/hdf5io/hdf5_histogram.c`)

The arrays `abscissa_n_slots`, `abscissa_min`, `abscissa_max`, `abscissa_names`, `abscissa_units`,
which run in parallel, are one list.  The HDF5 library is assumed to store what it is given; that
the group is new is a matter of the callers.
-/
namespace Ascot.DistFile
open Ascot.Dist (Axis)
open Ascot.MarkerFile (eCharge)

/-- One abscissa as given to `hdf5_histogram_write_uniform_double`. -/
structure Absc where
  name : String
  unit : String
  n : ℕ
  min : ℝ
  max : ℝ

/-- One abscissa in the file: data set `abscissa_vec_<i+1>` with attributes `name_<i>`, `unit_<i>`,
and `abscissa_nbin_<i+1>`. -/
structure AxisSet where
  name : String
  unit : String
  nbin : ℕ
  edges : List ℝ

/-- A histogram in the file: `ordinate` with its dimensions, numbers in the order of the array, name
and unit, and the abscissae. -/
structure HistGroup where
  dims : List ℕ
  data : ℕ → ℝ
  name : String
  unit : String
  absc : List AxisSet

/-- `hdf5_histogram_write_uniform_double`, src/hdf5io/hdf5_histogram.c:160-256, with one ordinate. -/
noncomputable def writeUniform (absc : List Absc) (unit name : String) (ordinate : ℕ → ℝ) : HistGroup where
  dims := 1 :: absc.map Absc.n
  data := ordinate
  name := name
  unit := unit
  absc := absc.map fun a =>
    { name := a.name
      unit := a.unit
      nbin := a.n
      edges := (List.range (a.n + 1)).map fun j : ℕ => a.min + j * ((a.max - a.min) / a.n) }

/-- `math_rad2deg`, src/math.h:111-114. -/
noncomputable def rad2deg (x : ℝ) : ℝ := x * (180 / Real.pi)

/-- `hdf5_dist_write_5D`, src/hdf5io/hdf5_dist.c:26-70. -/
noncomputable def write5D (r phi z ppara pperp time q : Axis ℝ) (h : ℕ → ℝ) : HistGroup :=
  writeUniform
    [⟨"r", "m", r.n, r.min, r.max⟩,
     ⟨"phi", "deg", phi.n, rad2deg phi.min, rad2deg phi.max⟩,
     ⟨"z", "m", z.n, z.min, z.max⟩,
     ⟨"ppar", "kg*m/s", ppara.n, ppara.min, ppara.max⟩,
     ⟨"pperp", "kg*m/s", pperp.n, pperp.min, pperp.max⟩,
     ⟨"time", "s", time.n, time.min, time.max⟩,
     ⟨"charge", "e", q.n, q.min, q.max⟩] "s/(m^5*kg^2*deg*e)" "distribution" h

/-- `hdf5_dist_write_6D`, src/hdf5io/hdf5_dist.c:80-128. -/
noncomputable def write6D (r phi z pr pphi pz time q : Axis ℝ) (h : ℕ → ℝ) : HistGroup :=
  writeUniform
    [⟨"r", "m", r.n, r.min, r.max⟩,
     ⟨"phi", "deg", phi.n, rad2deg phi.min, rad2deg phi.max⟩,
     ⟨"z", "m", z.n, z.min, z.max⟩,
     ⟨"pr", "kg*m/s", pr.n, pr.min, pr.max⟩,
     ⟨"pphi", "kg*m/s", pphi.n, pphi.min, pphi.max⟩,
     ⟨"pz", "kg*m/s", pz.n, pz.min, pz.max⟩,
     ⟨"time", "s", time.n, time.min, time.max⟩,
     ⟨"charge", "e", q.n, q.min, q.max⟩] "s/(m^6*kg^3*deg*e)" "distribution" h

/-- `hdf5_dist_write_rho5D`, src/hdf5io/hdf5_dist.c:137-182. -/
noncomputable def writeRho5D (rho theta phi ppara pperp time q : Axis ℝ) (h : ℕ → ℝ) : HistGroup :=
  writeUniform
    [⟨"rho", "1", rho.n, rho.min, rho.max⟩,
     ⟨"theta", "deg", theta.n, rad2deg theta.min, rad2deg theta.max⟩,
     ⟨"phi", "deg", phi.n, rad2deg phi.min, rad2deg phi.max⟩,
     ⟨"ppar", "kg*m/s", ppara.n, ppara.min, ppara.max⟩,
     ⟨"pperp", "kg*m/s", pperp.n, pperp.min, pperp.max⟩,
     ⟨"time", "s", time.n, time.min, time.max⟩,
     ⟨"charge", "e", q.n, q.min, q.max⟩] "s/(m^2*kg^2*deg^2*e)" "distribution" h

/-- `hdf5_dist_write_rho6D`, src/hdf5io/hdf5_dist.c:191-239. -/
noncomputable def writeRho6D (rho theta phi pr pphi pz time q : Axis ℝ) (h : ℕ → ℝ) : HistGroup :=
  writeUniform
    [⟨"rho", "1", rho.n, rho.min, rho.max⟩,
     ⟨"theta", "deg", theta.n, rad2deg theta.min, rad2deg theta.max⟩,
     ⟨"phi", "deg", phi.n, rad2deg phi.min, rad2deg phi.max⟩,
     ⟨"pr", "kg*m/s", pr.n, pr.min, pr.max⟩,
     ⟨"pphi", "kg*m/s", pphi.n, pphi.min, pphi.max⟩,
     ⟨"pz", "kg*m/s", pz.n, pz.min, pz.max⟩,
     ⟨"time", "s", time.n, time.min, time.max⟩,
     ⟨"charge", "e", q.n, q.min, q.max⟩] "s^2/(m^3*kg^3*deg^2*e)" "distribution" h

/-- `hdf5_dist_write_COM`, src/hdf5io/hdf5_dist.c:248-280. -/
noncomputable def writeCom (mu Ekin Ptor : Axis ℝ) (h : ℕ → ℝ) : HistGroup :=
  writeUniform
    [⟨"mu", "eV/T", mu.n, mu.min / eCharge, mu.max / eCharge⟩,
     ⟨"ekin", "eV", Ekin.n, Ekin.min / eCharge, Ekin.max / eCharge⟩,
     ⟨"ptor", "eV*s", Ptor.n, Ptor.min / eCharge, Ptor.max / eCharge⟩] "T/(eV**3*s)" "distribution" h

/-- The `switch` of `hdf5_hist_write`, src/hdf5io/hdf5_histogram.c:36-110; the names of the axes are
numbered as in src/diag/hist.h:17-34. -/
noncomputable def abscOf (name : ℕ) (a : Axis ℝ) : Absc :=
  match name with
  | 0 => ⟨"r", "m", a.n, a.min, a.max⟩
  | 1 => ⟨"phi", "deg", a.n, a.min * (180 / Real.pi), a.max * (180 / Real.pi)⟩
  | 2 => ⟨"z", "m", a.n, a.min, a.max⟩
  | 3 => ⟨"rho", "1", a.n, a.min, a.max⟩
  | 4 => ⟨"theta", "deg", a.n, a.min * (180 / Real.pi), a.max * (180 / Real.pi)⟩
  | 5 => ⟨"ppar", "kg*m/s", a.n, a.min, a.max⟩
  | 6 => ⟨"pperp", "kg*m/s", a.n, a.min, a.max⟩
  | 7 => ⟨"pr", "kg*m/s", a.n, a.min, a.max⟩
  | 8 => ⟨"pphi", "kg*m/s", a.n, a.min, a.max⟩
  | 9 => ⟨"pz", "kg*m/s", a.n, a.min, a.max⟩
  | 10 => ⟨"ekin", "eV", a.n, a.min / eCharge, a.max / eCharge⟩
  | 11 => ⟨"pitch", "1", a.n, a.min, a.max⟩
  | 12 => ⟨"mu", "T/eV", a.n, a.min, a.max⟩
  | 13 => ⟨"ptor", "kg*m/s", a.n, a.min, a.max⟩
  | 14 => ⟨"time", "s", a.n, a.min, a.max⟩
  | _ => ⟨"charge", "e", a.n, a.min, a.max⟩

/-- The loop of `hdf5_hist_write` over the axes from number `i` on: axes without bins are
skipped. -/
noncomputable def abscs (i : ℕ) : List (Axis ℝ) → List Absc
  | [] => []
  | a :: l => if a.n = 0 then abscs (i + 1) l else abscOf i a :: abscs (i + 1) l

/-- `hdf5_hist_write`, src/hdf5io/hdf5_histogram.c:16-128. -/
noncomputable def histWrite (axes : List (Axis ℝ)) (bins : ℕ → ℝ) : HistGroup :=
  writeUniform (abscs 0 axes) "s/(m^5*kg^2*deg*e)" "distribution" bins

end Ascot.DistFile
