import Mathlib.Analysis.SpecialFunctions.Trigonometric.Basic
import Mathlib.Algebra.Order.Floor.Ring

/-!
# Reading the simulation options from the input file

Model of `/repo/src/hdf5io/hdf5_options.c` (all functions) with `hdf5_read_double`
from `/repo/src/hdf5io/hdf5_helpers.c`.

The options group of the HDF5 file is a map from data set names to the numbers in
the data set; a missing data set is `none`. The path prefix `/options/opt_<qid>/`
is fixed during the whole read and left out. Numbers are real numbers; NaN and
infinities are not represented. The C constant for π is taken to be π.
-/

namespace Ascot.Options

/-- The options group of the input file: data set name to contents. -/
abbrev File := String → Option (List ℝ)

/-- Outcome of a reader: it returns 0 with the data, it returns 1, or it does
something undefined. -/
inductive Res (α : Type) where
  | ok (a : α)
  | fail
  | ub

namespace Res

/-- Sequencing: `if( read(...) ) {return 1;}` followed by the rest. -/
def bind {α β : Type} (r : Res α) (g : α → Res β) : Res β :=
  match r with
  | ok a => g a
  | fail => fail
  | ub => ub

instance : Monad Res where
  pure := Res.ok
  bind := Res.bind

end Res

/-- `hdf5_read_double` into a single variable, hdf5_helpers.c:166-175 with
`H5LTread_dataset_double`. A missing data set makes the call fail. A longer data
set is written past the variable. An empty data set leaves the variable as it was;
since the variable then holds the value of another option or nothing at all, the
model calls this undefined too. -/
def scalar (f : File) (name : String) : Res ℝ :=
  match f name with
  | none => .fail
  | some [x] => .ok x
  | some _ => .ub

/-- The conversion `(int)x` rounds towards zero; it is undefined when the result
does not fit. -/
noncomputable def toInt (x : ℝ) : Res ℤ :=
  let k : ℤ := if 0 ≤ x then ⌊x⌋ else ⌈x⌉
  if -2147483648 ≤ k ∧ k ≤ 2147483647 then .ok k else .ub

/-- `hdf5_read_double(..., &tempfloat, ...)` followed by `(int)tempfloat`, as in
hdf5_options.c:54-56. -/
noncomputable def int (f : File) (name : String) : Res ℤ := do
  let x ← scalar f name
  toInt x

/-- Mode settings, hdf5_options.c:54-62. -/
structure Mode where
  simMode : ℤ
  enableAda : ℤ
  recordMode : ℤ

/-- hdf5_options.c:54-62. -/
noncomputable def readMode (f : File) : Res Mode := do
  let a ← int f "SIM_MODE"
  let b ← int f "ENABLE_ADAPTIVE"
  let c ← int f "RECORD_MODE"
  pure ⟨a, b, c⟩

/-- Time-step settings, hdf5_options.c:65-83. -/
structure Steps where
  usrdefUse : ℤ
  usrdefVal : ℝ
  gyrodefNstep : ℤ
  tolOrbfol : ℝ
  tolClmbcol : ℝ
  maxDrho : ℝ
  maxDphi : ℝ

/-- hdf5_options.c:65-83. -/
noncomputable def readSteps (f : File) : Res Steps := do
  let a ← int f "FIXEDSTEP_USE_USERDEFINED"
  let b ← scalar f "FIXEDSTEP_USERDEFINED"
  let c ← int f "FIXEDSTEP_GYRODEFINED"
  let d ← scalar f "ADAPTIVE_TOL_ORBIT"
  let e ← scalar f "ADAPTIVE_TOL_CCOL"
  let g ← scalar f "ADAPTIVE_MAX_DRHO"
  let h ← scalar f "ADAPTIVE_MAX_DPHI"
  pure ⟨a, b, c, d, e, g, h⟩

/-- Physics switches, hdf5_options.c:86-118. -/
structure Physics where
  orbfol : ℤ
  clmbcol : ℤ
  mhd : ℤ
  atomic : ℤ
  icrh : ℤ
  aldforce : ℤ
  noGctransform : ℤ
  noEnergyccoll : ℤ
  noPitchccoll : ℤ
  noGcdiffccoll : ℤ
  reverseTime : ℤ

/-- hdf5_options.c:86-118. -/
noncomputable def readPhysics (f : File) : Res Physics := do
  let a ← int f "ENABLE_ORBIT_FOLLOWING"
  let b ← int f "ENABLE_COULOMB_COLLISIONS"
  let c ← int f "ENABLE_MHD"
  let d ← int f "ENABLE_ATOMIC"
  let e ← int f "ENABLE_ICRH"
  let g ← int f "ENABLE_ALDFORCE"
  let h ← int f "DISABLE_FIRSTORDER_GCTRANS"
  let i ← int f "DISABLE_ENERGY_CCOLL"
  let j ← int f "DISABLE_PITCH_CCOLL"
  let k ← int f "DISABLE_GCDIFF_CCOLL"
  let l ← int f "REVERSE_TIME"
  pure ⟨a, b, c, d, e, g, h, i, j, k, l⟩

/-- `flag * (ec > 0)`, hdf5_options.c:126 and following. -/
def bit (flag : ℕ) (ec : ℤ) : ℕ := flag * (if ec > 0 then 1 else 0)

/-- End condition switches: the bit array `endcond_active` and the flag
`endcond_torandpol`, hdf5_options.c:120-161. -/
structure Active where
  bits : ℕ
  torandpol : ℤ

/-- hdf5_options.c:120-161; the flag values are those of endcond.h:18-32. The
variable `ec` is reused for every option, so that the test at line 159 sees the
value of `ENDCOND_IONIZED`. -/
noncomputable def readActive (f : File) : Res Active := do
  let active := 0
  let ec ← int f "ENDCOND_SIMTIMELIM"
  let active := active ||| bit 0x1 ec
  let ec ← int f "ENDCOND_CPUTIMELIM"
  let active := active ||| bit 0x100 ec
  let ec ← int f "ENDCOND_RHOLIM"
  let active := active ||| bit 0x10 ec
  let active := active ||| bit 0x20 ec
  let ec ← int f "ENDCOND_ENERGYLIM"
  let active := active ||| bit 0x2 ec
  let active := active ||| bit 0x4 ec
  let ec ← int f "ENDCOND_WALLHIT"
  let active := active ||| bit 0x8 ec
  let ec ← int f "ENDCOND_MAXORBS"
  let active := active ||| bit 0x40 ec
  let active := active ||| bit 0x80 ec
  let ec ← int f "ENDCOND_NEUTRALIZED"
  let active := active ||| bit 0x400 ec
  let ec ← int f "ENDCOND_IONIZED"
  let active := active ||| bit 0x800 ec
  pure ⟨active, if ec = 2 then 1 else 0⟩

/-- End condition limits, hdf5_options.c:164-198. -/
structure Limits where
  simtime : ℝ
  mileage : ℝ
  cputime : ℝ
  maxRho : ℝ
  minRho : ℝ
  minEkin : ℝ
  minThermal : ℝ
  maxPolorb : ℝ
  maxTororb : ℝ

/-- `CONST_E`, consts.h. -/
noncomputable def elementaryCharge : ℝ := 1.602176565e-19

/-- hdf5_options.c:164-198. -/
noncomputable def readLimits (f : File) : Res Limits := do
  let a ← scalar f "ENDCOND_LIM_SIMTIME"
  let b ← scalar f "ENDCOND_MAX_MILEAGE"
  let c ← scalar f "ENDCOND_MAX_CPUTIME"
  let d ← scalar f "ENDCOND_MAX_RHO"
  let e ← scalar f "ENDCOND_MIN_RHO"
  let g ← scalar f "ENDCOND_MIN_ENERGY"
  let h ← scalar f "ENDCOND_MIN_THERMAL"
  let p ← int f "ENDCOND_MAX_POLOIDALORBS"
  let t ← int f "ENDCOND_MAX_TOROIDALORBS"
  pure ⟨a, b, c, d, e, g * elementaryCharge, h, p * 2 * Real.pi, t * 2 * Real.pi⟩

/-- Which diagnostics are collected, hdf5_options.c:204-224. -/
structure Collect where
  d5 : ℤ
  d6 : ℤ
  r5 : ℤ
  r6 : ℤ
  com : ℤ
  orb : ℤ
  trcof : ℤ

/-- hdf5_options.c:204-224. -/
noncomputable def readCollect (f : File) : Res Collect := do
  let a ← int f "ENABLE_DIST_5D"
  let b ← int f "ENABLE_DIST_6D"
  let c ← int f "ENABLE_DIST_RHO5D"
  let d ← int f "ENABLE_DIST_RHO6D"
  let e ← int f "ENABLE_DIST_COM"
  let g ← int f "ENABLE_ORBITWRITE"
  let h ← int f "ENABLE_TRANSCOEF"
  pure ⟨a, b, c, d, e, g, h⟩

/-- Limits and number of bins of one histogram coordinate. -/
structure Axis where
  min : ℝ
  max : ℝ
  n : ℤ

/-- The three reads for one coordinate, e.g. hdf5_options.c:293-299. -/
noncomputable def axis (f : File) (s : String) : Res Axis := do
  let a ← scalar f ("DIST_MIN_" ++ s)
  let b ← scalar f ("DIST_MAX_" ++ s)
  let n ← int f ("DIST_NBIN_" ++ s)
  pure ⟨a, b, n⟩

/-- `math_deg2rad`, math.h:111. -/
noncomputable def deg2rad (x : ℝ) : ℝ := x * (Real.pi / 180)

/-- The same followed by the conversion of the limits from degrees, e.g.
hdf5_options.c:301-309. -/
noncomputable def axisDeg (f : File) (s : String) : Res Axis := do
  let x ← axis f s
  pure ⟨deg2rad x.min, deg2rad x.max, x.n⟩

/-- `dist_5D_data` settings. -/
structure Dist5 where
  r : Axis
  phi : Axis
  z : Axis
  ppara : Axis
  pperp : Axis
  time : Axis
  q : Axis

/-- `hdf5_options_read_dist5D`, hdf5_options.c:280-346. -/
noncomputable def readDist5 (f : File) : Res Dist5 := do
  let r ← axis f "R"
  let phi ← axisDeg f "PHI"
  let z ← axis f "Z"
  let ppara ← axis f "PPA"
  let pperp ← axis f "PPE"
  let time ← axis f "TIME"
  let q ← axis f "CHARGE"
  pure ⟨r, phi, z, ppara, pperp, time, q⟩

/-- `dist_6D_data` settings. -/
structure Dist6 where
  r : Axis
  phi : Axis
  z : Axis
  pr : Axis
  pphi : Axis
  pz : Axis
  time : Axis
  q : Axis

/-- `hdf5_options_read_dist6D`, hdf5_options.c:357-431. -/
noncomputable def readDist6 (f : File) : Res Dist6 := do
  let r ← axis f "R"
  let phi ← axisDeg f "PHI"
  let z ← axis f "Z"
  let pr ← axis f "PR"
  let pphi ← axis f "PPHI"
  let pz ← axis f "PZ"
  let time ← axis f "TIME"
  let q ← axis f "CHARGE"
  pure ⟨r, phi, z, pr, pphi, pz, time, q⟩

/-- `dist_rho5D_data` settings. -/
structure DistRho5 where
  rho : Axis
  phi : Axis
  theta : Axis
  ppara : Axis
  pperp : Axis
  time : Axis
  q : Axis

/-- `hdf5_options_read_distrho5D`, hdf5_options.c:442-510. -/
noncomputable def readDistRho5 (f : File) : Res DistRho5 := do
  let rho ← axis f "RHO"
  let phi ← axisDeg f "PHI"
  let theta ← axisDeg f "THETA"
  let ppara ← axis f "PPA"
  let pperp ← axis f "PPE"
  let time ← axis f "TIME"
  let q ← axis f "CHARGE"
  pure ⟨rho, phi, theta, ppara, pperp, time, q⟩

/-- `dist_rho6D_data` settings. -/
structure DistRho6 where
  rho : Axis
  phi : Axis
  theta : Axis
  pr : Axis
  pphi : Axis
  pz : Axis
  time : Axis
  q : Axis

/-- `hdf5_options_read_distrho6D`, hdf5_options.c:521-597. -/
noncomputable def readDistRho6 (f : File) : Res DistRho6 := do
  let rho ← axis f "RHO"
  let phi ← axisDeg f "PHI"
  let theta ← axisDeg f "THETA"
  let pr ← axis f "PR"
  let pphi ← axis f "PPHI"
  let pz ← axis f "PZ"
  let time ← axis f "TIME"
  let q ← axis f "CHARGE"
  pure ⟨rho, phi, theta, pr, pphi, pz, time, q⟩

/-- `dist_COM_data` settings. -/
structure DistCom where
  mu : Axis
  ekin : Axis
  ptor : Axis

/-- `hdf5_options_read_distCOM`, hdf5_options.c:608-639. -/
noncomputable def readDistCom (f : File) : Res DistCom := do
  let mu ← axis f "MU"
  let ekin ← axis f "EKIN"
  let ptor ← axis f "PTOR"
  pure ⟨mu, ekin, ptor⟩

/-- `DIAG_ORB_MAXPOINCARES`, diag_orb.h:15. -/
def maxPoincares : ℕ := 30

/-- Fill an array of 30 entries with `filler` and read the data set into it,
hdf5_options.c:670-685. A data set with more than 30 numbers is written past the
array. -/
noncomputable def planes (f : File) (name : String) (filler : ℝ) : Res (List ℝ) :=
  match f name with
  | none => .fail
  | some xs =>
    if xs.length ≤ maxPoincares then
      .ok (xs ++ List.replicate (maxPoincares - xs.length) filler)
    else .ub

/-- The loop counting the planes, hdf5_options.c:687-697 (and 699-709, 711-721),
over the part of the array that begins with index `i`. If the loop ends without
`break` the count keeps what was in memory before; the model returns `none`. -/
noncomputable def countFrom (first filler : ℝ) : List ℝ → ℕ → Option ℕ
  | [], _ => none
  | x :: xs, i =>
    if first < 0 then some 0
    else if x = filler then some i
    else countFrom first filler xs (i + 1)

/-- The whole loop; `first` is entry 0 of the array. -/
noncomputable def countPlanes (filler : ℝ) (xs : List ℝ) : Option ℕ :=
  countFrom (xs.headD 0) filler xs 0

/-- Convert the first `n` entries from degrees, hdf5_options.c:723-728. -/
noncomputable def convert (n : ℕ) (xs : List ℝ) : List ℝ :=
  (xs.take n).map (fun x => x * Real.pi / 180) ++ xs.drop n

/-- `diag_orb_data` settings. -/
structure Orb where
  recordMode : ℤ
  mode : ℤ
  npnt : ℤ
  interval : ℝ
  ntor : ℕ
  tor : List ℝ
  npol : ℕ
  pol : List ℝ
  nrad : ℕ
  rad : List ℝ

/-- A count that was never set is uninitialised memory; using it is undefined. -/
def initialised (n : Option ℕ) : Res ℕ :=
  match n with
  | some n => .ok n
  | none => .ub

/-- `hdf5_options_read_diagorb`, hdf5_options.c:650-730, with the record mode set
at lines 251-255. The number of radial planes is not used inside this function;
when it is never set it is used uninitialised in `diag_orb.c`, so the model stops
here as well. -/
noncomputable def readOrb (f : File) (recordMode : ℤ) : Res Orb := do
  let mode ← int f "ORBITWRITE_MODE"
  let npnt ← int f "ORBITWRITE_NPOINT"
  let interval ← scalar f "ORBITWRITE_INTERVAL"
  let tor ← planes f "ORBITWRITE_TOROIDALANGLES" 361
  let pol ← planes f "ORBITWRITE_POLOIDALANGLES" 361
  let rad ← planes f "ORBITWRITE_RADIALDISTANCES" 1000
  let ntor ← initialised (countPlanes 361 tor)
  let npol ← initialised (countPlanes 361 pol)
  let nrad ← initialised (countPlanes 1000 rad)
  pure ⟨recordMode, mode, npnt, interval, ntor, convert ntor tor, npol,
    convert npol pol, nrad, rad⟩

/-- `diag_transcoef_data` settings. -/
structure Trcof where
  interval : ℝ
  navg : ℤ
  recordrho : ℤ

/-- `hdf5_options_read_diagtrcof`, hdf5_options.c:741-759. -/
noncomputable def readTrcof (f : File) : Res Trcof := do
  let a ← scalar f "TRANSCOEF_INTERVAL"
  let b ← int f "TRANSCOEF_NAVG"
  let c ← int f "TRANSCOEF_RECORDRHO"
  pure ⟨a, b, c⟩

/-- Read the settings of a diagnostic only when it is collected,
hdf5_options.c:225-266. -/
def whenOn {α : Type} (flag : ℤ) (r : Res α) : Res (Option α) :=
  if flag ≠ 0 then do
    let a ← r
    pure (some a)
  else pure none

/-- The record mode of the orbit diagnostics, hdf5_options.c:251-255:
`simulate_mode_fo` is 1, `simulate_mode_gc` 2 and `simulate_mode_hybrid` 3. -/
def orbRecord (m : Mode) : ℤ :=
  if m.recordMode ≠ 0 ∧ (m.simMode = 1 ∨ m.simMode = 3) then 2 else m.simMode

/-- Everything `hdf5_options_read` stores. -/
structure Opt where
  mode : Mode
  steps : Steps
  physics : Physics
  active : Active
  limits : Limits
  collect : Collect
  dist5 : Option Dist5
  dist6 : Option Dist6
  rho5 : Option DistRho5
  rho6 : Option DistRho6
  com : Option DistCom
  orb : Option Orb
  trcof : Option Trcof

/-- `hdf5_options_read`, hdf5_options.c:47-269. -/
noncomputable def readOptions (f : File) : Res Opt := do
  let mode ← readMode f
  let steps ← readSteps f
  let physics ← readPhysics f
  let active ← readActive f
  let limits ← readLimits f
  let collect ← readCollect f
  let dist5 ← whenOn collect.d5 (readDist5 f)
  let dist6 ← whenOn collect.d6 (readDist6 f)
  let rho5 ← whenOn collect.r5 (readDistRho5 f)
  let rho6 ← whenOn collect.r6 (readDistRho6 f)
  let com ← whenOn collect.com (readDistCom f)
  let orb ← whenOn collect.orb (readOrb f (orbRecord mode))
  let trcof ← whenOn collect.trcof (readTrcof f)
  pure ⟨mode, steps, physics, active, limits, collect, dist5, dist6, rho5, rho6,
    com, orb, trcof⟩

end Ascot.Options
