import Verif.Model.Options

/-!
# What the documentation says about the options

Tables of the option names with the setting each one controls and the unit it is
given in, written from `/repo/a5py/ascot5io/options.py` (the documentation strings)
and the field descriptions in `/repo/src/simulate.h:75-137`. They say nothing about
how or in which order the file is read.
-/

namespace Ascot.OptionDoc

open Ascot.Options

/-- Options that hold an integer: switches, modes and counts. -/
def integers : List (String × (Opt → ℤ)) := [
  ("SIM_MODE", fun o => o.mode.simMode),
  ("ENABLE_ADAPTIVE", fun o => o.mode.enableAda),
  ("RECORD_MODE", fun o => o.mode.recordMode),
  ("FIXEDSTEP_USE_USERDEFINED", fun o => o.steps.usrdefUse),
  ("FIXEDSTEP_GYRODEFINED", fun o => o.steps.gyrodefNstep),
  ("ENABLE_ORBIT_FOLLOWING", fun o => o.physics.orbfol),
  ("ENABLE_COULOMB_COLLISIONS", fun o => o.physics.clmbcol),
  ("ENABLE_MHD", fun o => o.physics.mhd),
  ("ENABLE_ATOMIC", fun o => o.physics.atomic),
  ("ENABLE_ICRH", fun o => o.physics.icrh),
  ("ENABLE_ALDFORCE", fun o => o.physics.aldforce),
  ("DISABLE_FIRSTORDER_GCTRANS", fun o => o.physics.noGctransform),
  ("DISABLE_ENERGY_CCOLL", fun o => o.physics.noEnergyccoll),
  ("DISABLE_PITCH_CCOLL", fun o => o.physics.noPitchccoll),
  ("DISABLE_GCDIFF_CCOLL", fun o => o.physics.noGcdiffccoll),
  ("REVERSE_TIME", fun o => o.physics.reverseTime),
  ("ENABLE_DIST_5D", fun o => o.collect.d5),
  ("ENABLE_DIST_6D", fun o => o.collect.d6),
  ("ENABLE_DIST_RHO5D", fun o => o.collect.r5),
  ("ENABLE_DIST_RHO6D", fun o => o.collect.r6),
  ("ENABLE_DIST_COM", fun o => o.collect.com),
  ("ENABLE_ORBITWRITE", fun o => o.collect.orb),
  ("ENABLE_TRANSCOEF", fun o => o.collect.trcof)]

/-- Options that hold a real number, with the value of their unit in the units the
simulation works in (SI, radians). -/
noncomputable def reals : List (String × (Opt → ℝ) × ℝ) := [
  ("FIXEDSTEP_USERDEFINED", fun o => o.steps.usrdefVal, 1),
  ("ADAPTIVE_TOL_ORBIT", fun o => o.steps.tolOrbfol, 1),
  ("ADAPTIVE_TOL_CCOL", fun o => o.steps.tolClmbcol, 1),
  ("ADAPTIVE_MAX_DRHO", fun o => o.steps.maxDrho, 1),
  ("ADAPTIVE_MAX_DPHI", fun o => o.steps.maxDphi, 1),
  ("ENDCOND_LIM_SIMTIME", fun o => o.limits.simtime, 1),
  ("ENDCOND_MAX_MILEAGE", fun o => o.limits.mileage, 1),
  ("ENDCOND_MAX_CPUTIME", fun o => o.limits.cputime, 1),
  ("ENDCOND_MAX_RHO", fun o => o.limits.maxRho, 1),
  ("ENDCOND_MIN_RHO", fun o => o.limits.minRho, 1),
  -- given in electronvolts
  ("ENDCOND_MIN_ENERGY", fun o => o.limits.minEkin, 1.602176565e-19),
  ("ENDCOND_MIN_THERMAL", fun o => o.limits.minThermal, 1)]

/-- Options that hold a number of turns; the setting is the angle. -/
def turns : List (String × (Opt → ℝ)) := [
  ("ENDCOND_MAX_POLOIDALORBS", fun o => o.limits.maxPolorb),
  ("ENDCOND_MAX_TOROIDALORBS", fun o => o.limits.maxTororb)]

/-- End condition switches with the bits of the conditions each one turns on
(endcond.h:18-32). -/
def endconds : List (String × List ℕ) := [
  ("ENDCOND_SIMTIMELIM", [0]),
  ("ENDCOND_CPUTIMELIM", [8]),
  ("ENDCOND_RHOLIM", [4, 5]),
  ("ENDCOND_ENERGYLIM", [1, 2]),
  ("ENDCOND_WALLHIT", [3]),
  ("ENDCOND_MAXORBS", [6, 7]),
  ("ENDCOND_NEUTRALIZED", [10]),
  ("ENDCOND_IONIZED", [11])]

/-- One degree. -/
noncomputable def deg : ℝ := Real.pi / 180

/-- The coordinates of the 5D distribution with the unit of their limits. -/
noncomputable def axes5 : List (String × (Dist5 → Axis) × ℝ) := [
  ("R", fun d => d.r, 1), ("PHI", fun d => d.phi, deg), ("Z", fun d => d.z, 1),
  ("PPA", fun d => d.ppara, 1), ("PPE", fun d => d.pperp, 1),
  ("TIME", fun d => d.time, 1), ("CHARGE", fun d => d.q, 1)]

/-- The coordinates of the 6D distribution. -/
noncomputable def axes6 : List (String × (Dist6 → Axis) × ℝ) := [
  ("R", fun d => d.r, 1), ("PHI", fun d => d.phi, deg), ("Z", fun d => d.z, 1),
  ("PR", fun d => d.pr, 1), ("PPHI", fun d => d.pphi, 1), ("PZ", fun d => d.pz, 1),
  ("TIME", fun d => d.time, 1), ("CHARGE", fun d => d.q, 1)]

/-- The coordinates of the 5D distribution in flux coordinates. -/
noncomputable def axesRho5 : List (String × (DistRho5 → Axis) × ℝ) := [
  ("RHO", fun d => d.rho, 1), ("PHI", fun d => d.phi, deg),
  ("THETA", fun d => d.theta, deg),
  ("PPA", fun d => d.ppara, 1), ("PPE", fun d => d.pperp, 1),
  ("TIME", fun d => d.time, 1), ("CHARGE", fun d => d.q, 1)]

/-- The coordinates of the 6D distribution in flux coordinates. -/
noncomputable def axesRho6 : List (String × (DistRho6 → Axis) × ℝ) := [
  ("RHO", fun d => d.rho, 1), ("PHI", fun d => d.phi, deg),
  ("THETA", fun d => d.theta, deg),
  ("PR", fun d => d.pr, 1), ("PPHI", fun d => d.pphi, 1), ("PZ", fun d => d.pz, 1),
  ("TIME", fun d => d.time, 1), ("CHARGE", fun d => d.q, 1)]

/-- The coordinates of the constants-of-motion distribution. -/
noncomputable def axesCom : List (String × (DistCom → Axis) × ℝ) := [
  ("MU", fun d => d.mu, 1), ("EKIN", fun d => d.ekin, 1), ("PTOR", fun d => d.ptor, 1)]

/-- The file holds the integer `k` for this option, within the range of C's
`int`. -/
def HoldsInt (f : File) (name : String) (k : ℤ) : Prop :=
  f name = some [(k : ℝ)] ∧ -2147483648 ≤ k ∧ k ≤ 2147483647

/-- The limits of one coordinate are those of the file, in the given unit, and so
is the number of bins if the file holds an integer. -/
def AxisFrom (f : File) (name : String) (unit : ℝ) (a : Axis) : Prop :=
  (∃ x, f ("DIST_MIN_" ++ name) = some [x] ∧ a.min = x * unit) ∧
  (∃ x, f ("DIST_MAX_" ++ name) = some [x] ∧ a.max = x * unit) ∧
  ∀ k : ℤ, f ("DIST_NBIN_" ++ name) = some [(k : ℝ)] → a.n = k

/-- The option names every read needs. -/
def always : List String :=
  integers.map (·.1) ++ ["FIXEDSTEP_USERDEFINED", "ADAPTIVE_TOL_ORBIT",
    "ADAPTIVE_TOL_CCOL", "ADAPTIVE_MAX_DRHO", "ADAPTIVE_MAX_DPHI",
    "ENDCOND_LIM_SIMTIME", "ENDCOND_MAX_MILEAGE", "ENDCOND_MAX_CPUTIME",
    "ENDCOND_MAX_RHO", "ENDCOND_MIN_RHO", "ENDCOND_MIN_ENERGY",
    "ENDCOND_MIN_THERMAL"] ++ turns.map (·.1) ++ endconds.map (·.1)

/-- The three names of one coordinate. -/
def axisNames (s : String) : List String :=
  ["DIST_MIN_" ++ s, "DIST_MAX_" ++ s, "DIST_NBIN_" ++ s]

/-- The options of each diagnostic, with the switch that turns it on. The three
lists of planes of the orbit diagnostics are not single numbers and are left
out here. -/
def optional : List (String × List String) := [
  ("ENABLE_DIST_5D",
    ["R", "PHI", "Z", "PPA", "PPE", "TIME", "CHARGE"].flatMap axisNames),
  ("ENABLE_DIST_6D",
    ["R", "PHI", "Z", "PR", "PPHI", "PZ", "TIME", "CHARGE"].flatMap axisNames),
  ("ENABLE_DIST_RHO5D",
    ["RHO", "PHI", "THETA", "PPA", "PPE", "TIME", "CHARGE"].flatMap axisNames),
  ("ENABLE_DIST_RHO6D",
    ["RHO", "PHI", "THETA", "PR", "PPHI", "PZ", "TIME", "CHARGE"].flatMap axisNames),
  ("ENABLE_DIST_COM", ["MU", "EKIN", "PTOR"].flatMap axisNames),
  ("ENABLE_ORBITWRITE",
    ["ORBITWRITE_MODE", "ORBITWRITE_NPOINT", "ORBITWRITE_INTERVAL"]),
  ("ENABLE_TRANSCOEF",
    ["TRANSCOEF_INTERVAL", "TRANSCOEF_NAVG", "TRANSCOEF_RECORDRHO"])]

/-- The lists of planes. -/
def planeNames : List String :=
  ["ORBITWRITE_TOROIDALANGLES", "ORBITWRITE_POLOIDALANGLES",
    "ORBITWRITE_RADIALDISTANCES"]

end Ascot.OptionDoc
