import Verif.Model.StatePy
import Verif.Model.Output
import Verif.Model.DistFile
import Verif.Spec.OutputDoc

/-!
# Results of interactive runs (`a5py/routines/virtualrun.py`) and of runs in a file

The result of reading a quantity is its dimension and its numbers in SI units.  Exceptions are the
outcome `.fail`.  The C structures that Python looks into are those of the library
(a5py/ascotpy/ascot2py.py has the same fields in the same order).
-/
namespace Ascot.VirtualRun
open Ascot.Options (Res)
open Ascot.Output (Group)
open Ascot.OutputDoc (Dim unitOf values)
open Ascot.Orbit (Pt)
open Ascot.Dist (Axis)

/-- A quantity: dimension, numbers in SI units. -/
abbrev Qnt := Dim × List ℝ

/-! ## Reading from a file -/

/-- `read_data`, a5py/ascot5io/coreio/fileapi.py:613-637: numbers times their unit.  Data sets
without a unit do not occur in results and are left out. -/
noncomputable def readData (g : Group) (name : String) : Res Qnt :=
  match g name with
  | none => .fail
  | some s =>
    match s.unit with
    | none => .fail
    | some u =>
      match unitOf u with
      | none => .fail
      | some (d, f) => .ok (d, (values s.col).map (· * f))

/-- `_val` of `Orbits.get`, a5py/ascot5io/orbits.py:57-66: weights are multiplied by `particles/s`. -/
noncomputable def fileOrbit (g : Group) (name : String) : Res Qnt :=
  match readData g name with
  | .ok (d, xs) =>
    if name = "weight" then .ok (⟨d.kg + Dim.rate.kg, d.m + Dim.rate.m, d.s + Dim.rate.s, d.C + Dim.rate.C⟩, xs)
    else .ok (d, xs)
  | .fail => .fail
  | .ub => .ub

/-! ## Marker states in memory -/

/-- The branches of `_val` of `VirtualState.get`, a5py/routines/virtualrun.py:134-165, in order: name, unit, field of the
structure. -/
def stateTable : List (String × Dim × (Particle.State → ℝ)) :=
  [("ids", .one, fun p => p.id), ("rprt", .length, fun p => p.prt.x), ("phiprt", .one, fun p => p.prt.y),
   ("zprt", .length, fun p => p.prt.z), ("prprt", .momentum, fun p => p.p.x), ("pphiprt", .momentum, fun p => p.p.y),
   ("pzprt", .momentum, fun p => p.p.z), ("r", .length, fun p => p.gc.pos.x), ("phi", .one, fun p => p.gc.pos.y),
   ("z", .length, fun p => p.gc.pos.z), ("ppar", .momentum, fun p => p.gc.ppar), ("mu", .moment, fun p => p.gc.mu),
   ("zeta", .one, fun p => p.gc.zeta), ("weight", .one, fun p => p.weight), ("time", .time, fun p => p.time),
   ("mileage", .time, fun p => p.mileage), ("cputime", .time, fun p => p.cputime), ("rho", .one, fun p => p.rho),
   ("theta", .one, fun p => p.theta), ("mass", .mass, fun p => p.mass), ("br", .field, fun p => p.B.a.v),
   ("bphi", .field, fun p => p.B.b.v), ("bz", .field, fun p => p.B.c.v), ("ids", .one, fun p => p.id),
   ("endcond", .one, fun p => p.endcond), ("walltile", .one, fun p => p.walltile), ("charge", .charge, fun p => p.charge),
   ("anum", .one, fun p => p.anum), ("znum", .one, fun p => p.znum), ("errormsg", .one, fun p => p.err),
   ("errorline", .one, fun p => p.err), ("errormod", .one, fun p => p.err)]

/-- `_val` of `VirtualState.get`, a5py/routines/virtualrun.py:126-166.  For other names it returns a function, which no caller can
use; this is counted as an exception. -/
def virtualState (ps : List Particle.State) (name : String) : Res Qnt :=
  match stateTable.lookup name with
  | some (d, f) => .ok (d, ps.map f)
  | none => .fail

/-- The numbers `endcond`, `errormsg`, `errorline`, `errormod` that `getstate_markersummary` works with in an interactive run. -/
def virtualMark (p : Particle.State) : ℕ × ℕ × ℕ × ℕ := (p.endcond, p.err, p.err, p.err)

/-- The same in a file, src/hdf5io/hdf5_state.c:238-265. -/
def fileMark (p : Particle.State) : ℕ × ℕ × ℕ × ℕ := (p.endcond, Error.parse p.err)

/-! ## Orbits in memory -/

/-- The attributes of `struct_diag_orb_data`, src/diag/diag_orb.h:22-75. -/
def member (name : String) : Option (Pt ℝ → ℝ) :=
  [("id", fun o : Pt ℝ => o.id), ("mileage", fun o => o.mileage), ("r", fun o => o.r), ("phi", fun o => o.phi),
   ("z", fun o => o.z), ("p_r", fun o => o.p_r), ("p_phi", fun o => o.p_phi), ("p_z", fun o => o.p_z),
   ("ppar", fun o => o.ppar), ("mu", fun o => o.mu), ("zeta", fun o => o.zeta), ("weight", fun o => o.weight),
   ("charge", fun o => o.charge), ("rho", fun o => o.rho), ("theta", fun o => o.theta), ("B_r", fun o => o.B_r),
   ("B_phi", fun o => o.B_phi), ("B_z", fun o => o.B_z), ("simmode", fun o => o.simmode),
   ("pncrid", fun o => o.pncrid), ("pncrdi", fun o => o.pncrdi)].lookup name

/-- One branch: quantity, unit, attribute, and whether `"i8"` is given. -/
structure Branch where
  name : String
  dim : Dim
  attr : String
  i8 : Bool

/-- The branches for all modes, a5py/routines/virtualrun.py:234-243. -/
def common : List Branch :=
  [⟨"ids", .one, "id", true⟩, ⟨"mileage", .time, "mileage", false⟩, ⟨"r", .length, "r", false⟩,
   ⟨"phi", .one, "phi", false⟩, ⟨"z", .length, "z", false⟩]

/-- The branches that all modes repeat, a5py/routines/virtualrun.py:256-267, 287-298, 305-316, 341-352. -/
def fields : List Branch :=
  [⟨"rho", .one, "rho", false⟩, ⟨"theta", .one, "theta", false⟩, ⟨"br", .field, "B_r", false⟩,
   ⟨"bphi", .field, "B_phi", false⟩, ⟨"bz", .field, "B_z", false⟩, ⟨"simmode", .one, "simmode", true⟩]

/-- The branches of record mode `simulate_mode_fo`, a5py/routines/virtualrun.py:245-271. -/
def foBranches : List Branch :=
  [⟨"pr", .momentum, "p_r", false⟩, ⟨"pphi", .momentum, "p_phi", false⟩, ⟨"pz", .momentum, "p_z", false⟩,
   ⟨"weight", .one, "weight", false⟩, ⟨"charge", .charge, "charge", false⟩] ++ fields

/-- The branches of record mode `simulate_mode_gc`, a5py/routines/virtualrun.py:272-298. -/
def gcBranches : List Branch :=
  [⟨"ppar", .momentum, "ppar", false⟩, ⟨"mu", .moment, "mu", false⟩, ⟨"zeta", .one, "zeta", false⟩,
   ⟨"weight", .one, "weight", false⟩, ⟨"charge", .charge, "charge", false⟩] ++ fields

/-- The branches of record mode `simulate_mode_hybrid`, a5py/routines/virtualrun.py:317-352. -/
def hybridBranches : List Branch :=
  [⟨"pr", .momentum, "pr", false⟩, ⟨"pphi", .momentum, "pphi", false⟩, ⟨"pz", .momentum, "pz", false⟩,
   ⟨"ppar", .momentum, "ppar", false⟩, ⟨"mu", .moment, "mu", false⟩, ⟨"zeta", .one, "zeta", false⟩,
   ⟨"weight", .one, "weight", false⟩, ⟨"charge", .charge, "charge", false⟩] ++ fields

/-- The branches for Poincaré data, the same in all modes. -/
def pncrBranches : List Branch :=
  [⟨"pncrid", .one, "pncrid", true⟩, ⟨"pncrdir", .one, "pncrdi", false⟩]

/-- All branches with a record mode, `DIAG_ORB_POINCARE` being zero. -/
def branches (recordMode : ℕ) (poincare : Bool) : List Branch :=
  common ++ (if recordMode = 1 then foBranches else if recordMode = 2 then gcBranches
    else if recordMode = 4 then fields else if recordMode = 3 then hybridBranches else []) ++
  if poincare then pncrBranches else []

/-- `astype("i8")`: the integer part; numbers that do not fit give a number `bad` that depends on the machine. -/
noncomputable def astype (bad : ℤ) (x : ℝ) : ℤ :=
  match Output.toInt64 x with
  | .ok k => k
  | _ => bad

/-- `_val` of `VirtualOrbits.get`, a5py/routines/virtualrun.py:220-353, without a mask.  `pts` are the `nmrk*npnt` elements of the
arrays.  A name without a branch leaves `val` undefined. -/
noncomputable def virtualOrbit (bad : ℤ) (recordMode : ℕ) (poincare : Bool) (pts : List (Pt ℝ)) (name : String) : Res Qnt :=
  match (branches recordMode poincare).find? fun b => decide (b.name = name) with
  | none => .fail
  | some b =>
    match member b.attr with
    | none => .fail
    | some f =>
      .ok (b.dim, (pts.filter fun o => decide (astype bad o.id > 0)).map fun o => if b.i8 then (astype bad (f o) : ℝ) else f o)

/-- The name under which `Orbits._getactual` asks for the documented quantity `pncrdir`, a5py/ascot5io/orbits.py:181. -/
def directionName : String := "pncdir"

/-! ## Distributions in memory -/

/-- `np.linspace(min, max, n+1)`. -/
noncomputable def linspace (lo hi : ℝ) (n : ℕ) : List ℝ :=
  (List.range (n + 1)).map fun j : ℕ => lo + j * ((hi - lo) / n)

/-- The abscissae of `VirtualDist("5d", ...)`, a5py/routines/virtualrun.py:378-426.  Writing `x * kg*m**2/s` multiplies from the
left. -/
noncomputable def virtualDist5D (r phi z ppara pperp time q : Axis ℝ) : List (String × Qnt) :=
  [("r", .length, linspace r.min r.max r.n),
   ("phi", .one, linspace phi.min phi.max phi.n),
   ("z", .length, linspace z.min z.max z.n),
   ("ppar", .action, linspace ppara.min ppara.max ppara.n),
   ("pperp", .action, linspace pperp.min pperp.max pperp.n),
   ("time", .time, linspace time.min time.max time.n),
   ("charge", .charge, (linspace q.min q.max q.n).map (· * OutputDoc.e))]

/-- The abscissae of `Dist.get` of a file, a5py/ascot5io/dist.py:531-544. -/
noncomputable def fileDist (g : DistFile.HistGroup) : List (String × Option Qnt) :=
  g.absc.map fun s => (s.name, (unitOf s.unit).map fun (d, f) => (d, s.edges.map (· * f)))

end Ascot.VirtualRun
