import Verif.Model.MarkerFile
import Verif.Model.Orbit
import Verif.Model.Error

/-!
# Writing markers, orbits and transport coefficients (`src/hdf5io/hdf5_state.c`, `hdf5_orbit.c`,
`hdf5_transcoef.c` and the writing half of `hdf5_helpers.c`)

A group of the output file is a map from names to data sets, each with its numbers and the string
attribute `unit`.  That the group itself is new is a matter of the callers (`Ascot.RunFile`).
Lengths are assumed to fit an `int`.
-/
namespace Ascot.Output
open Ascot.Options (Res)
open Ascot.MarkerFile (eCharge amu cRound)
open Ascot.Orbit (Pt)

/-- The numbers of a data set: `H5T_IEEE_F64LE`, or one of the two integer types. -/
inductive Col
  | real (xs : List ℝ)
  | int (xs : List ℤ)

/-- The length of the data set. -/
def Col.length : Col → ℕ
  | .real xs => xs.length
  | .int xs => xs.length

/-- A data set with its attribute `unit`. -/
structure Dset where
  col : Col
  unit : Option String

/-- A group of the output file. -/
abbrev Group := String → Option Dset

/-- A new group, `H5Gcreate2`. -/
def newGroup : Group := fun _ => none

/-- `hdf5_write_extendible_dataset_double`, `_long`, `_int`, src/hdf5io/hdf5_helpers.c:330-424.  For
length zero the chunk size `ceil(length/2.0)` is zero, which `H5Pset_chunk` does not accept, and
the data set is not created.  A data set that exists is not created again. -/
def create (g : Group) (name : String) (c : Col) : Group :=
  if c.length = 0 ∨ (g name).isSome then g
  else fun x => if x = name then some ⟨c, none⟩ else g x

/-- `H5LTset_attribute_string(group, name, "unit", unit)`: nothing happens if there is no such data
set, a value that was set before is replaced. -/
def setUnit (g : Group) (name unit : String) : Group :=
  match g name with
  | none => g
  | some d => fun x => if x = name then some { d with unit := some unit } else g x

/-- A data set with its unit, written in one go. -/
def put (g : Group) (name unit : String) (c : Col) : Group :=
  setUnit (create g name c) name unit

/-- Conversions to `int` and `long`; undefined if the number does not fit. -/
noncomputable def toInt32 (x : ℝ) : Res ℤ :=
  let k : ℤ := if 0 ≤ x then ⌊x⌋ else ⌈x⌉
  if -2147483648 ≤ k ∧ k ≤ 2147483647 then .ok k else .ub
@[inherit_doc toInt32]
noncomputable def toInt64 (x : ℝ) : Res ℤ :=
  let k : ℤ := if 0 ≤ x then ⌊x⌋ else ⌈x⌉
  if -9223372036854775808 ≤ k ∧ k ≤ 9223372036854775807 then .ok k else .ub

/-- Applying a conversion to all elements of an array. -/
def mapRes {α β : Type} (f : α → Res β) : List α → Res (List β)
  | [] => .ok []
  | a :: l =>
    match f a with
    | .ok b =>
      match mapRes f l with
      | .ok bs => .ok (b :: bs)
      | .fail => .fail
      | .ub => .ub
    | .fail => .fail
    | .ub => .ub

/-! ## Marker states -/

/-- The real-valued data sets of `hdf5_state_write`, src/hdf5io/hdf5_state.c:49-196, in order. -/
noncomputable def stateReals : List (String × String × (Particle.State → ℝ)) :=
  [("rprt", "m", fun p => p.prt.x),
   ("phiprt", "deg", fun p => p.prt.y * (180 / Real.pi)),
   ("zprt", "m", fun p => p.prt.z),
   ("prprt", "kg*m/s", fun p => p.p.x),
   ("pphiprt", "kg*m/s", fun p => p.p.y),
   ("pzprt", "kg*m/s", fun p => p.p.z),
   ("r", "m", fun p => p.gc.pos.x),
   ("phi", "deg", fun p => p.gc.pos.y * (180 / Real.pi)),
   ("z", "m", fun p => p.gc.pos.z),
   ("ppar", "kg*m/s", fun p => p.gc.ppar),
   ("mu", "eV/T", fun p => p.gc.mu / eCharge),
   ("zeta", "rad", fun p => p.gc.zeta),
   ("weight", "markers/s", fun p => p.weight),
   ("time", "s", fun p => p.time),
   ("mileage", "s", fun p => p.mileage),
   ("cputime", "s", fun p => p.cputime),
   ("rho", "1", fun p => p.rho),
   ("theta", "deg", fun p => p.theta * (180 / Real.pi)),
   ("mass", "amu", fun p => p.mass / amu),
   ("br", "T", fun p => p.B.a.v),
   ("bphi", "T", fun p => p.B.b.v),
   ("bz", "T", fun p => p.B.c.v)]

/-- The integer data sets of type `long`, src/hdf5io/hdf5_state.c:201-219. -/
def stateLongs : List (String × String × (Particle.State → ℤ)) :=
  [("ids", "1", fun p => p.id),
   ("endcond", "1", fun p => p.endcond),
   ("walltile", "1", fun p => p.walltile)]

/-- The charge, src/hdf5io/hdf5_state.c:230: `(int)round(p[i].charge/CONST_E)`. -/
noncomputable def stateCharge (p : Particle.State) : Res ℤ :=
  toInt32 (cRound (p.charge / eCharge))

/-- The other integer data sets of type `int`, src/hdf5io/hdf5_state.c:238-265.  Codes in use fit
an `int` after `error_parse`. -/
def stateInts : List (String × String × (Particle.State → ℤ)) :=
  [("anum", "1", fun p => p.anum),
   ("znum", "1", fun p => p.znum),
   ("errormsg", "1", fun p => ((Error.parse p.err).1 : ℕ)),
   ("errorline", "1", fun p => ((Error.parse p.err).2.1 : ℕ)),
   ("errormod", "1", fun p => ((Error.parse p.err).2.2 : ℕ))]

/-- `hdf5_state_write`, src/hdf5io/hdf5_state.c:36-271. -/
noncomputable def writeState (ps : List Particle.State) : Res Group :=
  let g := stateReals.foldl (fun g s => put g s.1 s.2.1 (.real (ps.map s.2.2))) newGroup
  let g := stateLongs.foldl (fun g s => put g s.1 s.2.1 (.int (ps.map s.2.2))) g
  match mapRes stateCharge ps with
  | .ok cs =>
    let g := put g "charge" "e" (.int cs)
    .ok (stateInts.foldl (fun g s => put g s.1 s.2.1 (.int (ps.map s.2.2))) g)
  | .fail => .fail
  | .ub => .ub

/-! ## Orbits -/

/-- The data type of a set: `dtypef64`, `dtypei32`, `dtypei16` (which is a `long`),
src/hdf5io/hdf5_orbit.c:48-50. -/
inductive DType | f64 | i32 | i16

/-- The arguments of one call of `hdf5_orbit_writeset`: name, unit, type, factor, array. -/
structure OSet where
  name : String
  unit : String
  type : DType
  confac : ℝ
  get : Pt ℝ → ℝ

/-- The calls with record mode `simulate_mode_fo`, src/hdf5io/hdf5_orbit.c:51-86. -/
noncomputable def foSets : List OSet :=
  [⟨"ids", "1", .i32, 1, fun o => o.id⟩,
   ⟨"mileage", "s", .f64, 1, fun o => o.mileage⟩,
   ⟨"r", "m", .f64, 1, fun o => o.r⟩,
   ⟨"phi", "deg", .f64, 180 / Real.pi, fun o => o.phi⟩,
   ⟨"z", "m", .f64, 1, fun o => o.z⟩,
   ⟨"pr", "kg*m/s", .f64, 1, fun o => o.p_r⟩,
   ⟨"pphi", "kg*m/s", .f64, 1, fun o => o.p_phi⟩,
   ⟨"pz", "kg*m/s", .f64, 1, fun o => o.p_z⟩,
   ⟨"weight", "1", .f64, 1, fun o => o.weight⟩,
   ⟨"charge", "e", .i16, 1 / eCharge, fun o => o.charge⟩,
   ⟨"rho", "1", .f64, 1, fun o => o.rho⟩,
   ⟨"theta", "deg", .f64, 180 / Real.pi, fun o => o.theta⟩,
   ⟨"br", "T", .f64, 1, fun o => o.B_r⟩,
   ⟨"bphi", "T", .f64, 1, fun o => o.B_phi⟩,
   ⟨"bz", "T", .f64, 1, fun o => o.B_z⟩,
   ⟨"simmode", "1", .i32, 1, fun o => o.simmode⟩]

/-- The calls with record mode `simulate_mode_gc`, src/hdf5io/hdf5_orbit.c:88-121. -/
noncomputable def gcSets : List OSet :=
  [⟨"ids", "1", .i32, 1, fun o => o.id⟩,
   ⟨"mileage", "s", .f64, 1, fun o => o.mileage⟩,
   ⟨"r", "m", .f64, 1, fun o => o.r⟩,
   ⟨"phi", "deg", .f64, 180 / Real.pi, fun o => o.phi⟩,
   ⟨"z", "m", .f64, 1, fun o => o.z⟩,
   ⟨"ppar", "kg*m/s", .f64, 1, fun o => o.ppar⟩,
   ⟨"mu", "eV/T", .f64, 1 / eCharge, fun o => o.mu⟩,
   ⟨"zeta", "rad", .f64, 1, fun o => o.zeta⟩,
   ⟨"weight", "1", .f64, 1, fun o => o.weight⟩,
   ⟨"charge", "e", .i16, 1 / eCharge, fun o => o.charge⟩,
   ⟨"rho", "1", .f64, 1, fun o => o.rho⟩,
   ⟨"theta", "deg", .f64, 180 / Real.pi, fun o => o.theta⟩,
   ⟨"br", "T", .f64, 1, fun o => o.B_r⟩,
   ⟨"bphi", "T", .f64, 1, fun o => o.B_phi⟩,
   ⟨"bz", "T", .f64, 1, fun o => o.B_z⟩,
   ⟨"simmode", "1", .i32, 1, fun o => o.simmode⟩]

/-- The calls with record mode `simulate_mode_ml`, src/hdf5io/hdf5_orbit.c:123-146. -/
noncomputable def mlSets : List OSet :=
  [⟨"ids", "1", .i32, 1, fun o => o.id⟩,
   ⟨"mileage", "s", .f64, 1, fun o => o.mileage⟩,
   ⟨"r", "m", .f64, 1, fun o => o.r⟩,
   ⟨"phi", "deg", .f64, 180 / Real.pi, fun o => o.phi⟩,
   ⟨"z", "m", .f64, 1, fun o => o.z⟩,
   ⟨"rho", "1", .f64, 1, fun o => o.rho⟩,
   ⟨"theta", "deg", .f64, 180 / Real.pi, fun o => o.theta⟩,
   ⟨"br", "T", .f64, 1, fun o => o.B_r⟩,
   ⟨"bphi", "T", .f64, 1, fun o => o.B_phi⟩,
   ⟨"bz", "T", .f64, 1, fun o => o.B_z⟩,
   ⟨"simmode", "1", .i32, 1, fun o => o.simmode⟩]

/-- The calls with record mode `simulate_mode_hybrid`, src/hdf5io/hdf5_orbit.c:148-188. -/
noncomputable def hybridSets : List OSet :=
  [⟨"ids", "1", .i32, 1, fun o => o.id⟩,
   ⟨"mileage", "s", .f64, 1, fun o => o.mileage⟩,
   ⟨"r", "m", .f64, 1, fun o => o.r⟩,
   ⟨"phi", "deg", .f64, 180 / Real.pi, fun o => o.phi⟩,
   ⟨"z", "m", .f64, 1, fun o => o.z⟩,
   ⟨"pr", "kg*m/s", .f64, 1, fun o => o.p_r⟩,
   ⟨"pphi", "kg*m/s", .f64, 1, fun o => o.p_phi⟩,
   ⟨"pz", "kg*m/s", .f64, 1, fun o => o.p_z⟩,
   ⟨"ppar", "kg*m/s", .f64, 1, fun o => o.ppar⟩,
   ⟨"mu", "eV/T", .f64, 1 / eCharge, fun o => o.mu⟩,
   ⟨"zeta", "rad", .f64, 1, fun o => o.zeta⟩,
   ⟨"weight", "1", .f64, 1, fun o => o.weight⟩,
   ⟨"charge", "e", .i16, 1 / eCharge, fun o => o.charge⟩,
   ⟨"rho", "1", .f64, 1, fun o => o.rho⟩,
   ⟨"theta", "deg", .f64, 180 / Real.pi, fun o => o.theta⟩,
   ⟨"br", "T", .f64, 1, fun o => o.B_r⟩,
   ⟨"bphi", "T", .f64, 1, fun o => o.B_phi⟩,
   ⟨"bz", "T", .f64, 1, fun o => o.B_z⟩,
   ⟨"simmode", "1", .i32, 1, fun o => o.simmode⟩]

/-- The calls with mode `DIAG_ORB_POINCARE`, src/hdf5io/hdf5_orbit.c:190-195. -/
noncomputable def poincareSets : List OSet :=
  [⟨"pncrid", "1", .i16, 1, fun o => o.pncrid⟩,
   ⟨"pncrdi", "1", .i16, 1, fun o => o.pncrdi⟩]

/-- `hdf5_orbit_writeset`, src/hdf5io/hdf5_orbit.c:217-258. -/
noncomputable def writeset (mask : Pt ℝ → Bool) (orbits : List (Pt ℝ)) (s : OSet) (g : Group) :
    Res Group :=
  let data := (orbits.filter mask).map fun o => s.confac * s.get o
  match s.type with
  | .f64 => .ok (put g s.name s.unit (.real data))
  | .i32 =>
    match mapRes toInt32 data with
    | .ok ks => .ok (put g s.name s.unit (.int ks))
    | .fail => .fail
    | .ub => .ub
  | .i16 =>
    match mapRes toInt64 data with
    | .ok ks => .ok (put g s.name s.unit (.int ks))
    | .fail => .fail
    | .ub => .ub

/-- A sequence of calls. -/
noncomputable def writesets (mask : Pt ℝ → Bool) (orbits : List (Pt ℝ)) : List OSet → Group → Res Group
  | [], g => .ok g
  | s :: l, g =>
    match writeset mask orbits s g with
    | .ok g => writesets mask orbits l g
    | .fail => .fail
    | .ub => .ub

/-- `hdf5_orbit_write`, src/hdf5io/hdf5_orbit.c:32-201; `orbits` holds the `Nmrk*Npnt` elements of
the arrays.  Record modes: 1 full orbit, 2 guiding center, 3 hybrid, 4 field line
(src/simulate.h). -/
noncomputable def writeOrbit (recordMode : ℕ) (poincare : Bool) (orbits : List (Pt ℝ)) : Res Group :=
  let mask : Pt ℝ → Bool := fun o => decide (o.id > 0.1)
  writesets mask orbits
    ((if recordMode = 1 then foSets else []) ++ (if recordMode = 2 then gcSets else []) ++
      (if recordMode = 4 then mlSets else []) ++ (if recordMode = 3 then hybridSets else []) ++
      (if poincare then poincareSets else [])) newGroup

/-! ## Transport coefficients -/

/-- An element of the arrays of `diag_transcoef_data`. -/
structure Coef where
  id : ℤ
  K : ℝ
  D : ℝ

/-- `hdf5_transcoef_write`, src/hdf5io/hdf5_transcoef.c:27-88. -/
def writeTranscoef (recordrho : Bool) (cs : List Coef) : Group :=
  let cs := cs.filter fun c => decide (c.id > 0)
  let g := create newGroup "ids" (.int (cs.map Coef.id))
  let g := create g "k" (.real (cs.map Coef.K))
  let g := create g "d" (.real (cs.map Coef.D))
  let g := setUnit g "ids" "1"
  if recordrho then setUnit (setUnit g "k" "1/s") "d" "1/s"
  else setUnit (setUnit g "k" "m/s") "d" "m^2/s"

end Ascot.Output
