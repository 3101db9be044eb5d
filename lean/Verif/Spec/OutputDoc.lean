import Verif.Model.Output

/-!
# Units, and what the output files are documented to hold
-/
namespace Ascot.OutputDoc
open Ascot.Output (Group Col)
open Ascot.Orbit (Pt)

/-- Exponents of kilogram, metre, second and coulomb. -/
structure Dim where
  kg : ℤ
  m : ℤ
  s : ℤ
  C : ℤ
  deriving DecidableEq

def Dim.one : Dim := ⟨0, 0, 0, 0⟩
def Dim.length : Dim := ⟨0, 1, 0, 0⟩
def Dim.time : Dim := ⟨0, 0, 1, 0⟩
def Dim.mass : Dim := ⟨1, 0, 0, 0⟩
def Dim.charge : Dim := ⟨0, 0, 0, 1⟩
def Dim.momentum : Dim := ⟨1, 1, -1, 0⟩
def Dim.energy : Dim := ⟨1, 2, -2, 0⟩
/-- Magnetic field: `N / (A m) = kg / (C s)`. -/
def Dim.field : Dim := ⟨1, 0, -1, -1⟩
/-- Magnetic moment: energy per magnetic field. -/
def Dim.moment : Dim := ⟨0, 2, -1, 1⟩
def Dim.rate : Dim := ⟨0, 0, -1, 0⟩
/-- Angular momentum. -/
def Dim.action : Dim := ⟨1, 2, -1, 0⟩
def Dim.speed : Dim := ⟨0, 1, -1, 0⟩
/-- Diffusion coefficient. -/
def Dim.diffusion : Dim := ⟨0, 2, -1, 0⟩

/-- The elementary charge in coulombs, the atomic mass unit in kilograms. -/
noncomputable def e : ℝ := 1.602176565e-19
@[inherit_doc e] noncomputable def amu : ℝ := 1.660538921e-27

/-- The meaning of the unit strings: dimension, and how many SI units make one of it. -/
noncomputable def unitOf (u : String) : Option (Dim × ℝ) :=
  [("1", (Dim.one, (1 : ℝ))), ("rad", (Dim.one, 1)), ("deg", (Dim.one, Real.pi / 180)), ("m", (Dim.length, 1)),
   ("s", (Dim.time, 1)), ("kg*m/s", (Dim.momentum, 1)), ("amu", (Dim.mass, amu)),
   ("e", (Dim.charge, e)), ("eV", (Dim.energy, e)), ("eV/T", (Dim.moment, e)),
   ("eV*s", (Dim.action, e)), ("T", (Dim.field, 1)), ("markers/s", (Dim.rate, 1)), ("1/s", (Dim.rate, 1)),
   ("m/s", (Dim.speed, 1)), ("m^2/s", (Dim.diffusion, 1)), ("T/eV", (⟨0, -2, 1, -1⟩, 1 / e))].lookup u

/-- The numbers of a data set. -/
def values : Col → List ℝ
  | .real xs => xs
  | .int xs => xs.map fun (k : ℤ) => (k : ℝ)

/-- The group has a data set with this name whose numbers, in the unit given with them, are the
quantities `xs` (in SI units) of the given dimension. -/
def Stored (g : Group) (name : String) (d : Dim) (xs : List ℝ) : Prop :=
  ∃ s u f, g name = some s ∧ s.unit = some u ∧ unitOf u = some (d, f) ∧
    (values s.col).map (· * f) = xs

/-- A documented quantity of things of type `α`: name, dimension, value in SI units. -/
structure Quantity (α : Type) where
  name : String
  dim : Dim
  val : α → ℝ

/-- The marker state, `/repo/a5py/ascot5io/state.py:129-158` and `485-531`: suffix `prt` for the
particle, none for the guiding center.  The error code is made of the message in bits 0-7, the line
in bits 8-17 and the module from bit 18 on (`/repo/src/error.c:14-17`). -/
def state : List (Quantity Particle.State) :=
  [⟨"rprt", .length, fun p => p.prt.x⟩, ⟨"phiprt", .one, fun p => p.prt.y⟩,
   ⟨"zprt", .length, fun p => p.prt.z⟩,
   ⟨"prprt", .momentum, fun p => p.p.x⟩, ⟨"pphiprt", .momentum, fun p => p.p.y⟩,
   ⟨"pzprt", .momentum, fun p => p.p.z⟩,
   ⟨"r", .length, fun p => p.gc.pos.x⟩, ⟨"phi", .one, fun p => p.gc.pos.y⟩,
   ⟨"z", .length, fun p => p.gc.pos.z⟩,
   ⟨"ppar", .momentum, fun p => p.gc.ppar⟩, ⟨"mu", .moment, fun p => p.gc.mu⟩,
   ⟨"zeta", .one, fun p => p.gc.zeta⟩,
   ⟨"mass", .mass, fun p => p.mass⟩, ⟨"charge", .charge, fun p => p.charge⟩,
   ⟨"anum", .one, fun p => p.anum⟩, ⟨"znum", .one, fun p => p.znum⟩,
   ⟨"weight", .rate, fun p => p.weight⟩,
   ⟨"time", .time, fun p => p.time⟩, ⟨"mileage", .time, fun p => p.mileage⟩,
   ⟨"cputime", .time, fun p => p.cputime⟩,
   ⟨"rho", .one, fun p => p.rho⟩, ⟨"theta", .one, fun p => p.theta⟩,
   ⟨"br", .field, fun p => p.B.a.v⟩, ⟨"bphi", .field, fun p => p.B.b.v⟩,
   ⟨"bz", .field, fun p => p.B.c.v⟩,
   ⟨"ids", .one, fun p => p.id⟩, ⟨"endcond", .one, fun p => p.endcond⟩,
   ⟨"walltile", .one, fun p => p.walltile⟩,
   ⟨"errormsg", .one, fun p => (p.err % 2 ^ 8 : ℕ)⟩,
   ⟨"errorline", .one, fun p => (p.err / 2 ^ 8 % 2 ^ 10 : ℕ)⟩,
   ⟨"errormod", .one, fun p => (p.err / 2 ^ 18 : ℕ)⟩]

/-- Orbit points in all simulations. -/
def orbitCommon : List (Quantity (Pt ℝ)) :=
  [⟨"ids", .one, fun o => o.id⟩, ⟨"mileage", .time, fun o => o.mileage⟩, ⟨"r", .length, fun o => o.r⟩,
   ⟨"phi", .one, fun o => o.phi⟩, ⟨"z", .length, fun o => o.z⟩, ⟨"rho", .one, fun o => o.rho⟩,
   ⟨"theta", .one, fun o => o.theta⟩, ⟨"br", .field, fun o => o.B_r⟩,
   ⟨"bphi", .field, fun o => o.B_phi⟩, ⟨"bz", .field, fun o => o.B_z⟩,
   ⟨"simmode", .one, fun o => o.simmode⟩]

/-- Orbit points of particles and guiding centers. -/
def orbitParticle : List (Quantity (Pt ℝ)) :=
  [⟨"weight", .one, fun o => o.weight⟩, ⟨"charge", .charge, fun o => o.charge⟩]

/-- Momentum of a particle. -/
def orbitFo : List (Quantity (Pt ℝ)) :=
  [⟨"pr", .momentum, fun o => o.p_r⟩, ⟨"pphi", .momentum, fun o => o.p_phi⟩,
   ⟨"pz", .momentum, fun o => o.p_z⟩]

/-- Velocity coordinates of a guiding center. -/
def orbitGc : List (Quantity (Pt ℝ)) :=
  [⟨"ppar", .momentum, fun o => o.ppar⟩, ⟨"mu", .moment, fun o => o.mu⟩,
   ⟨"zeta", .one, fun o => o.zeta⟩]

/-- The Poincaré plane and the direction of the crossing. -/
def orbitPoincare : List (Quantity (Pt ℝ)) :=
  [⟨"pncrid", .one, fun o => o.pncrid⟩, ⟨"pncrdi", .one, fun o => o.pncrdi⟩]

/-- The simulation modes. -/
inductive SimMode | fo | gc | hybrid | ml

/-- Their numbers, `/repo/src/simulate.h:33-46`. -/
def SimMode.code : SimMode → ℕ
  | .fo => 1
  | .gc => 2
  | .hybrid => 3
  | .ml => 4

/-- The quantities of orbit points in a simulation. -/
def orbit (m : SimMode) (poincare : Bool) : List (Quantity (Pt ℝ)) :=
  orbitCommon ++
  (match m with
    | .fo => orbitParticle ++ orbitFo
    | .gc => orbitParticle ++ orbitGc
    | .hybrid => orbitParticle ++ orbitFo ++ orbitGc
    | .ml => []) ++
  if poincare then orbitPoincare else []

end Ascot.OutputDoc
