import Verif.Model.MarkerFile

/-!
# What marker input files contain

Tables of markers with the units given in the documentation of the marker inputs
(`/repo/a5py/ascot5io/marker.py:332-342`, `464-486`, `633-655`), and the markers of a simulation,
in SI units and radians, that they describe.
-/
namespace Ascot.MarkerDoc
open Ascot.Particle (InP InGc InMl)
open Ascot.MarkerFile (Group)

/-- Radians in a degree, kilograms in an atomic mass unit, coulombs in an elementary charge (and
joules in an electronvolt), speed of light. -/
noncomputable def deg : ℝ := Real.pi / 180
@[inherit_doc deg] noncomputable def amu : ℝ := 1.660538921e-27
@[inherit_doc deg] noncomputable def e : ℝ := 1.602176565e-19
@[inherit_doc deg] noncomputable def c : ℝ := 299792458

/-- A table of `n` particles. -/
structure Prt (n : ℕ) where
  r : Fin n → ℝ
  phi : Fin n → ℝ
  z : Fin n → ℝ
  vr : Fin n → ℝ
  vphi : Fin n → ℝ
  vz : Fin n → ℝ
  mass : Fin n → ℝ
  charge : Fin n → ℤ
  anum : Fin n → ℤ
  znum : Fin n → ℤ
  weight : Fin n → ℝ
  time : Fin n → ℝ
  id : Fin n → ℤ

/-- A table of `n` guiding centers. -/
structure Gc (n : ℕ) where
  r : Fin n → ℝ
  phi : Fin n → ℝ
  z : Fin n → ℝ
  energy : Fin n → ℝ
  pitch : Fin n → ℝ
  zeta : Fin n → ℝ
  mass : Fin n → ℝ
  charge : Fin n → ℤ
  anum : Fin n → ℤ
  znum : Fin n → ℤ
  weight : Fin n → ℝ
  time : Fin n → ℝ
  id : Fin n → ℤ

/-- A table of `n` field lines. -/
structure Fl (n : ℕ) where
  r : Fin n → ℝ
  phi : Fin n → ℝ
  z : Fin n → ℝ
  pitch : Fin n → ℝ
  weight : Fin n → ℝ
  time : Fin n → ℝ
  id : Fin n → ℤ

/-- The group holds the table, one data set for each column. -/
def Prt.In {n : ℕ} (t : Prt n) (g : Group) : Prop :=
  g.ints "n" = some [(n : ℤ)] ∧
  (∀ x ∈ [("r", t.r), ("phi", t.phi), ("z", t.z), ("vr", t.vr), ("vphi", t.vphi), ("vz", t.vz),
    ("mass", t.mass), ("weight", t.weight), ("time", t.time)],
    g.reals x.1 = some (List.ofFn x.2)) ∧
  ∀ x ∈ [("charge", t.charge), ("anum", t.anum), ("znum", t.znum), ("id", t.id)],
    g.ints x.1 = some (List.ofFn x.2)

@[inherit_doc Prt.In]
def Gc.In {n : ℕ} (t : Gc n) (g : Group) : Prop :=
  g.ints "n" = some [(n : ℤ)] ∧
  (∀ x ∈ [("r", t.r), ("phi", t.phi), ("z", t.z), ("energy", t.energy), ("pitch", t.pitch),
    ("zeta", t.zeta), ("mass", t.mass), ("weight", t.weight), ("time", t.time)],
    g.reals x.1 = some (List.ofFn x.2)) ∧
  ∀ x ∈ [("charge", t.charge), ("anum", t.anum), ("znum", t.znum), ("id", t.id)],
    g.ints x.1 = some (List.ofFn x.2)

@[inherit_doc Prt.In]
def Fl.In {n : ℕ} (t : Fl n) (g : Group) : Prop :=
  g.ints "n" = some [(n : ℤ)] ∧
  (∀ x ∈ [("r", t.r), ("phi", t.phi), ("z", t.z), ("pitch", t.pitch), ("weight", t.weight),
    ("time", t.time)], g.reals x.1 = some (List.ofFn x.2)) ∧
  g.ints "id" = some (List.ofFn t.id)

/-- The velocity of a particle with mass `m` and momentum `p`: momentum over mass times Lorentz
factor. -/
noncomputable def velocity (m : ℝ) (p : V3 ℝ) : V3 ℝ :=
  let g := m * Real.sqrt (1 + (p.x ^ 2 + p.y ^ 2 + p.z ^ 2) / (m * c) ^ 2)
  ⟨p.x / g, p.y / g, p.z / g⟩

/-- Row `i` of the table describes the particle `q`. -/
def Prt.Row {n : ℕ} (t : Prt n) (i : Fin n) (q : InP) : Prop :=
  q.pos = ⟨t.r i, t.phi i * deg, t.z i⟩ ∧ q.mass = t.mass i * amu ∧
  velocity q.mass q.p = ⟨t.vr i, t.vphi i, t.vz i⟩ ∧ q.charge = t.charge i * e ∧
  q.anum = t.anum i ∧ q.znum = t.znum i ∧ q.weight = t.weight i ∧ q.time = t.time i ∧
  q.id = t.id i

/-- Row `i` of the table describes the guiding center `q`. -/
def Gc.Row {n : ℕ} (t : Gc n) (i : Fin n) (q : InGc) : Prop :=
  q.pos = ⟨t.r i, t.phi i * deg, t.z i⟩ ∧ q.mass = t.mass i * amu ∧
  q.energy = t.energy i * e ∧ q.pitch = t.pitch i ∧ q.zeta = t.zeta i ∧
  q.charge = t.charge i * e ∧
  q.anum = t.anum i ∧ q.znum = t.znum i ∧ q.weight = t.weight i ∧ q.time = t.time i ∧
  q.id = t.id i

/-- Row `i` of the table describes the field line `q`. -/
def Fl.Row {n : ℕ} (t : Fl n) (i : Fin n) (q : InMl) : Prop :=
  q.pos = ⟨t.r i, t.phi i * deg, t.z i⟩ ∧ q.pitch = t.pitch i ∧ q.weight = t.weight i ∧
  q.time = t.time i ∧ q.id = t.id i

/-- The speed in row `i` is below that of light. -/
def Prt.Slow {n : ℕ} (t : Prt n) (i : Fin n) : Prop :=
  t.vr i ^ 2 + t.vphi i ^ 2 + t.vz i ^ 2 < c ^ 2

end Ascot.MarkerDoc
