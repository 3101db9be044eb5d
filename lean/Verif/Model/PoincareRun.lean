import Mathlib.Analysis.SpecialFunctions.Trigonometric.Basic
import Verif.Model.Orbit
import Verif.Model.EndCond

/-!
# Poincare runs

The options of a Poincare run, a5py/templates/poincare.py:107-178, and the loop of a field line with its end conditions and the orbit
diagnostics, src/simulate/simulate_ml_adaptive.c:98-240.
-/
namespace Ascot.PoincareRun
open Ascot.Orbit Ascot.EndCond

/-- Arguments of `options_poincare`: the planes in radians (degrees in the file; the conversion is in `Options`), the numbers of
toroidal and poloidal orbits, and whether both numbers must be reached. -/
structure Template where
  tor : List ℝ
  pol : List ℝ
  ntorb : ℕ
  nporb : ℕ
  both : Bool

/-- `ORBITWRITE_NPOINT`, a5py/templates/poincare.py:160. -/
def npoint (t : Template) : ℕ := t.nporb * t.pol.length + t.ntorb * t.tor.length

/-- The planes; the template sets no radial surfaces. -/
def planes (t : Template) : Planes ℝ := ⟨t.tor, t.pol, []⟩

/-- The limits of the orbits as the simulation sees them, a5py/templates/poincare.py:161-169 with a5py/ascotpy/libsimulate.py:96-119.
`d` are all other options.  (With options read from the file, `both` is lost: C118.) -/
noncomputable def limits (d : Opts ℝ) (t : Template) : Opts ℝ :=
  { d with
    active := d.active ||| (tormax ||| polmax)
    torAndPol := t.both
    maxTororb := 2 * Real.pi * t.ntorb
    maxPolorb := 2 * Real.pi * t.nporb }

/-- What the diagnostics see of a field line with the identifier `id` in the slot `index`; `B` is the magnetic field there. -/
def toMrk (id index : ℕ) (B : Lane ℝ → ℝ × ℝ × ℝ) (l : Lane ℝ) : Mrk ℝ where
  id := id
  index := index
  endcond := l.endcond
  mileage := l.mileage
  r := l.r
  phi := l.phi
  z := l.z
  p_r := 0
  p_phi := 0
  p_z := 0
  ppar := 0
  mu := 0
  zeta := 0
  weight := 0
  charge := 0
  rho := l.rho
  theta := l.theta
  B_r := (B l).1
  B_phi := (B l).2.1
  B_z := (B l).2.2

/-- The steps (end, beginning) of a field line that begins at `i`, where `path` are the positions that the integrator yields: after
each accepted step the end conditions are checked, and the loop is left when the line is stopped,
src/simulate/simulate_ml_adaptive.c:98-240.  Rejected steps do not change anything here. -/
noncomputable def follow (o : Opts ℝ) (e : Env ℝ) : Lane ℝ → List (Lane ℝ) → List (Lane ℝ × Lane ℝ)
  | _, [] => []
  | i, f :: r => (f, i) :: if (checkMl o e i f).running then follow o e f r else []

/-- The diagnostics after the run: in each step the crossings are recorded after the end conditions were checked,
src/simulate/simulate_ml_adaptive.c:201-204. -/
noncomputable def run (d : Opts ℝ) (e : Env ℝ) (t : Template) (id index : ℕ) (B : Lane ℝ → ℝ × ℝ × ℝ) (p0 : Lane ℝ)
    (path : List (Lane ℝ)) : Orb ℝ :=
  (follow (limits d t) e p0 path).foldl
    (fun orb s => poincare Real.pi .ml (planes t) (toMrk id index B s.1) (toMrk id index B s.2) orb) (init (npoint t))

end Ascot.PoincareRun
