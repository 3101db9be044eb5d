import Mathlib.Data.Real.Basic
import Mathlib.Algebra.Order.Group.Unbundled.Abs

/-!
# Orbit resonances in the Python interface (`input_eval_orbitresonance`, a5py/ascotpy/__init__.py:1830-1975)

Numbers are real numbers without units, angles are in degrees.  The simulation between making the markers and reading their
crossings is a parameter: the list of crossings.  `none` stands for `nan`.  Divisions by zero,
which give infinities, give zero here; the theorems exclude them.
-/
namespace Ascot.Resonance

/-- Padding of the pitch grid, a5py/templates/poincare.py:434-439. -/
noncomputable def padFirst (l : List ℝ) : List ℝ :=
  match l with
  | [] => []
  | a :: t => if a = -1 then (a + 0.01 * (l.getLast?.getD 0 - a) / l.length) :: t else a :: t

noncomputable def padLast (l : List ℝ) : List ℝ :=
  if l.getLast? = some 1 then l.dropLast ++ [1 - 0.01 * (1 - l.headD 0) / l.length] else l

noncomputable def pad (l : List ℝ) : List ℝ := padLast (padFirst l)

/-- A marker: energy, pitch, and radius given by its number in the radial grid. -/
structure Mrk where
  ekin : ℝ
  pitch : ℝ
  rho : ℝ

/-- `np.meshgrid(egrid, xigrid, rgrid, indexing='ij')` and `ravel`, a5py/templates/poincare.py:444-453.  The radius of a marker
is that of its rho, which stands for it here. -/
def mesh (rho xi e : List ℝ) : List Mrk := e.flatMap fun a => xi.flatMap fun b => rho.map fun c => ⟨a, b, c⟩

/-- Checks and markers of `marker_resonance`, a5py/templates/poincare.py:423-455; the arrays are not empty. -/
noncomputable def markers (rho xi e : List ℝ) : Option (List Mrk) :=
  if rho.headD 0 < 0 ∨ 1 < rho.getLastD 0 ∨ xi.headD 0 < -1 ∨ 1 < xi.getLastD 0 ∨ e.headD 0 < 0 then none
  else some (mesh rho (pad xi) e)

/-- `n1` and `n2`, a5py/ascotpy/__init__.py:1911-1919; `none` if no grid is a scalar. -/
def dims (nrho nxi ne : ℕ) : Option (ℕ × ℕ) :=
  if nrho = 1 then some (nxi, ne)
  else if nxi = 1 then some (nrho, ne)
  else if ne = 1 then some (nrho, nxi)
  else none

/-- A crossing of a plane: ID of the marker, mileage, toroidal angle and pitch. -/
structure Cross where
  id : ℕ
  t : ℝ
  phi : ℝ
  pitch : ℝ

/-- `np.diff` -/
def diffs (l : List ℝ) : List ℝ := List.zipWith (fun a b => b - a) l l.tail

/-- `[::2]` -/
def evens {α : Type} : List α → List α
  | [] => []
  | [a] => [a]
  | a :: _ :: l => a :: evens l

/-- `np.mean`, `nan` for an empty array. -/
noncomputable def mean (l : List ℝ) : Option ℝ := if l = [] then none else some (l.sum / l.length)

/-- `1.0 / np.mean(...)` -/
noncomputable def freq (l : List ℝ) : Option ℝ := (mean l).map fun x => 1 / x

open Classical in
/-- Is the marker passing?  a5py/ascotpy/__init__.py:1933-1934. -/
noncomputable def passing (omp : List Cross) : Bool := decide ((∀ c ∈ omp, c.pitch < 0) ∨ ∀ c ∈ omp, 0 < c.pitch)

/-- Toroidal and poloidal frequency of a marker from its crossings of the planes, a5py/ascotpy/__init__.py:1936-1945. -/
noncomputable def freqs (phi0 omp : List Cross) : Option ℝ × Option ℝ :=
  if passing omp then (freq (diffs (phi0.map Cross.t)), freq (diffs (omp.map Cross.t)))
  else
    let dt := diffs (evens (omp.map Cross.t))
    let dphi := (diffs (evens (omp.map Cross.phi))).map fun x => |x|
    (freq (List.zipWith (fun a b => a * 360 / b) dt dphi), freq dt)

/-- `ids == i+1`, a5py/ascotpy/__init__.py:1928-1929. -/
def own (i : ℕ) (l : List Cross) : List Cross := l.filter fun c => c.id = i + 1

/-- The loop over markers that fills a matrix, a5py/ascotpy/__init__.py:1925-1945. -/
def fill {α : Type} (n1 nmrk : ℕ) (f : ℕ → Option α) : ℕ → ℕ → Option α :=
  (List.range nmrk).foldl (fun M i a b => if a = i % n1 ∧ b = i / n1 then f i else M a b) fun _ _ => none

/-- The two matrices; `none` is an exception. -/
noncomputable def matrices (nrho nxi ne : ℕ) (phi0 omp : List Cross) : Option (ℕ → ℕ → Option (Option ℝ × Option ℝ)) :=
  (dims nrho nxi ne).map fun d =>
    fill d.1 (nrho * nxi * ne) fun i => some (freqs (own i phi0) (own i omp))

/-- What is plotted, before the logarithm, a5py/ascotpy/__init__.py:1951: the parameter `omega` is overwritten. -/
noncomputable def detuning (_omega n p tor pol : ℝ) : ℝ := |tor * n - p * pol|

end Ascot.Resonance
