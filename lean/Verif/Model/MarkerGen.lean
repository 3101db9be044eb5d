import Mathlib.Analysis.SpecialFunctions.Trigonometric.Basic
import Mathlib.Analysis.SpecialFunctions.Sqrt
import Verif.Model.Physlib

/-!
# Markers from distributions (`a5py/routines/markergen.py`, `a5py/ascot5io/dist.py`)

Numbers are real numbers.  Distributions are arrays with the last index running fastest, as lists.
Random numbers are parameters.
-/
namespace Ascot.MarkerGen

/-- The widths of bins, a5py/ascot5io/dist.py:320-321. -/
noncomputable def widths (edges : List ℝ) : List ℝ := List.zipWith (· - ·) edges.tail edges

/-- `phasespacevolume`, a5py/ascot5io/dist.py:310-323: the outer product from the first axis on is that
from the last axis on. -/
noncomputable def volume : List (List ℝ) → List ℝ
  | [] => [1]
  | e :: es => (widths e).flatMap fun w => (volume es).map (w * ·)

/-- `DistData`: names and edges of the axes, and the values. -/
structure Dist where
  axes : List (String × List ℝ)
  values : List ℝ

/-- The edges of all axes. -/
def Dist.edges (d : Dist) : List (List ℝ) := d.axes.map (·.2)

/-- `histogram`, a5py/ascot5io/dist.py:137-146. -/
noncomputable def Dist.histogram (d : Dist) : List ℝ := List.zipWith (· * ·) d.values (volume d.edges)

/-- The limits of the random numbers for each cell, a5py/routines/markergen.py:90-91; `none`: all of them are
not numbers, since the distribution is zero. -/
noncomputable def thresholds (h : List ℝ) : Option (List ℝ) :=
  let s := h.scanl (· + ·) 0
  let total := h.foldl (· + ·) 0
  if total = 0 then none else some (s.map (· / total))

/-- `np.digitize(x, bins)` for limits in order. -/
noncomputable def digitize (x : ℝ) (bins : List ℝ) : ℕ := bins.countP fun b => decide (b ≤ x)

/-- The cell of a random number, a5py/routines/markergen.py:94-95.  Random numbers are not
negative. -/
noncomputable def draw (thr : List ℝ) (x : ℝ) : ℕ := digitize x thr - 1

/-- `icell[rejected] = ...`, a5py/routines/markergen.py:94-95: the new cells, and the next random
number. -/
noncomputable def redraw (thr : List ℝ) (rnd : ℕ → ℝ) : List (ℕ × Bool) → ℕ → List ℕ × ℕ
  | [], k => ([], k)
  | (c, false) :: l, k => let r := redraw thr rnd l k; (c :: r.1, r.2)
  | (_, true) :: l, k => let r := redraw thr rnd l (k + 1); (draw thr (rnd k) :: r.1, r.2)

/-- The weights, a5py/routines/markergen.py:100-102; `none`: `IndexError`. -/
noncomputable def weights (prt : List ℝ) (icell : List ℕ) : Option (List ℝ) :=
  icell.mapM fun c => prt[c]?.map (· / icell.count c)

/-- The loop, a5py/routines/markergen.py:92-106, with at most `fuel` rounds.  `none`: it has not ended, or an
exception. -/
noncomputable def loop (prt thr : List ℝ) (minweight : ℝ) (rnd : ℕ → ℝ) :
    ℕ → List (ℕ × Bool) → ℕ → Option (List (ℕ × ℝ))
  | 0, _, _ => none
  | fuel + 1, l, k =>
    let r := redraw thr rnd l k
    match weights prt r.1 with
    | none => none
    | some w =>
      let rejected := w.map fun x => decide (x < minweight)
      if rejected.any id then loop prt thr minweight rnd fuel (r.1.zip rejected) r.2
      else some (r.1.zip w)

/-- Cells and weights of all markers, a5py/routines/markergen.py:79-112, with the order given by `np.random.
shuffle`.  Without markers, `weight` does not exist (`none`). -/
noncomputable def sample (nmrk : ℕ) (prt mrk : List ℝ) (minweight : ℝ) (rnd : ℕ → ℝ) (fuel : ℕ) (shuffle : List ℕ) :
    Option (List (ℕ × ℝ)) :=
  if nmrk = 0 then none
  else match thresholds mrk with
    | none => none
    | some thr =>
      match loop prt thr minweight rnd fuel (List.replicate nmrk (0, true)) 0 with
      | none => none
      | some l => some (shuffle.filterMap (l[·]?))

/-- `np.unravel_index`. -/
def unravel : List ℕ → ℕ → List ℕ
  | [], _ => []
  | _ :: ns, c => c / ns.prod :: unravel ns (c % ns.prod)

/-- The number of bins of each axis. -/
def Dist.shape (d : Dist) : List ℕ := d.edges.map fun e => e.length - 1

/-- `randomize`, a5py/routines/markergen.py:125-129; `none`: `IndexError`. -/
noncomputable def randomize (edges : List ℝ) (i : ℕ) (u : ℝ) : Option ℝ :=
  match edges[i]?, edges[i + 1]? with
  | some a, some b => some (a + (b - a) * u)
  | _, _ => none

/-- The edges of an axis. -/
def Dist.axis (d : Dist) (name : String) : Option (List ℝ) := d.axes.lookup name

/-- A value on an axis; `none`: there is no such axis, or an `IndexError`. -/
noncomputable def Dist.value (d : Dist) (name : String) (i : ℕ) (u : ℝ) : Option ℝ :=
  (d.axis name).bind fun e => randomize e i u

/-- The position of a marker, a5py/routines/markergen.py:131-144: major radius, angle and height.  `toRz` is
`input_rhotheta2rz`. -/
noncomputable def position (d : Dist) (toRz : ℝ → ℝ → ℝ → ℝ × ℝ) (i1 i2 i3 : ℕ) (u : ℕ → ℝ) :
    Option (ℝ × ℝ × ℝ) :=
  if (d.axis "r").isSome && (d.axis "phi").isSome && (d.axis "z").isSome then
    match d.value "r" i1 (u 0), d.value "phi" i2 (u 1), d.value "z" i3 (u 2) with
    | some r, some phi, some z => some (r, phi, z)
    | _, _, _ => none
  else if (d.axis "rho").isSome && (d.axis "theta").isSome && (d.axis "phi").isSome then
    match d.value "phi" i1 (u 0), d.value "rho" i2 (u 1), d.value "theta" i3 (u 2) with
    | some phi, some rho, some theta => let p := toRz rho theta phi; some (p.1, phi, p.2)
    | _, _, _ => none
  else none

/-- Energy and pitch of a guiding centre, a5py/routines/markergen.py:147-154 and 177-181, with
`energy_momentum`, a5py/physlib/__init__.py:83-91, 126-130, 145-148.  Without momentum the pitch is not a number
(`none`). -/
noncomputable def gc (d : Dist) (c mass : ℝ) (j1 j2 : ℕ) (u : ℕ → ℝ) : Option (ℝ × ℝ) :=
  if (d.axis "ppar").isSome then
    match d.value "ppar" j1 (u 3), d.value "pperp" j2 (u 4) with
    | some ppa, some ppe =>
      let pnorm := Real.sqrt (ppa ^ 2 + ppe ^ 2)
      if pnorm = 0 then none
      else some ((Real.sqrt (1 + pnorm ^ 2 / (mass * c) ^ 2) - 1) * mass * c ^ 2, ppa / pnorm)
    | _, _ => none
  else
    match d.value "ekin" j1 (u 3), d.value "pitch" j2 (u 4) with
    | some e, some xi => some (e, xi)
    | _, _ => none

/-- Parallel and perpendicular momentum of a particle, a5py/routines/markergen.py:148-149 and 183-188, with
`gamma_energy` and `pnorm_gamma`, a5py/physlib/__init__.py:121-124, 160-163. -/
noncomputable def momentum (d : Dist) (c mass : ℝ) (j1 j2 : ℕ) (u : ℕ → ℝ) : Option (ℝ × ℝ) :=
  if (d.axis "ppar").isSome then
    match d.value "ppar" j1 (u 3), d.value "pperp" j2 (u 4) with
    | some ppa, some ppe => some (ppa, ppe)
    | _, _ => none
  else
    match d.value "ekin" j1 (u 3), d.value "pitch" j2 (u 4) with
    | some e, some xi =>
      let gamma := 1 + e / (mass * c ^ 2)
      let pnorm := Real.sqrt (gamma ^ 2 - 1) * mass * c
      some (xi * pnorm, Real.sqrt (1 - xi ^ 2) * pnorm)
    | _, _ => none

/-- The velocity of a particle, a5py/routines/markergen.py:156-174 and 189-207.  `none`: not a number, since
there is no field or it is vertical. -/
noncomputable def velocity (mass : ℝ) (b : V3 ℝ) (ppa ppe zeta : ℝ) : Option (V3 ℝ) :=
  let norm := Real.sqrt (b.x ^ 2 + b.y ^ 2 + b.z ^ 2)
  if norm = 0 then none
  else
    let h : V3 ℝ := ⟨b.x / norm, b.y / norm, b.z / norm⟩
    let e2 := V3.cross h ⟨0, 0, 1⟩
    let n2 := Real.sqrt (e2.x ^ 2 + e2.y ^ 2 + e2.z ^ 2)
    if n2 = 0 then none
    else
      let e1 : V3 ℝ := ⟨e2.x / n2, e2.y / n2, e2.z / n2⟩
      let e2 := V3.cross h e1
      let perp : V3 ℝ := ⟨-Real.sin zeta * e1.x - Real.cos zeta * e2.x,
        -Real.sin zeta * e1.y - Real.cos zeta * e2.y, -Real.sin zeta * e1.z - Real.cos zeta * e2.z⟩
      some ⟨(h.x * ppa + perp.x * ppe) / mass, (h.y * ppa + perp.y * ppe) / mass,
        (h.z * ppa + perp.z * ppe) / mass⟩

/-- `np.add.at(d, icell, w)` for an array of zeros, a5py/routines/markergen.py:215-221. -/
noncomputable def addAt (n : ℕ) (l : List (ℕ × ℝ)) : List ℝ :=
  (List.range n).map fun c => ((l.filter fun x => x.1 = c).map (·.2)).sum

/-- `mrkdist`, a5py/routines/markergen.py:213-216. -/
noncomputable def mrkDist (d : Dist) (l : List (ℕ × ℝ)) : Dist :=
  { d with values := addAt d.values.length (l.map fun x => (x.1, 1)) }

/-- `prtdist`, a5py/routines/markergen.py:218-221. -/
noncomputable def prtDist (d : Dist) (l : List (ℕ × ℝ)) : Dist :=
  { d with values := List.zipWith (· / ·) (addAt d.values.length l) (volume d.edges) }

end Ascot.MarkerGen
