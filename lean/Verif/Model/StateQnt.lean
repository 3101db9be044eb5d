import Mathlib.Analysis.SpecialFunctions.Trigonometric.Basic
import Mathlib.Analysis.SpecialFunctions.Sqrt
import Mathlib.Data.List.Sort
import Verif.Model.Vec3
import Verif.Model.Coord

/-!
# Quantities of marker states in the Python interface (`a5py/ascot5io/state.py`,
`a5py/physlib/__init__.py`)

Numbers are real numbers, and units are left out.  Arrays have one axis, or two axes of which the first has three
entries.  Where the code divides by zero and yields `nan`, the model has the value 0; theorems about such quantities
exclude these cases.  `c` is the speed of light.
-/
namespace Ascot.StateQnt

/-- An array of shape `(n,)`, or of shape `(3, n)`, by its columns. -/
inductive Arr where
  | row (l : List ℝ)
  | tab (l : List (V3 ℝ))

/-- The squares in `gamma_momentum`, a5py/physlib/__init__.py:86-89.  If the first axis has three entries, the sum along
it is taken; for an array with one axis this is one number, which is then used for all entries of the mass. -/
noncomputable def squares : Arr → List ℝ
  | .tab l => l.map fun v => V3.dot v v
  | .row l => if l.length = 3 then l.map fun _ => (l.map (· ^ 2)).sum else l.map (· ^ 2)

/-- `if b.shape[0] == 3: b = np.sqrt( np.sum(b**2, axis=0) )`, e.g. a5py/physlib/__init__.py:105-106. -/
noncomputable def strength : Arr → List ℝ
  | .tab l => l.map fun v => Real.sqrt (V3.dot v v)
  | .row l => if l.length = 3 then l.map fun _ => Real.sqrt ((l.map (· ^ 2)).sum) else l

/-- `gamma_momentum`, a5py/physlib/__init__.py:83-91. -/
noncomputable def gammaMomentum (c : ℝ) (m : List ℝ) (p : Arr) : List ℝ :=
  List.zipWith (fun m q => Real.sqrt (1 + q / (m * c) ^ 2)) m (squares p)

/-- `velocity_momentum`, a5py/physlib/__init__.py:59-68.  An array of three numbers becomes one of shape
`(3, 3)`. -/
noncomputable def velocityMomentum (c : ℝ) (m : List ℝ) (p : Arr) : Arr :=
  let a := List.zipWith (· * ·) m (gammaMomentum c m p)
  match p with
  | .tab l => .tab (List.zipWith (fun v a => ⟨v.x / a, v.y / a, v.z / a⟩) l a)
  | .row l => if l.length = 3 then .tab (List.zipWith (fun x a => ⟨x / a, x / a, x / a⟩) l a)
    else .row (List.zipWith (· / ·) l a)

/-- `momentum_muppar`, a5py/physlib/__init__.py:165-174. -/
noncomputable def momentumMuppar (m mu ppar : List ℝ) (b : Arr) : List ℝ :=
  List.zipWith (fun x p => Real.sqrt (x + p ^ 2))
    (List.zipWith (· * ·) (List.zipWith (fun m mu => 2 * m * mu) m mu) (strength b)) ppar

/-- `gamma_muppar`, a5py/physlib/__init__.py:102-108. -/
noncomputable def gammaMuppar (c : ℝ) (m mu ppar : List ℝ) (b : Arr) : List ℝ :=
  List.zipWith (fun x y => Real.sqrt (1 + x + y))
    (List.zipWith (fun x m => 2 * x / (m * c ^ 2)) (List.zipWith (· * ·) mu (strength b)) m)
    (List.zipWith (fun p m => (p / (m * c)) ^ 2) ppar m)

/-- `vpar_muppar`, a5py/physlib/__init__.py:77-81. -/
noncomputable def vparMuppar (c : ℝ) (m mu ppar : List ℝ) (b : Arr) : List ℝ :=
  List.zipWith (· / ·) ppar (List.zipWith (· * ·) (gammaMuppar c m mu ppar b) m)

/-- `energy_gamma`, a5py/physlib/__init__.py:150-153. -/
noncomputable def energyGamma (c : ℝ) (m gamma : List ℝ) : List ℝ :=
  List.zipWith (fun m g => (g - 1) * m * c ^ 2) m gamma

/-- `pitch_muppar`, a5py/physlib/__init__.py:215-220. -/
noncomputable def pitchMuppar (m mu ppar : List ℝ) (b : Arr) : List ℝ :=
  List.zipWith (· / ·) ppar (momentumMuppar m mu ppar b)

/-- `ppar_momentum`, a5py/physlib/__init__.py:196-200. -/
noncomputable def pparMomentum (p b : List (V3 ℝ)) : List ℝ :=
  List.zipWith (fun p b => V3.dot p b / Real.sqrt (V3.dot b b)) p b

/-- `vpar_momentum`, a5py/physlib/__init__.py:202-207. -/
noncomputable def vparMomentum (c : ℝ) (m : List ℝ) (p b : List (V3 ℝ)) : List ℝ :=
  List.zipWith (· / ·) (List.zipWith V3.dot p b)
    (List.zipWith (fun x b => x * Real.sqrt (V3.dot b b))
      (List.zipWith (· * ·) (gammaMomentum c m (.tab p)) m) b)

/-- `pitch_momentum`, a5py/physlib/__init__.py:209-213. -/
noncomputable def pitchMomentum (p b : List (V3 ℝ)) : List ℝ :=
  List.zipWith (fun p b => V3.dot p b / Real.sqrt (V3.dot p p * V3.dot b b)) p b

/-- `mu_momentum`, a5py/physlib/__init__.py:188-194. -/
noncomputable def muMomentum (m : List ℝ) (p b : List (V3 ℝ)) : List ℝ :=
  let bn := b.map fun b => Real.sqrt (V3.dot b b)
  let pn := p.map fun p => Real.sqrt (V3.dot p p)
  let pitch := List.zipWith (· / ·) (List.zipWith V3.dot p b) (List.zipWith (· * ·) pn bn)
  List.zipWith (· / ·) (List.zipWith (fun x p => (1 - x ^ 2) * p ^ 2) pitch pn)
    (List.zipWith (fun b m => 2 * b * m) bn m)

/-- What the file has on a marker.  Quantities that are returned as they are (numbers of protons, wall tile, ...) are
represented by the weight. -/
structure Marker where
  id : ℕ
  mass : ℝ
  charge : ℝ
  time : ℝ
  weight : ℝ
  rprt : ℝ
  phiprt : ℝ
  zprt : ℝ
  prprt : ℝ
  pphiprt : ℝ
  pzprt : ℝ
  r : ℝ
  phi : ℝ
  z : ℝ
  ppar : ℝ
  mu : ℝ
  zeta : ℝ
  theta : ℝ
  rho : ℝ
  br : ℝ
  bphi : ℝ
  bz : ℝ

/-- The input data at a position and time, by `input_eval`. -/
structure Input where
  b : ℝ → ℝ → ℝ → ℝ → V3 ℝ
  bnorm : ℝ → ℝ → ℝ → ℝ → ℝ
  psi : ℝ → ℝ → ℝ → ℝ → ℝ
  rho : ℝ → ℝ → ℝ → ℝ → ℝ
  axisr : ℝ → ℝ → ℝ → ℝ → ℝ
  axisz : ℝ → ℝ → ℝ → ℝ → ℝ

/-- The names of quantities, a5py/ascot5io/state.py:286-407.  Other names raise `ValueError`; `endcond` is in
`StatePy`. -/
inductive Qnt where
  | mass | charge | time | weight | r | z | phi | phimod | theta | thetamod | x | y | pr | pz | pphi
  | ppar | pperp | pnorm | vr | vz | vphi | vpar | vperp | vnorm | br | bz
  | bphi | bnorm | ekin | pitch | mu | zeta | psi | rho | ptor
deriving DecidableEq

/-- `evalprt`, a5py/ascot5io/state.py:242-243. -/
def evalprt {α : Type} (f : ℝ → ℝ → ℝ → ℝ → α) (ms : List Marker) : List α :=
  ms.map fun m => f m.rprt m.phiprt m.zprt m.time

/-- `evalgc`, a5py/ascot5io/state.py:244-245. -/
def evalgc {α : Type} (f : ℝ → ℝ → ℝ → ℝ → α) (ms : List Marker) : List α :=
  ms.map fun m => f m.r m.phi m.z m.time

/-- `pvecprt`, a5py/ascot5io/state.py:250-251. -/
def pvecprt (ms : List Marker) : List (V3 ℝ) := ms.map fun m => ⟨m.prprt, m.pphiprt, m.pzprt⟩

/-- `bvecgc`, a5py/ascot5io/state.py:248-249. -/
def bvecgc (ms : List Marker) : List (V3 ℝ) := ms.map fun m => ⟨m.br, m.bphi, m.bz⟩

/-- The momentum of a guiding centre with the unit vectors of `pvecgc`, a5py/ascot5io/state.py:258-266. -/
noncomputable def gyro (b : V3 ℝ) (bn ppar zeta pnorm : ℝ) : V3 ℝ :=
  let h : V3 ℝ := ⟨b.x / bn, b.y / bn, b.z / bn⟩
  let e2 := V3.cross h ⟨0, 0, 1⟩
  let n2 := Real.sqrt (V3.dot e2 e2)
  let e1 : V3 ℝ := ⟨e2.x / n2, e2.y / n2, e2.z / n2⟩
  let e2 := V3.cross h e1
  let q := Real.sqrt (pnorm ^ 2 - ppar ^ 2)
  ⟨h.x * ppar + (-Real.sin zeta * e1.x - Real.cos zeta * e2.x) * q,
    h.y * ppar + (-Real.sin zeta * e1.y - Real.cos zeta * e2.y) * q,
    h.z * ppar + (-Real.sin zeta * e1.z - Real.cos zeta * e2.z) * q⟩

/-- `pvecgc`, a5py/ascot5io/state.py:252-266.  The norm of the field is given to `momentum_muppar`, not the
field. -/
noncomputable def pvecgc (ms : List Marker) : List (V3 ℝ) :=
  let bn := (bvecgc ms).map fun b => Real.sqrt (V3.dot b b)
  let pn := momentumMuppar (ms.map (·.mass)) (ms.map (·.mu)) (ms.map (·.ppar)) (.row bn)
  List.zipWith (fun (m : Marker) (x : ℝ × ℝ) => gyro ⟨m.br, m.bphi, m.bz⟩ x.1 m.ppar m.zeta x.2) ms (bn.zip pn)

/-- `np.mod(x, 2 * np.pi)`. -/
noncomputable def mod2pi (x : ℝ) : ℝ := x - 2 * Real.pi * ⌊x / (2 * Real.pi)⌋

/-- One component of an array with two axes. -/
def component (f : V3 ℝ → ℝ) : Arr → Option Arr
  | .tab l => some (.row (l.map f))
  | .row _ => none

/-- `physlib.cart2pol(...)[1]` relative to the axis, a5py/ascot5io/state.py:302-303. -/
noncomputable def poloidal (E : Input) (ms : List Marker) : List ℝ :=
  List.zipWith (fun y x => Coord.atan2 y x)
    (List.zipWith (· - ·) (ms.map (·.zprt)) (evalprt E.axisz ms))
    (List.zipWith (· - ·) (ms.map (·.rprt)) (evalprt E.axisr ms))

/-- Quantities of particles, a5py/ascot5io/state.py:286-355. -/
noncomputable def prt (c : ℝ) (E : Input) (ms : List Marker) (q : Qnt) : Option Arr :=
  let mass := ms.map (·.mass)
  let p := pvecprt ms
  let b := evalprt E.b ms
  let pnorm := p.map fun p => Real.sqrt (V3.dot p p)
  match q with
  | .mass => some (.row mass)
  | .charge => some (.row (ms.map (·.charge)))
  | .time => some (.row (ms.map (·.time)))
  | .weight => some (.row (ms.map (·.weight)))
  | .r => some (.row (ms.map (·.rprt)))
  | .z => some (.row (ms.map (·.zprt)))
  | .phi => some (.row (ms.map (·.phiprt)))
  | .phimod => some (.row (ms.map fun m => mod2pi m.phiprt))
  | .theta => some (.row (List.zipWith (fun (m : Marker) t =>
      mod2pi (2 * Real.pi * ⌊m.phi / (2 * Real.pi)⌋ + t + Real.pi)) ms (poloidal E ms)))
  | .thetamod => some (.row ((poloidal E ms).map fun t => mod2pi (t + Real.pi)))
  | .x => some (.row (ms.map fun m => m.rprt * Real.cos m.phiprt))
  | .y => some (.row (ms.map fun m => m.rprt * Real.sin m.phiprt))
  | .pr => some (.row (ms.map (·.prprt)))
  | .pz => some (.row (ms.map (·.pzprt)))
  | .pphi => some (.row (ms.map (·.pphiprt)))
  | .ppar => some (.row (pparMomentum p b))
  | .pperp => some (.row (List.zipWith (fun x y => Real.sqrt (x - y)) (p.map fun p => V3.dot p p)
      ((pparMomentum p b).map (· ^ 2))))
  | .pnorm => some (.row pnorm)
  | .vr => component V3.x (velocityMomentum c mass (.tab p))
  | .vz => component V3.z (velocityMomentum c mass (.tab p))
  | .vphi => component V3.y (velocityMomentum c mass (.tab p))
  | .vpar => some (.row (vparMomentum c mass p b))
  | .vperp =>
    match velocityMomentum c mass (.row pnorm) with
    | .row v => some (.row (List.zipWith (fun x y => Real.sqrt (x ^ 2 - y ^ 2)) v (vparMomentum c mass p b)))
    | .tab v => some (.tab (List.zipWith (fun x y => ⟨Real.sqrt (x.x ^ 2 - y ^ 2), Real.sqrt (x.y ^ 2 - y ^ 2),
        Real.sqrt (x.z ^ 2 - y ^ 2)⟩) v (vparMomentum c mass p b)))
  | .vnorm => some (velocityMomentum c mass (.row pnorm))
  | .br => some (.row (b.map V3.x))
  | .bz => some (.row (b.map V3.z))
  | .bphi => some (.row (b.map V3.y))
  | .bnorm => some (.row (evalprt E.bnorm ms))
  | .ekin => some (.row (energyGamma c mass (gammaMomentum c mass (.tab p))))
  | .pitch => some (.row (pitchMomentum p b))
  | .mu => some (.row (muMomentum mass p b))
  | .zeta => some (.row (ms.map (·.zeta)))
  | .psi => some (.row (evalprt E.psi ms))
  | .rho => some (.row (evalprt E.rho ms))
  | .ptor => some (.row (List.zipWith (· + ·) (List.zipWith (fun (p : V3 ℝ) r => p.y * r) p (ms.map (·.rprt)))
      (List.zipWith (· * ·) (ms.map (·.charge)) (evalprt E.psi ms))))

/-- Quantities of guiding centres, a5py/ascot5io/state.py:286-292 and 357-407. -/
noncomputable def gc (c : ℝ) (E : Input) (ms : List Marker) (q : Qnt) : Option Arr :=
  let mass := ms.map (·.mass)
  let mu := ms.map (·.mu)
  let ppar := ms.map (·.ppar)
  let b := bvecgc ms
  let pnorm := momentumMuppar mass mu ppar (.tab b)
  let pperp := List.zipWith (fun x y => Real.sqrt (x ^ 2 - y ^ 2)) pnorm ppar
  match q with
  | .mass => some (.row mass)
  | .charge => some (.row (ms.map (·.charge)))
  | .time => some (.row (ms.map (·.time)))
  | .weight => some (.row (ms.map (·.weight)))
  | .r => some (.row (ms.map (·.r)))
  | .z => some (.row (ms.map (·.z)))
  | .phi => some (.row (ms.map (·.phi)))
  | .phimod => some (.row (ms.map fun m => mod2pi m.phi))
  | .theta => some (.row (ms.map (·.theta)))
  | .thetamod => some (.row (ms.map fun m => mod2pi m.theta))
  | .x => some (.row (ms.map fun m => m.r * Real.cos m.phi))
  | .y => some (.row (ms.map fun m => m.r * Real.sin m.phi))
  | .pr => some (.row ((pvecgc ms).map V3.x))
  | .pz => some (.row ((pvecgc ms).map V3.z))
  | .pphi => some (.row ((pvecgc ms).map V3.y))
  | .ppar => some (.row ppar)
  | .pperp => some (.row pperp)
  | .pnorm => some (.row pnorm)
  | .vr => component V3.x (velocityMomentum c mass (.tab (pvecgc ms)))
  | .vz => component V3.z (velocityMomentum c mass (.tab (pvecgc ms)))
  | .vphi => component V3.y (velocityMomentum c mass (.tab (pvecgc ms)))
  | .vpar => some (.row (vparMuppar c mass mu ppar (.tab b)))
  | .vperp => some (.row (List.zipWith (· / ·) pperp
      (List.zipWith (· * ·) (gammaMomentum c mass (.row pnorm)) mass)))
  | .vnorm => some (.row (List.zipWith (· / ·) pnorm
      (List.zipWith (· * ·) (gammaMomentum c mass (.row pnorm)) mass)))
  | .br => some (.row (ms.map (·.br)))
  | .bz => some (.row (ms.map (·.bz)))
  | .bphi => some (.row (ms.map (·.bphi)))
  | .bnorm => some (.row (ms.map fun m => Real.sqrt (m.br ^ 2 + m.bphi ^ 2 + m.bz ^ 2)))
  | .ekin => some (.row (energyGamma c mass (gammaMuppar c mass mu ppar (.tab b))))
  | .pitch => some (.row (pitchMuppar mass mu ppar (.tab b)))
  | .mu => some (.row mu)
  | .zeta => some (.row (ms.map (·.zeta)))
  | .psi => some (.row (evalgc E.psi ms))
  | .rho => some (.row (ms.map (·.rho)))
  | .ptor => some (.row (List.zipWith (· + ·)
      (List.zipWith (fun x (m : Marker) => x * m.r * m.bphi / Real.sqrt (V3.dot (⟨m.br, m.bphi, m.bz⟩ : V3 ℝ)
        ⟨m.br, m.bphi, m.bz⟩)) ppar ms)
      (List.zipWith (· * ·) (ms.map (·.charge)) (evalgc E.psi ms))))

/-- The order of the markers, a5py/ascot5io/state.py:413-416.  The rows of an array of shape `(3, 3)` would be put into
order; they are equal. -/
noncomputable def order (ids : List ℕ) : Arr → Arr
  | .row l => .row (((ids.zip l).insertionSort fun a b => a.1 ≤ b.1).map (·.2))
  | .tab l => .tab l

/-- The item at a position, a5py/ascot5io/state.py:237-240: each name sets the item at the position where it is found
first, so that an item may be left out (`none`). -/
noncomputable def item (mode : Bool) (c : ℝ) (E : Input) (ms : List Marker) (qnt : List Qnt) (i : ℕ) : Option Arr :=
  match qnt[i]? with
  | none => none
  | some q =>
    if qnt.idxOf q = i then (if mode then prt c E ms q else gc c E ms q).map (order (ms.map (·.id))) else none

/-- `State._getactual`, a5py/ascot5io/state.py:213-424: an item that is not set raises `ValueError`
(`none`). -/
noncomputable def get (mode : Bool) (c : ℝ) (E : Input) (ms : List Marker) (qnt : List Qnt) :
    Option (List Arr) :=
  (List.range qnt.length).mapM (item mode c E ms qnt)

end Ascot.StateQnt
