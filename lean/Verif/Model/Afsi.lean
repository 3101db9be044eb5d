import Mathlib.Analysis.SpecialFunctions.Trigonometric.Inverse
import Mathlib.Analysis.SpecialFunctions.Log.Basic
import Verif.Model.HistG
import Verif.Model.Physlib

/-!
# Fusion source integrator (`src/afsi.c`)

Random numbers are arguments.  The generator is shared by all threads without protection (src/afsi.c:26,121); this race is not modelled.
Reading and writing of files is not modelled.
-/
namespace Ascot.Afsi
open Ascot.Dist Ascot.Physlib

/-! ## Reactants from a histogram -/

/-- A histogram: the 16 axes and the bins; the row lengths are those of `HistG.strides` (src/diag/hist.h:61-66). -/
structure Hist where
  axes : List (Axis ℝ)
  bins : List ℝ

/-- Number of bins of axis `k`; all histograms have 16 axes. -/
def Hist.n (h : Hist) (k : Nat) : Nat := ((h.axes.map Axis.n)[k]?).getD 0

/-- Axis `k`. -/
noncomputable def Hist.axis (h : Hist) (k : Nat) : Axis ℝ := (h.axes[k]?).getD ⟨0, 0, 1⟩

/-- Row length of axis `k`. -/
def Hist.stride (h : Hist) (k : Nat) : Nat := ((HistG.strides (h.axes.map Axis.n))[k]?).getD 1

/-- Choice of the momentum axes, src/afsi.c:435-449; `true` is the basis of parallel and perpendicular momentum. -/
def momentumAxes (h : Hist) : Option (Nat × Nat × Bool) :=
  if h.n 5 ≠ 0 then some (5, 6, true) else if h.n 10 ≠ 0 then some (10, 11, false) else none

/-- The bins of the momentum space in one cell, in the order of the loops at src/afsi.c:455-461.  `none` if a bin is outside of the
array. -/
def cellBins (h : Hist) (p1 p2 i0 i1 i2 : Nat) : Option (List ℝ) :=
  ((List.range (h.n p1 * h.n p2)).mapM fun j =>
    h.bins[i0 * h.stride 0 + i1 * h.stride 1 + i2 * h.stride 2 + j / h.n p2 * h.stride p1 + j % h.n p2 * h.stride p2]?)

/-- `cumdist`, src/afsi.c:462-468. -/
def cumulate : ℝ → List ℝ → List ℝ
  | _, [] => []
  | a, b :: bs => (a + b) :: cumulate (a + b) bs

/-- `density`, src/afsi.c:454,469. -/
noncomputable def density (vol : ℝ) (bins : List ℝ) : ℝ := bins.foldl (fun d b => d + b / vol) 0

/-- The bin selected by the uniform random number `u`, src/afsi.c:477-480: the first one where the cumulative sum exceeds `u` times
the last. -/
noncomputable def pick (cum : List ℝ) (u : ℝ) : Option Nat := cum.findIdx? (fun x => decide (u * cum.getLastD 0 < x))

/-- Momentum for the bin `j`, src/afsi.c:481-496.  The square root of a negative number is not a number in C: `none`. -/
noncomputable def momentum (c mass : ℝ) (h : Hist) (ppar : Bool) (j : Nat) : Option (ℝ × ℝ) :=
  if ppar then
    some ((h.axis 5).min + ((j / h.n 5 : Nat) + 0.5) * ((h.axis 5).max - (h.axis 5).min) / h.n 5,
          (h.axis 6).min + ((j % h.n 6 : Nat) + 0.5) * ((h.axis 6).max - (h.axis 6).min) / h.n 6)
  else
    let ekin := (h.axis 10).min + ((j / h.n 10 : Nat) + 0.5) * ((h.axis 10).max - (h.axis 10).min) / h.n 10
    let pitch := (h.axis 11).min + ((j / h.n 11 : Nat) + 0.5) * ((h.axis 11).max - (h.axis 11).min) / h.n 11
    let gamma := gammaEkin c mass ekin
    let pnorm := Real.sqrt (gamma * gamma - 1) * mass * c
    if 1 - pitch * pitch < 0 ∨ gamma * gamma - 1 < 0 then none else some (pitch * pnorm, Real.sqrt (1 - pitch * pitch) * pnorm)

/-- `afsi_sample_beam_2d`, src/afsi.c:432-502: density and one momentum for each of the random numbers; no momenta if the density is
zero.  `none` is undefined behaviour: no momentum axes (the density is not set), bins outside of the array, or a random number that
selects no bin (the momentum is not set). -/
noncomputable def sampleBeam (c mass vol : ℝ) (h : Hist) (i0 i1 i2 : Nat) (us : List ℝ) : Option (ℝ × List (ℝ × ℝ)) :=
  (momentumAxes h).bind fun ax =>
  (cellBins h ax.1 ax.2.1 i0 i1 i2).bind fun bins =>
    if density vol bins = 0 then some (0, [])
    else (us.mapM fun u => (pick (cumulate 0 bins) u).bind (momentum c mass h ax.2.2)).map fun l => (density vol bins, l)

/-! ## Thermal reactants -/

/-- The energy of a thermal particle, src/afsi.c:533-536. -/
noncomputable def thermalEnergy (ti r1 r2 u : ℝ) : ℝ :=
  let r3 := Real.cos (0.5 * u * Real.pi)
  (-ti) * (Real.log r1 + Real.log r2 * r3 * r3)

/-- Parallel and perpendicular momentum, src/afsi.c:538-540. -/
noncomputable def thermalMomentum (mass e u : ℝ) : ℝ × ℝ :=
  let r4 := 1 - 2 * u
  (r4 * Real.sqrt (2 * e * mass), Real.sqrt ((1 - r4 * r4) * 2 * e * mass))

/-- `afsi_sample_thermal_2d`, src/afsi.c:518-542.  `dens` and `temp` are the results of `plasma_eval_dens` and `plasma_eval_temp`; the
random numbers of a sample are those for `r1`, `r2`, `r3`, `r4`.  The logarithm of zero is not finite in C. -/
noncomputable def sampleThermal (mass : ℝ) (dens temp : Except Nat ℝ) (us : List (ℝ × ℝ × ℝ × ℝ)) : ℝ × List (ℝ × ℝ) :=
  match dens, temp with
  | .ok ni, .ok ti => (ni, us.map fun u => thermalMomentum mass (thermalEnergy ti u.1 u.2.1 u.2.2.1) u.2.2.2)
  | _, _ => (0, [])

/-! ## Products -/

/-- Masses and released energy of a reaction. -/
structure Reaction where
  m1 : ℝ
  m2 : ℝ
  mprod1 : ℝ
  mprod2 : ℝ
  Q : ℝ

/-- Momenta of the reactants and the four uniform random numbers of one sample. -/
structure Sample where
  ppara1 : ℝ
  pperp1 : ℝ
  ppara2 : ℝ
  pperp2 : ℝ
  u1 : ℝ
  u2 : ℝ
  u3 : ℝ
  u4 : ℝ

/-- Velocity of a reactant, src/afsi.c:315-324. -/
noncomputable def velocity (m ppara pperp u : ℝ) : V3 ℝ :=
  ⟨Real.cos (2 * Real.pi * u) * pperp / m, Real.sin (2 * Real.pi * u) * pperp / m, ppara / m⟩

/-- `vcom2`, src/afsi.c:326-328. -/
def relative2 (v1 v2 : V3 ℝ) : ℝ :=
  (v1.x - v2.x) * (v1.x - v2.x) + (v1.y - v2.y) * (v1.y - v2.y) + (v1.z - v2.z) * (v1.z - v2.z)

/-- `v_cm`, src/afsi.c:331-334. -/
noncomputable def comVelocity (m1 m2 : ℝ) (v1 v2 : V3 ℝ) : V3 ℝ :=
  ⟨(m1 * v1.x + m2 * v2.x) / (m1 + m2), (m1 * v1.y + m2 * v2.y) / (m1 + m2), (m1 * v1.z + m2 * v2.z) / (m1 + m2)⟩

/-- `ekin`, src/afsi.c:337-343. -/
noncomputable def comEnergy (k : Reaction) (v1 v2 vcm : V3 ℝ) : ℝ :=
  k.Q + 0.5 * k.m1 * ((v1.x - vcm.x) * (v1.x - vcm.x) + (v1.y - vcm.y) * (v1.y - vcm.y) + (v1.z - vcm.z) * (v1.z - vcm.z))
    + 0.5 * k.m2 * ((v2.x - vcm.x) * (v2.x - vcm.x) + (v2.y - vcm.y) * (v2.y - vcm.y) + (v2.z - vcm.z) * (v2.z - vcm.z))

/-- Velocity of product 2 in the centre-of-mass frame, src/afsi.c:346-355. -/
noncomputable def emission (k : Reaction) (ekin u3 u4 : ℝ) : V3 ℝ :=
  let phi := 2 * Real.pi * u3
  let theta := Real.arccos (2 * (u4 - 0.5))
  let vnorm := Real.sqrt (2 * ekin / (k.mprod2 * (1 + k.mprod2 / k.mprod1)))
  ⟨vnorm * Real.sin theta * Real.cos phi, vnorm * Real.sin theta * Real.sin phi, vnorm * Real.cos theta⟩

/-- Velocities of the products, src/afsi.c:315-364. -/
noncomputable def products (k : Reaction) (s : Sample) : V3 ℝ × V3 ℝ :=
  let v1 := velocity k.m1 s.ppara1 s.pperp1 s.u1
  let v2 := velocity k.m2 s.ppara2 s.pperp2 s.u2
  let vcm := comVelocity k.m1 k.m2 v1 v2
  let w := emission k (comEnergy k v1 v2 vcm) s.u3 s.u4
  (⟨-(k.mprod2 / k.mprod1) * w.x + vcm.x, -(k.mprod2 / k.mprod1) * w.y + vcm.y, -(k.mprod2 / k.mprod1) * w.z + vcm.z⟩,
   ⟨w.x + vcm.x, w.y + vcm.y, w.z + vcm.z⟩)

/-- `vcom2` of a sample. -/
noncomputable def sampleRelative2 (k : Reaction) (s : Sample) : ℝ :=
  relative2 (velocity k.m1 s.ppara1 s.pperp1 s.u1) (velocity k.m2 s.ppara2 s.pperp2 s.u2)

/-- Coordinates of a product in momentum space, src/afsi.c:366-381; `true` is the basis of parallel and perpendicular momentum. -/
noncomputable def coordinates (c m : ℝ) (ppar : Bool) (v : V3 ℝ) : ℝ × ℝ :=
  if ppar then (v.z * m, Real.sqrt (v.x * v.x + v.y * v.y) * m)
  else (ekinGamma c m (gammaVnorm c (V3.norm Real.sqrt v)), v.z / V3.norm Real.sqrt v)

/-! ## Collection of the products -/

/-- Choice of the axes of the product histograms, src/afsi.c:91-118. -/
def productAxes (h : Hist) : Option ((Nat × Nat × Nat) × Nat × Nat × Bool) :=
  (if h.n 0 ≠ 0 then some (0, 1, 2) else if h.n 3 ≠ 0 then some (3, 4, 1) else none).bind fun sp =>
    if h.n 5 ≠ 0 then some (sp, 5, 6, true) else if h.n 10 ≠ 0 then some (sp, 10, 11, false) else none

/-- Weight of a sample, src/afsi.c:161-164. -/
noncomputable def weight (k : Reaction) (sigma : ℝ → ℝ) (d1 d2 vol : ℝ) (n : Nat) (v2 : ℝ) : ℝ :=
  let e := 0.5 * (k.m1 * k.m2) / (k.m1 + k.m2) * v2
  d1 * d2 * Real.sqrt v2 * sigma e / n * vol

/-- One product is added to its histogram, src/afsi.c:166-180 and 182-196.  `none` if a bin is negative: the conversion to `size_t` is
undefined. -/
noncomputable def collect (h : Hist) (sp : Nat × Nat × Nat) (p1 p2 : Nat) (cell : Nat × Nat × Nat) (x : ℝ × ℝ) (w : ℝ) (b : Nat → ℝ) :
    Option (Nat → ℝ) :=
  let ip1 := HistG.binIndex (h.axis p1) x.1
  let ip2 := HistG.binIndex (h.axis p2) x.2
  if ip1 < 0 ∨ ip2 < 0 then none
  else if ip1.toNat < h.n p1 ∧ ip2.toNat < h.n p2 then
    some (addAt b (cell.1 * h.stride sp.1 + cell.2.1 * h.stride sp.2.1 + cell.2.2 * h.stride sp.2.2
      + ip1.toNat * h.stride p1 + ip2.toNat * h.stride p2) w)
  else some b

/-- Loop over cells and samples, src/afsi.c:122-199, for one of the two product histograms: the samples of a cell are the coordinates
of the product and the weight.  Cells without data or with vanishing density have no samples (src/afsi.c:142-154). -/
noncomputable def collectAll (h : Hist) (sp : Nat × Nat × Nat) (p1 p2 : Nat) (mult : ℝ) :
    List ((Nat × Nat × Nat) × List ((ℝ × ℝ) × ℝ)) → (Nat → ℝ) → Option (Nat → ℝ)
  | [], b => some b
  | (cell, l) :: rest, b =>
    (l.foldlM (fun b s => collect h sp p1 p2 cell s.1 (s.2 * mult) b) b).bind (collectAll h sp p1 p2 mult rest)

end Ascot.Afsi
