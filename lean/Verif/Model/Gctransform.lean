import Mathlib.Algebra.Order.Archimedean.Real.Basic
import Verif.Model.Coord
import Verif.Model.Linint

/-!
# Guiding-center transformation (`src/gctransform.c`)

`none` stands for a division by zero whose result reaches an output (NaN or infinity in C).  `CONST_2PI` is `2 π`.
-/
namespace Ascot.Gctransform
open Ascot.Coord

/-- Quantities derived from the magnetic field and its Cartesian gradient: the parts of the two transformations that are
the same, src/gctransform.c:95-154 and 334-390.  The nine numbers `n0 .. n8` are `nablabhat`. -/
structure Geom where
  bnorm : ℝ
  bhat : V3 ℝ
  gradB : V3 ℝ
  tau : ℝ
  n0 : ℝ
  n1 : ℝ
  n2 : ℝ
  n3 : ℝ
  n4 : ℝ
  n5 : ℝ
  n6 : ℝ
  n7 : ℝ
  n8 : ℝ
  kappa : V3 ℝ

/-- See `Geom`.  The argument is the field in cylindrical coordinates. -/
noncomputable def geom (j : Jac) (r phi : ℝ) : Geom :=
  let bnorm := Real.sqrt (j.a.v * j.a.v + j.b.v * j.b.v + j.c.v * j.c.v)
  let x := jacRpz2xyz j r phi
  let bhat : V3 ℝ := ⟨x.a.v / bnorm, x.b.v / bnorm, x.c.v / bnorm⟩
  let gradB : V3 ℝ :=
    ⟨bhat.x * x.a.d1 + bhat.y * x.b.d1 + bhat.z * x.c.d1, bhat.x * x.a.d2 + bhat.y * x.b.d2 + bhat.z * x.c.d2,
      bhat.x * x.a.d3 + bhat.y * x.b.d3 + bhat.z * x.c.d3⟩
  let curlB : V3 ℝ := ⟨x.c.d2 - x.b.d3, x.a.d3 - x.c.d1, x.b.d1 - x.a.d2⟩
  { bnorm := bnorm
    bhat := bhat
    gradB := gradB
    tau := V3.dot bhat curlB / bnorm
    n0 := (x.a.d1 - gradB.x * bhat.x) / bnorm
    n1 := (x.a.d2 - gradB.x * bhat.y) / bnorm
    n2 := (x.a.d3 - gradB.x * bhat.z) / bnorm
    n3 := (x.b.d1 - gradB.y * bhat.x) / bnorm
    n4 := (x.b.d2 - gradB.y * bhat.y) / bnorm
    n5 := (x.b.d3 - gradB.y * bhat.z) / bnorm
    n6 := (x.c.d1 - gradB.z * bhat.x) / bnorm
    n7 := (x.c.d2 - gradB.z * bhat.y) / bnorm
    n8 := (x.c.d3 - gradB.z * bhat.z) / bnorm
    kappa :=
      ⟨(bhat.x * x.a.d1 + bhat.y * x.b.d1 + bhat.z * x.c.d1 - V3.dot bhat gradB * bhat.x) / bnorm,
       (bhat.x * x.a.d2 + bhat.y * x.b.d2 + bhat.z * x.c.d2 - V3.dot bhat gradB * bhat.y) / bnorm,
       (bhat.x * x.a.d3 + bhat.y * x.b.d3 + bhat.z * x.c.d3 - V3.dot bhat gradB * bhat.z) / bnorm⟩ }

/-- `a1ddotgradb`, src/gctransform.c:177-186 and 421-430. -/
noncomputable def a1 (g : Geom) (rho perp : V3 ℝ) : ℝ :=
  -(1 / 2) * (2 * (rho.x * perp.x * g.n0 + rho.y * perp.y * g.n4 + rho.z * perp.z * g.n8) +
    (rho.x * perp.y + rho.y * perp.x) * (g.n1 + g.n3) + (rho.x * perp.z + rho.z * perp.x) * (g.n2 + g.n6) +
    (rho.y * perp.z + rho.z * perp.y) * (g.n5 + g.n7))

/-- `a2ddotgradb`, src/gctransform.c:190-212 and 434-456. -/
noncomputable def a2 (g : Geom) (rho perp : V3 ℝ) : ℝ :=
  1 / 4 * (perp.x * perp.x * g.n0 + perp.y * perp.x * g.n3 + perp.z * perp.x * g.n6 + perp.x * perp.y * g.n1 +
    perp.y * perp.y * g.n4 + perp.z * perp.y * g.n7 + perp.x * perp.z * g.n2 + perp.y * perp.z * g.n5 + perp.z * perp.z * g.n8) -
  1 / 4 * (rho.x * rho.x * g.n0 + rho.x * rho.y * g.n3 + rho.x * rho.z * g.n6 + rho.y * rho.x * g.n1 +
    rho.y * rho.y * g.n4 + rho.y * rho.z * g.n7 + rho.z * rho.x * g.n2 + rho.z * rho.y * g.n5 + rho.z * rho.z * g.n8)

/-- The gyro gauge vector, src/gctransform.c:262-277 and 481-496. -/
noncomputable def gauge (g : Geom) : V3 ℝ :=
  let b := g.bhat
  let q := b.x * b.x + b.y * b.y
  let b1x := -b.x * b.z / q
  let b2x := -b.y / (q * q)
  let b1y := -b.y * b.z / q
  let b2y := -b.x / (q * q)
  ⟨b1x * (g.n1 + b2x * (g.n0 + g.n1)) + b1y * (g.n0 + b2y * (g.n0 + g.n1)),
   b1x * (g.n4 + b2x * (g.n3 + g.n4)) + b1y * (g.n3 + b2y * (g.n3 + g.n4)),
   b1x * (g.n7 + b2x * (g.n6 + g.n7)) + b1y * (g.n6 + b2y * (g.n6 + g.n7))⟩

/-- The basis vectors `e1` and `e2`, src/gctransform.c:215-219, 393-397 and 567-571. -/
noncomputable def basis (bhat : V3 ℝ) : V3 ℝ × V3 ℝ :=
  let e2 := V3.cross bhat ⟨0, 0, 1⟩
  let e1 := V3.unit Real.sqrt e2
  (e1, V3.cross bhat e1)

/-- The first-order terms `ppar1`, `mu1` and `zeta1`, src/gctransform.c:244-287 and 458-502; `ppar` and `mu` are the
zeroth-order values in the first and the given values in the second transformation. -/
noncomputable def first (g : Geom) (mass charge ppar mu rho0 : ℝ) (rho perp : V3 ℝ) : ℝ × ℝ × ℝ :=
  if charge ≠ 0 then
    let ppar2 := ppar * ppar
    let t : V3 ℝ := ⟨mu * g.gradB.x + ppar2 * g.kappa.x / mass, mu * g.gradB.y + ppar2 * g.kappa.y / mass,
      mu * g.gradB.z + ppar2 * g.kappa.z / mass⟩
    let u : V3 ℝ := ⟨g.gradB.x + g.kappa.x * (ppar2 / mass) / (2 * mu), g.gradB.y + g.kappa.y * (ppar2 / mass) / (2 * mu),
      g.gradB.z + g.kappa.z * (ppar2 / mass) / (2 * mu)⟩
    (-ppar * rho0 * V3.dot rho g.kappa + mass * mu / charge * (g.tau + a1 g rho perp),
     rho0 / g.bnorm * V3.dot rho t - ppar * mu / (charge * g.bnorm) * (g.tau + a1 g rho perp),
     -rho0 * V3.dot rho (gauge g) + ppar / (charge * g.bnorm) * a2 g rho perp + rho0 / g.bnorm * V3.dot perp u)
  else (0, 0, 0)

/-- Length of the gyrovector, src/gctransform.c:222-225 and 400-403. -/
noncomputable def gyrolength (mass charge mu bnorm : ℝ) : ℝ :=
  if charge ≠ 0 then Real.sqrt (2 * mass * mu / bnorm) / |charge| else 0

/-- Phase-space position: three coordinates, parallel momentum, magnetic moment, gyroangle. -/
@[ext] structure Gc where
  pos : V3 ℝ
  ppar : ℝ
  mu : ℝ
  zeta : ℝ

/-- `gctransform_particle2guidingcenter`, src/gctransform.c:90-303.  `order` is `GCTRANSFORM_ORDER`. -/
noncomputable def particle2gc (order : Bool) (mass charge : ℝ) (j : Jac) (pos p : V3 ℝ) : Option Gc :=
  let g := geom j pos.x pos.y
  let x := rpz2xyz pos
  let pxyz := vecRpz2xyz p pos.y
  let ppar0 := pxyz.x * g.bhat.x + pxyz.y * g.bhat.y + pxyz.z * g.bhat.z
  let pperp : V3 ℝ := ⟨pxyz.x - ppar0 * g.bhat.x, pxyz.y - ppar0 * g.bhat.y, pxyz.z - ppar0 * g.bhat.z⟩
  let mu0 := V3.dot pperp pperp / (2 * mass * g.bnorm)
  let perp := V3.unit Real.sqrt pperp
  let perp : V3 ℝ := if charge < 0 then ⟨-perp.x, -perp.y, -perp.z⟩ else perp
  let rho := V3.cross g.bhat perp
  let e := basis g.bhat
  let rho0 := gyrolength mass charge mu0 g.bnorm
  let X : V3 ℝ := ⟨x.x - rho0 * rho.x, x.y - rho0 * rho.y, x.z - rho0 * rho.z⟩
  let zeta0 := atan2 (-V3.dot rho e.2) (V3.dot rho e.1)
  let f := first g mass charge ppar0 mu0 rho0 rho perp
  if g.bnorm = 0 ∨ V3.dot pperp pperp = 0 ∨ g.bhat.x * g.bhat.x + g.bhat.y * g.bhat.y = 0 ∨ (order ∧ pos.x = 0) then none
  else if order then
    some ⟨xyz2rpz X, ppar0 + f.1, |mu0 + f.2.1|, Linint.fmod (2 * Real.pi + (zeta0 + f.2.2)) (2 * Real.pi)⟩
  else some ⟨xyz2rpz X, ppar0, mu0, Linint.fmod (2 * Real.pi + zeta0) (2 * Real.pi)⟩

/-- `gctransform_guidingcenter2particle`, src/gctransform.c:329-535. -/
noncomputable def gc2particle (order : Bool) (mass charge : ℝ) (j : Jac) (gc : Gc) : Option Gc :=
  let g := geom j gc.pos.x gc.pos.y
  let X := rpz2xyz gc.pos
  let e := basis g.bhat
  let rho0 := gyrolength mass charge gc.mu g.bnorm
  let rhohat := fun zeta : ℝ => (⟨Real.cos zeta * e.1.x - Real.sin zeta * e.2.x, Real.cos zeta * e.1.y - Real.sin zeta * e.2.y,
    Real.cos zeta * e.1.z - Real.sin zeta * e.2.z⟩ : V3 ℝ)
  let rho := rhohat gc.zeta
  let perp : V3 ℝ := ⟨-Real.sin gc.zeta * e.1.x - Real.cos gc.zeta * e.2.x, -Real.sin gc.zeta * e.1.y - Real.cos gc.zeta * e.2.y,
    -Real.sin gc.zeta * e.1.z - Real.cos gc.zeta * e.2.z⟩
  let f := first g mass charge gc.ppar gc.mu rho0 rho perp
  if g.bnorm = 0 ∨ g.bhat.x * g.bhat.x + g.bhat.y * g.bhat.y = 0 ∨ (order ∧ (gc.pos.x = 0 ∨ (charge ≠ 0 ∧ gc.mu = 0))) then none
  else
    let mu := if order then |(|gc.mu - f.2.1|)| else gc.mu
    let ppar := if order then gc.ppar - f.1 else gc.ppar
    let zeta := if order then gc.zeta - f.2.2 else gc.zeta
    let rho := rhohat zeta
    some ⟨xyz2rpz ⟨X.x + rho0 * rho.x, X.y + rho0 * rho.y, X.z + rho0 * rho.z⟩, ppar, mu, zeta⟩

/-- `gctransform_pparmuzeta2prpphipz`, src/gctransform.c:554-600. -/
noncomputable def momentum (mass charge : ℝ) (B : V3 ℝ) (phi ppar mu zeta : ℝ) : Option (V3 ℝ) :=
  let b := vecRpz2xyz B phi
  let bhat := V3.unit Real.sqrt b
  let bnorm := V3.norm Real.sqrt b
  let e := basis bhat
  let c := Real.cos zeta
  let s := Real.sin zeta
  let perp : V3 ℝ := ⟨-s * e.1.x - c * e.2.x, -s * e.1.y - c * e.2.y, -s * e.1.z - c * e.2.z⟩
  let pperp := Real.sqrt (2 * mass * bnorm * mu)
  let pperp := if charge < 0 then -pperp else pperp
  let pxyz : V3 ℝ := ⟨ppar * bhat.x + pperp * perp.x, ppar * bhat.y + pperp * perp.y, ppar * bhat.z + pperp * perp.z⟩
  if bnorm = 0 ∨ bhat.x * bhat.x + bhat.y * bhat.y = 0 then none else some (vecXyz2rpz pxyz phi)

end Ascot.Gctransform
