import Verif.Model.BGS

/-!
# Magnetic field models and the common interface (`src/Bfield/*.c`, `src/B_field.c`)

The splines are parameters: `f` is the evaluation of the value and `df` that of the value and the derivatives; `none` means
that the evaluation returned an error (the point is outside the grid).  Spline evaluation itself is modelled in `Interp`.
The interface writes results into arrays; on success these hold the values of the field model, on error the fallback values.
Arguments are R, phi, z; no field depends on time.  The entries 12-14 of the array of `B_field_eval_B_dB`, documented as time
derivatives, are never written and are left out.
-/
namespace Ascot.Bfield
open Ascot.Coord

/-- Value and derivatives of a function of R and z, in the order of `interp2Dcomp_eval_df`. -/
structure D2 where
  v : ℝ
  r : ℝ
  z : ℝ
  rr : ℝ
  zz : ℝ
  rz : ℝ

/-- Two-dimensional spline in R and z. -/
structure Spline2 where
  f : ℝ → ℝ → Option ℝ
  df : ℝ → ℝ → Option D2

/-- Three-dimensional spline in R, phi and z; second derivatives are not used. -/
structure Spline3 where
  f : ℝ → ℝ → ℝ → Option ℝ
  df : ℝ → ℝ → ℝ → Option Grad

/-- The result of an evaluation that cannot be represented as a real number. -/
inductive Fault where
  | err (e : Nat)
  | nan

/-- `B_TC_data`, src/Bfield/B_TC.h:16-33. -/
structure TC where
  axisr : ℝ
  axisz : ℝ
  psival : ℝ
  rhoval : ℝ
  B : V3 ℝ
  dx : V3 ℝ
  dy : V3 ℝ
  dz : V3 ℝ

/-- The Cartesian field at a position, src/Bfield/B_TC.c:171-181 and 203-213.  `dx` holds the gradient of the x
component, `dB[0:3]`, and so on. -/
noncomputable def TC.cart (d : TC) (r phi z : ℝ) : V3 ℝ :=
  let p := rpz2xyz ⟨r, phi, z⟩
  ⟨d.B.x + d.dx.x * p.x + d.dx.y * p.y + d.dx.z * p.z,
   d.B.y + d.dy.x * p.x + d.dy.y * p.y + d.dy.z * p.z,
   d.B.z + d.dz.x * p.x + d.dz.y * p.y + d.dz.z * p.z⟩

/-- `B_TC_eval_B`, src/Bfield/B_TC.c:168-187. -/
noncomputable def TC.evalB (d : TC) (r phi z : ℝ) : V3 ℝ := vecXyz2rpz (d.cart r phi z) phi

/-- `B_TC_eval_B_dB`, src/Bfield/B_TC.c:200-229.  The components that are stored first (lines 217-221) are overwritten by
`math_jac_xyz2rpz`, which is called with the field at the origin. -/
noncomputable def TC.evalBdB (d : TC) (r phi _z : ℝ) : Jac :=
  jacXyz2rpz ⟨⟨d.B.x, d.dx.x, d.dx.y, d.dx.z⟩, ⟨d.B.y, d.dy.x, d.dy.y, d.dy.z⟩, ⟨d.B.z, d.dz.x, d.dz.y, d.dz.z⟩⟩ r phi

/-- `B_2DS_data`, src/Bfield/B_2DS.h. -/
structure B2 where
  psi0 : ℝ
  psi1 : ℝ
  axisR : ℝ
  axisZ : ℝ
  psi : Spline2
  Br : Spline2
  Bphi : Spline2
  Bz : Spline2

/-- `B_3DS_data`, src/Bfield/B_3DS.h. -/
structure B3 where
  psi0 : ℝ
  psi1 : ℝ
  axisR : ℝ
  axisZ : ℝ
  psi : Spline2
  Br : Spline3
  Bphi : Spline3
  Bz : Spline3

/-- `B_STS_data`, src/Bfield/B_STS.h. The axis is interpolated linearly. -/
structure STS where
  psi0 : ℝ
  psi1 : ℝ
  axisR : ℝ → Option ℝ
  axisZ : ℝ → Option ℝ
  psi : Spline3
  Br : Spline3
  Bphi : Spline3
  Bz : Spline3

/-- `B_2DS_eval_psi`, src/Bfield/B_2DS.c:158-168. -/
def B2.evalPsi (d : B2) (r z : ℝ) : Except Fault ℝ :=
  match d.psi.f r z with
  | none => .error (.err (Error.raise 1 165 12))
  | some v => .ok v

/-- `B_2DS_eval_psi_dpsi`, src/Bfield/B_2DS.c:181-199. -/
def B2.evalPsiDpsi (d : B2) (r z : ℝ) : Except Fault Grad :=
  match d.psi.df r z with
  | none => .error (.err (Error.raise 1 195 12))
  | some p => .ok ⟨p.v, p.r, 0, p.z⟩

/-- `B_2DS_eval_rho_drho`, src/Bfield/B_2DS.c:212-237. -/
noncomputable def B2.evalRhoDrho (d : B2) (r z : ℝ) : Except Fault Grad :=
  match d.psi.df r z with
  | none => .error (.err (Error.raise 1 221 12))
  | some p =>
    let delta := d.psi1 - d.psi0
    if delta = 0 then .error .nan
    else if (p.v - d.psi0) / delta < 0 then .error (.err (Error.raise 3 227 12))
    else
      let rho := Real.sqrt ((p.v - d.psi0) / delta)
      if rho = 0 then .error .nan else .ok ⟨rho, p.r / (2 * delta * rho), 0, p.z / (2 * delta * rho)⟩

/-- `B_2DS_eval_B`, src/Bfield/B_2DS.c:250-283. -/
noncomputable def B2.evalB (d : B2) (r z : ℝ) : Except Fault (V3 ℝ) :=
  match d.Br.f r z, d.Bphi.f r z, d.Bz.f r z with
  | some br, some bphi, some bz =>
    match d.psi.df r z with
    | none => .error (.err (Error.raise 1 271 12))
    | some p =>
      if r = 0 then .error .nan
      else
        let B : V3 ℝ := ⟨br - p.z / r, bphi, bz + p.r / r⟩
        if B.x * B.x + B.y * B.y + B.z * B.z = 0 then .error (.err (Error.raise 3 279 12)) else .ok B
  | _, _, _ => .error (.err (Error.raise 1 260 12))

/-- `B_2DS_eval_B_dB`, src/Bfield/B_2DS.c:296-355. -/
noncomputable def B2.evalBdB (d : B2) (r z : ℝ) : Except Fault Jac :=
  match d.Br.df r z, d.Bphi.df r z, d.Bz.df r z with
  | some br, some bphi, some bz =>
    match d.psi.df r z with
    | none => .error (.err (Error.raise 1 343 12))
    | some p =>
      if r = 0 then .error .nan
      else
        let j : Jac :=
          ⟨⟨br.v - p.z / r, br.r + p.z / (r * r) - p.rz / r, 0, br.z - p.zz / r⟩,
           ⟨bphi.v, bphi.r, 0, bphi.z⟩,
           ⟨bz.v + p.r / r, bz.r - p.r / (r * r) + p.rr / r, 0, bz.z + p.rz / r⟩⟩
        if j.a.v * j.a.v + j.b.v * j.b.v + j.c.v * j.c.v = 0 then .error (.err (Error.raise 3 351 12)) else .ok j
  | _, _, _ => .error (.err (Error.raise 1 325 12))

/-- `B_3DS_eval_psi`, src/Bfield/B_3DS.c:224-235. -/
def B3.evalPsi (d : B3) (r z : ℝ) : Except Fault ℝ :=
  match d.psi.f r z with
  | none => .error (.err (Error.raise 1 231 11))
  | some v => .ok v

/-- `B_3DS_eval_psi_dpsi`, src/Bfield/B_3DS.c:248-266. -/
def B3.evalPsiDpsi (d : B3) (r z : ℝ) : Except Fault Grad :=
  match d.psi.df r z with
  | none => .error (.err (Error.raise 1 262 11))
  | some p => .ok ⟨p.v, p.r, 0, p.z⟩

/-- `B_3DS_eval_rho_drho`, src/Bfield/B_3DS.c:279-304. -/
noncomputable def B3.evalRhoDrho (d : B3) (r z : ℝ) : Except Fault Grad :=
  match d.psi.df r z with
  | none => .error (.err (Error.raise 1 287 11))
  | some p =>
    let delta := d.psi1 - d.psi0
    if delta = 0 then .error .nan
    else if (p.v - d.psi0) / delta < 0 then .error (.err (Error.raise 3 293 11))
    else
      let rho := Real.sqrt |(p.v - d.psi0) / delta|
      if rho = 0 then .error .nan else .ok ⟨rho, p.r / (2 * delta * rho), 0, p.z / (2 * delta * rho)⟩

/-- `B_3DS_eval_B`, src/Bfield/B_3DS.c:317-351. -/
noncomputable def B3.evalB (d : B3) (r phi z : ℝ) : Except Fault (V3 ℝ) :=
  match d.Br.f r phi z, d.Bphi.f r phi z, d.Bz.f r phi z with
  | some br, some bphi, some bz =>
    match d.psi.df r z with
    | none => .error (.err (Error.raise 1 339 11))
    | some p =>
      if r = 0 then .error .nan
      else
        let B : V3 ℝ := ⟨br - p.z / r, bphi, bz + p.r / r⟩
        if B.x * B.x + B.y * B.y + B.z * B.z = 0 then .error (.err (Error.raise 3 347 11)) else .ok B
  | _, _, _ => .error (.err (Error.raise 1 327 11))

/-- `B_3DS_eval_B_dB`, src/Bfield/B_3DS.c:364-418. -/
noncomputable def B3.evalBdB (d : B3) (r phi z : ℝ) : Except Fault Jac :=
  match d.Br.df r phi z, d.Bphi.df r phi z, d.Bz.df r phi z with
  | some br, some bphi, some bz =>
    match d.psi.df r z with
    | none => .error (.err (Error.raise 1 406 11))
    | some p =>
      if r = 0 then .error .nan
      else
        let j : Jac :=
          ⟨⟨br.v - p.z / r, br.d1 + p.z / (r * r) - p.rz / r, br.d2, br.d3 - p.zz / r⟩,
           ⟨bphi.v, bphi.d1, bphi.d2, bphi.d3⟩,
           ⟨bz.v + p.r / r, bz.d1 - p.r / (r * r) + p.rr / r, bz.d2, bz.d3 + p.rz / r⟩⟩
        if j.a.v * j.a.v + j.b.v * j.b.v + j.c.v * j.c.v = 0 then .error (.err (Error.raise 3 414 11)) else .ok j
  | _, _, _ => .error (.err (Error.raise 1 390 11))

/-- `B_STS_eval_psi`, src/Bfield/B_STS.c:212-231; `B_STS_CLAMP_RHO_NONNEGATIVE` is not defined by default. -/
def STS.evalPsi (d : STS) (r phi z : ℝ) : Except Fault ℝ :=
  match d.psi.f r phi z with
  | none => .error (.err (Error.raise 1 227 13))
  | some v => .ok v

/-- `B_STS_eval_psi_dpsi`, src/Bfield/B_STS.c:244-273. -/
def STS.evalPsiDpsi (d : STS) (r phi z : ℝ) : Except Fault Grad :=
  match d.psi.df r phi z with
  | none => .error (.err (Error.raise 1 269 13))
  | some p => .ok p

/-- `B_STS_eval_rho_drho`, src/Bfield/B_STS.c:286-322. -/
noncomputable def STS.evalRhoDrho (d : STS) (r phi z : ℝ) : Except Fault Grad :=
  match d.psi.df r phi z with
  | none => .error (.err (Error.raise 3 293 13))
  | some p =>
    let delta := d.psi1 - d.psi0
    if delta = 0 then .error .nan
    else if (p.v - d.psi0) / delta ≤ 0 then .error (.err (Error.raise 3 310 13))
    else
      let rho := Real.sqrt ((p.v - d.psi0) / delta)
      .ok ⟨rho, p.d1 / (2 * delta * rho), p.d2 / (2 * delta * rho), p.d3 / (2 * delta * rho)⟩

/-- `B_STS_eval_B`, src/Bfield/B_STS.c:335-357. -/
noncomputable def STS.evalB (d : STS) (r phi z : ℝ) : Except Fault (V3 ℝ) :=
  match d.Br.f r phi z, d.Bphi.f r phi z, d.Bz.f r phi z with
  | some br, some bphi, some bz =>
    if br * br + bphi * bphi + bz * bz = 0 then .error (.err (Error.raise 3 352 13)) else .ok ⟨br, bphi, bz⟩
  | _, _, _ => .error (.err (Error.raise 1 345 13))

/-- `B_STS_eval_B_dB`, src/Bfield/B_STS.c:370-410. -/
noncomputable def STS.evalBdB (d : STS) (r phi z : ℝ) : Except Fault Jac :=
  match d.Br.df r phi z, d.Bphi.df r phi z, d.Bz.df r phi z with
  | some br, some bphi, some bz =>
    if br.v * br.v + bphi.v * bphi.v + bz.v * bz.v = 0 then .error (.err (Error.raise 3 406 13)) else .ok ⟨br, bphi, bz⟩
  | _, _, _ => .error (.err (Error.raise 1 399 13))

/-- `B_STS_get_axis_rz`, src/Bfield/B_STS.c:421-431. -/
def STS.axis (d : STS) (phi : ℝ) : Except Fault (ℝ × ℝ) :=
  match d.axisR phi, d.axisZ phi with
  | some r, some z => .ok (r, z)
  | _, _ => .error (.err (Error.raise 1 428 13))

/-- `B_field_data`, src/B_field.h; `unknown` is any other value of the type. -/
inductive Data where
  | gs (d : BGS.Data)
  | b2 (d : B2)
  | b3 (d : B3)
  | sts (d : STS)
  | tc (d : TC)
  | unknown

/-- `nan` for a missing value. -/
def ofOption {α : Type} : Option α → Except Fault α
  | none => .error .nan
  | some v => .ok v

/-- The selected evaluation of psi, src/B_field.c:106-131. -/
noncomputable def modelPsi (b : Data) (r phi z : ℝ) : Except Fault ℝ :=
  match b with
  | .gs d => ofOption (BGS.evalPsi d r z)
  | .b2 d => d.evalPsi r z
  | .b3 d => d.evalPsi r z
  | .sts d => d.evalPsi r phi z
  | .tc d => .ok d.psival
  | .unknown => .error (.err (Error.raise 2 129 21))

/-- The selected evaluation of psi and its gradient, src/B_field.c:170-195. -/
noncomputable def modelPsiDpsi (b : Data) (r phi z : ℝ) : Except Fault Grad :=
  match b with
  | .gs d => ofOption (BGS.evalPsiDpsi d r z)
  | .b2 d => d.evalPsiDpsi r z
  | .b3 d => d.evalPsiDpsi r z
  | .sts d => d.evalPsiDpsi r phi z
  | .tc d => .ok ⟨d.psival, 0, 0, 0⟩
  | .unknown => .error (.err (Error.raise 2 193 21))

/-- The selected evaluation of rho and its gradient, src/B_field.c:316-341. -/
noncomputable def modelRhoDrho (b : Data) (r phi z : ℝ) : Except Fault Grad :=
  match b with
  | .gs d =>
    match BGS.evalRhoDrho d r z with
    | none => .error .nan
    | some (.error e) => .error (.err e)
    | some (.ok g) => .ok g
  | .b2 d => d.evalRhoDrho r z
  | .b3 d => d.evalRhoDrho r z
  | .sts d => d.evalRhoDrho r phi z
  | .tc d => .ok ⟨d.rhoval, 0, 0, 0⟩
  | .unknown => .error (.err (Error.raise 2 339 21))

/-- The selected evaluation of the field, src/B_field.c:378-403. -/
noncomputable def modelB (b : Data) (r phi z : ℝ) : Except Fault (V3 ℝ) :=
  match b with
  | .gs d => ofOption (BGS.evalB d r phi z)
  | .b2 d => d.evalB r z
  | .b3 d => d.evalB r phi z
  | .sts d => d.evalB r phi z
  | .tc d => .ok (d.evalB r phi z)
  | .unknown => .error (.err (Error.raise 2 401 21))

/-- The selected evaluation of the field and its gradient, src/B_field.c:453-478. -/
noncomputable def modelBdB (b : Data) (r phi z : ℝ) : Except Fault Jac :=
  match b with
  | .gs d => ofOption (BGS.evalBdB d r phi z)
  | .b2 d => d.evalBdB r z
  | .b3 d => d.evalBdB r phi z
  | .sts d => d.evalBdB r phi z
  | .tc d => .ok (d.evalBdB r phi z)
  | .unknown => .error (.err (Error.raise 2 476 21))

/-- The selected axis, src/B_field.c:504-529. -/
def modelAxis (b : Data) (phi : ℝ) : Except Fault (ℝ × ℝ) :=
  match b with
  | .gs d => .ok (d.raxis, d.zaxis)
  | .b2 d => .ok (d.axisR, d.axisZ)
  | .b3 d => .ok (d.axisR, d.axisZ)
  | .sts d => d.axis phi
  | .tc d => .ok (d.axisr, d.axisz)
  | .unknown => .error (.err (Error.raise 2 527 21))

/-- What every function of the interface does with the result of the selected field model: fallback values in case of an
error.  `none`: the stored values are infinite or not a number, and no error is returned. -/
def withFallback {α : Type} (fallback : α) : Except Fault α → Option (α × Nat)
  | .ok v => some (v, 0)
  | .error (.err e) => some (fallback, e)
  | .error .nan => none

/-- `B_field_eval_psi`, src/B_field.c:102-140. -/
noncomputable def evalPsi (b : Data) (r phi z : ℝ) : Option (ℝ × Nat) := withFallback 1 (modelPsi b r phi z)

/-- `B_field_eval_psi_dpsi`, src/B_field.c:166-205. -/
noncomputable def evalPsiDpsi (b : Data) (r phi z : ℝ) : Option (Grad × Nat) := withFallback ⟨1, 0, 0, 0⟩ (modelPsiDpsi b r phi z)

/-- `B_field_eval_rho_drho`, src/B_field.c:312-351. -/
noncomputable def evalRhoDrho (b : Data) (r phi z : ℝ) : Option (Grad × Nat) := withFallback ⟨1, 0, 0, 0⟩ (modelRhoDrho b r phi z)

/-- `B_field_eval_B`, src/B_field.c:374-413. -/
noncomputable def evalB (b : Data) (r phi z : ℝ) : Option (V3 ℝ × Nat) := withFallback ⟨1, 0, 0⟩ (modelB b r phi z)

/-- `B_field_eval_B_dB`, src/B_field.c:449-488. -/
noncomputable def evalBdB (b : Data) (r phi z : ℝ) : Option (Jac × Nat) :=
  withFallback ⟨⟨1, 0, 0, 0⟩, ⟨0, 0, 0, 0⟩, ⟨0, 0, 0, 0⟩⟩ (modelBdB b r phi z)

/-- `B_field_get_axis_rz`, src/B_field.c:501-539. -/
def axis (b : Data) (phi : ℝ) : Option ((ℝ × ℝ) × Nat) := withFallback (1, 0) (modelAxis b phi)

/-- Flux at the axis, flux at the separatrix and error of `B_field_eval_rho`, src/B_field.c:231-263. -/
def limits : Data → ℝ × ℝ × Nat
  | .gs d => (d.psi0, d.psi1, 0)
  | .b2 d => (d.psi0, d.psi1, 0)
  | .b3 d => (d.psi0, d.psi1, 0)
  | .sts d => (d.psi0, d.psi1, 0)
  | .tc d => (d.psival - d.rhoval * d.rhoval, d.psival - d.rhoval * d.rhoval + 1, 0)
  | .unknown => (0, 1, Error.raise 2 261 21)

/-- `B_field_eval_rho`, src/B_field.c:228-281: rho, its derivative with respect to psi (`none` if infinite or not a number)
and the error.  If the fluxes at the axis and the separatrix coincide, the quotient is infinite or not a number and both
results are `none` unless it is minus infinity. -/
noncomputable def evalRho (b : Data) (psi : ℝ) : Option ℝ × Option ℝ × Nat :=
  let psi0 := (limits b).1
  let delta := (limits b).2.1 - psi0
  let err := (limits b).2.2
  if delta = 0 then
    if psi - psi0 < 0 then (some 1, some 0, Error.raise 3 267 21)
    else if err ≠ 0 then (some 1, some 0, err) else (none, none, 0)
  else if (psi - psi0) / delta < 0 then (some 1, some 0, Error.raise 3 267 21)
  else if err ≠ 0 then (some 1, some 0, err)
  else
    let rho := Real.sqrt ((psi - psi0) / delta)
    (some rho, if rho = 0 then none else some (1 / (2 * delta * rho)), 0)

end Ascot.Bfield
