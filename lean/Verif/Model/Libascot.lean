import Verif.Model.Bfield

/-!
# The library interface (`src/libascot.c`)

Functions that evaluate inputs for external use.  The field evaluation is a parameter: `axis phi` is `B_field_get_axis_rz`,
`rhoAt r phi z` the first entry of `B_field_eval_rho_drho`, where `none` means that the call returned an error, and
`psi r phi z` is `B_field_eval_psi_dpsi` with what it writes and its error.  The time argument is passed on unused.
-/
namespace Ascot.Libascot
open Ascot.Coord

/-! ### `libascot_B_field_rhotheta2rz` -/

/-- The loop of `libascot_B_field_rhotheta2rz`, src/libascot.c:200-222, with `n` iterations left.  `none`: it ends without
writing. -/
noncomputable def bisect (rhoAt : ℝ → ℝ → Option ℝ) (axis : ℝ × ℝ) (rho theta tol : ℝ) : Nat → ℝ → ℝ → Option (ℝ × ℝ)
  | 0, _, _ => none
  | n + 1, a, b =>
    let c := 0.5 * (a + b)
    let rj := axis.1 + c * Real.cos theta
    let zj := axis.2 + c * Real.sin theta
    if rj < 0 then bisect rhoAt axis rho theta tol n a c
    else
      match rhoAt rj zj with
      | none => bisect rhoAt axis rho theta tol n a c
      | some v =>
        if |rho - v| < tol then some (rj, zj)
        else if rho < v then bisect rhoAt axis rho theta tol n a c
        else bisect rhoAt axis rho theta tol n c b

/-- One query of `libascot_B_field_rhotheta2rz`, src/libascot.c:179-223; `none`: the output is not altered.  Negative values of
`maxiter` behave as zero. -/
noncomputable def rhotheta2rz (axis : ℝ → Option (ℝ × ℝ)) (rhoAt : ℝ → ℝ → ℝ → Option ℝ) (maxiter : Nat) (tol rho theta phi : ℝ) :
    Option (ℝ × ℝ) :=
  match axis phi with
  | none => none
  | some a =>
    match rhoAt a.1 phi a.2 with
    | none => none
    | some v => if v > rho then some a else bisect (fun r z => rhoAt r phi z) a rho theta tol maxiter 0 5

/-! ### `libascot_B_field_gradient_descent` -/

/-- What one pass through the loop does: it stops without a result, finishes with psi, or goes on. -/
inductive Pass (P : Type) where
  | stop
  | found (psi : ℝ) (p : P)
  | next (p : P)

/-- The body of the loop, src/libascot.c:255-277; `psi r z` at the given phi, `step` with its sign. -/
noncomputable def pass (psi : ℝ → ℝ → Grad × Nat) (step tol : ℝ) (p : ℝ × ℝ) : Pass (ℝ × ℝ) :=
  let (g, e) := psi p.1 p.2
  if e ≠ 0 then .stop
  else
    let q := (p.1 - step * g.d1, p.2 - step * g.d3)
    if Real.sqrt ((q.1 - p.1) * (q.1 - p.1) + (q.2 - p.2) * (q.2 - p.2)) < tol then
      let h := (psi q.1 q.2).1
      .found (g.v + (tol * h.d1 + tol * h.d3)) q
    else .next q

/-- The loop, src/libascot.c:254-283, with `n` passes left: psi if it was written, and the position.  The code counts up to
`maxiter` and compares after the increment, so that it does not stop by itself when `maxiter` is zero or negative; these values
are left out here. -/
noncomputable def loop {P : Type} (pass : P → Pass P) : Nat → P → Option ℝ × P
  | 0, p => (none, p)
  | n + 1, p =>
    match pass p with
    | .stop => (none, p)
    | .found v q => (some v, q)
    | .next q => loop pass n q

/-- The loop with its counter, for every value of `maxiter`; `none`: it still runs after `fuel` passes.  Overflow of the counter
is not modelled. -/
noncomputable def loopCount {P : Type} (pass : P → Pass P) (maxiter : Int) : (fuel : Nat) → (iter : Int) → P → Option (Option ℝ × P)
  | 0, _, _ => none
  | fuel + 1, iter, p =>
    match pass p with
    | .stop => some (none, p)
    | .found v q => some (some v, q)
    | .next q => if iter + 1 = maxiter then some (none, q) else loopCount pass maxiter fuel (iter + 1) q

/-- `libascot_B_field_gradient_descent`, src/libascot.c:241-284, for positive `maxiter`.  The first evaluation, line 251, has no
effect. -/
noncomputable def gradientDescent (psi : ℝ → ℝ → ℝ → Grad × Nat) (rz : ℝ × ℝ) (phi step tol : ℝ) (maxiter : Nat) (ascent : Bool) :
    Option ℝ × (ℝ × ℝ) :=
  loop (pass (fun r z => psi r phi z) (if ascent then -1 * step else step) tol) maxiter rz

/-! ### `libascot_B_field_gradient_descent_3d` -/

/-- The test of the sector, src/libascot.c:335-336. -/
noncomputable def clamp (phimin phimax phi : ℝ) : ℝ :=
  let phi := if phi > phimax then phimax else phi
  if phi < phimin then phimin else phi

/-- The body of the loop, src/libascot.c:320-359; positions are (R, phi, z), in the code (R, z, phi).  At R = 0 the division is
by zero, here with result zero. -/
noncomputable def pass3 (psi : ℝ → ℝ → ℝ → Grad × Nat) (phimin phimax step tol : ℝ) (p : V3 ℝ) : Pass (V3 ℝ) :=
  let (g, e) := psi p.x p.y p.z
  if e ≠ 0 then .stop
  else
    let q : V3 ℝ := ⟨p.x - step * g.d1, clamp phimin phimax (p.y - step / p.x * g.d2), p.z - step * g.d3⟩
    if Real.sqrt ((q.x - p.x) * (q.x - p.x) + (q.z - p.z) * (q.z - p.z) + p.x * (q.y - p.y) * p.x * (q.y - p.y)) < tol then
      let h := (psi q.x q.y q.z).1
      .found (g.v + tol * (h.d1 + h.d2 / q.x + h.d3)) q
    else .next q

/-- `libascot_B_field_gradient_descent_3d`, src/libascot.c:304-366, for positive `maxiter`. -/
noncomputable def gradientDescent3d (psi : ℝ → ℝ → ℝ → Grad × Nat) (rzphi : V3 ℝ) (phimin phimax step tol : ℝ) (maxiter : Nat)
    (ascent : Bool) : Option ℝ × V3 ℝ :=
  loop (pass3 psi phimin phimax (if ascent then -1 * step else step) tol) maxiter rzphi

end Ascot.Libascot
