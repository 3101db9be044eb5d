import Verif.Model.Boozer

/-!
# MHD modes (`src/mhd.c`, `src/mhd/mhd_stat.c`, `src/mhd/mhd_nonstat.c`)

The radial profiles are parameters: splines in rho, or in rho and time for modes that are not stationary; setting them up and
evaluating them is modelled in `Interp`.  Results that are not numbers are `none`.  Printing, offloading and releasing are left
out.
-/
namespace Ascot.Mhd
open Ascot.Coord Ascot.Bfield

/-- Value and derivatives of a profile with respect to rho and time; second derivatives are not used. -/
structure Prof where
  v : ℝ
  rho : ℝ
  t : ℝ

/-- The numbers that belong to one mode; `P` is the type of the profiles. -/
structure Mode (P : Type) where
  n : Int
  m : Int
  amplitude : ℝ
  omega : ℝ
  phase : ℝ
  alpha : P
  phi : P

/-- Profile of a stationary mode: value and derivative as functions of rho, `none` outside the grid. -/
abbrev Spline1 := ℝ → Option (ℝ × ℝ)

/-- Profile of another mode: function of rho and time. -/
abbrev SplineT := ℝ → ℝ → Option Prof

/-- Value, time derivative and gradient of one of the two functions. -/
@[ext] structure Part where
  v : ℝ
  t : ℝ
  r : ℝ
  phi : ℝ
  z : ℝ

/-- The array `mhd_dmhd` of ten numbers. -/
@[ext] structure Dmhd where
  alpha : Part
  phi : Part

def Part.zero : Part := ⟨0, 0, 0, 0, 0⟩
def Part.add (a b : Part) : Part := ⟨a.v + b.v, a.t + b.t, a.r + b.r, a.phi + b.phi, a.z + b.z⟩
def Dmhd.zero : Dmhd := ⟨.zero, .zero⟩
def Dmhd.add (a b : Dmhd) : Dmhd := ⟨a.alpha.add b.alpha, a.phi.add b.phi⟩

/-- `mhdarg`, src/mhd/mhd_stat.c:173-176, src/mhd/mhd_nonstat.c:179-182. -/
noncomputable def arg {P : Type} (k : Mode P) (p : Boozer.Ptz) (t : ℝ) : ℝ :=
  k.n * p.zeta.v - k.m * p.theta.v - k.omega * t + k.phase

/-- What one mode adds to one of the functions, src/mhd/mhd_stat.c:167-218 (`a` is `a_da` or `phi_dphi`, `drho` is `rho[1]`).
The time derivative is the one of src/mhd/mhd_nonstat.c:191-196; for a stationary mode, src/mhd/mhd_stat.c:185-188, the term
with the derivative of the profile is absent. -/
noncomputable def part {P : Type} (k : Mode P) (p : Boozer.Ptz) (r t drho : ℝ) (a : Prof) : Part :=
  let s := Real.sin (arg k p t)
  let c := Real.cos (arg k p t)
  let da := a.rho * drho
  ⟨a.v * k.amplitude * c,
   a.v * k.amplitude * k.omega * s + a.t * k.amplitude * c,
   k.amplitude * (da * p.psi.d1 * c + a.v * k.m * p.theta.d1 * s - a.v * k.n * p.zeta.d1 * s),
   (1 / r) * k.amplitude * (da * p.psi.d2 * c + a.v * k.m * p.theta.d2 * s - a.v * k.n * p.zeta.d2 * s),
   k.amplitude * (da * p.psi.d3 * c + a.v * k.m * p.theta.d3 * s - a.v * k.n * p.zeta.d3 * s)⟩

/-- The modes that are included: all of them if `includemode` is `MHD_INCLUDE_ALL`, which is -1, src/mhd.h:19,
src/mhd/mhd_stat.c:159. -/
def included (includemode : Int) (i : Nat) : Bool := ¬ (includemode ≠ -1 ∧ includemode ≠ i)

/-- The loop over the modes, src/mhd/mhd_stat.c:158-219: number of interpolation errors and sums.  After an interpolation error
the sums hold values that have not been set; they are not used. -/
noncomputable def loop {P : Type} (ev : P → Option Prof) (includemode : Int) (p : Boozer.Ptz) (r t drho : ℝ)
    (modes : List (Mode P)) : Nat × Dmhd :=
  modes.zipIdx.foldl (fun acc ki =>
    if included includemode ki.2 then
      match ev ki.1.alpha, ev ki.1.phi with
      | some a, some f => (acc.1, acc.2.add ⟨part ki.1 p r t drho a, part ki.1 p r t drho f⟩)
      | _, _ => (acc.1 + 1, acc.2)
    else acc) (0, .zero)

/-- `mhd_stat_eval` and `mhd_nonstat_eval`, src/mhd/mhd_stat.c:135-228, src/mhd/mhd_nonstat.c:139-236.  Outside of the region
of the Boozer coordinates the loop runs with values that have not been set and its results are not used. -/
noncomputable def evalWith {P : Type} (ev : P → ℝ → ℝ → Option Prof) (modes : List (Mode P)) (includemode : Int)
    (bz : Boozer.Data) (b : Bfield.Data) (r phi z t : ℝ) : Option (Except Nat Dmhd) :=
  match Boozer.eval bz b r phi z with
  | none => none
  | some (.error e) => some (.error e)
  | some (.ok none) => some (.ok .zero)
  | some (.ok (some p)) =>
    match evalRho b p.psi.v with
    | (rho, drho, e) =>
      if e ≠ 0 then some (.error e)
      else
        match rho, drho with
        | some rho, some drho =>
          if r = 0 then none
          else
            let res := loop (fun a => ev a rho t) includemode p r t drho modes
            if res.1 ≠ 0 then some (.ok .zero) else some (.ok res.2)
        | _, _ => none

/-- `mhd_data` with its type, src/mhd.h. -/
inductive Data
  | stat (modes : List (Mode Spline1))
  | nonstat (modes : List (Mode SplineT))
  | unknown

/-- A stationary profile as function of rho and time, src/mhd/mhd_stat.c:162-165. -/
def statProf (a : Spline1) (rho _t : ℝ) : Option Prof := (a rho).map fun x => ⟨x.1, x.2, 0⟩

/-- `mhd_eval`, src/mhd.c:91-115. -/
noncomputable def eval (d : Data) (includemode : Int) (bz : Boozer.Data) (b : Bfield.Data) (r phi z t : ℝ) :
    Option (Except Nat Dmhd) :=
  match d with
  | .stat modes => evalWith statProf modes includemode bz b r phi z t
  | .nonstat modes => evalWith (fun a => a) modes includemode bz b r phi z t
  | .unknown => some (.error (Error.raise 2 110 24))

/-- The array `pert_field` of seven numbers. -/
structure Pert where
  B : V3 ℝ
  E : V3 ℝ
  Phi : ℝ

/-- The perturbation from the mode functions and the magnetic field, src/mhd/mhd_stat.c:276-310. -/
noncomputable def combine (d : Dmhd) (j : Jac) (r : ℝ) (pertonly : Bool) : Pert :=
  let B : V3 ℝ := ⟨j.a.v, j.b.v, j.c.v⟩
  let curl : V3 ℝ := ⟨j.c.d2 / r - j.b.d3, j.a.d3 - j.c.d1, (B.y - j.a.d2) / r + j.b.d1⟩
  let x := V3.cross ⟨d.alpha.r, d.alpha.phi, d.alpha.z⟩ B
  let p : V3 ℝ := ⟨d.alpha.v * curl.x + x.x, d.alpha.v * curl.y + x.y, d.alpha.v * curl.z + x.z⟩
  { B := if pertonly then p else ⟨p.x + B.x, p.y + B.y, p.z + B.z⟩
    E := ⟨-d.phi.r - B.x * d.alpha.t, -d.phi.phi - B.y * d.alpha.t, -d.phi.z - B.z * d.alpha.t⟩
    Phi := d.phi.v }

/-- `mhd_stat_perturbations`, `mhd_nonstat_perturbations` and `mhd_perturbations`, src/mhd/mhd_stat.c:260-313,
src/mhd/mhd_nonstat.c:270-322, src/mhd.c:147-174. -/
noncomputable def perturbations (d : Data) (pertonly : Bool) (includemode : Int) (bz : Boozer.Data) (b : Bfield.Data)
    (r phi z t : ℝ) : Option (Except Nat Pert) :=
  match d with
  | .unknown => some (.error (Error.raise 2 169 24))
  | _ =>
    match eval d includemode bz b r phi z t with
    | none => none
    | some (.error e) => some (.error e)
    | some (.ok m) =>
      match evalBdB b r phi z with
      | none => none
      | some (j, e) => if e ≠ 0 then some (.error e) else if r = 0 then none else some (.ok (combine m j r pertonly))

/-- `mhd_get_n_modes`, src/mhd.c:183-194. -/
def nModes : Data → Nat
  | .stat modes => modes.length
  | .nonstat modes => modes.length
  | .unknown => 0

end Ascot.Mhd
