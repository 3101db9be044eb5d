import Verif.Model.Buf
import Verif.Model.Error
import Verif.Model.Interp
import Mathlib.Analysis.SpecialFunctions.Log.Basic

/-!
# Plasma profiles (`src/plasma/plasma_1D.c`, `plasma_1Dt.c`, `plasma_1DS.c`, `src/plasma.c`)

The outer `none` is undefined behaviour: an element outside of an array, or one that has not been written, is read, or a division
by zero.  `some (.error e)` is the error return, in which case the output has not been written.  The arrays given to the
initialisation are functions; that the caller's arrays are long enough is assumed.  The tables of mass, charge, atomic number and
mass number are copied as they are and left out, as is the printed summary.
-/
namespace Ascot.Plasma
open Ascot.Buf

/-- Result of an evaluation. -/
abbrev Res (α : Type) := Option (Except Nat α)

section Field
variable {K : Type} [Field K] [LinearOrder K]

/-- `while(i < n-1 && x[i] <= v) i++`, src/plasma/plasma_1D.c:158-161 and repeated in every function. The first argument bounds
the number of iterations. -/
def scan (g : Buf K) (n : Nat) (v : K) : Nat → Nat → Option Nat
  | 0, i => some i
  | fuel + 1, i =>
    if i + 1 < n then (g.get i).bind fun y => if y ≤ v then scan g n v fuel (i + 1) else some i
    else some i

/-- Index of the grid point to the left and the relative position, src/plasma/plasma_1D.c:158-164. -/
def weight (g : Buf K) (n : Nat) (v : K) : Option (Int × K) :=
  (scan g n v n 0).bind fun k =>
  let i : Int := (k : Int) - 1
  (g.get i).bind fun a => (g.get (i + 1)).bind fun b => if b - a = 0 then none else some (i, (v - a) / (b - a))

/-- The checks that the coordinate is on the grid, src/plasma/plasma_1D.c:151-156; `l1`, `l2` are the lines of the errors. -/
def onGrid {α : Type} (g : Buf K) (n : Nat) (v : K) (l1 l2 : Nat) (k : Res α) : Res α :=
  (g.get 0).bind fun lo =>
  if v < lo then some (.error (Error.raise 1 l1 15)) else
  (g.get ((n : Int) - 1)).bind fun hi =>
  if hi ≤ v then some (.error (Error.raise 1 l2 15)) else k

/-- `p1 + t*(p2 - p1)` with `p1`, `p2` two neighbouring elements, src/plasma/plasma_1D.c:166-168. -/
def line (b : Buf K) (i : Int) (t : K) : Option K :=
  (b.get i).bind fun p1 => (b.get (i + 1)).bind fun p2 => some (p1 + t * (p2 - p1))

/-! ### Profiles on a grid, constant in time -/

/-- `plasma_1D_data`, src/plasma/plasma_1D.h:16-29. -/
structure P1D (K : Type) where
  nRho : Nat
  nSpecies : Nat
  rho : Buf K
  vtor : Buf K
  temp : Buf K
  dens : Buf K

/-- `plasma_1D_init`, src/plasma/plasma_1D.c:25-58. -/
def init1D (nrho nion : Nat) (rho Te Ti ne ni vtor : Nat → K) : Option (P1D K) :=
  (fill nrho ((List.range nrho).map fun i => (i, rho i))).bind fun brho =>
  (fill nrho ((List.range nrho).map fun i => (i, vtor i))).bind fun bvtor =>
  (fill (2 * nrho) ((List.range nrho).flatMap fun i => [(i, Te i), (nrho + i, Ti i)])).bind fun btemp =>
  (fill ((nion + 1) * nrho) ((List.range nrho).flatMap fun i =>
    (i, ne i) :: (List.range nion).map fun j => ((j + 1) * nrho + i, ni (j * nrho + i)))).bind fun bdens =>
  some ⟨nrho, nion + 1, brho, bvtor, btemp, bdens⟩

/-- `plasma_1D_eval_temp`, src/plasma/plasma_1D.c:147-172. -/
def temp1D (p : P1D K) (rho : K) (species : Nat) : Res K :=
  onGrid p.rho p.nRho rho 152 155 <|
    (weight p.rho p.nRho rho).bind fun w =>
    (line p.temp ((if species > 0 then 1 else 0) * p.nRho + w.1) w.2).map .ok

/-- `plasma_1D_eval_dens`, src/plasma/plasma_1D.c:187-212. -/
def dens1D (p : P1D K) (rho : K) (species : Nat) : Res K :=
  onGrid p.rho p.nRho rho 192 195 <|
    (weight p.rho p.nRho rho).bind fun w =>
    (line p.dens (species * p.nRho + w.1) w.2).map .ok

/-- Loop over species, src/plasma/plasma_1D.c:247-262.  `d`, `t` are the values computed in the iterations for density and, in the
first two, temperature; later ions get the temperature of the first ion. -/
def speciesLoop (n : Nat) (d t : Nat → Option K) : Option (List (K × K)) :=
  (List.range n).mapM fun i => (d i).bind fun x => (t (if i < 2 then i else 1)).bind fun y => some (x, y)

/-- `plasma_1D_eval_densandtemp`, src/plasma/plasma_1D.c:227-266: density and temperature of each species. -/
def densandtemp1D (p : P1D K) (rho : K) : Res (List (K × K)) :=
  onGrid p.rho p.nRho rho 231 234 <|
    (weight p.rho p.nRho rho).bind fun w =>
    (speciesLoop p.nSpecies (fun i => line p.dens (i * p.nRho + w.1) w.2) (fun i => line p.temp (i * p.nRho + w.1) w.2)).map .ok

/-- `plasma_1D_eval_flow`, src/plasma/plasma_1D.c:276-297.  In case of error the unwritten output is multiplied by `r`; the
interface overwrites it. -/
def flow1D (p : P1D K) (rho r : K) : Res K :=
  onGrid p.rho p.nRho rho 280 283 <|
    (scan p.rho p.nRho rho p.nRho 0).bind fun k => (p.vtor.get ((k : Int) - 1)).map fun v => .ok (v * r)

/-! ### Profiles on a grid, time dependent -/

/-- `plasma_1Dt_data`, src/plasma/plasma_1Dt.h. -/
structure P1Dt (K : Type) where
  nRho : Nat
  nTime : Nat
  nSpecies : Nat
  rho : Buf K
  time : Buf K
  vtor : Buf K
  temp : Buf K
  dens : Buf K

/-- `for i < nrho, for j < ntime`, src/plasma/plasma_1Dt.c:54-55. -/
def loop2 {α : Type} (nrho ntime : Nat) (body : Nat → Nat → List α) : List α :=
  (List.range nrho).flatMap fun i => (List.range ntime).flatMap fun j => body i j

/-- `plasma_1Dt_init`, src/plasma/plasma_1Dt.c:22-66. -/
def init1Dt (nrho ntime nion : Nat) (rho time Te Ti ne ni vtor : Nat → K) : Option (P1Dt K) :=
  (fill nrho ((List.range nrho).map fun i => (i, rho i))).bind fun brho =>
  (fill ntime ((List.range ntime).map fun i => (i, time i))).bind fun btime =>
  (fill (nrho * ntime) (loop2 nrho ntime fun i j => [(j * nrho + i, vtor (j * nrho + i))])).bind fun bvtor =>
  (fill (2 * nrho * ntime) (loop2 nrho ntime fun i j =>
    [(j * 2 * nrho + i, Te (j * nrho + i)), ((j * 2 + 1) * nrho + i, Ti (j * nrho + i))])).bind fun btemp =>
  (fill ((nion + 1) * nrho * ntime) (loop2 nrho ntime fun i j =>
    (j * nrho + i, ne (j * nrho + i)) :: (List.range nion).map fun k =>
      ((k + 1) * nrho * ntime + j * nrho + i, ni (k * nrho * ntime + j * nrho + i)))).bind fun bdens =>
  some ⟨nrho, ntime, nion + 1, brho, btime, bvtor, btemp, bdens⟩

/-- The time index and weight, src/plasma/plasma_1Dt.c:240-258 and 339-357.  Before the first time `time[-1]` is read. -/
def timeWeight (p : P1Dt K) (t : K) : Option (Int × K) :=
  (weight p.time p.nTime t).map fun w =>
  if w.1 < 0 then (0, 0)
  else if w.1 ≥ (p.nTime : Int) - 2 then ((p.nTime : Int) - 2, 1)
  else w

/-- `plasma_1Dt_eval_densandtemp`, src/plasma/plasma_1Dt.c:220-308. -/
def densandtemp1Dt (p : P1Dt K) (rho t : K) : Res (List (K × K)) :=
  onGrid p.rho p.nRho rho 225 228 <|
    (weight p.rho p.nRho rho).bind fun w =>
    (timeWeight p t).bind fun wt =>
    let bilin (b : Buf K) (ns : Int) (i : Nat) : Option K :=
      (line b (wt.1 * ns * p.nRho + i * p.nRho + w.1) w.2).bind fun p1 =>
      (line b ((wt.1 + 1) * ns * p.nRho + i * p.nRho + w.1) w.2).bind fun p2 =>
      some (p1 + wt.2 * (p2 - p1))
    (speciesLoop p.nSpecies (bilin p.dens p.nSpecies) (bilin p.temp 2)).map .ok

/-- `plasma_1Dt_eval_temp`, src/plasma/plasma_1Dt.c:165-177. -/
def temp1Dt (p : P1Dt K) (rho t : K) (species : Nat) : Res K :=
  (densandtemp1Dt p rho t).bind fun x => match x with
  | .error e => some (.error e)
  | .ok l => (l[species]?).map fun v => .ok v.2

/-- `plasma_1Dt_eval_dens`, src/plasma/plasma_1Dt.c:193-204. -/
def dens1Dt (p : P1Dt K) (rho t : K) (species : Nat) : Res K :=
  (densandtemp1Dt p rho t).bind fun x => match x with
  | .error e => some (.error e)
  | .ok l => (l[species]?).map fun v => .ok v.1

/-- `plasma_1Dt_eval_flow`, src/plasma/plasma_1Dt.c:320-373. -/
def flow1Dt (p : P1Dt K) (rho t r : K) : Res K :=
  onGrid p.rho p.nRho rho 324 327 <|
    (weight p.rho p.nRho rho).bind fun w =>
    (timeWeight p t).bind fun wt =>
    (p.vtor.get (wt.1 * p.nRho + w.1)).bind fun p11 =>
    (p.vtor.get ((wt.1 + 1) * p.nRho + w.1)).bind fun p12 =>
    (p.vtor.get (wt.1 * p.nRho + w.1 + 1)).bind fun p21 =>
    (p.vtor.get ((wt.1 + 1) * p.nRho + w.1 + 1)).bind fun p22 =>
    let p1 := p11 + w.2 * (p12 - p11)
    let p2 := p21 + w.2 * (p22 - p21)
    some (.ok ((p1 + wt.2 * (p2 - p1)) * r))

end Field

/-! ### Splines -/

/-- An `interp1D_data` that has been set up: the axis and the coefficients. -/
structure Spl where
  axis : Linint.Axis ℝ
  c : List ℝ

/-- `interp1Dcomp_setup` with natural boundary conditions, src/spline/interp1Dcomp.c:69-100. -/
noncomputable def Spl.setup (f : Nat → ℝ) (n : Nat) (min max : ℝ) : Option Spl :=
  (Interp.coeff1 f n .natural min max).map fun c => ⟨Linint.Axis.init n .natural min max, c⟩

/-- `interp1Dcomp_eval_f`: `some none` is the error return. -/
noncomputable def Spl.eval (s : Spl) (x : ℝ) : Option (Option ℝ) := Interp.eval1f s.axis s.c x

/-- `plasma_1DS_data`, src/plasma/plasma_1DS.h. -/
structure P1DS where
  nSpecies : Nat
  temp : List Spl
  dens : List Spl
  vtor : Spl

/-- `plasma_1DS_init`, src/plasma/plasma_1DS.c:43-145 with `PLASMA_1DS_NONEG == PLASMA_1DS_LOG` (the value in the source).  A
logarithm of a number that is not positive is not a number; this is undefined here. -/
noncomputable def init1DS (nrho : Nat) (rhomin rhomax : ℝ) (nion : Nat) (Te Ti ne ni vtor : Nat → ℝ) : Option P1DS :=
  if ¬ ((∀ i < nrho, 0 < Te i ∧ 0 < Ti i ∧ 0 < ne i) ∧ ∀ i < nion * nrho, 0 < ni i) then none else
  (Spl.setup (fun i => Real.log (Te i)) nrho rhomin rhomax).bind fun t0 =>
  (Spl.setup (fun i => Real.log (Ti i)) nrho rhomin rhomax).bind fun t1 =>
  (Spl.setup (fun i => Real.log (ne i)) nrho rhomin rhomax).bind fun d0 =>
  ((List.range nion).mapM fun k => Spl.setup (fun i => Real.log (ni (k * nrho + i))) nrho rhomin rhomax).bind fun ds =>
  (Spl.setup vtor nrho rhomin rhomax).bind fun v =>
  some ⟨nion + 1, [t0, t1], d0 :: ds, v⟩

/-- `plasma_1DS_eval_temp`, src/plasma/plasma_1DS.c:236-256. -/
noncomputable def temp1DS (p : P1DS) (rho : ℝ) (species : Nat) : Res ℝ :=
  (p.temp[if species > 0 then 1 else 0]?).bind fun s => (s.eval rho).map fun x => match x with
  | none => .error (Error.raise 1 243 16)
  | some y => if Real.exp y < 0 then .error (Error.raise 1 252 16) else .ok (Real.exp y)

/-- `plasma_1DS_eval_dens`, src/plasma/plasma_1DS.c:267-288. -/
noncomputable def dens1DS (p : P1DS) (rho : ℝ) (species : Nat) : Res ℝ :=
  (p.dens[species]?).bind fun s => (s.eval rho).map fun x => match x with
  | none => .error (Error.raise 1 275 16)
  | some y => if Real.exp y < 0 then .error (Error.raise 1 284 16) else .ok (Real.exp y)

/-- `plasma_1DS_eval_densandtemp`, src/plasma/plasma_1DS.c:302-340. -/
noncomputable def densandtemp1DS (p : P1DS) (rho : ℝ) : Res (List (ℝ × ℝ)) :=
  (p.temp[0]?).bind fun s0 => (s0.eval rho).bind fun t0 =>
  (p.dens[0]?).bind fun s1 => (s1.eval rho).bind fun d0 =>
  (p.temp[1]?).bind fun s2 => (s2.eval rho).bind fun t1 =>
  ((List.range (p.nSpecies - 1)).mapM fun k => (p.dens[k + 1]?).bind fun s => s.eval rho).bind fun ds =>
  match t0, d0, t1, ds.mapM id with
  | some t0, some d0, some t1, some ds =>
    let vals := (Real.exp d0, Real.exp t0) :: ds.map fun d => (Real.exp d, Real.exp t1)
    if vals.any fun v => decide (v.1 < 0 ∨ v.2 < 0) then some (.error (Error.raise 1 335 16)) else some (.ok vals)
  | _, _, _, _ => some (.error (Error.raise 1 319 16))

/-- `plasma_1DS_eval_flow`, src/plasma/plasma_1DS.c:350-358.  The error is raised but not stored; `old` is what the caller's
variable held before. -/
noncomputable def flow1DS (p : P1DS) (rho r old : ℝ) : Res ℝ :=
  (p.vtor.eval rho).map fun x => match x with
  | none => .ok (old * r)
  | some v => .ok (v * r)

/-! ### Interface -/

/-- `plasma_data`: the data of the type selected, or an unknown type. -/
inductive Data where
  | p1D (p : P1D ℝ)
  | p1Dt (p : P1Dt ℝ)
  | p1DS (p : P1DS)
  | unknown

/-- What the caller sees: the value stored and the error, zero for none. `f` is the value stored in case of an error. -/
def store {α : Type} (f : α) : Except Nat α → α × Nat
  | .error e => (f, e)
  | .ok v => (v, 0)

/-- `plasma_eval_temp`, src/plasma.c:90-118; `old` is what the output held before. -/
noncomputable def evalTemp (d : Data) (rho t : ℝ) (species : Nat) (old : ℝ) : Option (ℝ × Nat) :=
  match d with
  | .p1D p => (temp1D p rho species).map (store (10 ^ 20))
  | .p1Dt p => (temp1Dt p rho t species).map (store (10 ^ 20))
  | .p1DS p => (temp1DS p rho species).map (store (10 ^ 20))
  | .unknown => some (old, 0)

/-- `plasma_eval_dens`, src/plasma.c:138-167. -/
noncomputable def evalDens (d : Data) (rho t : ℝ) (species : Nat) (old : ℝ) : Option (ℝ × Nat) :=
  match d with
  | .p1D p => (dens1D p rho species).map (store (10 ^ 20))
  | .p1Dt p => (dens1Dt p rho t species).map (store (10 ^ 20))
  | .p1DS p => (dens1DS p rho species).map (store (10 ^ 20))
  | .unknown => some (old, 0)

/-- `plasma_eval_densandtemp`, src/plasma.c:186-224: density and temperature of the species, of all MAX_SPECIES in case of an
error. -/
noncomputable def evalDensandtemp (d : Data) (rho t : ℝ) : Option (List (ℝ × ℝ) × Nat) :=
  let f := List.replicate 16 ((10 : ℝ) ^ 20, (10 : ℝ) ^ 3)
  match d with
  | .p1D p => (densandtemp1D p rho).map (store f)
  | .p1Dt p => (densandtemp1Dt p rho t).map (store f)
  | .p1DS p => (densandtemp1DS p rho).map (store f)
  | .unknown => some (store f (.error (Error.raise 2 209 17)))

/-- `plasma_eval_flow`, src/plasma.c:236-270. -/
noncomputable def evalFlow (d : Data) (rho t r old : ℝ) : Option (ℝ × Nat) :=
  match d with
  | .p1D p => (flow1D p rho r).map (store 0)
  | .p1Dt p => (flow1Dt p rho t r).map (store 0)
  | .p1DS p => (flow1DS p rho r old).map (store 0)
  | .unknown => some (store 0 (.error (Error.raise 2 259 17)))

/-- `plasma_get_n_species`, src/plasma.c:284-301. -/
def nSpecies : Data → Nat
  | .p1D p => p.nSpecies
  | .p1Dt p => p.nSpecies
  | .p1DS p => p.nSpecies
  | .unknown => 0

end Ascot.Plasma
