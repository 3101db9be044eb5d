import Verif.Model.Physlib
import Mathlib.Analysis.Real.Pi.Bounds
import Mathlib.Algebra.Order.Round

/-!
# The time step a marker begins with

`simulate_fo_fixed_inidt`, `simulate_gc_fixed_inidt`, `simulate_gc_adaptive_inidt` and `simulate_ml_adaptive_inidt`.
A division by zero, which gives an infinite step in the code, is the distinct outcome `none`.
`c` is `CONST_C`; `CONST_2PI` is taken to be twice the number pi.
-/
namespace Ascot.TimeStep

/-- Conversion of a number to `int`, as in src/hdf5io/hdf5_options.c:72: towards zero.  Overflow is left out. -/
noncomputable def toInt (x : ℝ) : ℤ := if x < 0 then ⌈x⌉ else ⌊x⌋

/-- The options of the time step, src/simulate.h:83-86 and src/hdf5io/hdf5_options.c:65-72, and whether orbit-following
and collisions are on (src/simulate.h, `enable_orbfol`, `enable_clmbcol`). -/
structure Opt where
  /-- `fix_usrdef_use` -/
  useUser : Bool
  /-- `fix_usrdef_val` -/
  user : ℝ
  /-- `fix_gyrodef_nstep` -/
  nstep : ℤ
  orbfol : Bool
  clmbcol : Bool

/-- `FIXEDSTEP_USE_USERDEFINED`, `FIXEDSTEP_USERDEFINED` and `FIXEDSTEP_GYRODEFINED` as read by
src/hdf5io/hdf5_options.c:65-72. -/
noncomputable def readOpt (use val nstep : ℝ) (orbfol clmbcol : Bool) : Opt :=
  { useUser := decide (toInt use ≠ 0), user := val, nstep := toInt nstep, orbfol := orbfol, clmbcol := clmbcol }

/-- `CONST_2PI / omega`; `none` stands for the infinite result of a zero frequency. -/
noncomputable def gyrotime (omega : ℝ) : Option ℝ := if omega = 0 then none else some (2 * Real.pi / omega)

/-- `gyrotime / nstep`; `none` stands for an infinite result. -/
noncomputable def part (time : Option ℝ) (nstep : ℤ) : Option ℝ :=
  match time with
  | none => none
  | some x => if nstep = 0 then none else some (x / nstep)

/-- `simulate_fo_fixed_inidt`, src/simulate/simulate_fo_fixed.c:236-254. -/
noncomputable def foFixed (c : ℝ) (o : Opt) (m q : ℝ) (p B : V3 ℝ) : Option ℝ :=
  if o.useUser then some o.user
  else
    let Bnorm := V3.norm Real.sqrt B
    let pnorm := V3.norm Real.sqrt p
    part (gyrotime (Physlib.gyrofreqPnorm c m q pnorm Bnorm)) o.nstep

/-- `simulate_gc_fixed_inidt`, src/simulate/simulate_gc_fixed.c:249-266. -/
noncomputable def gcFixed (c : ℝ) (o : Opt) (m q mu ppar : ℝ) (B : V3 ℝ) : Option ℝ :=
  if o.useUser then some o.user
  else
    let Bnorm := V3.norm Real.sqrt B
    part (gyrotime (Physlib.gyrofreqPpar c m q mu ppar Bnorm)) o.nstep

/-- `if(h > x) h = x`; an infinite `x` changes nothing. -/
noncomputable def lower (h : ℝ) (x : Option ℝ) : ℝ :=
  match x with
  | none => h
  | some y => if h > y then y else h

/-- `simulate_gc_adaptive_inidt`, src/simulate/simulate_gc_adaptive.c:335-367, with `DUMMY_TIMESTEP_VAL` from line 33.
The collision frequency is the constant one, the call that would compute it is commented out (lines 357-359). -/
noncomputable def gcAdaptive (c : ℝ) (o : Opt) (m q mu ppar : ℝ) (B : V3 ℝ) : ℝ :=
  if o.useUser then o.user
  else
    let h : ℝ := 1
    let h :=
      if o.orbfol then
        let Bnorm := V3.norm Real.sqrt B
        lower h (gyrotime (Physlib.gyrofreqPpar c m q mu ppar Bnorm))
      else h
    if o.clmbcol then
      let nu : ℝ := 1
      lower h (some (1 / (100 * nu)))
    else h

/-- `simulate_ml_adaptive_inidt`, src/simulate/simulate_ml_adaptive.c:234-242, with `MAGNETIC_FIELD_LINE_INISTEP` from
line 26; in metres. -/
noncomputable def mlAdaptive : ℝ := 1 / 100

end Ascot.TimeStep
