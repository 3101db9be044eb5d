import Mathlib.Analysis.SpecialFunctions.Exp
import Mathlib.Analysis.SpecialFunctions.Sqrt
import Verif.Model.Geqdsk

/-!
# Plasma profiles from tables (`a5py/templates/importdata.py`)

Numbers are real numbers.  Densities of ions are lists of columns, one for each species.  The data have
been read from the files by `np.loadtxt`; charges are in units of the elementary charge.
-/
namespace Ascot.PlasmaImport

open Geqdsk (linspace interp)

/-- The arguments of `import_plasma_profiles` that are numbers, a5py/templates/importdata.py:517-520.
`extrapolate` is `none` also if zero is given. -/
structure Args where
  nrho : ℕ
  extrapolate : Option ℝ
  len : ℝ
  squared : Bool
  Tmin : ℝ
  nmin : ℝ

/-- The radial grid of the input, a5py/templates/importdata.py:658-661. -/
noncomputable def rho (a : Args) : List ℝ :=
  match a.extrapolate with
  | none => linspace 0 1 a.nrho
  | some x => linspace 0 x a.nrho

/-- The radial coordinate of the data, a5py/templates/importdata.py:666-670. -/
noncomputable def radgrid (a : Args) (rad : List ℝ) : List ℝ :=
  if a.squared then rad.map Real.sqrt else rad

/-- The nested function `interp`, a5py/templates/importdata.py:664-684.  `none`: `IndexError` since
there are no data or since the grid ends before 1. -/
noncomputable def profile (a : Args) (rad val : List ℝ) (lim : ℝ) : Option (List ℝ) :=
  match val.head?, val.getLast? with
  | some f0, some fn =>
    match (rho a).mapM fun x => interp x ((radgrid a rad).zip val) f0 fn with
    | none => none
    | some v =>
      match a.extrapolate with
      | none => some v
      | some _ =>
        match ((rho a).zip v).find? fun p => decide (1 ≤ p.1) with
        | none => none
        | some p =>
          some (((rho a).zip v).map fun q =>
            if 1 ≤ q.1 then max (p.2 * Real.exp (-(q.1 - 1) / a.len)) lim else q.2)
  | _, _ => none

/-- What is used of the dictionary of an input of type `plasma_1D`. -/
structure Plasma where
  rho : List ℝ
  edensity : List ℝ
  etemperature : List ℝ
  itemperature : List ℝ
  idensity : List (List ℝ)

/-- Radial coordinate and values. -/
abbrev Table := List ℝ × List ℝ

/-- The density of one species of ions, a5py/templates/importdata.py:708-711 and 731-735. -/
noncomputable def ionProfile (a : Args) (ne0 : ℝ) (t : Table) : Option (List ℝ) :=
  match t.2.getLast? with
  | none => none
  | some l => profile a t.1 t.2 (a.nmin * l / ne0)

/-- The interpolation of data from files, a5py/templates/importdata.py:687-735.  If all data are in one
file then all tables have the same radial coordinate.  The limits of the ion densities are not a number if the
last electron density is zero (`none`). -/
noncomputable def importTables (a : Args) (ne te ti : Table) (ni : List Table) : Option Plasma :=
  match ne.2.getLast? with
  | none => none
  | some ne0 =>
    if ne0 = 0 then none
    else
      match profile a ne.1 ne.2 a.nmin, profile a te.1 te.2 a.Tmin, profile a ti.1 ti.2 a.Tmin,
        ni.mapM (ionProfile a ne0) with
      | some e, some et, some it, some i => some ⟨rho a, e, et, it, i⟩
      | _, _, _, _ => none

/-- `ionfrac`, a5py/templates/importdata.py:738-758.  `none`: `ValueError`, or the last charge is
zero. -/
noncomputable def withFractions (frac charge : List ℝ) (p : Plasma) : Option Plasma :=
  if frac = [] then some p
  else match p.idensity with
    | [n] =>
      if frac.length + 1 ≠ charge.length then none
      else match charge.getLast? with
        | none => none
        | some c =>
          let new := frac.map fun f => n.map (· * f)
          let q := (new.zip charge).foldl (fun s x => List.zipWith (· + ·) s (x.1.map (· * x.2)))
            (p.rho.map fun _ => 0)
          let rest := List.zipWith (· - ·) p.edensity q
          if rest.any fun x => decide (x < 0) then none
          else if c = 0 then none
          else some { p with idensity := new ++ [rest.map (· / c)] }
    | _ => none

/-- The data are in a dictionary, a5py/templates/importdata.py:765-781: the dictionary and the toroidal
rotation. -/
noncomputable def importDict (a : Args) (rad ne te ti vtor : List ℝ) (ni : List (List ℝ)) :
    Option (Plasma × List ℝ) :=
  match vtor.getLast? with
  | none => none
  | some v0 =>
    match profile a rad ne a.nmin, profile a rad te a.Tmin, profile a rad ti a.Tmin,
      ni.mapM fun n => profile a rad n a.nmin, profile a rad vtor v0 with
    | some e, some et, some it, some i, some v => some (⟨rho a, e, et, it, i⟩, v)
    | _, _, _, _, _ => none

end Ascot.PlasmaImport
