import Verif.Model.Cocos

/-!
# Magnetic field and wall from an equilibrium file (`a5py/templates/importdata.py`)
-/
namespace Ascot.Geqdsk

open Cocos (Eqd)

/-- `np.linspace(a, b, n)`. -/
noncomputable def linspace (a b : ℝ) (n : ℕ) : List ℝ :=
  (List.range n).map fun i : ℕ => a + (i : ℝ) * ((b - a) / (n - 1 : ℕ))

/-- `np.interp` from the sample `p` on, which is not above `x`: the samples are in increasing order. -/
noncomputable def seg (x right : ℝ) : ℝ × ℝ → List (ℝ × ℝ) → ℝ
  | p, [] => if p.1 < x then right else p.2
  | p, q :: l => if x < q.1 then (q.2 - p.2) / (q.1 - p.1) * (x - p.1) + p.2 else seg x right q l

/-- `np.interp(x, xp, fp, left, right)` with the samples as pairs; `none`: there are no samples. -/
noncomputable def interp (x : ℝ) (s : List (ℝ × ℝ)) (left right : ℝ) : Option ℝ :=
  match s with
  | [] => none
  | p :: l => some (if x < p.1 then left else seg x right p l)

/-- The dictionary of a `B_2DS` input. -/
structure B2d where
  nr : ℕ
  rmin : ℝ
  rmax : ℝ
  nz : ℕ
  zmin : ℝ
  zmax : ℝ
  axisr : ℝ
  axisz : ℝ
  psi : List (List ℝ)
  psi0 : ℝ
  psi1 : ℝ
  br : List (List ℝ)
  bz : List (List ℝ)
  bphi : List (List ℝ)

/-- The toroidal field function at a value of ψ, a5py/templates/importdata.py:395-404.  `left` is
the first sample by default. -/
noncomputable def fpolAt (e : Eqd) (psi : ℝ) : Option ℝ :=
  let psigrid := linspace e.simagx e.sibdry e.nx
  if psigrid.length ≠ e.fpol.length then none
  else match e.fpol.head?, e.fpol.getLast? with
    | some f0, some fn =>
      if e.simagx < e.sibdry then interp psi (psigrid.zip e.fpol) f0 fn
      else interp psi (psigrid.reverse.zip e.fpol.reverse) fn fn
    | _, _ => none

/-- Without the first row. -/
def dropRow (b : Bool) (m : List (List ℝ)) : List (List ℝ) := if b then m.drop 1 else m

/-- `import_geqdsk` from line 374 on, a5py/templates/importdata.py:374-418, without
`interpolate_psi0`.  `none`: `ValueError`. -/
noncomputable def toB2d (e : Eqd) : Option B2d :=
  let zero : Bool := decide (e.rleft = 0)
  let nr := if e.rleft = 0 then e.nx - 1 else e.nx
  let rmax := e.rleft + e.rdim
  let rmin := if e.rleft = 0 then rmax / (nr + 1 : ℕ) else e.rleft
  match e.psi.mapM fun row => row.mapM (fpolAt e) with
  | none => none
  | some f =>
    some {
      nr := nr, rmin := rmin, rmax := rmax, nz := e.ny
      zmin := e.zmid - 1 / 2 * e.zdim, zmax := e.zmid + 1 / 2 * e.zdim
      axisr := e.rmagx, axisz := e.zmagx
      psi := dropRow zero e.psi, psi0 := e.simagx, psi1 := e.sibdry
      br := dropRow zero (e.psi.map (List.map (· * 0)))
      bz := dropRow zero (e.psi.map (List.map (· * 0)))
      bphi := List.zipWith (fun row r => row.map (· / r)) (dropRow (decide (e.nx ≠ nr)) f)
        (linspace rmin rmax nr) }

/-- `import_geqdsk`, a5py/templates/importdata.py:318-418. -/
noncomputable def importField (e : Eqd) (cocos : Option ℤ) (phiclockwise weberperrad : Bool) : Option B2d :=
  let n := match cocos with
    | none => Cocos.assignEqd e phiclockwise weberperrad
    | some n => if n = 0 then Cocos.assignEqd e phiclockwise weberperrad else some n
  match n with
  | none => none
  | some n =>
    if n ≠ Cocos.ascot then
      match Cocos.convert e Cocos.ascot (some n) phiclockwise weberperrad with
      | none => none
      | some e => toB2d e
    else toB2d e

/-- `wall_geqdsk` with `return3Dwall = False`, a5py/templates/importdata.py:457-515: the number of
elements and their coordinates. -/
noncomputable def importWall (e : Eqd) (phiclockwise weberperrad : Bool) : Option (ℕ × List ℝ × List ℝ) :=
  match Cocos.assignEqd e phiclockwise weberperrad with
  | none => none
  | some n =>
    if n ≠ Cocos.ascot then
      match Cocos.cocos n, Cocos.cocos Cocos.ascot with
      | some i, some o =>
        let f := Cocos.transform i o {}
        some (e.rlim.length - 1, (Cocos.scale f.R e.rlim).dropLast, (Cocos.scale f.Z e.zlim).dropLast)
      | _, _ => none
    else some (e.rlim.length - 1, e.rlim.dropLast, e.zlim.dropLast)

end Ascot.Geqdsk
