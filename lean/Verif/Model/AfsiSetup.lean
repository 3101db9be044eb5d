import Verif.Model.DistData
import Verif.Model.BoschHale

/-!
# Setup of the fusion source integrator (`Afsi` of `a5py/routines/afsi5.py`)

Edges are axes as in `DistData`, with angles in radians (given in degrees and multiplied by `pi / 180` in the code).  Units
are left out.
-/
namespace Ascot.AfsiSetup

open DistData (Axis Data histogram)

/-! ## Reaction and reactants -/

/-- The argument `reaction`: an index or a name. -/
inductive Name where
  | index (i : ℤ)
  | name (s : String)

/-- The value of the enumeration, a5py/routines/afsi5.py:578-582: `reactions` maps names to values, src/boschhale.h:13-18.
`none` is an exception. -/
def reaction : Name → Option ℤ
  | .index _ => none
  | .name s =>
    if s = "DT_He4n" then some 1 else if s = "DHe3_He4p" then some 2 else if s = "DD_Tp" then some 3
    else if s = "DD_He3n" then some 4 else none

/-- `anum` and `znum` of a reactant, a5py/routines/afsi5.py:180-183. -/
noncomputable def numbers (amu e m q : ℝ) : ℤ × ℤ := (round (m / amu), round (q / e))

/-- The loop over the species of the plasma, a5py/routines/afsi5.py:188-193: the position of the reactant among them, `none`
for `nan`. -/
def find (species : List (ℤ × ℤ)) (x : ℤ × ℤ) : Option ℕ :=
  (List.range species.length).foldl (fun a i => if species[i]? = some x then some i else a) none

/-- Reactants and `mult` of `thermal`, a5py/routines/afsi5.py:187-198; `none` is an exception. -/
noncomputable def thermal (species : List (ℤ × ℤ)) (x1 x2 : ℤ × ℤ) : Option (ℕ × ℕ × ℝ) :=
  (find species x1).bind fun i1 => (find species x2).map fun i2 => (i1, i2, if i1 = i2 then 0.5 else 1)

/-- The thermal reactant of `beamthermal`, a5py/routines/afsi5.py:300-313. -/
def beamthermal (species : List (ℤ × ℤ)) (swap : Bool) (x1 x2 : ℤ × ℤ) : Option ℕ := find species (if swap then x1 else x2)

/-- Reactants and `mult` of `beambeam`, a5py/routines/afsi5.py:418-424. -/
noncomputable def beambeam {α : Type} (beam1 : α) : Option α → α × α × ℝ
  | some beam2 => (beam1, beam2, 1)
  | none => (beam1, beam1, 0.5)

/-! ## Choice of coordinates -/

/-- Which of the arguments of `thermal` are given. -/
structure Given where
  r : Bool
  z : Bool
  ekin1 : Bool
  pitch1 : Bool
  ekin2 : Bool
  pitch2 : Bool
  momenta : Bool
  deriving DecidableEq

/-- What happens: refused with a message before anything is initialized, an exception after the inputs have been initialized,
or a run in cylindrical or flux coordinates with energy and pitch or momenta. -/
inductive Outcome where
  | refused
  | failed
  | run (rpz : Bool) (exi : Bool)
  deriving DecidableEq

/-- The checks and choices of `thermal`, a5py/routines/afsi5.py:112-175 and 204-229.  `momenta` says that all of `ppar1`,
`pperp1`, `ppar2`, `pperp2` are given; a part of them is not considered here. -/
def choose (g : Given) : Outcome :=
  let dontRpz := (!g.r || !g.z) && (!g.r && !g.z)
  let useRpz := !(!g.r || !g.z) && (g.r && g.z)
  let dontExi := (!g.ekin1 || !g.pitch1) && (!g.ekin1 && !g.pitch1)
  let useExi := !(!g.ekin1 || !g.pitch1) && (g.ekin1 && g.pitch1)
  let dontExi2 := (!g.ekin2 || !g.pitch2) && (!g.ekin2 && !g.pitch2)
  let useExi2 := !(!g.ekin2 || !g.pitch2) && (g.ekin2 && g.pitch2)
  if useRpz && dontRpz then .refused
  else if useExi && dontExi then .refused
  else if useExi2 && dontExi2 then .refused
  else if useExi != useExi2 then .refused
  else if !dontRpz && !(g.r && g.z) then .failed
  else if useExi then .run useRpz true
  else if dontExi || g.momenta then .run useRpz false
  else .failed

/-! ## Cells -/

/-- `vol`, a5py/routines/afsi5.py:169-170, 321 and 416: with the widths of the first bins. -/
noncomputable def vol (r phi z : Axis) (i _j _k : ℕ) : ℝ := 0.5 * (r.edge i + r.edge (i + 1)) * r.width 0 * z.width 0 * phi.width 0

/-- An axis of a product, a5py/routines/afsi5.py:517-526: the number of bins, and the first and the last of the edges. -/
noncomputable def productAxis (a : Axis) : Dist.Axis ℝ := ⟨a.edges.length - 1, a.edge 0, a.edge (a.edges.length - 1)⟩

/-- The charge of a product as an axis, a5py/routines/afsi5.py:521-526. -/
noncomputable def chargeAxis (q : ℝ) : Dist.Axis ℝ := ⟨1, q - 1, q + 1⟩

/-! ## Beams -/

/-- `ravel`. -/
def ravel : List ℕ → (List ℕ → ℝ) → List ℝ
  | [], g => [g []]
  | n :: s, g => (List.range n).flatMap fun j => ravel s fun r => g (j :: r)

/-- The arguments of `hist_init`, a5py/routines/afsi5.py:483-506: coordinates, limits and numbers of bins. -/
noncomputable def requests (axes : List Axis) : List (ℕ × ℝ × ℝ × ℕ) :=
  List.zipWith (fun c a => (c, a.edge 0, a.edge (a.edges.length - 1), a.size)) [0, 1, 2, 5, 6, 14, 15] axes

/-- `_init_dist_5d`, a5py/routines/afsi5.py:481-510, for a distribution whose abscissae are those of a 5D distribution, in
their order. -/
noncomputable def beamHist (d : Data) : Afsi.Hist :=
  ⟨HistG.axesOf (requests d.axes), ravel (d.axes.map Axis.size) (histogram d)⟩

end Ascot.AfsiSetup
