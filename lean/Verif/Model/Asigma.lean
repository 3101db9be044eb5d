import Verif.Model.Suzuki
import Verif.Model.Physlib

/-!
# Atomic reaction data (`src/asigma.c`, `src/asigma/asigma_loc.c`)

The spline interpolations are functions that return `none` outside their domain (their own model is in `Verif.Model.Interp`).
`cE` is `CONST_E` and `c` is `CONST_C`.
-/
namespace Ascot.Asigma

/-! ## Initialisation -/

/-- The arguments of `asigma_loc_init` for one reaction, src/asigma/asigma_loc.c:29-33, without the grid limits, which are passed on
unchanged.  The numbers of grid points are natural numbers. -/
structure ReacIn where
  z1 : ℤ
  a1 : ℤ
  z2 : ℤ
  a2 : ℤ
  type : Nat
  ne : Nat
  nn : Nat
  nT : Nat

/-- What a reaction's spline is built from: one of the three spline structures with the values it reads, or nothing. -/
inductive Table (α : Type) where
  | d1 (data : List α)
  | d2 (data : List α)
  | d3 (data : List α)
  | none

/-- Number of axes with more than one point, src/asigma/asigma_loc.c:54. -/
def dim (r : ReacIn) : Nat := (if r.ne > 1 then 1 else 0) + (if r.nn > 1 then 1 else 0) + (if r.nT > 1 then 1 else 0)

/-- A spline setup reads `n` values from `pos`; reading past the end is undefined. -/
def readN {α : Type} (pos : List α) (n : Nat) : Option (List α) := if n ≤ pos.length then some (pos.take n) else none

/-- The body of the loop, src/asigma/asigma_loc.c:52-85.  `pos` is set to the start of the packed data in every pass (line 55), so
that advancing it (lines 61, 69, 78) has no effect.  `setupErr` is the error returned by the spline setup. -/
def initOne {α : Type} (setupErr : Table α → Nat) (sigma : List α) (r : ReacIn) : Option (Table α × Nat) :=
  let pos := sigma
  match dim r with
  | 1 => (readN pos r.ne).map fun l => (.d1 l, setupErr (.d1 l))
  | 2 => (readN pos (r.ne * r.nT)).map fun l => (.d2 l, setupErr (.d2 l))
  | 3 => (readN pos (r.ne * r.nn * r.nT)).map fun l => (.d3 l, setupErr (.d3 l))
  | _ => some (.none, 1)

/-- `asigma_loc_init`, src/asigma/asigma_loc.c:29-107: the tables of the reactions and the returned error.  `err` is overwritten in
every pass. -/
def locInit {α : Type} (setupErr : Table α → Nat) (sigma : List α) : List ReacIn → Nat → Option (List (Table α) × Nat)
  | [], err => some ([], err)
  | r :: rs, _ => (initOne setupErr sigma r).bind fun t => (locInit setupErr sigma rs t.2).map fun x => (t.1 :: x.1, x.2)

/-- Number of values the reader allocates for one reaction, src/hdf5io/hdf5_asigma.c:105-108. -/
def blockSize (r : ReacIn) : Nat := r.ne * r.nn * r.nT

/-! ## Evaluation -/

/-- An initialised reaction: identifiers and the three spline structures, of which one is set up. -/
structure Reac where
  z1 : ℤ
  a1 : ℤ
  z2 : ℤ
  a2 : ℤ
  type : Nat
  sigma : ℝ → Option ℝ
  sigmav : ℝ → ℝ → Option ℝ
  bms : ℝ → ℝ → ℝ → Option ℝ

/-- Result of an evaluation: the error code and the stored value.  The value `none` is a NaN, an infinity, or a variable that was
never written. -/
structure Res where
  err : Nat
  val : Option ℝ

/-- Search loops that keep the last match, src/asigma/asigma_loc.c:173-183, 254-269, 347-357. -/
def lastMatch (p : Reac → Bool) (ds : List Reac) : Option Reac := ds.foldl (fun acc r => if p r then some r else acc) none

/-- Treatment of an interpolation result, e.g. src/asigma/asigma_loc.c:199-207: outside the table zero when extrapolating, else
the error with line `line`. -/
def fromInterp (extrapolate : Bool) (line : Nat) : Option ℝ → Res
  | some v => ⟨0, some v⟩
  | none => if extrapolate then ⟨0, some 0⟩ else ⟨Error.raise 1 line 27, none⟩

/-- `asigma_loc_eval_sigma`, src/asigma/asigma_loc.c:166-214. -/
def locSigma (ds : List Reac) (extrapolate : Bool) (z1 a1 z2 a2 : ℤ) (e : ℝ) (type : Nat) : Res :=
  match lastMatch (fun r => r.z1 == z1 && r.a1 == a1 && r.z2 == z2 && r.a2 == a2 && r.type == type) ds with
  | none => ⟨Error.raise 1 190 27, none⟩
  | some r =>
    if r.type = 1 ∨ r.type = 2 ∨ r.type = 3 then fromInterp extrapolate 204 (r.sigma e)
    else ⟨Error.raise 1 210 27, none⟩

/-- `asigma_loc_eval_sigmav`, src/asigma/asigma_loc.c:241-309. -/
noncomputable def locSigmav (cE : ℝ) (ds : List Reac) (extrapolate : Bool) (z1 a1 z2 a2 : ℤ) (e te t0 ni : ℝ) (type : Nat) : Res :=
  let e := e / cE
  let te := te / cE
  let t0 := t0 / cE
  match lastMatch (fun r => (type == 7 && r.z1 == z1 && r.z2 == z2 && r.type == type) ||
      (r.z1 == z1 && r.a1 == a1 && r.z2 == z2 && r.a2 == a2 && r.type == type)) ds with
  | none => ⟨Error.raise 1 273 27, none⟩
  | some r =>
    if type = 4 ∨ type = 5 ∨ type = 6 then fromInterp extrapolate 285 (r.sigmav e t0)
    else if type = 7 then fromInterp extrapolate 297 (r.bms (e / a2) (z2 * ni) te)
    else ⟨Error.raise 1 304 27, none⟩

/-- A bulk species: identifiers and density, i.e. the entries of `znum`, `anum` and `n_0` or `n_i`. -/
abbrev Species := Suzuki.Ion

/-- One pass of the loop of `asigma_loc_eval_cx`, src/asigma/asigma_loc.c:344-378.  When the interpolation fails without
extrapolation the uninitialised `sigmav` enters the sum; the caller replaces the sum by zero because of the error. -/
noncomputable def cxStep (ds : List Reac) (extrapolate : Bool) (z1 a1 : ℤ) (e t0 : ℝ) (acc : Res) (s : Species) : Res :=
  match lastMatch (fun r => r.z1 == z1 && r.a1 == a1 && r.z2 == s.znum && r.a2 == s.anum && r.type == 6) ds with
  | none => ⟨Error.raise 1 361 27, acc.val⟩
  | some r =>
    let v := fromInterp extrapolate 372 (r.sigmav e t0)
    ⟨if v.err ≠ 0 then v.err else acc.err, acc.val.bind fun a => v.val.map fun x => a + x * s.dens⟩

/-- `asigma_loc_eval_cx`, src/asigma/asigma_loc.c:334-381. -/
noncomputable def locCx (cE : ℝ) (ds : List Reac) (extrapolate : Bool) (z1 a1 : ℤ) (e t0 : ℝ) (spec : List Species) : Res :=
  spec.foldl (cxStep ds extrapolate z1 a1 (e / cE) (t0 / cE)) ⟨0, some 0⟩

/-- Whether a reaction supplies beam-stopping data for species `s`, src/asigma/asigma_loc.c:422-424. -/
def bmsMatch (z1 : ℤ) (s : Species) (r : Reac) : Bool := r.z1 == z1 && r.z2 == s.znum && r.type == 7

/-- Inner loop of `asigma_loc_eval_bms` for one species, src/asigma/asigma_loc.c:421-443. -/
noncomputable def bmsInner (extrapolate : Bool) (z1 : ℤ) (ePerA te : ℝ) (s : Species) (acc : Res) (r : Reac) : Res :=
  if bmsMatch z1 s r then
    let v := fromInterp extrapolate 437 (r.bms ePerA (s.znum * s.dens) te)
    ⟨if v.err ≠ 0 then v.err else acc.err, acc.val.bind fun a => v.val.map fun x => a + x * (s.znum * s.dens)⟩
  else acc

open Classical in
/-- `asigma_loc_eval_bms`, src/asigma/asigma_loc.c:406-459.  The outcome `none` is undefined behaviour inside the Suzuki model.  A
division by a zero `n_e` gives a NaN. -/
noncomputable def locBms (c cE : ℝ) (ds : List Reac) (extrapolate : Bool) (z1 a1 : ℤ) (e mass te : ℝ) (spec : List Species) :
    Option Res :=
  let ne := (spec.map fun s => (s.znum : ℝ) * s.dens).sum
  let acc := spec.foldl (fun acc s => ds.foldl (bmsInner extrapolate z1 (e / cE / a1) (te / cE) s) acc) ⟨0, some 0⟩
  if spec.any fun s => ds.any (bmsMatch z1 s) then
    some ⟨acc.err, if ne = 0 then none else acc.val.map (· / ne)⟩
  else
    let vnorm := Physlib.vnormGamma c (Physlib.gammaEkin c mass e)
    (Suzuki.sigmav cE (e / a1) vnorm ne (te / cE * cE) spec).map fun r =>
      ⟨if r.1 ≠ 0 then Error.raise 1 454 27 else acc.err, r.2⟩

open Classical in
/-- The end of the interface functions, src/asigma.c:112-118, 163-169, 209-215, 255-261: zero on error or if negative. -/
noncomputable def clip (r : Res) : Res :=
  if r.err ≠ 0 ∨ ∃ v, r.val = some v ∧ v < 0 then ⟨r.err, some 0⟩ else r

/-- Atomic data: `asigma_data`; the only type is local files, any other value of the type field is `none`. -/
structure Data where
  loc : Option (List Reac)
  extrapolate : Bool

/-- `asigma_eval_sigma`, src/asigma.c:95-119. -/
noncomputable def evalSigma (d : Data) (z1 a1 z2 a2 : ℤ) (e : ℝ) (type : Nat) : Res :=
  clip (match d.loc with
    | some ds => locSigma ds d.extrapolate z1 a1 z2 a2 e type
    | none => ⟨Error.raise 2 109 26, none⟩)

/-- `asigma_eval_sigmav`, src/asigma.c:145-170. -/
noncomputable def evalSigmav (cE : ℝ) (d : Data) (z1 a1 z2 a2 : ℤ) (e te t0 ni : ℝ) (type : Nat) : Res :=
  clip (match d.loc with
    | some ds => locSigmav cE ds d.extrapolate z1 a1 z2 a2 e te t0 ni type
    | none => ⟨Error.raise 2 160 26, none⟩)

/-- `asigma_eval_cx`, src/asigma.c:191-216. -/
noncomputable def evalCx (cE : ℝ) (d : Data) (z1 a1 : ℤ) (e t0 : ℝ) (spec : List Species) : Res :=
  clip (match d.loc with
    | some ds => locCx cE ds d.extrapolate z1 a1 e t0 spec
    | none => ⟨Error.raise 2 206 26, none⟩)

/-- `asigma_eval_bms`, src/asigma.c:237-262. -/
noncomputable def evalBms (c cE : ℝ) (d : Data) (z1 a1 : ℤ) (e mass te : ℝ) (spec : List Species) : Option Res :=
  (match d.loc with
    | some ds => locBms c cE ds d.extrapolate z1 a1 e mass te spec
    | none => some ⟨Error.raise 2 252 26, none⟩).map clip

end Ascot.Asigma
