import Verif.Model.Libascot
import Verif.Model.Mccc
import Verif.Model.Mhd
import Verif.Model.Atomic

/-!
# Parallel loops of the library interface (`src/libascot.c`)

Each function evaluates one query point per iteration of a parallel loop and stores results in arrays of the caller.  An
iteration is the list of its stores; the evaluation functions are parameters that return an error or their results.  The
output arrays are told apart by name and are assumed not to overlap each other or the inputs.
-/
namespace Ascot.LibBatch
open Ascot.Coord

/-- One store into an output array. -/
structure Store where
  arr : String
  idx : Nat
  val : ℝ

/-- The contents of the output arrays. -/
abbrev Mem := String → Nat → ℝ

def put (m : Mem) (s : Store) : Mem := fun a i => if a = s.arr ∧ i = s.idx then s.val else m a i

/-- Stores carried out one after the other. -/
def exec (m : Mem) (l : List Store) : Mem := l.foldl put m

/-- `#pragma omp parallel for` with `n` iterations: the stores happen in some order.  Every distribution of the iterations over
threads is covered; also orders that no distribution gives. -/
def Execution (n : Nat) (body : Nat → List Store) (l : List Store) : Prop := l.Perm ((List.range n).flatMap body)

/-- Coordinates of the query points. -/
structure Query where
  R : Nat → ℝ
  phi : Nat → ℝ
  z : Nat → ℝ
  t : Nat → ℝ

/-- A function of position and time at a query point. -/
def Query.at {A : Type} (q : Query) (f : ℝ → ℝ → ℝ → ℝ → A) (k : Nat) : A := f (q.R k) (q.phi k) (q.z k) (q.t k)

/-- An evaluation function of position and time. -/
abbrev Eval (A : Type) := ℝ → ℝ → ℝ → ℝ → Except Nat A

/-- Body of `libascot_B_field_eval_B_dB`, src/libascot.c:72-89. -/
def fieldBody (B : Eval Jac) (q : Query) (k : Nat) : List Store :=
  match q.at B k with
  | .error _ => []
  | .ok B => [⟨"BR", k, B.a.v⟩, ⟨"Bphi", k, B.b.v⟩, ⟨"Bz", k, B.c.v⟩, ⟨"BR_dR", k, B.a.d1⟩, ⟨"BR_dphi", k, B.a.d2⟩, ⟨"BR_dz", k, B.a.d3⟩,
      ⟨"Bphi_dR", k, B.b.d1⟩, ⟨"Bphi_dphi", k, B.b.d2⟩, ⟨"Bphi_dz", k, B.b.d3⟩, ⟨"Bz_dR", k, B.c.d1⟩, ⟨"Bz_dphi", k, B.c.d2⟩,
      ⟨"Bz_dz", k, B.c.d3⟩]

/-- Body of `libascot_B_field_eval_rho`, src/libascot.c:114-129; `rho psi` is rho and its derivative. -/
def rhoBody (psi : Eval Grad) (rho : ℝ → Except Nat (ℝ × ℝ)) (q : Query) (k : Nat) : List Store :=
  match q.at psi k with
  | .error _ => []
  | .ok g => [⟨"psi", k, g.v⟩, ⟨"dpsidr", k, g.d1⟩, ⟨"dpsidphi", k, g.d2⟩, ⟨"dpsidz", k, g.d3⟩] ++
      match rho g.v with
      | .error _ => []
      | .ok r => [⟨"rho", k, r.1⟩, ⟨"drhodpsi", k, r.2⟩]

/-- Body of `libascot_B_field_rhotheta2rz`, src/libascot.c:179-223. -/
noncomputable def rhothetaBody (axis : ℝ → Option (ℝ × ℝ)) (rhoAt : ℝ → ℝ → ℝ → Option ℝ) (maxiter : Nat) (tol : ℝ) (rho theta phi : Nat → ℝ)
    (k : Nat) : List Store :=
  match Libascot.rhotheta2rz axis rhoAt maxiter tol (rho k) (theta k) (phi k) with
  | none => []
  | some p => [⟨"r", k, p.1⟩, ⟨"z", k, p.2⟩]

/-- Body of `libascot_E_field_eval_E`, src/libascot.c:387-396. -/
def electricBody (E : Eval (V3 ℝ)) (q : Query) (k : Nat) : List Store :=
  match q.at E k with
  | .error _ => []
  | .ok E => [⟨"ER", k, E.x⟩, ⟨"Ephi", k, E.y⟩, ⟨"Ez", k, E.z⟩]

/-- Body of `libascot_mhd_eval`, src/libascot.c:692-708. -/
def mhdBody (f : Eval Mhd.Dmhd) (q : Query) (k : Nat) : List Store :=
  match q.at f k with
  | .error _ => []
  | .ok d => [⟨"alpha", k, d.alpha.v⟩, ⟨"dadr", k, d.alpha.r⟩, ⟨"dadphi", k, d.alpha.phi⟩, ⟨"dadz", k, d.alpha.z⟩, ⟨"dadt", k, d.alpha.t⟩,
      ⟨"Phi", k, d.phi.v⟩, ⟨"dPhidr", k, d.phi.r⟩, ⟨"dPhidphi", k, d.phi.phi⟩, ⟨"dPhidz", k, d.phi.z⟩, ⟨"dPhidt", k, d.phi.t⟩]

/-- The evaluations that precede those of the plasma, e.g. src/libascot.c:459-468: psi, then rho, then densities and temperatures. -/
def plasmaAt {P : Type} (psi : Eval ℝ) (rho : ℝ → Except Nat (ℝ × ℝ)) (plasma : ℝ → Eval P) (q : Query) (k : Nat) : Except Nat P :=
  match q.at psi k with
  | .error e => .error e
  | .ok x =>
    match rho x with
    | .error e => .error e
    | .ok r => q.at (plasma r.1) k

/-- Body of `libascot_plasma_eval_background`, src/libascot.c:458-474, for `nspec` species and `n` points. -/
noncomputable def backgroundBody (cE : ℝ) (psi : Eval ℝ) (rho : ℝ → Except Nat (ℝ × ℝ)) (plasma : ℝ → Eval ((Nat → ℝ) × (Nat → ℝ)))
    (nspec n : Nat) (q : Query) (k : Nat) : List Store :=
  match plasmaAt psi rho plasma q k with
  | .error _ => []
  | .ok p => (List.range nspec).flatMap fun i => [⟨"dens", k + i * n, p.1 i⟩, ⟨"temp", k + i * n, p.2 i / cE⟩]

/-- The coefficients for one species and velocity, src/libascot.c:816-842.  Tabulated special functions are left out: they are
not implemented and `mccc_init` never selects them. -/
noncomputable def collCoef (C : Mccc.MConsts) (ma qa va : ℝ) (sp : List Mccc.Species) (b : Mccc.Species) : List (String × ℝ) :=
  let cl := Mccc.clog C.e0 C.hbar ma qa va sp b
  let vb := Real.sqrt (2 * b.T / b.m)
  let x := va / vb
  let mu := (Mccc.mufun false x).getD (0, 0, 0)
  let F := Mccc.coefF C.e0 ma qa b.m b.q b.n vb cl mu.1
  let Q := Mccc.coefQ C.e0 ma qa b.m b.q b.n vb cl mu.1
  let dQ := Mccc.coefdQ C.e0 ma qa b.m b.q b.n vb cl mu.2.2
  let Dpara := Mccc.coefDpara C.e0 ma qa va b.q b.n vb cl mu.1
  let Dperp := Mccc.coefDperp C.e0 ma qa va b.q b.n vb cl mu.2.1
  let dDpara := Mccc.coefdDpara C.e0 ma qa va b.q b.n vb cl mu.1 mu.2.2
  let K := Mccc.coefK va Dpara dDpara Q
  let nu := Mccc.coefNu va Dperp
  [("mu0", mu.1), ("mu1", mu.2.1), ("dmu0", mu.2.2), ("clog", cl), ("F", F), ("Dpara", Dpara), ("Dperp", Dperp), ("K", K), ("nu", nu),
   ("Q", Q), ("dQ", dQ), ("dDpara", dDpara)]

/-- Body of `libascot_eval_collcoefs`, src/libascot.c:792-858, for `nv` velocities `va`; `want` tells which output arrays are
given.  The plasma evaluation returns the list of species. -/
noncomputable def collBody (C : Mccc.MConsts) (psi : Eval ℝ) (rho : ℝ → Except Nat (ℝ × ℝ)) (plasma : ℝ → Eval (List Mccc.Species))
    (n nv : Nat) (va : Nat → ℝ) (ma qa : ℝ) (want : String → Bool) (q : Query) (k : Nat) : List Store :=
  match plasmaAt psi rho plasma q k with
  | .error _ => []
  | .ok sp => (List.range nv).flatMap fun iv => sp.zipIdx.flatMap fun b =>
      ((collCoef C ma qa (va iv) sp b.1).filter fun x => want x.1).map fun x => ⟨x.1, b.2 * nv * n + nv * k + iv, x.2⟩

/-! ### Reaction rates and neutrals -/

/-- What happens to one entry of an output array: undefined behaviour (`none`), left alone, or a stored value, which may not be a
number. -/
abbrev Entry := Option (Option (Option ℝ))

/-- One entry of `libascot_eval_ratecoeff`, src/libascot.c:911-935, for a point where all evaluations before have succeeded:
`dens` and `temp` of electrons and ions, `n0` and `t0` of the neutrals.  The temperatures of the neutrals have been written into
an array of one element, line 891.  Reaction types: charge exchange 6, beam stopping 7. -/
noncomputable def rateCoeff (c cE : ℝ) (d : Asigma.Data) (ionZ ionA : List ℤ) (nspec : Nat) (Za Aa : ℤ) (ma va : ℝ) (reac : Nat)
    (dens temp n0 t0 : List ℝ) : Entry :=
  if 1 < nspec then none
  else
    let e := (Physlib.gammaVnorm c va - 1) * ma * (c * c)
    if reac = 6 then
      (Atomic.species nspec ionZ ionA n0).bind fun spec => t0.head?.map fun t =>
        let r := Asigma.evalCx cE d Za Aa e t spec
        if r.err ≠ 0 then none else some r.val
    else if reac = 7 then
      (Atomic.species ionZ.length ionZ ionA dens).bind fun spec => temp.head?.bind fun te => dens.head?.bind fun ne =>
        (Asigma.evalBms c cE d Za Aa e ma te spec).map fun r => if r.err ≠ 0 then none else some (r.val.map (· * ne))
    else some none

/-- One entry of `libascot_neutral_eval_density`, src/libascot.c:492-505, where psi and rho are known; `n0` is what
`neutral_eval_n0` writes, one value for each species, into an array of one element. -/
def neutralDensity (n0 : Except Nat (List ℝ)) : Entry :=
  match n0 with
  | .error _ => some none
  | .ok l => if 1 < l.length then none else l.head?.map fun x => some (some x)

/-! ### Boozer coordinates -/

/-- The results of `libascot_boozer_eval_fun`, src/libascot.c:599-619, from the coordinates and the field at R: safety factor,
Jacobian, and Jacobian times the square of the field.  Divisions by zero, which give infinities or a NaN, give zero here. -/
noncomputable def boozerFun (p : Boozer.Ptz) (B : V3 ℝ) (R : ℝ) : ℝ × ℝ × ℝ :=
  let gradpsi : V3 ℝ := ⟨p.psi.d1, p.psi.d2 / R, p.psi.d3⟩
  let gradtheta : V3 ℝ := ⟨p.theta.d1, p.theta.d2 / R, p.theta.d3⟩
  let gradzeta : V3 ℝ := ⟨p.zeta.d1, p.zeta.d2 / R, p.zeta.d3⟩
  let veca := V3.cross gradpsi gradzeta
  let vecb := V3.cross gradpsi gradtheta
  let qprof := (veca.y - B.y) / vecb.y
  let jac := -1 / V3.dot (V3.cross gradtheta gradzeta) gradpsi
  (qprof, jac, jac * V3.norm Real.sqrt B * V3.norm Real.sqrt B)

end Ascot.LibBatch
