import Verif.Model.LibBatch

/-!
# Collision coefficients and reaction rates in the Python interface (a5py/ascotpy/libascot.py)

The loops of the library are in `LibBatch`; here is what Python allocates, passes and returns.  Units are left out.  An
exception is `none`.
-/
namespace Ascot.PyCoefs
open Ascot.LibBatch

/-- The order in which `input_eval_collcoefs` passes its arrays, a5py/ascotpy/libascot.py:629-633. -/
def passed : List String := ["f", "dpara", "dperp", "k", "nu", "q", "dq", "ddpara", "clog", "mu0", "mu1", "dmu0"]

/-- The parameters of `libascot_eval_collcoefs`, src/libascot.c:782-784. -/
def params : List String := ["F", "Dpara", "Dperp", "K", "nu", "Q", "dQ", "dDpara", "clog", "mu0", "mu1", "dmu0"]

/-- The parameter as which the array of a coefficient is passed. -/
def param (name : String) : Option String := (passed.zip params).lookup name

/-- Arrays of coefficients that are not asked for are `NULL`, a5py/ascotpy/libascot.py:606-621. -/
def want (coefs : List String) (a : String) : Bool := (passed.zip params).any fun x => decide (x.2 = a) && coefs.contains x.1

/-- `Nv = va.size if grid else 1`, a5py/ascotpy/libascot.py:602. -/
def numV (grid : Bool) (va : List ℝ) : ℕ := if grid then va.length else 1

/-- The arrays are allocated with zeros, a5py/ascotpy/libascot.py:609-621. -/
def fresh : Mem := fun _ _ => 0

/-- What `input_eval_collcoefs` returns when the library has carried out the stores `run`, a5py/ascotpy/libascot.py:635-643:
one array for each name, seen as a function of the position in memory. -/
def collcoefs (coefs : List String) (run : List Store) : Option (List (ℕ → ℝ)) :=
  coefs.mapM fun c => (param c).map fun a => exec fresh run a

/-- Element `[ib, k, iv]` of an array of the shape `(n_species, n, nv)`. -/
def entry3 (n nv : ℕ) (a : ℕ → ℝ) (ib k iv : ℕ) : ℝ := a ((ib * n + k) * nv + iv)

/-- Element `[ib, k]` after `reshape((n_species, Neval))`, a5py/ascotpy/libascot.py:639. -/
def entry2 (n : ℕ) (a : ℕ → ℝ) (ib k : ℕ) : ℝ := a (ib * n + k)

/-- Loop of the library for a call from Python: `n` points `q`, the speeds `va` as an array. -/
noncomputable def body (C : Mccc.MConsts) (psi : Eval ℝ) (rho : ℝ → Except Nat (ℝ × ℝ))
    (plasma : ℝ → Eval (List Mccc.Species)) (n : ℕ) (grid : Bool) (va : List ℝ) (ma qa : ℝ) (coefs : List String) (q : Query) :
    ℕ → List Store :=
  collBody C psi rho plasma n (numV grid va) (fun i => va.getD i 0) ma qa (want coefs) q

/-- `asigma_reac_type__enumvalues`, a5py/ascotpy/ascot2py.py:1996-2007. -/
def enumvalues : List (ℕ × String) :=
  [(1, "sigma_ioniz"), (2, "sigma_recomb"), (3, "sigma_CX"), (4, "sigmav_ioniz"), (5, "sigmav_recomb"), (6, "sigmav_CX"),
    (7, "sigmav_BMS"), (8, "sigmaveff_ioniz"), (9, "sigmaveff_recomb"), (10, "sigmaveff_CX")]

/-- `reactions`, a5py/ascotpy/libascot.py:691-692. -/
def reactions (name : String) : Option ℕ := (enumvalues.map fun x => (x.2, x.1)).lookup name

/-- The reaction that `input_eval_atomiccoefs` passes, a5py/ascotpy/libascot.py:697-706. -/
def reaction (name : String) : Option ℕ :=
  if name = "ionization" then reactions "sigmav_recomb"
  else if name = "recombination" then reactions "sigmav_ioniz"
  else if name = "charge-exchange" then reactions "sigmav_CX"
  else if name = "beamstopping" then reactions "sigmav_BMS"
  else none

/-- One value of `input_eval_atomiccoefs` at a point where plasma and neutrals are known,
a5py/ascotpy/libascot.py:695-717: outer `none` an exception or undefined behaviour, inner `none` a `nan`. -/
noncomputable def atomic (c cE : ℝ) (d : Asigma.Data) (ionZ ionA : List ℤ) (nspec : Nat) (Za Aa : ℤ) (ma va : ℝ) (name : String)
    (dens temp n0 t0 : List ℝ) : Option (Option ℝ) :=
  (reaction name).bind fun r => (rateCoeff c cE d ionZ ionA nspec Za Aa ma va r dens temp n0 t0).map Option.join

end Ascot.PyCoefs
