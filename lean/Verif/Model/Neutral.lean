import Verif.Model.Linint
import Verif.Model.Error
import Mathlib.Logic.Function.Basic

/-!
# Neutral density and temperature (`src/neutral.c`, `src/neutral/N0_1D.c`, `src/neutral/N0_3D.c`)

Arrays of the caller are lists; reading past their end is undefined, `none`.  The array that an evaluation fills is a
function from the index to its content, `none` where nothing has been written.  Printing and offloading are left out.
-/
namespace Ascot.Neutral
open Ascot.Linint

variable {K : Type} [Field K] [LinearOrder K] [FloorRing K]

/-- `linint1D_data`, src/linint/linint.h. -/
structure Lin1 (K : Type) where
  x : Axis K
  c : List K

/-- `linint3D_data`, src/linint/linint.h. -/
structure Lin3 (K : Type) where
  x : Axis K
  y : Axis K
  z : Axis K
  c : List K

/-- `N0_1D_data` and `N0_3D_data`, src/neutral/N0_1D.h:15-23, src/neutral/N0_3D.h:15-23, which differ in the type of the
interpolants only. -/
structure N0 (L : Type) where
  nSpecies : Nat
  anum : List Int
  znum : List Int
  maxwellian : List Int
  n0 : List L
  t0 : List L

/-- Copying the first `n` elements of an array of the caller, src/neutral/N0_1D.c:46-48 and others. -/
def copy {A : Type} (n : Nat) (src : List A) : Option (List A) := (List.range n).mapM fun i => src[i]?

/-- `N0_1D_init`, src/neutral/N0_1D.c:30-72.  The variable of the copying loop hides the one of the loop over the
species, so that the elements that are read do not depend on the species. -/
def init1D (nRho : Nat) (rhoMin rhoMax : K) (nSpecies : Nat) (anum znum maxwellian : List Int)
    (density temperature : List K) : Option (N0 (Lin1 K)) := do
  let an ← copy nSpecies anum
  let zn ← copy nSpecies znum
  let mx ← copy nSpecies maxwellian
  let n0 ← (List.range nSpecies).mapM fun _i => do
    let c ← copy nRho density
    return Lin1.mk (Axis.init nRho .natural rhoMin rhoMax) c
  let t0 ← (List.range nSpecies).mapM fun _i => do
    let c ← copy nRho temperature
    return Lin1.mk (Axis.init nRho .natural rhoMin rhoMax) c
  return ⟨nSpecies, an, zn, mx, n0, t0⟩

/-- `N0_3D_init`, src/neutral/N0_3D.c:21-74, with the same loop variables. -/
def init3D (nR : Nat) (rMin rMax : K) (nPhi : Nat) (phiMin phiMax : K) (nZ : Nat) (zMin zMax : K) (nSpecies : Nat)
    (anum znum maxwellian : List Int) (density temperature : List K) : Option (N0 (Lin3 K)) := do
  let an ← copy nSpecies anum
  let zn ← copy nSpecies znum
  let mx ← copy nSpecies maxwellian
  let n0 ← (List.range nSpecies).mapM fun _i => do
    let c ← copy (nR * nPhi * nZ) density
    return Lin3.mk (Axis.init nR .natural rMin rMax) (Axis.init nPhi .periodic phiMin phiMax)
      (Axis.init nZ .natural zMin zMax) c
  let t0 ← (List.range nSpecies).mapM fun _i => do
    let c ← copy (nR * nPhi * nZ) temperature
    return Lin3.mk (Axis.init nR .natural rMin rMax) (Axis.init nPhi .periodic phiMin phiMax)
      (Axis.init nZ .natural zMin zMax) c
  return ⟨nSpecies, an, zn, mx, n0, t0⟩

/-- The loop over the species, src/neutral/N0_1D.c:114-117, 140-143, src/neutral/N0_3D.c:118-121, 146-149: number of
interpolation errors and content of the array. -/
def evalLoop {L : Type} (ev : L → Option (Option K)) (tabs : List L) (n : Nat) (out : Nat → Option K) :
    Option (Nat × (Nat → Option K)) :=
  (List.range n).foldlM (fun st i => do
    let l ← tabs[i]?
    match ← ev l with
    | none => return (st.1 + 1, st.2)
    | some v => return (st.1, Function.update st.2 i (some v))) (0, out)

/-- The error code of the evaluation and the content of the array. -/
def finish (line file : Nat) (r : Nat × (Nat → Option K)) : Nat × (Nat → Option K) :=
  (if r.1 ≠ 0 then Error.raise 1 line file else 0, r.2)

/-- `N0_1D_eval_n0`, src/neutral/N0_1D.c:112-124. -/
def evalN01D (d : N0 (Lin1 K)) (rho : K) (out : Nat → Option K) : Option (Nat × (Nat → Option K)) :=
  (evalLoop (fun l => eval1D l.x l.c rho) d.n0 d.nSpecies out).map (finish 120 8)

/-- `N0_1D_eval_t0`, src/neutral/N0_1D.c:138-150. -/
def evalT01D (d : N0 (Lin1 K)) (rho : K) (out : Nat → Option K) : Option (Nat × (Nat → Option K)) :=
  (evalLoop (fun l => eval1D l.x l.c rho) d.t0 d.nSpecies out).map (finish 146 8)

/-- `N0_3D_eval_n0`, src/neutral/N0_3D.c:116-128. -/
def evalN03D (d : N0 (Lin3 K)) (r phi z : K) (out : Nat → Option K) : Option (Nat × (Nat → Option K)) :=
  (evalLoop (fun l => eval3D l.x l.y l.z l.c r phi z) d.n0 d.nSpecies out).map (finish 124 9)

/-- `N0_3D_eval_t0`, src/neutral/N0_3D.c:144-156. -/
def evalT03D (d : N0 (Lin3 K)) (r phi z : K) (out : Nat → Option K) : Option (Nat × (Nat → Option K)) :=
  (evalLoop (fun l => eval3D l.x l.y l.z l.c r phi z) d.t0 d.nSpecies out).map (finish 152 9)

/-- `neutral_data` with its type, src/neutral.h:19-38. -/
inductive Data (K : Type)
  | d1 (d : N0 (Lin1 K))
  | d3 (d : N0 (Lin3 K))
  | unknown

/-- The value stored in the first element after an error, src/neutral.c:90-93, 132-135. -/
def fallback (v : K) (r : Nat × (Nat → Option K)) : Nat × (Nat → Option K) :=
  if r.1 ≠ 0 then (r.1, Function.update r.2 0 (some v)) else r

/-- `neutral_eval_n0`, src/neutral.c:73-96. -/
def evalN0 (d : Data K) (rho r phi z : K) (out : Nat → Option K) : Option (Nat × (Nat → Option K)) :=
  (match d with
  | .d1 d => evalN01D d rho out
  | .d3 d => evalN03D d r phi z out
  | .unknown => some (Error.raise 2 86 19, out)).map (fallback 0)

/-- `neutral_eval_t0`, src/neutral.c:115-138. -/
def evalT0 (d : Data K) (rho r phi z : K) (out : Nat → Option K) : Option (Nat × (Nat → Option K)) :=
  (match d with
  | .d1 d => evalT01D d rho out
  | .d3 d => evalT03D d r phi z out
  | .unknown => some (Error.raise 2 128 19, out)).map (fallback 1)

/-- `neutral_get_n_species`, src/neutral.c:151-163. -/
def getNSpecies (d : Data K) : Nat :=
  match d with
  | .d1 d => d.nSpecies
  | .d3 d => d.nSpecies
  | .unknown => 0

/-! ### Memory -/

/-- The blocks in use and the address of the next one.  `malloc` does not fail. -/
structure Heap where
  next : Nat
  live : List Nat

def Heap.malloc (h : Heap) : Heap × Nat := (⟨h.next + 1, h.next :: h.live⟩, h.next)

/-- Releasing a block that is not in use is undefined. -/
def Heap.free (h : Heap) (p : Nat) : Option Heap := if p ∈ h.live then some ⟨h.next, h.live.erase p⟩ else none

/-- The pointers of `N0_1D_data` or `N0_3D_data`; the members `c` of the interpolants are listed per species. -/
structure Ptrs where
  nSpecies : Nat
  anum : Nat
  znum : Nat
  maxwellian : Nat
  n0 : Nat
  t0 : Nat
  n0c : List Nat
  t0c : List Nat

/-- The blocks allocated for the species, in the loop of src/neutral/N0_1D.c:40-55, src/neutral/N0_3D.c:33-52. -/
def allocTables : Nat → Heap → List Nat → List Nat → Heap × List Nat × List Nat
  | 0, h, a, b => (h, a, b)
  | n + 1, h, a, b =>
    let (h, p) := h.malloc
    let (h, q) := h.malloc
    allocTables n h (a ++ [p]) (b ++ [q])

/-- The allocations in `N0_1D_init` and `N0_3D_init`, src/neutral/N0_1D.c:34-55, src/neutral/N0_3D.c:27-52. -/
def alloc (n : Nat) (h : Heap) : Heap × Ptrs :=
  let (h, anum) := h.malloc
  let (h, znum) := h.malloc
  let (h, mx) := h.malloc
  let (h, n0) := h.malloc
  let (h, t0) := h.malloc
  let (h, a, b) := allocTables n h [] []
  (h, ⟨n, anum, znum, mx, n0, t0, a, b⟩)

/-- The loop in `N0_1D_free` and `N0_3D_free`, src/neutral/N0_1D.c:83-86, src/neutral/N0_3D.c:85-88: `data->n0->c` is the
table of the first species each time. -/
def freeTables (p : Ptrs) : Nat → Heap → Option Heap
  | 0, h => some h
  | n + 1, h => do
    let h ← h.free (← p.n0c[0]?)
    let h ← h.free (← p.t0c[0]?)
    freeTables p n h

/-- `N0_1D_free` and `N0_3D_free`, src/neutral/N0_1D.c:79-89, src/neutral/N0_3D.c:81-91. -/
def free (p : Ptrs) (h : Heap) : Option Heap := do
  let h ← h.free p.anum
  let h ← h.free p.znum
  let h ← h.free p.maxwellian
  let h ← freeTables p p.nSpecies h
  let h ← h.free p.n0
  h.free p.t0

end Ascot.Neutral
