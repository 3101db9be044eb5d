import Verif.Model.PyFile
import Verif.Model.SplineSetup
import Verif.Model.Boozer

/-!
# Files with Boozer coordinates (`a5py/ascot5io/boozer.py`, `src/hdf5io/hdf5_boozer.c`)
-/
namespace Ascot.BoozerFile
open Ascot.PyFile Ascot.SplineSetup
open Ascot.MarkerFile (Group readReals readInts)
open Ascot.Options (Res)

/-! ### The Python side -/

/-- The arguments of `Boozer.write_hdf5`, a5py/ascot5io/boozer.py:52-54. -/
structure In where
  psimin : ℝ
  psimax : ℝ
  npsi : ℕ
  ntheta : ℕ
  nthetag : ℕ
  rmin : ℝ
  rmax : ℝ
  nr : ℕ
  zmin : ℝ
  zmax : ℝ
  nz : ℕ
  r0 : ℝ
  z0 : ℝ
  psi0 : ℝ
  psi1 : ℝ
  psi_rz : Nd
  theta : Nd
  nu : Nd
  nrzs : ℕ
  rs : List ℝ
  zs : List ℝ

/-- The indices of the rows in the slice `[a:b]` of an array with `n` rows: negative numbers count from the end, and the result is
cut to the array. -/
def slice (n : ℕ) (a b : ℤ) : List ℕ :=
  let at' : ℤ → ℕ := fun x => min n (if x < 0 then x + n else x).toNat
  (List.range (at' b - at' a)).map fun k => at' a + k

/-- The rows of the table with padding, a5py/ascot5io/boozer.py:150-156; row `j` of `data` has the elements `data j i`.  `none` is an
exception: a table without rows has no last row. -/
def pad (n : ℕ) (data : ℕ → ℕ → ℝ) : Option (List (ℕ → ℝ)) :=
  if n = 0 then none
  else some ((slice n ((n : ℤ) - 4 - 1) (-1)).map (fun j i => data j i - data (n - 1) i) ++
    ((List.range n).map data ++ (slice n 1 (4 + 1)).map fun j i => data (n - 1) i + data j i))

/-- `Boozer.write_hdf5`, a5py/ascot5io/boozer.py:130-194. -/
def write (u : In) : Written :=
  if u.psi_rz.shape ≠ [u.nr, u.nz] then .refused else
  if u.theta.shape ≠ [u.npsi, u.nthetag] then .refused else
  if u.nu.shape ≠ [u.npsi, u.ntheta] then .refused else
  if u.rs.length ≠ u.nrzs then .refused else
  if u.zs.length ≠ u.nrzs then .refused else
  match pad u.nthetag fun j i => u.theta.T.at' [j, i] with
  | none => .refused
  | some rows => createAll empty
    [⟨"psimin", [1], .reals [u.psimin]⟩, ⟨"psimax", [1], .reals [u.psimax]⟩, ⟨"npsi", [1], .ints [u.npsi]⟩,
     ⟨"ntheta", [1], .ints [u.ntheta]⟩, ⟨"nthetag", [1], .ints [(u.nthetag + 4 * 2 : ℕ)]⟩,
     ⟨"rmin", [1], .reals [u.rmin]⟩, ⟨"rmax", [1], .reals [u.rmax]⟩, ⟨"nr", [1], .ints [u.nr]⟩,
     ⟨"zmin", [1], .reals [u.zmin]⟩, ⟨"zmax", [1], .reals [u.zmax]⟩, ⟨"nz", [1], .ints [u.nz]⟩,
     ⟨"r0", [1], .reals [u.r0]⟩, ⟨"z0", [1], .reals [u.z0]⟩, ⟨"nrzs", [1], .ints [u.nrzs]⟩,
     ⟨"rs", [u.nrzs], .reals u.rs⟩, ⟨"zs", [u.nrzs], .reals u.zs⟩,
     ⟨"psi0", [1], .reals [u.psi0]⟩, ⟨"psi1", [1], .reals [u.psi1]⟩,
     ⟨"psi_rz", [u.nz, u.nr], .reals u.psi_rz.T.flat⟩,
     ⟨"theta_psithetageom", [u.nthetag + 4 * 2, u.npsi], .reals (rows.flatMap fun row => (List.range u.npsi).map row)⟩,
     ⟨"nu_psitheta", [u.ntheta, u.npsi], .reals u.nu.T.flat⟩]

/-! ### The C side -/

/-- `boozer_init`, src/boozer.c:38-75.  `none` if a spline has too few points, and if the width of the padding is not a number.  (The
error of the first spline is overwritten by that of the second, `Boozer.initErr`; no error is raised by the setup.) -/
noncomputable def init (npsi : ℕ) (psimin psimax : ℝ) (ntheta nthetag : ℕ) (nu theta : ℕ → ℝ) (nrzs : ℕ) (rs zs : ℕ → ℝ) :
    Option Boozer.Data :=
  if (nthetag : ℝ) - 2 * 4 - 1 = 0 then none
  else
    let padding := 4 * (2 * Real.pi) / (nthetag - 2 * 4 - 1)
    match setup2 nu npsi ntheta .natural .periodic psimin psimax 0 (2 * Real.pi),
      setup2 theta npsi nthetag .natural .natural psimin psimax (0 - padding) (2 * Real.pi + padding) with
    | some n, some t => some ⟨psimin, psimax, rs, zs, nrzs, n, t⟩
    | _, _ => none

/-- `hdf5_boozer_init`, src/hdf5io/hdf5_boozer.c:26-77, when the group exists.  The arrays for the contour have room for `npsi * nrzs`
numbers, of which `nrzs` are read. -/
noncomputable def readGroup (junk : ℕ → ℝ) (g : Group) : Res Boozer.Data := do
  let ntheta ← readCount g "ntheta"
  let nthetag ← readCount g "nthetag"
  let nrzs ← readCount g "nrzs"
  let npsi ← readCount g "npsi"
  let psimin ← readReal g "psimin"
  let psimax ← readReal g "psimax"
  let nu ← readReals g "nu_psitheta" (npsi * ntheta)
  let theta ← readReals g "theta_psithetageom" (npsi * nthetag)
  let rs ← readReals g "rs" nrzs
  let zs ← readReals g "zs" nrzs
  match init npsi psimin psimax ntheta nthetag (ext junk nu) (ext junk theta) nrzs (ext junk rs) (ext junk zs) with
  | some d => pure d
  | none => .ub

/-- `hdf5_boozer_init`: there is only one type. -/
noncomputable def readBoozer (junk : ℕ → ℝ) (f : String → Option Group) : Res Boozer.Data :=
  lastFound f [("Boozer", readGroup junk)]

end Ascot.BoozerFile
