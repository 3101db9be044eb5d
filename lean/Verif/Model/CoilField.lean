import Verif.Model.Biosaw

/-!
# Fields of coils on a grid (`BioSaw` of `a5py/routines/biosaw5.py`)

Arrays are functions of indices.  `none` as a field is not a number, as in `Biosaw`; coils without points are not considered.
-/
namespace Ascot.CoilField

/-- The lists of coils and currents, a5py/routines/biosaw5.py:68-69: `zip` ends with the shorter list. -/
def pairs (coils : List (List (V3 ℝ))) (currents : List ℝ) : List (List (V3 ℝ) × ℝ) := coils.zip currents

/-- A single current for all coils, a5py/routines/biosaw5.py:69. -/
def sameCurrent (coils : List (List (V3 ℝ))) (I : ℝ) : List (List (V3 ℝ) × ℝ) := pairs coils (List.replicate coils.length I)

/-- The check of a coil, a5py/routines/biosaw5.py:91-93: consecutive points differ. -/
def valid : List (V3 ℝ) → Prop
  | p :: q :: ps => (q.x - p.x) ^ 2 + (q.y - p.y) ^ 2 + (q.z - p.z) ^ 2 ≠ 0 ∧ valid (q :: ps)
  | _ => True

/-- `bx0 * I` and so on, a5py/routines/biosaw5.py:94-100. -/
noncomputable def coil (mu0 : ℝ) (c : List (V3 ℝ) × ℝ) (x : V3 ℝ) : Option (V3 ℝ) :=
  ((Biosaw.calcB mu0 c.1 x).bind id).map fun B => ⟨B.x * c.2, B.y * c.2, B.z * c.2⟩

/-- The loop over coils, a5py/routines/biosaw5.py:86-100. -/
noncomputable def total (mu0 : ℝ) (cs : List (List (V3 ℝ) × ℝ)) (x : V3 ℝ) : Option (V3 ℝ) :=
  cs.foldl (fun B c => Biosaw.add B (coil mu0 c x)) (some ⟨0, 0, 0⟩)

/-- `X`, `Y`, `Z`, a5py/routines/biosaw5.py:71-73. -/
noncomputable def point (r phi z : ℝ) : V3 ℝ := ⟨r * Real.cos phi, r * Real.sin phi, z⟩

/-- `br`, `bphi`, `bz`, a5py/routines/biosaw5.py:107-109. -/
noncomputable def cylindrical (phi : ℝ) (B : V3 ℝ) : V3 ℝ :=
  ⟨B.x * Real.cos phi + B.y * Real.sin phi, -B.x * Real.sin phi + B.y * Real.cos phi, B.z⟩

/-- The field at one point of the grid without `revolve`, a5py/routines/biosaw5.py:71-109. -/
noncomputable def field (mu0 : ℝ) (cs : List (List (V3 ℝ) × ℝ)) (r phi z : ℝ) : Option (V3 ℝ) :=
  (total mu0 cs (point r phi z)).map (cylindrical phi)

/-- `np.roll` along the toroidal axis with `n` points. -/
def roll {α : Type} (n : ℕ) (s : ℤ) (F : ℕ → α) (j : ℕ) : α := F (((j : ℤ) - s) % n).toNat

/-- The loop for `revolve`, a5py/routines/biosaw5.py:111-120; the index is the toroidal one.  `none` if the loop has not ended
after `fuel` turns. -/
noncomputable def revolve (n : ℕ) (rev : ℤ) (F0 : ℕ → Option (V3 ℝ)) : ℕ → ℕ → (ℕ → Option (V3 ℝ)) → Option (ℕ → Option (V3 ℝ))
  | 0, _, _ => none
  | fuel + 1, i, F =>
    if (i : ℤ) * rev < n then revolve n rev F0 fuel (i + 1) fun j => Biosaw.add (F j) (roll n (i * rev) F0 j) else some F

/-- `calculate` with `revolve`, a5py/routines/biosaw5.py:22-122, at given `r` and `z`. -/
noncomputable def calculate (mu0 : ℝ) (cs : List (List (V3 ℝ) × ℝ)) (r : ℝ) (phi : ℕ → ℝ) (n : ℕ) (z : ℝ) (rev : ℤ)
    (fuel : ℕ) : Option (ℕ → Option (V3 ℝ)) :=
  revolve n rev (fun j => field mu0 cs r (phi j) z) fuel 1 fun j => field mu0 cs r (phi j) z

/-! ## Addition to axisymmetric and to three-dimensional fields -/

/-- `np.mean(bphi, axis=1)`. -/
noncomputable def mean (n : ℕ) (b : ℕ → ℕ → ℕ → ℝ) (i k : ℕ) : ℝ := (∑ j ∈ Finset.range n, b i j k) / n

/-- The argument `b0`. -/
inductive B0 where
  | none
  | axis
  | value (b : ℝ)

/-- `scaling`, a5py/routines/biosaw5.py:229-237.  `interp` is the value at the magnetic axis of the spline through values on
the grid. -/
noncomputable def scaling (interp : (ℕ → ℕ → ℝ) → ℝ) (n : ℕ) (bphi : ℕ → ℕ → ℕ → ℝ) (b2d : ℕ → ℕ → ℝ) : B0 → ℝ
  | .none => 1
  | .axis => interp b2d / interp (mean n bphi)
  | .value b => b / interp (mean n bphi)

/-- `bphi` of `addto2d`, a5py/routines/biosaw5.py:239-246. -/
noncomputable def bphi2d (n : ℕ) (s : ℝ) (bphi : ℕ → ℕ → ℕ → ℝ) (b2d : ℕ → ℕ → ℝ) (exclude : Bool) (i j k : ℕ) : ℝ :=
  if exclude then s * bphi i j k
  else bphi i j k * s + (b2d i k - mean n (fun i j k => bphi i j k * s) i k)

/-- The toroidal angles of `addto2d` and `addto3d`, a5py/routines/biosaw5.py:224 and 302-303, in degrees. -/
noncomputable def angle (phimin phimax : ℝ) (n j : ℕ) : ℝ := phimin + j * ((phimax - phimin) / n)

/-- The points of the grids in R and z, a5py/routines/biosaw5.py:222-223. -/
noncomputable def gridPoint (min max : ℝ) (n i : ℕ) : ℝ := min + i * ((max - min) / ((n : ℝ) - 1))

/-- `addto3d`, a5py/routines/biosaw5.py:306-308. -/
def addto3d (b db : ℕ → ℕ → ℕ → ℝ) (i j k : ℕ) : ℝ := b i j k + db i j k

end Ascot.CoilField
