import Verif.Lemmas.Provide
import Verif.Props.C138_BfieldAnalytic
set_option linter.unusedSectionVars false
set_option linter.unusedSimpArgs false

/-!
# C145: a magnetic field given as a dictionary is the one that the file would give

"If the argument is a dictionary containing the input data (i.e. what would be provided to a corresponding write_hdf5 function) then the HDF5 file is
completely ignored and the input is initialized from the dictionary" (`_init`, a5py/ascotpy/__init__.py).  So the data must be the same as after
writing the arguments to a file and reading that.
-/
namespace Ascot.C145
open Ascot.PyFile Ascot.Provide
open Ascot.MarkerFile (Group)
open Ascot.Bfield (Data B2 B3 STS evalB evalPsi evalPsiDpsi)
open Ascot.BfieldFile
open Ascot.Options (Res deg2rad)
open Ascot.C138
open Ascot.Tensor (spline2_spec)

/-! ### What a writer that succeeded has put in the file -/

theorem length_T {a : Nd} {s : List ℕ} (h : a.shape = s) : a.T.flat.length = s.prod := by
  rw [flat_length, Nd.T, List.prod_reverse, h]

theorem file2 {u : In2D} {w : Group} (h : write2D u = .done w) :
    (u.psi.shape = [u.nr, u.nz] ∧ u.br.shape = [u.nr, u.nz] ∧ u.bphi.shape = [u.nr, u.nz] ∧ u.bz.shape = [u.nr, u.nz]) ∧
      w.ints "nr" = some [(u.nr : ℤ)] ∧ w.ints "nz" = some [(u.nz : ℤ)] ∧ w.reals "rmin" = some [u.rmin] ∧ w.reals "rmax" = some [u.rmax] ∧
      w.reals "zmin" = some [u.zmin] ∧ w.reals "zmax" = some [u.zmax] ∧
      w.reals "psi" = some u.psi.T.flat ∧ w.reals "br" = some u.br.T.flat ∧ w.reals "bphi" = some u.bphi.T.flat ∧ w.reals "bz" = some u.bz.T.flat ∧
      w.reals "psi0" = some [u.psi0] ∧ w.reals "psi1" = some [u.psi1] ∧ w.reals "axisr" = some [u.axisr] ∧ w.reals "axisz" = some [u.axisz] := by
  unfold write2D at h
  split_ifs at h with h1 h2 h3 h4
  push Not at h1 h2 h3 h4
  rw [createAll_done (by
    have := length_T h1; have := length_T h2; have := length_T h3; have := length_T h4
    simp_all [Elems.length, Nat.mul_comm])] at h
  injection h with h
  subst h
  exact ⟨⟨h1, h2, h3, h4⟩, by simp [put, empty]⟩

theorem file3 {u : In3D} {w : Group} {p : GridRz} (hp : u.p = some p) (h : write3D u = .done w) :
    (u.psi.shape = [p.nr, p.nz] ∧ u.br.shape = [u.b.nr, u.b.nphi, u.b.nz] ∧ u.bphi.shape = [u.b.nr, u.b.nphi, u.b.nz] ∧
      u.bz.shape = [u.b.nr, u.b.nphi, u.b.nz]) ∧
      w.ints "b_nr" = some [(u.b.nr : ℤ)] ∧ w.ints "b_nz" = some [(u.b.nz : ℤ)] ∧ w.ints "b_nphi" = some [(u.b.nphi : ℤ)] ∧
      w.reals "b_rmin" = some [u.b.rmin] ∧ w.reals "b_rmax" = some [u.b.rmax] ∧ w.reals "b_zmin" = some [u.b.zmin] ∧
      w.reals "b_zmax" = some [u.b.zmax] ∧ w.reals "b_phimin" = some [u.b.phimin] ∧ w.reals "b_phimax" = some [u.b.phimax] ∧
      w.ints "psi_nr" = some [(p.nr : ℤ)] ∧ w.ints "psi_nz" = some [(p.nz : ℤ)] ∧ w.reals "psi_rmin" = some [p.rmin] ∧
      w.reals "psi_rmax" = some [p.rmax] ∧ w.reals "psi_zmin" = some [p.zmin] ∧ w.reals "psi_zmax" = some [p.zmax] ∧
      w.reals "psi" = some u.psi.T.flat ∧ w.reals "br" = some u.br.T.flat ∧ w.reals "bphi" = some u.bphi.T.flat ∧ w.reals "bz" = some u.bz.T.flat ∧
      w.reals "psi0" = some [u.psi0] ∧ w.reals "psi1" = some [u.psi1] ∧ w.reals "axisr" = some [u.axisr] ∧ w.reals "axisz" = some [u.axisz] := by
  unfold write3D at h
  simp only [hp, Option.getD_some] at h
  split_ifs at h with h1 h2 h3 h4
  push Not at h1 h2 h3 h4
  rw [createAll_done (by
    have e1 := length_T h1; have e2 := length_T h2; have e3 := length_T h3; have e4 := length_T h4
    simp only [List.prod_cons, List.prod_nil] at e1 e2 e3 e4
    simp [Elems.length, e1, e2, e3, e4, Nat.mul_comm, Nat.mul_left_comm])] at h
  injection h with h
  subst h
  exact ⟨⟨h1, h2, h3, h4⟩, by simp [put, empty]⟩

theorem fileSTS {u : InSTS} {w : Group} {p : GridRpz} (hp : u.p = some p) (h : writeSTS u = .done w) :
    (u.psi.shape = [p.nr, p.nphi, p.nz] ∧ u.br.shape = [u.b.nr, u.b.nphi, u.b.nz] ∧ u.bphi.shape = [u.b.nr, u.b.nphi, u.b.nz] ∧
      u.bz.shape = [u.b.nr, u.b.nphi, u.b.nz] ∧ u.axisr.length = u.axisNphi ∧ u.axisz.length = u.axisNphi) ∧
      w.ints "b_nr" = some [(u.b.nr : ℤ)] ∧ w.ints "b_nz" = some [(u.b.nz : ℤ)] ∧ w.ints "b_nphi" = some [(u.b.nphi : ℤ)] ∧
      w.reals "b_rmin" = some [u.b.rmin] ∧ w.reals "b_rmax" = some [u.b.rmax] ∧ w.reals "b_zmin" = some [u.b.zmin] ∧
      w.reals "b_zmax" = some [u.b.zmax] ∧ w.reals "b_phimin" = some [u.b.phimin] ∧ w.reals "b_phimax" = some [u.b.phimax] ∧
      w.ints "psi_nr" = some [(p.nr : ℤ)] ∧ w.ints "psi_nz" = some [(p.nz : ℤ)] ∧ w.ints "psi_nphi" = some [(p.nphi : ℤ)] ∧
      w.reals "psi_rmin" = some [p.rmin] ∧
      w.reals "psi_rmax" = some [p.rmax] ∧ w.reals "psi_zmin" = some [p.zmin] ∧ w.reals "psi_zmax" = some [p.zmax] ∧
      w.reals "psi_phimin" = some [p.phimin] ∧ w.reals "psi_phimax" = some [p.phimax] ∧
      w.ints "axis_nphi" = some [(u.axisNphi : ℤ)] ∧ w.reals "axis_phimin" = some [u.axisPhimin] ∧ w.reals "axis_phimax" = some [u.axisPhimax] ∧
      w.reals "psi" = some u.psi.T.flat ∧ w.reals "br" = some u.br.T.flat ∧ w.reals "bphi" = some u.bphi.T.flat ∧ w.reals "bz" = some u.bz.T.flat ∧
      w.reals "psi0" = some [u.psi0] ∧ w.reals "psi1" = some [u.psi1] ∧ w.reals "axisr" = some u.axisr ∧ w.reals "axisz" = some u.axisz := by
  unfold writeSTS at h
  simp only [hp, Option.getD_some] at h
  split_ifs at h with h1 h2 h3 h4
  push Not at h1 h2 h3 h4
  by_cases h5 : u.axisr.length = u.axisNphi
  · by_cases h6 : u.axisz.length = u.axisNphi
    · rw [createAll_done (by
        have e1 := length_T h1; have e2 := length_T h2; have e3 := length_T h3; have e4 := length_T h4
        simp only [List.prod_cons, List.prod_nil] at e1 e2 e3 e4
        simp [Elems.length, e1, e2, e3, e4, h5, h6, Nat.mul_comm, Nat.mul_left_comm])] at h
      injection h with h
      subst h
      exact ⟨⟨h1, h2, h3, h4, h5, h6⟩, by simp [put, empty]⟩
    · exfalso
      simp [createAll, create, Elems.length, h5, h6] at h
  · exfalso
    simp [createAll, create, Elems.length, h5] at h

/-! ### The same data -/

/-- The dictionary gives what the file gives: the same data, if the file could be read. -/
def SameAs (file dict : Res Data) : Prop := ∀ d, file = .ok d → dict = .ok d

theorem check_ok {α : Type} {b d : α} {x : Except Bfield.Fault (V3 ℝ)} (h : check b x = .ok d) : d = b := by
  unfold check at h
  split at h
  · cases h
  · injection h with h; exact h.symm

/-- Whatever the user gives that the writer accepts: if the arrays are stored by columns, the dictionary gives the same field as the file. -/
theorem axisymmetric_partial {u : In2D} {w : Group} (hw : write2D u = .done w) {lay : String → Layout}
    (hl : ∀ k, lay k = .cols) (junk junk' : ℕ → ℝ) :
    SameAs (readBfield junk (only "B_2DS" w)) (provide2D junk' lay u) := by
  obtain ⟨⟨s1, s2, s3, s4⟩, h1, h2, h3, h4, h5, h6, h7, h8, h9, h10, h11, h12, h13, h14⟩ := file2 hw
  have l1 := length_T s1; have l2 := length_T s2; have l3 := length_T s3; have l4 := length_T s4
  simp only [List.prod_cons, List.prod_nil, Nat.mul_one] at l1 l2 l3 l4
  obtain ⟨f1, e1, c1⟩ := readReals_list h7 l1
  obtain ⟨f2, e2, c2⟩ := readReals_list h8 l2
  obtain ⟨f3, e3, c3⟩ := readReals_list h9 l3
  obtain ⟨f4, e4, c4⟩ := readReals_list h10 l4
  intro d hd
  rw [readBfield, lastFound_only (r := read2D junk) (by simp) (by simp)] at hd
  unfold read2D at hd
  rw [readCount_eq h1, ok_bind, readCount_eq h2, ok_bind, readReal_eq h3, ok_bind, readReal_eq h4, ok_bind, readReal_eq h5, ok_bind,
    readReal_eq h6, ok_bind, e1, ok_bind, e2, ok_bind, e3, ok_bind, e4, ok_bind,
    readReal_eq h11, ok_bind, readReal_eq h12, ok_bind, readReal_eq h13, ok_bind, readReal_eq h14, ok_bind] at hd
  unfold init2D at hd
  rw [spline2_congr (c1 junk junk'), spline2_congr (c2 junk junk'), spline2_congr (c3 junk junk'), spline2_congr (c4 junk junk')] at hd
  unfold provide2D
  simp only [mem, hl]
  rw [reads_ok l1, ok_bind, reads_ok l2, ok_bind, reads_ok l3, ok_bind, reads_ok l4, ok_bind]
  generalize spline2 (ptr junk' u.psi.T.flat) u.nr u.nz u.rmin u.rmax u.zmin u.zmax = a at hd ⊢
  generalize spline2 (ptr junk' u.br.T.flat) u.nr u.nz u.rmin u.rmax u.zmin u.zmax = b at hd ⊢
  generalize spline2 (ptr junk' u.bphi.T.flat) u.nr u.nz u.rmin u.rmax u.zmin u.zmax = c at hd ⊢
  generalize spline2 (ptr junk' u.bz.T.flat) u.nr u.nz u.rmin u.rmax u.zmin u.zmax = e at hd ⊢
  rcases a with _ | a <;> rcases b with _ | b <;> rcases c with _ | c <;> rcases e with _ | e <;> first | exact absurd hd (by rintro ⟨⟩) | skip
  dsimp only at hd ⊢
  cases hx : check (⟨u.psi0, u.psi1, u.axisr, u.axisz, a, b, c, e⟩ : B2)
      (B2.evalB ⟨u.psi0, u.psi1, u.axisr, u.axisz, a, b, c, e⟩ u.axisr u.axisz) with
  | ok x =>
    rw [hx, ok_bind] at hd
    injection hd with hd
    rw [← hd, check_ok hx]
  | fail => rw [hx] at hd; cases hd
  | ub => rw [hx] at hd; cases hd

theorem three_dimensional_partial {u : In3D} {w : Group} {p : GridRz} (hp : u.p = some p) (hw : write3D u = .done w) {lay : String → Layout}
    (hl : ∀ k, lay k = .cols) (junk junk' : ℕ → ℝ) :
    SameAs (readBfield junk (only "B_3DS" w)) (provide3D junk' lay u) := by
  obtain ⟨⟨s1, s2, s3, s4⟩, h1, h2, h3, h4, h5, h6, h7, h8, h9, h10, h11, h12, h13, h14, h15, h16, h17, h18, h19, h20, h21, h22, h23⟩ := file3 hp hw
  have l1 := length_T s1; have l2 := length_T s2; have l3 := length_T s3; have l4 := length_T s4
  simp only [List.prod_cons, List.prod_nil, Nat.mul_one, ← Nat.mul_assoc] at l1 l2 l3 l4
  obtain ⟨f1, e1, c1⟩ := readReals_list h16 l1
  obtain ⟨f2, e2, c2⟩ := readReals_list h17 l2
  obtain ⟨f3, e3, c3⟩ := readReals_list h18 l3
  obtain ⟨f4, e4, c4⟩ := readReals_list h19 l4
  intro d hd
  rw [readBfield, lastFound_only (r := read3D junk) (by simp) (by simp)] at hd
  unfold read3D at hd
  rw [readCount_eq h1, ok_bind, readCount_eq h2, ok_bind, readReal_eq h4, ok_bind, readReal_eq h5, ok_bind, readReal_eq h6, ok_bind,
    readReal_eq h7, ok_bind, readCount_eq h3, ok_bind, readReal_eq h8, ok_bind, readReal_eq h9, ok_bind, readCount_eq h10, ok_bind,
    readCount_eq h11, ok_bind, readReal_eq h12, ok_bind, readReal_eq h13, ok_bind, readReal_eq h14, ok_bind, readReal_eq h15, ok_bind,
    e1, ok_bind, e2, ok_bind, e3, ok_bind, e4, ok_bind,
    readReal_eq h20, ok_bind, readReal_eq h21, ok_bind, readReal_eq h22, ok_bind, readReal_eq h23, ok_bind] at hd
  unfold init3D at hd
  rw [spline2_congr (c1 junk junk'), spline3_congr (c2 junk junk'), spline3_congr (c3 junk junk'), spline3_congr (c4 junk junk')] at hd
  unfold provide3D
  simp only [mem, hl, hp, radians_eq]
  rw [reads_ok l1, ok_bind, reads_ok l2, ok_bind, reads_ok l3, ok_bind, reads_ok l4, ok_bind]
  generalize spline2 (ptr junk' u.psi.T.flat) p.nr p.nz p.rmin p.rmax p.zmin p.zmax = a at hd ⊢
  generalize spline3 (ptr junk' u.br.T.flat) u.b.nr u.b.nphi u.b.nz u.b.rmin u.b.rmax (deg2rad u.b.phimin) (deg2rad u.b.phimax) u.b.zmin u.b.zmax = b at hd ⊢
  generalize spline3 (ptr junk' u.bphi.T.flat) u.b.nr u.b.nphi u.b.nz u.b.rmin u.b.rmax (deg2rad u.b.phimin) (deg2rad u.b.phimax) u.b.zmin u.b.zmax = c at hd ⊢
  generalize spline3 (ptr junk' u.bz.T.flat) u.b.nr u.b.nphi u.b.nz u.b.rmin u.b.rmax (deg2rad u.b.phimin) (deg2rad u.b.phimax) u.b.zmin u.b.zmax = e at hd ⊢
  rcases a with _ | a <;> rcases b with _ | b <;> rcases c with _ | c <;> rcases e with _ | e <;> first | exact absurd hd (by rintro ⟨⟩) | skip
  dsimp only at hd ⊢
  cases hx : check (⟨u.psi0, u.psi1, u.axisr, u.axisz, a, b, c, e⟩ : B3)
      (B3.evalB ⟨u.psi0, u.psi1, u.axisr, u.axisz, a, b, c, e⟩ u.axisr 0 u.axisz) with
  | ok x =>
    rw [hx, ok_bind] at hd
    injection hd with hd
    rw [← hd, check_ok hx]
  | fail => rw [hx] at hd; cases hd
  | ub => rw [hx] at hd; cases hd

theorem ofFn_readReals {g : Group} {name : String} {xs : List ℝ} {n : ℕ} {f : Fin n → ℝ} (h : g.reals name = some xs)
    (hf : MarkerFile.readReals g name n = .ok f) : List.ofFn f = xs := by
  unfold MarkerFile.readReals at hf
  rw [h] at hf
  simp only at hf
  split_ifs at hf with hl
  subst hl
  injection hf with hf
  subst hf
  apply List.ext_getElem
  · simp
  · intro i h1 h2; simp

theorem stellarator_partial {u : InSTS} {w : Group} {p : GridRpz} (hp : u.p = some p) (hw : writeSTS u = .done w) {lay : String → Layout}
    (hl : ∀ k, lay k = .cols) (junk junk' : ℕ → ℝ) :
    SameAs (readBfield junk (only "B_STS" w)) (provideSTS junk' lay u) := by
  obtain ⟨⟨s1, s2, s3, s4, s5, s6⟩, h1, h2, h3, h4, h5, h6, h7, h8, h9, h10, h11, h12, h13, h14, h15, h16, h17, h18, h19, h20, h21, h22, h23, h24, h25, h26,
    h27, h28, h29⟩ := fileSTS hp hw
  have l1 := length_T s1; have l2 := length_T s2; have l3 := length_T s3; have l4 := length_T s4
  simp only [List.prod_cons, List.prod_nil, Nat.mul_one, ← Nat.mul_assoc] at l1 l2 l3 l4
  obtain ⟨f1, e1, c1⟩ := readReals_list h22 l1
  obtain ⟨f2, e2, c2⟩ := readReals_list h23 l2
  obtain ⟨f3, e3, c3⟩ := readReals_list h24 l3
  obtain ⟨f4, e4, c4⟩ := readReals_list h25 l4
  obtain ⟨f5, e5, c5⟩ := readReals_list h28 s5
  obtain ⟨f6, e6, c6⟩ := readReals_list h29 s6
  intro d hd
  rw [readBfield, lastFound_only (r := readSTS junk) (by simp) (by simp)] at hd
  unfold readSTS at hd
  rw [readCount_eq h1, ok_bind, readCount_eq h2, ok_bind, readReal_eq h4, ok_bind, readReal_eq h5, ok_bind, readReal_eq h6, ok_bind,
    readReal_eq h7, ok_bind, readCount_eq h3, ok_bind, readReal_eq h8, ok_bind, readReal_eq h9, ok_bind, readCount_eq h10, ok_bind,
    readCount_eq h11, ok_bind, readReal_eq h13, ok_bind, readReal_eq h14, ok_bind, readReal_eq h15, ok_bind, readReal_eq h16, ok_bind,
    readCount_eq h12, ok_bind, readReal_eq h17, ok_bind, readReal_eq h18, ok_bind, readCount_eq h19, ok_bind, readReal_eq h20, ok_bind,
    readReal_eq h21, ok_bind, readReal_eq h26, ok_bind, readReal_eq h27, ok_bind,
    e2, ok_bind, e3, ok_bind, e4, ok_bind, e1, ok_bind, e5, ok_bind, e6, ok_bind, ofFn_readReals h28 e5, ofFn_readReals h29 e6] at hd
  unfold initSTS at hd
  rw [spline3_congr (c1 junk junk'), spline3_congr (c2 junk junk'), spline3_congr (c3 junk junk'), spline3_congr (c4 junk junk')] at hd
  unfold provideSTS
  simp only [mem, hl, hp, radians_eq]
  rw [reads_ok l1, ok_bind, reads_ok l2, ok_bind, reads_ok l3, ok_bind, reads_ok l4, ok_bind, reads_ok s5, ok_bind, reads_ok s6, ok_bind]
  rw [List.take_of_length_le s5.le, List.take_of_length_le s6.le]
  generalize spline3 (ptr junk' u.psi.T.flat) p.nr p.nphi p.nz p.rmin p.rmax (deg2rad p.phimin) (deg2rad p.phimax) p.zmin p.zmax = a at hd ⊢
  generalize spline3 (ptr junk' u.br.T.flat) u.b.nr u.b.nphi u.b.nz u.b.rmin u.b.rmax (deg2rad u.b.phimin) (deg2rad u.b.phimax) u.b.zmin u.b.zmax = b at hd ⊢
  generalize spline3 (ptr junk' u.bphi.T.flat) u.b.nr u.b.nphi u.b.nz u.b.rmin u.b.rmax (deg2rad u.b.phimin) (deg2rad u.b.phimax) u.b.zmin u.b.zmax = c at hd ⊢
  generalize spline3 (ptr junk' u.bz.T.flat) u.b.nr u.b.nphi u.b.nz u.b.rmin u.b.rmax (deg2rad u.b.phimin) (deg2rad u.b.phimax) u.b.zmin u.b.zmax = e at hd ⊢
  rcases a with _ | a <;> rcases b with _ | b <;> rcases c with _ | c <;> rcases e with _ | e <;> first | exact absurd hd (by rintro ⟨⟩) | skip
  dsimp only at hd ⊢
  split at hd
  · cases hd
  split at hd
  · cases hd
  rename_i x1 x2 x3 x4 x5
  cases hx : check (⟨u.psi0, u.psi1, fun phi => (Linint.eval1D (Linint.Axis.init u.axisNphi .periodic (deg2rad u.axisPhimin) (deg2rad u.axisPhimax)) u.axisr phi).join,
      fun phi => (Linint.eval1D (Linint.Axis.init u.axisNphi .periodic (deg2rad u.axisPhimin) (deg2rad u.axisPhimax)) u.axisz phi).join, a, b, c, e⟩ : STS) _ with
  | ok x =>
    rw [hx, ok_bind] at hd
    injection hd with hd
    rw [← hd, check_ok hx]
  | fail => rw [hx] at hd; cases hd
  | ub => rw [hx] at hd; cases hd

/-! ### The linear and the analytic field -/

/-- With the flux given, the Jacobian is that of the file with rows and columns exchanged. -/
theorem transposed (b : ℕ → ℝ) (J : ℕ → ℕ → ℝ) (rhoval psival axisr axisz : ℝ) (junk : ℕ → ℝ) :
    ∃ w, writeTC (tab 3 b) (nd2 3 3 fun i j => J j i) rhoval (some psival) axisr axisz = .done w ∧
      ∃ d, readBfield junk (only "B_TC" w) = .ok d ∧ provideTC (tab 3 b) (nd2 3 3 J) rhoval (some psival) axisr axisz = .ok d := by
  obtain ⟨w, hw, hr⟩ := loadedTC b (fun i j => J j i) rhoval (some psival) axisr axisz junk
  refine ⟨w, hw, _, hr, ?_⟩
  unfold provideTC
  simp only [nd2_T_flat, tab_length]
  simp [tab, List.range_succ]

/-- If the Jacobian is symmetric the dictionary gives the field of the file. -/
theorem cartesian_partial (b : ℕ → ℝ) (J : ℕ → ℕ → ℝ) (hJ : ∀ i j, J i j = J j i) (rhoval psival axisr axisz : ℝ) (junk : ℕ → ℝ) :
    ∃ w, writeTC (tab 3 b) (nd2 3 3 J) rhoval (some psival) axisr axisz = .done w ∧
      ∃ d, readBfield junk (only "B_TC" w) = .ok d ∧ provideTC (tab 3 b) (nd2 3 3 J) rhoval (some psival) axisr axisz = .ok d := by
  have := transposed b J rhoval psival axisr axisz junk
  rwa [show (fun i j => J j i) = J from funext fun i => funext fun j => hJ j i] at this

/-- Otherwise it does not: with dBx/dy = 1 the file gives at the point (0, 1, 0) the field (1, 0, 1), the dictionary (0, 0, 1). -/
theorem jacobian_violation (junk : ℕ → ℝ) :
    ∃ b J w d d', writeTC (tab 3 b) (nd2 3 3 J) 0.5 (some 0.5) = .done w ∧ readBfield junk (only "B_TC" w) = .ok d ∧
      provideTC (tab 3 b) (nd2 3 3 J) 0.5 (some 0.5) = .ok d' ∧
      evalB d 1 (Real.pi / 2) 0 = some (⟨0, -1, 1⟩, 0) ∧ evalB d' 1 (Real.pi / 2) 0 = some (⟨0, 0, 1⟩, 0) := by
  set b : ℕ → ℝ := fun i => if i = 2 then 1 else 0
  set J : ℕ → ℕ → ℝ := fun i j => if i = 0 ∧ j = 1 then 1 else 0
  obtain ⟨w, hw, hr⟩ := loadedTC b J 0.5 (some 0.5) 1 0 junk
  obtain ⟨w', hw', d', hr', hp⟩ := transposed b J 0.5 0.5 1 0 junk
  obtain ⟨w'', hw'', hr''⟩ := loadedTC b (fun i j => J j i) 0.5 (some 0.5) 1 0 junk
  rw [hw'] at hw''
  injection hw'' with e
  subst e
  rw [hr''] at hr'
  injection hr' with e
  subst e
  refine ⟨b, J, w, _, _, hw, hr, hp, ?_, ?_⟩
  · show some (Bfield.TC.evalB _ _ _ _, 0) = _
    rw [C85.field]
    simp [C85.linearField, b, J]
  · show some (Bfield.TC.evalB _ _ _ _, 0) = _
    rw [C85.field]
    simp [C85.linearField, b, J]

/-- The flux may be omitted in a file, but not in a dictionary. -/
theorem flux_omitted_violation (bxyz : List ℝ) (J : Nd) (rhoval axisr axisz : ℝ) : provideTC bxyz J rhoval none axisr axisz = .fail := rfl

/-- The analytic field: with flux and axis given, the data are the same; the unused 14th coefficient is zero instead of what is in memory. -/
theorem analytic_partial (found : ℝ × ℝ) (r0 z0 bphi0 psimult : ℝ) (c : ℕ → ℝ) (psi0 psi1 raxis zaxis : ℝ) (nripple : ℤ) (a0 alpha0 delta0 : ℝ) :
    ∃ w, writeGS found (argsGS r0 z0 bphi0 psimult c (some psi0) psi1 (some raxis) (some zaxis) nripple a0 alpha0 delta0) = .done w ∧
      ∃ d, readBfield (fun _ => 0) (only "B_GS" w) = .ok d ∧
        provideGS found (argsGS r0 z0 bphi0 psimult c (some psi0) psi1 (some raxis) (some zaxis) nripple a0 alpha0 delta0) = .ok d := by
  obtain ⟨w, hw, hr⟩ := loadedGS found r0 z0 bphi0 psimult c psi0 psi1 (some raxis) (some zaxis) nripple a0 alpha0 delta0 (fun _ => 0)
  refine ⟨w, hw, _, hr, ?_⟩
  unfold provideGS
  simp only [argsGS, tab_length, Option.getD_some]
  rw [if_neg (by omega)]
  have : (fun i : Fin 14 => (tab 13 c).getD i 0) = coefs c 0 := by
    funext i
    unfold coefs
    split_ifs with h
    · simp [tab, h]
    · simp [tab, h]
  rw [this]

/-- Without the flux on axis both look for the axis and store the same. -/
theorem axis_search (found : ℝ × ℝ) (r0 z0 bphi0 psimult : ℝ) (c : ℕ → ℝ) (psi1 : ℝ) (raxis zaxis : Option ℝ) (nripple : ℤ) (a0 alpha0 delta0 : ℝ) :
    ∃ w, writeGS found (argsGS r0 z0 bphi0 psimult c none psi1 raxis zaxis nripple a0 alpha0 delta0) = .done w ∧
      ∃ d, readBfield (fun _ => 0) (only "B_GS" w) = .ok d ∧
        provideGS found (argsGS r0 z0 bphi0 psimult c none psi1 raxis zaxis nripple a0 alpha0 delta0) = .ok d := by
  obtain ⟨w, hw, d, hr, hp⟩ := analytic_partial found r0 z0 bphi0 psimult c (foundPsi found psimult c) 0 (found.1 * r0) (found.2 * r0) nripple a0
    alpha0 delta0
  refine ⟨w, ?_, d, hr, ?_⟩
  · rw [foundGS]; exact hw
  · rw [← hp]
    unfold provideGS
    simp only [argsGS, tab_length]
    rw [if_neg (by omega), if_neg (by omega), if_neg (by omega)]
    have e := pyPsi_congr (c := fun i => (tab 13 c).getD i 0) (c' := c) (fun i hi => by simp [tab, hi]) found.1 found.2
    have e' : foundPsi found psimult c = foundPsi found psimult fun i => (tab 13 c).getD i 0 := by unfold foundPsi; rw [e]
    rw [e']
    rfl

/-- With the flux but no axis the file is written and read, but the dictionary raises an exception. -/
theorem axis_omitted_violation (found : ℝ × ℝ) (r0 z0 bphi0 psimult : ℝ) (c : ℕ → ℝ) (psi0 psi1 : ℝ) (nripple : ℤ) (a0 alpha0 delta0 : ℝ) (junk : ℕ → ℝ) :
    (∃ w d, writeGS found (argsGS r0 z0 bphi0 psimult c (some psi0) psi1 none none nripple a0 alpha0 delta0) = .done w ∧
      readBfield junk (only "B_GS" w) = .ok d) ∧
    provideGS found (argsGS r0 z0 bphi0 psimult c (some psi0) psi1 none none nripple a0 alpha0 delta0) = .fail := by
  obtain ⟨w, hw, hr⟩ := loadedGS found r0 z0 bphi0 psimult c psi0 psi1 none none nripple a0 alpha0 delta0 junk
  refine ⟨⟨w, _, hw, hr⟩, ?_⟩
  unfold provideGS
  simp only [argsGS, tab_length]
  rw [if_neg (by omega)]

/-- Without a grid of its own for the flux a dictionary raises an exception, whatever else it holds; files are accepted (C138). -/
theorem grid_omitted_violation (junk : ℕ → ℝ) (lay : String → Layout) (u : In3D) (v : InSTS) (hu : u.p = none) (hv : v.p = none) :
    provide3D junk lay u = .fail ∧ provideSTS junk lay v = .fail := by
  constructor
  · unfold provide3D; rw [hu]
  · unfold provideSTS; rw [hv]

/-! ### Arrays stored by rows -/

/-- The flux at a grid point is the number that is found in memory where C expects it, whether or not the field can be evaluated on the axis. -/
theorem provided {junk : ℕ → ℝ} {lay : String → Layout} {u : In2D} {f : ℕ → ℕ → ℝ} (h1 : 2 ≤ u.nr) (h2 : 2 ≤ u.nz) (h3 : u.rmin < u.rmax) (h4 : u.zmin < u.zmax)
    (l1 : (mem (lay "psi") u.psi).length = u.nr * u.nz) (l2 : (mem (lay "br") u.br).length = u.nr * u.nz)
    (l3 : (mem (lay "bphi") u.bphi).length = u.nr * u.nz) (l4 : (mem (lay "bz") u.bz).length = u.nr * u.nz)
    (hf : ∀ i < u.nr, ∀ j < u.nz, ptr junk (mem (lay "psi") u.psi) (j * u.nr + i) = f i j) :
    ∃ d, provide2D junk lay u = .ok d ∧ ∀ phi i j, i + 1 < u.nr → j + 1 < u.nz →
      evalPsi d (u.rmin + i * ((u.rmax - u.rmin) / (u.nr - 1))) phi (u.zmin + j * ((u.zmax - u.zmin) / (u.nz - 1))) = some (f i j, 0) := by
  obtain ⟨sp, ep, vp, -⟩ := spline2_spec f h1 h2 h3 h4 hf
  obtain ⟨sa, ea, -⟩ := spline2_spec (t := ptr junk (mem (lay "br") u.br)) (fun i j => ptr junk (mem (lay "br") u.br) (j * u.nr + i)) h1 h2 h3 h4
    fun _ _ _ _ => rfl
  obtain ⟨sb, eb, -⟩ := spline2_spec (t := ptr junk (mem (lay "bphi") u.bphi)) (fun i j => ptr junk (mem (lay "bphi") u.bphi) (j * u.nr + i)) h1 h2 h3 h4
    fun _ _ _ _ => rfl
  obtain ⟨sc, ec, -⟩ := spline2_spec (t := ptr junk (mem (lay "bz") u.bz)) (fun i j => ptr junk (mem (lay "bz") u.bz) (j * u.nr + i)) h1 h2 h3 h4
    fun _ _ _ _ => rfl
  refine ⟨.b2 ⟨u.psi0, u.psi1, u.axisr, u.axisz, sp, sa, sb, sc⟩, ?_, ?_⟩
  · unfold provide2D
    rw [reads_ok l1, ok_bind, reads_ok l2, ok_bind, reads_ok l3, ok_bind, reads_ok l4, ok_bind]
    simp only [ep, ea, eb, ec]
  · intro phi i j hi hj
    obtain ⟨p, p1, -, p3⟩ := vp (u.rmin + i * ((u.rmax - u.rmin) / (u.nr - 1))) (u.zmin + j * ((u.zmax - u.zmin) / (u.nz - 1))) i j 0 0
      ⟨hi, le_refl _, zero_le_one, by simp, by simp⟩ ⟨hj, le_refl _, zero_le_one, by simp, by simp⟩
    have e := values2_grid (g := ⟨u.rmin, u.rmax, u.nr, u.zmin, u.zmax, u.nz⟩) hi hj p3
    show Bfield.withFallback _ (B2.evalPsi _ _ _) = _
    unfold B2.evalPsi; rw [p1, e]; rfl

/-- Arrays as a user makes them by default, stored by rows, on a grid with as many points in R as in z: the flux of the dictionary at R index i and z index j is that given for R index
j and z index i. -/
theorem rows_violation (g : GridRz) (ok : GridRz.Ok g) (hn : g.nr = g.nz) (axisr axisz psi0 psi1 : ℝ) (psi br bphi bz : ℕ → ℕ → ℝ) (junk : ℕ → ℝ) :
    ∃ d, provide2D junk (fun _ => .rows) (args2 g axisr axisz psi0 psi1 psi br bphi bz) = .ok d ∧ ∀ phi i j, i + 1 < g.nr → j + 1 < g.nz →
      evalPsi d (g.rmin + i * ((g.rmax - g.rmin) / (g.nr - 1))) phi (g.zmin + j * ((g.zmax - g.zmin) / (g.nz - 1))) = some (psi j i, 0) := by
  obtain ⟨o1, o2, o3, o4⟩ := ok
  refine provided (u := args2 g axisr axisz psi0 psi1 psi br bphi bz) (f := fun i j => psi j i) o1 o2 o3 o4 ?_ ?_ ?_ ?_ ?_
  iterate 4 simp [mem, args2, nd2_flat]
  intro i hi j hj
  have hi : i < g.nr := hi
  have hj : j < g.nz := hj
  have hk : j * g.nr + i < g.nr * g.nz := by
    calc j * g.nr + i < g.nz * g.nr := index_lt hj hi
      _ = _ := Nat.mul_comm ..
  show ptr junk (nd2 g.nr g.nz psi).flat (j * g.nr + i) = psi j i
  have := divmod (a := j) hi
  rw [nd2_flat, ptr]
  simp only [tab, List.getD_eq_getElem?_getD, List.getElem?_map, List.getElem?_range hk, Option.map_some, Option.getD_some]
  rw [← hn, this.1, this.2]

/-- Arrays of shape (nz, nr), which the writer refuses, are accepted in a dictionary and are taken for their transposes. -/
theorem shape_violation (g : GridRz) (hn : g.nr ≠ g.nz) (axisr axisz psi0 psi1 : ℝ) (psi br bphi bz : ℕ → ℕ → ℝ) (junk : ℕ → ℝ) :
    write2D ⟨g.rmin, g.rmax, g.nr, g.zmin, g.zmax, g.nz, axisr, axisz, nd2 g.nz g.nr fun j i => psi i j, psi0, psi1, nd2 g.nz g.nr fun j i => br i j,
      nd2 g.nz g.nr fun j i => bphi i j, nd2 g.nz g.nr fun j i => bz i j⟩ = .refused ∧
    provide2D junk (fun _ => .rows) ⟨g.rmin, g.rmax, g.nr, g.zmin, g.zmax, g.nz, axisr, axisz, nd2 g.nz g.nr fun j i => psi i j, psi0, psi1,
      nd2 g.nz g.nr fun j i => br i j, nd2 g.nz g.nr fun j i => bphi i j, nd2 g.nz g.nr fun j i => bz i j⟩ =
    provide2D junk (fun _ => .cols) (args2 g axisr axisz psi0 psi1 psi br bphi bz) := by
  constructor
  · unfold write2D
    rw [if_pos]
    simp [nd2, hn.symm]
  · unfold provide2D
    simp only [mem, args2, nd2_flat, nd2_T_flat]

/-- A field that cannot be evaluated on its axis is an error in a file, but not in a dictionary. -/
theorem unchecked_violation (g : GridRz) (ok : GridRz.Ok g) (axisr axisz psi0 psi1 : ℝ) (ha : Outside g axisr axisz) (psi br bphi bz : ℕ → ℕ → ℝ)
    (junk : ℕ → ℝ) :
    ∃ w d, write2D (args2 g axisr axisz psi0 psi1 psi br bphi bz) = .done w ∧ readBfield junk (only "B_2DS" w) = .fail ∧
      provide2D junk (fun _ => .cols) (args2 g axisr axisz psi0 psi1 psi br bphi bz) = .ok d := by
  obtain ⟨w, data, hw, hl, -, -, ho, -⟩ := axisymmetric g ok axisr axisz psi0 psi1 psi br bphi bz junk
  obtain ⟨o1, o2, o3, o4⟩ := ok
  obtain ⟨d, hd, -⟩ := provided (junk := junk) (lay := fun _ => .cols) (u := args2 g axisr axisz psi0 psi1 psi br bphi bz)
    (f := fun i j => ptr junk (nd2 g.nr g.nz psi).T.flat (j * g.nr + i)) o1 o2 o3 o4
    (by simp [mem, args2, nd2_T_flat, Nat.mul_comm]) (by simp [mem, args2, nd2_T_flat, Nat.mul_comm]) (by simp [mem, args2, nd2_T_flat, Nat.mul_comm])
    (by simp [mem, args2, nd2_T_flat, Nat.mul_comm]) fun _ _ _ _ => rfl
  exact ⟨w, d, hw, hl.1 (ho axisr 0 axisz ha).2.2.1, hd⟩

/-! ### The hypotheses can be met -/

/-- A grid of three by three points and a field with a toroidal component of one and flux equal to the R index: the writer accepts it and the file can be read, so the first
theorem applies; stored by rows, the flux at the second R and first z is 0 instead of 1. -/
theorem example_violation (junk : ℕ → ℝ) :
    ∃ w d d', write2D (args2 ⟨1, 3, 3, 0, 2, 3⟩ 1 0 0 1 (fun i _ => i) (fun _ _ => 0) (fun _ _ => 1) (fun _ _ => 0)) = .done w ∧
      readBfield junk (only "B_2DS" w) = .ok d ∧
      provide2D junk (fun _ => .cols) (args2 ⟨1, 3, 3, 0, 2, 3⟩ 1 0 0 1 (fun i _ => i) (fun _ _ => 0) (fun _ _ => 1) (fun _ _ => 0)) = .ok d ∧
      provide2D junk (fun _ => .rows) (args2 ⟨1, 3, 3, 0, 2, 3⟩ 1 0 0 1 (fun i _ => i) (fun _ _ => 0) (fun _ _ => 1) (fun _ _ => 0)) = .ok d' ∧
      evalPsi d 2 0 0 = some (1, 0) ∧ evalPsi d' 2 0 0 = some (0, 0) := by
  have ok : GridRz.Ok ⟨1, 3, 3, 0, 2, 3⟩ := ⟨by norm_num, by norm_num, by norm_num, by norm_num⟩
  obtain ⟨w, d, hw, hl, -, -, -, hv⟩ := axisymmetric ⟨1, 3, 3, 0, 2, 3⟩ ok 1 0 0 1 (fun i _ => i) (fun _ _ => 0) (fun _ _ => 1) (fun _ _ => 0) junk
  have hd : readBfield junk (only "B_2DS" w) = .ok d := by
    obtain ⟨p, a, b, c, -, -, vb, -, -, -, h⟩ := hv 1 0 0 0 0 0 0 ⟨by norm_num, le_refl _, zero_le_one, by simp, by simp⟩
      ⟨by norm_num, le_refl _, zero_le_one, by simp, by simp⟩
    have eb := values2_grid (g := ⟨1, 3, 3, 0, 2, 3⟩) (i := 0) (j := 0) (by norm_num) (by norm_num) vb
    refine hl.2 ?_
    have h := ((h one_ne_zero).2 ?_).1
    · rw [h]; rintro ⟨v, e, he, hne⟩
      injection he with he
      injection he with _ he
      exact hne he.symm
    · intro h
      have := congrArg V3.y h
      simp [withFlux, eb] at this
  obtain ⟨d', hd', hv'⟩ := rows_violation ⟨1, 3, 3, 0, 2, 3⟩ ok rfl 1 0 0 1 (fun i _ => i) (fun _ _ => 0) (fun _ _ => 1) (fun _ _ => 0) junk
  refine ⟨w, d, d', hw, hd, axisymmetric_partial hw (fun _ => rfl) junk junk d hd, hd', ?_, ?_⟩
  · obtain ⟨p, a, b, c, vp, -, -, -, h, -⟩ := hv 2 0 0 1 0 0 0 ⟨by norm_num, le_refl _, zero_le_one, by simp, by norm_num⟩
      ⟨by norm_num, le_refl _, zero_le_one, by simp, by simp⟩
    have ep := values2_grid (g := ⟨1, 3, 3, 0, 2, 3⟩) (i := 1) (j := 0) (by norm_num) (by norm_num) vp
    rw [h, ep]; simp
  · have := hv' 0 1 0 (by norm_num) (by norm_num)
    norm_num at this
    exact this

end Ascot.C145
