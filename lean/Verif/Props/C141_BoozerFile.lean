import Verif.Model.BoozerFile
import Verif.Lemmas.PyFile
import Verif.Lemmas.SplineFun
import Verif.Props.C107_Boozer
set_option linter.unusedSectionVars false
set_option linter.unusedSimpArgs false

/-!
# C141: the Boozer coordinates that the simulation sees are those the user wrote

A user calls `Boozer.write_hdf5` of the Python interface, the program reads the file and evaluates the coordinates.
-/
namespace Ascot.C141
open Ascot.PyFile Ascot.BoozerFile Ascot.Boozer Ascot.Coord Ascot.Tensor Ascot.Smooth Ascot.SplineSetup Ascot.Spline
open Ascot.C106 (HasGrad)
open Ascot.C107 (HasD2 thetaAt zetaAt Defined)
open Ascot.Bfield (evalRho evalPsiDpsi)
open Ascot.MarkerFile (Group readReals readInts)
open Filter Topology

/-! ### Specification -/

/-- What the user knows: the grid of psi, the table `theta i j` of the Boozer angle at psi number `i` and the geometrical angle
`2πj/(nthetag-1)`, the table `nu i j` at psi number `i` and the Boozer angle `2πj/ntheta`, and the contour. -/
structure Tables where
  npsi : ℕ
  psimin : ℝ
  psimax : ℝ
  nthetag : ℕ
  theta : ℕ → ℕ → ℝ
  ntheta : ℕ
  nu : ℕ → ℕ → ℝ
  nrzs : ℕ
  rs : ℕ → ℝ
  zs : ℕ → ℝ

/-- The numbers that the writer asks for and that have no effect in the program. -/
structure Rest where
  rmin : ℝ
  rmax : ℝ
  nr : ℕ
  zmin : ℝ
  zmax : ℝ
  nz : ℕ
  r0 : ℝ
  z0 : ℝ
  psi0 : ℝ
  psi1 : ℝ
  psi : ℕ → ℕ → ℝ

/-- The arguments of a correct call. -/
def args (u : Tables) (v : Rest) : In :=
  ⟨u.psimin, u.psimax, u.npsi, u.ntheta, u.nthetag, v.rmin, v.rmax, v.nr, v.zmin, v.zmax, v.nz, v.r0, v.z0, v.psi0, v.psi1,
    nd2 v.nr v.nz v.psi, nd2 u.npsi u.nthetag u.theta, nd2 u.npsi u.ntheta u.nu, u.nrzs, tab u.nrzs u.rs, tab u.nrzs u.zs⟩

/-- The table of the angle continued beyond one turn: one more turn adds 2π; `p` is the number of the grid point, also negative. -/
noncomputable def turn (n : ℕ) (theta : ℕ → ℕ → ℝ) (i : ℕ) (p : ℤ) : ℝ :=
  theta i (p % ((n : ℤ) - 1)).toNat + 2 * Real.pi * (p / ((n : ℤ) - 1) : ℤ)

/-- The sizes and ranges that are needed. -/
structure Tables.Ok (u : Tables) : Prop where
  psi : 2 ≤ u.npsi
  range : u.psimin < u.psimax
  theta : 5 ≤ u.nthetag
  nu : 3 ≤ u.ntheta

/-- The width of the padding: four grid points. -/
noncomputable def width (n : ℕ) : ℝ := 4 * (2 * Real.pi / (n - 1))

/-! ### Lemmas -/

/-- The table with padding as the code has it. -/
def padded (n : ℕ) (theta : ℕ → ℕ → ℝ) (i j : ℕ) : ℝ :=
  if j < 4 then theta i (n - 5 + j) - theta i (n - 1)
  else if j < n + 4 then theta i (j - 4)
  else theta i (n - 1) + theta i (j - n - 3)

theorem slice_before {n : ℕ} (hn : 5 ≤ n) : slice n ((n : ℤ) - 4 - 1) (-1) = [n - 5, n - 4, n - 3, n - 2] := by
  obtain ⟨m, rfl⟩ : ∃ m, n = m + 5 := ⟨n - 5, by omega⟩
  have e1 : ((m + 5 : ℕ) : ℤ) - 4 - 1 = (m : ℤ) := by push_cast; ring
  unfold slice
  rw [e1]
  simp only [if_neg (show ¬ (m : ℤ) < 0 by omega), if_pos (show (-1 : ℤ) < 0 by norm_num)]
  rw [show (-1 + ((m + 5 : ℕ) : ℤ)).toNat = m + 4 by push_cast; omega, Int.toNat_natCast,
    show min (m + 5) (m + 4) = m + 4 by omega, show min (m + 5) m = m by omega, show m + 4 - m = 4 by omega]
  simp [List.range_succ]

theorem slice_after {n : ℕ} (hn : 5 ≤ n) : slice n 1 (4 + 1) = [1, 2, 3, 4] := by
  unfold slice
  simp only [show ¬ (1 : ℤ) < 0 by norm_num, show ¬ (4 + 1 : ℤ) < 0 by norm_num, if_false]
  rw [show min n (4 + 1 : ℤ).toNat = 5 by simp; omega, show min n (1 : ℤ).toNat = 1 by simp; omega]
  simp [List.range_succ]

theorem pad_eq {n : ℕ} (hn : 5 ≤ n) (theta : ℕ → ℕ → ℝ) :
    pad n (fun j i => theta i j) = some (tab (n + 8) fun j i => padded n theta i j) := by
  unfold pad
  rw [if_neg (by omega), slice_before hn, slice_after hn]
  congr 1
  apply List.ext_getElem
  · simp
  · intro j h1 h2
    rw [tab_get]
    funext i
    simp only [tab_length] at h2
    by_cases c1 : j < 4
    · rw [List.getElem_append_left (by simpa using c1)]
      have : padded n theta i j = theta i (n - 5 + j) - theta i (n - 1) := by unfold padded; rw [if_pos c1]
      rw [this]
      have c : j = 0 ∨ j = 1 ∨ j = 2 ∨ j = 3 := by omega
      rcases c with rfl | rfl | rfl | rfl <;> simp <;> congr 1 <;> omega
    · rw [List.getElem_append_right (by simpa using c1)]
      by_cases c2 : j < n + 4
      · rw [List.getElem_append_left (by simp; omega)]
        have : padded n theta i j = theta i (j - 4) := by unfold padded; rw [if_neg c1, if_pos c2]
        rw [this]
        simp
      · rw [List.getElem_append_right (by simp; omega)]
        have : padded n theta i j = theta i (n - 1) + theta i (j - n - 3) := by unfold padded; rw [if_neg c1, if_neg c2]
        rw [this]
        have c : j = n + 4 ∨ j = n + 5 ∨ j = n + 6 ∨ j = n + 7 := by omega
        rcases c with rfl | rfl | rfl | rfl <;> simp <;> congr 1 <;> omega

/-- If the angle begins at 0 and ends at 2π, the padding continues it. -/
theorem padded_turn {n : ℕ} (hn : 5 ≤ n) {theta : ℕ → ℕ → ℝ} {i : ℕ} (h0 : theta i 0 = 0) (h1 : theta i (n - 1) = 2 * Real.pi) {j : ℕ}
    (hj : j < n + 8) : padded n theta i j = turn n theta i ((j : ℤ) - 4) := by
  obtain ⟨m, rfl⟩ : ∃ m, n = m + 5 := ⟨n - 5, by omega⟩
  have e1 : ((m + 5 : ℕ) : ℤ) - 1 = (m : ℤ) + 4 := by push_cast; ring
  have key : ∀ (p : ℤ) (q : ℤ) (k : ℕ), k < m + 4 → p = k + (m + 4) * q → turn (m + 5) theta i p = theta i k + 2 * Real.pi * q := by
    intro p q k hk hp
    unfold turn
    have h2 : p % ((m : ℤ) + 4) = k := by rw [hp, Int.add_mul_emod_self_left]; exact Int.emod_eq_of_lt (by omega) (by omega)
    have h3 : p / ((m : ℤ) + 4) = q := by
      rw [hp, Int.add_mul_ediv_left _ _ (by omega), Int.ediv_eq_zero_of_lt (by omega) (by omega), zero_add]
    rw [e1, h2, h3, Int.toNat_natCast]
  rw [show m + 5 - 1 = m + 4 by omega] at h1
  unfold padded
  split_ifs with c1 c2
  · rw [show m + 5 - 5 + j = m + j by omega, show m + 5 - 1 = m + 4 by omega, h1, key _ (-1) (m + j) (by omega) (by push_cast; ring)]
    push_cast; ring
  · by_cases c3 : j = m + 8
    · subst c3
      rw [key _ 1 0 (by omega) (by push_cast; ring), h0, show m + 8 - 4 = m + 4 by omega, h1]
      push_cast; ring
    · rw [key _ 0 (j - 4) (by omega) (by push_cast [show 4 ≤ j by omega]; ring)]
      push_cast; ring
  · obtain ⟨l, rfl⟩ : ∃ l, j = m + 9 + l := ⟨j - (m + 9), by omega⟩
    rw [show m + 9 + l - (m + 5) - 3 = l + 1 by omega, show m + 5 - 1 = m + 4 by omega, h1]
    by_cases c4 : l + 1 < m + 4
    · rw [key _ 1 (l + 1) c4 (by push_cast; ring)]
      push_cast; ring
    · have : l = 3 ∧ m = 0 := by omega
      obtain ⟨rfl, rfl⟩ := this
      rw [key _ 2 0 (by omega) (by norm_num), h0, show 3 + 1 = 0 + 4 from rfl, h1]
      push_cast; ring

theorem polygon_congr {r z : ℝ} {rv zv rv' zv' : ℕ → ℝ} {n : ℕ} (hr : ∀ i < n, rv i = rv' i) (hz : ∀ i < n, zv i = zv' i) :
    Wall2D.pointInPolygon r z rv zv n = Wall2D.pointInPolygon r z rv' zv' n := by
  unfold Wall2D.pointInPolygon
  congr 1
  have : ∀ (l : List ℕ) (a : ℕ), (∀ i ∈ l, i + 1 < n) →
      l.foldl (fun hits i => if Wall2D.crosses r z (rv i) (zv i) (rv (i + 1)) (zv (i + 1)) then hits + 1 else hits) a =
      l.foldl (fun hits i => if Wall2D.crosses r z (rv' i) (zv' i) (rv' (i + 1)) (zv' (i + 1)) then hits + 1 else hits) a := by
    intro l
    induction l with
    | nil => intro a _; rfl
    | cons i l ih =>
      intro a h
      have hi := h i (by simp)
      rw [List.foldl_cons, List.foldl_cons, hr i (by omega), hr (i + 1) hi, hz i (by omega), hz (i + 1) hi]
      exact ih _ fun k hk => h k (by simp [hk])
  exact this _ _ fun i hi => by have := List.mem_range.1 hi; omega

theorem rows_flat (n m : ℕ) (f : ℕ → ℕ → ℝ) :
    ((tab n fun j i => f i j).flatMap fun row => (List.range m).map row) = tab (n * m) fun k => f (k % m) (k / m) := by
  have := flatMap_range n m fun j i => f i j
  rw [← this]
  unfold tab
  rw [List.flatMap_map]

theorem write_done {u : Tables} (v : Rest) (h : u.Ok) :
    ∃ g, write (args u v) = .done g ∧ g.ints "ntheta" = some [(u.ntheta : ℤ)] ∧ g.ints "nthetag" = some [((u.nthetag + 8 : ℕ) : ℤ)] ∧
      g.ints "nrzs" = some [(u.nrzs : ℤ)] ∧ g.ints "npsi" = some [(u.npsi : ℤ)] ∧ g.reals "psimin" = some [u.psimin] ∧
      g.reals "psimax" = some [u.psimax] ∧
      g.reals "nu_psitheta" = some (tab (u.npsi * u.ntheta) fun k => u.nu (k % u.npsi) (k / u.npsi)) ∧
      g.reals "theta_psithetageom" = some (tab (u.npsi * (u.nthetag + 8)) fun k => padded u.nthetag u.theta (k % u.npsi) (k / u.npsi)) ∧
      g.reals "rs" = some (tab u.nrzs u.rs) ∧ g.reals "zs" = some (tab u.nrzs u.zs) := by
  have e1 : u.ntheta * u.npsi = u.npsi * u.ntheta := Nat.mul_comm _ _
  have e2 : (u.nthetag + 8) * u.npsi = u.npsi * (u.nthetag + 8) := Nat.mul_comm _ _
  have e3 : (fun j i => (nd2 u.npsi u.nthetag u.theta).T.at' [j, i]) = fun j i => u.theta i j := by
    funext j i; simp [nd2, Nd.T]
  refine ⟨?w, ?a, ?b⟩
  case a =>
    unfold write
    simp only [args, tab_length, nd2_T_flat]
    rw [if_neg (by simp [nd2]), if_neg (by simp [nd2]), if_neg (by simp [nd2]), if_neg (by simp), if_neg (by simp), e3, pad_eq h.theta]
    dsimp only
    rw [rows_flat, createAll_done (by simp [Elems.length])]
  case b => simp [put, empty, e1, e2]

theorem table {junk : ℕ → ℝ} {n m : ℕ} {f : ℕ → ℕ → ℝ} {i j : ℕ} (hi : i < n) (hj : j < m) :
    ext junk (fun k : Fin (n * m) => f (k % n) (k / n)) (j * n + i) = f i j := by
  have h : j * n + i < n * m := by
    calc j * n + i < j * n + n := by omega
      _ = n * (j + 1) := by ring
      _ ≤ n * m := Nat.mul_le_mul_left _ hj
  rw [ext_lt h]
  dsimp only
  rw [show j * n + i = i + n * j by ring, Nat.add_mul_mod_self_left, Nat.mod_eq_of_lt hi, Nat.add_mul_div_left _ _ (by omega),
    Nat.div_eq_of_lt hi, Nat.zero_add]

theorem width_pos {n : ℕ} (hn : 5 ≤ n) : 0 < width n := by
  have : (5 : ℝ) ≤ n := by exact_mod_cast hn
  unfold width
  have := Real.pi_pos
  apply mul_pos (by norm_num)
  apply div_pos <;> linarith

/-- What is read: splines through the table of nu, and through the table of theta with the padding that the writer has added. -/
theorem read_eq (junk : ℕ → ℝ) {u : Tables} (v : Rest) (h : u.Ok) :
    ∃ (g : Group) (d : Boozer.Data) (T Tx Ty Txx Tyy Txy N Nx Ny Nxx Nyy Nxy : ℝ × ℝ → ℝ),
      write (args u v) = .done g ∧ readBoozer junk (only "Boozer" g) = .ok d ∧
      d.psiMin = u.psimin ∧ d.psiMax = u.psimax ∧ (∀ r z, Wall2D.pointInPolygon r z d.rs d.zs d.nrzs = Wall2D.pointInPolygon r z u.rs u.zs u.nrzs) ∧
      IsSplineFun2 u.npsi (u.nthetag + 8) .natural .natural u.psimin u.psimax (-width u.nthetag) (2 * Real.pi + width u.nthetag)
        (padded u.nthetag u.theta) T ∧
      IsSplineFun2 u.npsi u.ntheta .natural .periodic u.psimin u.psimax 0 (2 * Real.pi) u.nu N ∧
      C2two (Set.Icc u.psimin u.psimax ×ˢ Set.Icc (-width u.nthetag) (2 * Real.pi + width u.nthetag)) T Tx Ty Txx Tyy Txy ∧
      C2two (Set.Icc u.psimin u.psimax ×ˢ Set.univ) N Nx Ny Nxx Nyy Nxy ∧
      (∀ x y, u.psimin ≤ x → x ≤ u.psimax → -width u.nthetag ≤ y → y ≤ 2 * Real.pi + width u.nthetag →
        d.theta.df x y = some ⟨T (x, y), Tx (x, y), Ty (x, y), Txx (x, y), Tyy (x, y), Txy (x, y)⟩) ∧
      ∀ x y, u.psimin ≤ x → x ≤ u.psimax → d.nu.df x y = some ⟨N (x, y), Nx (x, y), Ny (x, y), Nxx (x, y), Nyy (x, y), Nxy (x, y)⟩ := by
  obtain ⟨g, hg, h1, h2, h3, h4, h5, h6, h7, h8, h9, h10⟩ := write_done v h
  have hpi := Real.pi_pos
  have hw := width_pos h.theta
  have n5 : (5 : ℝ) ≤ u.nthetag := by exact_mod_cast h.theta
  have n8 : (((u.nthetag + 8 : ℕ) : ℝ) - 2 * 4 - 1) = u.nthetag - 1 := by push_cast; ring
  have hp : 4 * (2 * Real.pi) / (((u.nthetag + 8 : ℕ) : ℝ) - 2 * 4 - 1) = width u.nthetag := by rw [n8]; unfold width; ring
  obtain ⟨sn, N, Nx, Ny, Nxx, Nyy, Nxy, hsn, hN, hCN, hinN, -⟩ := setup2_spec (bx := .natural) (by_ := .periodic) h.psi h.nu h.range
    (show (0 : ℝ) < 2 * Real.pi by linarith) (t := ext junk fun k : Fin (u.npsi * u.ntheta) => u.nu (k % u.npsi) (k / u.npsi)) u.nu
    fun i hi j hj => table hi hj
  obtain ⟨st, T, Tx, Ty, Txx, Tyy, Txy, hst, hT, hCT, hinT, -⟩ := setup2_spec (nx := u.npsi) (ny := u.nthetag + 8) (bx := .natural) (by_ := .natural)
    h.psi (show 2 ≤ u.nthetag + 8 by omega) h.range
    (show -width u.nthetag < 2 * Real.pi + width u.nthetag by linarith)
    (t := ext junk fun k : Fin (u.npsi * (u.nthetag + 8)) => padded u.nthetag u.theta (k % u.npsi) (k / u.npsi)) (padded u.nthetag u.theta)
    fun i hi j hj => table hi hj
  refine ⟨g, ⟨u.psimin, u.psimax, ext junk fun i : Fin u.nrzs => u.rs i, ext junk fun i : Fin u.nrzs => u.zs i, u.nrzs, sn, st⟩,
    T, Tx, Ty, Txx, Tyy, Txy, N, Nx, Ny, Nxx, Nyy, Nxy, hg, ?_, rfl, rfl,
    fun r z => polygon_congr (fun i hi => ext_lt (f := fun i : Fin u.nrzs => u.rs i) hi)
      (fun i hi => ext_lt (f := fun i : Fin u.nrzs => u.zs i) hi), hT, hN, hCT, hCN,
    fun x y a b c e => (hinT x ⟨a, b⟩ y ⟨c, e⟩).2, fun x y a b => (hinN x ⟨a, b⟩ y (Set.mem_univ _)).2⟩
  rw [readBoozer, lastFound_only (r := readGroup junk) (by simp) (by simp)]
  unfold readGroup
  rw [readCount_eq h1, ok_bind, readCount_eq h2, ok_bind, readCount_eq h3, ok_bind, readCount_eq h4, ok_bind, readReal_eq h5, ok_bind,
    readReal_eq h6, ok_bind, readReals_tab h7, ok_bind, readReals_tab h8, ok_bind, readReals_tab h9, ok_bind, readReals_tab h10, ok_bind]
  have hi : init u.npsi u.psimin u.psimax u.ntheta (u.nthetag + 8)
      (ext junk fun k : Fin (u.npsi * u.ntheta) => u.nu (k % u.npsi) (k / u.npsi))
      (ext junk fun k : Fin (u.npsi * (u.nthetag + 8)) => padded u.nthetag u.theta (k % u.npsi) (k / u.npsi)) u.nrzs
      (ext junk fun i : Fin u.nrzs => u.rs i) (ext junk fun i : Fin u.nrzs => u.zs i) =
      some ⟨u.psimin, u.psimax, ext junk fun i : Fin u.nrzs => u.rs i, ext junk fun i : Fin u.nrzs => u.zs i, u.nrzs, sn, st⟩ := by
    unfold init
    rw [if_neg (by rw [n8]; linarith)]
    dsimp only
    rw [hp, zero_sub, hsn, hst]
  rw [hi]
  rfl

theorem IsSplineFun2.congr {nx ny : ℕ} {bx by_ : Linint.BC} {x0 x1 y0 y1 : ℝ} {f f' : ℕ → ℕ → ℝ} {F : ℝ × ℝ → ℝ}
    (e : ∀ i < nx, ∀ j < ny, f i j = f' i j) (h : IsSplineFun2 nx ny bx by_ x0 x1 y0 y1 f F) : IsSplineFun2 nx ny bx by_ x0 x1 y0 y1 f' F := by
  intro x y i j d e' h1 h2
  obtain ⟨qy, qx, a, b, c⟩ := h x y i j d e' h1 h2
  exact ⟨qy, qx, fun i hi => isSpline_congr (fun j hj => e i hi j hj) (a i hi), b, c⟩

/-- Evaluations with data that was read. -/
theorem evaluate {d : Boozer.Data} {T Tx Ty Txx Tyy Txy N Nx Ny Nxx Nyy Nxy : ℝ × ℝ → ℝ} {w : ℝ} (hw : 0 < w)
    (hCT : C2two (Set.Icc d.psiMin d.psiMax ×ˢ Set.Icc (-w) (2 * Real.pi + w)) T Tx Ty Txx Tyy Txy)
    (hCN : C2two (Set.Icc d.psiMin d.psiMax ×ˢ Set.univ) N Nx Ny Nxx Nyy Nxy)
    (hT : ∀ x y, d.psiMin ≤ x → x ≤ d.psiMax → -w ≤ y → y ≤ 2 * Real.pi + w →
        d.theta.df x y = some ⟨T (x, y), Tx (x, y), Ty (x, y), Txx (x, y), Tyy (x, y), Txy (x, y)⟩)
    (hN : ∀ x y, d.psiMin ≤ x → x ≤ d.psiMax → d.nu.df x y = some ⟨N (x, y), Nx (x, y), Ny (x, y), Nxx (x, y), Nyy (x, y), Nxy (x, y)⟩)
    {b : Bfield.Data} {r phi z : ℝ} {g : Grad} {r0 z0 : ℝ} (h1 : Wall2D.pointInPolygon r z d.rs d.zs d.nrzs ≠ 0)
    (h2 : evalPsiDpsi b r phi z = some (g, 0)) (h3 : (evalRho b g.v).2.2 = 0) (h4 : Bfield.axis b phi = some ((r0, z0), 0))
    (h5 : d.psiMin < g.v) (h6 : g.v < d.psiMax) (h7 : r ≠ r0 ∨ z ≠ z0) :
    ∃ p, eval d b r phi z = some (.ok (some p)) ∧ p.psi.v = g.v ∧ p.theta.v = T (g.v, thgeo r z r0 z0) ∧
      (0 ≤ p.zeta.v ∧ p.zeta.v < 2 * Real.pi) ∧ (∃ k : ℤ, p.zeta.v = phi + N (g.v, p.theta.v) + k * (2 * Real.pi)) ∧
      ((r < r0 ∨ z ≠ z0) → ∀ (Psi : ℝ → ℝ → ℝ → ℝ) (R0 Z0 : ℝ → ℝ), HasGrad Psi r phi z g → R0 phi = r0 → Z0 phi = z0 →
        (HasDerivAt (fun x => Psi x phi z) p.psi.d1 r ∧ HasDerivAt (fun y => Psi r phi y) p.psi.d3 z) ∧
        (HasDerivAt (fun x => thetaAt Psi (fun a b => T (a, b)) R0 Z0 x phi z) p.theta.d1 r ∧
          HasDerivAt (fun y => thetaAt Psi (fun a b => T (a, b)) R0 Z0 r phi y) p.theta.d3 z) ∧
        HasDerivAt (fun x => zetaAt Psi (fun a b => T (a, b)) (fun a b => N (a, b)) R0 Z0 x phi z) p.zeta.d1 r ∧
          HasDerivAt (fun y => zetaAt Psi (fun a b => T (a, b)) (fun a b => N (a, b)) R0 Z0 r phi y) p.zeta.d3 z) := by
  have hpi := Real.pi_pos
  have ht := C107.fmod_range (show (0 : ℝ) < 2 * Real.pi by linarith) (atan2 (z - z0) (r - r0) + 2 * Real.pi)
  change 0 ≤ thgeo r z r0 z0 ∧ thgeo r z r0 z0 < 2 * Real.pi at ht
  obtain ⟨ht0, ht1⟩ := ht
  have hD : Defined d b r phi z g r0 z0 _ _ := ⟨h1, h2, h3, h4, h5, h6, hT g.v (thgeo r z r0 z0) h5.le h6.le (by linarith) (by linarith),
    hN g.v _ h5.le h6.le, h7⟩
  have he := (C107.inside d b r phi z _).2 ⟨g, r0, z0, _, _, hD, rfl⟩
  obtain ⟨g', r0', z0', T', N', hD', v1, v2, -, -, v3, v4⟩ := C107.values he
  have eg : g' = g := by have := hD'.psi.symm.trans hD.psi; simpa using this
  have ea : (r0', z0') = (r0, z0) := by have := hD'.axis.symm.trans hD.axis; simpa using this
  obtain ⟨rfl, rfl⟩ := Prod.mk.inj ea
  subst eg
  have eT := Option.some.inj (hD'.theta.symm.trans hD.theta)
  have eN := Option.some.inj (hD'.nu.symm.trans ((congrArg (fun t : Bfield.D2 => d.nu.df g'.v t.v) eT).trans hD.nu))
  refine ⟨_, he, rfl, rfl, v3, ?_, fun hray Psi R0 Z0 hP hR hZ => ?_⟩
  · obtain ⟨k, hk⟩ := v4
    refine ⟨k, ?_⟩
    rw [hk, eN]
    rfl
  · have hpsi : Set.Icc d.psiMin d.psiMax ∈ 𝓝 g'.v := Icc_mem_nhds h5 h6
    obtain ⟨p, hp, res⟩ := C107.poloidal (Theta := fun a b => T (a, b)) (Nu := fun a b => N (a, b)) hD hP
      ⟨rfl, interior_deriv (bx := .natural) (by_ := .natural) (y := thgeo r z r0' z0') hCT hpsi
        (Icc_mem_nhds (by linarith) (by linarith))⟩
      ⟨rfl, interior_deriv (bx := .natural) (by_ := .periodic) (y := T (g'.v, thgeo r z r0' z0')) (y0 := 0) (y1 := 1) hCN hpsi univ_mem⟩
      hR hZ hray
    rw [he] at hp
    injection hp with hp
    injection hp with hp
    injection hp with hp
    subst hp
    exact res

/-! ### The property -/

/-- The Boozer coordinates.  `Theta` is the spline through the table that the user wrote, continued by whole turns, and `Nu` the one
through the table of nu, which is periodic in the angle.  At every point inside of the user's contour and the range of psi the
evaluation succeeds and gives the flux, `Theta` at the flux and the geometrical angle, and `phi + Nu` up to whole turns; the derivatives
are those of these functions, except where the geometrical angle jumps.  Outside there are no coordinates. -/
theorem transformation (junk : ℕ → ℝ) {u : Tables} (v : Rest) (h : u.Ok)
    (hth : ∀ i < u.npsi, u.theta i 0 = 0 ∧ u.theta i (u.nthetag - 1) = 2 * Real.pi) :
    ∃ (g : Group) (d : Boozer.Data) (Theta Nu : ℝ × ℝ → ℝ),
      write (args u v) = .done g ∧ readBoozer junk (only "Boozer" g) = .ok d ∧
      IsSplineFun2 u.npsi (u.nthetag + 8) .natural .natural u.psimin u.psimax (-width u.nthetag) (2 * Real.pi + width u.nthetag)
        (fun i j => turn u.nthetag u.theta i ((j : ℤ) - 4)) Theta ∧
      IsSplineFun2 u.npsi u.ntheta .natural .periodic u.psimin u.psimax 0 (2 * Real.pi) u.nu Nu ∧
      (∀ (b : Bfield.Data) (r phi z : ℝ) (g : Grad) (r0 z0 : ℝ), Wall2D.pointInPolygon r z u.rs u.zs u.nrzs ≠ 0 →
        evalPsiDpsi b r phi z = some (g, 0) → (evalRho b g.v).2.2 = 0 → Bfield.axis b phi = some ((r0, z0), 0) →
        u.psimin < g.v → g.v < u.psimax → r ≠ r0 ∨ z ≠ z0 →
        ∃ p, eval d b r phi z = some (.ok (some p)) ∧ p.psi.v = g.v ∧ p.theta.v = Theta (g.v, thgeo r z r0 z0) ∧
          (0 ≤ p.zeta.v ∧ p.zeta.v < 2 * Real.pi) ∧ (∃ k : ℤ, p.zeta.v = phi + Nu (g.v, p.theta.v) + k * (2 * Real.pi)) ∧
          ((r < r0 ∨ z ≠ z0) → ∀ (Psi : ℝ → ℝ → ℝ → ℝ) (R0 Z0 : ℝ → ℝ), HasGrad Psi r phi z g → R0 phi = r0 → Z0 phi = z0 →
            (HasDerivAt (fun x => Psi x phi z) p.psi.d1 r ∧ HasDerivAt (fun y => Psi r phi y) p.psi.d3 z) ∧
            (HasDerivAt (fun x => thetaAt Psi (fun a b => Theta (a, b)) R0 Z0 x phi z) p.theta.d1 r ∧
              HasDerivAt (fun y => thetaAt Psi (fun a b => Theta (a, b)) R0 Z0 r phi y) p.theta.d3 z) ∧
            HasDerivAt (fun x => zetaAt Psi (fun a b => Theta (a, b)) (fun a b => Nu (a, b)) R0 Z0 x phi z) p.zeta.d1 r ∧
              HasDerivAt (fun y => zetaAt Psi (fun a b => Theta (a, b)) (fun a b => Nu (a, b)) R0 Z0 r phi y) p.zeta.d3 z)) ∧
      ∀ (b : Bfield.Data) (r phi z : ℝ), (Wall2D.pointInPolygon r z u.rs u.zs u.nrzs = 0 → eval d b r phi z = some (.ok none)) ∧
        ∀ g r0z0, evalPsiDpsi b r phi z = some (g, 0) → (evalRho b g.v).2.2 = 0 → Bfield.axis b phi = some (r0z0, 0) →
          (g.v ≤ u.psimin ∨ u.psimax ≤ g.v) → eval d b r phi z = some (.ok none) := by
  obtain ⟨g, d, T, Tx, Ty, Txx, Tyy, Txy, N, Nx, Ny, Nxx, Nyy, Nxy, hg, hd, e1, e2, e3, hT, hN, hCT, hCN, hinT, hinN⟩ := read_eq junk v h
  refine ⟨g, d, T, N, hg, hd, IsSplineFun2.congr (fun i hi j hj => padded_turn h.theta (hth i hi).1 (hth i hi).2 hj) hT, hN, ?_, ?_⟩
  · intro b r phi z g r0 z0 h1 h2 h3 h4 h5 h6 h7
    rw [← e3] at h1
    rw [← e1] at hCT hCN hinT hinN h5
    rw [← e2] at hCT hCN hinT hinN h6
    exact evaluate (width_pos h.theta) hCT hCN hinT hinN h1 h2 h3 h4 h5 h6 h7
  · intro b r phi z
    have := C107.outside d b r phi z
    rw [e3, e1, e2] at this
    exact this

/-- The user's tables are reproduced at their grid points: for theta at the geometrical angles `2πj/(nthetag-1)`, also if the angle
does not begin at zero, and for nu at the Boozer angles `2πj/ntheta`. -/
theorem tabulated (junk : ℕ → ℝ) {u : Tables} (v : Rest) (h : u.Ok) :
    ∃ (g : Group) (d : Boozer.Data), write (args u v) = .done g ∧ readBoozer junk (only "Boozer" g) = .ok d ∧
      (∀ i j, i + 1 < u.npsi → j < u.nthetag →
        ∃ p, d.theta.df (u.psimin + i * ((u.psimax - u.psimin) / (u.npsi - 1))) (j * (2 * Real.pi / (u.nthetag - 1))) = some p ∧
          p.v = u.theta i j) ∧
      ∀ i j, i + 1 < u.npsi → j < u.ntheta →
        ∃ p, d.nu.df (u.psimin + i * ((u.psimax - u.psimin) / (u.npsi - 1))) (j * (2 * Real.pi / u.ntheta)) = some p ∧ p.v = u.nu i j := by
  obtain ⟨g, d, T, Tx, Ty, Txx, Tyy, Txy, N, Nx, Ny, Nxx, Nyy, Nxy, hg, hd, e1, e2, e3, hT, hN, hCT, hCN, hinT, hinN⟩ := read_eq junk v h
  have hpi := Real.pi_pos
  have hw := width_pos h.theta
  have n5 : (5 : ℝ) ≤ u.nthetag := by exact_mod_cast h.theta
  have p2 : (2 : ℝ) ≤ u.npsi := by exact_mod_cast h.psi
  have hx : ∀ i, i + 1 < u.npsi → u.psimin ≤ u.psimin + i * ((u.psimax - u.psimin) / (u.npsi - 1)) ∧
      u.psimin + i * ((u.psimax - u.psimin) / (u.npsi - 1)) ≤ u.psimax := by
    intro i hi
    have hm := h.range
    have h0 : (0 : ℝ) ≤ i := Nat.cast_nonneg i
    have h1 : ((i + 1 : ℕ) : ℝ) < u.npsi := by exact_mod_cast hi
    push_cast at h1
    have h2 : 0 ≤ (u.psimax - u.psimin) / ((u.npsi : ℝ) - 1) := div_nonneg (by linarith) (by linarith)
    refine ⟨by nlinarith, ?_⟩
    have h3 : (i : ℝ) * ((u.psimax - u.psimin) / ((u.npsi : ℝ) - 1)) ≤ ((u.npsi : ℝ) - 1) * ((u.psimax - u.psimin) / ((u.npsi : ℝ) - 1)) :=
      mul_le_mul_of_nonneg_right (by linarith) h2
    rw [mul_div_cancel₀ _ (by linarith)] at h3
    linarith
  refine ⟨g, d, hg, hd, fun i j hi hj => ?_, fun i j hi hj => ?_⟩
  · have hs : spacing (u.nthetag + 8) .natural (-width u.nthetag) (2 * Real.pi + width u.nthetag) = 2 * Real.pi / (u.nthetag - 1) := by
      have a1 : (u.nthetag : ℝ) - 1 ≠ 0 := by linarith
      have a2 : (u.nthetag : ℝ) + 8 - 1 ≠ 0 := by linarith
      unfold spacing width
      push_cast
      field_simp
      ring
    have key := hT.tabulated (i := i) (j := j + 4) (by omega) (by omega) (fun _ => hi) (fun _ => by omega)
    rw [hs] at key
    have e : -width u.nthetag + ((j + 4 : ℕ) : ℝ) * (2 * Real.pi / (u.nthetag - 1)) = j * (2 * Real.pi / (u.nthetag - 1)) := by
      unfold width; push_cast; ring
    rw [e] at key
    have hj0 : (0 : ℝ) ≤ j * (2 * Real.pi / (u.nthetag - 1)) := mul_nonneg (Nat.cast_nonneg j) (div_nonneg (by linarith) (by linarith))
    have hj1 : (j : ℝ) * (2 * Real.pi / (u.nthetag - 1)) ≤ 2 * Real.pi := by
      have c : ((j + 1 : ℕ) : ℝ) ≤ u.nthetag := by exact_mod_cast hj
      push_cast at c
      calc (j : ℝ) * (2 * Real.pi / (u.nthetag - 1)) ≤ ((u.nthetag : ℝ) - 1) * (2 * Real.pi / (u.nthetag - 1)) :=
            mul_le_mul_of_nonneg_right (by linarith) (div_nonneg (by linarith) (by linarith))
        _ = 2 * Real.pi := mul_div_cancel₀ _ (by linarith)
    refine ⟨_, hinT _ _ (hx i hi).1 (hx i hi).2 (by linarith) (by linarith), ?_⟩
    refine key.trans ?_
    unfold padded
    rw [if_neg (by omega), if_pos (by omega), Nat.add_sub_cancel]
  · have key := hN.tabulated (i := i) (j := j) (by omega) hj (fun _ => hi) (fun h => by cases h)
    refine ⟨_, hinN _ _ (hx i hi).1 (hx i hi).2, ?_⟩
    rw [← key]
    simp [spacing]

/-- Tables and contours of other sizes are refused. -/
theorem refused (u : In) (h : u.psi_rz.shape ≠ [u.nr, u.nz] ∨ u.theta.shape ≠ [u.npsi, u.nthetag] ∨ u.nu.shape ≠ [u.npsi, u.ntheta] ∨
    u.rs.length ≠ u.nrzs ∨ u.zs.length ≠ u.nrzs) : write u = .refused := by
  unfold write
  split_ifs <;> first | rfl | simp_all

/-- Straight coordinates: if the Boozer angle of the table is the geometrical angle and nu is zero, then the evaluation gives the
geometrical angle, and the toroidal angle up to whole turns, at every point with coordinates; the splines add nothing. -/
theorem identity (junk : ℕ → ℝ) {u : Tables} (v : Rest) (h : u.Ok) (ht : ∀ i j, u.theta i j = j * (2 * Real.pi / (u.nthetag - 1)))
    (hn : ∀ i j, u.nu i j = 0) :
    ∃ (g : Group) (d : Boozer.Data), write (args u v) = .done g ∧ readBoozer junk (only "Boozer" g) = .ok d ∧
      ∀ (b : Bfield.Data) (r phi z : ℝ) (g : Grad) (r0 z0 : ℝ), Wall2D.pointInPolygon r z u.rs u.zs u.nrzs ≠ 0 →
        evalPsiDpsi b r phi z = some (g, 0) → (evalRho b g.v).2.2 = 0 → Bfield.axis b phi = some ((r0, z0), 0) →
        u.psimin < g.v → g.v < u.psimax → r ≠ r0 ∨ z ≠ z0 →
        ∃ p, eval d b r phi z = some (.ok (some p)) ∧ p.psi.v = g.v ∧ p.theta.v = thgeo r z r0 z0 ∧
          (0 ≤ p.zeta.v ∧ p.zeta.v < 2 * Real.pi) ∧ ∃ k : ℤ, p.zeta.v = phi + k * (2 * Real.pi) := by
  have hpi := Real.pi_pos
  have hw := width_pos h.theta
  have n5 : (5 : ℝ) ≤ u.nthetag := by exact_mod_cast h.theta
  have p2 : (2 : ℝ) ≤ u.npsi := by exact_mod_cast h.psi
  have n3 : (3 : ℝ) ≤ u.ntheta := by exact_mod_cast h.nu
  have a1 : (u.nthetag : ℝ) - 1 ≠ 0 := by linarith
  have hend : ∀ i, u.theta i (u.nthetag - 1) = 2 * Real.pi := fun i => by
    rw [ht, Nat.cast_sub (by have := h.theta; omega)]
    push_cast
    exact mul_div_cancel₀ _ a1
  obtain ⟨g, d, T, N, hg, hd, hT, hN, he, -⟩ := transformation junk v h fun i _ => ⟨by rw [ht]; simp, hend i⟩
  refine ⟨g, d, hg, hd, ?_⟩
  intro b r phi z g r0 z0 h1 h2 h3 h4 h5 h6 h7
  obtain ⟨p, e1, e2, e3, e4, ⟨k, e5⟩, -⟩ := he b r phi z g r0 z0 h1 h2 h3 h4 h5 h6 h7
  have hs : spacing (u.nthetag + 8) .natural (-width u.nthetag) (2 * Real.pi + width u.nthetag) = 2 * Real.pi / (u.nthetag - 1) := by
    have a2 : (u.nthetag : ℝ) + 8 - 1 ≠ 0 := by linarith
    unfold spacing width
    push_cast
    field_simp
    ring
  have hsp : spacing u.npsi .natural u.psimin u.psimax ≠ 0 := by
    have := h.range
    unfold spacing
    exact (div_pos (by linarith) (by linarith)).ne'
  have hgx : g.v ∈ axis .natural u.psimin u.psimax := ⟨h5.le, h6.le⟩
  obtain ⟨i, dx, hi⟩ := atCell_exists (n := u.npsi) (bc := .natural) h.psi h.range hgx
  have ei : i < cells u.npsi .natural := by have := hi.1; simp [cells]; omega
  have hTt : ∀ y, -width u.nthetag ≤ y → y ≤ 2 * Real.pi + width u.nthetag → T (g.v, y) = y := by
    intro y y0 y1
    have hy : y ∈ axis .natural (-width u.nthetag) (2 * Real.pi + width u.nthetag) := ⟨y0, y1⟩
    obtain ⟨j, dy, hj⟩ := atCell_exists (n := u.nthetag + 8) (bc := .natural) (show 2 ≤ u.nthetag + 8 by omega) (by linarith) hy
    have ej : j < cells (u.nthetag + 8) .natural := by have := hj.1; simp [cells]; omega
    have key := hT g.v y i j dx dy hi hj
    have yv : y = -width u.nthetag + (j + dy) * (2 * Real.pi / (u.nthetag - 1)) := by
      rw [← hs]; exact hj.2.2.2.2
    refine value2_unique (enough_natural h.psi) (enough_natural (by omega)) hsp (by rw [hs]; positivity) ei ej key
      ⟨fun _ j => ⟨-width u.nthetag + j * (2 * Real.pi / (u.nthetag - 1)), 2 * Real.pi / (u.nthetag - 1), 0, 0⟩,
        fun _ => ⟨y, 0, 0, 0⟩, fun i hi => ?_, ?_, by simp [Cubic.op, Cubic.val]⟩
    · have tv : ∀ j < u.nthetag + 8, turn u.nthetag u.theta i ((j : ℤ) - 4) = -width u.nthetag + j * (2 * Real.pi / (u.nthetag - 1)) := by
        intro j hj
        rw [← padded_turn h.theta (by rw [ht]; simp) (hend i) hj]
        have := h.theta
        unfold padded
        split_ifs with c1 c2
        · rw [hend, ht]; unfold width
          push_cast [Nat.cast_sub this]
          field_simp
          ring
        · rw [ht]; unfold width
          rw [Nat.cast_sub (by omega)]
          push_cast
          ring
        · rw [hend, ht, show j - u.nthetag - 3 = j - (u.nthetag + 3) by omega, Nat.cast_sub (by omega)]; unfold width
          push_cast
          field_simp
          ring
      refine isSpline_congr (fun j hj => (tv j hj).symm) ⟨fun j _ => by simp [Cubic.val], fun j _ => ?_, fun j _ => by simp [Cubic.der],
        fun j _ => by simp [Cubic.der2], by simp [Cubic.der2], by simp [Cubic.der2]⟩
      simp only [Cubic.val]; push_cast; ring
    · have : (fun i : ℕ => (⟨-width u.nthetag + j * (2 * Real.pi / (u.nthetag - 1)), 2 * Real.pi / (u.nthetag - 1), 0, 0⟩ : Cubic ℝ).op .val
          (spacing (u.nthetag + 8) .natural (-width u.nthetag) (2 * Real.pi + width u.nthetag)) dy) = fun _ => y := by
        funext _
        simp only [Cubic.op, Cubic.val]
        rw [yv]; ring
      rw [this]
      exact ⟨by simp [Cubic.val], by simp [Cubic.val], by simp [Cubic.der], by simp [Cubic.der2], by simp [Cubic.der2], by simp [Cubic.der2]⟩
  have hNn : ∀ y, N (g.v, y) = 0 := by
    intro y
    obtain ⟨j, dy, hj⟩ := atCell_exists (n := u.ntheta) (bc := .periodic) h.nu (show (0 : ℝ) < 2 * Real.pi by linarith) (Set.mem_univ y)
    have ej : j < cells u.ntheta .periodic := by have := hj.1; simpa [cells] using this
    have key := hN g.v y i j dx dy hi hj
    refine value2_unique (enough_natural h.psi) (enough_periodic h.nu) hsp (by unfold spacing; exact (div_pos (by linarith) (by linarith)).ne') ei ej key
      ⟨fun _ _ => ⟨0, 0, 0, 0⟩, fun _ => ⟨0, 0, 0, 0⟩, fun i hi => ?_, ?_, by simp [Cubic.op, Cubic.val]⟩
    · exact ⟨by simp [Cubic.val, hn], by simp [Cubic.val, hn], by simp [Cubic.der], by simp [Cubic.der2]⟩
    · exact ⟨by simp [Cubic.val, Cubic.op], by simp [Cubic.val, Cubic.op], by simp [Cubic.der], by simp [Cubic.der2], by simp [Cubic.der2],
        by simp [Cubic.der2]⟩
  have ht' := C107.fmod_range (show (0 : ℝ) < 2 * Real.pi by linarith) (atan2 (z - z0) (r - r0) + 2 * Real.pi)
  change 0 ≤ thgeo r z r0 z0 ∧ thgeo r z r0 z0 < 2 * Real.pi at ht'
  obtain ⟨ht0, ht1⟩ := ht'
  refine ⟨p, e1, e2, by rw [e3]; exact hTt _ (by linarith) (by linarith), e4, k, by rw [e5, hNn, add_zero]⟩

/-- **Violation.** The documentation asks for tables of the angle in which the last value of a row is 2π above the first.  If the first value
is not zero, the padding does not continue the table, and the angle between the points of the table is wrong: for the table of the
function `1 + y`, which splines reproduce, the evaluation does not give `1 + y`. -/
theorem offset_violation (junk : ℕ → ℝ) (v : Rest) :
    ∃ (u : Tables) (g : Group) (d : Boozer.Data), u.Ok ∧ (∀ i j, u.theta i j = 1 + j * (2 * Real.pi / (u.nthetag - 1))) ∧
      (∀ i, u.theta i (u.nthetag - 1) = u.theta i 0 + 2 * Real.pi) ∧
      write (args u v) = .done g ∧ readBoozer junk (only "Boozer" g) = .ok d ∧ u.psimin < 1 / 2 ∧ 1 / 2 < u.psimax ∧
      ¬ ∀ y, 0 ≤ y → y < 2 * Real.pi → ∃ p, d.theta.df (1 / 2) y = some p ∧ p.v = 1 + y := by
  have hpi := Real.pi_pos
  let u : Tables := ⟨3, 0, 1, 5, fun _ j => 1 + j * (2 * Real.pi / ((5 : ℕ) - 1)), 3, fun _ _ => 0, 0, fun _ => 0, fun _ => 0⟩
  have h : u.Ok := ⟨by decide, zero_lt_one, by decide, by decide⟩
  obtain ⟨g, d, T, Tx, Ty, Txx, Tyy, Txy, N, Nx, Ny, Nxx, Nyy, Nxy, hg, hd, e1, e2, e3, hT, hN, hCT, hCN, hinT, hinN⟩ := read_eq junk v h
  refine ⟨u, g, d, h, fun i j => rfl, fun i => ?_, hg, hd, by norm_num [u], by norm_num [u], fun hall => ?_⟩
  · simp only [u]; push_cast; ring
  have hw : width u.nthetag = 2 * Real.pi := by simp only [width, u]; push_cast; ring
  rw [hw] at hT hinT
  obtain ⟨q, hq⟩ := C71.exists_spline (enough_natural (show 2 ≤ u.nthetag + 8 by omega)) fun j => padded u.nthetag u.theta 1 j
  have hx : AtCell u.npsi .natural u.psimin u.psimax (1 / 2) 1 0 := ⟨by decide, le_rfl, zero_le_one, by simp, by simp only [u]; push_cast; norm_num⟩
  have val : ∀ e, 0 ≤ e → e < 1 → (q 4).val e = 1 + e * (Real.pi / 2) := by
    intro e e0 e1
    have hy : AtCell (u.nthetag + 8) .natural (-(2 * Real.pi)) (2 * Real.pi + 2 * Real.pi) (e * (Real.pi / 2)) 4 e :=
      ⟨by decide, e0, e1.le, fun c => absurd c e1.ne, by simp only [u]; push_cast; ring⟩
    obtain ⟨qy, qx, a1, a2, a3⟩ := hT _ _ _ _ _ _ hx hy
    have hz : sizeOk (u.nthetag + 8) .natural = true := by decide
    have b1 := Interp.spline_unique hz (a1 1 (by decide))
    have b2 := Interp.spline_unique hz hq
    have b3 : T (1 / 2, e * (Real.pi / 2)) = (q 4).val e := by
      rw [a3]
      simp only [Cubic.op] at a2 ⊢
      rw [a2.left 1 (by decide), b1 4 (by decide), b2 4 (by decide)]
    obtain ⟨p, c1, c2⟩ := hall (e * (Real.pi / 2)) (by positivity) (by nlinarith)
    rw [hinT _ _ (by norm_num [u]) (by norm_num [u]) (by nlinarith) (by nlinarith)] at c1
    rw [← Option.some.inj c1] at c2
    rw [← b3]
    exact c2
  have pv : ∀ j < 4, padded u.nthetag u.theta 1 j = ((j : ℝ) - 4) * (Real.pi / 2) := by
    intro j hj
    unfold padded
    rw [if_pos hj]
    simp only [u]
    push_cast
    ring
  have p4 : padded u.nthetag u.theta 1 4 = 1 := by simp [padded, u]
  have v0 := val 0 le_rfl zero_lt_one
  have v1 := val (1 / 4) (by norm_num) (by norm_num)
  have v2 := val (1 / 2) (by norm_num) (by norm_num)
  have v3 := val (3 / 4) (by norm_num) (by norm_num)
  have l0 := hq.left 0 (by decide)
  have l1 := hq.left 1 (by decide)
  have l2 := hq.left 2 (by decide)
  have l3 := hq.left 3 (by decide)
  have r0 := hq.right 0 (by decide)
  have r1 := hq.right 1 (by decide)
  have r2 := hq.right 2 (by decide)
  have r3 := hq.right 3 (by decide)
  have d0 := hq.der 0 (by decide)
  have d1 := hq.der 1 (by decide)
  have d2 := hq.der 2 (by decide)
  have d3 := hq.der 3 (by decide)
  have s0 := hq.der2 0 (by decide)
  have s1 := hq.der2 1 (by decide)
  have s2 := hq.der2 2 (by decide)
  have s3 := hq.der2 3 (by decide)
  have f0 := hq.first
  rw [pv 0 (by decide)] at l0
  rw [pv 1 (by decide)] at l1 r0
  rw [pv 2 (by decide)] at l2 r1
  rw [pv 3 (by decide)] at l3 r2
  rw [p4] at r3
  simp only [Cubic.val, Cubic.der, Cubic.der2] at *
  norm_num at l0 l1 l2 l3 r0 r1 r2 r3 d0 d1 d2 d3 s0 s1 s2 s3 f0 v0 v1 v2 v3
  have A : (q 4).b = Real.pi / 2 ∧ (q 4).c = 0 ∧ (q 4).e = 0 := ⟨by linarith, by linarith, by linarith⟩
  obtain ⟨A1, A2, A3⟩ := A
  linarith

/-- **Violation.** A table with four angles is accepted by the checks of the Python interface, but the padding needs five: the function stops after it
has made a part of the group, and the program cannot read it. -/
theorem few_angles_violation (junk : ℕ → ℝ) (theta nu : ℕ → ℕ → ℝ) :
    ∃ g, write (args ⟨3, 0, 1, 4, theta, 3, nu, 0, fun _ => 0, fun _ => 0⟩ ⟨1, 2, 0, -1, 1, 0, 1, 0, 0, 1, fun _ _ => 0⟩) = .broken g ∧
      readBoozer junk (only "Boozer" g) = .fail := by
  refine ⟨?w, ?a, ?b⟩
  case a =>
    unfold write
    simp only [args, tab_length, nd2_T_flat]
    rw [if_neg (by simp [nd2]), if_neg (by simp [nd2]), if_neg (by simp [nd2]), if_neg (by simp), if_neg (by simp)]
    unfold pad
    rw [if_neg (by decide)]
    simp only [createAll, create, Elems.length, tab_length, List.prod_cons, List.prod_nil, List.length_cons, List.length_nil]
    simp [slice]
    rfl
  case b =>
    rw [readBoozer, lastFound_only (r := readGroup junk) (by simp) (by simp)]
    unfold readGroup
    rw [readCount_eq (n := 3) (by simp [put, empty]), ok_bind, readCount_eq (n := 12) (by simp [put, empty]), ok_bind,
      readCount_eq (n := 0) (by simp [put, empty]), ok_bind, readCount_eq (n := 3) (by simp [put, empty]), ok_bind,
      readReal_eq (x := 0) (by simp [put, empty]), ok_bind, readReal_eq (x := 1) (by simp [put, empty]), ok_bind,
      readReals_none (by simp [put, empty])]
    rfl

/-- The conditions of `transformation` and `identity` hold for the table of straight coordinates with three values of psi and nine angles. -/
example : (⟨3, 0, 1, 9, fun _ j => j * (2 * Real.pi / ((9 : ℕ) - 1)), 8, fun _ _ => 0, 0, fun _ => 0, fun _ => 0⟩ : Tables).Ok ∧
    ((0 : ℕ) : ℝ) * (2 * Real.pi / ((9 : ℕ) - 1)) = 0 ∧ ((9 - 1 : ℕ) : ℝ) * (2 * Real.pi / ((9 : ℕ) - 1)) = 2 * Real.pi := by
  refine ⟨⟨by decide, zero_lt_one, by decide, by decide⟩, by simp, by push_cast; ring⟩

end Ascot.C141
