import Mathlib.Analysis.Calculus.FDeriv.Prod
import Mathlib.Analysis.Calculus.Deriv.Prod
import Mathlib.Analysis.Calculus.Deriv.Comp
import Mathlib.Analysis.SpecialFunctions.Trigonometric.Deriv
import Verif.Lemmas.Coord

/-!
# C44, C45: conversions between Cartesian and cylindrical coordinates
-/
set_option linter.unusedSectionVars false
set_option linter.unusedSimpArgs false

namespace Ascot.C44
open Ascot.Coord

/-- Cartesian to cylindrical and back, for every point. -/
theorem xyz_round_trip (p : V3 ℝ) : rpz2xyz (xyz2rpz p) = p := xyz_of_rpz p

/-- Cylindrical to Cartesian and back: the angle comes back in `(-π, π]` and differs by full turns. -/
theorem rpz_round_trip (r phi z : ℝ) (hr : 0 < r) :
    ∃ n : ℤ, xyz2rpz (rpz2xyz ⟨r, phi, z⟩) = ⟨r, phi - n * (2 * Real.pi), z⟩ ∧
      -Real.pi < phi - n * (2 * Real.pi) ∧ phi - n * (2 * Real.pi) ≤ Real.pi := by
  have hx : xyz2rpz (rpz2xyz ⟨r, phi, z⟩) = ⟨r, Complex.arg (r * (Complex.cos phi + Complex.sin phi * Complex.I)), z⟩ := by
    unfold xyz2rpz rpz2xyz atan2
    ext
    · show Real.sqrt (r * Real.cos phi * (r * Real.cos phi) + r * Real.sin phi * (r * Real.sin phi)) = r
      rw [show r * Real.cos phi * (r * Real.cos phi) + r * Real.sin phi * (r * Real.sin phi) = r * r by
        linear_combination r * r * sc phi, Real.sqrt_mul_self hr.le]
    · show Complex.arg ⟨r * Real.cos phi, r * Real.sin phi⟩ = _
      congr 1
      apply Complex.ext
      · simp [Complex.cos_ofReal_re, Complex.sin_ofReal_re, Complex.cos_ofReal_im, Complex.sin_ofReal_im]
      · simp [Complex.cos_ofReal_re, Complex.sin_ofReal_re, Complex.cos_ofReal_im, Complex.sin_ofReal_im]
    · rfl
  have hs := Complex.arg_mul_cos_add_sin_mul_I_sub hr phi
  have hm := Complex.arg_mem_Ioc (r * (Complex.cos phi + Complex.sin phi * Complex.I))
  refine ⟨-⌊(Real.pi - phi) / (2 * Real.pi)⌋, ?_⟩
  have e : phi - ((-⌊(Real.pi - phi) / (2 * Real.pi)⌋ : ℤ) : ℝ) * (2 * Real.pi) =
      Complex.arg (r * (Complex.cos phi + Complex.sin phi * Complex.I)) := by
    push_cast
    linarith
  rw [e]
  exact ⟨hx, hm.1, hm.2⟩

/-- Angles of the principal range come back unchanged. -/
theorem rpz_round_trip_principal (r phi z : ℝ) (hr : 0 < r) (h1 : -Real.pi < phi) (h2 : phi ≤ Real.pi) :
    xyz2rpz (rpz2xyz ⟨r, phi, z⟩) = ⟨r, phi, z⟩ := by
  obtain ⟨n, e, h3, h4⟩ := rpz_round_trip r phi z hr
  have hp := Real.pi_pos
  have hn : n = 0 := by
    have a : (n : ℝ) < 1 := by nlinarith
    have b : (-1 : ℝ) < n := by nlinarith
    have a' : n < 1 := by exact_mod_cast a
    have b' : -1 < n := by exact_mod_cast b
    omega
  rw [e, hn]
  simp

/-- Vectors: both round trips return the original. -/
theorem vec_round_trips (v : V3 ℝ) (phi : ℝ) : vecXyz2rpz (vecRpz2xyz v phi) phi = v ∧ vecRpz2xyz (vecXyz2rpz v phi) phi = v := by
  have h := sc phi
  constructor <;> ext <;> simp only [vecXyz2rpz, vecRpz2xyz] <;>
    first | linear_combination v.x * h | linear_combination v.y * h

/-- Inner products, hence lengths and angles, are preserved by both. -/
theorem vec_dot (v w : V3 ℝ) (phi : ℝ) : V3.dot (vecRpz2xyz v phi) (vecRpz2xyz w phi) = V3.dot v w ∧
    V3.dot (vecXyz2rpz v phi) (vecXyz2rpz w phi) = V3.dot v w := by
  have h := sc phi
  constructor <;> simp only [vecXyz2rpz, vecRpz2xyz, V3.dot] <;> linear_combination (v.x * w.x + v.y * w.y) * h

/-- The vector conversion belongs to the position conversion: the velocity of a point that moves with
`dR/dt`, `R dphi/dt`, `dz/dt` converts to the derivative of the Cartesian position. -/
theorem vec_is_velocity (r phi z : ℝ → ℝ) (r' phi' z' t : ℝ) (hr : HasDerivAt r r' t) (hp : HasDerivAt phi phi' t)
    (hz : HasDerivAt z z' t) :
    HasDerivAt (fun t => (rpz2xyz ⟨r t, phi t, z t⟩).x) (vecRpz2xyz ⟨r', r t * phi', z'⟩ (phi t)).x t ∧
    HasDerivAt (fun t => (rpz2xyz ⟨r t, phi t, z t⟩).y) (vecRpz2xyz ⟨r', r t * phi', z'⟩ (phi t)).y t ∧
    HasDerivAt (fun t => (rpz2xyz ⟨r t, phi t, z t⟩).z) (vecRpz2xyz ⟨r', r t * phi', z'⟩ (phi t)).z t := by
  refine ⟨?_, ?_, hz⟩
  · refine (hr.mul hp.cos).congr_deriv ?_
    dsimp only [vecRpz2xyz]
    ring
  · refine (hr.mul hp.sin).congr_deriv ?_
    dsimp only [vecRpz2xyz]
    ring

/-- A cumulative angle beyond a full turn is a case of the round trip. -/
example : ∃ n : ℤ, xyz2rpz (rpz2xyz ⟨2, 7, 1⟩) = ⟨2, 7 - n * (2 * Real.pi), 1⟩ :=
  (rpz_round_trip 2 7 1 (by norm_num)).imp fun _ h => h.1

end Ascot.C44

namespace Ascot.C45
open Ascot.Coord

/-- `f` is a function of three coordinates that has value and gradient `g` at `p`. -/
def HasGrad (f : ℝ × ℝ × ℝ → ℝ) (g : Grad) (p : ℝ × ℝ × ℝ) : Prop :=
  f p = g.v ∧ HasFDerivAt f (g.d1 • ContinuousLinearMap.fst ℝ ℝ (ℝ × ℝ) +
    (g.d2 • (ContinuousLinearMap.fst ℝ ℝ ℝ).comp (ContinuousLinearMap.snd ℝ ℝ (ℝ × ℝ)) +
     g.d3 • (ContinuousLinearMap.snd ℝ ℝ ℝ).comp (ContinuousLinearMap.snd ℝ ℝ (ℝ × ℝ)))) p

/-- `f` has the value and the partial derivatives `g` at `(a, b, c)`. -/
def HasPartials (f : ℝ → ℝ → ℝ → ℝ) (g : Grad) (a b c : ℝ) : Prop :=
  f a b c = g.v ∧ HasDerivAt (fun t => f t b c) g.d1 a ∧ HasDerivAt (fun t => f a t c) g.d2 b ∧ HasDerivAt (fun t => f a b t) g.d3 c

theorem along {f : ℝ × ℝ × ℝ → ℝ} {g : Grad} {x y z : ℝ → ℝ} {x' y' z' t : ℝ} (h : HasGrad f g (x t, y t, z t))
    (hx : HasDerivAt x x' t) (hy : HasDerivAt y y' t) (hz : HasDerivAt z z' t) :
    HasDerivAt (fun t => f (x t, y t, z t)) (g.d1 * x' + g.d2 * y' + g.d3 * z') t := by
  have := HasFDerivAt.comp_hasDerivAt (f := fun t => (x t, y t, z t)) t h.2 (hx.prodMk (hy.prodMk hz))
  refine this.congr_deriv ?_
  simp
  ring

/-- Cartesian to cylindrical: the result consists of the cylindrical components of the field and their derivatives along
R, phi and z. -/
theorem to_cylindrical (bx by_ bz : ℝ × ℝ × ℝ → ℝ) (j : Jac) (r phi z : ℝ)
    (hx : HasGrad bx j.a (r * Real.cos phi, r * Real.sin phi, z))
    (hy : HasGrad by_ j.b (r * Real.cos phi, r * Real.sin phi, z))
    (hz : HasGrad bz j.c (r * Real.cos phi, r * Real.sin phi, z)) :
    let at_ := fun (b : ℝ × ℝ × ℝ → ℝ) (r phi z : ℝ) => b (r * Real.cos phi, r * Real.sin phi, z)
    HasPartials (fun r phi z => at_ bx r phi z * Real.cos phi + at_ by_ r phi z * Real.sin phi) (jacXyz2rpz j r phi).a r phi z ∧
    HasPartials (fun r phi z => -at_ bx r phi z * Real.sin phi + at_ by_ r phi z * Real.cos phi) (jacXyz2rpz j r phi).b r phi z ∧
    HasPartials (fun r phi z => at_ bz r phi z) (jacXyz2rpz j r phi).c r phi z := by
  intro at_
  have c1 : HasDerivAt (fun t : ℝ => t * Real.cos phi) (Real.cos phi) r := by simpa using (hasDerivAt_id r).mul_const (Real.cos phi)
  have s1 : HasDerivAt (fun t : ℝ => t * Real.sin phi) (Real.sin phi) r := by simpa using (hasDerivAt_id r).mul_const (Real.sin phi)
  have c2 : HasDerivAt (fun t : ℝ => r * Real.cos t) (r * -Real.sin phi) phi := (Real.hasDerivAt_cos phi).const_mul r
  have s2 : HasDerivAt (fun t : ℝ => r * Real.sin t) (r * Real.cos phi) phi := (Real.hasDerivAt_sin phi).const_mul r
  have k := fun (v t : ℝ) => hasDerivAt_const t v
  have i := hasDerivAt_id z
  have fr : ∀ {b : ℝ × ℝ × ℝ → ℝ} {g : Grad}, HasGrad b g (r * Real.cos phi, r * Real.sin phi, z) →
      HasDerivAt (fun t => at_ b t phi z) (g.d1 * Real.cos phi + g.d2 * Real.sin phi) r := fun h => by
    have := along (t := r) (x := fun t => t * Real.cos phi) (y := fun t => t * Real.sin phi) (z := fun _ => z) h c1 s1 (k z r)
    exact this.congr_deriv (by ring)
  have fp : ∀ {b : ℝ × ℝ × ℝ → ℝ} {g : Grad}, HasGrad b g (r * Real.cos phi, r * Real.sin phi, z) →
      HasDerivAt (fun t => at_ b r t z) (-g.d1 * r * Real.sin phi + g.d2 * r * Real.cos phi) phi := fun h => by
    have := along (t := phi) (x := fun t => r * Real.cos t) (y := fun t => r * Real.sin t) (z := fun _ => z) h c2 s2 (k z phi)
    exact this.congr_deriv (by ring)
  have fz : ∀ {b : ℝ × ℝ × ℝ → ℝ} {g : Grad}, HasGrad b g (r * Real.cos phi, r * Real.sin phi, z) →
      HasDerivAt (fun t => at_ b r phi t) g.d3 z := fun h => by
    have := along (t := z) (x := fun _ => r * Real.cos phi) (y := fun _ => r * Real.sin phi) (z := fun t => t) h (k _ z) (k _ z) i
    exact this.congr_deriv (by ring)
  have vx : at_ bx r phi z = j.a.v := hx.1
  have vy : at_ by_ r phi z = j.b.v := hy.1
  have vz : at_ bz r phi z = j.c.v := hz.1
  have dc := Real.hasDerivAt_cos phi
  have ds := Real.hasDerivAt_sin phi
  refine ⟨⟨?_, ?_, ?_, ?_⟩, ⟨?_, ?_, ?_, ?_⟩, ⟨vz, ?_, ?_, ?_⟩⟩
  · show at_ bx r phi z * Real.cos phi + at_ by_ r phi z * Real.sin phi = _
    rw [vx, vy]; rfl
  · refine (((fr hx).mul_const _).add ((fr hy).mul_const _)).congr_deriv ?_
    dsimp only [jacXyz2rpz]; ring
  · refine (((fp hx).mul dc).add ((fp hy).mul ds)).congr_deriv ?_
    rw [vx, vy]
    dsimp only [jacXyz2rpz]; ring
  · refine (((fz hx).mul_const _).add ((fz hy).mul_const _)).congr_deriv ?_
    dsimp only [jacXyz2rpz]
  · show -at_ bx r phi z * Real.sin phi + at_ by_ r phi z * Real.cos phi = _
    rw [vx, vy]; rfl
  · refine (((fr hx).neg.mul_const _).add ((fr hy).mul_const _)).congr_deriv ?_
    dsimp only [jacXyz2rpz]; ring
  · refine (((fp hx).neg.mul ds).add ((fp hy).mul dc)).congr_deriv ?_
    dsimp only [jacXyz2rpz, Pi.neg_apply]
    rw [vx, vy]
    ring
  · refine (((fz hx).neg.mul_const _).add ((fz hy).mul_const _)).congr_deriv ?_
    dsimp only [jacXyz2rpz]
  · refine (fr hz).congr_deriv ?_
    dsimp only [jacXyz2rpz]
  · refine (fp hz).congr_deriv ?_
    dsimp only [jacXyz2rpz]; ring
  · exact (fz hz).congr_deriv rfl

/-- Finding: converting to cylindrical components and back returns ten of the twelve numbers; `dBy/dx` and `dBy/dy` are off
by the stated amounts. -/
theorem xyz_round_trip_partial (j : Jac) {r : ℝ} (phi : ℝ) (hr : r ≠ 0) :
    jacRpz2xyz (jacXyz2rpz j r phi) r phi =
      ⟨j.a, { j.b with d1 := j.b.d1 + 2 * j.a.v * Real.sin phi / r, d2 := j.b.d2 - 2 * j.a.v * Real.cos phi / r }, j.c⟩ := by
  have h := sc phi
  set s := Real.sin phi with hs
  set c := Real.cos phi with hc
  have h2 : s ^ 2 = 1 - c ^ 2 := by linear_combination h
  have h3 : s ^ 3 = s - s * c ^ 2 := by linear_combination s * h
  have h4 : s ^ 4 = 1 - 2 * c ^ 2 + c ^ 4 := by linear_combination (s ^ 2 + 1 - c ^ 2) * h
  refine Jac.ext (Grad.ext ?_ ?_ ?_ ?_) (Grad.ext ?_ ?_ ?_ ?_) (Grad.ext ?_ ?_ ?_ ?_) <;>
    simp only [jacRpz2xyz, jacXyz2rpz, ← hs, ← hc] <;> field_simp <;> ring_nf <;> (try rw [h4]) <;> (try rw [h3]) <;> (try rw [h2]) <;> (try ring)

/-- The round trip succeeds only where `Bx` vanishes. -/
theorem xyz_round_trip_iff (j : Jac) {r : ℝ} (phi : ℝ) (hr : r ≠ 0) : jacRpz2xyz (jacXyz2rpz j r phi) r phi = j ↔ j.a.v = 0 := by
  rw [xyz_round_trip_partial j phi hr]
  constructor
  · intro h
    have h1 : j.b.d1 + 2 * j.a.v * Real.sin phi / r = j.b.d1 := congrArg (fun j : Jac => j.b.d1) h
    have h2 : j.b.d2 - 2 * j.a.v * Real.cos phi / r = j.b.d2 := congrArg (fun j : Jac => j.b.d2) h
    have h1' : j.a.v * Real.sin phi = 0 := by
      have : 2 * j.a.v * Real.sin phi / r = 0 := by linarith
      rcases div_eq_zero_iff.1 this with h | h
      · linarith
      · exact absurd h hr
    have h2' : j.a.v * Real.cos phi = 0 := by
      have : 2 * j.a.v * Real.cos phi / r = 0 := by linarith
      rcases div_eq_zero_iff.1 this with h | h
      · linarith
      · exact absurd h hr
    linear_combination Real.sin phi * h1' + Real.cos phi * h2' - j.a.v * sc phi
  · intro h
    refine Jac.ext rfl (Grad.ext rfl ?_ ?_ rfl) rfl
    · show j.b.d1 + 2 * j.a.v * Real.sin phi / r = j.b.d1
      rw [h]; simp
    · show j.b.d2 - 2 * j.a.v * Real.cos phi / r = j.b.d2
      rw [h]; simp

/-- The other round trip: the derivatives of the first two components along phi are off. -/
theorem rpz_round_trip_partial (j : Jac) {r : ℝ} (phi : ℝ) (hr : r ≠ 0) :
    let bx := j.a.v * Real.cos phi - j.b.v * Real.sin phi
    jacXyz2rpz (jacRpz2xyz j r phi) r phi =
      ⟨{ j.a with d2 := j.a.d2 - 2 * bx * Real.sin phi }, { j.b with d2 := j.b.d2 - 2 * bx * Real.cos phi }, j.c⟩ := by
  intro bx
  have h := sc phi
  set s := Real.sin phi with hs
  set c := Real.cos phi with hc
  have h2 : s ^ 2 = 1 - c ^ 2 := by linear_combination h
  have h3 : s ^ 3 = s - s * c ^ 2 := by linear_combination s * h
  have h4 : s ^ 4 = 1 - 2 * c ^ 2 + c ^ 4 := by linear_combination (s ^ 2 + 1 - c ^ 2) * h
  refine Jac.ext (Grad.ext ?_ ?_ ?_ ?_) (Grad.ext ?_ ?_ ?_ ?_) (Grad.ext ?_ ?_ ?_ ?_) <;>
    simp only [jacRpz2xyz, jacXyz2rpz, ← hs, ← hc, bx] <;> field_simp <;> ring_nf <;> (try rw [h4]) <;> (try rw [h3]) <;> (try rw [h2]) <;> (try ring)

/-- Finding: a uniform field (no gradient at all) along x converts to a field with a gradient, and even with a divergence. -/
theorem uniform_field_gets_gradient : ∃ j : Jac, j = jacXyz2rpz ⟨⟨1, 0, 0, 0⟩, ⟨0, 0, 0, 0⟩, ⟨0, 0, 0, 0⟩⟩ 1 0 ∧
    (jacRpz2xyz j 1 0).a.d1 + (jacRpz2xyz j 1 0).b.d2 + (jacRpz2xyz j 1 0).c.d3 = -2 := by
  refine ⟨_, rfl, ?_⟩
  rw [xyz_round_trip_partial _ _ one_ne_zero]
  norm_num

/-- The hypotheses of `to_cylindrical` hold for a field that varies. -/
example : HasGrad (fun p => p.1 * 2 + p.2.1) ⟨5, 2, 1, 0⟩ (2, 1, 0) := by
  refine ⟨by norm_num, ?_⟩
  have h := ((hasFDerivAt_fst (𝕜 := ℝ) (p := ((2 : ℝ), (1 : ℝ), (0 : ℝ)))).mul_const (2 : ℝ)).add
    ((hasFDerivAt_fst (𝕜 := ℝ) (p := ((1 : ℝ), (0 : ℝ)))).comp ((2 : ℝ), (1 : ℝ), (0 : ℝ)) hasFDerivAt_snd)
  refine h.congr_fderiv ?_
  ext <;> simp

end Ascot.C45
