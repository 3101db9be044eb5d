import Verif.Model.Boozer
import Verif.Lemmas.BGSRipple
import Verif.Props.C106_Efield
import Mathlib.Analysis.SpecialFunctions.Complex.Arg
import Mathlib.Analysis.Calculus.FDeriv.Prod

/-!
# C107: Boozer coordinates

Inside the plasma and the range of the data the coordinates psi, theta and zeta are returned with their derivatives with
respect to R, phi and z.
-/
set_option linter.unusedSectionVars false
set_option linter.unusedSimpArgs false

namespace Ascot.C107
open Ascot.Coord Ascot.Bfield Ascot.Boozer Filter Topology
open Ascot.C106 (HasGrad)

/-! ### Lemmas -/

theorem fmod_range {p : ℝ} (hp : 0 < p) (x : ℝ) : 0 ≤ Linint.fmod x p ∧ Linint.fmod x p < p := by
  unfold Linint.fmod
  have h0 := Int.floor_le (x / p)
  have h1 := Int.lt_floor_add_one (x / p)
  rw [le_div_iff₀ hp] at h0
  rw [div_lt_iff₀ hp] at h1
  constructor <;> nlinarith

theorem fmod_shift (p x : ℝ) : ∃ k : Int, Linint.fmod x p = x + k * p := ⟨-⌊x / p⌋, by unfold Linint.fmod; push_cast; ring⟩

theorem fmod_unique {p x s : ℝ} (hp : 0 < p) (h0 : 0 ≤ s) (h1 : s < p) (k : Int) (h : x = s + k * p) : Linint.fmod x p = s := by
  unfold Linint.fmod
  have : ⌊x / p⌋ = k := by
    rw [Int.floor_eq_iff, le_div_iff₀ hp, div_lt_iff₀ hp]
    constructor <;> nlinarith
  rw [this]; linarith

/-- Away from the ray towards larger R the geometrical angle is the angle of the opposite point plus pi. -/
theorem wrapped {x y : ℝ} (h : x < 0 ∨ y ≠ 0) :
    Linint.fmod (atan2 y x + 2 * Real.pi) (2 * Real.pi) = Real.pi + atan2 (-y) (-x) := by
  have hw : (⟨x, y⟩ : ℂ) ≠ 0 := by
    intro e
    have e1 := congrArg Complex.re e
    have e2 := congrArg Complex.im e
    simp at e1 e2
    rcases h with h | h
    · exact h.ne e1
    · exact h e2
  have hneg : (⟨-x, -y⟩ : ℂ) = -⟨x, y⟩ := by apply Complex.ext <;> simp
  have hs : (⟨-x, -y⟩ : ℂ) ∈ Complex.slitPlane := by
    rw [Complex.mem_slitPlane_iff]
    rcases h with h | h
    · left; simpa using h
    · right; simpa using h
  have hlt : Complex.arg ⟨-x, -y⟩ < Real.pi := lt_of_le_of_ne (Complex.arg_le_pi _) (Complex.slitPlane_arg_ne_pi hs)
  have hgt := Complex.neg_pi_lt_arg (⟨-x, -y⟩ : ℂ)
  have ha := Complex.arg_neg_coe_angle hw
  rw [← hneg, ← Real.Angle.coe_add, Real.Angle.angle_eq_iff_two_pi_dvd_sub] at ha
  obtain ⟨k, hk⟩ := ha
  have hpi := Real.pi_pos
  unfold atan2
  refine fmod_unique (by linarith) (by linarith) (by linarith) (-k) ?_
  push_cast
  linarith

/-- Derivative of the geometrical angle along a curve. -/
theorem wrapped_deriv {x y : ℝ → ℝ} {x' y' t : ℝ} (hx : HasDerivAt x x' t) (hy : HasDerivAt y y' t) (h : x t < 0 ∨ y t ≠ 0) :
    HasDerivAt (fun t => Linint.fmod (atan2 (y t) (x t) + 2 * Real.pi) (2 * Real.pi))
      ((x t * y' - y t * x') / (x t * x t + y t * y t)) t := by
  have hd := (BGS.atan2_deriv hx.neg hy.neg (t := t) (by rcases h with h | h <;> simp [h])).const_add Real.pi
  refine (hd.congr_of_eventuallyEq ?_).congr_deriv ?_
  · have hn : ∀ᶠ s in 𝓝 t, x s < 0 ∨ y s ≠ 0 := by
      rcases h with h | h
      · exact (hx.continuousAt.eventually (gt_mem_nhds h)).mono fun _ => Or.inl
      · exact (hy.continuousAt.eventually_ne h).mono fun _ => Or.inr
    exact hn.mono fun s hs => wrapped hs
  · simp only [Pi.neg_apply]
    congr 1 <;> ring

/-- A function of two variables has the value and the derivatives `d`. -/
def HasD2 (f : ℝ → ℝ → ℝ) (x y : ℝ) (d : D2) : Prop :=
  f x y = d.v ∧ HasFDerivAt (fun p : ℝ × ℝ => f p.1 p.2)
    (d.r • ContinuousLinearMap.fst ℝ ℝ ℝ + d.z • ContinuousLinearMap.snd ℝ ℝ ℝ) (x, y)

theorem HasD2.comp {f : ℝ → ℝ → ℝ} {d : D2} {u v : ℝ → ℝ} {u' v' t : ℝ} (h : HasD2 f (u t) (v t) d) (hu : HasDerivAt u u' t)
    (hv : HasDerivAt v v' t) : HasDerivAt (fun t => f (u t) (v t)) (d.r * u' + d.z * v') t := by
  have := HasFDerivAt.comp_hasDerivAt t (f := fun t => (u t, v t)) h.2 (hu.prodMk hv)
  exact this.congr_deriv (by simp)

/-! ### The property -/

/-- Everything that has to hold for the coordinates to be defined: the point is within the polygon and the range of psi, and
the evaluations of the magnetic field and the splines have succeeded. -/
structure Defined (d : Boozer.Data) (b : Bfield.Data) (r phi z : ℝ) (g : Grad) (r0 z0 : ℝ) (T N : D2) : Prop where
  polygon : Wall2D.pointInPolygon r z d.rs d.zs d.nrzs ≠ 0
  psi : evalPsiDpsi b r phi z = some (g, 0)
  rho : (evalRho b g.v).2.2 = 0
  axis : Bfield.axis b phi = some ((r0, z0), 0)
  min : d.psiMin < g.v
  max : g.v < d.psiMax
  theta : d.theta.df g.v (thgeo r z r0 z0) = some T
  nu : d.nu.df g.v T.v = some N
  off : r ≠ r0 ∨ z ≠ z0

theorem sum_ne {a b c d : ℝ} : a ≠ b ∨ c ≠ d ↔ (a - b) * (a - b) + (c - d) * (c - d) ≠ 0 := by
  constructor
  · intro h e
    have h1 : a - b = 0 := by nlinarith [mul_self_nonneg (a - b), mul_self_nonneg (c - d)]
    have h2 : c - d = 0 := by nlinarith [mul_self_nonneg (a - b), mul_self_nonneg (c - d)]
    rcases h with h | h
    · exact h (by linarith)
    · exact h (by linarith)
  · intro h
    by_contra hc
    push Not at hc
    exact h (by rw [hc.1, hc.2]; ring)

/-- The point counts as inside exactly if all conditions hold. -/
theorem inside (d : Boozer.Data) (b : Bfield.Data) (r phi z : ℝ) (p : Ptz) :
    eval d b r phi z = some (.ok (some p)) ↔
      ∃ g r0 z0 T N, Defined d b r phi z g r0 z0 T N ∧ p = store r phi z r0 z0 g T N := by
  constructor
  · intro h
    unfold eval at h
    split_ifs at h with h1
    · cases h
    cases h2 : evalPsiDpsi b r phi z with
    | none => simp [h2] at h
    | some ge =>
      obtain ⟨g, e⟩ := ge
      rw [h2] at h
      dsimp only at h
      by_cases h3 : e ≠ 0
      · rw [if_pos h3] at h; cases h
      rw [if_neg h3] at h
      by_cases h4 : (evalRho b g.v).2.2 ≠ 0
      · rw [if_pos h4] at h; cases h
      rw [if_neg h4] at h
      cases h5 : Bfield.axis b phi with
      | none => simp [h5] at h
      | some a =>
        obtain ⟨⟨r0, z0⟩, e'⟩ := a
        rw [h5] at h
        dsimp only at h
        by_cases h6 : e' ≠ 0
        · rw [if_pos h6] at h; cases h
        rw [if_neg h6] at h
        by_cases h7 : g.v < d.psiMax ∧ g.v > d.psiMin
        swap
        · rw [if_neg h7] at h; cases h
        rw [if_pos h7] at h
        cases h8 : d.theta.df g.v (thgeo r z r0 z0) with
        | none => simp [h8] at h
        | some T =>
          rw [h8] at h
          dsimp only at h
          cases h9 : d.nu.df g.v T.v with
          | none => simp [h9] at h
          | some N =>
            rw [h9] at h
            dsimp only at h
            split_ifs at h with h10
            push Not at h3 h4 h6
            subst h3; subst h6
            refine ⟨g, r0, z0, T, N, ⟨h1, h2, h4, h5, h7.2, h7.1, h8, h9, sum_ne.2 h10⟩, ?_⟩
            cases h
            rfl
  · rintro ⟨g, r0, z0, T, N, h, rfl⟩
    unfold eval
    rw [if_neg h.polygon, h.psi]
    dsimp only
    rw [if_neg (by simp), if_neg (by simp [h.rho]), h.axis]
    dsimp only
    rw [if_neg (by simp), if_pos ⟨h.max, h.min⟩, h.theta]
    dsimp only
    rw [h.nu]
    dsimp only
    rw [if_neg (sum_ne.1 h.off)]

/-- The values of the coordinates: psi is the flux, theta the value of its spline at the geometrical angle, which is the angle
around the axis in the range from 0 to 2 pi, and zeta is phi + nu up to a multiple of 2 pi and in the same range. -/
theorem values {d : Boozer.Data} {b : Bfield.Data} {r phi z : ℝ} {p : Ptz} (h : eval d b r phi z = some (.ok (some p))) :
    ∃ g r0 z0 T N, Defined d b r phi z g r0 z0 T N ∧ p.psi.v = g.v ∧ p.theta.v = T.v ∧
      (0 ≤ thgeo r z r0 z0 ∧ thgeo r z r0 z0 < 2 * Real.pi) ∧
      (r - r0 = Real.sqrt ((r - r0) * (r - r0) + (z - z0) * (z - z0)) * Real.cos (thgeo r z r0 z0) ∧
        z - z0 = Real.sqrt ((r - r0) * (r - r0) + (z - z0) * (z - z0)) * Real.sin (thgeo r z r0 z0)) ∧
      (0 ≤ p.zeta.v ∧ p.zeta.v < 2 * Real.pi) ∧ ∃ k : Int, p.zeta.v = phi + N.v + k * (2 * Real.pi) := by
  obtain ⟨g, r0, z0, T, N, hd, rfl⟩ := (inside d b r phi z p).1 h
  have hpi : 0 < 2 * Real.pi := by have := Real.pi_pos; linarith
  refine ⟨g, r0, z0, T, N, hd, rfl, rfl, fmod_range hpi _, ?_, fmod_range hpi _, ?_⟩
  · obtain ⟨k, hk⟩ := fmod_shift (2 * Real.pi) (atan2 (z - z0) (r - r0) + 2 * Real.pi)
    have e : thgeo r z r0 z0 = atan2 (z - z0) (r - r0) + ((k + 1 : Int) : ℝ) * (2 * Real.pi) := by
      unfold thgeo; rw [hk]; push_cast; ring
    rw [e, Real.cos_add_int_mul_two_pi, Real.sin_add_int_mul_two_pi, cos_atan2, sin_atan2]
    exact ⟨rfl, rfl⟩
  · obtain ⟨k, hk⟩ := fmod_shift (2 * Real.pi) (phi + N.v)
    obtain ⟨l, hl⟩ := fmod_shift (2 * Real.pi) (Linint.fmod (phi + N.v) (2 * Real.pi) + 2 * Real.pi)
    refine ⟨k + l + 1, ?_⟩
    show Linint.fmod _ _ = _
    rw [hl, hk]; push_cast; ring

/-- The poloidal angle as function of the position. -/
noncomputable def thetaAt (Psi : ℝ → ℝ → ℝ → ℝ) (Theta : ℝ → ℝ → ℝ) (R0 Z0 : ℝ → ℝ) (r phi z : ℝ) : ℝ :=
  Theta (Psi r phi z) (thgeo r z (R0 phi) (Z0 phi))

/-- The toroidal angle as function of the position; the value that is returned differs by a multiple of 2 pi. -/
noncomputable def zetaAt (Psi : ℝ → ℝ → ℝ → ℝ) (Theta Nu : ℝ → ℝ → ℝ) (R0 Z0 : ℝ → ℝ) (r phi z : ℝ) : ℝ :=
  phi + Nu (Psi r phi z) (thetaAt Psi Theta R0 Z0 r phi z)

section derivatives
variable {d : Boozer.Data} {b : Bfield.Data} {r phi z : ℝ} {g : Grad} {r0 z0 : ℝ} {T N : D2}
  {Psi : ℝ → ℝ → ℝ → ℝ} {Theta Nu : ℝ → ℝ → ℝ} {R0 Z0 : ℝ → ℝ}

/-- The derivatives with respect to R and z, at every point that is not on the ray from the axis towards larger R, where the
geometrical angle jumps. -/
theorem poloidal (h : Defined d b r phi z g r0 z0 T N) (hP : HasGrad Psi r phi z g) (hT : HasD2 Theta g.v (thgeo r z r0 z0) T)
    (hN : HasD2 Nu g.v T.v N) (hR : R0 phi = r0) (hZ : Z0 phi = z0) (hray : r < r0 ∨ z ≠ z0) :
    ∃ p, eval d b r phi z = some (.ok (some p)) ∧
      (HasDerivAt (fun x => Psi x phi z) p.psi.d1 r ∧ HasDerivAt (fun y => Psi r phi y) p.psi.d3 z) ∧
      (HasDerivAt (fun x => thetaAt Psi Theta R0 Z0 x phi z) p.theta.d1 r ∧
        HasDerivAt (fun y => thetaAt Psi Theta R0 Z0 r phi y) p.theta.d3 z) ∧
      HasDerivAt (fun x => zetaAt Psi Theta Nu R0 Z0 x phi z) p.zeta.d1 r ∧
        HasDerivAt (fun y => zetaAt Psi Theta Nu R0 Z0 r phi y) p.zeta.d3 z := by
  refine ⟨_, (inside d b r phi z _).2 ⟨g, r0, z0, T, N, h, rfl⟩, ⟨hP.2.1, hP.2.2.2⟩, ?_⟩
  have hc : r - r0 < 0 ∨ z - z0 ≠ 0 := hray.imp sub_neg.2 sub_ne_zero.2
  have gr : HasDerivAt (fun x => thgeo x z (R0 phi) (Z0 phi)) (-(z - z0) / ((r - r0) * (r - r0) + (z - z0) * (z - z0))) r := by
    rw [hR, hZ]
    exact (wrapped_deriv ((hasDerivAt_id r).sub_const r0) (hasDerivAt_const r (z - z0)) hc).congr_deriv (by simp)
  have gz : HasDerivAt (fun y => thgeo r y (R0 phi) (Z0 phi)) ((r - r0) / ((r - r0) * (r - r0) + (z - z0) * (z - z0))) z := by
    rw [hR, hZ]
    exact (wrapped_deriv (hasDerivAt_const z (r - r0)) ((hasDerivAt_id z).sub_const z0) hc).congr_deriv (by simp)
  have hT' : HasD2 Theta (Psi r phi z) (thgeo r z (R0 phi) (Z0 phi)) T := by rw [hP.1, hR, hZ]; exact hT
  have tv : thetaAt Psi Theta R0 Z0 r phi z = T.v := hT'.1
  have tr := HasD2.comp (u := fun x => Psi x phi z) hT' hP.2.1 gr
  have tz := HasD2.comp (u := fun y => Psi r phi y) hT' hP.2.2.2 gz
  have hN' : HasD2 Nu (Psi r phi z) (thetaAt Psi Theta R0 Z0 r phi z) N := by rw [hP.1, tv]; exact hN
  have nr := (HasD2.comp (u := fun x => Psi x phi z) (v := fun x => thetaAt Psi Theta R0 Z0 x phi z) hN' hP.2.1 tr).const_add phi
  have nz := (HasD2.comp (u := fun y => Psi r phi y) (v := fun y => thetaAt Psi Theta R0 Z0 r phi y) hN' hP.2.2.2 tz).const_add phi
  exact ⟨⟨tr, tz⟩, nr, nz⟩

/-- The derivatives with respect to phi.  `partial`: only if neither the flux nor the axis changes with phi, to first order. -/
theorem toroidal_partial (h : Defined d b r phi z g r0 z0 T N) (hP : HasGrad Psi r phi z g) (hT : HasD2 Theta g.v (thgeo r z r0 z0) T)
    (hN : HasD2 Nu g.v T.v N) (hR : R0 phi = r0) (hZ : Z0 phi = z0) (hray : r < r0 ∨ z ≠ z0) (hg : g.d2 = 0)
    (hR' : HasDerivAt R0 0 phi) (hZ' : HasDerivAt Z0 0 phi) :
    ∃ p, eval d b r phi z = some (.ok (some p)) ∧ HasDerivAt (fun q => Psi r q z) p.psi.d2 phi ∧
      HasDerivAt (fun q => thetaAt Psi Theta R0 Z0 r q z) p.theta.d2 phi ∧
      HasDerivAt (fun q => zetaAt Psi Theta Nu R0 Z0 r q z) p.zeta.d2 phi := by
  have hp : HasDerivAt (fun q => Psi r q z) 0 phi := hg ▸ hP.2.2.1
  refine ⟨_, (inside d b r phi z _).2 ⟨g, r0, z0, T, N, h, rfl⟩, hp, ?_⟩
  have hc : r - r0 < 0 ∨ z - z0 ≠ 0 := hray.imp sub_neg.2 sub_ne_zero.2
  have gp : HasDerivAt (fun q => thgeo r z (R0 q) (Z0 q)) 0 phi := by
    refine (wrapped_deriv (x := fun q => r - R0 q) (y := fun q => z - Z0 q) (hR'.const_sub r) (hZ'.const_sub z) ?_).congr_deriv
      (by simp)
    simp only [hR, hZ]; exact hc
  have hT' : HasD2 Theta (Psi r phi z) (thgeo r z (R0 phi) (Z0 phi)) T := by rw [hP.1, hR, hZ]; exact hT
  have tv : thetaAt Psi Theta R0 Z0 r phi z = T.v := hT'.1
  have tp : HasDerivAt (fun q => thetaAt Psi Theta R0 Z0 r q z) 0 phi :=
    (HasD2.comp (u := fun q => Psi r q z) (v := fun q => thgeo r z (R0 q) (Z0 q)) hT' hp gp).congr_deriv (by simp)
  have hN' : HasD2 Nu (Psi r phi z) (thetaAt Psi Theta R0 Z0 r phi z) N := by rw [hP.1, tv]; exact hN
  refine ⟨tp, ?_⟩
  exact ((hasDerivAt_id phi).add (HasD2.comp (u := fun q => Psi r q z) (v := fun q => thetaAt Psi Theta R0 Z0 r q z) hN' hp tp)).congr_deriv
    (by simp [store])

end derivatives

/-- Outside the polygon or the range of psi there are no coordinates, and no error. -/
theorem outside (d : Boozer.Data) (b : Bfield.Data) (r phi z : ℝ) :
    (Wall2D.pointInPolygon r z d.rs d.zs d.nrzs = 0 → eval d b r phi z = some (.ok none)) ∧
    ∀ g r0z0, evalPsiDpsi b r phi z = some (g, 0) → (evalRho b g.v).2.2 = 0 → Bfield.axis b phi = some (r0z0, 0) →
      (g.v ≤ d.psiMin ∨ d.psiMax ≤ g.v) → eval d b r phi z = some (.ok none) := by
  refine ⟨fun h => by unfold eval; rw [if_pos h], fun g a h1 h2 h3 h4 => ?_⟩
  unfold eval
  split_ifs with h
  · rfl
  · rw [h1]
    dsimp only
    rw [if_neg (by simp), if_neg (by simp [h2]), h3]
    dsimp only
    rw [if_neg (by simp), if_neg (by rintro ⟨a, b⟩; rcases h4 with h4 | h4 <;> linarith)]

/-! ### Violations -/

/-- A square around (1/2, 0). -/
def square (i : Nat) : ℝ × ℝ := [(0, -1), (1, -1), (1, 1), (0, 1), (0, -1)].getD i (0, 0)

theorem in_square : Wall2D.pointInPolygon (1 / 4 : ℝ) (1 / 2) (fun i => (square i).1) (fun i => (square i).2) 5 = 1 := by
  norm_num [Wall2D.pointInPolygon, List.range_succ, Wall2D.crosses, square]

/-- Coordinates with theta equal to the geometrical angle and nu equal to one. -/
noncomputable def plain : Boozer.Data :=
  ⟨0, 1, fun i => (square i).1, fun i => (square i).2, 5, ⟨fun _ _ => some 1, fun _ _ => some ⟨1, 0, 0, 0, 0, 0⟩⟩,
    ⟨fun _ t => some t, fun _ t => some ⟨t, 0, 1, 0, 0, 0⟩⟩⟩

theorem wedge_psi (phi z : ℝ) : evalPsiDpsi C106.wedge (1 / 4) phi z = some (⟨1 / 4, 1, 0, 0⟩, 0) := rfl

theorem wedge_rho : (evalRho C106.wedge (1 / 4)).2.2 = 0 := by
  norm_num [evalRho, limits, C106.wedge]

theorem plain_defined : Defined plain C106.wedge (1 / 4) 0 (1 / 2) ⟨1 / 4, 1, 0, 0⟩ 0 0 ⟨thgeo (1 / 4) (1 / 2) 0 0, 0, 1, 0, 0, 0⟩
    ⟨1, 0, 0, 0, 0, 0⟩ where
  polygon := by
    have := in_square
    show Wall2D.pointInPolygon (1 / 4 : ℝ) (1 / 2) (fun i => (square i).1) (fun i => (square i).2) 5 ≠ 0
    rw [this]; exact one_ne_zero
  psi := wedge_psi _ _
  rho := wedge_rho
  axis := rfl
  min := by norm_num [plain]
  max := by norm_num [plain]
  theta := rfl
  nu := rfl
  off := by norm_num

/-- **Violation.** The data is documented as phi = zeta + nu, but zeta = phi + nu is returned: with nu = 1 at phi = 0 the sum of
zeta and nu is not zero, for any multiple of 2 pi. -/
theorem nu_sign_fails : ∃ p, eval plain C106.wedge (1 / 4) 0 (1 / 2) = some (.ok (some p)) ∧
    plain.nu.df p.psi.v p.theta.v = some ⟨1, 0, 0, 0, 0, 0⟩ ∧ ∀ k : Int, p.zeta.v + 1 ≠ 0 + k * (2 * Real.pi) := by
  refine ⟨_, (inside _ _ _ _ _ _).2 ⟨_, _, _, _, _, plain_defined, rfl⟩, rfl, fun k hk => ?_⟩
  obtain ⟨g, r0, z0, T, N, hd, -, -, -, -, -, l, hl⟩ := values ((inside _ _ _ _ _ _).2 ⟨_, _, _, _, _, plain_defined, rfl⟩)
  have hN : N.v = 1 := by
    have := hd.nu
    have e : plain.nu.df g.v T.v = some ⟨1, 0, 0, 0, 0, 0⟩ := rfl
    rw [e] at this
    rw [← Option.some.inj this]
  rw [hl, hN] at hk
  have h2 : (2 : ℝ) = ((k - l : Int) : ℝ) * (2 * Real.pi) := by push_cast; linarith
  have hpi := Real.two_le_pi
  rcases lt_trichotomy (k - l) 0 with h | h | h
  · have : ((k - l : Int) : ℝ) ≤ -1 := by exact_mod_cast (by omega : k - l ≤ -1)
    nlinarith
  · rw [h] at h2; norm_num at h2
  · have : (1 : ℝ) ≤ ((k - l : Int) : ℝ) := by exact_mod_cast (by omega : 1 ≤ k - l)
    nlinarith

/-- A field with flux R + phi. -/
noncomputable def twisted : Bfield.Data :=
  .sts ⟨0, 1, fun _ => some 0, fun _ => some 0, ⟨fun r p _ => some (r + p), fun r p _ => some ⟨r + p, 1, 1, 0⟩⟩,
    ⟨fun _ _ _ => some 0, fun _ _ _ => some ⟨0, 0, 0, 0⟩⟩, ⟨fun _ _ _ => some 1, fun _ _ _ => some ⟨1, 0, 0, 0⟩⟩,
    ⟨fun _ _ _ => some 0, fun _ _ _ => some ⟨0, 0, 0, 0⟩⟩⟩

/-- **Violation.** If the flux depends on the toroidal angle, the derivative returned is still zero. -/
theorem toroidal_fails : ∃ p, eval plain twisted (1 / 4) 0 (1 / 2) = some (.ok (some p)) ∧ p.psi.d2 = 0 ∧
    HasGrad (fun r phi _ => r + phi) (1 / 4) 0 (1 / 2) ⟨1 / 4, 1, 1, 0⟩ ∧
    evalPsiDpsi twisted (1 / 4) 0 (1 / 2) = some (⟨1 / 4, 1, 1, 0⟩, 0) := by
  have hpsi : evalPsiDpsi twisted (1 / 4) 0 (1 / 2) = some (⟨1 / 4, 1, 1, 0⟩, 0) := by
    show some ((⟨1 / 4 + 0, 1, 1, 0⟩ : Grad), 0) = _
    norm_num
  have hd : Defined plain twisted (1 / 4) 0 (1 / 2) ⟨1 / 4, 1, 1, 0⟩ 0 0 ⟨thgeo (1 / 4) (1 / 2) 0 0, 0, 1, 0, 0, 0⟩
      ⟨1, 0, 0, 0, 0, 0⟩ :=
    { polygon := plain_defined.polygon
      psi := hpsi
      rho := by norm_num [evalRho, limits, twisted]
      axis := rfl
      min := by norm_num [plain]
      max := by norm_num [plain]
      theta := rfl
      nu := rfl
      off := by norm_num }
  refine ⟨_, (inside _ _ _ _ _ _).2 ⟨_, _, _, _, _, hd, rfl⟩, rfl, ⟨by norm_num, ?_, ?_, hasDerivAt_const _ _⟩, hpsi⟩
  · exact (hasDerivAt_id _).add_const 0
  · exact (hasDerivAt_id _).const_add (1 / 4)

/-- **Violation.** A failure to set up the spline of nu is not reported. -/
theorem init_fails : initErr 1 0 = 0 := rfl

/-! ### The hypotheses can be met -/

example : HasGrad (fun r _ _ => r) (1 / 4) 0 (1 / 2) ⟨1 / 4, 1, 0, 0⟩ ∧
    HasD2 (fun _ t => t) (1 / 4) (thgeo (1 / 4) (1 / 2) 0 0) ⟨thgeo (1 / 4) (1 / 2) 0 0, 0, 1, 0, 0, 0⟩ ∧
    HasD2 (fun _ _ => 1) (1 / 4) (thgeo (1 / 4) (1 / 2) 0 0) ⟨1, 0, 0, 0, 0, 0⟩ ∧ (1 / 2 : ℝ) ≠ 0 :=
  ⟨⟨rfl, hasDerivAt_id _, hasDerivAt_const _ _, hasDerivAt_const _ _⟩,
    ⟨rfl, by simpa using hasFDerivAt_snd⟩, ⟨rfl, by simpa using hasFDerivAt_const _ _⟩, by norm_num⟩

end Ascot.C107
