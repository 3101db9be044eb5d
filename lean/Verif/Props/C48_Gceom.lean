import Mathlib.Analysis.Calculus.Deriv.Inv
import Mathlib.Analysis.SpecialFunctions.Sqrt
import Verif.Model.Gceom
import Verif.Props.C44_C45_Coord

/-!
# C48, C79, C80: guiding-center equations of motion
-/
set_option linter.unusedSectionVars false
set_option linter.unusedSimpArgs false

namespace Ascot.C48
open Ascot.Coord Ascot.Physlib Ascot.Gceom

/-- A magnetic field: its three cylindrical components as functions of (R, phi, z). -/
structure BField where
  r : ℝ × ℝ × ℝ → ℝ
  p : ℝ × ℝ × ℝ → ℝ
  z : ℝ × ℝ × ℝ → ℝ

/-- Strength of the field. -/
noncomputable def BField.norm (B : BField) (x : ℝ × ℝ × ℝ) : ℝ := Real.sqrt (B.r x * B.r x + B.p x * B.p x + B.z x * B.z x)

/-- `j` holds the field and its derivatives at `x`. -/
def BField.At (B : BField) (j : Jac) (x : ℝ × ℝ × ℝ) : Prop := C45.HasGrad B.r j.a x ∧ C45.HasGrad B.p j.b x ∧ C45.HasGrad B.z j.c x

/-- The path of a guiding center: it moves at time `t` with the time derivative `d` of its six coordinates. -/
structure Path where
  r : ℝ → ℝ
  phi : ℝ → ℝ
  z : ℝ → ℝ
  ppar : ℝ → ℝ
  mu : ℝ → ℝ
  zeta : ℝ → ℝ

/-- The coordinates at a time. -/
def Path.at (x : Path) (t : ℝ) : Fin 6 → ℝ := ![x.r t, x.phi t, x.z t, x.ppar t, x.mu t, x.zeta t]

/-- The position at a time. -/
def Path.pos (x : Path) (t : ℝ) : ℝ × ℝ × ℝ := (x.r t, x.phi t, x.z t)

/-- The path moves at time `t` with the time derivative `d`. -/
def Path.Moves (x : Path) (d : Fin 6 → ℝ) (t : ℝ) : Prop :=
  HasDerivAt x.r (d 0) t ∧ HasDerivAt x.phi (d 1) t ∧ HasDerivAt x.z (d 2) t ∧ HasDerivAt x.ppar (d 3) t ∧
  HasDerivAt x.mu (d 4) t ∧ HasDerivAt x.zeta (d 5) t

/-- Velocity in the directions of R, phi and z. -/
def velocity (r : ℝ) (d : Fin 6 → ℝ) : V3 ℝ := ⟨d 0, r * d 1, d 2⟩

theorem norm_deriv {B : BField} {j : Jac} {x : Path} {d : Fin 6 → ℝ} {t : ℝ} (hB : B.At j (x.pos t)) (hx : x.Moves d t)
    (hn : normB j ≠ 0) (hr : x.r t ≠ 0) :
    B.norm (x.pos t) = normB j ∧ HasDerivAt (fun t => B.norm (x.pos t)) (V3.dot (gradB j (x.r t)) (velocity (x.r t) d)) t := by
  obtain ⟨h1, h2, h3⟩ := hB
  obtain ⟨dr, dp, dz, -, -, -⟩ := hx
  have e1 := C45.along h1 dr dp dz
  have e2 := C45.along h2 dr dp dz
  have e3 := C45.along h3 dr dp dz
  have v1 : B.r (x.r t, x.phi t, x.z t) = j.a.v := h1.1
  have v2 : B.p (x.r t, x.phi t, x.z t) = j.b.v := h2.1
  have v3 : B.z (x.r t, x.phi t, x.z t) = j.c.v := h3.1
  have hval : B.norm (x.pos t) = normB j := by
    unfold BField.norm Path.pos normB field V3.dot
    rw [v1, v2, v3]
  refine ⟨hval, ?_⟩
  have hq := ((e1.mul e1).add (e2.mul e2)).add (e3.mul e3)
  have hne : j.a.v * j.a.v + j.b.v * j.b.v + j.c.v * j.c.v ≠ 0 := by
    intro h0
    apply hn
    unfold normB field V3.dot
    dsimp only
    rw [h0, Real.sqrt_zero]
  have hs := hq.sqrt (by simp only [Pi.add_apply, Pi.mul_apply, v1, v2, v3]; exact hne)
  refine hs.congr_deriv ?_
  simp only [Pi.add_apply, Pi.mul_apply, v1, v2, v3]
  have : Real.sqrt (j.a.v * j.a.v + j.b.v * j.b.v + j.c.v * j.c.v) = normB j := rfl
  rw [this]
  unfold gradB velocity V3.dot
  dsimp only
  field_simp
  ring

/-- The energy balance of the common part of the equations of motion. -/
theorem motion_energy {c k mass charge ald t : ℝ} {B : BField} {j : Jac} {x : Path} {d : Fin 6 → ℝ} {E Bs Es : V3 ℝ}
    (hc : c ≠ 0) (hm : mass ≠ 0) (hq : charge ≠ 0) (hr : x.r t ≠ 0) (hn : normB j ≠ 0)
    (hg : Gceom.gamma c mass (x.at t) j ≠ 0) (hd : V3.dot (Gceom.bhat j) Bs ≠ 0)
    (hEs : Es = ⟨E.x - x.mu t * (gradB j (x.r t)).x / (charge * Gceom.gamma c mass (x.at t) j),
      E.y - x.mu t * (gradB j (x.r t)).y / (charge * Gceom.gamma c mass (x.at t) j),
      E.z - x.mu t * (gradB j (x.r t)).z / (charge * Gceom.gamma c mass (x.at t) j)⟩)
    (hB : B.At j (x.pos t)) (hx : x.Moves d t)
    (h : d = motion c k mass charge (x.at t) j (Gceom.gamma c mass (x.at t) j) Bs Es ald) :
    HasDerivAt (fun t => ekinPpar c mass (x.mu t) (x.ppar t) (B.norm (x.pos t)))
      (charge * V3.dot E (velocity (x.r t) d) -
        ald * (charge ^ 4 * normB j ^ 2 * (2 * mass * x.mu t * normB j) / (k * mass ^ 4 * c ^ 3))) t := by
  obtain ⟨hval, hnd⟩ := norm_deriv hB hx hn hr
  obtain ⟨-, -, -, hp, hmu, -⟩ := hx
  have hQ : HasDerivAt (fun t => 1 + 2 * x.mu t * B.norm (x.pos t) / (mass * (c * c)) + x.ppar t * x.ppar t / (mass * mass * (c * c)))
      (2 * (d 4 * normB j + x.mu t * V3.dot (gradB j (x.r t)) (velocity (x.r t) d)) / (mass * (c * c)) +
        2 * x.ppar t * d 3 / (mass * mass * (c * c))) t := by
    have h1 := ((((hmu.const_mul 2).mul hnd).div_const (mass * (c * c))).const_add 1).add ((hp.mul hp).div_const (mass * mass * (c * c)))
    refine h1.congr_deriv ?_
    rw [hval]
    ring
  have hgam : Gceom.gamma c mass (x.at t) j = Real.sqrt (1 + 2 * x.mu t * B.norm (x.pos t) / (mass * (c * c)) + x.ppar t * x.ppar t / (mass * mass * (c * c))) := by
    rw [hval]
    rfl
  set g := Gceom.gamma c mass (x.at t) j with hgdef
  have hpos : 0 < 1 + 2 * x.mu t * B.norm (x.pos t) / (mass * (c * c)) + x.ppar t * x.ppar t / (mass * mass * (c * c)) := by
    by_contra h0
    exact hg (by rw [hgam]; exact Real.sqrt_eq_zero_of_nonpos (not_lt.1 h0))
  have hg2 : g * g = 1 + 2 * x.mu t * normB j / (mass * (c * c)) + x.ppar t * x.ppar t / (mass * mass * (c * c)) := by
    rw [hgam, Real.mul_self_sqrt hpos.le, hval]
  have hs := ((hQ.sqrt hpos.ne').sub_const 1).mul_const mass |>.mul_const (c * c)
  refine hs.congr_deriv ?_
  rw [← hgam]
  have d0 : d 0 = (x.ppar t * Bs.x / (g * mass) + (V3.cross Es (Gceom.bhat j)).x) / V3.dot (Gceom.bhat j) Bs := by rw [h]; rfl
  have d1 : d 1 = (x.ppar t * Bs.y / (g * mass) + (V3.cross Es (Gceom.bhat j)).y) / (x.r t * V3.dot (Gceom.bhat j) Bs) := by rw [h]; rfl
  have d2 : d 2 = (x.ppar t * Bs.z / (g * mass) + (V3.cross Es (Gceom.bhat j)).z) / V3.dot (Gceom.bhat j) Bs := by rw [h]; rfl
  have d3 : d 3 = charge * V3.dot Bs Es / V3.dot (Gceom.bhat j) Bs + -(aldChartime c k charge mass (normB j) g * ald) * x.ppar t * (2 * x.mu t * normB j / (mass * (c * c))) := by rw [h]; rfl
  have d4 : d 4 = 0 + -2 * (aldChartime c k charge mass (normB j) g * ald) * x.mu t * (1 + 2 * x.mu t * normB j / (mass * (c * c))) := by rw [h]; rfl
  have hv : velocity (x.r t) d = ⟨(x.ppar t * Bs.x / (g * mass) + (V3.cross Es (Gceom.bhat j)).x) / V3.dot (Gceom.bhat j) Bs,
      (x.ppar t * Bs.y / (g * mass) + (V3.cross Es (Gceom.bhat j)).y) / V3.dot (Gceom.bhat j) Bs,
      (x.ppar t * Bs.z / (g * mass) + (V3.cross Es (Gceom.bhat j)).z) / V3.dot (Gceom.bhat j) Bs⟩ := by
    unfold velocity
    rw [d0, d1, d2]
    congr 1
    field_simp
  have hG : x.mu t * V3.dot (gradB j (x.r t)) (velocity (x.r t) d) = charge * g * (V3.dot E (velocity (x.r t) d) - V3.dot Es (velocity (x.r t) d)) := by
    rw [hEs]
    unfold V3.dot
    dsimp only
    field_simp
    ring
  have hEv : V3.dot Es (velocity (x.r t) d) = x.ppar t * V3.dot Bs Es / (g * mass * V3.dot (Gceom.bhat j) Bs) := by
    rw [hv]
    generalize hD : V3.dot (Gceom.bhat j) Bs = D at hd
    unfold V3.dot V3.cross
    dsimp only
    field_simp
    ring
  rw [hG, hEv, d3, d4]
  generalize V3.dot E (velocity (x.r t) d) = w
  generalize V3.dot Bs Es = s
  generalize V3.dot (Gceom.bhat j) Bs = D at hd
  unfold aldChartime
  generalize normB j = n at *
  generalize x.mu t = mu at *
  generalize x.ppar t = p at *
  have hg2' : g ^ 2 * (mass ^ 2 * c ^ 2) = mass ^ 2 * c ^ 2 + 2 * mu * n * mass + p ^ 2 := by
    have := congrArg (fun e => e * (mass ^ 2 * c ^ 2)) hg2
    beta_reduce at this
    field_simp at this
    linarith
  by_cases hk : k = 0
  · subst hk
    simp only [zero_mul, div_zero, mul_zero, neg_zero, add_zero]
    field_simp
    ring
  · field_simp
    linear_combination (2 * mu * n ^ 3 * charge ^ 4 * ald * D) * hg2'

/-- Energy balance along the guiding-center equations of motion: the power of the electric field minus the synchrotron
radiation `q⁴ B² p_perp² / (6 pi e0 m⁴ c³)` (with `p_perp² = 2 m mu B`) when radiation reaction is enabled. -/
theorem energy_balance {c k mass charge ald t : ℝ} {B : BField} {j : Jac} {x : Path} {d : Fin 6 → ℝ} {E : V3 ℝ} (hc : c ≠ 0)
    (hB : B.At j (x.pos t)) (hx : x.Moves d t) (h : gceom c k mass charge (x.at t) j E ald = some d) :
    HasDerivAt (fun t => ekinPpar c mass (x.mu t) (x.ppar t) (B.norm (x.pos t)))
      (charge * V3.dot E (velocity (x.r t) d) -
        ald * (charge ^ 4 * normB j ^ 2 * (2 * mass * x.mu t * normB j) / (k * mass ^ 4 * c ^ 3))) t := by
  unfold gceom at h
  dsimp only at h
  split at h
  · cases h
  · rename_i hne
    rw [not_or, not_or, not_or, not_or, not_or] at hne
    obtain ⟨hm, hq, hr, hn, hg, hd⟩ := hne
    injection h with h
    exact motion_energy hc hm hq hr hn hg hd rfl hB hx h.symm

/-- Without electric field and radiation reaction the energy is conserved. -/
theorem energy_conserved {c k mass charge t : ℝ} {B : BField} {j : Jac} {x : Path} {d : Fin 6 → ℝ} (hc : c ≠ 0)
    (hB : B.At j (x.pos t)) (hx : x.Moves d t) (h : gceom c k mass charge (x.at t) j ⟨0, 0, 0⟩ 0 = some d) :
    HasDerivAt (fun t => ekinPpar c mass (x.mu t) (x.ppar t) (B.norm (x.pos t))) 0 t := by
  refine (energy_balance hc hB hx h).congr_deriv ?_
  unfold V3.dot
  simp

/-- Without radiation reaction the magnetic moment is conserved. -/
theorem mu_conserved {c k mass charge t : ℝ} {j : Jac} {x : Path} {d : Fin 6 → ℝ} {E : V3 ℝ}
    (hx : x.Moves d t) (h : gceom c k mass charge (x.at t) j E 0 = some d) : HasDerivAt x.mu 0 t := by
  unfold gceom at h
  dsimp only at h
  split at h
  · cases h
  · injection h with h
    refine hx.2.2.2.2.1.congr_deriv ?_
    rw [← h]
    show 0 + -2 * (_ * (0 : ℝ)) * _ * _ = 0
    simp

/-- With MHD modes the energy changes only by the electric field, to which the modes contribute minus the gradient of the
potential and minus `B ∂α/∂t`. -/
theorem mhd_energy_balance {c k mass charge ald t : ℝ} {B : BField} {j : Jac} {x : Path} {d : Fin 6 → ℝ} {E : V3 ℝ} {m : Mhd} (hc : c ≠ 0)
    (hB : B.At j (x.pos t)) (hx : x.Moves d t) (h : gceomMhd c k mass charge (x.at t) j E m ald = some d) :
    HasDerivAt (fun t => ekinPpar c mass (x.mu t) (x.ppar t) (B.norm (x.pos t)))
      (charge * V3.dot ⟨E.x - m.gradPhi.x - j.a.v * m.dalpha, E.y - m.gradPhi.y - j.b.v * m.dalpha, E.z - m.gradPhi.z - j.c.v * m.dalpha⟩
        (velocity (x.r t) d) -
        ald * (charge ^ 4 * normB j ^ 2 * (2 * mass * x.mu t * normB j) / (k * mass ^ 4 * c ^ 3))) t := by
  unfold gceomMhd at h
  dsimp only at h
  split at h
  · cases h
  · rename_i hne
    rw [not_or, not_or, not_or, not_or, not_or] at hne
    obtain ⟨hm, hq, hr, hn, hg, hd⟩ := hne
    injection h with h
    refine motion_energy hc hm hq hr hn hg hd ?_ hB hx h.symm
    unfold estarMhd
    ext
    · show E.x - m.gradPhi.x - x.mu t * (gradB j (x.r t)).x / (charge * Gceom.gamma c mass (x.at t) j) - j.a.v * m.dalpha =
        E.x - m.gradPhi.x - j.a.v * m.dalpha - x.mu t * (gradB j (x.r t)).x / (charge * Gceom.gamma c mass (x.at t) j)
      ring
    · show E.y - m.gradPhi.y - x.mu t * (gradB j (x.r t)).y / (charge * Gceom.gamma c mass (x.at t) j) - j.b.v * m.dalpha =
        E.y - m.gradPhi.y - j.b.v * m.dalpha - x.mu t * (gradB j (x.r t)).y / (charge * Gceom.gamma c mass (x.at t) j)
      ring
    · show E.z - m.gradPhi.z - x.mu t * (gradB j (x.r t)).z / (charge * Gceom.gamma c mass (x.at t) j) - j.c.v * m.dalpha =
        E.z - m.gradPhi.z - j.c.v * m.dalpha - x.mu t * (gradB j (x.r t)).z / (charge * Gceom.gamma c mass (x.at t) j)
      ring

/-- The hypotheses hold for a marker in a uniform vertical field. -/
example : ∃ (B : BField) (j : Jac) (x : Path) (d : Fin 6 → ℝ), B.At j (x.pos 0) ∧ x.Moves d 0 ∧
    gceom 1 1 1 1 (x.at 0) j ⟨0, 0, 0⟩ 0 = some d ∧ x.mu 0 = 1 ∧ x.ppar 0 = 1 := by
  let j : Jac := ⟨⟨0, 0, 0, 0⟩, ⟨0, 0, 0, 0⟩, ⟨1, 0, 0, 0⟩⟩
  let y : Fin 6 → ℝ := ![1, 0, 0, 1, 1, 0]
  have hn : normB j = 1 := by
    unfold normB field V3.dot
    simp [j]
  have hB : bstar 1 j 1 1 = ⟨0, 0, 1⟩ := by
    unfold bstar gradB curlB V3.cross field
    simp [hn, j]
  have hb : Gceom.bhat j = ⟨0, 0, 1⟩ := by
    unfold Gceom.bhat
    rw [hn]
    simp [j]
  have hg : Gceom.gamma 1 1 y j ≠ 0 := by
    show gammaPpar 1 1 1 1 (normB j) ≠ 0
    unfold gammaPpar
    rw [hn]
    exact Real.sqrt_ne_zero'.2 (by norm_num)
  obtain ⟨d, hd⟩ : ∃ d, gceom 1 1 1 1 y j ⟨0, 0, 0⟩ 0 = some d := by
    unfold gceom
    dsimp only
    rw [show y 0 = 1 from rfl, show y 3 = 1 from rfl, hB, hb, hn, if_neg (by simp [V3.dot, hg])]
    exact ⟨_, rfl⟩
  have hl : ∀ a b : ℝ, HasDerivAt (fun t : ℝ => a + t * b) b 0 := fun a b => by
    simpa using ((hasDerivAt_id (0 : ℝ)).mul_const b).const_add a
  have hgr : ∀ v : ℝ, ∀ p : ℝ × ℝ × ℝ, C45.HasGrad (fun _ => v) ⟨v, 0, 0, 0⟩ p := fun v p => by
    refine ⟨rfl, (hasFDerivAt_const v p).congr_fderiv ?_⟩
    simp
  refine ⟨⟨fun _ => 0, fun _ => 0, fun _ => 1⟩, j, ⟨fun t => y 0 + t * d 0, fun t => y 1 + t * d 1, fun t => y 2 + t * d 2,
    fun t => y 3 + t * d 3, fun t => y 4 + t * d 4, fun t => y 5 + t * d 5⟩, d, ⟨hgr 0 _, hgr 0 _, hgr 1 _⟩,
    ⟨hl _ _, hl _ _, hl _ _, hl _ _, hl _ _, hl _ _⟩, ?_, ?_, ?_⟩
  · rw [← hd]
    congr 1
    unfold Path.at
    funext i
    fin_cases i <;> simp [y]
  · simp [y]
  · simp [y]

end Ascot.C48

namespace Ascot.C79
open Ascot.Coord Ascot.Physlib Ascot.Gceom Ascot.C48

/-- The field is axisymmetric at the point and derives from the poloidal flux `psi` with gradient `g`: no derivative along
phi, `B_R = -(dpsi/dz)/R`, `B_z = (dpsi/dR)/R`. -/
def Axisymmetric (j : Jac) (g : Grad) (r : ℝ) : Prop :=
  j.a.d2 = 0 ∧ j.b.d2 = 0 ∧ j.c.d2 = 0 ∧ g.d1 = r * j.c.v ∧ g.d2 = 0 ∧ g.d3 = -(r * j.a.v)

/-- In an axisymmetric field without toroidal electric field and radiation reaction, the canonical toroidal momentum
`ppar R B_phi / B + q psi` is conserved. -/
theorem ptoroid_conserved {c k mass charge t : ℝ} {B : BField} {psi : ℝ × ℝ × ℝ → ℝ} {g : Grad} {j : Jac} {x : Path} {d : Fin 6 → ℝ} {E : V3 ℝ}
    (hB : B.At j (x.pos t)) (hpsi : C45.HasGrad psi g (x.pos t)) (hax : Axisymmetric j g (x.r t)) (hE : E.y = 0)
    (hx : x.Moves d t) (h : gceom c k mass charge (x.at t) j E 0 = some d) :
    HasDerivAt (fun t => ptoroidGc charge (x.r t) (x.ppar t) (psi (x.pos t)) (B.norm (x.pos t)) (B.p (x.pos t))) 0 t := by
  unfold gceom at h
  dsimp only at h
  split at h
  · cases h
  rename_i hne
  rw [not_or, not_or, not_or, not_or, not_or] at hne
  obtain ⟨hm, hq, hr, hn, hg, hd⟩ := hne
  injection h with h
  have hr : x.r t ≠ 0 := hr
  obtain ⟨hval, hnd⟩ := norm_deriv hB hx hn hr
  obtain ⟨-, h2, -⟩ := hB
  obtain ⟨dr, dp, dz, hp, -, -⟩ := hx
  have e2 := C45.along h2 dr dp dz
  have e4 := C45.along hpsi dr dp dz
  have v2 : B.p (x.r t, x.phi t, x.z t) = j.b.v := h2.1
  obtain ⟨a2, b2, c2, g1, g2, g3⟩ := hax
  have hder := ((hp.mul dr).mul (e2.div hnd (by rw [hval]; exact hn))).add (e4.const_mul charge)
  refine hder.congr_deriv ?_
  simp only [Pi.mul_apply, Pi.div_apply]
  rw [v2, hval, g1, g2, g3, b2]
  set gam := Gceom.gamma c mass (x.at t) j with hgdef
  set Bs := bstar charge j (x.at t 0) (x.at t 3) with hBs
  set Es := estar charge gam (x.at t 4) j (x.at t 0) E with hEs
  have d0 : d 0 = (x.ppar t * Bs.x / (gam * mass) + (V3.cross Es (Gceom.bhat j)).x) / V3.dot (Gceom.bhat j) Bs := by rw [← h]; rfl
  have d2 : d 2 = (x.ppar t * Bs.z / (gam * mass) + (V3.cross Es (Gceom.bhat j)).z) / V3.dot (Gceom.bhat j) Bs := by rw [← h]; rfl
  have d3 : d 3 = charge * V3.dot Bs Es / V3.dot (Gceom.bhat j) Bs := by
    rw [← h]
    show charge * V3.dot Bs Es / V3.dot (Gceom.bhat j) Bs + -(_ * (0 : ℝ)) * _ * _ = _
    simp
  have hGy : (gradB j (x.r t)).y = 0 := by
    unfold gradB
    dsimp only
    rw [a2, b2, c2]
    simp
  have hEy : Es.y = 0 := by
    show E.y - _ * (gradB j (x.r t)).y / _ = 0
    rw [hE, hGy]
    simp
  have hBx : Bs.x = j.a.v + x.ppar t / charge * (-j.b.d3 / normB j + (gradB j (x.r t)).z * j.b.v / (normB j * normB j)) := by
    show j.a.v + x.ppar t / charge * ((j.c.d2 / x.r t - j.b.d3) / normB j - ((gradB j (x.r t)).y * j.c.v - (gradB j (x.r t)).z * j.b.v) / (normB j * normB j)) = _
    rw [c2, hGy]
    ring
  have hBz : Bs.z = j.c.v + x.ppar t / charge * ((j.b.v / x.r t + j.b.d1) / normB j - (gradB j (x.r t)).x * j.b.v / (normB j * normB j)) := by
    show j.c.v + x.ppar t / charge * (((j.b.v - j.a.d2) / x.r t + j.b.d1) / normB j - ((gradB j (x.r t)).x * j.b.v - (gradB j (x.r t)).y * j.a.v) / (normB j * normB j)) = _
    rw [a2, hGy]
    ring
  have hby : (Gceom.bhat j).y = j.b.v / normB j := rfl
  have key : x.ppar t * d 0 * (j.b.v / normB j) + x.ppar t * x.r t * ((j.b.d1 * d 0 + j.b.d3 * d 2) * normB j - j.b.v * ((gradB j (x.r t)).x * d 0 + (gradB j (x.r t)).z * d 2)) / (normB j * normB j)
      + charge * (x.r t * j.c.v * d 0 - x.r t * j.a.v * d 2) = charge * x.r t * (Bs.z * d 0 - Bs.x * d 2) := by
    rw [hBx, hBz]
    field_simp
    ring
  have key2 : charge * x.r t * (Bs.z * d 0 - Bs.x * d 2) = -(d 3 * x.r t * (j.b.v / normB j)) := by
    rw [d0, d2, d3, ← hby]
    generalize hD : V3.dot (Gceom.bhat j) Bs = D at hd
    unfold V3.cross V3.dot
    dsimp only
    rw [hEy]
    field_simp
    ring
  have hdot : V3.dot (gradB j (x.r t)) (velocity (x.r t) d) = (gradB j (x.r t)).x * d 0 + (gradB j (x.r t)).z * d 2 := by
    unfold V3.dot velocity
    rw [hGy]
    dsimp only
    ring
  rw [hdot]
  generalize (gradB j (x.r t)).x * d 0 + (gradB j (x.r t)).z * d 2 = G at *
  have := key.trans key2
  rw [show normB j ^ 2 = normB j * normB j by ring]
  linear_combination this

/-- A uniform vertical field is a case: its flux function is R²/2. -/
example : Axisymmetric ⟨⟨0, 0, 0, 0⟩, ⟨0, 0, 0, 0⟩, ⟨1, 0, 0, 0⟩⟩ ⟨2, 2, 0, 0⟩ 2 := by
  unfold Axisymmetric
  simp

end Ascot.C79

namespace Ascot.C80
open Ascot.Coord Ascot.Physlib Ascot.Gceom Ascot.C48

/-- Derivative of one component of the field direction along any path. -/
theorem unit_deriv {B : BField} {j : Jac} {x y z : ℝ → ℝ} {x' y' z' t : ℝ} {f : ℝ × ℝ × ℝ → ℝ} {g : Grad} (hB : B.At j (x t, y t, z t))
    (hf : C45.HasGrad f g (x t, y t, z t)) (hn : normB j ≠ 0) (hx : HasDerivAt x x' t) (hy : HasDerivAt y y' t) (hz : HasDerivAt z z' t) :
    HasDerivAt (fun t => f (x t, y t, z t) / B.norm (x t, y t, z t))
      ((g.d1 * x' + g.d2 * y' + g.d3 * z') / normB j - g.v * ((j.a.v * (j.a.d1 * x' + j.a.d2 * y' + j.a.d3 * z') +
        j.b.v * (j.b.d1 * x' + j.b.d2 * y' + j.b.d3 * z') + j.c.v * (j.c.d1 * x' + j.c.d2 * y' + j.c.d3 * z')) / normB j) / (normB j * normB j)) t := by
  obtain ⟨h1, h2, h3⟩ := hB
  have e1 := C45.along h1 hx hy hz
  have e2 := C45.along h2 hx hy hz
  have e3 := C45.along h3 hx hy hz
  have e := C45.along hf hx hy hz
  have v1 : B.r (x t, y t, z t) = j.a.v := h1.1
  have v2 : B.p (x t, y t, z t) = j.b.v := h2.1
  have v3 : B.z (x t, y t, z t) = j.c.v := h3.1
  have v : f (x t, y t, z t) = g.v := hf.1
  have hq := ((e1.mul e1).add (e2.mul e2)).add (e3.mul e3)
  have hne : j.a.v * j.a.v + j.b.v * j.b.v + j.c.v * j.c.v ≠ 0 := by
    intro h0
    apply hn
    unfold normB field V3.dot
    dsimp only
    rw [h0, Real.sqrt_zero]
  have hs := hq.sqrt (by simp only [Pi.add_apply, Pi.mul_apply, v1, v2, v3]; exact hne)
  have hnn : Real.sqrt (j.a.v * j.a.v + j.b.v * j.b.v + j.c.v * j.c.v) = normB j := rfl
  refine (e.div hs (by simp only [Pi.add_apply, Pi.mul_apply, v1, v2, v3]; rw [hnn]; exact hn)).congr_deriv ?_
  simp only [Pi.add_apply, Pi.mul_apply, v1, v2, v3, v]
  rw [hnn]
  field_simp
  ring

/-- The effective field is `B + (ppar / q) curl b`, with the curl of the unit vector along the field in cylindrical
coordinates: `a`, `b`, `c` are the values and the derivatives along R, phi and z of the components of the unit vector. -/
theorem bstar_is {B : BField} {j : Jac} {r phi z : ℝ} (charge ppar : ℝ) (hB : B.At j (r, phi, z)) (hn : normB j ≠ 0) (hr : r ≠ 0) :
    ∃ a b c : Grad, C45.HasPartials (fun r phi z => B.r (r, phi, z) / B.norm (r, phi, z)) a r phi z ∧
      C45.HasPartials (fun r phi z => B.p (r, phi, z) / B.norm (r, phi, z)) b r phi z ∧
      C45.HasPartials (fun r phi z => B.z (r, phi, z) / B.norm (r, phi, z)) c r phi z ∧
      bstar charge j r ppar = ⟨B.r (r, phi, z) + ppar / charge * (c.d2 / r - b.d3), B.p (r, phi, z) + ppar / charge * (a.d3 - c.d1),
        B.z (r, phi, z) + ppar / charge * ((b.v - a.d2) / r + b.d1)⟩ := by
  have mk : ∀ {f : ℝ × ℝ × ℝ → ℝ} {g : Grad}, C45.HasGrad f g (r, phi, z) →
      C45.HasPartials (fun r phi z => f (r, phi, z) / B.norm (r, phi, z))
        ⟨g.v / normB j, g.d1 / normB j - g.v * ((j.a.v * j.a.d1 + j.b.v * j.b.d1 + j.c.v * j.c.d1) / normB j) / (normB j * normB j),
          g.d2 / normB j - g.v * ((j.a.v * j.a.d2 + j.b.v * j.b.d2 + j.c.v * j.c.d2) / normB j) / (normB j * normB j),
          g.d3 / normB j - g.v * ((j.a.v * j.a.d3 + j.b.v * j.b.d3 + j.c.v * j.c.d3) / normB j) / (normB j * normB j)⟩ r phi z := by
    intro f g hf
    refine ⟨?_, ?_, ?_, ?_⟩
    · show f (r, phi, z) / B.norm (r, phi, z) = g.v / normB j
      rw [hf.1]
      congr 1
      unfold BField.norm normB field V3.dot
      rw [hB.1.1, hB.2.1.1, hB.2.2.1]
    · exact (unit_deriv (x := fun t => t) (y := fun _ => phi) (z := fun _ => z) hB hf hn (hasDerivAt_id r) (hasDerivAt_const r phi) (hasDerivAt_const r z)).congr_deriv (by ring)
    · exact (unit_deriv (x := fun _ => r) (y := fun t => t) (z := fun _ => z) hB hf hn (hasDerivAt_const phi r) (hasDerivAt_id phi) (hasDerivAt_const phi z)).congr_deriv (by ring)
    · exact (unit_deriv (x := fun _ => r) (y := fun _ => phi) (z := fun t => t) hB hf hn (hasDerivAt_const z r) (hasDerivAt_const z phi) (hasDerivAt_id z)).congr_deriv (by ring)
  refine ⟨_, _, _, mk hB.1, mk hB.2.1, mk hB.2.2, ?_⟩
  rw [hB.1.1, hB.2.1.1, hB.2.2.1]
  unfold bstar gradB curlB V3.cross field
  ext <;> dsimp only <;> field_simp <;> ring

/-- No perturbation. -/
def quiet : Mhd := ⟨0, 0, ⟨0, 0, 0⟩, 0, 0, ⟨0, 0, 0⟩⟩

/-- Without perturbation the equations with MHD modes must be those without.  Proved for markers that do not move along the
field, and where the first two components of `grad B × B` agree. -/
theorem quiet_partial (c k mass charge : ℝ) (y : Fin 6 → ℝ) (j : Jac) (E : V3 ℝ) (ald : ℝ)
    (hp : y 3 = 0 ∨ (V3.cross (gradB j (y 0)) (field j)).x = (V3.cross (gradB j (y 0)) (field j)).y) :
    gceomMhd c k mass charge y j E quiet ald = gceom c k mass charge y j E ald := by
  have hB : bstarMhd charge j quiet (y 0) (y 3) = bstar charge j (y 0) (y 3) := by
    unfold bstarMhd bstar quiet
    have hz : V3.cross (⟨0, 0, 0⟩ : V3 ℝ) (field j) = ⟨0, 0, 0⟩ := by unfold V3.cross; simp
    dsimp only
    rw [hz]
    ext
    · simp
    · rcases hp with hp | hp
      · rw [hp]; simp
      · rw [hp]; simp
    · simp
  have hE : estarMhd charge (Gceom.gamma c mass y j) (y 4) j quiet (y 0) E = estar charge (Gceom.gamma c mass y j) (y 4) j (y 0) E := by
    unfold estarMhd estar quiet
    simp
  unfold gceomMhd gceom
  dsimp only
  rw [hB, hE]

/-- Finding: the second component of the effective field is computed with the first component of `grad B × B`.  In a straight
field along z whose strength depends on R, a marker without magnetic moment moves along the field; with the equations for
MHD modes and no perturbation it drifts toroidally. -/
theorem quiet_wrong : ∃ j : Jac, ∃ y : Fin 6 → ℝ,
    (∃ d, gceom 1 1 1 1 y j ⟨0, 0, 0⟩ 0 = some d ∧ d 0 = 0 ∧ d 1 = 0) ∧ (∃ d, gceomMhd 1 1 1 1 y j ⟨0, 0, 0⟩ quiet 0 = some d ∧ d 1 < 0) := by
  let j : Jac := ⟨⟨0, 0, 0, 0⟩, ⟨0, 0, 0, 0⟩, ⟨1, 1, 0, 0⟩⟩
  let y : Fin 6 → ℝ := ![1, 0, 0, 1, 0, 0]
  have hn : normB j = 1 := by
    unfold normB field V3.dot
    simp [j]
  have hG : gradB j 1 = ⟨1, 0, 0⟩ := by
    unfold gradB
    rw [hn]
    simp [j]
  have hC : curlB j 1 = ⟨0, -1, 0⟩ := by
    unfold curlB
    simp [j]
  have hx : V3.cross (⟨1, 0, 0⟩ : V3 ℝ) (field j) = ⟨0, -1, 0⟩ := by
    unfold V3.cross field
    simp [j]
  have hb : Gceom.bhat j = ⟨0, 0, 1⟩ := by
    unfold Gceom.bhat
    rw [hn]
    simp [j]
  have hB : bstar 1 j 1 1 = ⟨0, 0, 1⟩ := by
    unfold bstar
    simp only [hG, hx, hC, hn]
    simp [j]
  have hBm : bstarMhd 1 j quiet 1 1 = ⟨0, -1, 1⟩ := by
    unfold bstarMhd
    simp only [hG, hx, hC, hn]
    unfold quiet V3.cross
    simp [j]
  have hg : Gceom.gamma 1 1 y j = Real.sqrt 2 := by
    show gammaPpar 1 1 0 1 (normB j) = _
    unfold gammaPpar
    rw [hn]
    norm_num
  have hs : 0 < Real.sqrt 2 := Real.sqrt_pos.2 (by norm_num)
  refine ⟨j, y, ?_, ?_⟩
  · unfold gceom
    dsimp only
    rw [show y 0 = 1 from rfl, show y 3 = 1 from rfl, hB, hb, hn, hg, if_neg (by simp [V3.dot, hs.ne'])]
    refine ⟨_, rfl, ?_, ?_⟩
    · show (y 3 * 0 / _ + (V3.cross _ _).x) / _ = 0
      unfold estar V3.cross
      rw [show y 4 = 0 from rfl]
      simp
    · show (y 3 * 0 / _ + (V3.cross _ _).y) / _ = 0
      unfold estar V3.cross
      rw [show y 4 = 0 from rfl]
      simp
  · unfold gceomMhd
    dsimp only
    rw [show y 0 = 1 from rfl, show y 3 = 1 from rfl, hBm, hb, hn, hg, if_neg (by simp [V3.dot, hs.ne'])]
    refine ⟨_, rfl, ?_⟩
    show (y 3 * -1 / (Real.sqrt 2 * 1) + (V3.cross _ (Gceom.bhat j)).y) / (y 0 * V3.dot (Gceom.bhat j) _) < 0
    rw [hb, show y 0 = 1 from rfl, show y 3 = 1 from rfl]
    unfold estarMhd V3.cross V3.dot quiet
    rw [show y 4 = 0 from rfl]
    simp only [mul_one, mul_zero, zero_mul, sub_zero, zero_div, zero_add, add_zero, div_one, one_mul]
    exact div_neg_of_neg_of_pos (by norm_num) hs

end Ascot.C80
