import Mathlib.Analysis.SpecialFunctions.Trigonometric.Deriv
import Verif.Lemmas.BGSRipple
import Verif.Spec.Partial

/-!
# C84: the analytic tokamak field
-/
set_option linter.unusedSectionVars false
set_option linter.unusedSimpArgs false

namespace Ascot.C84
open Ascot.BGS Ascot.Coord Ascot.Spec Filter Topology

theorem valid_r {d : Data} {r : ℝ} (h : Valid d r) : r ≠ 0 := by
  rintro rfl
  have := h.2
  simp at this

theorem valid_near {d : Data} {r : ℝ} (h : Valid d r) : ∀ᶠ y in 𝓝 r, Valid d y := by
  have hc : ContinuousAt (fun y : ℝ => y / d.R0) r := continuousAt_id.div_const _
  filter_upwards [hc.eventually (lt_mem_nhds h.2)] with y hy
  exact ⟨h.1, hy⟩

/-- The evaluation fails only where the logarithm of the radius has no finite value. -/
theorem psi_defined (d : Data) (r z : ℝ) (h : d.R0 > 0) (hr : 0 < r) : ∃ psi, evalPsi d r z = some psi := by
  unfold evalPsi
  rw [if_pos ⟨h.ne', div_pos hr h⟩]
  exact ⟨_, rfl⟩

theorem psi_partial_r {d : Data} {r z : ℝ} (h : Valid d r) :
    HasPartial (fun y => evalPsi d y z) (d.mult * (sumR d.C (r / d.R0) ((z - d.z0) / d.R0) (Real.log (r / d.R0)) / d.R0)) r := by
  refine ⟨_, ?_, (psi_r d.C d.R0 r ((z - d.z0) / d.R0) h.1 (valid_r h)).const_mul d.mult⟩
  filter_upwards [valid_near h] with y hy
  unfold evalPsi
  rw [if_pos hy]

theorem psi_partial_z {d : Data} {r z : ℝ} (h : Valid d r) :
    HasPartial (fun y => evalPsi d r y) (d.mult * (sumZ d.C (r / d.R0) ((z - d.z0) / d.R0) (Real.log (r / d.R0)) / d.R0)) z := by
  have hz : HasDerivAt (fun y : ℝ => (y - d.z0) / d.R0) (1 / d.R0) z := ((hasDerivAt_id z).sub_const d.z0).div_const d.R0
  refine ⟨fun y => d.mult * psiSum d.C (r / d.R0) ((y - d.z0) / d.R0) (Real.log (r / d.R0)), ?_, ?_⟩
  · filter_upwards with y
    unfold evalPsi
    rw [if_pos h]
  · have := ((psi_z d.C (r / d.R0) ((z - d.z0) / d.R0) (Real.log (r / d.R0))).comp z hz).const_mul d.mult
    refine this.congr_deriv ?_
    ring

/-- The flux that comes with the gradient is the flux. -/
theorem same_psi (d : Data) (r z : ℝ) (g : Grad) (h : evalPsiDpsi d r z = some g) : evalPsi d r z = some g.v := by
  unfold evalPsiDpsi at h
  unfold evalPsi
  split at h
  · rename_i hv
    rw [if_pos hv]
    simp only [Option.some.injEq] at h
    rw [← h]
  · cases h

/-- The returned gradient of the flux is `R0/R` times the true one. -/
theorem psi_gradient_partial (d : Data) (r z : ℝ) (g : Grad) (h : evalPsiDpsi d r z = some g) :
    HasPartial (fun y => evalPsi d y z) (r / d.R0 * g.d1) r ∧ g.d2 = 0 ∧ HasPartial (fun y => evalPsi d r y) (r / d.R0 * g.d3) z := by
  unfold evalPsiDpsi at h
  split at h
  · rename_i hv
    simp only [Option.some.injEq] at h
    have h0 := hv.1
    have hr := valid_r hv
    have e1 := psi_partial_r (z := z) hv
    have e3 := psi_partial_z (z := z) hv
    rw [← h]
    refine ⟨?_, rfl, ?_⟩
    · convert e1 using 1
      dsimp only
      field_simp
    · convert e3 using 1
      dsimp only
      field_simp
  · cases h

/-- At the reference radius the gradient is right. -/
theorem psi_gradient_at_R0 (d : Data) (z : ℝ) (g : Grad) (h : evalPsiDpsi d d.R0 z = some g) :
    HasPartial (fun y => evalPsi d y z) g.d1 d.R0 ∧ g.d2 = 0 ∧ HasPartial (fun y => evalPsi d d.R0 y) g.d3 z := by
  have h0 : d.R0 ≠ 0 := by
    unfold evalPsiDpsi at h
    split at h
    · rename_i hv
      exact hv.1
    · cases h
  have := psi_gradient_partial d d.R0 z g h
  rwa [div_self h0, one_mul, one_mul] at this

/-- A field whose flux is the height. -/
def tilted : Data := ⟨1, 0, 1, 0, 1, 0, 1, 1, fun i => if i = 7 then 1 else 0, 0, 1, 1, 0⟩

/-- Finding: away from the reference radius the returned gradient is not the gradient of the flux (here by a factor two). -/
theorem psi_gradient_wrong : ∃ d r z g, evalPsiDpsi d r z = some g ∧ ¬ HasPartial (fun y => evalPsi d r y) g.d3 z := by
  have hv : Valid tilted 2 := ⟨by simp [tilted], by simp [tilted]⟩
  have hs : ∀ a b L, sumZ tilted.C a b L = 1 := by
    intro a b L
    unfold sumZ
    norm_num [tilted, Fin.ext_iff]
  refine ⟨tilted, 2, 0, _, if_pos hv, fun hw => ?_⟩
  have := hw.unique (psi_partial_z hv)
  simp only [hs] at this
  norm_num [tilted] at this

/-- The poloidal field is the flux function's: `B_R = -(1/R) dpsi/dz`, `B_z = (1/R) dpsi/dR`. -/
theorem field_from_flux (d : Data) (r phi z : ℝ) (B : V3 ℝ) (h : evalB d r phi z = some B) :
    r ≠ 0 ∧ HasPartial (fun y => evalPsi d r y) (-(r * B.x)) z ∧ HasPartial (fun y => evalPsi d y z) (r * B.z) r := by
  unfold evalB at h
  split at h
  · rename_i hv
    have h0 := hv.1
    have hr := valid_r hv
    have e1 := psi_partial_r (z := z) hv
    have e3 := psi_partial_z (z := z) hv
    have key : B.x = sumZ d.C (r / d.R0) ((z - d.z0) / d.R0) (Real.log (r / d.R0)) * (-d.mult / (r / d.R0 * d.R0 * d.R0))
        ∧ B.z = sumR d.C (r / d.R0) ((z - d.z0) / d.R0) (Real.log (r / d.R0)) * (d.mult / (r / d.R0 * d.R0 * d.R0)) := by
      dsimp only at h
      split at h
      · split at h
        · cases h
        · simp only [Option.some.injEq] at h
          rw [← h]
          exact ⟨rfl, rfl⟩
      · simp only [Option.some.injEq] at h
        rw [← h]
        exact ⟨rfl, rfl⟩
    refine ⟨hr, ?_, ?_⟩
    · convert e3 using 1
      rw [key.1]
      field_simp
    · convert e1 using 1
      rw [key.2]
      field_simp
  · cases h

/-- Without ripple the toroidal field falls off as `1/R` from its value at the reference radius. -/
theorem toroidal (d : Data) (r phi z : ℝ) (B : V3 ℝ) (hn : d.Nripple ≤ 0) (h : evalB d r phi z = some B) : B.y = d.Bphi0 * d.R0 / r := by
  unfold evalB at h
  split at h
  · rename_i hv
    have h0 := hv.1
    have hr := valid_r hv
    dsimp only at h
    rw [if_neg (by omega)] at h
    simp only [Option.some.injEq] at h
    rw [← h]
    dsimp only
    field_simp
  · cases h

/-- With ripple it varies as `1 + delta cos(N phi)` around that value; `delta` does not depend on `phi`. -/
theorem toroidal_ripple (d : Data) (r z : ℝ) (hn : 0 < d.Nripple) (hB : ∃ phi B, evalB d r phi z = some B) :
    ∃ delta, ∀ phi, ∃ B, evalB d r phi z = some B ∧ B.y = d.Bphi0 * d.R0 / r * (1 + delta * Real.cos (d.Nripple * phi)) := by
  obtain ⟨phi0, B0, h⟩ := hB
  unfold evalB at h
  split at h
  · rename_i hv
    have h0 := hv.1
    have hr := valid_r hv
    dsimp only at h
    try rw [if_pos hn] at h
    split at h
    · cases h
    · rename_i delta hd
      refine ⟨delta, fun phi => ?_⟩
      unfold evalB
      rw [if_pos hv]
      dsimp only
      rw [if_pos hn, hd]
      refine ⟨_, rfl, ?_⟩
      dsimp only
      field_simp
  · cases h

/-- The field that comes with the gradient is the field. -/
theorem same_field (d : Data) (r phi z : ℝ) (j : Jac) (h : evalBdB d r phi z = some j) :
    evalB d r phi z = some ⟨j.a.v, j.b.v, j.c.v⟩ := by
  unfold evalBdB at h
  split at h
  · rename_i hv
    have h0 := hv.1
    have hr := valid_r hv
    unfold evalB
    rw [if_pos hv]
    have ea := jac_av d r (z - d.z0) h0 hr
    have ec := jac_cv d r (z - d.z0) h0 hr
    have eb : (smoothJac d r (z - d.z0)).b.v = d.Bphi0 / (r / d.R0) := by
      show d.Bphi0 * d.R0 / r = _
      field_simp
    have e1 : r / d.R0 * d.R0 = r := by field_simp
    have e2 : (z - d.z0) / d.R0 * d.R0 = z - d.z0 := by field_simp
    dsimp only at h ⊢
    rw [e2]
    rw [← ea, ← ec, ← eb, e1]
    by_cases hn : d.Nripple > 0
    · rw [if_pos hn] at h ⊢
      split at h
      · cases h
      · rename_i delta hd
        split at h
        · cases h
        · simp only [Option.some.injEq] at h
          try rw [hd]
          rw [← h]
          simp only [Option.some.injEq]
          ext
          · rfl
          · show _ * (1 + delta * _) = _ + _ * delta * _
            ring
          · rfl
    · rw [if_neg hn] at h ⊢
      simp only [Option.some.injEq] at h
      rw [← h]
  · cases h

theorem evalB_eq (d : Data) (r phi z : ℝ) (hv : Valid d r) : evalB d r phi z =
    if d.Nripple > 0 then (ripple d r (z - d.z0)).map fun delta => ⟨(smoothJac d r (z - d.z0)).a.v,
      (smoothJac d r (z - d.z0)).b.v * (1 + delta * Real.cos (d.Nripple * phi)), (smoothJac d r (z - d.z0)).c.v⟩
    else some ⟨(smoothJac d r (z - d.z0)).a.v, (smoothJac d r (z - d.z0)).b.v, (smoothJac d r (z - d.z0)).c.v⟩ := by
  have h0 := hv.1
  have hr := valid_r hv
  have ea := jac_av d r (z - d.z0) h0 hr
  have ec := jac_cv d r (z - d.z0) h0 hr
  have eb : (smoothJac d r (z - d.z0)).b.v = d.Bphi0 / (r / d.R0) := by
    show d.Bphi0 * d.R0 / r = _
    field_simp
  have e1 : r / d.R0 * d.R0 = r := by field_simp
  have e2 : (z - d.z0) / d.R0 * d.R0 = z - d.z0 := by field_simp
  unfold evalB
  rw [if_pos hv]
  dsimp only
  rw [e2, ← ea, ← ec, ← eb, e1]
  split
  · cases ripple d r (z - d.z0) <;> rfl
  · rfl

/-- Amplitude of the ripple. -/
noncomputable def amplitude (d : Data) (x y : ℝ) : ℝ :=
  d.delta0 * Real.exp (-0.5 * atan2 y x * atan2 y x) * (Real.sqrt (x * x + y * y) / d.a0) ^ d.alpha0

theorem sum_pos {x y : ℝ} (h : 0 < x ∨ y ≠ 0) : 0 < x * x + y * y := by
  rcases h with h | h
  · nlinarith [mul_self_nonneg y, mul_pos h h]
  · have := mul_self_pos.mpr h
    nlinarith [mul_self_nonneg x]

theorem ripple_some (d : Data) (r z : ℝ) (ha : 0 < d.a0) (h : 0 < r - d.R0 ∨ z - d.z0 ≠ 0) :
    ripple d r z = some (amplitude d (r - d.R0) (z - d.z0)) := by
  unfold ripple amplitude
  have hs := Real.sqrt_pos.mpr (sum_pos h)
  dsimp only
  rw [if_pos ⟨ha.ne', Or.inl (div_pos hs ha)⟩]

theorem amp_r (d : Data) (r z : ℝ) (ha : 0 < d.a0) (h : 0 < r - d.R0 ∨ z ≠ 0) :
    HasDerivAt (fun y => amplitude d (y - d.R0) z) (amplitude d (r - d.R0) z * (d.alpha0 * (r - d.R0) / ((r - d.R0) * (r - d.R0) + z * z)
      + atan2 z (r - d.R0) * (z / ((r - d.R0) * (r - d.R0) + z * z)))) r := by
  have := ripple_deriv (x := fun y => y - d.R0) (y := fun _ => z) (t := r) d.a0 d.alpha0 d.delta0 ((hasDerivAt_id r).sub_const d.R0)
    (hasDerivAt_const r z) h ha
  refine this.congr_deriv ?_
  unfold amplitude
  congr 1
  have := (sum_pos h).ne'
  field_simp
  ring

theorem amp_z (d : Data) (x z c : ℝ) (ha : 0 < d.a0) (h : 0 < x ∨ z - c ≠ 0) :
    HasDerivAt (fun y => amplitude d x (y - c)) (amplitude d x (z - c) * (d.alpha0 * (z - c) / (x * x + (z - c) * (z - c))
      - atan2 (z - c) x * (x / (x * x + (z - c) * (z - c))))) z := by
  have := ripple_deriv (x := fun _ => x) (y := fun y => y - c) (t := z) d.a0 d.alpha0 d.delta0 (hasDerivAt_const z x)
    ((hasDerivAt_id z).sub_const c) h ha
  refine this.congr_deriv ?_
  unfold amplitude
  congr 1
  have := (sum_pos h).ne'
  field_simp
  ring

theorem near_r (d : Data) (r z : ℝ) (h : 0 < r - d.R0 ∨ z ≠ 0) : ∀ᶠ y in 𝓝 r, 0 < y - d.R0 ∨ z ≠ 0 := by
  rcases h with h | h
  · have hc : ContinuousAt (fun y : ℝ => y - d.R0) r := continuousAt_id.sub continuousAt_const
    filter_upwards [hc.eventually (lt_mem_nhds h)] with y hy
    exact Or.inl hy
  · exact Filter.Eventually.of_forall fun _ => Or.inr h

theorem near_z (x z c e : ℝ) (h : 0 < x ∨ z - c - e ≠ 0) : ∀ᶠ y in 𝓝 z, 0 < x ∨ y - c - e ≠ 0 := by
  rcases h with h | h
  · exact Filter.Eventually.of_forall fun _ => Or.inl h
  · have hc : ContinuousAt (fun y : ℝ => y - c - e) z := (continuousAt_id.sub continuousAt_const).sub continuousAt_const
    filter_upwards [hc.eventually (isOpen_ne.mem_nhds h)] with y hy
    exact Or.inr hy

theorem jac_br (d : Data) (r z : ℝ) (hr : r ≠ 0) :
    HasDerivAt (fun y => (smoothJac d y z).b.v) (smoothJac d r z).b.d1 r := by
  show HasDerivAt (fun y => d.Bphi0 * d.R0 / y) (-d.Bphi0 * d.R0 / (r * r)) r
  refine ((hasDerivAt_inv hr).const_mul (d.Bphi0 * d.R0)).congr_deriv ?_
  field_simp

theorem shift {f : ℝ → ℝ} {f' z c : ℝ} (h : HasDerivAt f f' (z - c)) : HasDerivAt (fun y => f (y - c)) f' z := by
  exact (h.comp z ((hasDerivAt_id z).sub_const c)).congr_deriv (mul_one f')

/-- Without ripple the field and its gradient are consistent at every point where they are evaluated. -/
theorem jacobian_smooth (d : Data) (r phi z : ℝ) (j : Jac) (hn : d.Nripple ≤ 0) (h : evalBdB d r phi z = some j) :
    IsJacobian (evalB d) j r phi z := by
  have hs := same_field d r phi z j h
  unfold evalBdB at h
  split at h
  · rename_i hv
    have h0 := hv.1
    have hr := valid_r hv
    dsimp only at h
    rw [if_neg (by omega)] at h
    simp only [Option.some.injEq] at h
    have e : ∀ y p w, Valid d y → evalB d y p w =
        some ⟨(smoothJac d y (w - d.z0)).a.v, (smoothJac d y (w - d.z0)).b.v, (smoothJac d y (w - d.z0)).c.v⟩ := fun y p w hy => by
      rw [evalB_eq d y p w hy, if_neg (by omega)]
    refine ⟨hs, ?_⟩
    subst h
    refine ⟨⟨⟨_, ?_, jac_ar d r (z - d.z0) h0 hr⟩, ⟨fun _ => (smoothJac d r (z - d.z0)).a.v, ?_, hasDerivAt_const phi _⟩,
      ⟨_, ?_, shift (jac_az d r (z - d.z0))⟩⟩, ⟨⟨_, ?_, jac_br d r (z - d.z0) hr⟩,
      ⟨fun _ => (smoothJac d r (z - d.z0)).b.v, ?_, hasDerivAt_const phi _⟩, ⟨fun _ => (smoothJac d r (z - d.z0)).b.v, ?_, hasDerivAt_const z _⟩⟩,
      ⟨⟨_, ?_, jac_cr d r (z - d.z0) h0 hr⟩, ⟨fun _ => (smoothJac d r (z - d.z0)).c.v, ?_, hasDerivAt_const phi _⟩,
      ⟨_, ?_, shift (jac_cz d r (z - d.z0) h0 hr)⟩⟩⟩
    · filter_upwards [valid_near hv] with y hy
      rw [e _ _ _ hy]; rfl
    · filter_upwards with y
      rw [e _ _ _ hv]; rfl
    · filter_upwards with y
      rw [e _ _ _ hv]; rfl
    · filter_upwards [valid_near hv] with y hy
      rw [e _ _ _ hy]; rfl
    · filter_upwards with y
      rw [e _ _ _ hv]; rfl
    · filter_upwards with y
      rw [e _ _ _ hv]; rfl
    · filter_upwards [valid_near hv] with y hy
      rw [e _ _ _ hy]; rfl
    · filter_upwards with y
      rw [e _ _ _ hv]; rfl
    · filter_upwards with y
      rw [e _ _ _ hv]; rfl
  · cases h

/-- With ripple the same holds away from the half line where the poloidal angle of the ripple jumps. -/
theorem jacobian_ripple (d : Data) (r phi z : ℝ) (j : Jac) (hn : 0 < d.Nripple) (hc : d.R0 < r ∨ z ≠ d.z0 + d.z0)
    (h : evalBdB d r phi z = some j) : IsJacobian (evalB d) j r phi z := by
  have hs := same_field d r phi z j h
  have hc' : 0 < r - d.R0 ∨ z - d.z0 - d.z0 ≠ 0 := by
    rcases hc with hc | hc
    · exact Or.inl (by linarith)
    · exact Or.inr fun e => hc (by linarith)
  unfold evalBdB at h
  split at h
  · rename_i hv
    have h0 := hv.1
    have hr := valid_r hv
    have hpos := sum_pos hc'
    have hsq := Real.mul_self_sqrt hpos.le
    have hsp := Real.sqrt_pos.mpr hpos
    dsimp only at h
    have ha : 0 < d.a0 := by
      by_contra hna
      have : ripple d r (z - d.z0) = none := by
        unfold ripple
        dsimp only
        rw [if_neg]
        rintro ⟨ha0, hh | hh⟩
        · have : d.a0 < 0 := lt_of_le_of_ne (not_lt.mp hna) ha0
          exact absurd hh (not_lt.mpr (div_nonpos_of_nonneg_of_nonpos hsp.le this.le))
        · exact hsp.ne' hh.1
      rw [this] at h
      simp at h
    have hrip : ∀ y w, (0 < y - d.R0 ∨ w - d.z0 - d.z0 ≠ 0) → ripple d y (w - d.z0) = some (amplitude d (y - d.R0) (w - d.z0 - d.z0)) :=
      fun y w hw => ripple_some d y (w - d.z0) ha hw
    have e : ∀ y p w, Valid d y → (0 < y - d.R0 ∨ w - d.z0 - d.z0 ≠ 0) → evalB d y p w =
        some ⟨(smoothJac d y (w - d.z0)).a.v, (smoothJac d y (w - d.z0)).b.v * (1 + amplitude d (y - d.R0) (w - d.z0 - d.z0)
          * Real.cos (d.Nripple * p)), (smoothJac d y (w - d.z0)).c.v⟩ := fun y p w hy hw => by
      rw [evalB_eq d y p w hy, if_pos hn, hrip y w hw]
      rfl
    rw [hrip r z hc'] at h
    dsimp only at h
    split at h
    · cases h
    · rename_i hz
      have hb : (smoothJac d r (z - d.z0)).b.v ≠ 0 := fun hh => hz (Or.inr hh)
      simp only [Option.some.injEq] at h
      refine ⟨hs, ?_⟩
      subst h
      have eb : ∀ w, (smoothJac d r w).b.v = d.Bphi0 * d.R0 / r := fun _ => rfl
      have ar := amp_r d r (z - d.z0 - d.z0) ha hc'
      have az : HasDerivAt (fun y => amplitude d (r - d.R0) (y - d.z0 - d.z0)) _ z := shift (amp_z d (r - d.R0) (z - d.z0) d.z0 ha hc')
      have ev1 := (valid_near hv).and (near_r d r (z - d.z0 - d.z0) hc')
      have ev3 := near_z (r - d.R0) z d.z0 d.z0 hc'
      refine ⟨⟨⟨_, ?_, jac_ar d r (z - d.z0) h0 hr⟩, ⟨fun _ => (smoothJac d r (z - d.z0)).a.v, ?_, hasDerivAt_const phi _⟩,
        ⟨_, ?_, shift (jac_az d r (z - d.z0))⟩⟩, ⟨⟨_, ?_, ((jac_br d r (z - d.z0) hr).mul ((ar.mul_const (Real.cos (d.Nripple * phi))).const_add 1)).congr_deriv ?_⟩,
        ⟨fun p => (smoothJac d r (z - d.z0)).b.v * (1 + amplitude d (r - d.R0) (z - d.z0 - d.z0) * Real.cos (d.Nripple * p)), ?_, ?_⟩,
        ⟨_, ?_, (((az.mul_const (Real.cos (d.Nripple * phi))).const_add 1).const_mul (smoothJac d r (z - d.z0)).b.v).congr_deriv ?_⟩⟩,
        ⟨⟨_, ?_, jac_cr d r (z - d.z0) h0 hr⟩, ⟨fun _ => (smoothJac d r (z - d.z0)).c.v, ?_, hasDerivAt_const phi _⟩,
        ⟨_, ?_, shift (jac_cz d r (z - d.z0) h0 hr)⟩⟩⟩
      · filter_upwards [ev1] with y hy
        rw [e _ _ _ hy.1 hy.2]; rfl
      · filter_upwards with y
        rw [e _ _ _ hv hc']; rfl
      · filter_upwards [ev3] with y hy
        rw [e _ _ _ hv hy]; rfl
      · filter_upwards [ev1] with y hy
        rw [e _ _ _ hy.1 hy.2]; rfl
      · dsimp only
        generalize amplitude d _ _ = A
        generalize Real.cos _ = c
        generalize atan2 _ _ = th
        generalize (smoothJac d r (z - d.z0)).b.v = b at hb ⊢
        generalize (smoothJac d r (z - d.z0)).b.d1 = b1
        generalize Real.sqrt _ = s at hsp hsq ⊢
        rw [← hsq]
        field_simp
        ring
      · filter_upwards with y
        rw [e _ _ _ hv hc']; rfl
      · have hcos : HasDerivAt (fun p : ℝ => Real.cos (d.Nripple * p)) (-Real.sin (d.Nripple * phi) * d.Nripple) phi := by
          have := ((hasDerivAt_id phi).const_mul (d.Nripple : ℝ)).cos
          simpa using this
        refine (((hcos.const_mul (amplitude d (r - d.R0) (z - d.z0 - d.z0))).const_add 1).const_mul (smoothJac d r (z - d.z0)).b.v).congr_deriv ?_
        dsimp only
        show _ = (0 : ℝ) + _
        ring
      · filter_upwards [ev3] with y hy
        rw [e _ _ _ hv hy]; rfl
      · dsimp only
        show _ = (0 : ℝ) + _
        generalize amplitude d _ _ = A
        generalize Real.cos _ = c
        generalize atan2 _ _ = th
        generalize (smoothJac d r (z - d.z0)).b.v = b at hb ⊢
        generalize Real.sqrt _ = s at hsp hsq ⊢
        rw [← hsq]
        field_simp
        ring
      · filter_upwards [ev1] with y hy
        rw [e _ _ _ hy.1 hy.2]; rfl
      · filter_upwards with y
        rw [e _ _ _ hv hc']; rfl
      · filter_upwards [ev3] with y hy
        rw [e _ _ _ hv hy]; rfl
  · cases h

/-- Without ripple the field has no divergence. -/
theorem divergence_free (d : Data) (r phi z : ℝ) (j : Jac) (hn : d.Nripple ≤ 0) (h : evalBdB d r phi z = some j) : divergence j r = 0 := by
  unfold evalBdB at h
  split at h
  · rename_i hv
    have hr := valid_r hv
    dsimp only at h
    rw [if_neg (by omega)] at h
    simp only [Option.some.injEq] at h
    subst h
    unfold divergence
    show _ / r + _ + (0 : ℝ) / r + (-(smoothJac d r (z - d.z0)).a.d1 - (smoothJac d r (z - d.z0)).a.v / r) = 0
    ring
  · cases h

/-- With ripple the divergence is that of the modulation of the toroidal field alone. -/
theorem divergence_ripple (d : Data) (r phi z : ℝ) (j : Jac) (h : evalBdB d r phi z = some j) : divergence j r = j.b.d2 / r := by
  unfold evalBdB at h
  split at h
  · rename_i hv
    have hr := valid_r hv
    dsimp only at h
    have key : ∀ g : Grad, divergence ⟨(smoothJac d r (z - d.z0)).a, g, (smoothJac d r (z - d.z0)).c⟩ r = g.d2 / r := by
      intro g
      unfold divergence
      show _ / r + _ + g.d2 / r + (-(smoothJac d r (z - d.z0)).a.d1 - (smoothJac d r (z - d.z0)).a.v / r) = _
      ring
    split at h
    · split at h
      · cases h
      · split at h
        · cases h
        · simp only [Option.some.injEq] at h
          subst h
          exact key _
    · simp only [Option.some.injEq] at h
      subst h
      exact key _
  · cases h

/-- The Grad-Shafranov equation with the source of the model: the toroidal current is `(1-A)(R/R0)^2 + A` up to the factor. -/
theorem grad_shafranov (d : Data) (r phi z : ℝ) (j : Jac) (h : evalBdB d r phi z = some j) :
    j.c.d1 - j.a.d3 = d.mult / (r * d.R0 ^ 2) * ((1 - d.C 12) * (r / d.R0) ^ 2 + d.C 12) := by
  unfold evalBdB at h
  split at h
  · rename_i hv
    have key := jac_current d r (z - d.z0) hv.1 (valid_r hv)
    dsimp only at h
    split at h
    · split at h
      · cases h
      · split at h
        · cases h
        · simp only [Option.some.injEq] at h
          subst h
          exact key
    · simp only [Option.some.injEq] at h
      subst h
      exact key
  · cases h

/-- The field is tangent to the flux surfaces, also for the returned gradient, whose direction is right. -/
theorem tangent (d : Data) (r phi z : ℝ) (B : V3 ℝ) (g : Grad) (hB : evalB d r phi z = some B) (hg : evalPsiDpsi d r z = some g) :
    B.x * g.d1 + B.y * (g.d2 / r) + B.z * g.d3 = 0 := by
  obtain ⟨hr, h1, h2⟩ := field_from_flux d r phi z B hB
  obtain ⟨h3, h4, h5⟩ := psi_gradient_partial d r z g hg
  have e1 := h1.unique h5
  have e2 := h2.unique h3
  have h0 : d.R0 ≠ 0 := by
    unfold evalPsiDpsi at hg
    split at hg
    · rename_i hv
      exact hv.1
    · cases hg
  rw [h4]
  have f1 : B.x = -(g.d3 / d.R0) := by
    field_simp at e1 ⊢
    linear_combination -e1
  have f2 : B.z = g.d1 / d.R0 := by
    field_simp at e2 ⊢
    linear_combination e2
  rw [f1, f2]
  ring

/-- The normalised radius in a result of `B_GS_eval_rho_drho`. -/
def rhoOf : Option (Except Nat Grad) → Option ℝ
  | some (.ok g) => some g.v
  | _ => none

/-- The normalised radius is the root of the normalised flux; its gradient is `R0/R` times the true one, like that of the flux. -/
theorem rho_gradient_partial (d : Data) (r z : ℝ) (g : Grad) (h : evalRhoDrho d r z = some (.ok g)) :
    (∃ psi, evalPsi d r z = some psi ∧ g.v = Real.sqrt ((psi - d.psi0) / (d.psi1 - d.psi0))) ∧ 0 < g.v
      ∧ HasPartial (fun y => rhoOf (evalRhoDrho d y z)) (r / d.R0 * g.d1) r ∧ g.d2 = 0
      ∧ HasPartial (fun y => rhoOf (evalRhoDrho d r y)) (r / d.R0 * g.d3) z := by
  unfold evalRhoDrho at h
  split at h
  · cases h
  · rename_i p hp
    dsimp only at h
    split at h
    · cases h
    · rename_i hd
      split at h
      · cases h
      · rename_i hneg
        split at h
        · cases h
        · rename_i hrho
          simp only [Option.some.injEq, Except.ok.injEq] at h
          have hpos : 0 < (p.v - d.psi0) / (d.psi1 - d.psi0) := by
            rcases (not_lt.mp hneg).lt_or_eq with hh | hh
            · exact hh
            · exact absurd (by rw [← hh]; exact Real.sqrt_zero) hrho
          have hsp := Real.sqrt_pos.mpr hpos
          obtain ⟨q1, -, q3⟩ := psi_gradient_partial d r z p hp
          have hval := same_psi d r z p hp
          have back : ∀ y w v, evalPsi d y w = some v → 0 < (v - d.psi0) / (d.psi1 - d.psi0) →
              rhoOf (evalRhoDrho d y w) = some (Real.sqrt ((v - d.psi0) / (d.psi1 - d.psi0))) := by
            intro y w v hv hvp
            have : ∃ g, evalPsiDpsi d y w = some g ∧ g.v = v := by
              unfold evalPsi at hv
              split at hv
              · rename_i hy
                simp only [Option.some.injEq] at hv
                unfold evalPsiDpsi
                rw [if_pos hy]
                exact ⟨_, rfl, hv⟩
              · cases hv
            obtain ⟨g, hg, rfl⟩ := this
            unfold evalRhoDrho
            rw [hg]
            dsimp only
            rw [if_neg hd, if_neg (not_lt.mpr hvp.le), if_neg (Real.sqrt_pos.mpr hvp).ne']
            rfl
          have lift : ∀ (F : ℝ → Option ℝ) (G : ℝ → Option ℝ) (x c : ℝ), F x = some p.v → HasPartial F c x →
              (∀ y v, F y = some v → 0 < (v - d.psi0) / (d.psi1 - d.psi0) → G y = some (Real.sqrt ((v - d.psi0) / (d.psi1 - d.psi0)))) →
              HasPartial G (c / (2 * (d.psi1 - d.psi0) * Real.sqrt ((p.v - d.psi0) / (d.psi1 - d.psi0)))) x := by
            rintro F G x c hF ⟨f, hf, hfd⟩ hG
            have hfx : f x = p.v := by
              have := hf.self_of_nhds
              rw [hF] at this
              exact (Option.some.inj this).symm
            have hq := (hfd.sub_const d.psi0).div_const (d.psi1 - d.psi0)
            have hev : ∀ᶠ y in 𝓝 x, 0 < (f y - d.psi0) / (d.psi1 - d.psi0) := by
              refine hq.continuousAt.eventually (lt_mem_nhds ?_)
              show 0 < (f x - d.psi0) / (d.psi1 - d.psi0)
              rw [hfx]
              exact hpos
            refine ⟨fun y => Real.sqrt ((f y - d.psi0) / (d.psi1 - d.psi0)), ?_, (hq.sqrt (by rw [hfx]; exact hpos.ne')).congr_deriv ?_⟩
            · filter_upwards [hf, hev] with y h1 h2
              exact hG y (f y) h1 h2
            · rw [hfx]
              generalize Real.sqrt _ = s at hsp ⊢
              field_simp
          subst h
          refine ⟨⟨p.v, hval, rfl⟩, hsp, ?_, rfl, ?_⟩
          · have := lift _ (fun y => rhoOf (evalRhoDrho d y z)) r _ hval q1 (fun y v => back y z v)
            rw [mul_div_assoc] at this
            exact this
          · have := lift _ (fun y => rhoOf (evalRhoDrho d r y)) z _ hval q3 (fun y v => back r y v)
            rw [mul_div_assoc] at this
            exact this

theorem atan2_neg {x y : ℝ} (hx : 0 < x) : atan2 (-y) x = -atan2 y x := by
  unfold atan2
  have h : (⟨x, -y⟩ : ℂ) = (starRingEnd ℂ) ⟨x, y⟩ := by
    apply Complex.ext <;> simp
  rw [h, Complex.arg_conj, if_neg]
  intro hp
  have := (Complex.arg_eq_pi_iff.mp hp).1
  simp at this
  linarith

/-- The ripple is symmetric with respect to the height `2 z0`, not `z0`: outside the reference radius the toroidal field is
the same at equal distances from that height. -/
theorem ripple_symmetric (d : Data) (r phi w : ℝ) (hr : d.R0 < r) :
    (evalB d r phi (2 * d.z0 + w)).map V3.y = (evalB d r phi (2 * d.z0 - w)).map V3.y := by
  by_cases hv : Valid d r
  · rw [evalB_eq d r phi _ hv, evalB_eq d r phi _ hv]
    have e : ripple d r (2 * d.z0 + w - d.z0) = ripple d r (2 * d.z0 - w - d.z0) := by
      unfold ripple
      rw [show 2 * d.z0 + w - d.z0 - d.z0 = w by ring, show 2 * d.z0 - w - d.z0 - d.z0 = -w by ring, atan2_neg (by linarith)]
      simp only [neg_mul_neg, mul_neg, neg_mul, neg_neg]
    rw [e]
    split
    · cases ripple d r (2 * d.z0 - w - d.z0) <;> rfl
    · rfl
  · unfold evalB
    rw [if_neg hv, if_neg hv]

/-- If the midplane is at height zero, the toroidal field is symmetric with respect to the midplane. -/
theorem ripple_midplane_partial (d : Data) (r phi w : ℝ) (hr : d.R0 < r) (hz : d.z0 = 0) :
    (evalB d r phi (d.z0 + w)).map V3.y = (evalB d r phi (d.z0 - w)).map V3.y := by
  have := ripple_symmetric d r phi w hr
  rwa [hz, mul_zero, ← hz] at this

/-- A field with ripple and the midplane at height one. -/
def rippled : Data := ⟨1, 1, 1, 1, 1, 0, 1, 0, fun _ => 0, 1, 1, 0, 1⟩

theorem rippled_y (phi z : ℝ) : (evalB rippled 2 phi z).map V3.y = some (1 / 2 * (1 + Real.exp (-0.5 * atan2 (z - 1 - 1) 1 * atan2 (z - 1 - 1) 1) * Real.cos phi)) := by
  have hv : Valid rippled 2 := ⟨by simp [rippled], by simp [rippled]⟩
  rw [evalB_eq _ _ _ _ hv, if_pos (by simp [rippled]), ripple_some _ _ _ (by simp [rippled]) (Or.inl (by norm_num [rippled]))]
  simp only [Option.map_some, Option.some.injEq]
  show 1 * 1 / 2 * (1 + amplitude rippled (2 - 1) (z - 1 - 1) * Real.cos (((1 : ℤ) : ℝ) * phi)) = _
  unfold amplitude
  simp [rippled]
  norm_num

/-- Finding: with the midplane elsewhere, the rippled toroidal field differs between equal heights above and below the midplane. -/
theorem ripple_midplane_wrong : ∃ d r phi w, d.R0 < r ∧ (evalB d r phi (d.z0 + w)).map V3.y ≠ (evalB d r phi (d.z0 - w)).map V3.y := by
  refine ⟨rippled, 2, 0, 1, by norm_num [rippled], ?_⟩
  show (evalB rippled 2 0 (1 + 1)).map V3.y ≠ (evalB rippled 2 0 (1 - 1)).map V3.y
  rw [rippled_y, rippled_y]
  intro h
  simp only [Option.some.injEq, Real.cos_zero, mul_one] at h
  have h1 : atan2 (1 + 1 - 1 - 1) 1 = 0 := by
    unfold atan2
    rw [Complex.arg_eq_zero_iff]
    norm_num
  have h2 : atan2 (1 - 1 - 1 - 1) 1 ≠ 0 := by
    unfold atan2
    rw [ne_eq, Complex.arg_eq_zero_iff]
    norm_num
  rw [h1] at h
  generalize atan2 (1 - 1 - 1 - 1) 1 = t at h h2
  have h3 := mul_self_pos.mpr h2
  have h4 : Real.exp (-0.5 * t * t) < 1 := by
    rw [Real.exp_lt_one_iff]
    rw [mul_assoc]
    have : (-0.5 : ℝ) = -(1 / 2) := by norm_num
    rw [this]
    linarith
  rw [show (-0.5 : ℝ) * 0 * 0 = 0 by norm_num, Real.exp_zero] at h
  linarith

/-- Finding: the rippled field has a divergence. -/
theorem divergence_wrong : ∃ d r phi z j, evalBdB d r phi z = some j ∧ divergence j r ≠ 0 := by
  have hv : Valid rippled 2 := ⟨by simp [rippled], by simp [rippled]⟩
  have hb : (smoothJac rippled 2 (2 - rippled.z0)).b.v = 1 / 2 := by
    show (1 : ℝ) * 1 / 2 = 1 / 2
    norm_num
  have hq : Real.sqrt ((2 - rippled.R0) * (2 - rippled.R0) + (2 - rippled.z0 - rippled.z0) * (2 - rippled.z0 - rippled.z0)) ≠ 0 := by
    rw [Real.sqrt_ne_zero']
    norm_num [rippled]
  have ha : amplitude rippled (2 - rippled.R0) (2 - rippled.z0 - rippled.z0) ≠ 0 := by
    unfold amplitude
    have : rippled.alpha0 = 0 := rfl
    rw [this, Real.rpow_zero]
    simp [rippled, Real.exp_ne_zero]
  have hj : ∃ j, evalBdB rippled 2 (Real.pi / 2) 2 = some j ∧ j.b.d2 = -(1 / 2) * amplitude rippled (2 - rippled.R0) (2 - rippled.z0 - rippled.z0) := by
    unfold evalBdB
    rw [if_pos hv]
    dsimp only
    rw [if_pos (by simp [rippled]), ripple_some _ _ _ (by simp [rippled]) (Or.inl (by norm_num [rippled]))]
    dsimp only
    rw [if_neg (by rw [hb]; rintro (h | h); exact hq h; norm_num at h)]
    refine ⟨_, rfl, ?_⟩
    dsimp only
    rw [hb]
    show (0 : ℝ) + -(1 / 2) * _ * ((1 : ℤ) : ℝ) * Real.sin (((1 : ℤ) : ℝ) * (Real.pi / 2)) = _
    simp
  obtain ⟨j, hj, hd⟩ := hj
  refine ⟨rippled, 2, Real.pi / 2, 2, j, hj, ?_⟩
  rw [divergence_ripple _ _ _ _ _ hj, hd]
  have : -(1 / 2) * amplitude rippled (2 - rippled.R0) (2 - rippled.z0 - rippled.z0) ≠ 0 := mul_ne_zero (by norm_num) ha
  exact div_ne_zero this (by norm_num)

/-- A field with a current and without ripple: `A = 0`, the other coefficients zero. -/
def plain : Data := ⟨1, 0, 1, 0, 1, 0, 1, 1, fun _ => 0, 0, 1, 1, 0⟩

example : ∃ j, evalBdB plain 2 0 0 = some j ∧ plain.Nripple ≤ 0 ∧ j.c.v = 2 := by
  have hv : Valid plain 2 := ⟨by simp [plain], by simp [plain]⟩
  refine ⟨smoothJac plain 2 (0 - plain.z0), ?_, by simp [plain], ?_⟩
  · unfold evalBdB
    rw [if_pos hv]
    simp [plain]
  · unfold smoothJac
    norm_num [plain]

example : ∃ g, evalRhoDrho plain 2 0 = some (.ok g) := by
  have hv : Valid plain 2 := ⟨by simp [plain], by simp [plain]⟩
  unfold evalRhoDrho evalPsiDpsi
  rw [if_pos hv]
  dsimp only
  have h : (plain.mult * psiSum plain.C (2 / plain.R0) ((0 - plain.z0) / plain.R0) (Real.log (2 / plain.R0)) - plain.psi0) / (plain.psi1 - plain.psi0) = 2 := by
    unfold psiSum
    norm_num [plain]
  rw [h, if_neg (by norm_num [plain]), if_neg (by norm_num), if_neg (by norm_num)]
  exact ⟨_, rfl⟩

example : 0 < rippled.Nripple ∧ rippled.R0 < 2 := by norm_num [rippled]

end Ascot.C84
