import Mathlib.Analysis.Calculus.Deriv.Comp
import Mathlib.Analysis.SpecialFunctions.Sqrt
import Mathlib.Algebra.BigOperators.Fin
import Mathlib.Tactic.FinCases
import Mathlib.Tactic.NormNum
import Verif.Spec.Fokker
import Verif.Lemmas.McccCoefs
import Verif.Model.Mccc

set_option linter.unusedSectionVars false
set_option linter.unusedSimpArgs false

/-!
# C90, C91: the collision coefficients

In C90 the Coulomb logarithms are held fixed: `cl` gives one for each species.
-/
namespace Ascot.C90
open Ascot.Mccc Ascot.Fokker

variable (e0 ma qa : ℝ) (cl : Species → ℝ)

/-- Drag on a marker of speed `v`. -/
noncomputable def Q (b : Species) (v : ℝ) : ℝ := coefQ e0 ma qa b.m b.q b.n (thermal b) (cl b) (mu0 (v / thermal b))
/-- Its derivative as the code computes it. -/
noncomputable def dQ (b : Species) (v : ℝ) : ℝ := coefdQ e0 ma qa b.m b.q b.n (thermal b) (cl b) (dmu0 (v / thermal b))
/-- Friction of the full-orbit operator. -/
noncomputable def F (b : Species) (v : ℝ) : ℝ := coefF e0 ma qa b.m b.q b.n (thermal b) (cl b) (mu0 (v / thermal b))
/-- Parallel diffusion. -/
noncomputable def Dpara (b : Species) (v : ℝ) : ℝ := coefDpara e0 ma qa v b.q b.n (thermal b) (cl b) (mu0 (v / thermal b))
/-- Its derivative as the code computes it. -/
noncomputable def dDpara (b : Species) (v : ℝ) : ℝ :=
  coefdDpara e0 ma qa v b.q b.n (thermal b) (cl b) (mu0 (v / thermal b)) (dmu0 (v / thermal b))
/-- Perpendicular diffusion. -/
noncomputable def Dperp (b : Species) (v : ℝ) : ℝ := coefDperp e0 ma qa v b.q b.n (thermal b) (cl b) (mu1 (v / thermal b))
/-- Drift of the speed in the guiding-center operator. -/
noncomputable def K (b : Species) (v : ℝ) : ℝ := coefK v (Dpara e0 ma qa cl b v) (dDpara e0 ma qa cl b v) (Q e0 ma qa cl b v)
/-- Sum over the species. -/
noncomputable def total (g : Species → ℝ → ℝ) (sp : List Species) (v : ℝ) : ℝ := (sp.map fun b => g b v).sum

/-- The species of a plasma: positive temperatures and masses. -/
def Physical (sp : List Species) : Prop := ∀ b ∈ sp, 0 < b.T ∧ 0 < b.m

variable {e0 ma qa cl}

theorem hasDerivAt_total {g g' : Species → ℝ → ℝ} {sp : List Species} {v : ℝ} (h : ∀ b ∈ sp, HasDerivAt (g b) (g' b v) v) :
    HasDerivAt (total g sp) (total g' sp v) v := by
  induction sp with
  | nil => exact hasDerivAt_const v 0
  | cons b bs ih =>
    exact (h b (by simp)).add (ih fun b' hb => h b' (by simp [hb]))

theorem hasDerivAt_scaled {b : Species} {v : ℝ} (hb : 0 < b.T ∧ 0 < b.m) (hv : 0 < v) :
    HasDerivAt (fun v => mu0 (v / thermal b)) (dmu0 (v / thermal b) / thermal b) v := by
  have ht := thermal_pos hb.1 hb.2
  have h := hasDerivAt_mu0 (x := v / thermal b) (by positivity)
  have := h.comp v ((hasDerivAt_id v).div_const (thermal b))
  refine this.congr_deriv ?_
  ring

theorem hasDerivAt_Dpara {b : Species} {v : ℝ} (hb : 0 < b.T ∧ 0 < b.m) (hma : ma ≠ 0) (hv : 0 < v) :
    HasDerivAt (Dpara e0 ma qa cl b) (dDpara e0 ma qa cl b v) v := by
  have ht := thermal_pos hb.1 hb.2
  have hd := (((hasDerivAt_scaled hb hv).const_mul (cab e0 qa b.q b.n (cl b))).div
    ((hasDerivAt_id v).const_mul (2 * ma * ma)) (by simp; exact ⟨hma, hv.ne'⟩))
  refine (hd.congr_of_eventuallyEq ?_).congr_deriv ?_
  · filter_upwards [isOpen_Ioi.mem_nhds (Set.mem_Ioi.2 hv)] with w hw
    unfold Dpara coefDpara
    rw [if_pos (Set.mem_Ioi.1 hw)]
    rfl
  · unfold dDpara coefdDpara
    simp only [id]
    field_simp

theorem hasDerivAt_Q {b : Species} {v : ℝ} (hb : 0 < b.T ∧ 0 < b.m) (hv : 0 < v) :
    HasDerivAt (Q e0 ma qa cl b) (dQ e0 ma qa cl b v) v := by
  have ht := thermal_pos hb.1 hb.2
  have hd := ((hasDerivAt_scaled hb hv).const_mul (-cab e0 qa b.q b.n (cl b))).div_const (ma * b.m * thermal b * thermal b)
  refine hd.congr_deriv ?_
  unfold dQ coefdQ
  field_simp

theorem cab_nonneg {b : Species} (hn : 0 ≤ b.n) (hc : 0 ≤ cl b) : 0 ≤ cab e0 qa b.q b.n (cl b) := by
  unfold cab
  have h1 : b.n * qa * qa * b.q * b.q * cl b = b.n * (qa * qa) * (b.q * b.q) * cl b := by ring
  have h2 : 4 * Real.pi * e0 * e0 = 4 * Real.pi * (e0 * e0) := by ring
  rw [h1, h2]
  have := mul_self_nonneg qa
  have := mul_self_nonneg b.q
  have := mul_self_nonneg e0
  have := Real.pi_pos
  positivity

theorem dens_of {b : Species} {v : ℝ} {M : ℝ} (hn : 0 ≤ b.n) (hc : 0 ≤ cl b) (hv : 0 < v) (hM : 0 ≤ M) :
    0 ≤ cab e0 qa b.q b.n (cl b) * M / (2 * ma * ma * v) := by
  have h2 : 2 * ma * ma * v = 2 * (ma * ma) * v := by ring
  rw [h2]
  have := mul_self_nonneg ma
  have := cab_nonneg (e0 := e0) (qa := qa) (b := b) hn hc
  positivity

theorem Dpara_nonneg {b : Species} (hb : 0 < b.T ∧ 0 < b.m) (hn : 0 ≤ b.n) (hc : 0 ≤ cl b) {v : ℝ} (hv : 0 < v) :
    0 ≤ Dpara e0 ma qa cl b v := by
  have ht := thermal_pos hb.1 hb.2
  unfold Dpara coefDpara
  rw [if_pos hv]
  exact dens_of hn hc hv (mu0_pos (by positivity)).le

theorem Dperp_nonneg {b : Species} (hb : 0 < b.T ∧ 0 < b.m) (hn : 0 ≤ b.n) (hc : 0 ≤ cl b) {v : ℝ} (hv : 0 < v) :
    0 ≤ Dperp e0 ma qa cl b v := by
  have ht := thermal_pos hb.1 hb.2
  unfold Dperp coefDperp
  rw [if_pos hv]
  exact dens_of hn hc hv (mu1_pos (by positivity)).le

theorem cab_pos {b : Species} (hn : 0 < b.n) (hq : b.q ≠ 0) (hqa : qa ≠ 0) (he : e0 ≠ 0) (hc : 0 < cl b) :
    0 < cab e0 qa b.q b.n (cl b) := by
  unfold cab
  have h1 : b.n * qa * qa * b.q * b.q * cl b = b.n * (qa * qa) * (b.q * b.q) * cl b := by ring
  have h2 : 4 * Real.pi * e0 * e0 = 4 * Real.pi * (e0 * e0) := by ring
  rw [h1, h2]
  have := mul_self_pos.2 hqa
  have := mul_self_pos.2 hq
  have := mul_self_pos.2 he
  have := Real.pi_pos
  positivity

theorem D_pos {b : Species} (hb : 0 < b.T ∧ 0 < b.m) (hma : 0 < ma) (hn : 0 < b.n) (hq : b.q ≠ 0) (hqa : qa ≠ 0) (he : e0 ≠ 0)
    (hc : 0 < cl b) {v : ℝ} (hv : 0 < v) : 0 < Dpara e0 ma qa cl b v ∧ 0 < Dperp e0 ma qa cl b v := by
  have ht := thermal_pos hb.1 hb.2
  have := mu0_pos (x := v / thermal b) (by positivity)
  have := mu1_pos (x := v / thermal b) (by positivity)
  have := cab_pos (e0 := e0) (qa := qa) (cl := cl) hn hq hqa he hc
  unfold Dpara Dperp coefDpara coefDperp
  rw [if_pos hv, if_pos hv]
  constructor <;> positivity

theorem total_nonneg {g : Species → ℝ → ℝ} {sp : List Species} {v : ℝ} (h : ∀ b ∈ sp, 0 ≤ g b v) : 0 ≤ total g sp v := by
  unfold total
  refine List.sum_nonneg ?_
  simpa using h

/-- The derivatives that enter the drift, the Milstein correction and the step-size control are the derivatives of the
summed coefficients. -/
theorem derivatives {sp : List Species} (hsp : Physical sp) (hma : ma ≠ 0) {v : ℝ} (hv : 0 < v) :
    HasDerivAt (total (Dpara e0 ma qa cl) sp) (total (dDpara e0 ma qa cl) sp v) v ∧
    HasDerivAt (total (Q e0 ma qa cl) sp) (total (dQ e0 ma qa cl) sp v) v :=
  ⟨hasDerivAt_total fun b hb => hasDerivAt_Dpara (hsp b hb) hma hv, hasDerivAt_total fun b hb => hasDerivAt_Q (hsp b hb) hv⟩

/-- Drag and diffusion are related by the temperature of the species. -/
theorem einstein {b : Species} (hb : 0 < b.T ∧ 0 < b.m) (hma : ma ≠ 0) {v : ℝ} (hv : 0 < v) :
    Q e0 ma qa cl b v * b.T = -(ma * v * Dpara e0 ma qa cl b v) := by
  have ht := thermal_pos hb.1 hb.2
  have hs := thermal_sq hb.1 hb.2
  have hT := hb.1.ne'
  have hm := hb.2.ne'
  unfold Q Dpara coefQ coefDpara
  rw [if_pos hv]
  generalize mu0 (v / thermal b) = M
  generalize cab e0 qa b.q b.n (cl b) = A
  have : b.T = thermal b ^ 2 * b.m / 2 := by
    rw [hs]
    field_simp
  rw [this]
  have := ht.ne'
  field_simp

/-- Friction of the full-orbit operator against the quantities of the guiding-center operator. -/
theorem friction {b : Species} (hb : 0 < b.T ∧ 0 < b.m) (hma : ma ≠ 0) {v : ℝ} (hv : 0 < v) :
    F e0 ma qa cl b v = Q e0 ma qa cl b v + dDpara e0 ma qa cl b v + 2 * (Dpara e0 ma qa cl b v - Dperp e0 ma qa cl b v) / v := by
  have ht := thermal_pos hb.1 hb.2
  have hm := hb.2.ne'
  have hv' := hv.ne'
  have ht' := ht.ne'
  unfold F Q Dpara Dperp dDpara coefF coefQ coefDpara coefDperp coefdDpara
  rw [if_pos hv, if_pos hv]
  have hr := dmu0_mu1 (x := v / thermal b) (by positivity)
  generalize mu0 (v / thermal b) = M at *
  generalize mu1 (v / thermal b) = N at *
  generalize dmu0 (v / thermal b) = P at *
  generalize cab e0 qa b.q b.n (cl b) = A
  field_simp
  field_simp at hr
  linear_combination (-b.m) * A * hr

theorem total_add (g g' : Species → ℝ → ℝ) (sp : List Species) (v : ℝ) :
    total (fun b v => g b v + g' b v) sp v = total g sp v + total g' sp v := by
  unfold total
  exact List.sum_map_add

/-- The speed has the same drift in both operators: by Ito's formula the drift of `|v|` in the full-orbit operator is
`F + 2 Dperp / |v|`. -/
theorem same_drift {sp : List Species} (hsp : Physical sp) (hma : ma ≠ 0) {v : ℝ} (hv : 0 < v) :
    total (K e0 ma qa cl) sp v = total (F e0 ma qa cl) sp v + 2 * total (Dperp e0 ma qa cl) sp v / v := by
  induction sp with
  | nil => simp [total]
  | cons b bs ih =>
    have ih := ih fun b' hb => hsp b' (by simp [hb])
    have hf := friction (e0 := e0) (qa := qa) (cl := cl) (hsp b (by simp)) hma hv
    have h1 : ∀ g : Species → ℝ → ℝ, total g (b :: bs) v = g b v + total g bs v := fun g => by simp [total]
    rw [h1, h1, h1, ih, hf]
    unfold K coefK
    ring

/-- If all species have the temperature `T`, the Maxwellian of temperature `T` is stationary under the changes of speed
made by the guiding-center operator. -/
theorem maxwellian_speed {sp : List Species} (hsp : Physical sp) {T : ℝ} (hT : ∀ b ∈ sp, b.T = T) (hT0 : 0 < T) (hma : 0 < ma)
    (hcl : ∀ b ∈ sp, 0 ≤ b.n ∧ 0 ≤ cl b) {v : ℝ} (hv : 0 < v) :
    NoFlux (total (K e0 ma qa cl) sp) (fun v => Real.sqrt (2 * total (Dpara e0 ma qa cl) sp v)) (maxwellSpeed ma T) v := by
  have hD : ∀ v, 0 < v → 0 ≤ total (Dpara e0 ma qa cl) sp v := fun v hv =>
    total_nonneg fun b hb => Dpara_nonneg (hsp b hb) (hcl b hb).1 (hcl b hb).2 hv
  have hd := (derivatives (e0 := e0) (qa := qa) (cl := cl) hsp hma.ne' hv).1
  have he : HasDerivAt (fun v : ℝ => Real.exp (-(ma * v ^ 2 / (2 * T)))) (-(ma * v / T) * Real.exp (-(ma * v ^ 2 / (2 * T)))) v := by
    have := ((((hasDerivAt_pow 2 v).const_mul ma).div_const (2 * T)).neg).exp
    refine this.congr_deriv ?_
    have := hT0.ne'
    simp only [Pi.neg_apply]
    field_simp
    ring
  have hf : HasDerivAt (maxwellSpeed ma T) ((2 / v - ma * v / T) * maxwellSpeed ma T v) v := by
    have := (hasDerivAt_pow 2 v).mul he
    refine this.congr_deriv ?_
    unfold maxwellSpeed
    have := hv.ne'
    field_simp
    ring
  unfold NoFlux
  have hk : total (K e0 ma qa cl) sp v = total (dDpara e0 ma qa cl) sp v + (2 / v - ma * v / T) * total (Dpara e0 ma qa cl) sp v := by
    clear hd hD hcl
    induction sp with
    | nil => simp [total]
    | cons b bs ih =>
      have ih := ih (fun b' hb => hsp b' (by simp [hb])) (fun b' hb => hT b' (by simp [hb]))
      have h1 : ∀ g : Species → ℝ → ℝ, total g (b :: bs) v = g b v + total g bs v := fun g => by simp [total]
      rw [h1, h1, h1, ih]
      have hq := einstein (e0 := e0) (qa := qa) (cl := cl) (hsp b (by simp)) hma.ne' hv
      rw [hT b (by simp)] at hq
      unfold K coefK
      have : Q e0 ma qa cl b v = -(ma * v * Dpara e0 ma qa cl b v) / T := by rw [eq_div_iff hT0.ne', hq]
      rw [this]
      ring
  refine ((hd.mul hf).congr_of_eventuallyEq ?_).congr_deriv ?_
  · filter_upwards [isOpen_Ioi.mem_nhds (Set.mem_Ioi.2 hv)] with w hw
    rw [Real.sq_sqrt (mul_nonneg (by norm_num) (hD w hw)), Pi.mul_apply]
    ring
  · rw [hk]
    ring

/-- The uniform distribution is stationary under the changes of pitch. -/
theorem isotropic_pitch {nu : ℝ} (hnu : 0 ≤ nu) {xi : ℝ} (hxi : |xi| < 1) :
    NoFlux (fun xi => -(xi * nu)) (fun xi => Real.sqrt ((1 - xi * xi) * nu)) (fun _ => 1) xi := by
  unfold NoFlux
  have h : HasDerivAt (fun x : ℝ => (1 - x * x) * nu / 2) (-(xi * nu)) xi := by
    have := ((((hasDerivAt_id xi).mul (hasDerivAt_id xi)).const_sub 1).mul_const nu).div_const 2
    refine this.congr_deriv ?_
    simp only [id]
    ring
  refine (h.congr_of_eventuallyEq ?_).congr_deriv (by ring)
  have : Set.Ioo (-1 : ℝ) 1 ∈ nhds xi := isOpen_Ioo.mem_nhds (abs_lt.1 hxi)
  filter_upwards [this] with w hw
  have : 0 ≤ (1 - w * w) * nu := mul_nonneg (by nlinarith [hw.1, hw.2]) hnu
  rw [Real.sq_sqrt this]
  ring

/-! ### Full orbits -/

/-- Length of a vector. -/
noncomputable def len (v : Fin 3 → ℝ) : ℝ := Real.sqrt (v 0 ^ 2 + v 1 ^ 2 + v 2 ^ 2)

theorem len_sq (v : Fin 3 → ℝ) : len v ^ 2 = v 0 ^ 2 + v 1 ^ 2 + v 2 ^ 2 := Real.sq_sqrt (by positivity)

theorem put_self (v : Fin 3 → ℝ) (j : Fin 3) : put v j (v j) = v := by
  funext i
  unfold put
  split
  · next h => rw [h]
  · rfl

theorem hasDerivAt_len {v : Fin 3 → ℝ} (hv : 0 < len v) (j : Fin 3) :
    HasDerivAt (fun t => len (put v j t)) (v j / len v) (v j) := by
  have h0 : v 0 ^ 2 + v 1 ^ 2 + v 2 ^ 2 ≠ 0 := by
    rw [← len_sq]
    positivity
  have h1 : HasDerivAt (fun t => put v j t 0 ^ 2 + put v j t 1 ^ 2 + put v j t 2 ^ 2) (2 * v j) (v j) := by
    fin_cases j
    · have := ((hasDerivAt_pow 2 (v 0)).add_const (v 1 ^ 2)).add_const (v 2 ^ 2)
      refine (this.congr_deriv (by simp)).congr_of_eventuallyEq (Filter.Eventually.of_forall fun t => ?_)
      simp [put]
    · have := ((hasDerivAt_pow 2 (v 1)).const_add (v 0 ^ 2)).add_const (v 2 ^ 2)
      refine (this.congr_deriv (by simp)).congr_of_eventuallyEq (Filter.Eventually.of_forall fun t => ?_)
      simp [put]
    · have := (hasDerivAt_pow 2 (v 2)).const_add (v 0 ^ 2 + v 1 ^ 2)
      refine (this.congr_deriv (by simp)).congr_of_eventuallyEq (Filter.Eventually.of_forall fun t => ?_)
      simp [put]
  have := h1.sqrt (by rw [put_self]; exact h0)
  refine this.congr_deriv ?_
  rw [put_self]
  unfold len
  field_simp

/-- Divergence of an isotropic tensor field. -/
theorem divergence {A G : ℝ → ℝ} {A' G' : ℝ} {v : Fin 3 → ℝ} (hv : 0 < len v) (hA : HasDerivAt A A' (len v))
    (hG : HasDerivAt G G' (len v)) (i : Fin 3) :
    ∃ d : Fin 3 → ℝ, (∀ j, HasDerivAt (fun t => (if i = j then A (len (put v j t)) else 0) +
        G (len (put v j t)) * (put v j t i * put v j t j)) (d j) (v j)) ∧
      d 0 + d 1 + d 2 = v i * (A' / len v + G' * len v + 4 * G (len v)) := by
  have hl := fun j => hasDerivAt_len hv j
  have hA1 : ∀ j, HasDerivAt (fun t => A (len (put v j t))) (A' * (v j / len v)) (v j) := fun j => by
    have h : HasDerivAt A A' (len (put v j (v j))) := by rw [put_self]; exact hA
    exact h.comp (v j) (hl j)
  have hG1 : ∀ j, HasDerivAt (fun t => G (len (put v j t))) (G' * (v j / len v)) (v j) := fun j => by
    have h : HasDerivAt G G' (len (put v j (v j))) := by rw [put_self]; exact hG
    exact h.comp (v j) (hl j)
  have hp : ∀ j, HasDerivAt (fun t => put v j t i * put v j t j) (if i = j then 2 * v j else v i) (v j) := fun j => by
    by_cases h : i = j
    · rw [if_pos h, h]
      have := (hasDerivAt_id (v j)).mul (hasDerivAt_id (v j))
      refine (this.congr_deriv (by simp only [id]; ring)).congr_of_eventuallyEq (Filter.Eventually.of_forall fun t => ?_)
      simp [put]
    · rw [if_neg h]
      have := (hasDerivAt_id (v j)).const_mul (v i)
      refine (this.congr_deriv (by ring)).congr_of_eventuallyEq (Filter.Eventually.of_forall fun t => ?_)
      simp [put, h]
  refine ⟨fun j => (if i = j then A' * (v j / len v) else 0) + (G' * (v j / len v) * (v i * v j) +
    G (len v) * (if i = j then 2 * v j else v i)), fun j => ?_, ?_⟩
  · have h1 : HasDerivAt (fun t => if i = j then A (len (put v j t)) else 0) (if i = j then A' * (v j / len v) else 0) (v j) := by
      by_cases h : i = j
      · simp only [if_pos h]
        exact hA1 j
      · simp only [if_neg h]
        exact hasDerivAt_const _ _
    have h2 := (hG1 j).mul (hp j)
    have := h1.add h2
    refine this.congr_deriv ?_
    simp only [put_self]
  · have hs := len_sq v
    have hne := hv.ne'
    fin_cases i <;> simp <;> field_simp <;> [linear_combination (-(v 0 * G')) * hs; linear_combination (-(v 1 * G')) * hs; linear_combination (-(v 2 * G')) * hs]

/-- Diffusion tensor of the full-orbit operator. -/
noncomputable def tensor (e0 ma qa : ℝ) (cl : Species → ℝ) (sp : List Species) (v : Fin 3 → ℝ) (i j : Fin 3) : ℝ :=
  total (Dpara e0 ma qa cl) sp (len v) * (v i / len v * (v j / len v)) +
    total (Dperp e0 ma qa cl) sp (len v) * ((if i = j then 1 else 0) - v i / len v * (v j / len v))

theorem hasDerivAt_Dperp {b : Species} {v : ℝ} (hb : 0 < b.T ∧ 0 < b.m) (hma : ma ≠ 0) (hv : 0 < v) :
    ∃ d, HasDerivAt (Dperp e0 ma qa cl b) d v := by
  have ht := thermal_pos hb.1 hb.2
  have e1 : HasDerivAt (fun v => erf (v / thermal b)) _ v :=
    HasDerivAt.comp (h₂ := erf) v (hasDerivAt_erf (v / thermal b)) ((hasDerivAt_id v).div_const (thermal b))
  have h1 : HasDerivAt (fun v => mu1 (v / thermal b)) _ v := e1.sub ((hasDerivAt_scaled hb hv).const_mul 0.5)
  have hd := ((h1.const_mul (cab e0 qa b.q b.n (cl b))).div
    ((hasDerivAt_id v).const_mul (2 * ma * ma)) (by simp; exact ⟨hma, hv.ne'⟩))
  refine ⟨_, hd.congr_of_eventuallyEq ?_⟩
  filter_upwards [isOpen_Ioi.mem_nhds (Set.mem_Ioi.2 hv)] with w hw
  unfold Dperp coefDperp
  rw [if_pos (Set.mem_Ioi.1 hw)]
  rfl

theorem hasDerivAt_total_Dperp {sp : List Species} (hsp : Physical sp) (hma : ma ≠ 0) {v : ℝ} (hv : 0 < v) :
    ∃ d, HasDerivAt (total (Dperp e0 ma qa cl) sp) d v := by
  induction sp with
  | nil => exact ⟨0, hasDerivAt_const v 0⟩
  | cons b bs ih =>
    obtain ⟨d, hd⟩ := ih fun b' hb => hsp b' (by simp [hb])
    obtain ⟨d', hd'⟩ := hasDerivAt_Dperp (e0 := e0) (qa := qa) (cl := cl) (hsp b (by simp)) hma hv
    exact ⟨_, hd'.add hd⟩

/-- If all species have the temperature `T`, the Maxwellian of temperature `T` is stationary under the full-orbit
operator, whose drift is the friction along the velocity. -/
theorem maxwellian {sp : List Species} (hsp : Physical sp) {T : ℝ} (hT : ∀ b ∈ sp, b.T = T) (hT0 : 0 < T) (hma : 0 < ma)
    {v : Fin 3 → ℝ} (hv : 0 < len v) :
    NoFlux3 (fun v i => total (F e0 ma qa cl) sp (len v) * (v i / len v)) (tensor e0 ma qa cl sp) (maxwell ma T) v := by
  intro i
  have h1 := (derivatives (e0 := e0) (qa := qa) (cl := cl) hsp hma.ne' hv).1
  obtain ⟨P', h2⟩ := hasDerivAt_total_Dperp (e0 := e0) (qa := qa) (cl := cl) hsp hma.ne' hv
  have he : HasDerivAt (fun v : ℝ => Real.exp (-(ma * v ^ 2 / (2 * T))))
      (-(ma * len v / T) * Real.exp (-(ma * len v ^ 2 / (2 * T)))) (len v) := by
    have := ((((hasDerivAt_pow 2 (len v)).const_mul ma).div_const (2 * T)).neg).exp
    refine this.congr_deriv ?_
    have := hT0.ne'
    simp only [Pi.neg_apply]
    field_simp
    ring
  have hm : ∀ v, maxwell ma T v = Real.exp (-(ma * len v ^ 2 / (2 * T))) := fun v => by rw [len_sq]; rfl
  obtain ⟨d, hd, hs⟩ := divergence hv (h2.mul he) (((h1.sub h2).mul he).div (hasDerivAt_pow 2 (len v)) (by positivity)) i
  refine ⟨d, fun j => (hd j).congr_of_eventuallyEq (Filter.Eventually.of_forall fun t => ?_), ?_⟩
  · simp only [hm, tensor, Pi.mul_apply, Pi.sub_apply, Pi.div_apply]
    generalize len (put v j t) = r
    by_cases h : i = j
    · simp only [if_pos h]
      ring
    · simp only [if_neg h]
      ring
  · rw [hs, hm]
    have hk : total (F e0 ma qa cl) sp (len v) = total (dDpara e0 ma qa cl) sp (len v) -
        ma * len v / T * total (Dpara e0 ma qa cl) sp (len v) +
        2 * (total (Dpara e0 ma qa cl) sp (len v) - total (Dperp e0 ma qa cl) sp (len v)) / len v := by
      clear h1 h2 hd hs
      induction sp with
      | nil => simp [total]
      | cons b bs ih =>
        have ih := ih (fun b' hb => hsp b' (by simp [hb])) (fun b' hb => hT b' (by simp [hb]))
        have h1 : ∀ g : Species → ℝ → ℝ, total g (b :: bs) (len v) = g b (len v) + total g bs (len v) := fun g => by simp [total]
        rw [h1, h1, h1, h1, ih]
        have hq := einstein (e0 := e0) (qa := qa) (cl := cl) (hsp b (by simp)) hma.ne' hv
        have hf := friction (e0 := e0) (qa := qa) (cl := cl) (hsp b (by simp)) hma.ne' hv
        rw [hT b (by simp)] at hq
        rw [hf]
        have : Q e0 ma qa cl b (len v) = -(ma * len v * Dpara e0 ma qa cl b (len v)) / T := by rw [eq_div_iff hT0.ne', hq]
        rw [this]
        ring
    show _ = total (F e0 ma qa cl) sp (len v) * (v i / len v) * Real.exp (-(ma * len v ^ 2 / (2 * T)))
    rw [hk]
    simp only [Pi.mul_apply, Pi.sub_apply, Pi.pow_apply, Pi.div_apply]
    generalize total (dDpara e0 ma qa cl) sp (len v) = a1
    generalize total (Dpara e0 ma qa cl) sp (len v) = a2
    generalize total (Dperp e0 ma qa cl) sp (len v) = a3
    generalize Real.exp (-(ma * len v ^ 2 / (2 * T))) = E
    have := hv.ne'
    have := hT0.ne'
    field_simp
    ring

/-- A plasma of two species with a common temperature, for the hypotheses of the theorems above. -/
example : ∃ (sp : List Species) (cl : Species → ℝ) (v : Fin 3 → ℝ), sp.length = 2 ∧ Physical sp ∧ (∀ b ∈ sp, b.T = 3) ∧
    (∀ b ∈ sp, 0 ≤ b.n ∧ 0 ≤ cl b) ∧ 0 < len v ∧ 0 < total (Dpara 1 1 1 cl) sp (len v) := by
  refine ⟨[⟨1, -1, 1, 3⟩, ⟨2, 1, 1, 3⟩], fun _ => 15, fun _ => 1, rfl, ?_, ?_, ?_, ?_, ?_⟩
  · intro b hb
    simp at hb
    rcases hb with rfl | rfl <;> norm_num
  · intro b hb
    simp at hb
    rcases hb with rfl | rfl <;> rfl
  · intro b hb
    simp at hb
    rcases hb with rfl | rfl <;> norm_num
  · unfold len
    exact Real.sqrt_pos.2 (by norm_num)
  · have hl : 0 < len fun _ => 1 := by
      unfold len
      exact Real.sqrt_pos.2 (by norm_num)
    have h : ∀ b : Species, 0 < b.T → 0 < b.m → 0 < b.n → b.q ≠ 0 → 0 < Dpara 1 1 1 (fun _ => 15) b (len fun _ => 1) := by
      intro b hT hm hn hq
      have ht := thermal_pos hT hm
      have := mu0_pos (x := (len fun _ => 1) / thermal b) (by positivity)
      unfold Dpara coefDpara cab
      rw [if_pos hl]
      have hq2 : 0 < b.q * b.q := mul_self_pos.2 hq
      have := Real.pi_pos
      have e : b.n * 1 * 1 * b.q * b.q * 15 = b.n * (b.q * b.q) * 15 := by ring
      rw [e]
      positivity
    have h1 := h ⟨1, -1, 1, 3⟩ (by norm_num) (by norm_num) (by norm_num) (by norm_num)
    have h2 := h ⟨2, 1, 1, 3⟩ (by norm_num) (by norm_num) (by norm_num) (by norm_num)
    unfold total
    simp only [List.map_cons, List.map_nil, List.sum_cons, List.sum_nil]
    linarith

end Ascot.C90
