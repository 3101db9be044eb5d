import Mathlib.Analysis.Calculus.MeanValue
import Mathlib.Analysis.SpecialFunctions.Trigonometric.Deriv
import Verif.Spec.Gyration

set_option linter.unusedSectionVars false
set_option linter.unusedSimpArgs false

namespace Ascot.Gyration

/-- `a` turned about `B`, of length `k`, by the angle `th`. -/
noncomputable def turned (B : V3 ℝ) (k : ℝ) (a : V3 ℝ) (th : ℝ) : V3 ℝ :=
  ⟨a.x * Real.cos th + (V3.cross a B).x / k * Real.sin th + B.x * V3.dot a B / k ^ 2 * (1 - Real.cos th),
   a.y * Real.cos th + (V3.cross a B).y / k * Real.sin th + B.y * V3.dot a B / k ^ 2 * (1 - Real.cos th),
   a.z * Real.cos th + (V3.cross a B).z / k * Real.sin th + B.z * V3.dot a B / k ^ 2 * (1 - Real.cos th)⟩

/-- The equation with a constant rate. -/
def Turns (W : ℝ) (B : V3 ℝ) (p : ℝ → V3 ℝ) : Prop :=
  ∀ t,
    HasDerivAt (fun u => (p u).x) (W * (V3.cross (p t) B).x) t ∧
    HasDerivAt (fun u => (p u).y) (W * (V3.cross (p t) B).y) t ∧
    HasDerivAt (fun u => (p u).z) (W * (V3.cross (p t) B).z) t

theorem dot_const {f : ℝ → ℝ} {B : V3 ℝ} {p : ℝ → V3 ℝ}
    (h : ∀ t, HasDerivAt (fun u => (p u).x) (f t * (V3.cross (p t) B).x) t ∧
      HasDerivAt (fun u => (p u).y) (f t * (V3.cross (p t) B).y) t ∧
      HasDerivAt (fun u => (p u).z) (f t * (V3.cross (p t) B).z) t) (s t : ℝ) :
    V3.dot (p s) (p s) = V3.dot (p t) (p t) := by
  have hd : ∀ t, HasDerivAt (fun u => V3.dot (p u) (p u)) 0 t := by
    intro t
    obtain ⟨hx, hy, hz⟩ := h t
    have := ((hx.mul hx).add (hy.mul hy)).add (hz.mul hz)
    refine (this.congr_deriv ?_)
    simp only [V3.cross]
    ring
  exact is_const_of_deriv_eq_zero (fun t => (hd t).differentiableAt) (fun t => (hd t).deriv) s t

theorem Moves.turns {c m q : ℝ} {B : V3 ℝ} {p : ℝ → V3 ℝ} (h : Moves c m q B p) (t : ℝ) :
    Turns (q / (m * lorentz c m (p t))) B p := by
  intro u
  have e : lorentz c m (p u) = lorentz c m (p t) := by
    unfold lorentz
    rw [dot_const h u t]
  have := h u
  rw [e] at this
  exact this

theorem sub_turns {W : ℝ} {B : V3 ℝ} {p r : ℝ → V3 ℝ} (hp : Turns W B p) (hr : Turns W B r) :
    Turns W B (fun u => V3.sub (p u) (r u)) := by
  intro t
  obtain ⟨hx, hy, hz⟩ := hp t
  obtain ⟨gx, gy, gz⟩ := hr t
  refine ⟨(hx.sub gx).congr_deriv ?_, (hy.sub gy).congr_deriv ?_, (hz.sub gz).congr_deriv ?_⟩ <;>
    (simp only [V3.cross, V3.sub]; ring)

theorem turned_zero (B : V3 ℝ) (k : ℝ) (a : V3 ℝ) {th : ℝ} (hc : Real.cos th = 1) (hs : Real.sin th = 0) :
    turned B k a th = a := by
  unfold turned
  rw [hc, hs]
  ext <;> simp

theorem turned_turns (W : ℝ) (B : V3 ℝ) {k : ℝ} (hk : k ^ 2 = V3.dot B B) (hk0 : k ≠ 0) (a : V3 ℝ) (t : ℝ) :
    Turns W B (fun u => turned B k a (W * k * (u - t))) := by
  intro u
  have hth : HasDerivAt (fun u => W * k * (u - t)) (W * k) u := by
    simpa using ((hasDerivAt_id u).sub_const t).const_mul (W * k)
  have hc := hth.cos
  have hs := hth.sin
  have key : ∀ (x y b : ℝ) , HasDerivAt (fun u => x * Real.cos (W * k * (u - t)) + y * Real.sin (W * k * (u - t)) +
      b * (1 - Real.cos (W * k * (u - t))))
      (W * k * (-x * Real.sin (W * k * (u - t)) + y * Real.cos (W * k * (u - t)) + b * Real.sin (W * k * (u - t)))) u := by
    intro x y b
    refine (((hc.const_mul x).add (hs.const_mul y)).add ((hc.const_sub 1).const_mul b)).congr_deriv ?_
    ring
  have hk2 : k * k ≠ 0 := mul_ne_zero hk0 hk0
  refine ⟨(key _ _ _).congr_deriv ?_, (key _ _ _).congr_deriv ?_, (key _ _ _).congr_deriv ?_⟩
  all_goals
    simp only [V3.cross, V3.dot, turned] at hk ⊢
    generalize Real.sin (W * k * (u - t)) = S
    generalize Real.cos (W * k * (u - t)) = C
    field_simp
  · linear_combination (-W * k * S * a.x) * hk
  · linear_combination (-W * k * S * a.y) * hk
  · linear_combination (-W * k * S * a.z) * hk

theorem zero_of_dot {a : V3 ℝ} (h : V3.dot a a = 0) : a = ⟨0, 0, 0⟩ := by
  unfold V3.dot at h
  have hx := mul_self_nonneg a.x
  have hy := mul_self_nonneg a.y
  have hz := mul_self_nonneg a.z
  ext
  · exact mul_self_eq_zero.1 (by linarith)
  · exact mul_self_eq_zero.1 (by linarith)
  · exact mul_self_eq_zero.1 (by linarith)

theorem Turns.eq {W : ℝ} {B : V3 ℝ} {p : ℝ → V3 ℝ} (h : Turns W B p) {k : ℝ} (hk : k ^ 2 = V3.dot B B) (hk0 : k ≠ 0)
    (t u : ℝ) : p u = turned B k (p t) (W * k * (u - t)) := by
  have hd := sub_turns h (turned_turns W B hk hk0 (p t) t)
  have e := dot_const hd u t
  have z : V3.sub (p t) (turned B k (p t) (W * k * (t - t))) = ⟨0, 0, 0⟩ := by
    rw [turned_zero B k (p t) (by simp) (by simp)]
    simp [V3.sub]
  rw [z] at e
  have e0 := zero_of_dot (e.trans (by simp [V3.dot]))
  have ex := congrArg V3.x e0
  have ey := congrArg V3.y e0
  have ez := congrArg V3.z e0
  simp only [V3.sub] at ex ey ez
  ext <;> linarith

theorem dot_turned (B : V3 ℝ) {k : ℝ} (hk : k ^ 2 = V3.dot B B) (hk0 : k ≠ 0) (a : V3 ℝ) (th : ℝ) :
    V3.dot (turned B k a th) a = V3.dot a a - (V3.dot a a - (V3.dot a B / k) ^ 2) * (1 - Real.cos th) := by
  generalize hC : Real.cos th = C
  generalize hS : Real.sin th = S
  have : turned B k a th = ⟨a.x * C + (V3.cross a B).x / k * S + B.x * V3.dot a B / k ^ 2 * (1 - C),
   a.y * C + (V3.cross a B).y / k * S + B.y * V3.dot a B / k ^ 2 * (1 - C),
   a.z * C + (V3.cross a B).z / k * S + B.z * V3.dot a B / k ^ 2 * (1 - C)⟩ := by
    unfold turned
    rw [hC, hS]
  rw [this]
  simp only [V3.cross, V3.dot] at hk ⊢
  field_simp
  ring

theorem turned_dot (B : V3 ℝ) {k : ℝ} (hk : k ^ 2 = V3.dot B B) (hk0 : k ≠ 0) (a : V3 ℝ) (th : ℝ) :
    V3.dot (turned B k a th) (turned B k a th) = V3.dot a a := by
  have h := dot_const (turned_turns 1 B hk hk0 a 0) (th / k) 0
  simp only [one_mul, sub_zero, mul_zero] at h
  rw [mul_div_cancel₀ _ hk0] at h
  rw [h, turned_zero B k a (th := 0) (by simp) (by simp)]

/-- There is such a motion from any momentum. -/
theorem moves_turned (c m q : ℝ) (B : V3 ℝ) {k : ℝ} (hk : k ^ 2 = V3.dot B B) (hk0 : k ≠ 0) (a : V3 ℝ) :
    Moves c m q B (fun u => turned B k a (q / (m * lorentz c m a) * k * (u - 0))) := by
  intro t
  have e : lorentz c m (turned B k a (q / (m * lorentz c m a) * k * (t - 0))) = lorentz c m a := by
    unfold lorentz
    rw [turned_dot B hk hk0]
  rw [e]
  exact turned_turns _ B hk hk0 a 0 t

end Ascot.Gyration
