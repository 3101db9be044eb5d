import Verif.Model.SplineSetup
import Verif.Spec.SplineFun
import Verif.Lemmas.Tensor
import Verif.Props.C139_Fields
set_option linter.unusedSectionVars false
set_option linter.unusedSimpArgs false

/-!
# Splines of inputs as functions
-/
namespace Ascot.Tensor
open Ascot.Linint hiding On covers locate locate_on locate_outside
open Ascot.Spline Ascot.Interp Ascot.Smooth Ascot.SplineSetup
open Filter Topology

theorem atCell_on {n : ℕ} {bc : BC} {lo hi x d : ℝ} {i : ℕ} (h : AtCell n bc lo hi x i d) : On (Axis.init n bc lo hi) x i d := by
  cases bc with
  | natural => exact at_on h
  | periodic => exact atPeriodic_on h

theorem natural_congr {n : ℕ} {f f' : ℕ → ℝ} {q : ℕ → Cubic ℝ} (e : ∀ i < n, f i = f' i) (hn : 2 ≤ n) (h : NaturalSpline n f q) :
    NaturalSpline n f' q := isSpline_congr (bc := .natural) e h

/-- Every point of the axis is in a cell. -/
theorem atCell_exists {n : ℕ} {bc : BC} (hn : C139.Enough n bc) {lo hi x : ℝ} (hm : lo < hi) (hx : x ∈ axis bc lo hi) :
    ∃ i d, AtCell n bc lo hi x i d := by
  rw [dom_axis] at hx
  obtain ⟨i, d, h⟩ := hn.on hm hx
  cases bc with
  | natural =>
    obtain ⟨h1, h2, h3, h4, h5, k, h6, h7⟩ := h
    refine ⟨i, d, h2 rfl, h3, h4, fun e => (h5 e).2, ?_⟩
    have : k = 0 := h6 rfl
    subst this
    simpa [Axis.init, gridOf] using h7
  | periodic =>
    obtain ⟨h1, h2, h3, h4, h5, k, h6, h7⟩ := h
    refine ⟨i, d, by simpa [Axis.init] using h1, h3, lt_of_le_of_ne h4 fun e => by simpa [Axis.init] using (h5 e).1, k, ?_⟩
    simpa [Axis.init, gridOf] using h7

/-- One dimension. -/
theorem setup1_spec {n : ℕ} {lo hi : ℝ} (hn : 2 ≤ n) (hm : lo < hi) {t : ℕ → ℝ} (f : ℕ → ℝ) (ht : ∀ i < n, t i = f i) :
    ∃ s F F' F'', setup1 t n lo hi = some s ∧ IsSplineFun1 n lo hi f F ∧ C2 (Set.Icc lo hi) F F' F'' ∧
      (∀ x, lo ≤ x → x ≤ hi → s x = some (F x, F' x)) ∧ ∀ x, x < lo ∨ hi < x → s x = none := by
  obtain ⟨c, F, F', F'', hc, hC, he⟩ := C139.one_dimension (bc := .natural) hn hm t
  obtain ⟨c', q, hc', hq, hv⟩ := C36.natural_spline hn hm t
  obtain rfl : c = c' := Option.some.inj (hc.symm.trans hc')
  refine ⟨_, F, F', F'', by unfold setup1; rw [hc]; rfl, ⟨q, natural_congr ht hn hq, fun x i d h => ?_⟩, hC, fun x h0 h1 => ?_, fun x hx => ?_⟩
  · have h1 := (hv x i d (at_on h)).1
    have hx : x ∈ axis .natural lo hi := by
      rw [dom_axis]
      by_contra hc2
      refine C39.on_not_outside hm (at_on h) ⟨rfl, ?_⟩
      by_contra h3
      push Not at h3
      exact hc2 fun _ => h3
    have h2 := (he x hx).1
    rw [h1] at h2
    exact (Option.some.inj (Option.some.inj h2)).symm
  · dsimp only
    rw [(he x ⟨h0, h1⟩).2]
  · obtain ⟨c', hc', -, -, -, h4⟩ := C39.safe_1D (enough_natural hn) hm t x
    obtain rfl : c = c' := Option.some.inj (hc.symm.trans hc')
    dsimp only
    rw [h4.2 ⟨rfl, hx⟩]

/-- A spline goes through the table. -/
theorem IsSplineFun1.tabulated {n : ℕ} {lo hi : ℝ} {f : ℕ → ℝ} {F : ℝ → ℝ} (h : IsSplineFun1 n lo hi f F) {i : ℕ} (hi' : i < n) (hn : 2 ≤ n) :
    F (lo + i * ((hi - lo) / (n - 1))) = f i := by
  obtain ⟨q, hq, hv⟩ := h
  by_cases e : i + 1 < n
  · rw [hv _ i 0 ⟨e, le_rfl, zero_le_one, by simp, by simp⟩, hq.left i e]
  · obtain ⟨k, rfl⟩ : ∃ k, i = k + 1 := ⟨i - 1, by omega⟩
    rw [hv _ k 1 ⟨by omega, zero_le_one, le_rfl, fun _ => by omega, by push_cast; ring⟩, hq.right k (by omega)]

theorem axis_of_at {n : ℕ} {bc : BC} {lo hi x d : ℝ} {i : ℕ} (hm : lo < hi) (h : AtCell n bc lo hi x i d) : x ∈ axis bc lo hi := by
  rw [dom_axis]
  by_contra hc
  simp only [dom, Set.mem_setOf_eq, not_forall] at hc
  obtain ⟨rfl, hc⟩ := hc
  refine C39.on_not_outside hm (atCell_on h) ⟨rfl, ?_⟩
  by_contra h3
  push Not at h3
  exact hc h3

theorem not_outside {bc : BC} {lo hi x : ℝ} : ¬ C39.Outside bc lo hi x ↔ x ∈ axis bc lo hi := by
  cases bc <;> simp [C39.Outside, Smooth.axis]

theorem enough {n : ℕ} {bc : BC} (h : C139.Enough n bc) : Enough n bc := by
  cases bc
  · exact enough_natural h
  · exact enough_periodic h

/-- Two dimensions. -/
theorem setup2_spec {nx ny : ℕ} {bx by_ : BC} (hx : C139.Enough nx bx) (hy : C139.Enough ny by_) {x0 x1 y0 y1 : ℝ} (mx : x0 < x1) (my : y0 < y1)
    {t : ℕ → ℝ} (f : ℕ → ℕ → ℝ) (ht : ∀ i < nx, ∀ j < ny, t (j * nx + i) = f i j) :
    ∃ s F Fx Fy Fxx Fyy Fxy, setup2 t nx ny bx by_ x0 x1 y0 y1 = some s ∧ IsSplineFun2 nx ny bx by_ x0 x1 y0 y1 f F ∧
      C2two (axis bx x0 x1 ×ˢ axis by_ y0 y1) F Fx Fy Fxx Fyy Fxy ∧
      (∀ x ∈ axis bx x0 x1, ∀ y ∈ axis by_ y0 y1, s.f x y = some (F (x, y)) ∧
        s.df x y = some ⟨F (x, y), Fx (x, y), Fy (x, y), Fxx (x, y), Fyy (x, y), Fxy (x, y)⟩) ∧
      ∀ x y, x ∉ axis bx x0 x1 ∨ y ∉ axis by_ y0 y1 → s.f x y = none ∧ s.df x y = none := by
  obtain ⟨c, F, Fx, Fy, Fxx, Fyy, Fxy, hc, hC, he⟩ := C139.two_dimensions hx hy mx my fun i j => t (j * nx + i)
  refine ⟨_, F, Fx, Fy, Fxx, Fyy, Fxy, by unfold setup2; rw [hc]; rfl, fun x y i j d e h1 h2 => ?_, hC, fun x h1 y h2 => ?_, fun x y ho => ?_⟩
  · obtain ⟨c', hc', v, e1, -, h3, -⟩ := C71.spline_of_splines_2D (enough hx) (enough hy) mx my (fun i j => t (j * nx + i))
      (atCell_on h1) (atCell_on h2)
    obtain rfl : c = c' := Option.some.inj (hc.symm.trans hc')
    have e2 := (he (x, y) ⟨axis_of_at mx h1, axis_of_at my h2⟩).1
    dsimp only at e2
    rw [e1] at e2
    have e3 : v (.val, .val) = F (x, y) := Option.some.inj (Option.some.inj e2)
    rw [← e3]
    obtain ⟨w, qy, qx, a1, a2, a3⟩ := exists_value2 (enough hx) (enough hy) (spacing nx bx x0 x1) (spacing ny by_ y0 y1) f i j d e .val .val
    refine ⟨qy, qx, a1, a2, ?_⟩
    rw [h3 .val .val qy (fun i hi => isSpline_congr (fun j hj => (ht i hi j hj).symm) (a1 i hi)) qx (by rw [spacing_eq]; exact a2), spacing_eq]
  · have := he (x, y) ⟨h1, h2⟩
    dsimp only at this ⊢
    rw [this.1, this.2]
    exact ⟨rfl, rfl⟩
  · obtain ⟨c', hc', -, -, h3, h4⟩ := C39.safe_2D (enough hx) (enough hy) mx my (fun i j => t (j * nx + i)) x y
    obtain rfl : c = c' := Option.some.inj (hc.symm.trans hc')
    rw [← not_outside, ← not_outside, not_not, not_not] at ho
    dsimp only
    rw [h3.2 ho, h4.2 ho]
    exact ⟨rfl, rfl⟩

/-- The point `i` of an axis. -/
theorem IsSplineFun2.tabulated {nx ny : ℕ} {bx by_ : BC} {x0 x1 y0 y1 : ℝ} {f : ℕ → ℕ → ℝ} {F : ℝ × ℝ → ℝ}
    (h : IsSplineFun2 nx ny bx by_ x0 x1 y0 y1 f F) {i j : ℕ} (hi : i < nx) (hj : j < ny) (hx : bx = .natural → i + 1 < nx)
    (hy : by_ = .natural → j + 1 < ny) : F (x0 + i * spacing nx bx x0 x1, y0 + j * spacing ny by_ y0 y1) = f i j := by
  have key : ∀ {n : ℕ} {bc : BC} {lo hi : ℝ} {i : ℕ}, i < n → (bc = .natural → i + 1 < n) → AtCell n bc lo hi (lo + i * spacing n bc lo hi) i 0 := by
    intro n bc lo hi i h1 h2
    cases bc with
    | natural => exact ⟨h2 rfl, le_rfl, zero_le_one, by simp, by simp [spacing]⟩
    | periodic => exact ⟨h1, le_rfl, zero_lt_one, 0, by simp [spacing]⟩
  exact value2_grid hi hj hx hy (h _ _ i j 0 0 (key hi hx) (key hj hy))

/-- Inside of the domain the derivatives are ordinary ones. -/
theorem interior_deriv {bx by_ : BC} {x0 x1 y0 y1 : ℝ} {F Fx Fy Fxx Fyy Fxy : ℝ × ℝ → ℝ}
    (h : C2two (axis bx x0 x1 ×ˢ axis by_ y0 y1) F Fx Fy Fxx Fyy Fxy) {x y : ℝ} (hx : axis bx x0 x1 ∈ 𝓝 x) (hy : axis by_ y0 y1 ∈ 𝓝 y) :
    HasFDerivAt F (lin2 (Fx (x, y)) (Fy (x, y))) (x, y) :=
  (h.first (x, y) (mem_of_mem_nhds (prod_mem_nhds hx hy))).hasFDerivAt (prod_mem_nhds hx hy)

end Ascot.Tensor
