import Verif.Lemmas.SplineSmooth
set_option linter.unusedSectionVars false
set_option linter.unusedSimpArgs false

/-!
# C139: the derivatives that the splines return are the derivatives of the function that they return

C36, C37 and C71 describe the value in each cell.  Here the values in all of the cells are seen as one function of the coordinates, over
the whole domain and across the edges of the cells: `Smooth.C2`, `C2two` and `C2three` (in `Verif.Spec.Smooth`) say that the returned
derivatives are its derivatives, and that they are continuous.
-/
namespace Ascot.C139
open Ascot.Linint hiding On covers locate locate_on locate_outside
open Ascot.Spline Ascot.Interp Ascot.Smooth

/-- Enough points for the boundary condition (see `C36.one_point_undefined` and `C37.two_points_undefined`). -/
def Enough (n : ℕ) (bc : BC) : Prop :=
  match bc with
  | .natural => 2 ≤ n
  | .periodic => 3 ≤ n

theorem Enough.ok {n : ℕ} {bc : BC} (h : Enough n bc) : sizeOk n bc = true := by
  cases bc <;> simpa [sizeOk, Enough] using h

theorem Enough.on {n : ℕ} {bc : BC} (h : Enough n bc) {lo hi x : ℝ} (hm : lo < hi) (hx : x ∈ dom bc lo hi) :
    ∃ i d, On (Axis.init n bc lo hi) x i d := by
  refine covers ?_ ?_ hm hx
  · cases bc <;> simp only [Enough] at h <;> omega
  · rintro rfl; exact h

/-- One dimension: there is a function with continuous second derivative such that the evaluation returns it, and its derivatives. -/
theorem one_dimension {n : ℕ} {bc : BC} (hn : Enough n bc) {lo hi : ℝ} (hm : lo < hi) (f : ℕ → ℝ) :
    ∃ c F F' F'', coeff1 f n bc lo hi = some c ∧ C2 (axis bc lo hi) F F' F'' ∧
      ∀ x ∈ axis bc lo hi, eval1f (Axis.init n bc lo hi) c x = some (some (F x)) ∧
        eval1df (Axis.init n bc lo hi) c x = some (some (F x, F' x, F'' x)) := by
  obtain ⟨c, hc, -, -⟩ := coeff1_eq (f := f) (min := lo) (max := hi) hn.ok
  rw [dom_axis]
  refine ⟨c, glued .val n bc lo hi f, glued .der n bc lo hi f, glued .der2 n bc lo hi f, hc,
    ⟨fun x hx => glued_deriv .one hn.ok hm hx f, fun x hx => glued_deriv .two hn.ok hm hx f, glued_cont hn.ok hm f⟩, fun x hx => ?_⟩
  obtain ⟨i, d, h⟩ := hn.on hm hx
  obtain ⟨c', hc', h1, h2⟩ := eval1_eq (f := f) hn.ok hm h
  obtain rfl : c = c' := Option.some.inj (hc.symm.trans hc')
  rw [glued_on hm h, glued_on hm h, glued_on hm h]
  exact ⟨h1, h2⟩

/-- Two dimensions. -/
theorem two_dimensions {nx ny : ℕ} {bx by_ : BC} (hx : Enough nx bx) (hy : Enough ny by_) {x0 x1 y0 y1 : ℝ} (mx : x0 < x1) (my : y0 < y1)
    (f : ℕ → ℕ → ℝ) :
    ∃ c F Fx Fy Fxx Fyy Fxy, coeff2 f nx ny bx by_ (gridOf nx bx x0 x1) (gridOf ny by_ y0 y1) = some c ∧
      C2two (axis bx x0 x1 ×ˢ axis by_ y0 y1) F Fx Fy Fxx Fyy Fxy ∧
      ∀ p ∈ axis bx x0 x1 ×ˢ axis by_ y0 y1,
        eval2f (Axis.init nx bx x0 x1) (Axis.init ny by_ y0 y1) c p.1 p.2 = some (some (F p)) ∧
        eval2df (Axis.init nx bx x0 x1) (Axis.init ny by_ y0 y1) c p.1 p.2 = some (some [F p, Fx p, Fy p, Fxx p, Fyy p, Fxy p]) := by
  obtain ⟨c, hc, -, -⟩ := coeff2_eq (f := f) (xg := gridOf nx bx x0 x1) (yg := gridOf ny by_ y0 y1) hx.ok hy.ok
  rw [dom_axis, dom_axis]
  let G := fun ox oy => glued2 ox oy nx ny bx by_ x0 x1 y0 y1 f
  have key : ∀ {ox oy ox' oy' : Op}, Next ox ox' → Next oy oy' → ∀ p ∈ dom bx x0 x1 ×ˢ dom by_ y0 y1,
      HasFDerivWithinAt (G ox oy) (lin2 (G ox' oy p) (G ox oy' p)) (dom bx x0 x1 ×ˢ dom by_ y0 y1) p :=
    fun h h' p hp => glued2_deriv h h' hx.ok hy.ok mx my f hp
  have cont : ∀ ox oy, ContinuousOn (G ox oy) (dom bx x0 x1 ×ˢ dom by_ y0 y1) := fun ox oy => glued2_cont hx.ok hy.ok mx my f
  refine ⟨c, G .val .val, G .der .val, G .val .der, G .der2 .val, G .val .der2, G .der .der, hc,
    ⟨key .one .one, key .two .one, key .one .two, cont _ _, cont _ _, cont _ _⟩, fun p hp => ?_⟩
  obtain ⟨x, y⟩ := p
  obtain ⟨i, dx, h1⟩ := hx.on mx hp.1
  obtain ⟨j, dy, h2⟩ := hy.on my hp.2
  obtain ⟨c', hc', e1, e2⟩ := eval2_eq (f := f) hx.ok hy.ok mx my h1 h2 _ rfl
  obtain rfl : c = c' := Option.some.inj (hc.symm.trans hc')
  simp only [G, glued2_on mx my h1 h2]
  exact ⟨e1, e2⟩

/-- Three dimensions. -/
theorem three_dimensions {nx ny nz : ℕ} {bx by_ bz : BC} (hx : Enough nx bx) (hy : Enough ny by_) (hz : Enough nz bz)
    {x0 x1 y0 y1 z0 z1 : ℝ} (mx : x0 < x1) (my : y0 < y1) (mz : z0 < z1) (f : ℕ → ℕ → ℕ → ℝ) :
    ∃ c F Fx Fy Fz Fxx Fyy Fzz Fxy Fxz Fyz,
      coeff3 f nx ny nz bx by_ bz (gridOf nx bx x0 x1) (gridOf ny by_ y0 y1) (gridOf nz bz z0 z1) = some c ∧
      C2three (axis bx x0 x1 ×ˢ axis by_ y0 y1 ×ˢ axis bz z0 z1) F Fx Fy Fz Fxx Fyy Fzz Fxy Fxz Fyz ∧
      ∀ p ∈ axis bx x0 x1 ×ˢ axis by_ y0 y1 ×ˢ axis bz z0 z1,
        eval3f (Axis.init nx bx x0 x1) (Axis.init ny by_ y0 y1) (Axis.init nz bz z0 z1) c p.1 p.2.1 p.2.2 = some (some (F p)) ∧
        eval3df (Axis.init nx bx x0 x1) (Axis.init ny by_ y0 y1) (Axis.init nz bz z0 z1) c p.1 p.2.1 p.2.2 =
          some (some [F p, Fx p, Fy p, Fz p, Fxx p, Fyy p, Fzz p, Fxy p, Fxz p, Fyz p]) := by
  obtain ⟨c, hc, -, -⟩ := coeff3_eq (f := f) (xg := gridOf nx bx x0 x1) (yg := gridOf ny by_ y0 y1) (zg := gridOf nz bz z0 z1) hx.ok hy.ok hz.ok
  rw [dom_axis, dom_axis, dom_axis]
  let G := fun ox oy oz => glued3 ox oy oz nx ny nz bx by_ bz x0 x1 y0 y1 z0 z1 f
  have key : ∀ {ox oy oz ox' oy' oz' : Op}, Next ox ox' → Next oy oy' → Next oz oz' → ∀ p ∈ dom bx x0 x1 ×ˢ dom by_ y0 y1 ×ˢ dom bz z0 z1,
      HasFDerivWithinAt (G ox oy oz) (lin3 (G ox' oy oz p) (G ox oy' oz p) (G ox oy oz' p)) (dom bx x0 x1 ×ˢ dom by_ y0 y1 ×ˢ dom bz z0 z1) p :=
    fun h h' h'' p hp => glued3_deriv h h' h'' hx.ok hy.ok hz.ok mx my mz f hp
  have cont : ∀ ox oy oz, ContinuousOn (G ox oy oz) (dom bx x0 x1 ×ˢ dom by_ y0 y1 ×ˢ dom bz z0 z1) :=
    fun ox oy oz => glued3_cont hx.ok hy.ok hz.ok mx my mz f
  refine ⟨c, G .val .val .val, G .der .val .val, G .val .der .val, G .val .val .der, G .der2 .val .val, G .val .der2 .val, G .val .val .der2,
    G .der .der .val, G .der .val .der, G .val .der .der, hc,
    ⟨key .one .one .one, key .two .one .one, key .one .two .one, key .one .one .two, cont _ _ _, cont _ _ _, cont _ _ _, cont _ _ _, cont _ _ _,
      cont _ _ _⟩, fun p hp => ?_⟩
  obtain ⟨x, y, z⟩ := p
  obtain ⟨i, dx, h1⟩ := hx.on mx hp.1
  obtain ⟨j, dy, h2⟩ := hy.on my hp.2.1
  obtain ⟨k, dz, h3⟩ := hz.on mz hp.2.2
  obtain ⟨c', hc', e1, e2⟩ := eval3_eq (f := f) hx.ok hy.ok hz.ok mx my mz h1 h2 h3 _ rfl
  obtain rfl : c = c' := Option.some.inj (hc.symm.trans hc')
  simp only [G, glued3_on mx my mz h1 h2 h3]
  exact ⟨e1, e2⟩

/-- Away from the edges of the domain these are ordinary derivatives. -/
theorem inside {D : Set (ℝ × ℝ × ℝ)} {F Fx Fy Fz Fxx Fyy Fzz Fxy Fxz Fyz : ℝ × ℝ × ℝ → ℝ}
    (h : C2three D F Fx Fy Fz Fxx Fyy Fzz Fxy Fxz Fyz) {p : ℝ × ℝ × ℝ} (hp : p ∈ interior D) :
    HasFDerivAt F (lin3 (Fx p) (Fy p) (Fz p)) p :=
  (h.first p (interior_subset hp)).hasFDerivAt (mem_interior_iff_mem_nhds.1 hp)

/-- For example a magnetic field of a tokamak with ripple. -/
example : Enough 50 .natural ∧ Enough 36 .periodic ∧ (4 : ℝ) < 8.5 ∧ ((6 : ℝ), (7 : ℝ), (0 : ℝ)) ∈
    interior (axis .natural 4 8.5 ×ˢ axis .periodic 0 (2 * 3) ×ˢ axis .natural (-3) 3) := by
  refine ⟨by simp [Enough], by simp [Enough], by norm_num, ?_⟩
  simp only [axis, interior_prod_eq, interior_Icc, interior_univ]
  simp only [Set.mem_prod, Set.mem_Ioo, Set.mem_univ, true_and]
  norm_num

end Ascot.C139
