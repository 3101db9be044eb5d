import Verif.Lemmas.Interp
import Mathlib.Algebra.Order.Ring.Rat
import Mathlib.Data.Rat.Floor
import Mathlib.Analysis.Calculus.Deriv.Pow
import Mathlib.Analysis.Calculus.Deriv.Add
import Mathlib.Analysis.Calculus.Deriv.Mul

/-!
# C36–C39, C71: cubic splines

`On a x i d` (in `Verif.Spec.Interp`) says that the coordinate is at the fraction `d` of cell `i`; the theorems
`on_axis` and `on_periodic_axis` say that every coordinate of the axis is in a cell.  A spline is a family of cubics,
one for each cell; `NaturalSpline` and `PeriodicSpline` (in `Verif.Spec.Spline`) say what is required of them.
-/
set_option linter.unusedSectionVars false
set_option linter.unusedSimpArgs false

namespace Ascot.C36
open Ascot.Linint hiding On covers locate locate_on locate_outside
open Ascot.Spline Ascot.Interp
variable {K : Type} [Field K] [LinearOrder K] [IsStrictOrderedRing K] [FloorRing K]

theorem ok {n : Nat} (hn : 2 ≤ n) : sizeOk n .natural = true := by simpa [sizeOk] using hn

/-- Every coordinate from the minimum to the maximum of the axis is in a cell. -/
theorem on_axis {n : Nat} {min max x : K} (hn : 2 ≤ n) (hm : min < max) (hx : min ≤ x ∧ x ≤ max) :
    ∃ i d, On (Axis.init n .natural min max) x i d := covers (by omega) (fun _ => hn) hm fun _ => hx

/-- The compact spline evaluates to a natural spline through the data, and to its derivatives. -/
theorem natural_spline {n : Nat} {min max : K} (hn : 2 ≤ n) (hm : min < max) (f : Nat → K) :
    ∃ c q, coeff1 f n .natural min max = some c ∧ NaturalSpline n f q ∧
      ∀ x i d, On (Axis.init n .natural min max) x i d →
        eval1f (Axis.init n .natural min max) c x = some (some ((q i).val d)) ∧
        eval1df (Axis.init n .natural min max) c x = some (some ((q i).val d, (q i).der d / ((max - min) / (n - 1)),
          (q i).der2 d / ((max - min) / (n - 1)) ^ 2)) := by
  obtain ⟨c, hc, -, -⟩ := coeff1_eq (f := f) (min := min) (max := max) (ok hn)
  refine ⟨c, pieceComp f n .natural, hc, pieceComp_natural hn f, fun x i d hx => ?_⟩
  obtain ⟨c', hc', h1, h2⟩ := eval1_eq (f := f) (ok hn) hm hx
  have : c' = c := by rw [hc] at hc'; exact (Option.some.inj hc').symm
  subst this
  refine ⟨h1, h2.trans ?_⟩
  simp [spl, Cubic.op, gridOf, pow_two]

/-- The explicit spline does as well. -/
theorem natural_spline_explicit {n : Nat} {min max : K} (hn : 2 ≤ n) (hm : min < max) (f : Nat → K) :
    ∃ c q, splineexpl f n .natural = some c ∧ NaturalSpline n f q ∧
      ∀ x i d, On (Axis.init n .natural min max) x i d →
        expl1f (Axis.init n .natural min max) c x = some (some ((q i).val d)) ∧
        expl1df (Axis.init n .natural min max) c x = some (some ((q i).val d, (q i).der d / ((max - min) / (n - 1)),
          (q i).der2 d / ((max - min) / (n - 1)) ^ 2)) := by
  have hc : splineexpl f n .natural = some ((List.range (cells n .natural)).flatMap (cellExpl f n .natural)) := by
    unfold splineexpl; rw [if_pos (ok hn)]
  refine ⟨_, pieceExpl f n .natural, hc, pieceExpl_natural hn f, fun x i d hx => ?_⟩
  obtain ⟨c', hc', h1, h2⟩ := expl_eq (f := f) (ok hn) hm hx
  have := Option.some.inj (hc.symm.trans hc')
  rw [this]
  refine ⟨h1, h2.trans ?_⟩
  simp [Cubic.op, gridOf, pow_two]

/-- There is only one natural spline through the data. -/
theorem unique {n : Nat} (hn : 2 ≤ n) {f : Nat → K} {q q' : Nat → Cubic K} (h : NaturalSpline n f q) (h' : NaturalSpline n f q') :
    ∀ i, i + 1 < n → q i = q' i := fun i hi => (natural_unique hn h i hi).trans (natural_unique hn h' i hi).symm

/-- The tabulated values are reproduced, the last one too. -/
theorem tabulated {n : Nat} {min max : K} (hn : 2 ≤ n) (hm : min < max) (f : Nat → K) {i : Nat} (hi : i < n) :
    ∃ c, coeff1 f n .natural min max = some c ∧
      eval1f (Axis.init n .natural min max) c (min + i * ((max - min) / (n - 1))) = some (some (f i)) := by
  obtain ⟨c, q, hc, hq, he⟩ := natural_spline hn hm f
  refine ⟨c, hc, ?_⟩
  by_cases hl : i + 1 < n
  · rw [(he _ i 0 ⟨hi, fun _ => hl, le_rfl, zero_le_one, fun e => absurd e (by norm_num), 0, fun _ => rfl, ?_⟩).1, hq.left i hl]
    simp [gridOf]
  · have e : i = n - 2 + 1 := by omega
    rw [(he _ (n - 2) 1 ⟨?_, fun _ => ?_, zero_le_one, le_rfl, fun _ => ⟨rfl, ?_⟩, 0, fun _ => rfl, ?_⟩).1, hq.right (n - 2) (by omega), ← e]
    all_goals simp only [Axis.init]
    all_goals first
      | omega
      | rw [e]; simp [gridOf]

/-- The derivatives of the specification are derivatives. -/
theorem derivative (q : Cubic ℝ) (d : ℝ) : HasDerivAt q.val (q.der d) d := by
  have h1 := (hasDerivAt_id d).const_mul q.b
  have h2 := (hasDerivAt_pow 2 d).const_mul q.c
  have h3 := (hasDerivAt_pow 3 d).const_mul q.e
  have h := ((h1.const_add q.a).add h2).add h3
  refine h.congr_deriv ?_
  simp [Cubic.der]
  ring

theorem derivative2 (q : Cubic ℝ) (d : ℝ) : HasDerivAt q.der (q.der2 d) d := by
  have h1 := (hasDerivAt_id d).const_mul (2 * q.c)
  have h2 := (hasDerivAt_pow 2 d).const_mul (3 * q.e)
  have h := (h1.const_add q.b).add h2
  refine h.congr_deriv ?_
  simp [Cubic.der2]
  ring

/-- Four points on `[0, 6]`. -/
example : (2 : Nat) ≤ 4 ∧ (0 : ℚ) < 6 := by norm_num

example : (coeff1 (fun i => ([0, 3, 1, 4] : List ℚ).getD i 0) 4 .natural 0 6).bind
    (fun c => eval1f (Axis.init 4 .natural 0 6) c 3) = some (some 2) := by decide +kernel

/-- Finding: for a single point the solver writes outside of its work array. -/
theorem one_point_undefined (f : Nat → K) (min max : K) : coeff1 f 1 .natural min max = none := by
  simp [coeff1, splinecomp, sizeOk]

end Ascot.C36

namespace Ascot.C37
open Ascot.Linint hiding On covers locate locate_on locate_outside
open Ascot.Spline Ascot.Interp
variable {K : Type} [Field K] [LinearOrder K] [IsStrictOrderedRing K] [FloorRing K]

theorem ok {n : Nat} (hn : 3 ≤ n) : sizeOk n .periodic = true := by simpa [sizeOk] using hn

/-- Every coordinate is in a cell of a periodic axis. -/
theorem on_periodic_axis {n : Nat} {min max : K} (hn : 1 ≤ n) (hm : min < max) (x : K) :
    ∃ i d, On (Axis.init n .periodic min max) x i d := covers hn (by simp) hm (by simp)

/-- Coordinates that differ by whole periods are at the same place. -/
theorem periods {n : Nat} {min max x d : K} {i : Nat} (h : On (Axis.init n .periodic min max) x i d) (k : Int) :
    On (Axis.init n .periodic min max) (x + k * (max - min)) i d := by
  obtain ⟨lt, last, d0, d1, one, k', hk, hx⟩ := h
  refine ⟨lt, last, d0, d1, one, k' + k, by simp, ?_⟩
  rw [hx]
  push_cast
  ring

/-- Full statement: for every number of points.  Proved: for three or more (see `two_points_undefined`).
The compact spline evaluates to a periodic spline through the data, and to its derivatives. -/
theorem periodic_spline_partial {n : Nat} {min max : K} (hn : 3 ≤ n) (hm : min < max) (f : Nat → K) :
    ∃ c q, coeff1 f n .periodic min max = some c ∧ PeriodicSpline n f q ∧
      ∀ x i d, On (Axis.init n .periodic min max) x i d →
        eval1f (Axis.init n .periodic min max) c x = some (some ((q i).val d)) ∧
        eval1df (Axis.init n .periodic min max) c x = some (some ((q i).val d, (q i).der d / ((max - min) / n),
          (q i).der2 d / ((max - min) / n) ^ 2)) := by
  obtain ⟨c, hc, -, -⟩ := coeff1_eq (f := f) (min := min) (max := max) (ok hn)
  refine ⟨c, pieceComp f n .periodic, hc, pieceComp_periodic hn f, fun x i d hx => ?_⟩
  obtain ⟨c', hc', h1, h2⟩ := eval1_eq (f := f) (ok hn) hm hx
  have : c' = c := by rw [hc] at hc'; exact (Option.some.inj hc').symm
  subst this
  refine ⟨h1, h2.trans ?_⟩
  simp [spl, Cubic.op, gridOf, pow_two]

/-- The explicit spline does as well. -/
theorem periodic_spline_explicit_partial {n : Nat} {min max : K} (hn : 3 ≤ n) (hm : min < max) (f : Nat → K) :
    ∃ c q, splineexpl f n .periodic = some c ∧ PeriodicSpline n f q ∧
      ∀ x i d, On (Axis.init n .periodic min max) x i d →
        expl1f (Axis.init n .periodic min max) c x = some (some ((q i).val d)) ∧
        expl1df (Axis.init n .periodic min max) c x = some (some ((q i).val d, (q i).der d / ((max - min) / n),
          (q i).der2 d / ((max - min) / n) ^ 2)) := by
  have hc : splineexpl f n .periodic = some ((List.range (cells n .periodic)).flatMap (cellExpl f n .periodic)) := by
    unfold splineexpl; rw [if_pos (ok hn)]
  refine ⟨_, pieceExpl f n .periodic, hc, pieceExpl_periodic hn f, fun x i d hx => ?_⟩
  obtain ⟨c', hc', h1, h2⟩ := expl_eq (f := f) (ok hn) hm hx
  have := Option.some.inj (hc.symm.trans hc')
  rw [this]
  refine ⟨h1, h2.trans ?_⟩
  simp [Cubic.op, gridOf, pow_two]

/-- There is only one periodic spline through the data. -/
theorem unique {n : Nat} (hn : 3 ≤ n) {f : Nat → K} {q q' : Nat → Cubic K} (h : PeriodicSpline n f q) (h' : PeriodicSpline n f q') :
    ∀ i < n, q i = q' i := fun i hi => (periodic_unique hn h i hi).trans (periodic_unique hn h' i hi).symm

/-- The tabulated values are reproduced in every period. -/
theorem tabulated {n : Nat} {min max : K} (hn : 3 ≤ n) (hm : min < max) (f : Nat → K) {i : Nat} (hi : i < n) (k : Int) :
    ∃ c, coeff1 f n .periodic min max = some c ∧
      eval1f (Axis.init n .periodic min max) c (min + i * ((max - min) / n) + k * (max - min)) = some (some (f i)) := by
  obtain ⟨c, q, hc, hq, he⟩ := periodic_spline_partial hn hm f
  refine ⟨c, hc, ?_⟩
  rw [(he _ i 0 (periods ⟨hi, by simp, le_rfl, zero_le_one, fun e => absurd e (by norm_num), 0, fun _ => rfl, ?_⟩ k)).1, hq.left i hi]
  simp [gridOf]

example : (3 : Nat) ≤ 3 ∧ (0 : ℚ) < 6 := by norm_num

example : (coeff1 (fun i => ([0, 3, 1] : List ℚ).getD i 0) 3 .periodic 0 6).bind
    (fun c => eval1f (Axis.init 3 .periodic 0 6) c (-11)) = some (some (13 / 8)) := by decide +kernel

/-- Finding: for two points the solver writes outside of its work array. -/
theorem two_points_undefined (f : Nat → K) (min max : K) : coeff1 f 2 .periodic min max = none := by
  simp [coeff1, splinecomp, sizeOk]

end Ascot.C37

namespace Ascot.C38
open Ascot.Linint hiding On covers locate locate_on locate_outside
open Ascot.Spline Ascot.Interp
variable {K : Type} [Field K] [LinearOrder K] [IsStrictOrderedRing K] [FloorRing K]

theorem sizes {n : Nat} {bc : BC} (h : sizeOk n bc = true) : 1 ≤ n ∧ (bc = .natural → 2 ≤ n) := by
  cases bc <;> simp [sizeOk] at h ⊢ <;> omega

theorem size_ok {n : Nat} {bc : BC} : sizeOk n bc = true ↔ (bc = .natural → 2 ≤ n) ∧ (bc = .periodic → 3 ≤ n) := by
  cases bc <;> simp [sizeOk]

/-- A coordinate is in a cell, or it is outside of an axis that is not periodic. -/
theorem inside_or_outside {n : Nat} {bc : BC} {min max : K} (h : sizeOk n bc = true) (hm : min < max) (x : K) :
    (∃ i d, On (Axis.init n bc min max) x i d) ∨ (bc = .natural ∧ (x < min ∨ max < x)) := by
  obtain ⟨h1, h2⟩ := sizes h
  by_cases hx : bc = .natural → min ≤ x ∧ x ≤ max
  · exact .inl (covers h1 h2 hm hx)
  · right
    rw [Classical.not_imp] at hx
    refine ⟨hx.1, ?_⟩
    by_contra hc
    rw [not_or, not_lt, not_lt] at hc
    exact hx.2 hc

/-- Compact and explicit splines have the same value and derivatives everywhere and fail at the same coordinates. -/
theorem compact_eq_explicit {n : Nat} {bc : BC} {min max : K} (hn : (bc = .natural → 2 ≤ n) ∧ (bc = .periodic → 3 ≤ n)) (hm : min < max)
    (f : Nat → K) (x : K) :
    ∃ c c', coeff1 f n bc min max = some c ∧ splineexpl f n bc = some c' ∧
      eval1f (Axis.init n bc min max) c x = expl1f (Axis.init n bc min max) c' x ∧
      eval1df (Axis.init n bc min max) c x = expl1df (Axis.init n bc min max) c' x := by
  have h := size_ok.2 hn
  rcases inside_or_outside h hm x with ⟨i, d, hx⟩ | ⟨rfl, hx⟩
  · obtain ⟨c, hc, e1, e2⟩ := eval1_eq (f := f) h hm hx
    obtain ⟨c', hc', e1', e2'⟩ := expl_eq (f := f) h hm hx
    refine ⟨c, c', hc, hc', ?_, ?_⟩
    · rw [e1, e1', pieces_eq h f hx.cell]; rfl
    · rw [e2, e2', pieces_eq h f hx.cell]; rfl
  · obtain ⟨c, hc, -, -⟩ := coeff1_eq (f := f) (min := min) (max := max) h
    refine ⟨c, (List.range (cells n .natural)).flatMap (cellExpl f n .natural), hc, ?_, ?_, ?_⟩
    · unfold splineexpl; rw [if_pos h]
    · simp [eval1f, expl1f, locate_outside hx]
    · simp [eval1df, expl1df, locate_outside hx]

/-- The same for the value in three dimensions, … -/
theorem compact_eq_explicit_3D {nx ny nz : Nat} {bx by_ bz : BC} {xmin xmax ymin ymax zmin zmax : K}
    (hnx : (bx = .natural → 2 ≤ nx) ∧ (bx = .periodic → 3 ≤ nx)) (hny : (by_ = .natural → 2 ≤ ny) ∧ (by_ = .periodic → 3 ≤ ny))
    (hnz : (bz = .natural → 2 ≤ nz) ∧ (bz = .periodic → 3 ≤ nz)) (hmx : xmin < xmax) (hmy : ymin < ymax) (hmz : zmin < zmax)
    (f : Nat → Nat → Nat → K) (x y z : K) :
    ∃ c, coeff3 f nx ny nz bx by_ bz (gridOf nx bx xmin xmax) (gridOf ny by_ ymin ymax) (gridOf nz bz zmin zmax) = some c ∧
      eval3f (Axis.init nx bx xmin xmax) (Axis.init ny by_ ymin ymax) (Axis.init nz bz zmin zmax) c x y z =
        expl3f (Axis.init nx bx xmin xmax) (Axis.init ny by_ ymin ymax) (Axis.init nz bz zmin zmax) f x y z := by
  have hx := size_ok.2 hnx
  have hy := size_ok.2 hny
  have hz := size_ok.2 hnz
  obtain ⟨c, hc, -⟩ := coeff3_eq (f := f) (xg := gridOf nx bx xmin xmax) (yg := gridOf ny by_ ymin ymax) (zg := gridOf nz bz zmin zmax) hx hy hz
  rcases inside_or_outside hx hmx x with ⟨i, dx, ox⟩ | ⟨rfl, ox⟩
  · rcases inside_or_outside hy hmy y with ⟨j, dy, oy⟩ | ⟨rfl, oy⟩
    · rcases inside_or_outside hz hmz z with ⟨k, dz, oz⟩ | ⟨rfl, oz⟩
      · obtain ⟨c, hc, e, -⟩ := eval3_eq (f := f) hx hy hz hmx hmy hmz ox oy oz _ rfl
        exact ⟨c, hc, by rw [e, expl3_eq hx hy hz hmx hmy hmz ox oy oz]⟩
      · exact ⟨c, hc, by simp [eval3f, expl3f, locate_outside oz]⟩
    · exact ⟨c, hc, by simp [eval3f, expl3f, locate_outside oy]⟩
  · exact ⟨c, hc, by simp [eval3f, expl3f, locate_outside ox]⟩

/-- … and in two if neither axis is periodic.  Missing: periodic axes, for which it is false, see below. -/
theorem compact_eq_explicit_2D_partial {nx ny : Nat} {xmin xmax ymin ymax : K} (hnx : 2 ≤ nx) (hny : 2 ≤ ny) (hmx : xmin < xmax) (hmy : ymin < ymax)
    (f : Nat → Nat → K) (x y : K) :
    ∃ c, coeff2 f nx ny .natural .natural (gridOf nx .natural xmin xmax) (gridOf ny .natural ymin ymax) = some c ∧
      eval2f (Axis.init nx .natural xmin xmax) (Axis.init ny .natural ymin ymax) c x y =
        expl2f (Axis.init nx .natural xmin xmax) (Axis.init ny .natural ymin ymax) f x y := by
  have hx := C36.ok hnx
  have hy := C36.ok hny
  obtain ⟨c, hc, -⟩ := coeff2_eq (f := f) (xg := gridOf nx .natural xmin xmax) (yg := gridOf ny .natural ymin ymax) hx hy
  rcases inside_or_outside hx hmx x with ⟨i, dx, ox⟩ | ⟨-, ox⟩
  · rcases inside_or_outside hy hmy y with ⟨j, dy, oy⟩ | ⟨-, oy⟩
    · obtain ⟨c, hc, e, -⟩ := eval2_eq (f := f) hx hy hmx hmy ox oy _ rfl
      exact ⟨c, hc, by rw [e, expl2_eq hnx hny hmx hmy ox oy]⟩
    · exact ⟨c, hc, by simp [eval2f, expl2f, locate_outside oy]⟩
  · exact ⟨c, hc, by simp [eval2f, expl2f, locate_outside ox]⟩

/-- Finding: with a periodic axis in two dimensions the explicit form reads coefficients that are never written,
for every table and every coordinate in the last cell of the period. -/
theorem explicit_2D_periodic_reads_unwritten {nx ny : Nat} {by_ : BC} {xmin xmax : K} {ay : Axis K} (hnx : 3 ≤ nx) (hmx : xmin < xmax)
    (f : Nat → Nat → K) {x y d : K} (hx : On (Axis.init nx .periodic xmin xmax) x (nx - 1) d) (hy : (locate ay y).err = false) :
    expl2f (Axis.init nx .periodic xmin xmax) ay f x y = none := by
  have hw : ∀ j, written2 nx ay.n ((nx - 1 : Nat) : Int) j = false := by
    intro j
    unfold written2
    rw [decide_eq_false_iff_not]
    omega
  unfold expl2f
  rw [locate_on hmx hx]
  simp [hw, hy]

example : expl2f (Axis.init 3 .periodic (0 : ℚ) 3) (Axis.init 3 .natural 0 2) (fun i j => i + j) (5 / 2) 1 = none ∧
    expl2f (Axis.init 3 .natural (0 : ℚ) 2) (Axis.init 3 .natural 0 2) (fun i j => i + j) (3 / 2) 1 = some (some (5 / 2)) := by
  decide +kernel

example : (BC.periodic = .natural → 2 ≤ 3) ∧ (BC.periodic = .periodic → 3 ≤ 3) := by decide

end Ascot.C38

namespace Ascot.C39
open Ascot.Linint hiding On covers locate locate_on locate_outside
open Ascot.Spline Ascot.Interp
variable {K : Type} [Field K] [LinearOrder K] [IsStrictOrderedRing K] [FloorRing K]

/-- The coordinate is outside of an axis that is not periodic. -/
def Outside (bc : BC) (min max x : K) : Prop := bc = .natural ∧ (x < min ∨ max < x)

theorem on_not_outside {n : Nat} {bc : BC} {min max x d : K} {i : Nat} (hm : min < max)
    (h : On (Axis.init n bc min max) x i d) : ¬ Outside bc min max x := by
  rintro ⟨rfl, ho⟩
  have h1 := locate_on hm h
  have h2 := locate_outside (n := n) ho
  rw [h1] at h2
  exact absurd h2 (by simp)

/-- One dimension: no coefficient outside of the table is read, and exactly the coordinates outside are rejected. -/
theorem safe_1D {n : Nat} {bc : BC} {min max : K} (hn : (bc = .natural → 2 ≤ n) ∧ (bc = .periodic → 3 ≤ n)) (hm : min < max)
    (f : Nat → K) (x : K) :
    ∃ c, coeff1 f n bc min max = some c ∧
      eval1f (Axis.init n bc min max) c x ≠ none ∧ eval1df (Axis.init n bc min max) c x ≠ none ∧
      (eval1f (Axis.init n bc min max) c x = some none ↔ Outside bc min max x) ∧
      (eval1df (Axis.init n bc min max) c x = some none ↔ Outside bc min max x) := by
  have h := C38.size_ok.2 hn
  rcases C38.inside_or_outside h hm x with ⟨i, d, hx⟩ | ho
  · obtain ⟨c, hc, e1, e2⟩ := eval1_eq (f := f) h hm hx
    have := on_not_outside hm hx
    exact ⟨c, hc, by simp [e1], by simp [e2], by simp [e1, this], by simp [e2, this]⟩
  · obtain ⟨c, hc, -, -⟩ := coeff1_eq (f := f) (min := min) (max := max) h
    obtain ⟨rfl, hx⟩ := ho
    have : Outside .natural min max x := ⟨rfl, hx⟩
    exact ⟨c, hc, by simp [eval1f, locate_outside hx], by simp [eval1df, locate_outside hx],
      by simp [eval1f, locate_outside hx, this], by simp [eval1df, locate_outside hx, this]⟩

/-- Two dimensions. -/
theorem safe_2D {nx ny : Nat} {bx by_ : BC} {xmin xmax ymin ymax : K}
    (hnx : (bx = .natural → 2 ≤ nx) ∧ (bx = .periodic → 3 ≤ nx)) (hny : (by_ = .natural → 2 ≤ ny) ∧ (by_ = .periodic → 3 ≤ ny))
    (hmx : xmin < xmax) (hmy : ymin < ymax) (f : Nat → Nat → K) (x y : K) :
    ∃ c, coeff2 f nx ny bx by_ (gridOf nx bx xmin xmax) (gridOf ny by_ ymin ymax) = some c ∧
      eval2f (Axis.init nx bx xmin xmax) (Axis.init ny by_ ymin ymax) c x y ≠ none ∧
      eval2df (Axis.init nx bx xmin xmax) (Axis.init ny by_ ymin ymax) c x y ≠ none ∧
      (eval2f (Axis.init nx bx xmin xmax) (Axis.init ny by_ ymin ymax) c x y = some none ↔ Outside bx xmin xmax x ∨ Outside by_ ymin ymax y) ∧
      (eval2df (Axis.init nx bx xmin xmax) (Axis.init ny by_ ymin ymax) c x y = some none ↔ Outside bx xmin xmax x ∨ Outside by_ ymin ymax y) := by
  have hx := C38.size_ok.2 hnx
  have hy := C38.size_ok.2 hny
  obtain ⟨c, hc, -⟩ := coeff2_eq (f := f) (xg := gridOf nx bx xmin xmax) (yg := gridOf ny by_ ymin ymax) hx hy
  rcases C38.inside_or_outside hx hmx x with ⟨i, dx, ox⟩ | ⟨rfl, ox⟩
  · rcases C38.inside_or_outside hy hmy y with ⟨j, dy, oy⟩ | ⟨rfl, oy⟩
    · obtain ⟨c, hc, e1, e2⟩ := eval2_eq (f := f) hx hy hmx hmy ox oy _ rfl
      have h1 := on_not_outside hmx ox
      have h2 := on_not_outside hmy oy
      exact ⟨c, hc, by simp [e1], by simp [e2], by simp [e1, h1, h2], by simp [e2, h1, h2]⟩
    · have h2 : Outside .natural ymin ymax y := ⟨rfl, oy⟩
      exact ⟨c, hc, by simp [eval2f, locate_outside oy], by simp [eval2df, locate_outside oy],
        by simp [eval2f, locate_outside oy, h2], by simp [eval2df, locate_outside oy, h2]⟩
  · have h1 : Outside .natural xmin xmax x := ⟨rfl, ox⟩
    exact ⟨c, hc, by simp [eval2f, locate_outside ox], by simp [eval2df, locate_outside ox],
      by simp [eval2f, locate_outside ox, h1], by simp [eval2df, locate_outside ox, h1]⟩

/-- Three dimensions. -/
theorem safe_3D {nx ny nz : Nat} {bx by_ bz : BC} {xmin xmax ymin ymax zmin zmax : K}
    (hnx : (bx = .natural → 2 ≤ nx) ∧ (bx = .periodic → 3 ≤ nx)) (hny : (by_ = .natural → 2 ≤ ny) ∧ (by_ = .periodic → 3 ≤ ny))
    (hnz : (bz = .natural → 2 ≤ nz) ∧ (bz = .periodic → 3 ≤ nz)) (hmx : xmin < xmax) (hmy : ymin < ymax) (hmz : zmin < zmax)
    (f : Nat → Nat → Nat → K) (x y z : K) :
    ∃ c, coeff3 f nx ny nz bx by_ bz (gridOf nx bx xmin xmax) (gridOf ny by_ ymin ymax) (gridOf nz bz zmin zmax) = some c ∧
      eval3f (Axis.init nx bx xmin xmax) (Axis.init ny by_ ymin ymax) (Axis.init nz bz zmin zmax) c x y z ≠ none ∧
      eval3df (Axis.init nx bx xmin xmax) (Axis.init ny by_ ymin ymax) (Axis.init nz bz zmin zmax) c x y z ≠ none ∧
      (eval3f (Axis.init nx bx xmin xmax) (Axis.init ny by_ ymin ymax) (Axis.init nz bz zmin zmax) c x y z = some none ↔
        Outside bx xmin xmax x ∨ Outside by_ ymin ymax y ∨ Outside bz zmin zmax z) ∧
      (eval3df (Axis.init nx bx xmin xmax) (Axis.init ny by_ ymin ymax) (Axis.init nz bz zmin zmax) c x y z = some none ↔
        Outside bx xmin xmax x ∨ Outside by_ ymin ymax y ∨ Outside bz zmin zmax z) := by
  have hx := C38.size_ok.2 hnx
  have hy := C38.size_ok.2 hny
  have hz := C38.size_ok.2 hnz
  obtain ⟨c, hc, -⟩ := coeff3_eq (f := f) (xg := gridOf nx bx xmin xmax) (yg := gridOf ny by_ ymin ymax) (zg := gridOf nz bz zmin zmax) hx hy hz
  rcases C38.inside_or_outside hx hmx x with ⟨i, dx, ox⟩ | ⟨rfl, ox⟩
  · rcases C38.inside_or_outside hy hmy y with ⟨j, dy, oy⟩ | ⟨rfl, oy⟩
    · rcases C38.inside_or_outside hz hmz z with ⟨k, dz, oz⟩ | ⟨rfl, oz⟩
      · obtain ⟨c, hc, e1, e2⟩ := eval3_eq (f := f) hx hy hz hmx hmy hmz ox oy oz _ rfl
        have h1 := on_not_outside hmx ox
        have h2 := on_not_outside hmy oy
        have h3 := on_not_outside hmz oz
        exact ⟨c, hc, by simp [e1], by simp [e2], by simp [e1, h1, h2, h3], by simp [e2, h1, h2, h3]⟩
      · have h3 : Outside .natural zmin zmax z := ⟨rfl, oz⟩
        exact ⟨c, hc, by simp [eval3f, locate_outside oz], by simp [eval3df, locate_outside oz],
          by simp [eval3f, locate_outside oz, h3], by simp [eval3df, locate_outside oz, h3]⟩
    · have h2 : Outside .natural ymin ymax y := ⟨rfl, oy⟩
      exact ⟨c, hc, by simp [eval3f, locate_outside oy], by simp [eval3df, locate_outside oy],
        by simp [eval3f, locate_outside oy, h2], by simp [eval3df, locate_outside oy, h2]⟩
  · have h1 : Outside .natural xmin xmax x := ⟨rfl, ox⟩
    exact ⟨c, hc, by simp [eval3f, locate_outside ox], by simp [eval3df, locate_outside ox],
      by simp [eval3f, locate_outside ox, h1], by simp [eval3df, locate_outside ox, h1]⟩

example : (BC.natural = .natural → 2 ≤ 2) ∧ (BC.natural = .periodic → 3 ≤ 2) := by decide

/-- The last point of the axis is accepted, the next coordinate is not. -/
example : (coeff1 (fun i => (i : ℚ)) 3 .natural 0 2).bind (fun c => eval1f (Axis.init 3 .natural 0 2) c 2) = some (some 2) ∧
    (coeff1 (fun i => (i : ℚ)) 3 .natural 0 2).bind (fun c => eval1f (Axis.init 3 .natural 0 2) c (2 + 1 / 1000)) = some none := by
  decide +kernel

end Ascot.C39

namespace Ascot.C71
open Ascot.Linint hiding On covers locate locate_on locate_outside
open Ascot.Spline Ascot.Interp
variable {K : Type} [Field K] [LinearOrder K] [IsStrictOrderedRing K] [FloorRing K]

theorem spl_spline {o : Op} {n : Nat} {bc : BC} {g : K} (hg : g ≠ 0) (h : sizeOk n bc = true) {i : Nat} (hi : i < cells n bc) (d : K)
    {f f' : Nat → K} {q : Nat → Cubic K} (hq : IsSpline n bc f q) (e : ∀ i < n, f i = f' i) : (q i).op o g d = spl o n bc g i d f' := by
  rw [spline_unique h hq i hi]
  exact spl_congr h hg (cells_lt hi) d e

/-- Splines exist for every table of values (so that the hypotheses below can be met). -/
theorem exists_spline {n : Nat} {bc : BC} (hn : (bc = .natural → 2 ≤ n) ∧ (bc = .periodic → 3 ≤ n)) (f : Nat → K) :
    ∃ q, IsSpline n bc f q := ⟨_, spline_exists (C38.size_ok.2 hn) f⟩

/-- The orders of the derivatives returned in two dimensions. -/
def orders2 : List (Op × Op) := [(.val, .val), (.der, .val), (.val, .der), (.der2, .val), (.val, .der2), (.der, .der)]

/-- The orders of the derivatives returned in three dimensions. -/
def orders3 : List (Op × Op × Op) :=
  [(.val, .val, .val), (.der, .val, .val), (.val, .der, .val), (.val, .val, .der), (.der2, .val, .val), (.val, .der2, .val),
    (.val, .val, .der2), (.der, .der, .val), (.der, .val, .der), (.val, .der, .der)]

/-- Two dimensions: every returned number is given by the one-dimensional splines along `y` through each column of the
table, and the one-dimensional spline along `x` through their values (or derivatives). -/
theorem spline_of_splines_2D {nx ny : Nat} {bx by_ : BC} {xmin xmax ymin ymax x y dx dy : K} {i j : Nat}
    (hnx : (bx = .natural → 2 ≤ nx) ∧ (bx = .periodic → 3 ≤ nx)) (hny : (by_ = .natural → 2 ≤ ny) ∧ (by_ = .periodic → 3 ≤ ny))
    (hmx : xmin < xmax) (hmy : ymin < ymax) (f : Nat → Nat → K)
    (hx : On (Axis.init nx bx xmin xmax) x i dx) (hy : On (Axis.init ny by_ ymin ymax) y j dy) :
    ∃ c, coeff2 f nx ny bx by_ (gridOf nx bx xmin xmax) (gridOf ny by_ ymin ymax) = some c ∧
    ∃ v : Op × Op → K,
      eval2f (Axis.init nx bx xmin xmax) (Axis.init ny by_ ymin ymax) c x y = some (some (v (.val, .val))) ∧
      eval2df (Axis.init nx bx xmin xmax) (Axis.init ny by_ ymin ymax) c x y = some (some (orders2.map v)) ∧
      (∀ ox oy, ∀ qy : Nat → Nat → Cubic K, (∀ i < nx, IsSpline ny by_ (fun j => f i j) (qy i)) →
        ∀ qx, IsSpline nx bx (fun i => (qy i j).op oy (gridOf ny by_ ymin ymax) dy) qx →
        v (ox, oy) = (qx i).op ox (gridOf nx bx xmin xmax) dx) ∧
      -- the axes can be exchanged
      (∀ ox oy, ∀ qx : Nat → Nat → Cubic K, (∀ j < ny, IsSpline nx bx (fun i => f i j) (qx j)) →
        ∀ qy, IsSpline ny by_ (fun j => (qx j i).op ox (gridOf nx bx xmin xmax) dx) qy →
        v (ox, oy) = (qy j).op oy (gridOf ny by_ ymin ymax) dy) := by
  have hsx := C38.size_ok.2 hnx
  have hsy := C38.size_ok.2 hny
  have gx := grid_ne hsx hmx
  have gy := grid_ne hsy hmy
  obtain ⟨c, hc, e1, e2⟩ := eval2_eq (f := f) hsx hsy hmx hmy hx hy _ rfl
  refine ⟨c, hc, fun o => spl2 o.1 o.2 (Axis.init nx bx xmin xmax) (Axis.init ny by_ ymin ymax) i j dx dy f, e1, e2, ?_, ?_⟩
  · intro ox oy qy hqy qx hqx
    rw [spl_spline gx hsx hx.cell dx hqx fun i hi => spl_spline gy hsy hy.cell dy (hqy i hi) fun _ _ => rfl]
    rfl
  · intro ox oy qx hqx qy hqy
    rw [spl_spline gy hsy hy.cell dy hqy fun j hj => spl_spline gx hsx hx.cell dx (hqx j hj) fun _ _ => rfl]
    exact spl_comm hsx hsy gx gy (cells_lt hx.cell) (cells_lt hy.cell) dx dy f

/-- Three dimensions: splines along `z`, then along `y`, then along `x`; the last axis can be any of them. -/
theorem spline_of_splines_3D {nx ny nz : Nat} {bx by_ bz : BC} {xmin xmax ymin ymax zmin zmax x y z dx dy dz : K} {i j k : Nat}
    (hnx : (bx = .natural → 2 ≤ nx) ∧ (bx = .periodic → 3 ≤ nx)) (hny : (by_ = .natural → 2 ≤ ny) ∧ (by_ = .periodic → 3 ≤ ny))
    (hnz : (bz = .natural → 2 ≤ nz) ∧ (bz = .periodic → 3 ≤ nz)) (hmx : xmin < xmax) (hmy : ymin < ymax) (hmz : zmin < zmax)
    (f : Nat → Nat → Nat → K)
    (hx : On (Axis.init nx bx xmin xmax) x i dx) (hy : On (Axis.init ny by_ ymin ymax) y j dy) (hz : On (Axis.init nz bz zmin zmax) z k dz) :
    ∃ c, coeff3 f nx ny nz bx by_ bz (gridOf nx bx xmin xmax) (gridOf ny by_ ymin ymax) (gridOf nz bz zmin zmax) = some c ∧
    ∃ v : Op × Op × Op → K,
      eval3f (Axis.init nx bx xmin xmax) (Axis.init ny by_ ymin ymax) (Axis.init nz bz zmin zmax) c x y z = some (some (v (.val, .val, .val))) ∧
      eval3df (Axis.init nx bx xmin xmax) (Axis.init ny by_ ymin ymax) (Axis.init nz bz zmin zmax) c x y z = some (some (orders3.map v)) ∧
      (∀ ox oy oz, ∀ qz : Nat → Nat → Nat → Cubic K, (∀ i < nx, ∀ j < ny, IsSpline nz bz (fun k => f i j k) (qz i j)) →
        ∀ qy : Nat → Nat → Cubic K, (∀ i < nx, IsSpline ny by_ (fun j => (qz i j k).op oz (gridOf nz bz zmin zmax) dz) (qy i)) →
        ∀ qx, IsSpline nx bx (fun i => (qy i j).op oy (gridOf ny by_ ymin ymax) dy) qx →
        v (ox, oy, oz) = (qx i).op ox (gridOf nx bx xmin xmax) dx) ∧
      (∀ ox oy oz, ∀ qz : Nat → Nat → Nat → Cubic K, (∀ i < nx, ∀ j < ny, IsSpline nz bz (fun k => f i j k) (qz i j)) →
        ∀ qx : Nat → Nat → Cubic K, (∀ j < ny, IsSpline nx bx (fun i => (qz i j k).op oz (gridOf nz bz zmin zmax) dz) (qx j)) →
        ∀ qy, IsSpline ny by_ (fun j => (qx j i).op ox (gridOf nx bx xmin xmax) dx) qy →
        v (ox, oy, oz) = (qy j).op oy (gridOf ny by_ ymin ymax) dy) ∧
      (∀ ox oy oz, ∀ qy : Nat → Nat → Nat → Cubic K, (∀ i < nx, ∀ k < nz, IsSpline ny by_ (fun j => f i j k) (qy i k)) →
        ∀ qx : Nat → Nat → Cubic K, (∀ k < nz, IsSpline nx bx (fun i => (qy i k j).op oy (gridOf ny by_ ymin ymax) dy) (qx k)) →
        ∀ qz, IsSpline nz bz (fun k => (qx k i).op ox (gridOf nx bx xmin xmax) dx) qz →
        v (ox, oy, oz) = (qz k).op oz (gridOf nz bz zmin zmax) dz) := by
  have hsx := C38.size_ok.2 hnx
  have hsy := C38.size_ok.2 hny
  have hsz := C38.size_ok.2 hnz
  have gx := grid_ne hsx hmx
  have gy := grid_ne hsy hmy
  have gz := grid_ne hsz hmz
  have lx := cells_lt hx.cell
  have ly := cells_lt hy.cell
  have lz := cells_lt hz.cell
  obtain ⟨c, hc, e1, e2⟩ := eval3_eq (f := f) hsx hsy hsz hmx hmy hmz hx hy hz _ rfl
  refine ⟨c, hc, fun o => spl3 o.1 o.2.1 o.2.2 (Axis.init nx bx xmin xmax) (Axis.init ny by_ ymin ymax) (Axis.init nz bz zmin zmax) i j k dx dy dz f,
    e1, e2, ?_, ?_, ?_⟩
  · intro ox oy oz qz hqz qy hqy qx hqx
    rw [spl_spline gx hsx hx.cell dx hqx fun i hi => spl_spline gy hsy hy.cell dy (hqy i hi) fun j hj =>
      spl_spline gz hsz hz.cell dz (hqz i hi j hj) fun _ _ => rfl]
    rfl
  · intro ox oy oz qz hqz qx hqx qy hqy
    rw [spl_spline gy hsy hy.cell dy hqy fun j hj => spl_spline gx hsx hx.cell dx (hqx j hj) fun i hi =>
      spl_spline gz hsz hz.cell dz (hqz i hi j hj) fun _ _ => rfl]
    exact spl_comm hsx hsy gx gy lx ly dx dy fun i j => spl oz nz bz (gridOf nz bz zmin zmax) k dz (f i j)
  · intro ox oy oz qy hqy qx hqx qz hqz
    rw [spl_spline gz hsz hz.cell dz hqz fun k hk => spl_spline gx hsx hx.cell dx (hqx k hk) fun i hi =>
      spl_spline gy hsy hy.cell dy (hqy i hi k hk) fun _ _ => rfl]
    unfold spl3
    simp only [Axis.init]
    have e : ∀ i, (spl oy ny by_ (gridOf ny by_ ymin ymax) j dy fun j => spl oz nz bz (gridOf nz bz zmin zmax) k dz fun k => f i j k) =
        spl oz nz bz (gridOf nz bz zmin zmax) k dz fun k => spl oy ny by_ (gridOf ny by_ ymin ymax) j dy fun j => f i j k :=
      fun i => spl_comm hsy hsz gy gz ly lz dy dz (f i)
    simp only [e]
    exact spl_comm hsx hsz gx gz lx lz dx dz fun i k => spl oy ny by_ (gridOf ny by_ ymin ymax) j dy fun j => f i j k

/-- The tabulated values are reproduced in two dimensions. -/
theorem tabulated_2D {nx ny : Nat} {bx by_ : BC} {xmin xmax ymin ymax x y : K} {i j : Nat}
    (hnx : (bx = .natural → 2 ≤ nx) ∧ (bx = .periodic → 3 ≤ nx)) (hny : (by_ = .natural → 2 ≤ ny) ∧ (by_ = .periodic → 3 ≤ ny))
    (hmx : xmin < xmax) (hmy : ymin < ymax) (f : Nat → Nat → K)
    (hx : On (Axis.init nx bx xmin xmax) x i 0) (hy : On (Axis.init ny by_ ymin ymax) y j 0) :
    ∃ c, coeff2 f nx ny bx by_ (gridOf nx bx xmin xmax) (gridOf ny by_ ymin ymax) = some c ∧
      eval2f (Axis.init nx bx xmin xmax) (Axis.init ny by_ ymin ymax) c x y = some (some (f i j)) := by
  obtain ⟨c, hc, e1, -⟩ := eval2_eq (f := f) (C38.size_ok.2 hnx) (C38.size_ok.2 hny) hmx hmy hx hy _ rfl
  refine ⟨c, hc, e1.trans ?_⟩
  simp [spl2, spl, Cubic.op, pieceComp, ofSecond, Cubic.val]

/-- The tabulated values are reproduced in three dimensions. -/
theorem tabulated_3D {nx ny nz : Nat} {bx by_ bz : BC} {xmin xmax ymin ymax zmin zmax x y z : K} {i j k : Nat}
    (hnx : (bx = .natural → 2 ≤ nx) ∧ (bx = .periodic → 3 ≤ nx)) (hny : (by_ = .natural → 2 ≤ ny) ∧ (by_ = .periodic → 3 ≤ ny))
    (hnz : (bz = .natural → 2 ≤ nz) ∧ (bz = .periodic → 3 ≤ nz)) (hmx : xmin < xmax) (hmy : ymin < ymax) (hmz : zmin < zmax)
    (f : Nat → Nat → Nat → K)
    (hx : On (Axis.init nx bx xmin xmax) x i 0) (hy : On (Axis.init ny by_ ymin ymax) y j 0) (hz : On (Axis.init nz bz zmin zmax) z k 0) :
    ∃ c, coeff3 f nx ny nz bx by_ bz (gridOf nx bx xmin xmax) (gridOf ny by_ ymin ymax) (gridOf nz bz zmin zmax) = some c ∧
      eval3f (Axis.init nx bx xmin xmax) (Axis.init ny by_ ymin ymax) (Axis.init nz bz zmin zmax) c x y z = some (some (f i j k)) := by
  obtain ⟨c, hc, e1, -⟩ := eval3_eq (f := f) (C38.size_ok.2 hnx) (C38.size_ok.2 hny) (C38.size_ok.2 hnz) hmx hmy hmz hx hy hz _ rfl
  refine ⟨c, hc, e1.trans ?_⟩
  simp [spl3, spl, Cubic.op, pieceComp, ofSecond, Cubic.val]

/-- A point of a periodic axis and one of an axis that is not. -/
example : On (Axis.init 4 .periodic (0 : ℚ) 8) 11 1 (1 / 2) ∧ On (Axis.init 4 .natural (0 : ℚ) 6) 6 2 1 := by
  refine ⟨⟨by decide, by simp, by norm_num, by norm_num, by norm_num, 1, by simp, by simp [gridOf]; norm_num⟩,
    ⟨by decide, by simp, by norm_num, by norm_num, by simp, 0, by simp, by norm_num [gridOf]⟩⟩

end Ascot.C71
