import Verif.Props.C36_C39_Spline
import Verif.Spec.Smooth
import Mathlib.Analysis.Calculus.Deriv.Comp
import Mathlib.Analysis.Calculus.Deriv.Prod
import Mathlib.Analysis.Calculus.FDeriv.Prod
import Mathlib.Analysis.Calculus.FDeriv.Add
import Mathlib.Analysis.Calculus.FDeriv.Mul
import Mathlib.Topology.Order.LeftRightNhds
set_option linter.unusedSectionVars false
set_option linter.unusedSimpArgs false

/-!
# Splines as functions of the coordinate

The pieces of a spline are joined to a function on the whole axis.
-/
namespace Ascot.Interp
open Ascot.Linint hiding On covers locate locate_on locate_outside
open Ascot.Spline

/-- The coordinates that belong to an axis. -/
def dom (bc : BC) (lo hi : ℝ) : Set ℝ := {x | bc = .natural → lo ≤ x ∧ x ≤ hi}

open Classical in
/-- The spline through `f`, or one of its derivatives, as function of the coordinate. -/
noncomputable def glued (o : Op) (n : ℕ) (bc : BC) (lo hi : ℝ) (f : ℕ → ℝ) (x : ℝ) : ℝ :=
  if h : ∃ i d, On (Axis.init n bc lo hi) x i d then spl o n bc (gridOf n bc lo hi) h.choose h.choose_spec.choose f else 0

theorem on_unique {n : ℕ} {bc : BC} {lo hi x d d' : ℝ} {i i' : ℕ} (hm : lo < hi) (h : On (Axis.init n bc lo hi) x i d)
    (h' : On (Axis.init n bc lo hi) x i' d') : i = i' ∧ d = d' := by
  have h1 := locate_on hm h
  rw [locate_on hm h'] at h1
  injection h1 with a b c e
  exact ⟨by exact_mod_cast a.symm, b.symm⟩

theorem glued_on {o : Op} {n : ℕ} {bc : BC} {lo hi x d : ℝ} {i : ℕ} (hm : lo < hi) (h : On (Axis.init n bc lo hi) x i d) (f : ℕ → ℝ) :
    glued o n bc lo hi f x = spl o n bc (gridOf n bc lo hi) i d f := by
  have hex : ∃ i d, On (Axis.init n bc lo hi) x i d := ⟨i, d, h⟩
  unfold glued
  rw [dif_pos hex]
  obtain ⟨e1, e2⟩ := on_unique hm hex.choose_spec.choose_spec h
  rw [e2, e1]

theorem natural_op {n : ℕ} {f : ℕ → ℝ} {q : ℕ → Cubic ℝ} (h : NaturalSpline n f q) (o : Op) (g : ℝ) {i : ℕ} (hi : i + 2 < n) :
    (q i).op o g 1 = (q (i + 1)).op o g 0 := by
  cases o
  · simp only [Cubic.op]; rw [h.right i (by omega), h.left (i + 1) (by omega)]
  · simp only [Cubic.op]; rw [h.der i hi]
  · simp only [Cubic.op]; rw [h.der2 i hi]

theorem periodic_op {n : ℕ} {f : ℕ → ℝ} {q : ℕ → Cubic ℝ} (h : PeriodicSpline n f q) (o : Op) (g : ℝ) {i : ℕ} (hi : i < n) :
    (q i).op o g 1 = (q ((i + 1) % n)).op o g 0 := by
  have : (i + 1) % n < n := Nat.mod_lt _ (by omega)
  cases o
  · simp only [Cubic.op]; rw [h.right i hi, h.left _ this]
  · simp only [Cubic.op]; rw [h.der i hi]
  · simp only [Cubic.op]; rw [h.der2 i hi]

/-- Each piece also holds at the end of its cell. -/
theorem glued_cell {o : Op} {n : ℕ} {bc : BC} {lo hi x d : ℝ} {i : ℕ} {k : ℤ} (hs : sizeOk n bc = true) (hm : lo < hi) (hi' : i < cells n bc)
    (d0 : 0 ≤ d) (d1 : d ≤ 1) (hk : bc = .natural → k = 0) (hx : x = lo + (i + d) * gridOf n bc lo hi + k * (hi - lo)) (f : ℕ → ℝ) :
    glued o n bc lo hi f x = spl o n bc (gridOf n bc lo hi) i d f := by
  have hq := spline_exists hs f
  cases bc with
  | natural =>
    simp only [cells] at hi'
    by_cases hd : d = 1 → i + 2 = n
    · exact glued_on hm ⟨by simp only; omega, fun _ => by simp only; omega, d0, d1, fun h => ⟨rfl, hd h⟩, k, hk, hx⟩ f
    · push Not at hd
      obtain ⟨rfl, hne⟩ := hd
      rw [glued_on (i := i + 1) (d := 0) hm ⟨by simp only; omega, fun _ => by simp only; omega, le_rfl, zero_le_one, fun h => absurd h (by norm_num), k, hk, by rw [hx]; push_cast; ring⟩ f]
      exact (natural_op hq o _ (by omega)).symm
  | periodic =>
    simp only [cells] at hi'
    by_cases hd : d < 1
    · exact glued_on hm ⟨hi', by simp, d0, d1, fun h => absurd h hd.ne, k, hk, hx⟩ f
    · obtain rfl : d = 1 := le_antisymm d1 (not_lt.1 hd)
      have e := periodic_op hq o (gridOf n .periodic lo hi) hi'
      unfold spl
      rw [e]
      by_cases hl : i + 1 < n
      · rw [Nat.mod_eq_of_lt hl]
        exact glued_on hm ⟨hl, by simp, le_rfl, zero_le_one, fun h => absurd h (by norm_num), k, hk, by rw [hx]; push_cast; ring⟩ f
      · have hn : i + 1 = n := by omega
        rw [hn, Nat.mod_self]
        have hL := grid_mul (K := ℝ) (n := n) (bc := .periodic) (min := lo) (max := hi) (by omega) (by simp)
        simp only [reduceCtorEq, if_false, mul_zero, sub_zero] at hL
        refine glued_on hm ⟨by simp only; omega, by simp, le_rfl, zero_le_one, fun h => absurd h (by norm_num), k + 1, by simp, ?_⟩ f
        rw [hx]
        have : (n : ℝ) = i + 1 := by rw [← hn]; push_cast; ring
        rw [this] at hL
        push_cast
        linear_combination hL * (-1 : ℝ)

/-- The derivative of a value or derivative. -/
inductive Next : Op → Op → Prop
  | one : Next .val .der
  | two : Next .der .der2

theorem op_deriv {o o' : Op} (h : Next o o') (q : Cubic ℝ) {g : ℝ} (hg : g ≠ 0) (d : ℝ) : HasDerivAt (q.op o g) (q.op o' g d * g) d := by
  cases h
  · have := C36.derivative q d
    simp only [Cubic.op]
    rw [div_mul_cancel₀ _ hg]
    exact this
  · have := (C36.derivative2 q d).div_const g
    simp only [Cubic.op]
    refine this.congr_deriv ?_
    field_simp

/-- In a cell. -/
theorem cell_deriv {o o' : Op} (ho : Next o o') {n : ℕ} {bc : BC} {lo hi x d : ℝ} {i : ℕ} {k : ℤ} (hs : sizeOk n bc = true) (hm : lo < hi)
    (hi' : i < cells n bc) (d0 : 0 ≤ d) (d1 : d ≤ 1) (hk : bc = .natural → k = 0)
    (hx : x = lo + (i + d) * gridOf n bc lo hi + k * (hi - lo)) (f : ℕ → ℝ) :
    HasDerivWithinAt (glued o n bc lo hi f) (glued o' n bc lo hi f x)
      (Set.Icc (x - d * gridOf n bc lo hi) (x + (1 - d) * gridOf n bc lo hi)) x := by
  obtain ⟨g, eg⟩ : ∃ g, gridOf n bc lo hi = g := ⟨_, rfl⟩
  have hg : 0 < g := by
    have := grid_ne hs hm
    rw [← eg]
    refine grid_pos ?_ ?_ hm
    · cases bc <;> simp [sizeOk] at hs <;> omega
    · rintro rfl; simpa [sizeOk] using hs
  rw [glued_cell hs hm hi' d0 d1 hk hx]
  rw [eg] at hx ⊢
  have h1 := (op_deriv ho (pieceComp f n bc i) hg.ne' (d + (x - x) / g)).comp x
    ((((hasDerivAt_id x).sub_const x).div_const g).const_add d)
  simp only [sub_self, zero_div, add_zero] at h1
  have h2 := h1.congr_deriv (g' := spl o' n bc g i d f) (by unfold spl; field_simp)
  refine h2.hasDerivWithinAt.congr ?_ ?_
  · intro y hy
    obtain ⟨y0, y1⟩ := hy
    have : glued o n bc lo hi f y = spl o n bc (gridOf n bc lo hi) i (d + (y - x) / g) f := by
      refine glued_cell hs hm hi' ?_ ?_ hk ?_ f
      · have : -d ≤ (y - x) / g := by rw [le_div_iff₀ hg]; linarith
        linarith
      · have : (y - x) / g ≤ 1 - d := by rw [div_le_iff₀ hg]; linarith
        linarith
      · rw [eg]
        have : (y - x) / g * g = y - x := div_mul_cancel₀ _ hg.ne'
        linear_combination hx - this
    rw [this, eg]
    rfl
  · rw [glued_cell hs hm hi' d0 d1 hk (by rw [eg]; exact hx), eg]
    simp [spl, Function.comp]

/-- What holds in the cells at a point holds on the axis there. -/
theorem join {n : ℕ} {bc : BC} {lo hi x : ℝ} (hs : sizeOk n bc = true) (hm : lo < hi) (hx : x ∈ dom bc lo hi) (P : Set ℝ → Prop)
    (near : ∀ s t, t ∈ nhdsWithin x s → P t → P s) (union : ∀ s t, P s → P t → P (s ∪ t)) (single : P {x})
    (key : ∀ d, 0 ≤ d → d ≤ 1 → ∀ i, i < cells n bc → ∀ k : ℤ, (bc = .natural → k = 0) →
      x = lo + (i + d) * gridOf n bc lo hi + k * (hi - lo) →
      P (Set.Icc (x - d * gridOf n bc lo hi) (x + (1 - d) * gridOf n bc lo hi))) : P (dom bc lo hi) := by
  have mono : ∀ {s t}, s ⊆ t → P t → P s := fun {s t} h => near s t (Filter.mem_of_superset self_mem_nhdsWithin h)
  have hn1 : 1 ≤ n := by cases bc <;> simp [sizeOk] at hs <;> omega
  have hn2 : bc = .natural → 2 ≤ n := by rintro rfl; simpa [sizeOk] using hs
  have hg := grid_pos (K := ℝ) hn1 hn2 hm
  have hL := grid_mul (K := ℝ) (min := lo) (max := hi) hn1 hn2
  obtain ⟨i, d, h⟩ := covers hn1 hn2 hm hx
  have hic := h.cell
  obtain ⟨lt, last, d0, d1, one, k, hk, hxe⟩ := h
  dsimp only at lt last one hk hxe
  obtain ⟨g, eg⟩ : ∃ g, gridOf n bc lo hi = g := ⟨_, rfl⟩
  rw [eg] at hg hL hxe key
  have right : P (dom bc lo hi ∩ Set.Ici x) := by
    by_cases hd : d < 1
    · have h1 := key d d0 d1 i hic k hk hxe
      have h2 : P (Set.Ici x) := by
        refine near _ _ ?_ h1
        refine Filter.mem_of_superset (Icc_mem_nhdsGE (show x < x + (1 - d) * g from ?_)) ?_
        · have : 0 < (1 - d) * g := mul_pos (by linarith) hg
          linarith
        · intro y hy
          have : 0 ≤ d * g := by positivity
          exact ⟨by linarith [hy.1], hy.2⟩
      exact mono Set.inter_subset_right h2
    · have hd1 : d = 1 := le_antisymm d1 (not_lt.1 hd)
      obtain ⟨hb, hi2⟩ := one hd1
      have hxhi : x = hi := by
        rw [hk hb, hd1] at hxe
        rw [if_pos hb] at hL
        have : (n : ℝ) = i + 2 := by exact_mod_cast hi2.symm
        rw [this] at hL
        rw [hxe]; push_cast
        linear_combination -hL
      have : dom bc lo hi ∩ Set.Ici x ⊆ {x} := by
        rintro y ⟨h1, h2⟩
        have h3 := (h1 hb).2
        have h4 : x ≤ y := h2
        rw [Set.mem_singleton_iff]
        linarith
      exact mono this single
  have left : P (dom bc lo hi ∩ Set.Iic x) := by
    have gen : ∀ d, 0 < d → d ≤ 1 → ∀ i, i < cells n bc → ∀ k : ℤ, (bc = .natural → k = 0) → x = lo + (i + d) * g + k * (hi - lo) →
        P (dom bc lo hi ∩ Set.Iic x) := by
      intro d d0 d1 i hi' k hk hxe
      have h1 := key d d0.le d1 i hi' k hk hxe
      have h2 : P (Set.Iic x) := by
        refine near _ _ ?_ h1
        refine Filter.mem_of_superset (Icc_mem_nhdsLE (show x - d * g < x from ?_)) ?_
        · have : 0 < d * g := mul_pos d0 hg
          linarith
        · intro y hy
          have : 0 ≤ (1 - d) * g := mul_nonneg (by linarith) hg.le
          exact ⟨hy.1, by linarith [hy.2]⟩
      exact mono Set.inter_subset_right h2
    by_cases hd : 0 < d
    · exact gen d hd d1 i hic k hk hxe
    · have hd0 : d = 0 := le_antisymm (not_lt.1 hd) d0
      subst hd0
      by_cases hi0 : i = 0
      · subst hi0
        cases bc with
        | natural =>
          have hxlo : x = lo := by rw [hk rfl] at hxe; rw [hxe]; push_cast; ring
          have : dom .natural lo hi ∩ Set.Iic x ⊆ {x} := by
            rintro y ⟨h1, h2⟩
            have h3 := (h1 rfl).1
            have h4 : y ≤ x := h2
            rw [Set.mem_singleton_iff]
            linarith
          exact mono this single
        | periodic =>
          refine gen 1 one_pos le_rfl (n - 1) (by simp only [cells]; omega) (k - 1) (by simp) ?_
          simp only [reduceCtorEq, if_false, mul_zero, sub_zero] at hL
          have : ((n - 1 : ℕ) : ℝ) = n - 1 := by push_cast [hn1]; ring
          rw [this, hxe]
          push_cast
          linear_combination hL
      · refine gen 1 one_pos le_rfl (i - 1) (by omega) k hk ?_
        have : ((i - 1 : ℕ) : ℝ) = i - 1 := by
          have : 1 ≤ i := by omega
          push_cast [this]; ring
        rw [this, hxe]
        ring
  refine mono ?_ (union _ _ left right)
  intro y hy
  rcases le_total y x with h | h
  · exact Or.inl ⟨hy, h⟩
  · exact Or.inr ⟨hy, h⟩

/-- The joined function is differentiable on the whole axis, and its derivative is the joined derivative. -/
theorem glued_deriv {o o' : Op} (ho : Next o o') {n : ℕ} {bc : BC} {lo hi x : ℝ} (hs : sizeOk n bc = true) (hm : lo < hi)
    (hx : x ∈ dom bc lo hi) (f : ℕ → ℝ) :
    HasDerivWithinAt (glued o n bc lo hi f) (glued o' n bc lo hi f x) (dom bc lo hi) x :=
  join hs hm hx (fun s => HasDerivWithinAt (glued o n bc lo hi f) (glued o' n bc lo hi f x) s x)
    (fun _ _ h h' => HasDerivWithinAt.mono_of_mem_nhdsWithin h' h) (fun _ _ h h' => h.union h')
    (HasFDerivWithinAt.of_subsingleton Set.subsingleton_singleton)
    fun _ d0 d1 _ hi' _ hk hx => cell_deriv ho hs hm hi' d0 d1 hk hx f

/-- All of them are continuous. -/
theorem glued_cont {o : Op} {n : ℕ} {bc : BC} {lo hi : ℝ} (hs : sizeOk n bc = true) (hm : lo < hi) (f : ℕ → ℝ) :
    ContinuousOn (glued o n bc lo hi f) (dom bc lo hi) := by
  intro x hx
  refine join hs hm hx (fun s => ContinuousWithinAt (glued o n bc lo hi f) s x)
    (fun _ _ h h' => ContinuousWithinAt.mono_of_mem_nhdsWithin h' h) (fun _ _ h h' => h.union h') (continuousWithinAt_singleton)
    fun d d0 d1 i hi' k hk hx => ?_
  obtain ⟨g, eg⟩ : ∃ g, gridOf n bc lo hi = g := ⟨_, rfl⟩
  have hg : 0 < g := by
    rw [← eg]
    refine grid_pos ?_ ?_ hm
    · cases bc <;> simp [sizeOk] at hs <;> omega
    · rintro rfl; simpa [sizeOk] using hs
  have hc : Continuous fun y => (pieceComp f n bc i).op o g (d + (y - x) / g) := by
    cases o <;> simp only [Cubic.op, Cubic.val, Cubic.der, Cubic.der2] <;> fun_prop
  refine hc.continuousWithinAt.congr ?_ ?_
  · intro y hy
    rw [eg] at hy
    obtain ⟨y0, y1⟩ := hy
    have : glued o n bc lo hi f y = spl o n bc (gridOf n bc lo hi) i (d + (y - x) / g) f := by
      refine glued_cell hs hm hi' ?_ ?_ hk ?_ f
      · have : -d ≤ (y - x) / g := by rw [le_div_iff₀ hg]; linarith
        linarith
      · have : (y - x) / g ≤ 1 - d := by rw [div_le_iff₀ hg]; linarith
        linarith
      · rw [eg] at hx ⊢
        have : (y - x) / g * g = y - x := div_mul_cancel₀ _ hg.ne'
        linear_combination hx - this
    rw [this, eg]
    rfl
  · rw [glued_cell hs hm hi' d0 d1 hk hx, eg]
    simp [spl]

/-- The values are weighted sums of the table. -/
theorem glued_sum {o : Op} {n : ℕ} {bc : BC} {lo hi x : ℝ} (hs : sizeOk n bc = true) (hm : lo < hi) (f : ℕ → ℝ)
    (hx : x ∈ dom bc lo hi) :
    glued o n bc lo hi f x = ∑ a ∈ Finset.range n, glued o n bc lo hi (fun b => if b = a then 1 else 0) x * f a := by
  have hn1 : 1 ≤ n := by cases bc <;> simp [sizeOk] at hs <;> omega
  have hn2 : bc = .natural → 2 ≤ n := by rintro rfl; simpa [sizeOk] using hs
  obtain ⟨i, d, h⟩ := covers hn1 hn2 hm hx
  obtain ⟨w, hw⟩ := spl_weights hs (o := o) (grid_ne hs hm) h.lt d
  rw [glued_on hm h, hw]
  refine Finset.sum_congr rfl fun a ha => ?_
  rw [glued_on hm h, hw]
  simp [Finset.mem_range.1 ha]

/-! ### Two and three dimensions -/

/-- A spline along the first axis through splines along the second. -/
noncomputable def glued2 (ox oy : Op) (nx ny : ℕ) (bx by_ : BC) (x0 x1 y0 y1 : ℝ) (f : ℕ → ℕ → ℝ) (p : ℝ × ℝ) : ℝ :=
  glued ox nx bx x0 x1 (fun i => glued oy ny by_ y0 y1 (f i) p.2) p.1

noncomputable def glued3 (ox oy oz : Op) (nx ny nz : ℕ) (bx by_ bz : BC) (x0 x1 y0 y1 z0 z1 : ℝ) (f : ℕ → ℕ → ℕ → ℝ) (p : ℝ × ℝ × ℝ) : ℝ :=
  glued ox nx bx x0 x1 (fun i => glued2 oy oz ny nz by_ bz y0 y1 z0 z1 (f i) p.2) p.1

/-- The weight of a point of the table. -/
noncomputable def weight (o : Op) (n : ℕ) (bc : BC) (lo hi : ℝ) (a : ℕ) (x : ℝ) : ℝ := glued o n bc lo hi (fun b => if b = a then 1 else 0) x

theorem glued2_sum {ox oy : Op} {nx ny : ℕ} {bx by_ : BC} {x0 x1 y0 y1 : ℝ} (hx : sizeOk nx bx = true) (hy : sizeOk ny by_ = true)
    (mx : x0 < x1) (my : y0 < y1) (f : ℕ → ℕ → ℝ) {p : ℝ × ℝ} (hp : p ∈ dom bx x0 x1 ×ˢ dom by_ y0 y1) :
    glued2 ox oy nx ny bx by_ x0 x1 y0 y1 f p =
      ∑ a ∈ Finset.range nx, ∑ b ∈ Finset.range ny, weight ox nx bx x0 x1 a p.1 * weight oy ny by_ y0 y1 b p.2 * f a b := by
  unfold glued2
  rw [glued_sum hx mx _ hp.1]
  refine Finset.sum_congr rfl fun a _ => ?_
  rw [glued_sum hy my _ hp.2, Finset.mul_sum]
  exact Finset.sum_congr rfl fun b _ => by unfold weight; ring

theorem glued3_sum {ox oy oz : Op} {nx ny nz : ℕ} {bx by_ bz : BC} {x0 x1 y0 y1 z0 z1 : ℝ} (hx : sizeOk nx bx = true) (hy : sizeOk ny by_ = true)
    (hz : sizeOk nz bz = true) (mx : x0 < x1) (my : y0 < y1) (mz : z0 < z1) (f : ℕ → ℕ → ℕ → ℝ) {p : ℝ × ℝ × ℝ}
    (hp : p ∈ dom bx x0 x1 ×ˢ dom by_ y0 y1 ×ˢ dom bz z0 z1) :
    glued3 ox oy oz nx ny nz bx by_ bz x0 x1 y0 y1 z0 z1 f p =
      ∑ a ∈ Finset.range nx, ∑ b ∈ Finset.range ny, ∑ c ∈ Finset.range nz,
        weight ox nx bx x0 x1 a p.1 * (weight oy ny by_ y0 y1 b p.2.1 * weight oz nz bz z0 z1 c p.2.2) * f a b c := by
  unfold glued3
  rw [glued_sum hx mx _ hp.1]
  refine Finset.sum_congr rfl fun a _ => ?_
  rw [glued2_sum hy hz my mz _ hp.2, Finset.mul_sum]
  refine Finset.sum_congr rfl fun b _ => ?_
  rw [Finset.mul_sum]
  exact Finset.sum_congr rfl fun c _ => by unfold weight; ring

theorem glued2_on {ox oy : Op} {nx ny : ℕ} {bx by_ : BC} {x0 x1 y0 y1 x y dx dy : ℝ} {i j : ℕ} (mx : x0 < x1) (my : y0 < y1)
    (hx : On (Axis.init nx bx x0 x1) x i dx) (hy : On (Axis.init ny by_ y0 y1) y j dy) (f : ℕ → ℕ → ℝ) :
    glued2 ox oy nx ny bx by_ x0 x1 y0 y1 f (x, y) = spl2 ox oy (Axis.init nx bx x0 x1) (Axis.init ny by_ y0 y1) i j dx dy f := by
  unfold glued2
  rw [glued_on mx hx]
  simp only [glued_on my hy]
  rfl

theorem glued3_on {ox oy oz : Op} {nx ny nz : ℕ} {bx by_ bz : BC} {x0 x1 y0 y1 z0 z1 x y z dx dy dz : ℝ} {i j k : ℕ} (mx : x0 < x1)
    (my : y0 < y1) (mz : z0 < z1) (hx : On (Axis.init nx bx x0 x1) x i dx) (hy : On (Axis.init ny by_ y0 y1) y j dy)
    (hz : On (Axis.init nz bz z0 z1) z k dz) (f : ℕ → ℕ → ℕ → ℝ) :
    glued3 ox oy oz nx ny nz bx by_ bz x0 x1 y0 y1 z0 z1 f (x, y, z) =
      spl3 ox oy oz (Axis.init nx bx x0 x1) (Axis.init ny by_ y0 y1) (Axis.init nz bz z0 z1) i j k dx dy dz f := by
  unfold glued3
  rw [glued_on mx hx]
  simp only [glued2_on my mz hy hz]
  rfl

/-- The derivative of a product of functions of different variables. -/
theorem prod_deriv {E : Type} [NormedAddCommGroup E] [NormedSpace ℝ E] {u : ℝ → ℝ} {v : E → ℝ} {u' : ℝ} {v' : E →L[ℝ] ℝ} {A : Set ℝ} {B : Set E} {x : ℝ} {y : E}
    (hu : HasDerivWithinAt u u' A x) (hv : HasFDerivWithinAt v v' B y) :
    HasFDerivWithinAt (fun p : ℝ × E => u p.1 * v p.2)
      ((u' * v y) • ContinuousLinearMap.fst ℝ ℝ E + u x • v'.comp (ContinuousLinearMap.snd ℝ ℝ E)) (A ×ˢ B) (x, y) := by
  have h1 : HasFDerivWithinAt (fun p : ℝ × E => u p.1) (u' • ContinuousLinearMap.fst ℝ ℝ E) (A ×ˢ B) (x, y) :=
    HasDerivWithinAt.comp_hasFDerivWithinAt (x, y) hu hasFDerivWithinAt_fst fun p hp => hp.1
  have h2 : HasFDerivWithinAt (fun p : ℝ × E => v p.2) (v'.comp (ContinuousLinearMap.snd ℝ ℝ E)) (A ×ˢ B) (x, y) :=
    HasFDerivWithinAt.comp (x, y) hv hasFDerivWithinAt_snd fun p hp => hp.2
  refine (h1.mul h2).congr_fderiv ?_
  ext <;> simp <;> ring

open Ascot.Smooth

theorem dom_axis (bc : BC) (lo hi : ℝ) : axis bc lo hi = dom bc lo hi := by
  cases bc <;> ext x <;> simp [axis, dom]

theorem weight_deriv {o o' : Op} (ho : Next o o') {n : ℕ} {bc : BC} {lo hi x : ℝ} (hs : sizeOk n bc = true) (hm : lo < hi)
    (hx : x ∈ dom bc lo hi) (a : ℕ) : HasDerivWithinAt (weight o n bc lo hi a) (weight o' n bc lo hi a x) (dom bc lo hi) x :=
  glued_deriv ho hs hm hx _

theorem weight_cont {o : Op} {n : ℕ} {bc : BC} {lo hi : ℝ} (hs : sizeOk n bc = true) (hm : lo < hi) (a : ℕ) :
    ContinuousOn (weight o n bc lo hi a) (dom bc lo hi) := glued_cont hs hm _

theorem glued2_deriv {ox oy ox' oy' : Op} (hox : Next ox ox') (hoy : Next oy oy') {nx ny : ℕ} {bx by_ : BC} {x0 x1 y0 y1 : ℝ}
    (hx : sizeOk nx bx = true) (hy : sizeOk ny by_ = true) (mx : x0 < x1) (my : y0 < y1) (f : ℕ → ℕ → ℝ) {p : ℝ × ℝ}
    (hp : p ∈ dom bx x0 x1 ×ˢ dom by_ y0 y1) :
    HasFDerivWithinAt (glued2 ox oy nx ny bx by_ x0 x1 y0 y1 f)
      (lin2 (glued2 ox' oy nx ny bx by_ x0 x1 y0 y1 f p) (glued2 ox oy' nx ny bx by_ x0 x1 y0 y1 f p))
      (dom bx x0 x1 ×ˢ dom by_ y0 y1) p := by
  have h := HasFDerivWithinAt.fun_sum (u := Finset.range nx) fun a _ => HasFDerivWithinAt.fun_sum (u := Finset.range ny) fun b _ =>
    (prod_deriv (weight_deriv hox hx mx hp.1 a) (weight_deriv hoy hy my hp.2 b).hasFDerivWithinAt).mul_const (f a b)
  refine (h.congr (fun q hq => glued2_sum hx hy mx my f hq) (glued2_sum hx hy mx my f hp)).congr_fderiv ?_
  rw [glued2_sum hx hy mx my f hp, glued2_sum hx hy mx my f hp]
  ext <;> simp [lin2] <;> refine Finset.sum_congr rfl fun a _ => Finset.sum_congr rfl fun b _ => by ring

theorem glued2_cont {ox oy : Op} {nx ny : ℕ} {bx by_ : BC} {x0 x1 y0 y1 : ℝ} (hx : sizeOk nx bx = true) (hy : sizeOk ny by_ = true)
    (mx : x0 < x1) (my : y0 < y1) (f : ℕ → ℕ → ℝ) :
    ContinuousOn (glued2 ox oy nx ny bx by_ x0 x1 y0 y1 f) (dom bx x0 x1 ×ˢ dom by_ y0 y1) := by
  refine ContinuousOn.congr ?_ fun q hq => glued2_sum hx hy mx my f hq
  refine continuousOn_finsetSum _ fun a _ => continuousOn_finsetSum _ fun b _ => ?_
  refine ContinuousOn.mul (ContinuousOn.mul ?_ ?_) continuousOn_const
  · exact (weight_cont hx mx a).comp continuousOn_fst fun p hp => hp.1
  · exact (weight_cont hy my b).comp continuousOn_snd fun p hp => hp.2

theorem glued3_deriv {ox oy oz ox' oy' oz' : Op} (hox : Next ox ox') (hoy : Next oy oy') (hoz : Next oz oz') {nx ny nz : ℕ} {bx by_ bz : BC}
    {x0 x1 y0 y1 z0 z1 : ℝ} (hx : sizeOk nx bx = true) (hy : sizeOk ny by_ = true) (hz : sizeOk nz bz = true) (mx : x0 < x1) (my : y0 < y1)
    (mz : z0 < z1) (f : ℕ → ℕ → ℕ → ℝ) {p : ℝ × ℝ × ℝ} (hp : p ∈ dom bx x0 x1 ×ˢ dom by_ y0 y1 ×ˢ dom bz z0 z1) :
    HasFDerivWithinAt (glued3 ox oy oz nx ny nz bx by_ bz x0 x1 y0 y1 z0 z1 f)
      (lin3 (glued3 ox' oy oz nx ny nz bx by_ bz x0 x1 y0 y1 z0 z1 f p) (glued3 ox oy' oz nx ny nz bx by_ bz x0 x1 y0 y1 z0 z1 f p)
        (glued3 ox oy oz' nx ny nz bx by_ bz x0 x1 y0 y1 z0 z1 f p))
      (dom bx x0 x1 ×ˢ dom by_ y0 y1 ×ˢ dom bz z0 z1) p := by
  have h := HasFDerivWithinAt.fun_sum (u := Finset.range nx) fun a _ => HasFDerivWithinAt.fun_sum (u := Finset.range ny) fun b _ =>
    HasFDerivWithinAt.fun_sum (u := Finset.range nz) fun c _ =>
    (prod_deriv (weight_deriv hox hx mx hp.1 a) (prod_deriv (weight_deriv hoy hy my hp.2.1 b)
      (weight_deriv hoz hz mz hp.2.2 c).hasFDerivWithinAt)).mul_const (f a b c)
  refine (h.congr (fun q hq => glued3_sum hx hy hz mx my mz f hq) (glued3_sum hx hy hz mx my mz f hp)).congr_fderiv ?_
  rw [glued3_sum hx hy hz mx my mz f hp, glued3_sum hx hy hz mx my mz f hp, glued3_sum hx hy hz mx my mz f hp]
  ext <;> simp [lin2, lin3] <;>
    refine Finset.sum_congr rfl fun a _ => Finset.sum_congr rfl fun b _ => Finset.sum_congr rfl fun c _ => by ring

theorem glued3_cont {ox oy oz : Op} {nx ny nz : ℕ} {bx by_ bz : BC} {x0 x1 y0 y1 z0 z1 : ℝ} (hx : sizeOk nx bx = true)
    (hy : sizeOk ny by_ = true) (hz : sizeOk nz bz = true) (mx : x0 < x1) (my : y0 < y1) (mz : z0 < z1) (f : ℕ → ℕ → ℕ → ℝ) :
    ContinuousOn (glued3 ox oy oz nx ny nz bx by_ bz x0 x1 y0 y1 z0 z1 f) (dom bx x0 x1 ×ˢ dom by_ y0 y1 ×ˢ dom bz z0 z1) := by
  refine ContinuousOn.congr ?_ fun q hq => glued3_sum hx hy hz mx my mz f hq
  refine continuousOn_finsetSum _ fun a _ => continuousOn_finsetSum _ fun b _ => continuousOn_finsetSum _ fun c _ => ?_
  refine ContinuousOn.mul (ContinuousOn.mul ?_ (ContinuousOn.mul ?_ ?_)) continuousOn_const
  · exact (weight_cont hx mx a).comp continuousOn_fst fun p hp => hp.1
  · exact (weight_cont hy my b).comp (continuous_fst.comp continuous_snd).continuousOn fun p hp => hp.2.1
  · exact (weight_cont hz mz c).comp (continuous_snd.comp continuous_snd).continuousOn fun p hp => hp.2.2

end Ascot.Interp
