import Verif.Lemmas.Linint
import Mathlib.Algebra.Order.Ring.Rat
import Mathlib.Data.Rat.Floor

/-!
# C35: linear interpolation
-/
set_option linter.unusedSectionVars false
set_option linter.unusedSimpArgs false

namespace Ascot.C35
open Ascot.Linint
variable {K : Type} [Field K] [LinearOrder K] [IsStrictOrderedRing K] [FloorRing K]

/-- In one dimension the value is on the straight line between the two tabulated values at the ends of the
cell; on periodic axes the first value follows the last. -/
theorem value1 {n : Nat} {bc : BC} {min max x d : K} {i : Nat} {c : List K} (hm : min < max) (hc : c.length = n)
    (h : On (Axis.init n bc min max) x i d) :
    eval1D (Axis.init n bc min max) c x = some (some (cell1 n (fun i => c.getD i 0) i d)) := by
  have hi : i < n := h.lt
  have hj : (i + 1) % n < n := Nat.mod_lt _ (by omega)
  unfold eval1D
  rw [locate_on hm h]
  dsimp only
  rw [if_neg (by simp), read_nat (by omega), show (i : Int) + (((i + 1) % n : Nat) - (i : Int)) = ((i + 1) % n : Nat) by omega,
    read_nat (by omega)]
  show some (some _) = _
  rw [line_eq]
  rfl

/-- In two dimensions the value is bilinear.  `partial`: with the boundary conditions of the structure set
by the caller, because the initialisation does not set them. -/
theorem value2_partial {nx ny : Nat} {bx by_ : BC} {x0 x1 y0 y1 x y d e : K} {i j : Nat} {c : List K} (hmx : x0 < x1) (hmy : y0 < y1)
    (hc : c.length = nx * ny) (hx : On (Axis.init nx bx x0 x1) x i d) (hy : On (Axis.init ny by_ y0 y1) y j e) :
    eval2D (Axis.init2D bx nx bx x0 x1) (Axis.init2D by_ ny by_ y0 y1) c x y =
      some (some (cell2 nx ny (fun i j => c.getD (j * nx + i) 0) i j d e)) := by
  have hi : i < nx := hx.lt
  have hj : j < ny := hy.lt
  obtain ⟨i', hi'⟩ : ∃ i', (i + 1) % nx = i' := ⟨_, rfl⟩
  obtain ⟨j', hj'⟩ : ∃ j', (j + 1) % ny = j' := ⟨_, rfl⟩
  have li' : i' < nx := hi' ▸ Nat.mod_lt _ (by omega)
  have lj' : j' < ny := hj' ▸ Nat.mod_lt _ (by omega)
  have bd : ∀ {a b : Nat}, a < nx → b < ny → b * nx + a < c.length := by
    intro a b ha hb
    rw [hc]
    calc b * nx + a < b * nx + nx := by omega
      _ = (b + 1) * nx := by ring
      _ ≤ ny * nx := Nat.mul_le_mul_right _ hb
      _ = nx * ny := Nat.mul_comm _ _
  show eval2D (Axis.init nx bx x0 x1) (Axis.init ny by_ y0 y1) c x y = _
  unfold eval2D
  rw [locate_on hmx hx, locate_on hmy hy, hi', hj']
  dsimp only
  rw [if_neg (by simp)]
  rw [show (j : Int) * nx + i = ((j * nx + i : Nat) : Int) by push_cast; ring]
  rw [show ((j * nx + i : Nat) : Int) + ((i' : Int) - i) = ((j * nx + i' : Nat) : Int) by push_cast; ring]
  rw [show ((j * nx + i : Nat) : Int) + ((j' : Int) - j) * nx = ((j' * nx + i : Nat) : Int) by push_cast; ring]
  rw [show ((j' * nx + i : Nat) : Int) + ((i' : Int) - i) = ((j' * nx + i' : Nat) : Int) by push_cast; ring]
  rw [read_nat (bd hi hj), read_nat (bd li' hj), read_nat (bd hi lj'), read_nat (bd li' lj')]
  show some (some _) = _
  rw [line_eq, line_eq, line_eq]
  unfold cell2 cell1
  rw [hi', hj']

/-- In three dimensions the value is trilinear. -/
theorem value3 {nx ny nz : Nat} {bx by_ bz : BC} {x0 x1 y0 y1 z0 z1 x y z d e f : K} {i j k : Nat} {c : List K}
    (hmx : x0 < x1) (hmy : y0 < y1) (hmz : z0 < z1) (hc : c.length = nx * ny * nz)
    (hx : On (Axis.init nx bx x0 x1) x i d) (hy : On (Axis.init ny by_ y0 y1) y j e) (hz : On (Axis.init nz bz z0 z1) z k f) :
    eval3D (Axis.init nx bx x0 x1) (Axis.init ny by_ y0 y1) (Axis.init nz bz z0 z1) c x y z =
      some (some (cell3 nx ny nz (fun i j k => c.getD (j * nz * nx + k * nx + i) 0) i j k d e f)) := by
  have hi : i < nx := hx.lt
  have hj : j < ny := hy.lt
  have hk : k < nz := hz.lt
  obtain ⟨i', hi'⟩ : ∃ i', (i + 1) % nx = i' := ⟨_, rfl⟩
  obtain ⟨j', hj'⟩ : ∃ j', (j + 1) % ny = j' := ⟨_, rfl⟩
  obtain ⟨k', hk'⟩ : ∃ k', (k + 1) % nz = k' := ⟨_, rfl⟩
  have li' : i' < nx := hi' ▸ Nat.mod_lt _ (by omega)
  have lj' : j' < ny := hj' ▸ Nat.mod_lt _ (by omega)
  have lk' : k' < nz := hk' ▸ Nat.mod_lt _ (by omega)
  have bd : ∀ {a b g : Nat}, a < nx → b < ny → g < nz → b * nz * nx + g * nx + a < c.length := by
    intro a b g ha hb hg
    rw [hc]
    calc b * nz * nx + g * nx + a < b * nz * nx + g * nx + nx := by omega
      _ = b * nz * nx + (g + 1) * nx := by ring
      _ ≤ b * nz * nx + nz * nx := Nat.add_le_add_left (Nat.mul_le_mul_right _ hg) _
      _ = (b + 1) * (nz * nx) := by ring
      _ ≤ ny * (nz * nx) := Nat.mul_le_mul_right _ hb
      _ = nx * ny * nz := by ring
  unfold eval3D
  rw [locate_on hmx hx, locate_on hmy hy, locate_on hmz hz, hi', hj', hk']
  dsimp only
  rw [if_neg (by simp)]
  have idx : ∀ (a b g : Nat), ((b * nz * nx + g * nx + a : Nat) : Int) = (b : Int) * nz * nx + g * nx + a := by
    intro a b g; push_cast; ring
  rw [show (j : Int) * nz * nx + k * nx + i + ((j' : Int) - j) * (nz * nx) + ((k' : Int) - k) * nx + ((i' : Int) - i) =
      ((j' * nz * nx + k' * nx + i' : Nat) : Int) by rw [idx]; ring]
  rw [show (j : Int) * nz * nx + k * nx + i + ((j' : Int) - j) * (nz * nx) + ((k' : Int) - k) * nx =
      ((j' * nz * nx + k' * nx + i : Nat) : Int) by rw [idx]; ring]
  rw [show (j : Int) * nz * nx + k * nx + i + ((j' : Int) - j) * (nz * nx) + ((i' : Int) - i) =
      ((j' * nz * nx + k * nx + i' : Nat) : Int) by rw [idx]; ring]
  rw [show (j : Int) * nz * nx + k * nx + i + ((j' : Int) - j) * (nz * nx) =
      ((j' * nz * nx + k * nx + i : Nat) : Int) by rw [idx]; ring]
  rw [show (j : Int) * nz * nx + k * nx + i + ((k' : Int) - k) * nx + ((i' : Int) - i) =
      ((j * nz * nx + k' * nx + i' : Nat) : Int) by rw [idx]; ring]
  rw [show (j : Int) * nz * nx + k * nx + i + ((k' : Int) - k) * nx =
      ((j * nz * nx + k' * nx + i : Nat) : Int) by rw [idx]; ring]
  rw [show (j : Int) * nz * nx + k * nx + i + ((i' : Int) - i) =
      ((j * nz * nx + k * nx + i' : Nat) : Int) by rw [idx]; ring]
  rw [← idx i j k]
  rw [read_nat (bd hi hj hk), read_nat (bd li' hj hk), read_nat (bd hi lj' hk), read_nat (bd li' lj' hk),
    read_nat (bd hi hj lk'), read_nat (bd li' hj lk'), read_nat (bd hi lj' lk'), read_nat (bd li' lj' lk')]
  show some (some _) = _
  simp only [line_eq]
  unfold cell3 cell1
  rw [hi', hj', hk']

/-- The cells cover the domain: every coordinate of a periodic axis and every one from the first point up to,
but not including, the last point of another axis. -/
theorem domain_partial {n : Nat} {bc : BC} {min max x : K} (hn : 1 ≤ n) (hb : bc = .natural → 2 ≤ n) (hm : min < max)
    (hx : bc = .natural → min ≤ x ∧ x < max) : ∃ i d, On (Axis.init n bc min max) x i d := covers hn hb hm hx

/-- Grid points are the beginnings of cells. -/
theorem node {n : Nat} {bc : BC} {min max : K} {i : Nat} (hi : i < n) (hb : bc = .natural → i + 1 < n) :
    On (Axis.init n bc min max) (min + i * gridOf n bc min max) i 0 :=
  ⟨hi, hb, le_rfl, by norm_num, 0, fun _ => rfl, by simp⟩

/-- At the grid points the tabulated value is returned, all but the last point of a non-periodic axis. -/
theorem nodes1_partial {n : Nat} {bc : BC} {min max : K} {i : Nat} {c : List K} (hm : min < max) (hc : c.length = n)
    (hi : i < n) (hb : bc = .natural → i + 1 < n) :
    eval1D (Axis.init n bc min max) c (min + i * gridOf n bc min max) = some c[i]? := by
  rw [value1 hm hc (node hi hb)]
  unfold cell1
  rw [line_zero]
  dsimp only
  rw [List.getD_eq_getElem?_getD, List.getElem?_eq_getElem (by omega)]
  rfl

theorem nodes3_partial {nx ny nz : Nat} {bx by_ bz : BC} {x0 x1 y0 y1 z0 z1 : K} {i j k : Nat} {c : List K}
    (hmx : x0 < x1) (hmy : y0 < y1) (hmz : z0 < z1) (hc : c.length = nx * ny * nz)
    (hi : i < nx) (hj : j < ny) (hk : k < nz) (hbi : bx = .natural → i + 1 < nx) (hbj : by_ = .natural → j + 1 < ny)
    (hbk : bz = .natural → k + 1 < nz) :
    eval3D (Axis.init nx bx x0 x1) (Axis.init ny by_ y0 y1) (Axis.init nz bz z0 z1) c (x0 + i * gridOf nx bx x0 x1)
      (y0 + j * gridOf ny by_ y0 y1) (z0 + k * gridOf nz bz z0 z1) = some (some (c.getD (j * nz * nx + k * nx + i) 0)) := by
  rw [value3 hmx hmy hmz hc (node hi hbi) (node hj hbj) (node hk hbk)]
  unfold cell3 cell1
  simp only [line_zero]

/-- Interpolated values stay within any bounds of the tabulated values of the cell. -/
theorem bounds1 {n : Nat} {t : Nat → K} {i : Nat} {d lo hi : K} (d0 : 0 ≤ d) (d1 : d < 1)
    (h0 : lo ≤ t i ∧ t i ≤ hi) (h1 : lo ≤ t ((i + 1) % n) ∧ t ((i + 1) % n) ≤ hi) :
    lo ≤ cell1 n t i d ∧ cell1 n t i d ≤ hi := line_bounds d0 d1 h0 h1

theorem bounds2 {nx ny : Nat} {t : Nat → Nat → K} {i j : Nat} {d e lo hi : K} (d0 : 0 ≤ d) (d1 : d < 1) (e0 : 0 ≤ e) (e1 : e < 1)
    (h : ∀ a b, (a = i ∨ a = (i + 1) % nx) → (b = j ∨ b = (j + 1) % ny) → lo ≤ t a b ∧ t a b ≤ hi) :
    lo ≤ cell2 nx ny t i j d e ∧ cell2 nx ny t i j d e ≤ hi :=
  bounds1 e0 e1 (bounds1 d0 d1 (h _ _ (.inl rfl) (.inl rfl)) (h _ _ (.inr rfl) (.inl rfl)))
    (bounds1 d0 d1 (h _ _ (.inl rfl) (.inr rfl)) (h _ _ (.inr rfl) (.inr rfl)))

theorem bounds3 {nx ny nz : Nat} {t : Nat → Nat → Nat → K} {i j k : Nat} {d e f lo hi : K} (d0 : 0 ≤ d) (d1 : d < 1)
    (e0 : 0 ≤ e) (e1 : e < 1) (f0 : 0 ≤ f) (f1 : f < 1)
    (h : ∀ a b c, (a = i ∨ a = (i + 1) % nx) → (b = j ∨ b = (j + 1) % ny) → (c = k ∨ c = (k + 1) % nz) →
      lo ≤ t a b c ∧ t a b c ≤ hi) :
    lo ≤ cell3 nx ny nz t i j k d e f ∧ cell3 nx ny nz t i j k d e f ≤ hi :=
  bounds1 e0 e1
    (bounds1 f0 f1 (bounds1 d0 d1 (h _ _ _ (.inl rfl) (.inl rfl) (.inl rfl)) (h _ _ _ (.inr rfl) (.inl rfl) (.inl rfl)))
      (bounds1 d0 d1 (h _ _ _ (.inl rfl) (.inl rfl) (.inr rfl)) (h _ _ _ (.inr rfl) (.inl rfl) (.inr rfl))))
    (bounds1 f0 f1 (bounds1 d0 d1 (h _ _ _ (.inl rfl) (.inr rfl) (.inl rfl)) (h _ _ _ (.inr rfl) (.inr rfl) (.inl rfl)))
      (bounds1 d0 d1 (h _ _ _ (.inl rfl) (.inr rfl) (.inr rfl)) (h _ _ _ (.inr rfl) (.inr rfl) (.inr rfl))))

/-- Whole periods do not matter, in one dimension and for each axis in three. -/
theorem periodic1 {n : Nat} {min max : K} {c : List K} (hn : 1 ≤ n) (hm : min < max) (hc : c.length = n) (x : K) (m : Int) :
    eval1D (Axis.init n .periodic min max) c (x + m * (max - min)) = eval1D (Axis.init n .periodic min max) c x := by
  obtain ⟨i, d, h⟩ := covers (x := x) (bc := .periodic) hn (by simp) hm (by simp)
  rw [value1 hm hc h]
  obtain ⟨a, b, d0, d1, k, hk, hx⟩ := h
  refine value1 hm hc ⟨a, b, d0, d1, k + m, by simp, ?_⟩
  rw [hx]
  push_cast
  ring

theorem periodic3 {nx ny nz : Nat} {bx bz : BC} {x0 x1 y0 y1 z0 z1 x z : K} {c : List K}
    (hny : 1 ≤ ny) (hmy : y0 < y1) (y : K) (m : Int) :
    eval3D (Axis.init nx bx x0 x1) (Axis.init ny .periodic y0 y1) (Axis.init nz bz z0 z1) c x (y + m * (y1 - y0)) z =
      eval3D (Axis.init nx bx x0 x1) (Axis.init ny .periodic y0 y1) (Axis.init nz bz z0 z1) c x y z := by
  obtain ⟨i, d, h⟩ := covers (x := y) (bc := .periodic) hny (by simp) hmy (by simp)
  have h' : On (Axis.init ny .periodic y0 y1) (y + m * (y1 - y0)) i d := by
    obtain ⟨a, b, d0, d1, k, hk, hx⟩ := h
    refine ⟨a, b, d0, d1, k + m, by simp, ?_⟩
    rw [hx]
    push_cast
    ring
  unfold eval3D
  rw [locate_on hmy h, locate_on hmy h']

/-- Coordinates outside a non-periodic grid give an error and no value. -/
theorem outside1 {n : Nat} {min max x : K} {c : List K} (h : x < min ∨ max < x) :
    eval1D (Axis.init n .natural min max) c x = some none := by
  unfold eval1D
  rw [if_pos (locate_outside h)]

theorem outside3 {nx ny nz : Nat} {bx by_ bz : BC} {x0 x1 y0 y1 z0 z1 x y z : K} {c : List K}
    (h : (bx = .natural ∧ (x < x0 ∨ x1 < x)) ∨ (by_ = .natural ∧ (y < y0 ∨ y1 < y)) ∨ (bz = .natural ∧ (z < z0 ∨ z1 < z))) :
    eval3D (Axis.init nx bx x0 x1) (Axis.init ny by_ y0 y1) (Axis.init nz bz z0 z1) c x y z = some none := by
  unfold eval3D
  rcases h with ⟨rfl, h⟩ | ⟨rfl, h⟩ | ⟨rfl, h⟩
  all_goals simp [locate_outside h]

/-- The last point of a non-periodic axis is accepted, and an element after the end of the table is read. -/
theorem upper_end_fails {n : Nat} {min max : K} {c : List K} (hn : 2 ≤ n) (hm : min < max) (hc : c.length = n) :
    eval1D (Axis.init n .natural min max) c max = none := by
  have hg := grid_pos (K := K) (bc := .natural) (n := n) (by omega) (fun _ => hn) hm
  have hL := grid_mul (K := K) (min := min) (max := max) (bc := .natural) (n := n) (by omega) (fun _ => hn)
  rw [if_pos rfl, mul_one] at hL
  have hq : (max - min) / gridOf n .natural min max = ((n - 1 : Nat) : K) + 0 := by
    rw [div_eq_iff hg.ne', add_zero, Nat.cast_sub (by omega), Nat.cast_one, mul_comm]
    exact hL
  have hw : wrap (Axis.init n .natural min max) max = max := rfl
  have hl : (locate (Axis.init n .natural min max) max).err = false ∧ (locate (Axis.init n .natural min max) max).i = (n - 1 : Nat) ∧
      (locate (Axis.init n .natural min max) max).next = 1 := by
    unfold locate
    rw [hw]
    dsimp only [Axis.init]
    rw [hq, toInt_cell le_rfl (by norm_num), if_neg (by simp), if_neg (by simp [hm.le])]
    exact ⟨rfl, rfl, rfl⟩
  obtain ⟨he, hi, hn'⟩ := hl
  unfold eval1D
  dsimp only
  rw [if_neg (by simp [he]), hi, hn', read_nat (by omega)]
  have : Linint.read c (((n - 1 : Nat) : Int) + 1) = none := by
    unfold Linint.read
    rw [if_pos (by omega), List.getElem?_eq_none (by omega)]
  rw [this]
  rfl

/-- In three dimensions the same happens at the upper end of the first axis. -/
theorem upper_end3_fails : eval3D (Axis.init 2 .natural 0 1) (Axis.init 2 .natural 0 1) (Axis.init 2 .natural 0 1)
    [1, 2, 3, 4, 5, 6, 7, 8] (9 / 10 : ℚ) 0 0 = some (some (19 / 10)) ∧
    eval3D (Axis.init 2 .natural 0 1) (Axis.init 2 .natural 0 1) (Axis.init 2 .natural 0 1)
    [1, 2, 3, 4, 5, 6, 7, 8] (1 : ℚ) 0 0 = none := by decide +kernel

/-- After the two-dimensional initialisation the boundary condition is the one the memory had before: here
an axis asked to be periodic rejects coordinates, and one asked not to be periodic accepts all. -/
theorem init2D_fails : eval2D (Axis.init2D .natural 2 .periodic 0 1) (Axis.init2D .natural 2 .natural 0 1) [1, 2, 3, 4] (3 / 2 : ℚ) 0 = some none ∧
    eval2D (Axis.init2D .periodic 2 .natural 0 1) (Axis.init2D .natural 2 .natural 0 1) [1, 2, 3, 4] (3 / 2 : ℚ) 0 = some (some (3 / 2)) := by
  decide +kernel

/-! The hypotheses hold for ordinary grids. -/
example : On (Axis.init 3 .periodic 0 6) (-1 : ℚ) 2 (1 / 2) := ⟨by decide, by simp, by norm_num, by norm_num, -1, by simp, by simp only [gridOf]; rw [if_neg (by simp)]; norm_num⟩
example : eval1D (Axis.init 3 .periodic 0 6) [10, 20, 40] (-1 : ℚ) = some (some 25) := by decide +kernel
example : eval1D (Axis.init 3 .natural 0 6) [10, 20, 40] (4 : ℚ) = some (some (80 / 3)) := by decide +kernel
example : eval2D (Axis.init2D .natural 2 .natural 0 1) (Axis.init2D .periodic 3 .periodic 0 3) [0, 1, 2, 3, 4, 5] (1 / 2 : ℚ) (-1 / 2) = some (some (5 / 2)) := by decide +kernel
example : eval3D (Axis.init 2 .natural 0 1) (Axis.init 2 .periodic 0 2) (Axis.init 2 .natural 0 1)
    [1, 2, 3, 4, 5, 6, 7, 8] (1 / 2 : ℚ) (3 / 2) (1 / 2) = some (some (9 / 2)) := by decide +kernel

end Ascot.C35
