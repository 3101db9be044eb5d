import Verif.Spec.Tensor
import Verif.Model.BfieldFile
import Verif.Props.C36_C39_Spline
set_option linter.unusedSectionVars false
set_option linter.unusedSimpArgs false

/-!
# The splines of the magnetic fields
-/
namespace Ascot.Tensor
open Ascot.Spline Ascot.BfieldFile
open Ascot.Linint (BC Axis gridOf)
open Ascot.Interp (coeff2 eval2f eval2df coeff3 eval3f eval3df On spl)

theorem spacing_eq (n : ℕ) (bc : BC) (lo hi : ℝ) : gridOf n bc lo hi = spacing n bc lo hi := by
  cases bc <;> simp [gridOf, spacing]

theorem at_on {n : ℕ} {lo hi x d : ℝ} {i : ℕ} (h : At n lo hi x i d) : On (Axis.init n .natural lo hi) x i d := by
  obtain ⟨h1, h2, h3, h4, h5⟩ := h
  exact ⟨by simp [Axis.init]; omega, fun _ => h1, h2, h3, fun e => ⟨rfl, h4 e⟩, 0, fun _ => rfl, by simp [Axis.init, gridOf, h5]⟩

theorem atPeriodic_on {n : ℕ} {lo hi x d : ℝ} {i : ℕ} (h : AtPeriodic n lo hi x i d) : On (Axis.init n .periodic lo hi) x i d := by
  obtain ⟨h1, h2, h3, k, h4⟩ := h
  exact ⟨h1, by simp [Axis.init], h2, h3.le, fun e => absurd e h3.ne, k, by simp [Axis.init], by simp [Axis.init, gridOf, h4]⟩

theorem isSpline_congr {n : ℕ} {bc : BC} {f f' : ℕ → ℝ} {q : ℕ → Cubic ℝ} (e : ∀ i < n, f i = f' i) (h : IsSpline n bc f q) :
    IsSpline n bc f' q := by
  cases bc with
  | natural =>
    obtain ⟨a, b, c, d, x, y⟩ := h
    exact ⟨fun i hi => by rw [a i hi, e i (by omega)], fun i hi => by rw [b i hi, e _ hi], c, d, x, y⟩
  | periodic =>
    obtain ⟨a, b, c, d⟩ := h
    exact ⟨fun i hi => by rw [a i hi, e i (by omega)], fun i hi => by rw [b i hi, e _ (Nat.mod_lt _ (by omega))], c, d⟩

/-- The sizes for which a spline is defined. -/
def Enough (n : ℕ) (bc : BC) : Prop := (bc = .natural → 2 ≤ n) ∧ (bc = .periodic → 3 ≤ n)

theorem enough_natural {n : ℕ} (h : 2 ≤ n) : Enough n .natural := ⟨fun _ => h, by simp⟩
theorem enough_periodic {n : ℕ} (h : 3 ≤ n) : Enough n .periodic := ⟨by simp, fun _ => h⟩

theorem exists_value2 {nx ny : ℕ} {bx by_ : BC} (hx : Enough nx bx) (hy : Enough ny by_) (gx gy : ℝ) (f : ℕ → ℕ → ℝ) (i j : ℕ) (dx dy : ℝ)
    (ox oy : Op) : ∃ v, IsValue2 nx ny bx by_ gx gy f i j dx dy ox oy v := by
  have h1 : ∀ i, ∃ q, IsSpline ny by_ (fun j => f i j) q := fun i => C71.exists_spline hy _
  choose qy hqy using h1
  obtain ⟨qx, hqx⟩ := C71.exists_spline hx fun i => (qy i j).op oy gy dy
  exact ⟨_, qy, qx, fun i _ => hqy i, hqx, rfl⟩

theorem exists_value3 {nx ny nz : ℕ} {bx by_ bz : BC} (hx : Enough nx bx) (hy : Enough ny by_) (hz : Enough nz bz) (gx gy gz : ℝ)
    (f : ℕ → ℕ → ℕ → ℝ) (i j k : ℕ) (dx dy dz : ℝ) (ox oy oz : Op) :
    ∃ v, IsValue3 nx ny nz bx by_ bz gx gy gz f i j k dx dy dz ox oy oz v := by
  have h1 : ∀ i j, ∃ q, IsSpline nz bz (fun k => f i j k) q := fun i j => C71.exists_spline hz _
  choose qz hqz using h1
  have h2 : ∀ i, ∃ q, IsSpline ny by_ (fun j => (qz i j k).op oz gz dz) q := fun i => C71.exists_spline hy _
  choose qy hqy using h2
  obtain ⟨qx, hqx⟩ := C71.exists_spline hx fun i => (qy i j).op oy gy dy
  exact ⟨_, qz, qy, qx, fun i _ j _ => hqz i j, fun i _ => hqy i, hqx, rfl⟩

/-- The spline goes through the table. -/
theorem value2_grid {nx ny : ℕ} {bx by_ : BC} {gx gy : ℝ} {f : ℕ → ℕ → ℝ} {i j : ℕ} {v : ℝ} (hi : i < nx) (hj : j < ny)
    (li : bx = .natural → i + 1 < nx) (lj : by_ = .natural → j + 1 < ny)
    (h : IsValue2 nx ny bx by_ gx gy f i j 0 0 .val .val v) : v = f i j := by
  have key : ∀ {n : ℕ} {bc : BC} {f : ℕ → ℝ} {q : ℕ → Cubic ℝ} {i : ℕ}, i < n → (bc = .natural → i + 1 < n) → IsSpline n bc f q →
      (q i).val 0 = f i := by
    intro n bc f q i h1 h2 h3
    cases bc with
    | natural => exact h3.left i (h2 rfl)
    | periodic => exact h3.left i h1
  obtain ⟨qy, qx, h1, h2, rfl⟩ := h
  simp only [Cubic.op] at h2 ⊢
  rw [key hi li h2, key hj lj (h1 i hi)]

theorem value3_grid {nx ny nz : ℕ} {bx by_ bz : BC} {gx gy gz : ℝ} {f : ℕ → ℕ → ℕ → ℝ} {i j k : ℕ} {v : ℝ} (hi : i < nx) (hj : j < ny)
    (hk : k < nz) (li : bx = .natural → i + 1 < nx) (lj : by_ = .natural → j + 1 < ny) (lk : bz = .natural → k + 1 < nz)
    (h : IsValue3 nx ny nz bx by_ bz gx gy gz f i j k 0 0 0 .val .val .val v) : v = f i j k := by
  have key : ∀ {n : ℕ} {bc : BC} {f : ℕ → ℝ} {q : ℕ → Cubic ℝ} {i : ℕ}, i < n → (bc = .natural → i + 1 < n) → IsSpline n bc f q →
      (q i).val 0 = f i := by
    intro n bc f q i h1 h2 h3
    cases bc with
    | natural => exact h3.left i (h2 rfl)
    | periodic => exact h3.left i h1
  obtain ⟨qz, qy, qx, h1, h2, h3, rfl⟩ := h
  simp only [Cubic.op] at h2 h3 ⊢
  rw [key hi li h3, key hj lj (h2 i hi), key hk lk (h1 i hi j hj)]

/-- The value is determined by the table. -/
theorem value2_unique {nx ny : ℕ} {bx by_ : BC} (hx : Enough nx bx) (hy : Enough ny by_) {gx gy : ℝ} (gx0 : gx ≠ 0) (gy0 : gy ≠ 0)
    {f : ℕ → ℕ → ℝ} {i j : ℕ} (hi : i < cells nx bx) (hj : j < cells ny by_) {dx dy : ℝ} {ox oy : Op} {v w : ℝ}
    (h : IsValue2 nx ny bx by_ gx gy f i j dx dy ox oy v) (h' : IsValue2 nx ny bx by_ gx gy f i j dx dy ox oy w) : v = w := by
  have key : ∀ {v}, IsValue2 nx ny bx by_ gx gy f i j dx dy ox oy v →
      v = spl ox nx bx gx i dx fun i => spl oy ny by_ gy j dy fun j => f i j := by
    rintro v ⟨qy, qx, h1, h2, rfl⟩
    exact C71.spl_spline gx0 (C38.size_ok.2 hx) hi dx h2 fun i hi => C71.spl_spline gy0 (C38.size_ok.2 hy) hj dy (h1 i hi) fun _ _ => rfl
  rw [key h, key h']

theorem value3_unique {nx ny nz : ℕ} {bx by_ bz : BC} (hx : Enough nx bx) (hy : Enough ny by_) (hz : Enough nz bz) {gx gy gz : ℝ}
    (gx0 : gx ≠ 0) (gy0 : gy ≠ 0) (gz0 : gz ≠ 0) {f : ℕ → ℕ → ℕ → ℝ} {i j k : ℕ} (hi : i < cells nx bx) (hj : j < cells ny by_)
    (hk : k < cells nz bz) {dx dy dz : ℝ} {ox oy oz : Op} {v w : ℝ}
    (h : IsValue3 nx ny nz bx by_ bz gx gy gz f i j k dx dy dz ox oy oz v)
    (h' : IsValue3 nx ny nz bx by_ bz gx gy gz f i j k dx dy dz ox oy oz w) : v = w := by
  have key : ∀ {v}, IsValue3 nx ny nz bx by_ bz gx gy gz f i j k dx dy dz ox oy oz v →
      v = spl ox nx bx gx i dx fun i => spl oy ny by_ gy j dy fun j => spl oz nz bz gz k dz fun k => f i j k := by
    rintro v ⟨qz, qy, qx, h1, h2, h3, rfl⟩
    exact C71.spl_spline gx0 (C38.size_ok.2 hx) hi dx h3 fun i hi => C71.spl_spline gy0 (C38.size_ok.2 hy) hj dy (h2 i hi) fun j hj =>
      C71.spl_spline gz0 (C38.size_ok.2 hz) hk dz (h1 i hi j hj) fun _ _ => rfl
  rw [key h, key h']

/-- What an evaluation of a two-dimensional spline gives. -/
theorem spline2_spec {nr nz : ℕ} {r0 r1 z0 z1 : ℝ} {t : ℕ → ℝ} (f : ℕ → ℕ → ℝ) (hr : 2 ≤ nr) (hz : 2 ≤ nz) (mr : r0 < r1) (mz : z0 < z1)
    (ht : ∀ i < nr, ∀ j < nz, t (j * nr + i) = f i j) :
    ∃ s, spline2 t nr nz r0 r1 z0 z1 = some s ∧
      (∀ r z i j d e, At nr r0 r1 r i d → At nz z0 z1 z j e →
        ∃ v : Op → Op → ℝ, s.f r z = some (v .val .val) ∧
          s.df r z = some ⟨v .val .val, v .der .val, v .val .der, v .der2 .val, v .val .der2, v .der .der⟩ ∧
          ∀ ox oy, IsValue2 nr nz .natural .natural (spacing nr .natural r0 r1) (spacing nz .natural z0 z1) f i j d e ox oy (v ox oy)) ∧
      ∀ r z, (r < r0 ∨ r1 < r) ∨ (z < z0 ∨ z1 < z) → s.f r z = none ∧ s.df r z = none := by
  obtain ⟨c, hc, -⟩ := C39.safe_2D (enough_natural hr) (enough_natural hz) mr mz (fun i j => t (j * nr + i)) 0 0
  refine ⟨_, by unfold spline2; rw [hc]; rfl, ?_, ?_⟩
  · intro r z i j d e hi hj
    obtain ⟨c', hc', v, h1, h2, h3, -⟩ := C71.spline_of_splines_2D (enough_natural hr) (enough_natural hz) mr mz (fun i j => t (j * nr + i))
      (at_on hi) (at_on hj)
    obtain rfl : c = c' := Option.some.inj (hc.symm.trans hc')
    refine ⟨fun a b => v (a, b), ?_, ?_, ?_⟩
    · dsimp only; rw [h1]; rfl
    · dsimp only; rw [h2]; rfl
    · intro ox oy
      obtain ⟨w, qy, qx, a1, a2, a3⟩ := exists_value2 (enough_natural hr) (enough_natural hz) (spacing nr .natural r0 r1)
        (spacing nz .natural z0 z1) f i j d e ox oy
      refine ⟨qy, qx, a1, a2, ?_⟩
      dsimp only
      rw [h3 ox oy qy (fun i hi => isSpline_congr (fun j hj => (ht i hi j hj).symm) (a1 i hi)) qx
        (by rw [spacing_eq]; exact a2), spacing_eq]
  · intro r z ho
    obtain ⟨c', hc', -, -, h3, h4⟩ := C39.safe_2D (enough_natural hr) (enough_natural hz) mr mz (fun i j => t (j * nr + i)) r z
    obtain rfl : c = c' := Option.some.inj (hc.symm.trans hc')
    have ho' : C39.Outside .natural r0 r1 r ∨ C39.Outside .natural z0 z1 z := ho.imp (fun h => ⟨rfl, h⟩) fun h => ⟨rfl, h⟩
    dsimp only
    rw [h3.2 ho', h4.2 ho']
    exact ⟨rfl, rfl⟩

/-- What an evaluation of a three-dimensional spline gives. -/
theorem spline3_spec {nr np nz : ℕ} {r0 r1 p0 p1 z0 z1 : ℝ} {t : ℕ → ℝ} (f : ℕ → ℕ → ℕ → ℝ) (hr : 2 ≤ nr) (hp : 3 ≤ np) (hz : 2 ≤ nz)
    (mr : r0 < r1) (mp : p0 < p1) (mz : z0 < z1) (ht : ∀ i < nr, ∀ j < np, ∀ k < nz, t (k * np * nr + j * nr + i) = f i j k) :
    ∃ s, spline3 t nr np nz r0 r1 p0 p1 z0 z1 = some s ∧
      (∀ r p z i j k d e h, At nr r0 r1 r i d → AtPeriodic np p0 p1 p j e → At nz z0 z1 z k h →
        ∃ v : Op → Op → Op → ℝ, s.f r p z = some (v .val .val .val) ∧
          s.df r p z = some ⟨v .val .val .val, v .der .val .val, v .val .der .val, v .val .val .der⟩ ∧
          ∀ ox oy oz, IsValue3 nr np nz .natural .periodic .natural (spacing nr .natural r0 r1) (spacing np .periodic p0 p1)
            (spacing nz .natural z0 z1) f i j k d e h ox oy oz (v ox oy oz)) ∧
      ∀ r p z, (r < r0 ∨ r1 < r) ∨ (z < z0 ∨ z1 < z) → s.f r p z = none ∧ s.df r p z = none := by
  obtain ⟨c, hc, -⟩ := C39.safe_3D (enough_natural hr) (enough_periodic hp) (enough_natural hz) mr mp mz
    (fun i j k => t (k * np * nr + j * nr + i)) 0 0 0
  refine ⟨_, by unfold spline3; rw [hc]; rfl, ?_, ?_⟩
  · intro r p z i j k d e h hi hj hk
    obtain ⟨c', hc', v, h1, h2, h3, -⟩ := C71.spline_of_splines_3D (enough_natural hr) (enough_periodic hp) (enough_natural hz) mr mp mz
      (fun i j k => t (k * np * nr + j * nr + i)) (at_on hi) (atPeriodic_on hj) (at_on hk)
    obtain rfl : c = c' := Option.some.inj (hc.symm.trans hc')
    refine ⟨fun a b c => v (a, b, c), ?_, ?_, ?_⟩
    · dsimp only; rw [h1]; rfl
    · dsimp only; rw [h2]; rfl
    · intro ox oy oz
      obtain ⟨w, qz, qy, qx, a1, a2, a3, a4⟩ := exists_value3 (enough_natural hr) (enough_periodic hp) (enough_natural hz)
        (spacing nr .natural r0 r1) (spacing np .periodic p0 p1) (spacing nz .natural z0 z1) f i j k d e h ox oy oz
      refine ⟨qz, qy, qx, a1, a2, a3, ?_⟩
      dsimp only
      rw [h3 ox oy oz qz (fun i hi j hj => isSpline_congr (fun k hk => (ht i hi j hj k hk).symm) (a1 i hi j hj)) qy
        (by rw [spacing_eq]; exact a2) qx (by rw [spacing_eq]; exact a3), spacing_eq]
  · intro r p z ho
    obtain ⟨c', hc', -, -, h3, h4⟩ := C39.safe_3D (enough_natural hr) (enough_periodic hp) (enough_natural hz) mr mp mz
      (fun i j k => t (k * np * nr + j * nr + i)) r p z
    obtain rfl : c = c' := Option.some.inj (hc.symm.trans hc')
    have ho' : C39.Outside .natural r0 r1 r ∨ C39.Outside .periodic p0 p1 p ∨ C39.Outside .natural z0 z1 z :=
      ho.elim (fun h => .inl ⟨rfl, h⟩) fun h => .inr (.inr ⟨rfl, h⟩)
    dsimp only
    rw [h3.2 ho', h4.2 ho']
    exact ⟨rfl, rfl⟩

end Ascot.Tensor
