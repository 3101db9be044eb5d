import Verif.Lemmas.TriInCube

set_option linter.unusedSectionVars false
set_option linter.unusedSimpArgs false

namespace Ascot.Wall3D
variable {K : Type} [Field K] [LinearOrder K] [IsStrictOrderedRing K]

theorem box_convex {lo hi a b : V3 K} {t : K} (ha : InBox lo hi a) (hb : InBox lo hi b) (t0 : 0 ≤ t) (t1 : t ≤ 1) :
    InBox lo hi (pointAt a b t) := by
  obtain ⟨a1, a2, a3, a4, a5, a6⟩ := ha
  obtain ⟨b1, b2, b3, b4, b5, b6⟩ := hb
  constructor <;> dsimp only [pointAt] <;> nlinarith

/-- Points of the plane of a triangle have coordinates with respect to its edges. -/
theorem plane_coords {t1 t2 t3 x : V3 K} (hA : (normalOf t1 t2 t3).dot (normalOf t1 t2 t3) ≠ 0)
    (hx : (normalOf t1 t2 t3).dot (x.sub t1) = 0) :
    ∃ u v : K, x = ⟨t1.x + u * (t2.x - t1.x) + v * (t3.x - t1.x), t1.y + u * (t2.y - t1.y) + v * (t3.y - t1.y),
      t1.z + u * (t2.z - t1.z) + v * (t3.z - t1.z)⟩ := by
  obtain ⟨S, hS⟩ : ∃ S, (normalOf t1 t2 t3).dot (normalOf t1 t2 t3) = S := ⟨_, rfl⟩
  rw [hS] at hA
  refine ⟨((x.sub t1).cross (t3.sub t1)).dot (normalOf t1 t2 t3) / S,
    ((t2.sub t1).cross (x.sub t1)).dot (normalOf t1 t2 t3) / S, ?_⟩
  have hx' := hx
  have hS' := hS
  obtain ⟨a, ha⟩ : ∃ a, t2.sub t1 = a := ⟨_, rfl⟩
  obtain ⟨b, hb⟩ : ∃ b, t3.sub t1 = b := ⟨_, rfl⟩
  obtain ⟨c, hc⟩ : ∃ c, x.sub t1 = c := ⟨_, rfl⟩
  have a1 : t2.x - t1.x = a.x := by rw [← ha]; rfl
  have a2 : t2.y - t1.y = a.y := by rw [← ha]; rfl
  have a3 : t2.z - t1.z = a.z := by rw [← ha]; rfl
  have b1 : t3.x - t1.x = b.x := by rw [← hb]; rfl
  have b2 : t3.y - t1.y = b.y := by rw [← hb]; rfl
  have b3 : t3.z - t1.z = b.z := by rw [← hb]; rfl
  have c1 : x.x = t1.x + c.x := by rw [← hc]; unfold V3.sub; ring
  have c2 : x.y = t1.y + c.y := by rw [← hc]; unfold V3.sub; ring
  have c3 : x.z = t1.z + c.z := by rw [← hc]; unfold V3.sub; ring
  unfold normalOf at hx' hS' ⊢
  simp only [ha, hb, hc] at hx' hS' ⊢
  unfold V3.cross V3.dot at hx' hS' ⊢
  dsimp only at hx' hS' ⊢
  ext <;> dsimp only
  · rw [a1, b1, c1]; field_simp
    linear_combination c.x * -hS' + (a.y * b.z - a.z * b.y) * hx'
  · rw [a2, b2, c2]; field_simp
    linear_combination c.y * -hS' + (a.z * b.x - a.x * b.z) * hx'
  · rw [a3, b3, c3]; field_simp
    linear_combination c.z * -hS' + (a.x * b.y - a.y * b.x) * hx'

/-- If no edge of the triangle meets the box, the plane of the triangle meets the box only inside
the triangle. -/
theorem plane_in_tri {t1 t2 t3 lo hi P X : V3 K} (hA : (normalOf t1 t2 t3).dot (normalOf t1 t2 t3) ≠ 0)
    (hP : InTri t1 t2 t3 P) (hPb : InBox lo hi P) (hXb : InBox lo hi X)
    (hX : (normalOf t1 t2 t3).dot (X.sub t1) = 0)
    (h12 : ∀ s, 0 ≤ s → s ≤ 1 → ¬ InBox lo hi (pointAt t1 t2 s))
    (h32 : ∀ s, 0 ≤ s → s ≤ 1 → ¬ InBox lo hi (pointAt t3 t2 s))
    (h13 : ∀ s, 0 ≤ s → s ≤ 1 → ¬ InBox lo hi (pointAt t1 t3 s)) : InTri t1 t2 t3 X := by
  obtain ⟨u, v, hXe⟩ := plane_coords hA hX
  obtain ⟨u', v', hu', hv', huv', hPe⟩ := hP
  by_cases hall : 0 ≤ u ∧ 0 ≤ v ∧ u + v ≤ 1
  · exact ⟨u, v, hall.1, hall.2.1, hall.2.2, hXe⟩
  exfalso
  obtain ⟨t, t0, t1', hge, c, hc, hc0, hcz⟩ := enter [(u, u'), (v, v'), (1 - u - v, 1 - u' - v')]
    (by
      intro c hc
      simp only [List.mem_cons, List.not_mem_nil, or_false] at hc
      rcases hc with rfl | rfl | rfl <;> dsimp only <;> linarith)
    (by
      by_contra hcon
      push_neg at hcon
      simp only [List.mem_cons, List.not_mem_nil, or_false, forall_eq_or_imp, forall_eq] at hcon
      exact hall ⟨hcon.1, hcon.2.1, by linarith [hcon.2.2]⟩)
  simp only [List.mem_cons, List.not_mem_nil, or_false, forall_eq_or_imp, forall_eq] at hge
  obtain ⟨g1, g2, g3⟩ := hge
  have hY := box_convex hXb hPb t0 t1'
  simp only [List.mem_cons, List.not_mem_nil, or_false] at hc
  rcases hc with rfl | rfl | rfl <;> dsimp only at hcz
  · apply h13 (v + t * (v' - v)) g2 (by linarith)
    convert hY using 1
    rw [hXe, hPe]
    ext <;> dsimp only [pointAt]
    · linear_combination -(t2.x - t1.x) * hcz
    · linear_combination -(t2.y - t1.y) * hcz
    · linear_combination -(t2.z - t1.z) * hcz
  · apply h12 (u + t * (u' - u)) g1 (by linarith)
    convert hY using 1
    rw [hXe, hPe]
    ext <;> dsimp only [pointAt]
    · linear_combination -(t3.x - t1.x) * hcz
    · linear_combination -(t3.y - t1.y) * hcz
    · linear_combination -(t3.z - t1.z) * hcz
  · apply h32 (u + t * (u' - u)) g1 (by linarith)
    convert hY using 1
    rw [hXe, hPe]
    ext <;> dsimp only [pointAt]
    · linear_combination (t3.x - t1.x) * hcz
    · linear_combination (t3.y - t1.y) * hcz
    · linear_combination (t3.z - t1.z) * hcz

/-- An edge of the box on which the plane function changes sign is reported. -/
theorem edge_hit {sqrt : K → K} (hs : IsSqrt sqrt) {eps : K} (he : 0 < eps) {A B t1 t2 t3 : V3 K}
    (hL : (B.sub A).norm sqrt ≠ 0) (ha : eps < (normalOf t1 t2 t3).norm sqrt)
    (hpar : (B.sub A).dot (normalOf t1 t2 t3) = 0 ∨ eps * (B.sub A).norm sqrt ≤ |(B.sub A).dot (normalOf t1 t2 t3)|)
    (hsign : (normalOf t1 t2 t3).dot (A.sub t1) * (normalOf t1 t2 t3).dot (B.sub t1) ≤ 0)
    (hin : ∀ w, 0 ≤ w → w ≤ 1 → (normalOf t1 t2 t3).dot ((pointAt A B w).sub t1) = 0 → InTri t1 t2 t3 (pointAt A B w)) :
    0 ≤ triCollision sqrt eps A B t1 t2 t3 := by
  obtain ⟨N, hN⟩ : ∃ N, normalOf t1 t2 t3 = N := ⟨_, rfl⟩
  rw [hN] at ha hpar hsign hin
  have hAB : N.dot (B.sub t1) - N.dot (A.sub t1) = (B.sub A).dot N := by
    unfold V3.dot V3.sub; ring
  have hat : ∀ w, N.dot ((pointAt A B w).sub t1) = N.dot (A.sub t1) + w * (B.sub A).dot N := by
    intro w; unfold V3.dot V3.sub pointAt; ring
  by_cases h0 : (B.sub A).dot N = 0
  · have hA0 : N.dot (A.sub t1) = 0 := by
      have h1 : N.dot (B.sub t1) = N.dot (A.sub t1) := by linarith
      rw [h1] at hsign
      have := mul_self_nonneg (N.dot (A.sub t1))
      exact mul_self_eq_zero.1 (le_antisymm hsign this)
    have hAt : pointAt A B 0 = A := by unfold pointAt; ext <;> dsimp only <;> ring
    have := hin 0 le_rfl zero_le_one (by rw [hat, hA0]; ring)
    rw [hAt] at this
    rw [inplane_spec hs he hL (by rw [hN]; exact h0) (by rw [hN]; exact ha) this]
  · have hne : (B.sub A).dot N ≠ 0 := h0
    obtain ⟨w, hw⟩ : ∃ w, w = - N.dot (A.sub t1) / (B.sub A).dot N := ⟨_, rfl⟩
    have hwz : N.dot (A.sub t1) + w * (B.sub A).dot N = 0 := by
      rw [hw, div_mul_cancel₀ _ hne]; ring
    have hw01 : 0 ≤ w ∧ w ≤ 1 := by
      rcases lt_or_gt_of_ne hne with hlt | hgt
      · have h3 : 0 ≤ N.dot (A.sub t1) := by
          by_contra hc
          have hc := not_le.1 hc
          have : N.dot (B.sub t1) < 0 := by linarith
          nlinarith
        have h4 : N.dot (B.sub t1) ≤ 0 := by
          by_contra hc
          have hc := not_le.1 hc
          have : 0 < N.dot (A.sub t1) := by linarith
          nlinarith
        constructor
        · by_contra hc; nlinarith
        · by_contra hc; nlinarith
      · have h3 : N.dot (A.sub t1) ≤ 0 := by
          by_contra hc
          have hc := not_le.1 hc
          have : 0 < N.dot (B.sub t1) := by linarith
          nlinarith
        have h4 : 0 ≤ N.dot (B.sub t1) := by
          by_contra hc
          have hc := not_le.1 hc
          have : N.dot (A.sub t1) < 0 := by linarith
          nlinarith
        constructor
        · by_contra hc; nlinarith
        · by_contra hc; nlinarith
    have := hin w hw01.1 hw01.2 (by rw [hat]; exact hwz)
    rw [(transversal_spec hs he (q1 := A) (q2 := B) ⟨by rw [hN]; exact hpar.resolve_left h0, hL⟩
      (by rw [hN]; exact ha)).2 w hw01.1 hw01.2 this]
    exact hw01.1

/-- The twelve tests of the edges of the box. -/
def edgeTests (sqrt : K → K) (eps : K) (lo hi t1 t2 t3 : V3 K) : Prop :=
  ∃ A B : V3 K, (A, B) ∈ ([(⟨lo.x, lo.y, lo.z⟩, ⟨hi.x, lo.y, lo.z⟩), (⟨lo.x, lo.y, lo.z⟩, ⟨lo.x, hi.y, lo.z⟩),
    (⟨hi.x, hi.y, lo.z⟩, ⟨lo.x, hi.y, lo.z⟩), (⟨hi.x, hi.y, lo.z⟩, ⟨hi.x, lo.y, lo.z⟩),
    (⟨lo.x, lo.y, lo.z⟩, ⟨lo.x, lo.y, hi.z⟩), (⟨lo.x, hi.y, lo.z⟩, ⟨lo.x, hi.y, hi.z⟩),
    (⟨hi.x, lo.y, lo.z⟩, ⟨hi.x, lo.y, hi.z⟩), (⟨hi.x, hi.y, lo.z⟩, ⟨hi.x, hi.y, hi.z⟩),
    (⟨lo.x, lo.y, hi.z⟩, ⟨hi.x, lo.y, hi.z⟩), (⟨lo.x, lo.y, hi.z⟩, ⟨lo.x, hi.y, hi.z⟩),
    (⟨hi.x, hi.y, hi.z⟩, ⟨lo.x, hi.y, hi.z⟩), (⟨hi.x, hi.y, hi.z⟩, ⟨hi.x, lo.y, hi.z⟩)] : List (V3 K × V3 K)) ∧
    0 ≤ triCollision sqrt eps A B t1 t2 t3

theorem affine_pos {c n lo hi x : K} (h1 : lo ≤ x) (h2 : x ≤ hi) (a : 0 < c + n * lo) (b : 0 < c + n * hi) :
    0 < c + n * x := by
  by_cases hn : 0 ≤ n
  · nlinarith
  · nlinarith

/-- An affine function that is positive at the corners is positive in the box. -/
theorem corners_pos {lo hi p N : V3 K} {c : K} (hp : InBox lo hi p)
    (h000 : 0 < c + N.x * lo.x + N.y * lo.y + N.z * lo.z) (h100 : 0 < c + N.x * hi.x + N.y * lo.y + N.z * lo.z)
    (h010 : 0 < c + N.x * lo.x + N.y * hi.y + N.z * lo.z) (h110 : 0 < c + N.x * hi.x + N.y * hi.y + N.z * lo.z)
    (h001 : 0 < c + N.x * lo.x + N.y * lo.y + N.z * hi.z) (h101 : 0 < c + N.x * hi.x + N.y * lo.y + N.z * hi.z)
    (h011 : 0 < c + N.x * lo.x + N.y * hi.y + N.z * hi.z) (h111 : 0 < c + N.x * hi.x + N.y * hi.y + N.z * hi.z) :
    0 < c + N.x * p.x + N.y * p.y + N.z * p.z := by
  have a00 := affine_pos hp.x1 hp.x2 (c := c + N.y * lo.y + N.z * lo.z) (n := N.x) (by linarith) (by linarith)
  have a10 := affine_pos hp.x1 hp.x2 (c := c + N.y * hi.y + N.z * lo.z) (n := N.x) (by linarith) (by linarith)
  have a01 := affine_pos hp.x1 hp.x2 (c := c + N.y * lo.y + N.z * hi.z) (n := N.x) (by linarith) (by linarith)
  have a11 := affine_pos hp.x1 hp.x2 (c := c + N.y * hi.y + N.z * hi.z) (n := N.x) (by linarith) (by linarith)
  have b0 := affine_pos hp.y1 hp.y2 (c := c + N.x * p.x + N.z * lo.z) (n := N.y) (by linarith) (by linarith)
  have b1 := affine_pos hp.y1 hp.y2 (c := c + N.x * p.x + N.z * hi.z) (n := N.y) (by linarith) (by linarith)
  have c0 := affine_pos hp.z1 hp.z2 (c := c + N.x * p.x + N.y * p.y) (n := N.z) (by linarith) (by linarith)
  linarith

theorem same_sign {a b : K} (h : ¬ a * b ≤ 0) : (0 < a → 0 < b) ∧ (a < 0 → b < 0) := by
  have h := not_le.1 h
  constructor
  · intro ha; by_contra hb; have := not_lt.1 hb; nlinarith
  · intro ha; by_contra hb; have := not_lt.1 hb; nlinarith

theorem box_edges {sqrt : K → K} (hs : IsSqrt sqrt) {eps : K} (he : 0 < eps) {d lo hi t1 t2 t3 P : V3 K}
    (hbig : BigBox eps d lo hi) (ha : eps < (normalOf t1 t2 t3).norm sqrt) (hn : NormalOk eps (normalOf t1 t2 t3))
    (hPb : InBox lo hi P) (hP0 : (normalOf t1 t2 t3).dot (P.sub t1) = 0)
    (hin : ∀ X, InBox lo hi X → (normalOf t1 t2 t3).dot (X.sub t1) = 0 → InTri t1 t2 t3 X) :
    edgeTests sqrt eps lo hi t1 t2 t3 := by
  obtain ⟨bx, by', bz, x0, y0, z0, hxy, hxz, hyz⟩ := hbig
  have X0 : 0 < hi.x - lo.x := by linarith
  have Y0 : 0 < hi.y - lo.y := by linarith
  have Z0 : 0 < hi.z - lo.z := by linarith
  have corner : ∀ (a b c : Bool), InBox lo hi ⟨if a then hi.x else lo.x, if b then hi.y else lo.y, if c then hi.z else lo.z⟩ := by
    intro a b c
    constructor <;> dsimp only <;> (try cases a) <;> (try cases b) <;> (try cases c) <;> simp <;> linarith
  by_contra hno
  obtain ⟨N, hN⟩ : ∃ N, normalOf t1 t2 t3 = N := ⟨_, rfl⟩
  have key : ∀ (A B : V3 K), InBox lo hi A → InBox lo hi B → ∀ c : K, c ≠ 0 → (B.sub A).dot (B.sub A) = c * c →
      ((B.sub A).dot N = 0 ∨ eps * |c| ≤ |(B.sub A).dot N|) → ¬ 0 ≤ triCollision sqrt eps A B t1 t2 t3 →
      ¬ N.dot (A.sub t1) * N.dot (B.sub t1) ≤ 0 := by
    intro A B hA hB c hc0 hc hpar hnot hsign
    apply hnot
    have hnorm := norm_axis hs hc
    apply edge_hit hs he (by rw [hnorm]; exact abs_ne_zero.2 hc0) ha (by rw [hN, hnorm]; exact hpar) (by rw [hN]; exact hsign)
    intro w hw0 hw1 hz
    exact hin _ (box_convex hA hB hw0 hw1) hz
  rw [hN] at hn hP0
  have hxp : ∀ c : K, (N.x = 0 → c * N.x = 0) := fun c h => by rw [h]; simp
  have par : ∀ (c m : K), (m = 0 ∨ eps ≤ |m|) → (c * m = 0 ∨ eps * |c| ≤ |c * m|) := by
    intro c m h
    rcases h with h | h
    · left; rw [h]; simp
    · right; rw [abs_mul, mul_comm]; exact mul_le_mul_of_nonneg_left h (abs_nonneg _)
  have ex : ∀ (A B : V3 K), InBox lo hi A → InBox lo hi B → B.y = A.y → B.z = A.z → B.x - A.x ≠ 0 →
      ¬ 0 ≤ triCollision sqrt eps A B t1 t2 t3 → ¬ N.dot (A.sub t1) * N.dot (B.sub t1) ≤ 0 := by
    intro A B hA hB h1 h2 h3 h4
    apply key A B hA hB (B.x - A.x) h3 (by unfold V3.dot V3.sub; rw [h1, h2]; ring) _ h4
    have e : (B.sub A).dot N = (B.x - A.x) * N.x := by unfold V3.dot V3.sub; rw [h1, h2]; ring
    rw [e]; exact par _ _ hn.x
  have ey : ∀ (A B : V3 K), InBox lo hi A → InBox lo hi B → B.x = A.x → B.z = A.z → B.y - A.y ≠ 0 →
      ¬ 0 ≤ triCollision sqrt eps A B t1 t2 t3 → ¬ N.dot (A.sub t1) * N.dot (B.sub t1) ≤ 0 := by
    intro A B hA hB h1 h2 h3 h4
    apply key A B hA hB (B.y - A.y) h3 (by unfold V3.dot V3.sub; rw [h1, h2]; ring) _ h4
    have e : (B.sub A).dot N = (B.y - A.y) * N.y := by unfold V3.dot V3.sub; rw [h1, h2]; ring
    rw [e]; exact par _ _ hn.y
  have ez : ∀ (A B : V3 K), InBox lo hi A → InBox lo hi B → B.x = A.x → B.y = A.y → B.z - A.z ≠ 0 →
      ¬ 0 ≤ triCollision sqrt eps A B t1 t2 t3 → ¬ N.dot (A.sub t1) * N.dot (B.sub t1) ≤ 0 := by
    intro A B hA hB h1 h2 h3 h4
    apply key A B hA hB (B.z - A.z) h3 (by unfold V3.dot V3.sub; rw [h1, h2]; ring) _ h4
    have e : (B.sub A).dot N = (B.z - A.z) * N.z := by unfold V3.dot V3.sub; rw [h1, h2]; ring
    rw [e]; exact par _ _ hn.z
  have nope : ∀ A B, (A, B) ∈ ([(⟨lo.x, lo.y, lo.z⟩, ⟨hi.x, lo.y, lo.z⟩), (⟨lo.x, lo.y, lo.z⟩, ⟨lo.x, hi.y, lo.z⟩),
    (⟨hi.x, hi.y, lo.z⟩, ⟨lo.x, hi.y, lo.z⟩), (⟨hi.x, hi.y, lo.z⟩, ⟨hi.x, lo.y, lo.z⟩),
    (⟨lo.x, lo.y, lo.z⟩, ⟨lo.x, lo.y, hi.z⟩), (⟨lo.x, hi.y, lo.z⟩, ⟨lo.x, hi.y, hi.z⟩),
    (⟨hi.x, lo.y, lo.z⟩, ⟨hi.x, lo.y, hi.z⟩), (⟨hi.x, hi.y, lo.z⟩, ⟨hi.x, hi.y, hi.z⟩),
    (⟨lo.x, lo.y, hi.z⟩, ⟨hi.x, lo.y, hi.z⟩), (⟨lo.x, lo.y, hi.z⟩, ⟨lo.x, hi.y, hi.z⟩),
    (⟨hi.x, hi.y, hi.z⟩, ⟨lo.x, hi.y, hi.z⟩), (⟨hi.x, hi.y, hi.z⟩, ⟨hi.x, lo.y, hi.z⟩)] : List (V3 K × V3 K)) →
      ¬ 0 ≤ triCollision sqrt eps A B t1 t2 t3 := fun A B h hc => hno ⟨A, B, h, hc⟩
  have c000 : InBox lo hi ⟨lo.x, lo.y, lo.z⟩ := corner false false false
  have c100 : InBox lo hi ⟨hi.x, lo.y, lo.z⟩ := corner true false false
  have c010 : InBox lo hi ⟨lo.x, hi.y, lo.z⟩ := corner false true false
  have c110 : InBox lo hi ⟨hi.x, hi.y, lo.z⟩ := corner true true false
  have c001 : InBox lo hi ⟨lo.x, lo.y, hi.z⟩ := corner false false true
  have c101 : InBox lo hi ⟨hi.x, lo.y, hi.z⟩ := corner true false true
  have c011 : InBox lo hi ⟨lo.x, hi.y, hi.z⟩ := corner false true true
  have c111 : InBox lo hi ⟨hi.x, hi.y, hi.z⟩ := corner true true true
  have X1 : lo.x - hi.x ≠ 0 := by linarith
  have Y1 : lo.y - hi.y ≠ 0 := by linarith
  have s1 := same_sign (ex _ _ c000 c100 rfl rfl X0.ne' (nope _ _ (by simp)))
  have s2 := same_sign (ey _ _ c000 c010 rfl rfl Y0.ne' (nope _ _ (by simp)))
  have s3 := same_sign (ey _ _ c110 c100 rfl rfl Y1 (nope _ _ (by simp)))
  have s4 := same_sign (ex _ _ c110 c010 rfl rfl X1 (nope _ _ (by simp)))
  have s5 := same_sign (ez _ _ c000 c001 rfl rfl Z0.ne' (nope _ _ (by simp)))
  have s6 := same_sign (ez _ _ c010 c011 rfl rfl Z0.ne' (nope _ _ (by simp)))
  have s7 := same_sign (ez _ _ c100 c101 rfl rfl Z0.ne' (nope _ _ (by simp)))
  have s8 := same_sign (ez _ _ c110 c111 rfl rfl Z0.ne' (nope _ _ (by simp)))
  have n1 := ex _ _ c000 c100 rfl rfl X0.ne' (nope _ _ (by simp))
  have n3 := ey _ _ c110 c100 rfl rfl Y1 (nope _ _ (by simp))
  have form : ∀ X : V3 K, N.dot (X.sub t1) = (-(N.dot t1)) + N.x * X.x + N.y * X.y + N.z * X.z := by
    intro X; unfold V3.dot V3.sub; ring
  have formn : ∀ X : V3 K, -N.dot (X.sub t1) = (N.dot t1) + (-N.x) * X.x + (-N.y) * X.y + (-N.z) * X.z := by
    intro X; unfold V3.dot V3.sub; ring
  have h0 : N.dot (V3.sub ⟨lo.x, lo.y, lo.z⟩ t1) ≠ 0 := by
    intro h; apply n1; rw [h]; simp
  have h110 : N.dot (V3.sub ⟨hi.x, hi.y, lo.z⟩ t1) ≠ 0 := by
    intro h; apply n3; rw [h]; simp
  rcases lt_or_gt_of_ne h0 with hneg | hpos
  · have p100 := s1.2 hneg
    have p010 := s2.2 hneg
    have p001 := s5.2 hneg
    have p110 : N.dot (V3.sub ⟨hi.x, hi.y, lo.z⟩ t1) < 0 := by
      rcases lt_or_gt_of_ne h110 with h | h
      · exact h
      · exact absurd (s3.1 h) (not_lt.2 p100.le)
    have p101 := s7.2 p100
    have p011 := s6.2 p010
    have p111 := s8.2 p110
    have := corners_pos hPb (N := ⟨-N.x, -N.y, -N.z⟩) (c := N.dot t1)
      (by have := formn ⟨lo.x, lo.y, lo.z⟩; dsimp only at this ⊢; linarith)
      (by have := formn ⟨hi.x, lo.y, lo.z⟩; dsimp only at this ⊢; linarith)
      (by have := formn ⟨lo.x, hi.y, lo.z⟩; dsimp only at this ⊢; linarith)
      (by have := formn ⟨hi.x, hi.y, lo.z⟩; dsimp only at this ⊢; linarith)
      (by have := formn ⟨lo.x, lo.y, hi.z⟩; dsimp only at this ⊢; linarith)
      (by have := formn ⟨hi.x, lo.y, hi.z⟩; dsimp only at this ⊢; linarith)
      (by have := formn ⟨lo.x, hi.y, hi.z⟩; dsimp only at this ⊢; linarith)
      (by have := formn ⟨hi.x, hi.y, hi.z⟩; dsimp only at this ⊢; linarith)
    have h2 := formn P
    dsimp only at this
    linarith
  · have p100 := s1.1 hpos
    have p010 := s2.1 hpos
    have p001 := s5.1 hpos
    have p110 : 0 < N.dot (V3.sub ⟨hi.x, hi.y, lo.z⟩ t1) := by
      rcases lt_or_gt_of_ne h110 with h | h
      · exact absurd (s3.2 h) (not_lt.2 p100.le)
      · exact h
    have p101 := s7.1 p100
    have p011 := s6.1 p010
    have p111 := s8.1 p110
    have := corners_pos hPb (N := N) (c := -(N.dot t1))
      (by have := form ⟨lo.x, lo.y, lo.z⟩; dsimp only at this ⊢; linarith)
      (by have := form ⟨hi.x, lo.y, lo.z⟩; dsimp only at this ⊢; linarith)
      (by have := form ⟨lo.x, hi.y, lo.z⟩; dsimp only at this ⊢; linarith)
      (by have := form ⟨hi.x, hi.y, lo.z⟩; dsimp only at this ⊢; linarith)
      (by have := form ⟨lo.x, lo.y, hi.z⟩; dsimp only at this ⊢; linarith)
      (by have := form ⟨hi.x, lo.y, hi.z⟩; dsimp only at this ⊢; linarith)
      (by have := form ⟨lo.x, hi.y, hi.z⟩; dsimp only at this ⊢; linarith)
      (by have := form ⟨hi.x, hi.y, hi.z⟩; dsimp only at this ⊢; linarith)
    have h2 := form P
    linarith

theorem edge_ne {sqrt : K → K} (hs : IsSqrt sqrt) {eps : K} (he : 0 < eps) {t : Tri K}
    (ha : eps < (normalOf t.t1 t.t2 t.t3).norm sqrt) :
    (t.t2.sub t.t1).norm sqrt ≠ 0 ∧ (t.t2.sub t.t3).norm sqrt ≠ 0 ∧ (t.t3.sub t.t1).norm sqrt ≠ 0 := by
  have hne : (normalOf t.t1 t.t2 t.t3).norm sqrt ≠ 0 := by linarith
  have hz : ∀ v : V3 K, v.x = 0 → v.y = 0 → v.z = 0 → v.norm sqrt = 0 := by
    intro v h1 h2 h3
    have := norm_sq hs v
    unfold V3.dot at this
    rw [h1, h2, h3] at this
    exact mul_self_eq_zero.1 (by linarith)
  refine ⟨?_, ?_, ?_⟩ <;> intro h <;> obtain ⟨h1, h2, h3⟩ := norm_eq_zero hs h <;> apply hne <;>
    dsimp only [V3.sub] at h1 h2 h3 <;> apply hz <;> dsimp only [normalOf, V3.cross, V3.sub]
  · rw [h2, h3]; ring
  · rw [h3, h1]; ring
  · rw [h1, h2]; ring
  · linear_combination (t.t3.z - t.t1.z) * h2 - (t.t3.y - t.t1.y) * h3
  · linear_combination (t.t3.x - t.t1.x) * h3 - (t.t3.z - t.t1.z) * h1
  · linear_combination (t.t3.y - t.t1.y) * h1 - (t.t3.x - t.t1.x) * h2
  · rw [h2, h3]; ring
  · rw [h3, h1]; ring
  · rw [h1, h2]; ring

/-- A triangle with a point in the box passes the overlap test. -/
theorem triInCube_complete {sqrt : K → K} (hs : IsSqrt sqrt) {eps : K} (he : 0 < eps) {d lo hi P : V3 K} {t : Tri K}
    (hok : TriOk sqrt eps d t) (hbig : BigBox eps d lo hi) (hP : InTri t.t1 t.t2 t.t3 P) (hPb : InBox lo hi P) :
    triInCube sqrt eps t lo hi = true := by
  obtain ⟨l12, l32, l13⟩ := edge_ne hs he hok.area
  by_cases b1 : InBox lo hi t.t1
  · unfold triInCube; dsimp only; rw [if_pos ⟨b1.x1, b1.x2, b1.y1, b1.y2, b1.z1, b1.z2⟩]
  by_cases b3 : InBox lo hi t.t3
  · unfold triInCube; dsimp only; split
    · rfl
    · split
      · rfl
      · rw [if_pos ⟨b3.x1, b3.x2, b3.y1, b3.y2, b3.z1, b3.z2⟩]
  suffices h : faceTests sqrt eps lo hi t.t1 t.t2 = true ∨ faceTests sqrt eps lo hi t.t3 t.t2 = true ∨
      faceTests sqrt eps lo hi t.t1 t.t3 = true ∨ edgeTests sqrt eps lo hi t.t1 t.t2 t.t3 by
    unfold triInCube; dsimp only
    split
    · rfl
    split
    · rfl
    split
    · rfl
    split
    · rfl
    rename_i hedge
    split
    · rfl
    rename_i h12
    split
    · rfl
    rename_i h32
    split
    · rfl
    rename_i h13
    exfalso
    rcases h with h | h | h | h
    · exact h12 h
    · exact h32 h
    · exact h13 h
    · obtain ⟨A, B, hAB, hc⟩ := h
      apply hedge
      simp only [List.mem_cons, List.not_mem_nil, or_false, Prod.mk.injEq] at hAB
      simp only [Bool.or_eq_true, decide_eq_true_eq]
      rcases hAB with ⟨rfl, rfl⟩ | ⟨rfl, rfl⟩ | ⟨rfl, rfl⟩ | ⟨rfl, rfl⟩ | ⟨rfl, rfl⟩ | ⟨rfl, rfl⟩ | ⟨rfl, rfl⟩ | ⟨rfl, rfl⟩ |
        ⟨rfl, rfl⟩ | ⟨rfl, rfl⟩ | ⟨rfl, rfl⟩ | ⟨rfl, rfl⟩
      · exact .inl (.inl (.inl (.inl (.inl (.inl (.inl (.inl (.inl (.inl (.inl hc))))))))))
      · exact .inl (.inl (.inl (.inl (.inl (.inl (.inl (.inl (.inl (.inl (.inr hc))))))))))
      · exact .inl (.inl (.inl (.inl (.inl (.inl (.inl (.inl (.inl (.inr hc)))))))))
      · exact .inl (.inl (.inl (.inl (.inl (.inl (.inl (.inl (.inr hc))))))))
      · exact .inl (.inl (.inl (.inl (.inl (.inl (.inl (.inr hc)))))))
      · exact .inl (.inl (.inl (.inl (.inl (.inl (.inr hc))))))
      · exact .inl (.inl (.inl (.inl (.inl (.inr hc)))))
      · exact .inl (.inl (.inl (.inl (.inr hc))))
      · exact .inl (.inl (.inl (.inr hc)))
      · exact .inl (.inl (.inr hc))
      · exact .inl (.inr hc)
      · exact .inr hc
  by_cases e12 : ∃ s, 0 ≤ s ∧ s ≤ 1 ∧ InBox lo hi (pointAt t.t1 t.t2 s)
  · obtain ⟨s, s0, s1, hsb⟩ := e12
    obtain ⟨w, w0, w1, hw, hf⟩ := enter_box s0 s1 b1 hsb
    exact .inl (face_hit hs he hbig hok.e12 l12 w0 w1 hw hf)
  by_cases e32 : ∃ s, 0 ≤ s ∧ s ≤ 1 ∧ InBox lo hi (pointAt t.t3 t.t2 s)
  · obtain ⟨s, s0, s1, hsb⟩ := e32
    obtain ⟨w, w0, w1, hw, hf⟩ := enter_box s0 s1 b3 hsb
    exact .inr (.inl (face_hit hs he hbig hok.e32 l32 w0 w1 hw hf))
  by_cases e13 : ∃ s, 0 ≤ s ∧ s ≤ 1 ∧ InBox lo hi (pointAt t.t1 t.t3 s)
  · obtain ⟨s, s0, s1, hsb⟩ := e13
    obtain ⟨w, w0, w1, hw, hf⟩ := enter_box s0 s1 b1 hsb
    exact .inr (.inr (.inl (face_hit hs he hbig hok.e13 l13 w0 w1 hw hf)))
  refine .inr (.inr (.inr ?_))
  have hA : (normalOf t.t1 t.t2 t.t3).dot (normalOf t.t1 t.t2 t.t3) ≠ 0 := by
    rw [← norm_sq hs]
    have := hok.area
    have h0 : 0 < (normalOf t.t1 t.t2 t.t3).norm sqrt := by linarith
    positivity
  apply box_edges hs he hbig hok.area hok.normal hPb
  · obtain ⟨u, v, _, _, _, rfl⟩ := hP
    unfold normalOf V3.dot V3.cross V3.sub; dsimp only; ring
  · intro X hX hX0
    exact plane_in_tri hA hP hPb hX hX0 (fun s s0 s1 h => e12 ⟨s, s0, s1, h⟩) (fun s s0 s1 h => e32 ⟨s, s0, s1, h⟩)
      (fun s s0 s1 h => e13 ⟨s, s0, s1, h⟩)

end Ascot.Wall3D
