import Verif.Lemmas.TriCollision

set_option linter.unusedSectionVars false
set_option linter.unusedSimpArgs false

namespace Ascot.Wall3D
variable {K : Type} [Field K] [LinearOrder K] [IsStrictOrderedRing K]

/-- Several affine functions on [0,1], all non-negative at 1 and some negative at 0: there is a
point where all are non-negative and one of the latter is zero. -/
theorem enter : ∀ (l : List (K × K)), (∀ c ∈ l, 0 ≤ c.2) → (∃ c ∈ l, c.1 < 0) →
    ∃ t, 0 ≤ t ∧ t ≤ 1 ∧ (∀ c ∈ l, 0 ≤ c.1 + t * (c.2 - c.1)) ∧ ∃ c ∈ l, c.1 < 0 ∧ c.1 + t * (c.2 - c.1) = 0
  | [], _, h => by obtain ⟨c, hc, _⟩ := h; simp at hc
  | c :: l, hp, hn => by
    have hc2 := hp c (by simp)
    have hpl : ∀ c ∈ l, 0 ≤ c.2 := fun x hx => hp x (by simp [hx])
    by_cases hc : c.1 < 0
    · have hd : 0 < c.2 - c.1 := by linarith
      have ht0 : 0 ≤ -c.1 / (c.2 - c.1) := div_nonneg (by linarith) hd.le
      have ht1 : -c.1 / (c.2 - c.1) ≤ 1 := by rw [div_le_one hd]; linarith
      have hz : c.1 + -c.1 / (c.2 - c.1) * (c.2 - c.1) = 0 := by rw [div_mul_cancel₀ _ hd.ne']; ring
      by_cases hl : ∃ c ∈ l, c.1 < 0
      · obtain ⟨t, h0, h1, h2, h3⟩ := enter l hpl hl
        by_cases hle : -c.1 / (c.2 - c.1) ≤ t
        · refine ⟨t, h0, h1, ?_, ?_⟩
          · intro x hx
            rcases List.mem_cons.1 hx with rfl | hx
            · nlinarith
            · exact h2 x hx
          · obtain ⟨x, hx, h4⟩ := h3
            exact ⟨x, by simp [hx], h4⟩
        · refine ⟨_, ht0, ht1, ?_, c, by simp, hc, hz⟩
          intro x hx
          rcases List.mem_cons.1 hx with rfl | hx
          · exact hz.ge
          · have h5 := h2 x hx
            have h6 := hpl x hx
            generalize -c.1 / (c.2 - c.1) = s at *
            by_cases hx0 : 0 ≤ x.2 - x.1
            · nlinarith
            · nlinarith
      · refine ⟨_, ht0, ht1, ?_, c, by simp, hc, hz⟩
        intro x hx
        rcases List.mem_cons.1 hx with rfl | hx
        · exact hz.ge
        · have h5 : 0 ≤ x.1 := by by_contra h; exact hl ⟨x, hx, not_le.1 h⟩
          have h6 := hpl x hx
          generalize -c.1 / (c.2 - c.1) = s at *
          nlinarith
    · have hl : ∃ c ∈ l, c.1 < 0 := by
        obtain ⟨x, hx, hx0⟩ := hn
        rcases List.mem_cons.1 hx with rfl | hx
        · exact absurd hx0 hc
        · exact ⟨x, hx, hx0⟩
      obtain ⟨t, h0, h1, h2, h3⟩ := enter l hpl hl
      refine ⟨t, h0, h1, ?_, ?_⟩
      · intro x hx
        rcases List.mem_cons.1 hx with rfl | hx
        · have := not_lt.1 hc
          nlinarith
        · exact h2 x hx
      · obtain ⟨x, hx, h4⟩ := h3
        exact ⟨x, by simp [hx], h4⟩

/-- A point on a face of the box, on a segment that is not parallel to the face. -/
inductive OnFace (lo hi a b p : V3 K) : Prop
  | xlo (h : p.x = lo.x) (n : b.x - a.x ≠ 0)
  | xhi (h : p.x = hi.x) (n : b.x - a.x ≠ 0)
  | ylo (h : p.y = lo.y) (n : b.y - a.y ≠ 0)
  | yhi (h : p.y = hi.y) (n : b.y - a.y ≠ 0)
  | zlo (h : p.z = lo.z) (n : b.z - a.z ≠ 0)
  | zhi (h : p.z = hi.z) (n : b.z - a.z ≠ 0)

/-- A segment from outside the box to a point inside goes through a face. -/
theorem enter_box {lo hi a b : V3 K} {s : K} (hs0 : 0 ≤ s) (hs1 : s ≤ 1) (ha : ¬ InBox lo hi a)
    (hb : InBox lo hi (pointAt a b s)) :
    ∃ w, 0 ≤ w ∧ w ≤ 1 ∧ InBox lo hi (pointAt a b w) ∧ OnFace lo hi a b (pointAt a b w) := by
  obtain ⟨x1, x2, y1, y2, z1, z2⟩ := hb
  dsimp only [pointAt] at x1 x2 y1 y2 z1 z2
  obtain ⟨t, t0, t1, hall, c, hc, hc0, hcz⟩ := enter
    [(a.x - lo.x, a.x + s * (b.x - a.x) - lo.x), (hi.x - a.x, hi.x - (a.x + s * (b.x - a.x))),
     (a.y - lo.y, a.y + s * (b.y - a.y) - lo.y), (hi.y - a.y, hi.y - (a.y + s * (b.y - a.y))),
     (a.z - lo.z, a.z + s * (b.z - a.z) - lo.z), (hi.z - a.z, hi.z - (a.z + s * (b.z - a.z)))]
    (by
      intro c hc
      simp only [List.mem_cons, List.not_mem_nil, or_false] at hc
      rcases hc with rfl | rfl | rfl | rfl | rfl | rfl <;> dsimp only <;> linarith)
    (by
      by_contra hcon
      push_neg at hcon
      simp only [List.mem_cons, List.not_mem_nil, or_false, forall_eq_or_imp, forall_eq] at hcon
      obtain ⟨h1, h2, h3, h4, h5, h6⟩ := hcon
      exact ha ⟨by linarith, by linarith, by linarith, by linarith, by linarith, by linarith⟩)
  simp only [List.mem_cons, List.not_mem_nil, or_false, forall_eq_or_imp, forall_eq] at hall
  obtain ⟨g1, g2, g3, g4, g5, g6⟩ := hall
  refine ⟨s * t, mul_nonneg hs0 t0, by nlinarith, ⟨?_, ?_, ?_, ?_, ?_, ?_⟩, ?_⟩ <;> dsimp only [pointAt]
  · linarith
  · linarith
  · linarith
  · linarith
  · linarith
  · linarith
  · simp only [List.mem_cons, List.not_mem_nil, or_false] at hc
    have key : ∀ {α β : K}, α < 0 → 0 ≤ α + s * β → β ≠ 0 := by
      intro α β h1 h2 h3
      rw [h3] at h2; linarith
    rcases hc with rfl | rfl | rfl | rfl | rfl | rfl <;> dsimp only at hc0 hcz
    · exact .xlo (by dsimp only; linarith) (key hc0 (by linarith))
    · exact .xhi (by dsimp only; linarith) (fun h => key hc0 (β := -(b.x - a.x)) (by linarith) (by rw [h]; simp))
    · exact .ylo (by dsimp only; linarith) (key hc0 (by linarith))
    · exact .yhi (by dsimp only; linarith) (fun h => key hc0 (β := -(b.y - a.y)) (by linarith) (by rw [h]; simp))
    · exact .zlo (by dsimp only; linarith) (key hc0 (by linarith))
    · exact .zhi (by dsimp only; linarith) (fun h => key hc0 (β := -(b.z - a.z)) (by linarith) (by rw [h]; simp))

/-- A segment through a point of a parallelogram. -/
theorem quad_hit {sqrt : K → K} (hs : IsSqrt sqrt) {eps : K} (he : 0 < eps) {A B p a b : V3 K} {w α β : K}
    (hL : (B.sub A).norm sqrt ≠ 0) (har : eps < (a.cross b).norm sqrt)
    (hT : eps * (B.sub A).norm sqrt ≤ |(B.sub A).dot (a.cross b)|) (hw0 : 0 ≤ w) (hw1 : w ≤ 1)
    (ha0 : 0 ≤ α) (ha1 : α ≤ 1) (hb0 : 0 ≤ β) (hb1 : β ≤ 1)
    (hz : pointAt A B w = ⟨p.x + α * a.x + β * b.x, p.y + α * a.y + β * b.y, p.z + α * a.z + β * b.z⟩)
    {p2 p3 p4 : V3 K} (h2 : p2 = ⟨p.x + a.x, p.y + a.y, p.z + a.z⟩)
    (h3 : p3 = ⟨p.x + a.x + b.x, p.y + a.y + b.y, p.z + a.z + b.z⟩) (h4 : p4 = ⟨p.x + b.x, p.y + b.y, p.z + b.z⟩) :
    quadCollision sqrt eps A B p p2 p3 p4 = true := by
  have n1 : normalOf p p2 p3 = a.cross b := by
    rw [h2, h3]; unfold normalOf V3.cross V3.sub; ext <;> dsimp only <;> ring
  have n2 : normalOf p p3 p4 = a.cross b := by
    rw [h3, h4]; unfold normalOf V3.cross V3.sub; ext <;> dsimp only <;> ring
  unfold quadCollision
  rw [decide_eq_true_iff]
  by_cases hab : β ≤ α
  · left
    have := (transversal_spec hs he (q1 := A) (q2 := B) (t1 := p) (t2 := p2) (t3 := p3) ⟨by rw [n1]; exact hT, hL⟩
      (by rw [n1]; exact har)).2 w hw0 hw1 ⟨α - β, β, by linarith, hb0, by linarith, by
        rw [hz, h2, h3]; ext <;> dsimp only <;> ring⟩
    rw [this]; exact hw0
  · right
    have := (transversal_spec hs he (q1 := A) (q2 := B) (t1 := p) (t2 := p3) (t3 := p4) ⟨by rw [n2]; exact hT, hL⟩
      (by rw [n2]; exact har)).2 w hw0 hw1 ⟨α, β - α, ha0, by linarith, by linarith, by
        rw [hz, h3, h4]; ext <;> dsimp only <;> ring⟩
    rw [this]; exact hw0

theorem norm_axis {sqrt : K → K} (hs : IsSqrt sqrt) {a : V3 K} {c : K} (h : a.dot a = c * c) : a.norm sqrt = |c| := by
  have h1 := norm_sq hs a
  have h2 := norm_nonneg hs a
  rw [h] at h1
  rcases mul_self_eq_mul_self_iff.1 h1 with h3 | h3
  · rw [h3] at h2 ⊢; exact (abs_of_nonneg h2).symm
  · rw [h3] at h2 ⊢
    rw [abs_of_nonpos (by linarith)]

/-- A box of at least the size `d`, with faces that are not too small. -/
structure BigBox (eps : K) (d lo hi : V3 K) : Prop where
  x : d.x ≤ hi.x - lo.x
  y : d.y ≤ hi.y - lo.y
  z : d.z ≤ hi.z - lo.z
  x0 : 0 < d.x
  y0 : 0 < d.y
  z0 : 0 < d.z
  xy : eps < d.x * d.y
  xz : eps < d.x * d.z
  yz : eps < d.y * d.z

/-- The six tests of one edge with the faces. -/
def faceTests (sqrt : K → K) (eps : K) (lo hi a b : V3 K) : Bool :=
  quadCollision sqrt eps a b ⟨lo.x, lo.y, lo.z⟩ ⟨hi.x, lo.y, lo.z⟩ ⟨hi.x, hi.y, lo.z⟩ ⟨lo.x, hi.y, lo.z⟩ ||
  quadCollision sqrt eps a b ⟨lo.x, lo.y, lo.z⟩ ⟨lo.x, hi.y, lo.z⟩ ⟨lo.x, hi.y, hi.z⟩ ⟨lo.x, lo.y, hi.z⟩ ||
  quadCollision sqrt eps a b ⟨lo.x, lo.y, lo.z⟩ ⟨hi.x, lo.y, lo.z⟩ ⟨hi.x, lo.y, hi.z⟩ ⟨lo.x, lo.y, hi.z⟩ ||
  quadCollision sqrt eps a b ⟨lo.x, hi.y, lo.z⟩ ⟨hi.x, hi.y, lo.z⟩ ⟨hi.x, hi.y, hi.z⟩ ⟨lo.x, hi.y, hi.z⟩ ||
  quadCollision sqrt eps a b ⟨hi.x, lo.y, lo.z⟩ ⟨hi.x, lo.y, hi.z⟩ ⟨hi.x, hi.y, hi.z⟩ ⟨hi.x, hi.y, lo.z⟩ ||
  quadCollision sqrt eps a b ⟨lo.x, lo.y, hi.z⟩ ⟨hi.x, lo.y, hi.z⟩ ⟨hi.x, hi.y, hi.z⟩ ⟨lo.x, hi.y, hi.z⟩

theorem face_hit {sqrt : K → K} (hs : IsSqrt sqrt) {eps : K} (he : 0 < eps) {d lo hi a b : V3 K} {w : K}
    (hbig : BigBox eps d lo hi) (hok : EdgeOk sqrt eps d a b) (hL : (b.sub a).norm sqrt ≠ 0) (hw0 : 0 ≤ w) (hw1 : w ≤ 1)
    (hin : InBox lo hi (pointAt a b w)) (hf : OnFace lo hi a b (pointAt a b w)) :
    faceTests sqrt eps lo hi a b = true := by
  obtain ⟨bx, by', bz, x0, y0, z0, hxy, hxz, hyz⟩ := hbig
  obtain ⟨i1, i2, i3, i4, i5, i6⟩ := hin
  obtain ⟨Z, hZ⟩ : ∃ Z, pointAt a b w = Z := ⟨_, rfl⟩
  rw [hZ] at i1 i2 i3 i4 i5 i6 hf
  have X0 : 0 < hi.x - lo.x := by linarith
  have Y0 : 0 < hi.y - lo.y := by linarith
  have Z0 : 0 < hi.z - lo.z := by linarith
  have mxy : d.x * d.y ≤ (hi.x - lo.x) * (hi.y - lo.y) := mul_le_mul bx by' y0.le X0.le
  have mxz : d.x * d.z ≤ (hi.x - lo.x) * (hi.z - lo.z) := mul_le_mul bx bz z0.le X0.le
  have myz : d.y * d.z ≤ (hi.y - lo.y) * (hi.z - lo.z) := mul_le_mul by' bz z0.le Y0.le
  have fx0 : 0 ≤ (Z.x - lo.x) / (hi.x - lo.x) := div_nonneg (by linarith) X0.le
  have fx1 : (Z.x - lo.x) / (hi.x - lo.x) ≤ 1 := by rw [div_le_one X0]; linarith
  have fx : lo.x + (Z.x - lo.x) / (hi.x - lo.x) * (hi.x - lo.x) = Z.x := by rw [div_mul_cancel₀ _ X0.ne']; ring
  have fy0 : 0 ≤ (Z.y - lo.y) / (hi.y - lo.y) := div_nonneg (by linarith) Y0.le
  have fy1 : (Z.y - lo.y) / (hi.y - lo.y) ≤ 1 := by rw [div_le_one Y0]; linarith
  have fy : lo.y + (Z.y - lo.y) / (hi.y - lo.y) * (hi.y - lo.y) = Z.y := by rw [div_mul_cancel₀ _ Y0.ne']; ring
  have fz0 : 0 ≤ (Z.z - lo.z) / (hi.z - lo.z) := div_nonneg (by linarith) Z0.le
  have fz1 : (Z.z - lo.z) / (hi.z - lo.z) ≤ 1 := by rw [div_le_one Z0]; linarith
  have fz : lo.z + (Z.z - lo.z) / (hi.z - lo.z) * (hi.z - lo.z) = Z.z := by rw [div_mul_cancel₀ _ Z0.ne']; ring
  generalize (Z.x - lo.x) / (hi.x - lo.x) = αx at *
  generalize (Z.y - lo.y) / (hi.y - lo.y) = αy at *
  generalize (Z.z - lo.z) / (hi.z - lo.z) = αz at *
  -- edges of the box as vectors
  have tx : ∀ n : b.x - a.x ≠ 0, eps * (b.sub a).norm sqrt ≤ |b.x - a.x| * ((hi.y - lo.y) * (hi.z - lo.z)) := fun n =>
    le_trans (hok.x.resolve_left n) (mul_le_mul_of_nonneg_left myz (abs_nonneg _))
  have ty : ∀ n : b.y - a.y ≠ 0, eps * (b.sub a).norm sqrt ≤ |b.y - a.y| * ((hi.x - lo.x) * (hi.z - lo.z)) := fun n =>
    le_trans (hok.y.resolve_left n) (mul_le_mul_of_nonneg_left mxz (abs_nonneg _))
  have tz : ∀ n : b.z - a.z ≠ 0, eps * (b.sub a).norm sqrt ≤ |b.z - a.z| * ((hi.x - lo.x) * (hi.y - lo.y)) := fun n =>
    le_trans (hok.z.resolve_left n) (mul_le_mul_of_nonneg_left mxy (abs_nonneg _))
  unfold faceTests
  simp only [Bool.or_eq_true]
  cases hf with
  | xlo h n =>
    have := quad_hit hs he (A := a) (B := b) (p := ⟨lo.x, lo.y, lo.z⟩) (a := ⟨0, hi.y - lo.y, 0⟩) (b := ⟨0, 0, hi.z - lo.z⟩)
      (w := w) (α := αy) (β := αz) hL (by
        rw [norm_axis hs (c := (hi.y - lo.y) * (hi.z - lo.z)) (by unfold V3.cross V3.dot; ring)]
        rw [abs_of_pos (mul_pos Y0 Z0)]; linarith) (by
        have e : (b.sub a).dot (V3.cross ⟨0, hi.y - lo.y, 0⟩ ⟨0, 0, hi.z - lo.z⟩) = (b.x - a.x) * ((hi.y - lo.y) * (hi.z - lo.z)) := by
          unfold V3.cross V3.dot V3.sub; ring
        rw [e, abs_mul, abs_of_pos (mul_pos Y0 Z0)]; exact tx n) hw0 hw1 fy0 fy1 fz0 fz1
      (by rw [hZ]; ext <;> dsimp only <;> linarith) (p2 := ⟨lo.x, hi.y, lo.z⟩) (p3 := ⟨lo.x, hi.y, hi.z⟩) (p4 := ⟨lo.x, lo.y, hi.z⟩)
      (by ext <;> dsimp only <;> ring) (by ext <;> dsimp only <;> ring) (by ext <;> dsimp only <;> ring)
    exact .inl (.inl (.inl (.inl (.inr this))))
  | xhi h n =>
    have := quad_hit hs he (A := a) (B := b) (p := ⟨hi.x, lo.y, lo.z⟩) (a := ⟨0, 0, hi.z - lo.z⟩) (b := ⟨0, hi.y - lo.y, 0⟩)
      (w := w) (α := αz) (β := αy) hL (by
        rw [norm_axis hs (c := (hi.y - lo.y) * (hi.z - lo.z)) (by unfold V3.cross V3.dot; ring)]
        rw [abs_of_pos (mul_pos Y0 Z0)]; linarith) (by
        have e : (b.sub a).dot (V3.cross ⟨0, 0, hi.z - lo.z⟩ ⟨0, hi.y - lo.y, 0⟩) = -((b.x - a.x) * ((hi.y - lo.y) * (hi.z - lo.z))) := by
          unfold V3.cross V3.dot V3.sub; ring
        rw [e, abs_neg, abs_mul, abs_of_pos (mul_pos Y0 Z0)]; exact tx n) hw0 hw1 fz0 fz1 fy0 fy1
      (by rw [hZ]; ext <;> dsimp only <;> linarith) (p2 := ⟨hi.x, lo.y, hi.z⟩) (p3 := ⟨hi.x, hi.y, hi.z⟩) (p4 := ⟨hi.x, hi.y, lo.z⟩)
      (by ext <;> dsimp only <;> ring) (by ext <;> dsimp only <;> ring) (by ext <;> dsimp only <;> ring)
    exact .inl (.inr this)
  | ylo h n =>
    have := quad_hit hs he (A := a) (B := b) (p := ⟨lo.x, lo.y, lo.z⟩) (a := ⟨hi.x - lo.x, 0, 0⟩) (b := ⟨0, 0, hi.z - lo.z⟩)
      (w := w) (α := αx) (β := αz) hL (by
        rw [norm_axis hs (c := (hi.x - lo.x) * (hi.z - lo.z)) (by unfold V3.cross V3.dot; ring)]
        rw [abs_of_pos (mul_pos X0 Z0)]; linarith) (by
        have e : (b.sub a).dot (V3.cross ⟨hi.x - lo.x, 0, 0⟩ ⟨0, 0, hi.z - lo.z⟩) = -((b.y - a.y) * ((hi.x - lo.x) * (hi.z - lo.z))) := by
          unfold V3.cross V3.dot V3.sub; ring
        rw [e, abs_neg, abs_mul, abs_of_pos (mul_pos X0 Z0)]; exact ty n) hw0 hw1 fx0 fx1 fz0 fz1
      (by rw [hZ]; ext <;> dsimp only <;> linarith) (p2 := ⟨hi.x, lo.y, lo.z⟩) (p3 := ⟨hi.x, lo.y, hi.z⟩) (p4 := ⟨lo.x, lo.y, hi.z⟩)
      (by ext <;> dsimp only <;> ring) (by ext <;> dsimp only <;> ring) (by ext <;> dsimp only <;> ring)
    exact .inl (.inl (.inl (.inr this)))
  | yhi h n =>
    have := quad_hit hs he (A := a) (B := b) (p := ⟨lo.x, hi.y, lo.z⟩) (a := ⟨hi.x - lo.x, 0, 0⟩) (b := ⟨0, 0, hi.z - lo.z⟩)
      (w := w) (α := αx) (β := αz) hL (by
        rw [norm_axis hs (c := (hi.x - lo.x) * (hi.z - lo.z)) (by unfold V3.cross V3.dot; ring)]
        rw [abs_of_pos (mul_pos X0 Z0)]; linarith) (by
        have e : (b.sub a).dot (V3.cross ⟨hi.x - lo.x, 0, 0⟩ ⟨0, 0, hi.z - lo.z⟩) = -((b.y - a.y) * ((hi.x - lo.x) * (hi.z - lo.z))) := by
          unfold V3.cross V3.dot V3.sub; ring
        rw [e, abs_neg, abs_mul, abs_of_pos (mul_pos X0 Z0)]; exact ty n) hw0 hw1 fx0 fx1 fz0 fz1
      (by rw [hZ]; ext <;> dsimp only <;> linarith) (p2 := ⟨hi.x, hi.y, lo.z⟩) (p3 := ⟨hi.x, hi.y, hi.z⟩) (p4 := ⟨lo.x, hi.y, hi.z⟩)
      (by ext <;> dsimp only <;> ring) (by ext <;> dsimp only <;> ring) (by ext <;> dsimp only <;> ring)
    exact .inl (.inl (.inr this))
  | zlo h n =>
    have := quad_hit hs he (A := a) (B := b) (p := ⟨lo.x, lo.y, lo.z⟩) (a := ⟨hi.x - lo.x, 0, 0⟩) (b := ⟨0, hi.y - lo.y, 0⟩)
      (w := w) (α := αx) (β := αy) hL (by
        rw [norm_axis hs (c := (hi.x - lo.x) * (hi.y - lo.y)) (by unfold V3.cross V3.dot; ring)]
        rw [abs_of_pos (mul_pos X0 Y0)]; linarith) (by
        have e : (b.sub a).dot (V3.cross ⟨hi.x - lo.x, 0, 0⟩ ⟨0, hi.y - lo.y, 0⟩) = (b.z - a.z) * ((hi.x - lo.x) * (hi.y - lo.y)) := by
          unfold V3.cross V3.dot V3.sub; ring
        rw [e, abs_mul, abs_of_pos (mul_pos X0 Y0)]; exact tz n) hw0 hw1 fx0 fx1 fy0 fy1
      (by rw [hZ]; ext <;> dsimp only <;> linarith) (p2 := ⟨hi.x, lo.y, lo.z⟩) (p3 := ⟨hi.x, hi.y, lo.z⟩) (p4 := ⟨lo.x, hi.y, lo.z⟩)
      (by ext <;> dsimp only <;> ring) (by ext <;> dsimp only <;> ring) (by ext <;> dsimp only <;> ring)
    exact .inl (.inl (.inl (.inl (.inl this))))
  | zhi h n =>
    have := quad_hit hs he (A := a) (B := b) (p := ⟨lo.x, lo.y, hi.z⟩) (a := ⟨hi.x - lo.x, 0, 0⟩) (b := ⟨0, hi.y - lo.y, 0⟩)
      (w := w) (α := αx) (β := αy) hL (by
        rw [norm_axis hs (c := (hi.x - lo.x) * (hi.y - lo.y)) (by unfold V3.cross V3.dot; ring)]
        rw [abs_of_pos (mul_pos X0 Y0)]; linarith) (by
        have e : (b.sub a).dot (V3.cross ⟨hi.x - lo.x, 0, 0⟩ ⟨0, hi.y - lo.y, 0⟩) = (b.z - a.z) * ((hi.x - lo.x) * (hi.y - lo.y)) := by
          unfold V3.cross V3.dot V3.sub; ring
        rw [e, abs_mul, abs_of_pos (mul_pos X0 Y0)]; exact tz n) hw0 hw1 fx0 fx1 fy0 fy1
      (by rw [hZ]; ext <;> dsimp only <;> linarith) (p2 := ⟨hi.x, lo.y, hi.z⟩) (p3 := ⟨hi.x, hi.y, hi.z⟩) (p4 := ⟨lo.x, hi.y, hi.z⟩)
      (by ext <;> dsimp only <;> ring) (by ext <;> dsimp only <;> ring) (by ext <;> dsimp only <;> ring)
    exact .inr this

end Ascot.Wall3D
