import Verif.Lemmas.WallTable
import Verif.Lemmas.TriInCube2
import Mathlib.Algebra.Order.Floor.Ring

set_option linter.unusedSectionVars false
set_option linter.unusedSimpArgs false

namespace Ascot.Wall3D
variable {K : Type} [Field K] [LinearOrder K] [IsStrictOrderedRing K]

theorem mem_cellIds {sqrt : K → K} {eps pad : K} {w : Wall K} {ix iy iz j : Nat} :
    j ∈ cellIds sqrt eps pad w ix iy iz ↔ ∃ t, w.tris[j]? = some t ∧
      ∀ c ∈ path (centre w ix iy iz) w.depth (domain w), triInCube sqrt eps t (padded pad c).1 (padded pad c).2 = true := by
  unfold cellIds passes
  simp only [List.mem_map, List.mem_filter, List.all_eq_true, Prod.exists, exists_eq_right, List.mk_mem_zipIdx_iff_getElem?]

/-- The triangles in a cell contain all that have a point in it. -/
theorem cell_complete {sqrt : K → K} (hs : IsSqrt sqrt) {eps pad margin : K} (he : 0 < eps) (hp : 0 ≤ pad)
    {depth : Nat} {ts : List (Tri K)} {w : Wall K} (h : LimitsOk margin depth ts w)
    (hxy : eps < w.xgrid * w.ygrid) (hxz : eps < w.xgrid * w.zgrid) (hyz : eps < w.ygrid * w.zgrid)
    {ix iy iz : Nat} (hx : ix < w.ngrid) (hy : iy < w.ngrid) (hz : iz < w.ngrid) {j : Nat} {t : Tri K}
    (ht : w.tris[j]? = some t) (hok : TriOk sqrt eps (gridOf w) t) {p : V3 K} (hin : InTri t.t1 t.t2 t.t3 p)
    (hb : InBox (corner w ix iy iz) (corner w (ix + 1) (iy + 1) (iz + 1)) p) :
    j ∈ cellIds sqrt eps pad w ix iy iz := by
  rw [mem_cellIds]
  refine ⟨t, ht, ?_⟩
  intro c hc
  obtain ⟨ax, ay, az⟩ := axisOk_cell h hx hy hz
  rw [centre_eq, h.dep] at hc
  obtain ⟨⟨x1, x2⟩, ⟨y1, y2⟩, ⟨z1, z2⟩⟩ :=
    (path_cell (g := gridOf w) (c := corner w ix iy iz) h.xpos h.ypos h.zpos depth (domain w) ax ay az).2 c hc
  obtain ⟨b1, b2, b3, b4, b5, b6⟩ := hb
  have h1 := h.xpos
  have h2 := h.ypos
  have h3 := h.zpos
  unfold corner at b1 b2 b3 b4 b5 b6 x1 x2 y1 y2 z1 z2
  unfold gridOf at x2 y2 z2
  dsimp only at b1 b2 b3 b4 b5 b6 x1 x2 y1 y2 z1 z2
  push_cast at b2 b4 b6
  refine triInCube_complete hs he hok ?_ hin ?_
  · unfold padded gridOf
    constructor <;> dsimp only <;> linarith
  · unfold padded
    constructor <;> dsimp only <;> linarith

variable [FloorRing K]

theorem along_between {a b c : Int} (h : (a ≤ c ∧ c ≤ b) ∨ (b ≤ c ∧ c ≤ a)) :
    ∃ i, i < (b - a).natAbs + 1 ∧ along a b i = c := by
  rcases h with ⟨h1, h2⟩ | ⟨h1, h2⟩
  · refine ⟨(c - a).natAbs, by omega, ?_⟩
    unfold along
    rw [if_neg (by omega)]
    omega
  · by_cases hab : b - a < 0
    · refine ⟨(a - c).natAbs, by omega, ?_⟩
      unfold along
      rw [if_pos hab]
      omega
    · refine ⟨0, by omega, ?_⟩
      unfold along
      simp only [Nat.cast_zero, zero_mul, add_zero]
      omega

theorem cellOf_mono {a b lo hi : K} {n : Nat} (hn : 0 ≤ (hi - lo) / n) (h : a ≤ b) : cellOf a lo hi n ≤ cellOf b lo hi n :=
  Int.floor_le_floor (div_le_div_of_nonneg_right (by linarith) hn)

theorem cellOf_between {a b c lo hi : K} {n : Nat} (hn : 0 ≤ (hi - lo) / n) (h : (a ≤ c ∧ c ≤ b) ∨ (b ≤ c ∧ c ≤ a)) :
    ∃ i, i < (cellOf b lo hi n - cellOf a lo hi n).natAbs + 1 ∧
      along (cellOf a lo hi n) (cellOf b lo hi n) i = cellOf c lo hi n := by
  apply along_between
  rcases h with ⟨h1, h2⟩ | ⟨h1, h2⟩
  · exact .inl ⟨cellOf_mono hn h1, cellOf_mono hn h2⟩
  · exact .inr ⟨cellOf_mono hn h1, cellOf_mono hn h2⟩

theorem between_point {a b c : K} (h0 : 0 ≤ c) (h1 : c ≤ 1) :
    (a ≤ a + c * (b - a) ∧ a + c * (b - a) ≤ b) ∨ (b ≤ a + c * (b - a) ∧ a + c * (b - a) ≤ a) := by
  rcases le_total a b with h | h
  · left; constructor <;> nlinarith
  · right; constructor <;> nlinarith

/-- The cell of a coordinate within the limits. -/
theorem cellOf_in {p lo hi g : K} {n : Nat} (hg : 0 < g) (hh : hi = lo + n * g) (h1 : lo ≤ p) (h2 : p < hi) :
    ∃ i : Nat, cellOf p lo hi n = i ∧ i < n ∧ lo + i * g ≤ p ∧ p ≤ lo + ((i + 1 : Nat) : K) * g := by
  have hn : (0 : K) < n := by
    by_contra hc
    have : (n : K) * g ≤ 0 := mul_nonpos_of_nonpos_of_nonneg (not_lt.1 hc) hg.le
    linarith
  have e : (hi - lo) / n = g := by rw [hh]; field_simp; ring
  have hd : 0 ≤ (p - lo) / g := div_nonneg (by linarith) hg.le
  have hf : 0 ≤ ⌊(p - lo) / g⌋ := Int.floor_nonneg.2 hd
  obtain ⟨i, hi'⟩ := Int.eq_ofNat_of_zero_le hf
  have f1 : (i : K) ≤ (p - lo) / g := by
    have := Int.floor_le ((p - lo) / g); rw [hi'] at this; exact_mod_cast this
  have f2 : (p - lo) / g < i + 1 := by
    have := Int.lt_floor_add_one ((p - lo) / g); rw [hi'] at this; exact_mod_cast this
  rw [le_div_iff₀ hg] at f1
  rw [div_lt_iff₀ hg] at f2
  refine ⟨i, by unfold cellOf; rw [e]; exact hi', ?_, by linarith, by push_cast; linarith⟩
  have : (i : K) < n := by
    by_contra hc
    have := mul_le_mul_of_nonneg_right (not_lt.1 hc) hg.le
    linarith
  exact_mod_cast this

/-- What the scan visits: the list is defined, contains valid identifiers only, and everything
stored in a visited cell. -/
theorem tested_ok {sqrt : K → K} {eps pad : K} {w : Wall K}
    (hr : ∀ ix iy iz, ix < w.ngrid → iy < w.ngrid → iz < w.ngrid → readCell w ix iy iz = some (cellIds sqrt eps pad w ix iy iz))
    (q1 q2 : V3 K) : ∃ l, tested w q1 q2 = some l ∧ (∀ j ∈ l, j < w.tris.length) ∧
      ∀ ix iy iz, ix < w.ngrid → iy < w.ngrid → iz < w.ngrid →
        (∃ i, i < (cellOf q2.x w.xmin w.xmax w.ngrid - cellOf q1.x w.xmin w.xmax w.ngrid).natAbs + 1 ∧
          along (cellOf q1.x w.xmin w.xmax w.ngrid) (cellOf q2.x w.xmin w.xmax w.ngrid) i = (ix : Int)) →
        (∃ i, i < (cellOf q2.y w.ymin w.ymax w.ngrid - cellOf q1.y w.ymin w.ymax w.ngrid).natAbs + 1 ∧
          along (cellOf q1.y w.ymin w.ymax w.ngrid) (cellOf q2.y w.ymin w.ymax w.ngrid) i = (iy : Int)) →
        (∃ i, i < (cellOf q2.z w.zmin w.zmax w.ngrid - cellOf q1.z w.zmin w.zmax w.ngrid).natAbs + 1 ∧
          along (cellOf q1.z w.zmin w.zmax w.ngrid) (cellOf q2.z w.zmin w.zmax w.ngrid) i = (iz : Int)) →
        ∀ j ∈ cellIds sqrt eps pad w ix iy iz, j ∈ l := by
  obtain ⟨g, hg⟩ : ∃ g : Int × Int × Int → List Nat, g = fun c =>
    if c.1 ≥ 0 ∧ c.1 < (w.ngrid : Int) ∧ c.2.1 ≥ 0 ∧ c.2.1 < (w.ngrid : Int) ∧ c.2.2 ≥ 0 ∧ c.2.2 < (w.ngrid : Int) then
      cellIds sqrt eps pad w c.1.toNat c.2.1.toNat c.2.2.toNat else [] := ⟨_, rfl⟩
  have hvalid : ∀ c, ∀ j ∈ g c, j < w.tris.length := by
    intro c j hj
    rw [hg] at hj
    dsimp only at hj
    split at hj
    · obtain ⟨t, ht, _⟩ := mem_cellIds.1 hj
      exact (List.getElem?_eq_some_iff.1 ht).1
    · simp at hj
  refine ⟨((List.range ((cellOf q2.x w.xmin w.xmax w.ngrid - cellOf q1.x w.xmin w.xmax w.ngrid).natAbs + 1)).flatMap fun i =>
      (List.range ((cellOf q2.y w.ymin w.ymax w.ngrid - cellOf q1.y w.ymin w.ymax w.ngrid).natAbs + 1)).flatMap fun j =>
      (List.range ((cellOf q2.z w.zmin w.zmax w.ngrid - cellOf q1.z w.zmin w.zmax w.ngrid).natAbs + 1)).map fun k =>
        (along (cellOf q1.x w.xmin w.xmax w.ngrid) (cellOf q2.x w.xmin w.xmax w.ngrid) i,
         along (cellOf q1.y w.ymin w.ymax w.ngrid) (cellOf q2.y w.ymin w.ymax w.ngrid) j,
         along (cellOf q1.z w.zmin w.zmax w.ngrid) (cellOf q2.z w.zmin w.zmax w.ngrid) k)).map g |>.flatten, ?_, ?_, ?_⟩
  · unfold tested
    dsimp only
    rw [mapM_all (g := g)]
    · rfl
    · intro c _
      rw [hg]
      dsimp only
      split
      · rename_i hc
        rw [hr _ _ _ (by omega) (by omega) (by omega)]
      · rfl
  · intro j hj
    rw [List.mem_flatten] at hj
    obtain ⟨l, hl, hj⟩ := hj
    obtain ⟨c, _, rfl⟩ := List.mem_map.1 hl
    exact hvalid c j hj
  · intro ix iy iz hx hy hz ⟨i, i1, i2⟩ ⟨k, k1, k2⟩ ⟨m, m1, m2⟩ j hj
    rw [List.mem_flatten]
    refine ⟨g (ix, iy, iz), List.mem_map.2 ⟨_, ?_, rfl⟩, ?_⟩
    · rw [List.mem_flatMap]
      refine ⟨i, List.mem_range.2 i1, ?_⟩
      rw [List.mem_flatMap]
      refine ⟨k, List.mem_range.2 k1, ?_⟩
      rw [List.mem_map]
      exact ⟨m, List.mem_range.2 m1, by rw [i2, k2, m2]⟩
    · rw [hg]
      dsimp only
      rw [if_pos ⟨by omega, by omega, by omega, by omega, by omega, by omega⟩]
      simpa using hj

/-- The fold over the tested triangles. -/
theorem scan_ok {sqrt : K → K} {eps : K} {w : Wall K} {q1 q2 : V3 K} : ∀ (l : List Nat) (b : Hit K), (∀ j ∈ l, j < w.tris.length) →
    ∃ h, l.foldlM (testOne sqrt eps w q1 q2) b = some h ∧ h.w ≤ b.w ∧
      (h = b ∨ ∃ j ∈ l, ∃ t, w.tris[j]? = some t ∧ h.id = j + 1 ∧ h.w = triCollision sqrt eps q1 q2 t.t1 t.t2 t.t3 ∧ 0 ≤ h.w ∧ h.w < b.w) ∧
      ∀ j ∈ l, ∀ t, w.tris[j]? = some t → 0 ≤ triCollision sqrt eps q1 q2 t.t1 t.t2 t.t3 → h.w ≤ triCollision sqrt eps q1 q2 t.t1 t.t2 t.t3
  | [], b, _ => ⟨b, rfl, le_rfl, .inl rfl, by simp⟩
  | j :: l, b, hv => by
    have hj := hv j (by simp)
    obtain ⟨t, ht⟩ : ∃ t, w.tris[j]? = some t := ⟨w.tris[j], by simp [hj]⟩
    obtain ⟨c, hc⟩ : ∃ c, triCollision sqrt eps q1 q2 t.t1 t.t2 t.t3 = c := ⟨_, rfl⟩
    have h1 : testOne sqrt eps w q1 q2 b j = some (if c ≥ 0 ∧ c < b.w then ⟨c, j + 1⟩ else b) := by
      unfold testOne; rw [ht]; simp only [Option.bind_eq_bind, Option.bind_some]; rw [hc]; rfl
    rw [List.foldlM_cons, h1]
    simp only [Option.bind_eq_bind, Option.bind_some]
    by_cases hcb : c ≥ 0 ∧ c < b.w
    · rw [if_pos hcb]
      obtain ⟨h, e1, e2, e3, e4⟩ := scan_ok l ⟨c, j + 1⟩ (fun k hk => hv k (by simp [hk]))
      dsimp only at e2 e3
      refine ⟨h, e1, le_trans e2 hcb.2.le, .inr ?_, ?_⟩
      · rcases e3 with rfl | ⟨k, hk, s, s1, s2, s3, s4, s5⟩
        · exact ⟨j, by simp, t, ht, rfl, hc.symm, hcb.1, hcb.2⟩
        · exact ⟨k, by simp [hk], s, s1, s2, s3, s4, lt_trans s5 hcb.2⟩
      · intro k hk s hs h0
        rcases List.mem_cons.1 hk with rfl | hk
        · rw [ht] at hs; cases hs; rw [hc]; exact e2
        · exact e4 k hk s hs h0
    · rw [if_neg hcb]
      obtain ⟨h, e1, e2, e3, e4⟩ := scan_ok l b (fun k hk => hv k (by simp [hk]))
      refine ⟨h, e1, e2, ?_, ?_⟩
      · rcases e3 with rfl | ⟨k, hk, s, s1⟩
        · exact .inl rfl
        · exact .inr ⟨k, by simp [hk], s, s1⟩
      · intro k hk s hs h0
        rcases List.mem_cons.1 hk with rfl | hk
        · rw [ht] at hs; cases hs; rw [hc] at h0 ⊢
          exact le_trans e2 (not_lt.1 fun hlt => hcb ⟨h0, hlt⟩)
        · exact e4 k hk s hs h0

/-- Points of a triangle are within the limits of its vertices. -/
theorem inTri_limits {t : Tri K} {p : V3 K} (hin : InTri t.t1 t.t2 t.t3 p) {lo hi : K} {f : V3 K → K}
    (hf : ∀ u v : K, f ⟨t.t1.x + u * (t.t2.x - t.t1.x) + v * (t.t3.x - t.t1.x), t.t1.y + u * (t.t2.y - t.t1.y) + v * (t.t3.y - t.t1.y),
      t.t1.z + u * (t.t2.z - t.t1.z) + v * (t.t3.z - t.t1.z)⟩ = f t.t1 + u * (f t.t2 - f t.t1) + v * (f t.t3 - f t.t1))
    (h : ∀ v ∈ [t.t1, t.t2, t.t3], lo ≤ f v ∧ f v ≤ hi) : lo ≤ f p ∧ f p ≤ hi := by
  obtain ⟨u, v, u0, v0, uv, rfl⟩ := hin
  obtain ⟨a1, a2⟩ := h t.t1 (by simp)
  obtain ⟨b1, b2⟩ := h t.t2 (by simp)
  obtain ⟨c1, c2⟩ := h t.t3 (by simp)
  rw [hf]
  constructor <;> nlinarith [mul_nonneg u0 (sub_nonneg.2 b1), mul_nonneg v0 (sub_nonneg.2 c1), mul_nonneg u0 (sub_nonneg.2 b2),
    mul_nonneg v0 (sub_nonneg.2 c2), mul_nonneg (sub_nonneg.2 uv) (sub_nonneg.2 a1), mul_nonneg (sub_nonneg.2 uv) (sub_nonneg.2 a2)]

end Ascot.Wall3D
