import Verif.Lemmas.WallScan
import Mathlib.Analysis.Real.Sqrt
import Mathlib.Algebra.Order.Archimedean.Real.Basic
import Mathlib.Data.Rat.Floor

/-!
# C30, C31, C32 and C69: the three-dimensional wall
-/
set_option linter.unusedSectionVars false
set_option linter.unusedSimpArgs false

namespace Ascot.C30
open Ascot.Wall3D
variable {K : Type} [Field K] [LinearOrder K] [IsStrictOrderedRing K]

/-- **C30.** For all depths, domains, lists of triangles (given by their overlap tests and
identifiers) and points that are not on a dividing plane, the lookup gives the identifiers of
exactly those that pass the test with all padded boxes on the path to the point, in the order in
which they were added. -/
theorem lookup (pad : K) (d : Nat) (b : Box K) (p : V3 K) (hp : OffPlanes p d b)
    (ts : List ((V3 K → V3 K → Bool) × Nat)) :
    (ts.foldl (fun t q => t.add q.1 q.2) (create pad d b.lo.x b.hi.x b.lo.y b.hi.y b.lo.z b.hi.z)).get p =
      some ((ts.filter fun q => (path p d b).all fun c => q.1 (padded pad c).1 (padded pad c).2).map Prod.snd) := by
  have := get_fold pad p d b hp ts _ [] (shape_create pad d b) (get_create pad p d b hp)
  simpa [passes] using this

example : OffPlanes (K := ℚ) ⟨1 / 10, 2 / 10, 9 / 10⟩ 2 ⟨⟨0, 0, 0⟩, ⟨1, 1, 1⟩⟩ := by
  simp [OffPlanes, eighth, half]; norm_num

/-- The boxes on the path contain the point, each has half the size of the one before. -/
theorem path_contains (p : V3 K) : ∀ (d : Nat) (b : Box K), InBox b.lo b.hi p →
    ∀ c ∈ path p d b, InBox c.lo c.hi p
  | 0, _, _, c, hc => by simp [path] at hc
  | d + 1, b, h, c, hc => by
    have key : ∀ lo hi q : K, lo ≤ q → q ≤ hi → (half lo hi q).1 ≤ q ∧ q ≤ (half lo hi q).2 := by
      intro lo hi q h1 h2
      unfold half
      split
      · exact ⟨h1, le_of_lt ‹_›⟩
      · exact ⟨not_lt.1 ‹_›, h2⟩
    have h8 : InBox (eighth b p).lo (eighth b p).hi p := by
      obtain ⟨x1, x2⟩ := key _ _ _ h.x1 h.x2
      obtain ⟨y1, y2⟩ := key _ _ _ h.y1 h.y2
      obtain ⟨z1, z2⟩ := key _ _ _ h.z1 h.z2
      exact ⟨x1, x2, y1, y2, z1, z2⟩
    rcases List.mem_cons.1 hc with rfl | hc
    · exact h8
    · exact path_contains p d _ h8 c hc

theorem path_length (p : V3 K) : ∀ (d : Nat) (b : Box K), (path p d b).length = d
  | 0, _ => rfl
  | d + 1, b => by rw [path, List.length_cons, path_length p d]

/-- On the plane between the first boxes the lookup fails (a null pointer is returned), so that the
hypothesis of `lookup` cannot be dropped. -/
theorem on_plane (pad : K) (d : Nat) (b : Box K) (p : V3 K) (h : p.x = (b.hi.x + b.lo.x) / 2) :
    (create pad (d + 1) b.lo.x b.hi.x b.lo.y b.hi.y b.lo.z b.hi.z).get p = none := by
  have e : (b.lo.x - pad + (b.hi.x + pad)) / 2 = p.x := by rw [h]; ring
  simp only [create, Tree.get]
  rw [e]
  simp

/-- **C30**, cells: initialisation succeeds for every wall with at least one triangle, without
invalid access, and the table then has for each cell the triangles that pass the test with all
padded boxes on the path to its centre.  These boxes contain the cell, the last one is the cell. -/
theorem cells (sqrt : K → K) (eps pad : K) {margin : K} (hm : 0 < margin) (depth : Nat) {ts : List (Tri K)} (hne : ts ≠ []) :
    ∃ w, init sqrt eps pad margin depth ts = some w ∧ w.tris = ts ∧ w.ngrid = 2 ^ depth ∧
      (∀ ix iy iz, ix < w.ngrid → iy < w.ngrid → iz < w.ngrid →
        (∃ l, readCell w ix iy iz = some l ∧ l.Pairwise (· < ·) ∧ ∀ j, j ∈ l ↔ ∃ t, ts[j]? = some t ∧
          ∀ c ∈ path (centre w ix iy iz) depth (domain w), triInCube sqrt eps t (padded pad c).1 (padded pad c).2 = true) ∧
        OffPlanes (centre w ix iy iz) depth (domain w) ∧
        (∀ c ∈ path (centre w ix iy iz) depth (domain w), ∀ p,
          InBox (corner w ix iy iz) (corner w (ix + 1) (iy + 1) (iz + 1)) p → InBox c.lo c.hi p) ∧
        (0 < depth → (path (centre w ix iy iz) depth (domain w)).getLast? =
          some ⟨corner w ix iy iz, corner w (ix + 1) (iy + 1) (iz + 1)⟩)) := by
  obtain ⟨w, h1, h2, h3⟩ := init_ok sqrt eps pad hm depth hne
  refine ⟨w, h1, h2.tris, h2.ngrid, ?_⟩
  intro ix iy iz hx hy hz
  obtain ⟨ax, ay, az⟩ := axisOk_cell h2 hx hy hz
  obtain ⟨p1, p2⟩ := path_cell (g := gridOf w) (c := corner w ix iy iz) h2.xpos h2.ypos h2.zpos depth (domain w) ax ay az
  have hc1 : corner w (ix + 1) (iy + 1) (iz + 1) = ⟨(corner w ix iy iz).x + (gridOf w).x, (corner w ix iy iz).y + (gridOf w).y,
      (corner w ix iy iz).z + (gridOf w).z⟩ := by
    unfold corner gridOf; ext <;> dsimp only <;> push_cast <;> ring
  refine ⟨⟨_, h3 ix iy iz hx hy hz, ?_, ?_⟩, ?_, ?_, ?_⟩
  · unfold cellIds
    have hp : (w.tris.zipIdx.map Prod.snd).Pairwise (· < ·) := by
      rw [List.zipIdx_map_snd]; exact List.pairwise_lt_range'
    exact hp.sublist (List.filter_sublist.map _)
  · intro j
    rw [mem_cellIds, h2.tris, h2.dep]
  · rw [centre_eq]; exact p1
  · intro c hc p hp
    rw [centre_eq] at hc
    obtain ⟨⟨x1, x2⟩, ⟨y1, y2⟩, ⟨z1, z2⟩⟩ := p2 c hc
    rw [hc1] at hp
    obtain ⟨b1, b2, b3, b4, b5, b6⟩ := hp
    dsimp only at b2 b4 b6
    constructor <;> linarith
  · intro hd
    obtain ⟨d, rfl⟩ : ∃ d, depth = d + 1 := ⟨depth - 1, by omega⟩
    rw [centre_eq, hc1]
    exact path_last h2.xpos h2.ypos h2.zpos d (domain w) ax ay az

/-- The sizes of the cells, in terms of the parameters. -/
theorem big_cells {eps margin : K} {depth : Nat} {ts : List (Tri K)} {w : Wall K} (h : LimitsOk margin depth ts w) (hne : ts ≠ [])
    (hm : 0 < margin) (hsize : eps * (2 ^ depth * 2 ^ depth) < (2 * margin) * (2 * margin)) :
    eps < w.xgrid * w.ygrid ∧ eps < w.xgrid * w.zgrid ∧ eps < w.ygrid * w.zgrid := by
  obtain ⟨t, ht⟩ := List.exists_mem_of_ne_nil ts hne
  obtain ⟨x1, x2, y1, y2, z1, z2⟩ := h.inside t ht t.t1 (by simp)
  have hp : (0 : K) < 2 ^ depth := by positivity
  have hx : 2 * margin ≤ 2 ^ depth * w.xgrid := by have := h.xg; linarith
  have hy : 2 * margin ≤ 2 ^ depth * w.ygrid := by have := h.yg; linarith
  have hz : 2 * margin ≤ 2 ^ depth * w.zgrid := by have := h.zg; linarith
  have key : ∀ a b : K, 2 * margin ≤ 2 ^ depth * a → 2 * margin ≤ 2 ^ depth * b → eps < a * b := by
    intro a b ha hb
    have h1 : (2 * margin) * (2 * margin) ≤ (2 ^ depth * a) * (2 ^ depth * b) :=
      mul_le_mul ha hb (by linarith) (by linarith)
    have h2 : eps * (2 ^ depth * 2 ^ depth) < (a * b) * (2 ^ depth * 2 ^ depth) := by
      refine lt_of_lt_of_le hsize (le_trans h1 (le_of_eq ?_)); ring
    exact lt_of_mul_lt_mul_right h2 (by positivity)
  exact ⟨key _ _ hx hy, key _ _ hx hz, key _ _ hy hz⟩

/-- A triangle that has a point in a cell is in the list of that cell.  Proved for triangles that are
not almost parallel to a coordinate plane or axis (`TriOk`); the overlap test is not exact without
such a condition. -/
theorem near_partial {sqrt : K → K} (hs : IsSqrt sqrt) {eps pad margin : K} (he : 0 < eps) (hp : 0 ≤ pad) (hm : 0 < margin)
    {depth : Nat} (hsize : eps * (2 ^ depth * 2 ^ depth) < (2 * margin) * (2 * margin)) {ts : List (Tri K)} {w : Wall K}
    (hw : init sqrt eps pad margin depth ts = some w)
    {ix iy iz : Nat} (hx : ix < w.ngrid) (hy : iy < w.ngrid) (hz : iz < w.ngrid) {j : Nat} {t : Tri K}
    (ht : ts[j]? = some t) (hok : TriOk sqrt eps (gridOf w) t) {p : V3 K} (hin : InTri t.t1 t.t2 t.t3 p)
    (hb : InBox (corner w ix iy iz) (corner w (ix + 1) (iy + 1) (iz + 1)) p) :
    ∃ l, readCell w ix iy iz = some l ∧ j ∈ l := by
  have hne : ts ≠ [] := by rintro rfl; simp at ht
  obtain ⟨w', h1, h2, h3⟩ := init_ok sqrt eps pad hm depth hne
  rw [hw] at h1
  cases h1
  obtain ⟨s1, s2, s3⟩ := big_cells h2 hne hm hsize
  exact ⟨_, h3 ix iy iz hx hy hz, cell_complete hs he hp h2 s1 s2 s3 hx hy hz (by rw [h2.tris]; exact ht) hok hin hb⟩

end Ascot.C30

namespace Ascot.C32
open Ascot.Wall3D
variable {K : Type} [Field K] [LinearOrder K] [IsStrictOrderedRing K]

theorem realSqrt : IsSqrt Real.sqrt := fun x hx => ⟨Real.sqrt_nonneg x, Real.mul_self_sqrt hx⟩

theorem norm_axis_z (c : ℝ) : (⟨0, 0, c⟩ : V3 ℝ).norm Real.sqrt = |c| := by
  unfold V3.norm; simp [Real.sqrt_mul_self_eq_abs]

/-- **C32**, soundness: what is reported for a step that is not parallel to the triangle is a point
of the step and of the triangle. -/
theorem sound {sqrt : K → K} (hs : IsSqrt sqrt) {eps : K} (he : 0 < eps) {q1 q2 t1 t2 t3 : V3 K}
    (h : Transversal sqrt eps q1 q2 t1 t2 t3) (h0 : 0 ≤ triCollision sqrt eps q1 q2 t1 t2 t3) :
    triCollision sqrt eps q1 q2 t1 t2 t3 ≤ 1 ∧ InTri t1 t2 t3 (pointAt q1 q2 (triCollision sqrt eps q1 q2 t1 t2 t3)) := by
  by_cases ha : eps < (normalOf t1 t2 t3).norm sqrt
  · exact (transversal_spec hs he h ha).1 h0
  · exfalso
    unfold triCollision at h0
    dsimp only at h0
    rw [if_neg h.2, if_neg (show ¬ ((t2.sub t1).cross (t3.sub t1)).norm sqrt > eps from ha)] at h0
    linarith

/-- **C32**, completeness, for triangles with an area above half of the tolerance. -/
theorem complete_partial {sqrt : K → K} (hs : IsSqrt sqrt) {eps : K} (he : 0 < eps) {q1 q2 t1 t2 t3 : V3 K}
    (h : Transversal sqrt eps q1 q2 t1 t2 t3) (ha : eps < (normalOf t1 t2 t3).norm sqrt) {w : K} (h0 : 0 ≤ w) (h1 : w ≤ 1)
    (hin : InTri t1 t2 t3 (pointAt q1 q2 w)) : triCollision sqrt eps q1 q2 t1 t2 t3 = w :=
  (transversal_spec hs he h ha).2 w h0 h1 hin

/-- The hypotheses hold for a step through the unit triangle. -/
theorem witness : Transversal Real.sqrt (1 / 10 ^ 9) ⟨1 / 4, 1 / 4, 1⟩ ⟨1 / 4, 1 / 4, -1⟩ ⟨0, 0, 0⟩ ⟨1, 0, 0⟩ ⟨0, 1, 0⟩ ∧
    (1 / 10 ^ 9 : ℝ) < (normalOf ⟨0, 0, 0⟩ ⟨1, 0, 0⟩ ⟨0, 1, 0⟩).norm Real.sqrt ∧
    InTri (K := ℝ) ⟨0, 0, 0⟩ ⟨1, 0, 0⟩ ⟨0, 1, 0⟩ (pointAt ⟨1 / 4, 1 / 4, 1⟩ ⟨1 / 4, 1 / 4, -1⟩ (1 / 2)) := by
  have e1 : (⟨1 / 4, 1 / 4, -1⟩ : V3 ℝ).sub ⟨1 / 4, 1 / 4, 1⟩ = ⟨0, 0, -2⟩ := by
    unfold V3.sub; ext <;> norm_num
  have e2 : normalOf (⟨0, 0, 0⟩ : V3 ℝ) ⟨1, 0, 0⟩ ⟨0, 1, 0⟩ = ⟨0, 0, 1⟩ := by
    unfold normalOf V3.cross V3.sub; ext <;> norm_num
  unfold Transversal
  rw [e1, e2, norm_axis_z, norm_axis_z]
  refine ⟨⟨?_, by norm_num⟩, by norm_num, 1 / 4, 1 / 4, by norm_num, by norm_num, by norm_num, ?_⟩
  · unfold V3.dot; norm_num
  · unfold pointAt; ext <;> norm_num

/-- Every reported collision, also for steps almost parallel to the triangle, which are moved before
the test, is within twice the tolerance of the triangle. -/
theorem near {sqrt : K → K} (hs : IsSqrt sqrt) {eps : K} (he : 0 < eps) {q1 q2 t1 t2 t3 : V3 K}
    (h0 : 0 ≤ triCollision sqrt eps q1 q2 t1 t2 t3) :
    triCollision sqrt eps q1 q2 t1 t2 t3 ≤ 1 ∧ ∃ p, InTri t1 t2 t3 p ∧
      (p.sub (pointAt q1 q2 (triCollision sqrt eps q1 q2 t1 t2 t3))).norm sqrt ≤ 2 * eps :=
  near_spec hs he h0

/-- A step in the plane of the triangle that begins in the triangle is reported at its beginning. -/
theorem inplane {sqrt : K → K} (hs : IsSqrt sqrt) {eps : K} (he : 0 < eps) {q1 q2 t1 t2 t3 : V3 K}
    (hL : (q2.sub q1).norm sqrt ≠ 0) (h : (q2.sub q1).dot (normalOf t1 t2 t3) = 0)
    (ha : eps < (normalOf t1 t2 t3).norm sqrt) (hin : InTri t1 t2 t3 q1) :
    triCollision sqrt eps q1 q2 t1 t2 t3 = 0 := inplane_spec hs he hL h ha hin

example : ((⟨1 / 2, 1 / 4, 0⟩ : V3 ℝ).sub ⟨1 / 4, 1 / 4, 0⟩).norm Real.sqrt ≠ 0 ∧
    ((⟨1 / 2, 1 / 4, 0⟩ : V3 ℝ).sub ⟨1 / 4, 1 / 4, 0⟩).dot (normalOf ⟨0, 0, 0⟩ ⟨1, 0, 0⟩ ⟨0, 1, 0⟩) = 0 ∧
    InTri (K := ℝ) ⟨0, 0, 0⟩ ⟨1, 0, 0⟩ ⟨0, 1, 0⟩ ⟨1 / 4, 1 / 4, 0⟩ := by
  refine ⟨?_, ?_, 1 / 4, 1 / 4, by norm_num, by norm_num, by norm_num, by ext <;> norm_num⟩
  · unfold V3.norm V3.sub; norm_num
  · unfold normalOf V3.dot V3.cross V3.sub; norm_num

/-- A triangle with an area not above half of the tolerance is never reported. -/
theorem small_never (sqrt : K → K) {eps : K} {q1 q2 t1 t2 t3 : V3 K} (ha : (normalOf t1 t2 t3).norm sqrt ≤ eps) :
    triCollision sqrt eps q1 q2 t1 t2 t3 = -1 := by
  unfold triCollision
  dsimp only
  rw [if_neg (show ¬ ((t2.sub t1).cross (t3.sub t1)).norm sqrt > eps from not_lt.2 ha)]
  split <;> rfl

/-- **C32** does not hold for all triangles: one with edges of 10 micrometres, crossed
perpendicularly, is missed. -/
theorem not_complete : ∃ q1 q2 t1 t2 t3 : V3 ℝ,
    (q2.sub q1).dot (normalOf t1 t2 t3) ≠ 0 ∧ InTri t1 t2 t3 (pointAt q1 q2 (1 / 2)) ∧
    triCollision Real.sqrt (1 / 10 ^ 9) q1 q2 t1 t2 t3 = -1 := by
  refine ⟨⟨0, 0, 1⟩, ⟨0, 0, -1⟩, ⟨0, 0, 0⟩, ⟨1 / 10 ^ 5, 0, 0⟩, ⟨0, 1 / 10 ^ 5, 0⟩, ?_, ?_, ?_⟩
  · unfold normalOf V3.dot V3.cross V3.sub; norm_num
  · exact ⟨0, 0, le_rfl, le_rfl, by norm_num, by unfold pointAt; ext <;> norm_num⟩
  · apply small_never
    have : normalOf (⟨0, 0, 0⟩ : V3 ℝ) ⟨1 / 10 ^ 5, 0, 0⟩ ⟨0, 1 / 10 ^ 5, 0⟩ = ⟨0, 0, 1 / 10 ^ 10⟩ := by
      unfold normalOf V3.cross V3.sub; ext <;> norm_num
    rw [this, norm_axis_z, abs_of_pos (by norm_num)]; norm_num

theorem le_one (sqrt : K → K) (eps : K) (q1 q2 t1 t2 t3 : V3 K) : triCollision sqrt eps q1 q2 t1 t2 t3 ≤ 1 := by
  have hr : ∀ (Q q h : V3 K) (det : K) (a b c d : V3 K), collisionRest sqrt Q q h det a b c d ≤ 1 := by
    intro Q q h det a b c d
    unfold collisionRest
    dsimp only
    split
    · linarith
    · split
      · split
        · linarith
        · linarith
      · linarith
  unfold triCollision
  dsimp only
  split
  · linarith
  · split
    · split
      · split
        · linarith
        · exact hr _ _ _ _ _ _ _ _
      · exact hr _ _ _ _ _ _ _ _
    · linarith

end Ascot.C32

namespace Ascot.C31
open Ascot.Wall3D
variable {K : Type} [Field K] [LinearOrder K] [IsStrictOrderedRing K]

/-- The result is the first hit among the triangles with indices in `l`: zero if none is hit, and
otherwise one with the smallest parameter. -/
def FirstOf (hit : Nat → K → Prop) (h : Hit K) : Prop :=
  (h.id = 0 ∧ ∀ j c, ¬ hit j c) ∨ ∃ j, h.id = j + 1 ∧ hit j h.w ∧ ∀ k c, hit k c → h.w ≤ c

/-- **C31**, the search through all triangles. -/
theorem full (sqrt : K → K) (eps : K) (ts : List (Tri K)) (q1 q2 : V3 K) :
    FirstOf (fun j c => ∃ t, ts[j]? = some t ∧ c = triCollision sqrt eps q1 q2 t.t1 t.t2 t.t3 ∧ 0 < c)
      (hitWallFull sqrt eps ts q1 q2) := by
  obtain ⟨f, hf⟩ : ∃ f : Tri K → K, f = fun t => triCollision sqrt eps q1 q2 t.t1 t.t2 t.t3 := ⟨_, rfl⟩
  have hle : ∀ t, f t ≤ 1 := fun t => by rw [hf]; exact C32.le_one ..
  have key : ∀ (l : List (Tri K × Nat)) (b : Hit K),
      let h := l.foldl (fun b t => if f t.1 > 0 then (if f t.1 < b.w then ⟨f t.1, t.2 + 1⟩ else b) else b) b
      h.w ≤ b.w ∧ (h = b ∨ ∃ q ∈ l, h = ⟨f q.1, q.2 + 1⟩ ∧ 0 < f q.1) ∧ ∀ q ∈ l, 0 < f q.1 → h.w ≤ f q.1 := by
    intro l
    induction l with
    | nil => intro b; exact ⟨le_rfl, .inl rfl, by simp⟩
    | cons t l ih =>
      intro b
      rw [List.foldl_cons]
      dsimp only
      by_cases h0 : f t.1 > 0
      · rw [if_pos h0]
        by_cases h1 : f t.1 < b.w
        · rw [if_pos h1]
          obtain ⟨a1, a2, a3⟩ := ih ⟨f t.1, t.2 + 1⟩
          refine ⟨le_trans a1 h1.le, .inr ?_, ?_⟩
          · rcases a2 with e | ⟨q, hq, e⟩
            · exact ⟨t, by simp, e, h0⟩
            · exact ⟨q, by simp [hq], e⟩
          · intro q hq hq0
            rcases List.mem_cons.1 hq with rfl | hq
            · exact a1
            · exact a3 q hq hq0
        · rw [if_neg h1]
          obtain ⟨a1, a2, a3⟩ := ih b
          refine ⟨a1, ?_, ?_⟩
          · rcases a2 with e | ⟨q, hq, e⟩
            · exact .inl e
            · exact .inr ⟨q, by simp [hq], e⟩
          · intro q hq hq0
            rcases List.mem_cons.1 hq with rfl | hq
            · exact le_trans a1 (not_lt.1 h1)
            · exact a3 q hq hq0
      · rw [if_neg h0]
        obtain ⟨a1, a2, a3⟩ := ih b
        refine ⟨a1, ?_, ?_⟩
        · rcases a2 with e | ⟨q, hq, e⟩
          · exact .inl e
          · exact .inr ⟨q, by simp [hq], e⟩
        · intro q hq hq0
          rcases List.mem_cons.1 hq with rfl | hq
          · exact absurd hq0 h0
          · exact a3 q hq hq0
  obtain ⟨a1, a2, a3⟩ := key ts.zipIdx ⟨11 / 10, 0⟩
  have e : hitWallFull sqrt eps ts q1 q2 = ts.zipIdx.foldl (fun b t => if f t.1 > 0 then (if f t.1 < b.w then ⟨f t.1, t.2 + 1⟩ else b) else b)
      ⟨11 / 10, 0⟩ := by rw [hf]; rfl
  rw [← e] at a1 a2 a3
  have hmem : ∀ j t, ts[j]? = some t → (t, j) ∈ ts.zipIdx := fun j t h => List.mk_mem_zipIdx_iff_getElem?.2 h
  rcases a2 with h | ⟨⟨t, j⟩, hq, h, h0⟩
  · left
    refine ⟨by rw [h], ?_⟩
    rintro j c ⟨t, ht, rfl, hc⟩
    have e2 : triCollision sqrt eps q1 q2 t.t1 t.t2 t.t3 = f t := by rw [hf]
    rw [e2] at hc
    have := a3 (t, j) (hmem j t ht) hc
    rw [h] at this
    have := hle t
    dsimp only at *
    linarith
  · right
    refine ⟨j, by rw [h], ⟨t, List.mk_mem_zipIdx_iff_getElem?.1 hq, by rw [h, hf], by rw [h]; exact h0⟩, ?_⟩
    rintro k c ⟨s, hs, rfl, hc⟩
    have e2 : triCollision sqrt eps q1 q2 s.t1 s.t2 s.t3 = f s := by rw [hf]
    rw [e2] at hc ⊢
    exact a3 (s, k) (hmem k s hs) hc

variable [FloorRing K]

/-- **C31**, the search with the table: for all walls set up by the initialisation and all steps no
invalid access is made, and the result is the first hit among the triangles tested. -/
theorem first (sqrt : K → K) {eps pad margin : K} (hm : 0 < margin) {depth : Nat} {ts : List (Tri K)} {w : Wall K}
    (hw : init sqrt eps pad margin depth ts = some w) (q1 q2 : V3 K) :
    ∃ l h, tested w q1 q2 = some l ∧ hitWallXyz sqrt eps w q1 q2 = some h ∧
      FirstOf (fun j c => j ∈ l ∧ ∃ t, ts[j]? = some t ∧ c = triCollision sqrt eps q1 q2 t.t1 t.t2 t.t3 ∧ 0 ≤ c) h := by
  have hne : ts ≠ [] := by
    rintro rfl
    simp [init, limits] at hw
  obtain ⟨w', h1, h2, h3⟩ := init_ok sqrt eps pad hm depth hne
  rw [hw] at h1
  cases h1
  obtain ⟨l, hl, hv, _⟩ := tested_ok h3 q1 q2
  obtain ⟨h, e1, e2, e3, e4⟩ := scan_ok (sqrt := sqrt) (eps := eps) (w := w) (q1 := q1) (q2 := q2) l ⟨11 / 10, 0⟩ hv
  rw [h2.tris] at e3 e4
  refine ⟨l, h, hl, ?_, ?_⟩
  · unfold hitWallXyz; rw [hl]; exact e1
  · rcases e3 with rfl | ⟨j, hj, t, ht, i1, i2, i3, _⟩
    · left
      refine ⟨rfl, ?_⟩
      rintro j c ⟨hj, t, ht, rfl, hc⟩
      have := e4 j hj t ht hc
      have := C32.le_one sqrt eps q1 q2 t.t1 t.t2 t.t3
      dsimp only at *
      linarith
    · right
      refine ⟨j, i1, ⟨hj, t, ht, i2, i3⟩, ?_⟩
      rintro k c ⟨hk, s, hs, rfl, hc⟩
      exact e4 k hk s hs hc

/-- Initialisation succeeds for every non-empty wall, see also `C30.cells`. -/
example : ∃ w, init Real.sqrt (1 / 10 ^ 9) (1 / 10 ^ 6) (1 / 10) 6 [(⟨⟨0, 0, 0⟩, ⟨1, 0, 0⟩, ⟨0, 1, 0⟩⟩ : Tri ℝ)] = some w := by
  obtain ⟨w, h, _⟩ := C30.cells Real.sqrt (1 / 10 ^ 9 : ℝ) (1 / 10 ^ 6) (by norm_num : (0 : ℝ) < 1 / 10) 6
    (ts := [(⟨⟨0, 0, 0⟩, ⟨1, 0, 0⟩, ⟨0, 1, 0⟩⟩ : Tri ℝ)]) (by simp)
  exact ⟨w, h⟩

end Ascot.C31

namespace Ascot.C69
open Ascot.Wall3D
variable {K : Type} [Field K] [LinearOrder K] [IsStrictOrderedRing K] [FloorRing K]

/-- **C69.** For every wall set up by the initialisation, if a step crosses a triangle at parameter
`c`, a hit is reported, and not later than `c`.  Proved for triangles and steps that are not almost
parallel (`TriOk`, `Transversal`), with all cells larger than the tolerance; not proved without
these conditions, in which the code's tests are inexact. -/
theorem no_miss_partial {sqrt : K → K} (hs : IsSqrt sqrt) {eps pad margin : K} (he : 0 < eps) (hp : 0 ≤ pad) (hm : 0 < margin)
    {depth : Nat} (hsize : eps * (2 ^ depth * 2 ^ depth) < (2 * margin) * (2 * margin)) {ts : List (Tri K)} {w : Wall K}
    (hw : init sqrt eps pad margin depth ts = some w) {j : Nat} {t : Tri K} (ht : ts[j]? = some t)
    (hok : TriOk sqrt eps (gridOf w) t) {q1 q2 : V3 K} (htr : Transversal sqrt eps q1 q2 t.t1 t.t2 t.t3)
    {c : K} (h0 : 0 ≤ c) (h1 : c ≤ 1) (hin : InTri t.t1 t.t2 t.t3 (pointAt q1 q2 c)) :
    ∃ h, hitWallXyz sqrt eps w q1 q2 = some h ∧ h.id ≠ 0 ∧ 0 ≤ h.w ∧ h.w ≤ c := by
  have hne : ts ≠ [] := by rintro rfl; simp at ht
  obtain ⟨w', k1, k2, k3⟩ := init_ok sqrt eps pad hm depth hne
  rw [hw] at k1
  cases k1
  obtain ⟨s1, s2, s3⟩ := C30.big_cells k2 hne hm hsize
  have hc := C32.complete_partial hs he htr hok.area h0 h1 hin
  obtain ⟨l, hl, hv, hcov⟩ := tested_ok k3 q1 q2
  have hmem : t ∈ ts := List.mem_of_getElem? ht
  have hng : (w.ngrid : K) = 2 ^ depth := by rw [k2.ngrid]; push_cast; rfl
  have inside := k2.inside t hmem
  obtain ⟨p, hpd⟩ : ∃ p, pointAt q1 q2 c = p := ⟨_, rfl⟩
  rw [hpd] at hin
  obtain ⟨lx1, lx2⟩ := inTri_limits (f := V3.x) hin (fun _ _ => rfl) (lo := w.xmin + margin) (hi := w.xmax - margin)
    (fun v hv => ⟨(inside v hv).1, (inside v hv).2.1⟩)
  obtain ⟨ly1, ly2⟩ := inTri_limits (f := V3.y) hin (fun _ _ => rfl) (lo := w.ymin + margin) (hi := w.ymax - margin)
    (fun v hv => ⟨(inside v hv).2.2.1, (inside v hv).2.2.2.1⟩)
  obtain ⟨lz1, lz2⟩ := inTri_limits (f := V3.z) hin (fun _ _ => rfl) (lo := w.zmin + margin) (hi := w.zmax - margin)
    (fun v hv => ⟨(inside v hv).2.2.2.2.1, (inside v hv).2.2.2.2.2⟩)
  obtain ⟨ix, cx, nx, ax, bx⟩ := cellOf_in k2.xpos (by rw [hng]; exact k2.xg) (show w.xmin ≤ p.x by linarith) (show p.x < w.xmax by linarith)
  obtain ⟨iy, cy, ny, ay, by'⟩ := cellOf_in k2.ypos (by rw [hng]; exact k2.yg) (show w.ymin ≤ p.y by linarith) (show p.y < w.ymax by linarith)
  obtain ⟨iz, cz, nz, az, bz⟩ := cellOf_in k2.zpos (by rw [hng]; exact k2.zg) (show w.zmin ≤ p.z by linarith) (show p.z < w.zmax by linarith)
  have hn0 : (0 : K) ≤ w.ngrid := by positivity
  have ex : (a : K) → ((lo : K) → (hi : K) → lo ≤ a → a ≤ hi → 0 ≤ (hi - lo) / (w.ngrid : K)) := fun a lo hi u v => div_nonneg (by linarith) hn0
  have hmemc : j ∈ cellIds sqrt eps pad w ix iy iz :=
    cell_complete hs he hp k2 s1 s2 s3 nx ny nz (by rw [k2.tris]; exact ht) hok hin ⟨ax, bx, ay, by', az, bz⟩
  have hjl : j ∈ l := by
    refine hcov ix iy iz nx ny nz ?_ ?_ ?_ j hmemc
    · rw [← cx]; apply cellOf_between (ex p.x _ _ (by linarith) (by linarith)); rw [← hpd]; exact between_point h0 h1
    · rw [← cy]; apply cellOf_between (ex p.y _ _ (by linarith) (by linarith)); rw [← hpd]; exact between_point h0 h1
    · rw [← cz]; apply cellOf_between (ex p.z _ _ (by linarith) (by linarith)); rw [← hpd]; exact between_point h0 h1
  obtain ⟨l', h, e1, e2, e3⟩ := C31.first sqrt hm hw q1 q2
  rw [hl] at e1
  cases e1
  have hhit : j ∈ l ∧ ∃ t, ts[j]? = some t ∧ c = triCollision sqrt eps q1 q2 t.t1 t.t2 t.t3 ∧ 0 ≤ c :=
    ⟨hjl, t, ht, hc.symm, h0⟩
  refine ⟨h, e2, ?_⟩
  rcases e3 with ⟨_, e⟩ | ⟨k, e, ⟨_, _, _, _, e4⟩, e5⟩
  · exact absurd hhit (e j c)
  · exact ⟨by omega, e4, e5 j c hhit⟩

/-- The hypotheses hold for the unit triangle with the constants of the code. -/
example : ∃ w, init Real.sqrt (1 / 10 ^ 9) (1 / 10 ^ 6) (1 / 10) 6 [(⟨⟨0, 0, 0⟩, ⟨1, 0, 0⟩, ⟨0, 1, 0⟩⟩ : Tri ℝ)] = some w ∧
    TriOk Real.sqrt (1 / 10 ^ 9) (gridOf w) ⟨⟨0, 0, 0⟩, ⟨1, 0, 0⟩, ⟨0, 1, 0⟩⟩ ∧
    (1 / 10 ^ 9 : ℝ) * (2 ^ 6 * 2 ^ 6) < (2 * (1 / 10)) * (2 * (1 / 10)) := by
  obtain ⟨w, h, k2, _⟩ := init_ok Real.sqrt (1 / 10 ^ 9 : ℝ) (1 / 10 ^ 6) (by norm_num : (0 : ℝ) < 1 / 10) 6
    (ts := [(⟨⟨0, 0, 0⟩, ⟨1, 0, 0⟩, ⟨0, 1, 0⟩⟩ : Tri ℝ)]) (by simp)
  obtain ⟨s1, s2, s3⟩ := C30.big_cells (eps := (2 / 10 ^ 9 : ℝ)) k2 (by simp) (by norm_num) (by norm_num)
  have e2 : normalOf (⟨0, 0, 0⟩ : V3 ℝ) ⟨1, 0, 0⟩ ⟨0, 1, 0⟩ = ⟨0, 0, 1⟩ := by
    unfold normalOf V3.cross V3.sub; ext <;> norm_num
  have n1 : ((⟨1, 0, 0⟩ : V3 ℝ).sub ⟨0, 0, 0⟩).norm Real.sqrt ≤ 2 := by
    unfold V3.norm V3.sub; norm_num
  have n2 : ((⟨1, 0, 0⟩ : V3 ℝ).sub ⟨0, 1, 0⟩).norm Real.sqrt ≤ 2 := by
    unfold V3.norm V3.sub; norm_num [Real.sqrt_le_left]
  have n3 : ((⟨0, 1, 0⟩ : V3 ℝ).sub ⟨0, 0, 0⟩).norm Real.sqrt ≤ 2 := by
    unfold V3.norm V3.sub; norm_num
  refine ⟨w, h, ⟨?_, ?_, ?_, ?_, ?_⟩, by norm_num⟩
  · dsimp only; rw [e2, C32.norm_axis_z]; norm_num
  · dsimp only; rw [e2]; constructor
    · left; rfl
    · left; rfl
    · right; norm_num
  · constructor <;> dsimp only [gridOf]
    · right; norm_num; linarith
    · left; norm_num
    · left; norm_num
  · constructor <;> dsimp only [gridOf]
    · right; norm_num; linarith
    · right; norm_num; linarith
    · left; norm_num
  · constructor <;> dsimp only [gridOf]
    · left; norm_num
    · right; norm_num; linarith
    · left; norm_num

/-- The search through all triangles, unlike the one with the table, does not report a triangle that
the step begins on. -/
theorem full_ignores_start {sqrt : K → K} (hs : IsSqrt sqrt) {eps : K} (he : 0 < eps) {t : Tri K} {q1 q2 : V3 K}
    (htr : Transversal sqrt eps q1 q2 t.t1 t.t2 t.t3) (ha : eps < (normalOf t.t1 t.t2 t.t3).norm sqrt) (hin : InTri t.t1 t.t2 t.t3 q1) :
    (hitWallFull sqrt eps [t] q1 q2).id = 0 := by
  have h0 : triCollision sqrt eps q1 q2 t.t1 t.t2 t.t3 = 0 := by
    apply C32.complete_partial hs he htr ha le_rfl (by norm_num)
    have : pointAt q1 q2 0 = q1 := by unfold pointAt; ext <;> simp
    rw [this]; exact hin
  simp [hitWallFull, h0]

end Ascot.C69
