import Verif.Model.NbiFile
import Verif.Props.C99_Nbi
import Mathlib.Analysis.Real.Pi.Bounds

set_option linter.unusedSectionVars false
set_option linter.unusedSimpArgs false

/-!
# C144: the geometry of generated injectors
-/
namespace Ascot.C144
open Ascot.NbiFile

/-! ### Specification -/

/-- A point on the line through `a` with direction `b`. -/
def along (a b : V3 ℝ) (t : ℝ) : V3 ℝ := ⟨a.x + t * b.x, a.y + t * b.y, a.z + t * b.z⟩

/-- Distance from the axis of the torus. -/
noncomputable def major (a : V3 ℝ) : ℝ := Real.sqrt (a.x ^ 2 + a.y ^ 2)

/-- The cylindrical coordinates of a point, with the angle in degrees. -/
def Cyl (a : V3 ℝ) (r phi z : ℝ) : Prop := a = ⟨r * Real.cos (phi / 180 * Real.pi), r * Real.sin (phi / 180 * Real.pi), z⟩

/-- A line, seen from above, approaches the axis from `a` on with direction `b`, and its tangency radius is `t`: that is its smallest distance
from the axis, positive if the line goes around the axis counter-clockwise. -/
structure Tangent (a b : V3 ℝ) (t : ℝ) : Prop where
  reached : ∃ s, 0 ≤ s ∧ major (along a b s) = |t|
  least : ∀ s, |t| ≤ major (along a b s)
  sense : ∀ s, (along a b s).x * b.y - (along a b s).y * b.x = t

/-- The place in the grid, horizontally and vertically. -/
def Inside : Grid → ℝ → ℝ → Prop
  | .circle d, h, v => Real.sqrt (h ^ 2 + v ^ 2) ≤ d / 2
  | .rect w l, h, v => |h| ≤ w / 2 ∧ |v| ≤ l / 2

/-- The injector with centre `c`, horizontal direction `d` and focus `f`. -/
structure Optics (u : Geom) (c d f : V3 ℝ) : Prop where
  center : Cyl c u.r u.phi u.z
  horizontal : d.z = 0
  unit : V3.dot d d = 1
  tangent : Tangent c d u.tanrad
  /-- The focus is above or below the centre line at the horizontal distance `focallen`. -/
  focus : f.x = (along c d u.focallen).x ∧ f.y = (along c d u.focallen).y

/-- A beamlet at `p` with direction `v`: it is in the plane through the centre that is perpendicular to `d`, inside of the grid, and its direction is a
unit vector that points to the focus. -/
structure Beamlet (g : Grid) (c d f p v : V3 ℝ) : Prop where
  plane : V3.dot ⟨p.x - c.x, p.y - c.y, p.z - c.z⟩ d = 0
  inside : ∃ h, p.x = c.x + h * d.y ∧ p.y = c.y - h * d.x ∧ Inside g h (p.z - c.z)
  unit : V3.dot v v = 1
  aim : ∃ s, 0 < s ∧ along p v s = f

/-! ### Lemmas -/

theorem construct_eq {u v : PyInj} (h : construct u = some v) : v = u := by
  unfold construct at h
  split at h
  · exact absurd h (by simp)
  · split at h
    · exact absurd h (by simp)
    · exact (Option.some.inj h).symm

theorem beamlets_spec {u : Geom} {rand : ℕ → ℕ → ℝ × ℝ} : ∀ {n : ℕ} {l : List (V3 ℝ × V3 ℝ)}, beamlets u rand n = some l →
    l.length = n ∧ ∀ j < n, ∃ o, offset u.dgrid (rand j) = some o ∧ l[j]? = some (u.beamlet o) := by
  intro n
  induction n with
  | zero =>
    intro l h
    obtain rfl := Option.some.inj h
    exact ⟨rfl, fun j hj => by omega⟩
  | succ n ih =>
    intro l h
    unfold beamlets at h
    simp only [Option.bind_eq_bind, Option.bind_eq_some_iff] at h
    obtain ⟨l', h1, o, h2, h3⟩ := h
    obtain rfl := Option.some.inj h3
    obtain ⟨i1, i2⟩ := ih h1
    refine ⟨by simp [i1], fun j hj => ?_⟩
    rcases Nat.lt_succ_iff_lt_or_eq.1 hj with h' | rfl
    · obtain ⟨o', p1, p2⟩ := i2 j h'
      exact ⟨o', p1, by rw [List.getElem?_append_left (by omega), p2]⟩
    · exact ⟨o, h2, by rw [List.getElem?_append_right (by omega), i1]; simp⟩

theorem offset_inside {g : Grid} {rand : ℕ → ℝ × ℝ} (hr : ∀ k, 0 ≤ (rand k).1 ∧ (rand k).1 ≤ 1 ∧ 0 ≤ (rand k).2 ∧ (rand k).2 ≤ 1)
    (hg : ∀ w h, g = .rect w h → 0 ≤ w ∧ 0 ≤ h) {o : ℝ × ℝ} (ho : offset g rand = some o) : Inside g o.1 o.2 := by
  cases g with
  | circle d =>
    unfold offset at ho
    dsimp only at ho
    split at ho
    · rename_i h
      have := Nat.find_spec h
      obtain rfl := Option.some.inj ho
      simp only [Inside]
      have := not_lt.1 this
      linarith
    · exact absurd ho (by simp)
  | rect w h =>
    unfold offset at ho
    obtain rfl := Option.some.inj ho
    obtain ⟨h1, h2, h3, h4⟩ := hr 0
    obtain ⟨hw, hh⟩ := hg w h rfl
    simp only [Inside, abs_le]
    refine ⟨⟨?_, ?_⟩, ?_, ?_⟩ <;> nlinarith

theorem sq_add (c s : ℝ) (h : c ^ 2 + s ^ 2 = 1) (a b t : ℝ) :
    (a + t * c) ^ 2 + (b + t * s) ^ 2 = (a * s - b * c) ^ 2 + (t + (a * c + b * s)) ^ 2 := by
  linear_combination (t ^ 2 - a ^ 2 - b ^ 2) * h

theorem phidir_sin {u : Geom} (hr : 0 < u.r) (ht : |u.tanrad| ≤ u.r) :
    Real.sin (u.phidir - u.phiRad) = u.tanrad / u.r ∧ Real.cos (u.phidir - u.phiRad) ≤ 0 := by
  have e : u.phidir - u.phiRad = Real.pi - Real.arcsin (u.tanrad / u.r) := by unfold Geom.phidir; ring
  have hb := abs_le.1 ht
  rw [e, Real.sin_pi_sub, Real.cos_pi_sub]
  refine ⟨Real.sin_arcsin ?_ ?_, ?_⟩
  · rw [le_div_iff₀ hr]; linarith
  · rw [div_le_one hr]; linarith
  · have := Real.cos_arcsin_nonneg (u.tanrad / u.r)
    linarith

theorem optics (u : Geom) (hr : 0 < u.r) (ht : |u.tanrad| ≤ u.r) : Optics u u.center u.unitd u.focus := by
  have h1 := Real.cos_sq_add_sin_sq u.phidir
  obtain ⟨hs, hc⟩ := phidir_sin hr ht
  have cr : u.center.x * u.unitd.y - u.center.y * u.unitd.x = u.tanrad := by
    have : u.r * Real.sin (u.phidir - u.phiRad) = u.tanrad := by rw [hs]; field_simp
    rw [Real.sin_sub] at this
    simp only [Geom.center, Geom.unitd]
    linear_combination this
  have dt : u.center.x * u.unitd.x + u.center.y * u.unitd.y ≤ 0 := by
    have : u.r * Real.cos (u.phidir - u.phiRad) ≤ 0 := mul_nonpos_of_nonneg_of_nonpos hr.le hc
    rw [Real.cos_sub] at this
    simp only [Geom.center, Geom.unitd]
    linarith
  have key : ∀ s, major (along u.center u.unitd s) = Real.sqrt (u.tanrad ^ 2 + (s + (u.center.x * u.unitd.x + u.center.y * u.unitd.y)) ^ 2) := by
    intro s
    unfold major along
    dsimp only
    rw [sq_add _ _ (by exact h1), cr]
  refine ⟨?_, rfl, ?_, ⟨⟨-(u.center.x * u.unitd.x + u.center.y * u.unitd.y), by linarith, ?_⟩, ?_, ?_⟩, ?_, ?_⟩
  · unfold Cyl Geom.center Geom.phiRad
    rw [show u.phi / 180 * Real.pi = u.phi * Real.pi / 180 by ring]
  · simp only [V3.dot, Geom.unitd]
    nlinarith
  · rw [key, neg_add_cancel, zero_pow two_ne_zero, add_zero, Real.sqrt_sq_eq_abs]
  · intro s
    rw [key, ← Real.sqrt_sq_eq_abs]
    exact Real.sqrt_le_sqrt (by nlinarith)
  · intro s
    rw [← cr]
    simp only [along]
    ring
  · simp [Geom.focus, along, unitz]
  · simp [Geom.focus, along, unitz]

theorem beamlet_spec (u : Geom) (hr : 0 < u.r) (ht : |u.tanrad| ≤ u.r) (hf : u.focallen ≠ 0) {o : ℝ × ℝ} (ho : Inside u.dgrid o.1 o.2) :
    Beamlet u.dgrid u.center u.unitd u.focus (u.beamlet o).1 (u.beamlet o).2 := by
  have h1 := Real.cos_sq_add_sin_sq u.phidir
  set p := (u.beamlet o).1 with hp
  have px : p.x = u.center.x + o.1 * u.unitd.y := by simp [hp, Geom.beamlet, Geom.unith, V3.cross, unitz]
  have py : p.y = u.center.y - o.1 * u.unitd.x := by simp [hp, Geom.beamlet, Geom.unith, V3.cross, unitz]; ring
  have pz : p.z = u.center.z + o.2 := by simp [hp, Geom.beamlet, Geom.unith, V3.cross, unitz]
  set w : V3 ℝ := ⟨u.focus.x - p.x, u.focus.y - p.y, u.focus.z - p.z⟩ with hw
  have hv : (u.beamlet o).2 = V3.unit Real.sqrt w := rfl
  obtain ⟨-, -, -, -, fx, fy⟩ := optics u hr ht
  have hd : w.x * u.unitd.x + w.y * u.unitd.y = u.focallen := by
    simp only [hw, px, py, fx, fy, along]
    simp only [Geom.unitd]
    linear_combination u.focallen * h1
  have hpos : 0 < V3.dot w w := by
    by_contra hn
    have h0 : w.x = 0 ∧ w.y = 0 := by
      simp only [V3.dot] at hn
      constructor <;> nlinarith [sq_nonneg w.x, sq_nonneg w.y, sq_nonneg w.z]
    rw [h0.1, h0.2] at hd
    apply hf
    rw [← hd]
    ring
  have hn : 0 < Real.sqrt (V3.dot w w) := Real.sqrt_pos.2 hpos
  have hsq : Real.sqrt (V3.dot w w) * Real.sqrt (V3.dot w w) = V3.dot w w := Real.mul_self_sqrt hpos.le
  have ux : (V3.unit Real.sqrt w).x = w.x / Real.sqrt (V3.dot w w) := rfl
  have uy : (V3.unit Real.sqrt w).y = w.y / Real.sqrt (V3.dot w w) := rfl
  have uz : (V3.unit Real.sqrt w).z = w.z / Real.sqrt (V3.dot w w) := rfl
  refine ⟨?_, ⟨o.1, px, py, by rw [pz, add_sub_cancel_left]; exact ho⟩, ?_, Real.sqrt (V3.dot w w), hn, ?_⟩
  · simp only [V3.dot, px, py, Geom.unitd]
    ring
  · rw [hv]
    simp only [V3.dot] at *
    rw [ux, uy, uz]
    generalize Real.sqrt (w.x * w.x + w.y * w.y + w.z * w.z) = q at *
    field_simp
    linarith
  · rw [hv]
    unfold along
    rw [ux, uy, uz]
    generalize Real.sqrt (V3.dot w w) = q at *
    have e : ∀ a : ℝ, q * (a / q) = a := fun a => by field_simp
    rw [e, e, e]
    simp [hw]

/-! ### The property -/

/-- **Geometry.**  The centre of the grid is where the user asked for it; the centre line, seen from above, has the tangency radius and the focus is on it at the
distance `focallen`; if a tilt is given, that is the angle between the centre line and the horizontal plane.  Every beamlet is inside of the grid, which is vertical and
perpendicular to the centre line as seen from above, and its direction is a unit vector towards the focus. -/
theorem geometry_partial (u : Geom) (b : Beam) (n : ℕ) (rand : ℕ → ℕ → ℝ × ℝ) (hr : 0 < u.r) (ht : |u.tanrad| ≤ u.r) (hf : 0 < u.focallen)
    (hg : ∀ w h, u.dgrid = .rect w h → 0 ≤ w ∧ 0 ≤ h) (hrand : ∀ j k, 0 ≤ (rand j k).1 ∧ (rand j k).1 ≤ 1 ∧ 0 ≤ (rand j k).2 ∧ (rand j k).2 ≤ 1)
    {p : PyInj} (hp : generate u b n rand = some p) :
    ∃ c d f : V3 ℝ, Optics u c d f ∧
      (∀ t, u.tilt = some t → |t| < 90 → ∃ q, 0 < q ∧ q * Real.cos (t / 180 * Real.pi) = u.focallen ∧ q * Real.sin (t / 180 * Real.pi) = f.z - c.z) ∧
      (u.tilt = none → u.tanz = none → f.z = c.z) ∧
      p.nbeamlet = n ∧ ∀ j < n, ∃ a v, p.x[j]? = some a.x ∧ p.y[j]? = some a.y ∧ p.z[j]? = some a.z ∧ p.dx[j]? = some v.x ∧ p.dy[j]? = some v.y ∧
        p.dz[j]? = some v.z ∧ Beamlet u.dgrid c d f a v := by
  unfold generate at hp
  simp only [Option.bind_eq_bind, Option.bind_eq_some_iff] at hp
  obtain ⟨l, hl, hp⟩ := hp
  replace hp := construct_eq hp
  obtain ⟨h1, h2⟩ := beamlets_spec hl
  refine ⟨u.center, u.unitd, u.focus, optics u hr ht, ?_, ?_, by rw [hp], ?_⟩
  · intro t et hb
    have hb := abs_lt.1 hb
    have e : u.tiltRad = t / 180 * Real.pi := by
      unfold Geom.tiltRad
      rw [et]
      ring
    have hc : 0 < Real.cos (t / 180 * Real.pi) := by
      apply Real.cos_pos_of_mem_Ioo
      constructor <;> nlinarith [Real.pi_pos]
    refine ⟨u.focallen / Real.cos (t / 180 * Real.pi), by positivity, div_mul_cancel₀ _ hc.ne', ?_⟩
    simp only [Geom.focus, unitz, Geom.unitd, e, Real.tan_eq_sin_div_cos]
    ring
  · intro e1 e2
    simp [Geom.focus, Geom.tiltRad, e1, e2, Geom.unitd]
  · intro j hj
    obtain ⟨o, h3, h4⟩ := h2 j hj
    refine ⟨(u.beamlet o).1, (u.beamlet o).2, ?_, ?_, ?_, ?_, ?_, ?_, beamlet_spec u hr ht hf.ne' (offset_inside (hrand j) hg h3)⟩ <;>
      simp [hp, h4]

/-- The other numbers are passed on; without a halo its fraction is zero. -/
theorem numbers (u : Geom) (b : Beam) (n : ℕ) (rand : ℕ → ℕ → ℝ × ℝ) {p : PyInj} (hp : generate u b n rand = some p) :
    p.ids = b.ids ∧ p.anum = b.anum ∧ p.znum = b.znum ∧ p.mass = b.mass ∧ p.energy = b.energy ∧ p.efrac = b.efrac ∧ p.power = b.power ∧
      p.divh = b.divh ∧ p.divv = b.divv ∧ (∀ h, b.halo = some h → p.divhalofrac = h.1 ∧ p.divhaloh = h.2.1 ∧ p.divhalov = h.2.2) ∧
      (b.halo = none → p.divhalofrac = 0) := by
  unfold generate at hp
  simp only [Option.bind_eq_bind, Option.bind_eq_some_iff] at hp
  obtain ⟨l, hl, hp⟩ := hp
  replace hp := construct_eq hp
  rw [hp]
  exact ⟨rfl, rfl, rfl, rfl, rfl, rfl, rfl, rfl, rfl, fun h e => by simp [e], fun e => by simp [e]⟩

/-- An injector is generated if the energy fractions are three and, for a circular grid, some attempt is inside of the circle. -/
theorem returns (u : Geom) (b : Beam) (n : ℕ) (rand : ℕ → ℕ → ℝ × ℝ) (he : b.efrac.length = 3)
    (hc : ∀ d, u.dgrid = .circle d → 0 ≤ d ∧ ∀ j < n, ∃ k, (2 * (rand j k).1 - 1) ^ 2 + (2 * (rand j k).2 - 1) ^ 2 ≤ 1) :
    ∃ p, generate u b n rand = some p := by
  have ex : ∀ j < n, ∃ o, offset u.dgrid (rand j) = some o := by
    intro j hj
    unfold offset
    cases hg : u.dgrid with
    | rect w h => exact ⟨_, rfl⟩
    | circle d =>
      obtain ⟨hd, h⟩ := hc d hg
      obtain ⟨k, hk⟩ := h j hj
      dsimp only
      rw [dif_pos]
      · exact ⟨_, rfl⟩
      · refine ⟨k, not_lt.2 (Real.sqrt_le_iff.2 ⟨by positivity, ?_⟩)⟩
        nlinarith [sq_nonneg d]
  have : ∀ m ≤ n, ∃ l, beamlets u rand m = some l := by
    intro m
    induction m with
    | zero => exact fun _ => ⟨[], rfl⟩
    | succ m ih =>
      intro hm
      obtain ⟨l, hl⟩ := ih (by omega)
      obtain ⟨o, ho⟩ := ex m (by omega)
      exact ⟨l ++ [u.beamlet o], by unfold beamlets; rw [hl, ho]; rfl⟩
  obtain ⟨l, hl⟩ := this n le_rfl
  obtain ⟨h1, -⟩ := beamlets_spec hl
  unfold generate
  rw [hl]
  simp only [Option.bind_eq_bind, Option.bind_some]
  unfold construct
  rw [if_neg (by simpa using he), if_neg (by simp [h1])]
  exact ⟨_, rfl⟩

/-- The hypotheses can be met. -/
example : ∃ (u : Geom) (b : Beam) (rand : ℕ → ℕ → ℝ × ℝ) (p : PyInj), 0 < u.r ∧ |u.tanrad| ≤ u.r ∧ u.tanrad ≠ 0 ∧ 0 < u.focallen ∧ u.tilt = some 10 ∧
    generate u b 2 rand = some p := by
  obtain ⟨p, hp⟩ := returns ⟨6, 30, 1, 2, 5, .circle 0.3, some 10, none⟩ ⟨2, 1, 2, 1e5, [1, 0, 0], 1e6, 0.01, 0.01, none, 1⟩ 2 (fun _ _ => (0.5, 0.4)) rfl
    (by
      intro d hd
      obtain rfl : 0.3 = d := by injection hd
      exact ⟨by norm_num, fun j _ => ⟨0, by norm_num⟩⟩)
  refine ⟨_, _, _, p, ?_, ?_, ?_, ?_, rfl, hp⟩
  · norm_num
  · norm_num [abs_le]
  · norm_num
  · norm_num

/-- Distance between two points. -/
noncomputable def dist (a b : V3 ℝ) : ℝ := Real.sqrt ((b.x - a.x) ^ 2 + (b.y - a.y) ^ 2 + (b.z - a.z) ^ 2)

/-- **Violation** of the documented meaning of `focallen`, the distance from the centre of the grid to the focus: with a tilt of 60 degrees
it is twice as large. -/
theorem focal_length_violation : ∃ u : Geom, 0 < u.r ∧ |u.tanrad| ≤ u.r ∧ u.tilt = some 60 ∧ u.focallen = 1 ∧ dist u.center u.focus = 2 := by
  refine ⟨⟨1, 0, 0, 0, 1, .circle 1, some 60, none⟩, by norm_num, by norm_num, rfl, rfl, ?_⟩
  have e : (60 : ℝ) * Real.pi / 180 = Real.pi / 3 := by ring
  simp only [dist, Geom.focus, Geom.center, Geom.unitd, Geom.tiltRad, unitz, e, Real.tan_pi_div_three]
  have h := Real.cos_sq_add_sin_sq (Geom.phidir ⟨1, 0, 0, 0, 1, .circle 1, some 60, none⟩)
  have h3 : Real.sqrt 3 ^ 2 = 3 := Real.sq_sqrt (by norm_num)
  rw [show (2 : ℝ) = Real.sqrt (2 ^ 2) from (Real.sqrt_sq (by norm_num)).symm]
  congr 1
  linear_combination h + h3

/-- **Violation** of the documented meaning of `tanz`, the vertical shift of the tangency point.  For an injector one metre from the axis whose beam goes
through the axis, which here is also where the focus is, and a shift of one metre: at the toroidal angle of 90 degrees the tangency point is not shifted at all,
and at the angle of 0 degrees it is shifted downwards.  So the result also depends on how the torus is rotated. -/
theorem tanz_violation : ∃ u u' : Geom, u = { u' with phi := u.phi } ∧ u.z = 0 ∧ u.tilt = none ∧ u.tanz = some 1 ∧
    (∃ s, along u.center u.unitd s = ⟨0, 0, 0⟩ ∧ u.focallen = s) ∧ (∃ s, along u'.center u'.unitd s = ⟨0, 0, 0⟩ ∧ u'.focallen = s) ∧
    u.focus = ⟨0, 0, 0⟩ ∧ u'.focus.x = 0 ∧ u'.focus.y = 0 ∧ u'.focus.z < 0 := by
  have e1 : (90 : ℝ) * Real.pi / 180 = Real.pi / 2 := by ring
  have p1 : Geom.phidir ⟨1, 90, 0, 0, 1, .circle 1, none, some 1⟩ = Real.pi + Real.pi / 2 := by
    simp [Geom.phidir, Geom.phiRad, e1]
  have p2 : Geom.phidir ⟨1, 0, 0, 0, 1, .circle 1, none, some 1⟩ = Real.pi := by
    simp [Geom.phidir, Geom.phiRad]
  have c1 : Real.cos (Real.pi + Real.pi / 2) = 0 := by rw [add_comm, Real.cos_add_pi]; simp
  have s1 : Real.sin (Real.pi + Real.pi / 2) = -1 := by rw [add_comm, Real.sin_add_pi]; simp
  have t1 : 0 < Real.tan 1 := Real.tan_pos_of_pos_of_lt_pi_div_two one_pos (by linarith [Real.pi_gt_three])
  refine ⟨⟨1, 90, 0, 0, 1, .circle 1, none, some 1⟩, ⟨1, 0, 0, 0, 1, .circle 1, none, some 1⟩, rfl, rfl, rfl, rfl, ⟨1, ?_, rfl⟩, ⟨1, ?_, rfl⟩, ?_, ?_, ?_, ?_⟩
  · simp only [along, Geom.center, Geom.unitd, p1, c1, s1, Geom.phiRad, e1]
    simp
  · simp only [along, Geom.center, Geom.unitd, p2, Geom.phiRad]
    simp
  · simp only [Geom.focus, Geom.center, Geom.unitd, Geom.tiltRad, unitz, p1, c1, s1, Geom.phiRad, e1]
    simp
  · simp [Geom.focus, Geom.center, Geom.unitd, Geom.tiltRad, unitz, p2, Geom.phiRad]
  · simp [Geom.focus, Geom.center, Geom.unitd, Geom.tiltRad, unitz, p2, Geom.phiRad]
  · simp [Geom.focus, Geom.center, Geom.unitd, Geom.tiltRad, unitz, p2, Geom.phiRad, t1]

end Ascot.C144
