import Verif.Lemmas.Dist
import Mathlib.Data.Rat.Floor
import Mathlib.Analysis.Real.Sqrt
import Mathlib.Tactic.NormNum
import Mathlib.Tactic.FieldSimp
import Mathlib.Tactic.Positivity

/-!
# C22-C24, C26: distribution histograms
-/
set_option linter.unusedSectionVars false
set_option linter.unusedSimpArgs false

namespace Ascot.C22
open Ascot.Dist

variable {K : Type} [Field K] [LinearOrder K]

/-- 5D distribution: cells correspond one to one to the elements of the array. -/
theorem dist5D_good (r phi z ppara pperp time q : Axis K) : Good (dist5D r phi z ppara pperp time q) := by
  apply good_of
  · intro is h
    match is, h with
    | [a, b, c, d, e, f, g], _ => simp only [dist5D, dist5DIndex, List.map, radix, List.prod_cons, List.prod_nil]; ring
  · simp only [dist5D, List.map, List.prod_cons, List.prod_nil]; ring

theorem dist6D_good (r phi z pr pphi pz time q : Axis K) : Good (dist6D r phi z pr pphi pz time q) := by
  apply good_of
  · intro is h
    match is, h with
    | [a, b, c, d, e, f, g, i], _ => simp only [dist6D, dist6DIndex, List.map, radix, List.prod_cons, List.prod_nil]; ring
  · simp only [dist6D, List.map, List.prod_cons, List.prod_nil]; ring

theorem distRho5D_good (rho theta phi ppara pperp time q : Axis K) :
    Good (distRho5D rho theta phi ppara pperp time q) := by
  apply good_of
  · intro is h
    match is, h with
    | [a, b, c, d, e, f, g], _ =>
      simp only [distRho5D, distRho5DIndex, List.map, radix, List.prod_cons, List.prod_nil]; ring
  · simp only [distRho5D, List.map, List.prod_cons, List.prod_nil]; ring

theorem distRho6D_good (rho theta phi pr pphi pz time q : Axis K) :
    Good (distRho6D rho theta phi pr pphi pz time q) := by
  apply good_of
  · intro is h
    match is, h with
    | [a, b, c, d, e, f, g, i], _ =>
      simp only [distRho6D, distRho6DIndex, List.map, radix, List.prod_cons, List.prod_nil]; ring
  · simp only [distRho6D, List.map, List.prod_cons, List.prod_nil]; ring

theorem distCom_good (mu Ekin Ptor : Axis K) : Good (distCom mu Ekin Ptor) := by
  apply good_of
  · intro is h
    match is, h with
    | [a, b, c], _ => simp only [distCom, distComIndex, List.map, radix, List.prod_cons, List.prod_nil]; ring
  · simp only [distCom, List.map, List.prod_cons, List.prod_nil]; ring

/-- A grid with cells. -/
example : Cell (distCom (⟨2, 0, 1⟩ : Axis ℚ) ⟨3, 0, 1⟩ ⟨4, 0, 1⟩).axes [1, 2, 3] ∧
    (distCom (⟨2, 0, 1⟩ : Axis ℚ) ⟨3, 0, 1⟩ ⟨4, 0, 1⟩).index [1, 2, 3] = 23 :=
  ⟨.cons (by decide) (.cons (by decide) (.cons (by decide) .nil)), rfl⟩

end Ascot.C22

namespace Ascot.C23
open Ascot.Dist

variable {K : Type} [Field K] [LinearOrder K] [IsStrictOrderedRing K] [FloorRing K]

/-- The five guiding-center updates: the histogram, the coordinates of a marker. -/
inductive Update (v : Env K) : Hist K → (Gc K → List K) → Prop
  | d5 (r phi z ppara pperp time q) : Update v (dist5D r phi z ppara pperp time q) (coords5DGc v)
  | d6 (r phi z pr pphi pz time q) : Update v (dist6D r phi z pr pphi pz time q) (coords6DGc v)
  | rho5 (rho theta phi ppara pperp time q) :
      Update v (distRho5D rho theta phi ppara pperp time q) (coordsRho5DGc v)
  | rho6 (rho theta phi pr pphi pz time q) :
      Update v (distRho6D rho theta phi pr pphi pz time q) (coordsRho6DGc v)
  | com (mu Ekin Ptor) : Update v (distCom mu Ekin Ptor) (coordsComGc v)

theorem Update.good {v : Env K} {d : Hist K} {f : Gc K → List K} (h : Update v d f) : Good d := by
  cases h
  · exact C22.dist5D_good ..
  · exact C22.dist6D_good ..
  · exact C22.distRho5D_good ..
  · exact C22.distRho6D_good ..
  · exact C22.distCom_good ..

theorem Update.length {v : Env K} {d : Hist K} {f : Gc K → List K} (h : Update v d f) (p : Gc K) :
    (f p).length = d.axes.length := by
  cases h <;> rfl

/-- Lanes of one update from the markers at the end and at the beginning of the step. -/
def lanes (f : Gc K → List K) (ps : List (Gc K × Gc K)) : List (Lane K) :=
  ps.map (fun x => laneGc f x.1 x.2)

theorem lanes_length {v : Env K} {d : Hist K} {f : Gc K → List K} (h : Update v d f)
    (us : List (List (Gc K × Gc K))) :
    ∀ l ∈ (us.map (lanes f)).flatten, l.coords.length = d.axes.length := by
  intro l hl
  rw [List.mem_flatten] at hl
  obtain ⟨ls, h1, h2⟩ := hl
  obtain ⟨u, _, rfl⟩ := List.mem_map.1 h1
  obtain ⟨x, _, rfl⟩ := List.mem_map.1 h2
  exact h.length _

/-- After any number of updates every cell has grown by the sum of weight times time step over
the running markers that were in it; elements outside the array are untouched; and the total
has grown by the sum over the running markers inside the grid. -/
theorem gc_update (v : Env K) (d : Hist K) (f : Gc K → List K) (hu : Update v d f)
    (hv : ∀ a ∈ d.axes, a.Valid) (us : List (List (Gc K × Gc K))) (h : Nat → K) :
    (∀ is, Cell d.axes is →
      (us.foldl (fun h ps => updateGc d (lanes f ps) h) h) (d.index is) =
        h (d.index is) + cellSum d.axes is (us.map (lanes f)).flatten) ∧
    (∀ j, d.size ≤ j → (us.foldl (fun h ps => updateGc d (lanes f ps) h) h) j = h j) ∧
    (∑ j ∈ Finset.range d.size, (us.foldl (fun h ps => updateGc d (lanes f ps) h) h) j =
      ∑ j ∈ Finset.range d.size, h j + insideSum d.axes (us.map (lanes f)).flatten) := by
  have hfold : us.foldl (fun h ps => updateGc d (lanes f ps) h) h =
      updateGc d (us.map (lanes f)).flatten h := by
    rw [← updateGc_flatten, List.foldl_map]
  rw [hfold]
  have hl := lanes_length hu us
  exact ⟨fun is hc => updateGc_cell hu.good hv _ hl h is hc,
    fun j hj => updateGc_beyond hu.good hv _ hl h j hj, updateGc_total hu.good hv _ hl h⟩

/-- Every marker inside the grid is in exactly one cell. -/
theorem one_cell (axes : List (Axis K)) (hv : ∀ a ∈ axes, a.Valid) (xs : List K)
    (hi : Inside axes xs) : ∃ is, Cell axes is ∧ InCell axes is xs ∧ ∀ js, InCell axes js xs → js = is := by
  have h := inCell_bins axes xs hv hi
  refine ⟨_, h.1, h.2, fun js hj => ?_⟩
  exact inCell_unique axes js xs hv hj

/-- The binned angle is the given angle up to whole turns, and lies in one turn. -/
theorem angle (twoPi x : K) (h : 0 < twoPi) :
    0 ≤ wrap twoPi x ∧ wrap twoPi x < twoPi ∧ ∃ k : Int, wrap twoPi x = x + k * twoPi := by
  have h1 := Int.floor_le (x / twoPi)
  have h2 := Int.lt_floor_add_one (x / twoPi)
  rw [le_div_iff₀ h] at h1
  rw [div_lt_iff₀ h] at h2
  have h0 : ¬ fmod x twoPi < 0 := by unfold fmod; push Not; linarith
  unfold wrap
  simp only [if_neg h0]
  unfold fmod
  refine ⟨by linarith, by linarith, -⌊x / twoPi⌋, ?_⟩
  push_cast; ring

/-! ### The coordinates -/

/-- `sqrt` is a square root and the constants are positive. -/
structure Env.Ok (v : Env K) : Prop where
  sqrt_nonneg : ∀ x, 0 ≤ x → 0 ≤ v.sqrt x
  sqrt_sq : ∀ x, 0 ≤ x → v.sqrt x * v.sqrt x = x
  twoPi : 0 < v.twoPi
  e : 0 < v.e
  c2 : 0 < v.c2

/-- `y` is the angle `x` brought to one turn. -/
def SameAngle (twoPi x y : K) : Prop := 0 ≤ y ∧ y < twoPi ∧ ∃ k : Int, y = x + k * twoPi

/-- Parallel and perpendicular momentum of a particle in the field `B`: `p_∥ |B| = p·B`,
`p_∥² + p_⊥² = p²`, `p_⊥ ≥ 0`. -/
def MomentumFo (p : Fo K) (ppara pperp : K) : Prop :=
  (∃ b, 0 ≤ b ∧ b * b = p.B_r * p.B_r + p.B_phi * p.B_phi + p.B_z * p.B_z ∧
    ppara * b = p.p_r * p.B_r + p.p_phi * p.B_phi + p.p_z * p.B_z) ∧
  0 ≤ pperp ∧ ppara * ppara + pperp * pperp = p.p_r * p.p_r + p.p_phi * p.p_phi + p.p_z * p.p_z

/-- Perpendicular momentum of a guiding center: `p_⊥² = 2 m μ |B|`, `p_⊥ ≥ 0`. -/
def PperpGc (p : Gc K) (pperp : K) : Prop :=
  0 ≤ pperp ∧ ∃ b, 0 ≤ b ∧ b * b = p.B_r * p.B_r + p.B_phi * p.B_phi + p.B_z * p.B_z ∧
    pperp * pperp = 2 * p.mass * p.mu * b

theorem fo_momentum (v : Env K) (hv : Env.Ok v) (p : Fo K)
    (hB : 0 < p.B_r * p.B_r + p.B_phi * p.B_phi + p.B_z * p.B_z) :
    MomentumFo p (foPpara v p) (foPperp v p) := by
  have h1 := hv.sqrt_nonneg _ hB.le
  have h2 := hv.sqrt_sq _ hB.le
  have hpos : 0 < v.sqrt (p.B_r * p.B_r + p.B_phi * p.B_phi + p.B_z * p.B_z) := by
    rcases h1.lt_or_eq with h | h
    · exact h
    · rw [← h] at h2; simp at h2; linarith
  have hpb : foPpara v p * v.sqrt (p.B_r * p.B_r + p.B_phi * p.B_phi + p.B_z * p.B_z) =
      p.p_r * p.B_r + p.p_phi * p.B_phi + p.p_z * p.B_z := div_mul_cancel₀ _ hpos.ne'
  have hle : 0 ≤ p.p_r * p.p_r + p.p_phi * p.p_phi + p.p_z * p.p_z - foPpara v p * foPpara v p := by
    have hB2 : (foPpara v p * foPpara v p) * (p.B_r * p.B_r + p.B_phi * p.B_phi + p.B_z * p.B_z) ≤
        (p.p_r * p.p_r + p.p_phi * p.p_phi + p.p_z * p.p_z) *
          (p.B_r * p.B_r + p.B_phi * p.B_phi + p.B_z * p.B_z) := by
      have e : (foPpara v p * foPpara v p) * (p.B_r * p.B_r + p.B_phi * p.B_phi + p.B_z * p.B_z) =
          (p.p_r * p.B_r + p.p_phi * p.B_phi + p.p_z * p.B_z) *
            (p.p_r * p.B_r + p.p_phi * p.B_phi + p.p_z * p.B_z) := by
        rw [← hpb]
        calc _ = (foPpara v p * foPpara v p) *
            (v.sqrt (p.B_r * p.B_r + p.B_phi * p.B_phi + p.B_z * p.B_z) *
              v.sqrt (p.B_r * p.B_r + p.B_phi * p.B_phi + p.B_z * p.B_z)) := by rw [h2]
          _ = _ := by ring
      rw [e]
      linarith [mul_self_nonneg (p.p_r * p.B_phi - p.p_phi * p.B_r),
        mul_self_nonneg (p.p_r * p.B_z - p.p_z * p.B_r), mul_self_nonneg (p.p_phi * p.B_z - p.p_z * p.B_phi)]
    have := le_of_mul_le_mul_right hB2 hB
    linarith
  refine ⟨⟨_, h1, h2, hpb⟩, hv.sqrt_nonneg _ hle, ?_⟩
  have := hv.sqrt_sq _ hle
  unfold foPperp
  rw [this]; ring

theorem gc_pperp (v : Env K) (hv : Env.Ok v) (p : Gc K) (hmu : 0 ≤ p.mu) (hm : 0 ≤ p.mass) :
    PperpGc p (gcPperp v p) := by
  have hB : 0 ≤ p.B_r * p.B_r + p.B_phi * p.B_phi + p.B_z * p.B_z := by
    have a := mul_self_nonneg p.B_r; have b := mul_self_nonneg p.B_phi; have c := mul_self_nonneg p.B_z
    linarith
  have h1 := hv.sqrt_nonneg _ hB
  have h2 := hv.sqrt_sq _ hB
  have h3 : 0 ≤ 2 * v.sqrt (p.B_r * p.B_r + p.B_phi * p.B_phi + p.B_z * p.B_z) * p.mu * p.mass := by
    positivity
  refine ⟨hv.sqrt_nonneg _ h3, _, h1, h2, ?_⟩
  unfold gcPperp
  rw [hv.sqrt_sq _ h3]; ring

/-- Coordinates of the 5D and rho5D distributions for full-orbit markers. -/
theorem coords_5D_fo (v : Env K) (hv : Env.Ok v) (p : Fo K)
    (hB : 0 < p.B_r * p.B_r + p.B_phi * p.B_phi + p.B_z * p.B_z) :
    ∃ phi theta ppara pperp q, SameAngle v.twoPi p.phi phi ∧ SameAngle v.twoPi p.theta theta ∧
      MomentumFo p ppara pperp ∧ q * v.e = p.charge ∧
      coords5DFo v p = [p.r, phi, p.z, ppara, pperp, p.time, q] ∧
      coordsRho5DFo v p = [p.rho, theta, phi, ppara, pperp, p.time, q] :=
  ⟨_, _, _, _, _, angle _ _ hv.twoPi, angle _ _ hv.twoPi, fo_momentum v hv p hB,
    div_mul_cancel₀ _ hv.e.ne', rfl, rfl⟩

/-- Coordinates of the 6D and rho6D distributions for full-orbit markers. -/
theorem coords_6D_fo (v : Env K) (hv : Env.Ok v) (p : Fo K) :
    ∃ phi theta q, SameAngle v.twoPi p.phi phi ∧ SameAngle v.twoPi p.theta theta ∧ q * v.e = p.charge ∧
      coords6DFo v p = [p.r, phi, p.z, p.p_r, p.p_phi, p.p_z, p.time, q] ∧
      coordsRho6DFo v p = [p.rho, theta, phi, p.p_r, p.p_phi, p.p_z, p.time, q] :=
  ⟨_, _, _, angle _ _ hv.twoPi, angle _ _ hv.twoPi, div_mul_cancel₀ _ hv.e.ne', rfl, rfl⟩

/-- Coordinates of the distributions for guiding centers; those of the 6D ones are relative to
the guiding-center transformation `v.toP`. -/
theorem coords_gc (v : Env K) (hv : Env.Ok v) (p : Gc K) (hmu : 0 ≤ p.mu) (hm : 0 ≤ p.mass) :
    ∃ phi theta pperp q, SameAngle v.twoPi p.phi phi ∧ SameAngle v.twoPi p.theta theta ∧
      PperpGc p pperp ∧ q * v.e = p.charge ∧
      coords5DGc v p = [p.r, phi, p.z, p.ppar, pperp, p.time, q] ∧
      coordsRho5DGc v p = [p.rho, theta, phi, p.ppar, pperp, p.time, q] ∧
      coords6DGc v p = [p.r, phi, p.z, (v.toP p).1, (v.toP p).2.1, (v.toP p).2.2, p.time, q] ∧
      coordsRho6DGc v p = [p.rho, theta, phi, (v.toP p).1, (v.toP p).2.1, (v.toP p).2.2, p.time, q] :=
  ⟨_, _, _, _, angle _ _ hv.twoPi, angle _ _ hv.twoPi, gc_pperp v hv p hmu hm,
    div_mul_cancel₀ _ hv.e.ne', rfl, rfl, rfl, rfl⟩

/-- Coordinates of the constants-of-motion distribution for full-orbit markers: with
`p_⊥² = 2 m μ |B|`, `(E + m c²)² = p² c² + m² c⁴` and `P = R p_φ + q ψ`. -/
theorem coords_com_fo (v : Env K) (hv : Env.Ok v) (p : Fo K) (hm : 0 < p.mass)
    (hB : 0 < p.B_r * p.B_r + p.B_phi * p.B_phi + p.B_z * p.B_z)
    (hp : 0 < p.p_r * p.p_r + p.p_phi * p.p_phi + p.p_z * p.p_z) :
    ∃ mu ekin ppara pperp b, MomentumFo p ppara pperp ∧ 0 ≤ b ∧
      b * b = p.B_r * p.B_r + p.B_phi * p.B_phi + p.B_z * p.B_z ∧ 2 * p.mass * mu * b = pperp * pperp ∧
      0 ≤ ekin ∧
      (ekin + p.mass * v.c2) * (ekin + p.mass * v.c2) =
        (p.p_r * p.p_r + p.p_phi * p.p_phi + p.p_z * p.p_z) * v.c2 + (p.mass * v.c2) * (p.mass * v.c2) ∧
      coordsComFo v p = [mu, ekin, p.r * p.p_phi + p.charge * v.psi p.r p.phi p.z p.time] := by
  have hmom := fo_momentum v hv p hB
  have b1 := hv.sqrt_nonneg _ hB.le
  have b2 := hv.sqrt_sq _ hB.le
  have p1 := hv.sqrt_nonneg _ hp.le
  have p2 := hv.sqrt_sq _ hp.le
  have bne : v.sqrt (p.B_r * p.B_r + p.B_phi * p.B_phi + p.B_z * p.B_z) ≠ 0 := by
    intro h; rw [h] at b2; simp at b2; linarith
  have pne : v.sqrt (p.p_r * p.p_r + p.p_phi * p.p_phi + p.p_z * p.p_z) ≠ 0 := by
    intro h; rw [h] at p2; simp at p2; linarith
  have hc := hv.c2
  have hg : 0 ≤ (p.p_r * p.p_r + p.p_phi * p.p_phi + p.p_z * p.p_z) / (p.mass * p.mass * v.c2) := by
    positivity
  have g1 := hv.sqrt_nonneg (1 + (p.p_r * p.p_r + p.p_phi * p.p_phi + p.p_z * p.p_z) / (p.mass * p.mass * v.c2))
    (by linarith)
  have g2 := hv.sqrt_sq (1 + (p.p_r * p.p_r + p.p_phi * p.p_phi + p.p_z * p.p_z) / (p.mass * p.mass * v.c2))
    (by linarith)
  refine ⟨_, _, _, _, _, hmom, b1, b2, ?_, ?_, ?_, rfl⟩
  · have h3 := hmom.2.2
    unfold foPpara at h3
    generalize v.sqrt (p.B_r * p.B_r + p.B_phi * p.B_phi + p.B_z * p.B_z) = b at *
    generalize v.sqrt (p.p_r * p.p_r + p.p_phi * p.p_phi + p.p_z * p.p_z) = pn at *
    generalize (p.p_r * p.B_r + p.p_phi * p.B_phi + p.p_z * p.B_z) = pb at *
    have e : foPperp v p * foPperp v p = pn * pn - pb / b * (pb / b) := by rw [p2]; linarith
    rw [e]
    have := hm.ne'
    field_simp
  · rw [p2]
    generalize v.sqrt (1 + (p.p_r * p.p_r + p.p_phi * p.p_phi + p.p_z * p.p_z) / (p.mass * p.mass * v.c2)) = g at *
    have h1 : 1 ≤ g := by
      by_contra h
      push Not at h
      have : g * g < 1 * 1 := mul_self_lt_mul_self g1 h
      linarith
    have : 0 ≤ g - 1 := by linarith
    positivity
  · rw [p2]
    generalize v.sqrt (1 + (p.p_r * p.p_r + p.p_phi * p.p_phi + p.p_z * p.p_z) / (p.mass * p.mass * v.c2)) = g at *
    have e : ((g - 1) * p.mass * v.c2 + p.mass * v.c2) * ((g - 1) * p.mass * v.c2 + p.mass * v.c2) =
      (g * g) * (p.mass * v.c2) * (p.mass * v.c2) := by ring
    rw [e, g2]
    have := hm.ne'
    have := hc.ne'
    field_simp
    ring

/-- Coordinates of the constants-of-motion distribution for guiding centers, with
`p² = p_∥² + 2 m μ |B|` and `P |B| = p_∥ R B_φ + q ψ |B|`. -/
theorem coords_com_gc (v : Env K) (hv : Env.Ok v) (p : Gc K) (hm : 0 < p.mass) (hmu : 0 ≤ p.mu)
    (hB : 0 < p.B_r * p.B_r + p.B_phi * p.B_phi + p.B_z * p.B_z) :
    ∃ ekin pphi b, 0 ≤ b ∧ b * b = p.B_r * p.B_r + p.B_phi * p.B_phi + p.B_z * p.B_z ∧ 0 ≤ ekin ∧
      (ekin + p.mass * v.c2) * (ekin + p.mass * v.c2) =
        (p.ppar * p.ppar + 2 * p.mass * p.mu * b) * v.c2 + (p.mass * v.c2) * (p.mass * v.c2) ∧
      pphi * b = p.ppar * p.r * p.B_phi + p.charge * v.psi p.r p.phi p.z p.time * b ∧
      coordsComGc v p = [p.mu, ekin, pphi] := by
  have b1 := hv.sqrt_nonneg _ hB.le
  have b2 := hv.sqrt_sq _ hB.le
  have bne : v.sqrt (p.B_r * p.B_r + p.B_phi * p.B_phi + p.B_z * p.B_z) ≠ 0 := by
    intro h; rw [h] at b2; simp at b2; linarith
  have hc := hv.c2
  refine ⟨_, _, _, b1, b2, ?_, ?_, ?_, rfl⟩
  all_goals generalize v.sqrt (p.B_r * p.B_r + p.B_phi * p.B_phi + p.B_z * p.B_z) = b at *
  · have hg : 0 ≤ 2 * p.mu * b / (p.mass * v.c2) := by positivity
    have hg' : 0 ≤ p.ppar * p.ppar / (p.mass * p.mass * v.c2) :=
      div_nonneg (mul_self_nonneg _) (by positivity)
    have g1 := hv.sqrt_nonneg (1 + 2 * p.mu * b / (p.mass * v.c2) + p.ppar * p.ppar / (p.mass * p.mass * v.c2))
      (by linarith)
    have g2 := hv.sqrt_sq (1 + 2 * p.mu * b / (p.mass * v.c2) + p.ppar * p.ppar / (p.mass * p.mass * v.c2))
      (by linarith)
    generalize v.sqrt (1 + 2 * p.mu * b / (p.mass * v.c2) + p.ppar * p.ppar / (p.mass * p.mass * v.c2)) = g at *
    have h1 : 1 ≤ g := by
      by_contra h
      push Not at h
      have : g * g < 1 * 1 := mul_self_lt_mul_self g1 h
      linarith
    have : 0 ≤ g - 1 := by linarith
    positivity
  · have hg : 0 ≤ 2 * p.mu * b / (p.mass * v.c2) := by positivity
    have hg' : 0 ≤ p.ppar * p.ppar / (p.mass * p.mass * v.c2) :=
      div_nonneg (mul_self_nonneg _) (by positivity)
    have g2 := hv.sqrt_sq (1 + 2 * p.mu * b / (p.mass * v.c2) + p.ppar * p.ppar / (p.mass * p.mass * v.c2))
      (by linarith)
    generalize v.sqrt (1 + 2 * p.mu * b / (p.mass * v.c2) + p.ppar * p.ppar / (p.mass * p.mass * v.c2)) = g at *
    have e : ((g - 1) * p.mass * v.c2 + p.mass * v.c2) * ((g - 1) * p.mass * v.c2 + p.mass * v.c2) =
      (g * g) * (p.mass * v.c2) * (p.mass * v.c2) := by ring
    rw [e, g2]
    have := hm.ne'
    have := hc.ne'
    field_simp
    ring
  · field_simp

/-- The hypothesis on the environment holds for the real square root. -/
noncomputable example : Env.Ok (⟨Real.sqrt, 6, 1, 1, fun _ _ _ _ => 0, fun _ => (0, 0, 0)⟩ : Env ℝ) :=
  ⟨fun x _ => Real.sqrt_nonneg x, fun _ h => Real.mul_self_sqrt h, by norm_num, by norm_num, by norm_num⟩

def exGc (t : ℚ) : Gc ℚ := ⟨0, 0, 0, 0, 0, 1, 1/2, 0, 0, 1, 0, 1, 1, t, 2, true⟩
def exEnv : Env ℚ := ⟨id, 6, 1, 1, fun _ _ _ _ => 0, fun _ => (0, 0, 0)⟩

/-- A marker inside the grid of a 5D distribution. -/
example : (∀ a ∈ (dist5D (⟨1, 0, 1⟩ : Axis ℚ) ⟨2, 0, 6⟩ ⟨1, 0, 1⟩ ⟨2, 0, 2⟩ ⟨2, 0, 2⟩ ⟨1, 0, 2⟩ ⟨1, 0, 2⟩).axes,
      a.Valid) ∧
    Inside (dist5D (⟨1, 0, 1⟩ : Axis ℚ) ⟨2, 0, 6⟩ ⟨1, 0, 1⟩ ⟨2, 0, 2⟩ ⟨2, 0, 2⟩ ⟨1, 0, 2⟩ ⟨1, 0, 2⟩).axes
      (coords5DGc exEnv (exGc 1)) := by
  constructor
  · intro a ha
    simp only [dist5D, List.mem_cons, List.not_mem_nil, or_false] at ha
    rcases ha with rfl | rfl | rfl | rfl | rfl | rfl | rfl <;> constructor <;> norm_num
  · simp only [dist5D, coords5DGc, Inside, List.forall₂_cons, gcPperp, exEnv, exGc, wrap, fmod]
    norm_num

end Ascot.C23

namespace Ascot.C24
open Ascot.Dist

variable {K : Type} [Field K] [LinearOrder K] [IsStrictOrderedRing K] [FloorRing K]

/-- The five full-orbit updates. -/
inductive Update (v : Env K) : Hist K → (Fo K → List K) → Prop
  | d5 (r phi z ppara pperp time q) : Update v (dist5D r phi z ppara pperp time q) (coords5DFo v)
  | d6 (r phi z pr pphi pz time q) : Update v (dist6D r phi z pr pphi pz time q) (coords6DFo v)
  | rho5 (rho theta phi ppara pperp time q) :
      Update v (distRho5D rho theta phi ppara pperp time q) (coordsRho5DFo v)
  | rho6 (rho theta phi pr pphi pz time q) :
      Update v (distRho6D rho theta phi pr pphi pz time q) (coordsRho6DFo v)
  | com (mu Ekin Ptor) : Update v (distCom mu Ekin Ptor) (coordsComFo v)

theorem Update.good {v : Env K} {d : Hist K} {f : Fo K → List K} (h : Update v d f) : Good d := by
  cases h
  · exact C22.dist5D_good ..
  · exact C22.dist6D_good ..
  · exact C22.distRho5D_good ..
  · exact C22.distRho6D_good ..
  · exact C22.distCom_good ..

theorem Update.length {v : Env K} {d : Hist K} {f : Fo K → List K} (h : Update v d f) (p : Fo K) :
    (f p).length = d.axes.length := by
  cases h <;> rfl

/-- Lanes of one update. -/
def lanes (f : Fo K → List K) (ps : List (Fo K × Fo K)) : List (Lane K) :=
  ps.map (fun x => laneFo f x.1 x.2)

/-- If all running markers are inside the grid, each cell grows by the sum of weight times time
step over the running markers in it, whatever the uninitialised local arrays contain.
Missing from C24: populations in which a running marker is outside the grid
(`outside_fails`). -/
theorem fo_update_partial (v : Env K) (d : Hist K) (f : Fo K → List K) (hu : Update v d f)
    (hv : ∀ a ∈ d.axes, a.Valid) (ps : List ((Fo K × Fo K) × (Nat × K)))
    (hin : ∀ x ∈ ps, x.1.1.running = true → Inside d.axes (f x.1.1)) (h : Nat → K) :
    (∀ is, Cell d.axes is →
      updateFo d (ps.map (fun x => (laneFo f x.1.1 x.1.2, x.2))) h (d.index is) =
        h (d.index is) + cellSum d.axes is (lanes f (ps.map Prod.fst))) ∧
    (∀ j, d.size ≤ j → updateFo d (ps.map (fun x => (laneFo f x.1.1 x.1.2, x.2))) h j = h j) := by
  have hlen : ∀ l ∈ ps.map (fun x => (laneFo f x.1.1 x.1.2, x.2)), l.1.coords.length = d.axes.length := by
    intro l hl
    obtain ⟨x, _, rfl⟩ := List.mem_map.1 hl
    exact hu.length _
  have heq : updateFo d (ps.map (fun x => (laneFo f x.1.1 x.1.2, x.2))) h =
      updateGc d (lanes f (ps.map Prod.fst)) h := by
    rw [updateFo_inside hu.good hv _ hlen]
    · rw [List.map_map]; unfold lanes; rw [List.map_map]; rfl
    · intro l hl
      obtain ⟨x, hx, rfl⟩ := List.mem_map.1 hl
      exact hin x hx
  have hl2 : ∀ l ∈ lanes f (ps.map Prod.fst), l.coords.length = d.axes.length := by
    intro l hl
    obtain ⟨x, _, rfl⟩ := List.mem_map.1 hl
    exact hu.length _
  rw [heq]
  exact ⟨fun is hc => updateGc_cell hu.good hv _ hl2 h is hc,
    fun j hj => updateGc_beyond hu.good hv _ hl2 h j hj⟩

/-- The GPU build is right for all populations. -/
theorem fo_update_gpu (v : Env K) (d : Hist K) (f : Fo K → List K) (hu : Update v d f)
    (hv : ∀ a ∈ d.axes, a.Valid) (ps : List (Fo K × Fo K)) (h : Nat → K) :
    (∀ is, Cell d.axes is →
      updateFoGpu d (lanes f ps) h (d.index is) = h (d.index is) + cellSum d.axes is (lanes f ps)) ∧
    (∀ j, d.size ≤ j → updateFoGpu d (lanes f ps) h j = h j) ∧
    (∑ j ∈ Finset.range d.size, updateFoGpu d (lanes f ps) h j =
      ∑ j ∈ Finset.range d.size, h j + insideSum d.axes (lanes f ps)) := by
  have hl2 : ∀ l ∈ lanes f ps, l.coords.length = d.axes.length := by
    intro l hl
    obtain ⟨x, _, rfl⟩ := List.mem_map.1 hl
    exact hu.length _
  rw [updateFoGpu_eq]
  exact ⟨fun is hc => updateGc_cell hu.good hv _ hl2 h is hc,
    fun j hj => updateGc_beyond hu.good hv _ hl2 h j hj, updateGc_total hu.good hv _ hl2 h⟩

/-- Elements beyond the end of the array are never written, even then. -/
theorem fo_bounds (d : Hist K) (ls : List (Lane K × (Nat × K))) (h : Nat → K) (j : Nat)
    (hj : d.size ≤ j) : updateFo d ls h j = h j := by
  induction ls generalizing h with
  | nil => rfl
  | cons l ls ih =>
    show updateFo d ls _ j = h j
    rw [ih]
    dsimp only
    split
    · rename_i h1
      rw [addAt_eq, if_neg (by have := h1.2; omega), add_zero]
    · rfl

def exAxis : Axis ℚ := ⟨1, 0, 1⟩

/-- A full-orbit marker at `R = 5`, outside the grid `0 ≤ R < 1`. -/
def exFo : Fo ℚ := ⟨5, 0, 0, 0, 0, 0, 0, 0, 0, 1, 0, 1, 0, 1/2, 2, true⟩

/-- Witness: a running marker outside the grid changes the histogram if the uninitialised
local arrays happen to contain an index inside it, for example one from the previous call. -/
theorem outside_fails :
    ¬ Inside (dist6D exAxis exAxis exAxis exAxis exAxis exAxis exAxis exAxis).axes
        (coords6DFo C23.exEnv exFo) ∧
    ∃ old : Nat × ℚ, updateFo (dist6D exAxis exAxis exAxis exAxis exAxis exAxis exAxis exAxis)
      [(laneFo (coords6DFo C23.exEnv) exFo { exFo with time := 0 }, old)] (fun _ => 0) 0 ≠ 0 := by
  have hb : bin exAxis 5 = 5 := by
    unfold bin exAxis; norm_num
  constructor
  · simp only [dist6D, coords6DFo, Inside, List.forall₂_cons, exFo, exAxis]
    norm_num
  · refine ⟨(0, 7), ?_⟩
    have hok : allOk (dist6D exAxis exAxis exAxis exAxis exAxis exAxis exAxis exAxis)
        (laneFo (coords6DFo C23.exEnv) exFo { exFo with time := 0 }) = false := by
      simp only [allOk, bins, dist6D, laneFo, coords6DFo, exFo, List.zipWith_cons_cons, hb, List.all_cons]
      have : binOk exAxis 5 = false := by decide
      rw [this]; rfl
    simp only [updateFo, List.foldl_cons, List.foldl_nil, foFirst, hok]
    norm_num [laneFo, exFo, dist6D, exAxis, addAt]

/-- A population that meets the hypotheses of `fo_update_partial`. -/
example : Inside (dist6D (⟨1, 0, 6⟩ : Axis ℚ) exAxis exAxis exAxis exAxis exAxis exAxis exAxis).axes
    (coords6DFo C23.exEnv exFo) := by
  simp only [dist6D, coords6DFo, Inside, List.forall₂_cons, exFo, exAxis, C23.exEnv, wrap, fmod]
  norm_num

end Ascot.C24

namespace Ascot.C26
open Ascot.Dist

variable {K : Type} [Field K] [LinearOrder K]

/-- Number of bins of a distribution. -/
def Sizes.size6D (s : Sizes) : Nat :=
  match s.d6 with | (a, b, c, d, e, f, g, h) => a * b * c * d * e * f * g * h
def Sizes.size5D (s : Sizes) : Nat :=
  match s.d5 with | (a, b, c, d, e, f, g) => a * b * c * d * e * f * g
def Sizes.sizeRho5D (s : Sizes) : Nat :=
  match s.r5 with | (a, b, c, d, e, f, g) => a * b * c * d * e * f * g
def Sizes.sizeRho6D (s : Sizes) : Nat :=
  match s.r6 with | (a, b, c, d, e, f, g, h) => a * b * c * d * e * f * g * h

/-- `c` is `a` with the first `n` elements of `b` added if `on`, and `a` otherwise. -/
def Added (on : Bool) (n : Nat) (a b c : Nat → K) : Prop :=
  (on = true → ∀ i < n, c i = a i + b i) ∧ (on = true → ∀ i, n ≤ i → c i = a i) ∧ (on = false → c = a)

theorem added_arraysum (n : Nat) (a b : Nat → K) : Added true n a b (arraysum n a b) := by
  refine ⟨fun _ i hi => by simp [arraysum, hi], fun _ i hi => ?_, by simp⟩
  simp [arraysum, Nat.not_lt.2 hi]

theorem added_off (n : Nat) (a b : Nat → K) : Added false n a b a := ⟨by simp, by simp, fun _ => rfl⟩

/-- The sums are right for the rho distributions always, for the 6D distribution if the
constants-of-motion distribution is not collected, and for the 5D distribution if it has one
toroidal bin.  The constants-of-motion distribution is never summed (`com_fails`).
Missing from C26: the other cases, which fail (`phi_fails`, `com_fails`). -/
theorem sum_partial (s : Sizes) (a b : Diag K) :
    Added s.onRho5D (Sizes.sizeRho5D s) a.hRho5D b.hRho5D (diagSum s a b).hRho5D ∧
    Added s.onRho6D (Sizes.sizeRho6D s) a.hRho6D b.hRho6D (diagSum s a b).hRho6D ∧
    (s.onCom = false → Added s.on6D (Sizes.size6D s) a.h6D b.h6D (diagSum s a b).h6D) ∧
    (s.d5.2.1 = 1 → Added s.on5D (Sizes.size5D s) a.h5D b.h5D (diagSum s a b).h5D) := by
  obtain ⟨o5, o6, p5, p6, oc, ⟨x1, x2, x3, x4, x5, x6, x7⟩, ⟨y1, y2, y3, y4, y5, y6, y7, y8⟩,
    ⟨z1, z2, z3, z4, z5, z6, z7⟩, ⟨w1, w2, w3, w4, w5, w6, w7, w8⟩, ⟨c1, c2, c3⟩⟩ := s
  refine ⟨?_, ?_, ?_, ?_⟩
  · cases o5 <;> cases o6 <;> cases p5 <;> cases p6 <;> cases oc <;>
      first | exact added_off _ _ _ | exact added_arraysum _ _ _
  · cases o5 <;> cases o6 <;> cases p5 <;> cases p6 <;> cases oc <;>
      first | exact added_off _ _ _ | exact added_arraysum _ _ _
  · intro h
    dsimp only at h; subst h
    cases o5 <;> cases o6 <;> cases p5 <;> cases p6 <;>
      first | exact added_off _ _ _ | exact added_arraysum _ _ _
  · intro h
    dsimp only at h; subst h
    simp only [Sizes.size5D, Nat.mul_one]
    cases o5 <;> cases o6 <;> cases p5 <;> cases p6 <;> cases oc <;>
      first | exact added_off _ _ _ | exact added_arraysum _ _ _

/-- Arrays of two diagnostics in which every bin is one. -/
def ones : Diag ℚ := ⟨fun _ => 1, fun _ => 1, fun _ => 1, fun _ => 1, fun _ => 1⟩

/-- Witness: with two toroidal bins half of the 5D distribution is not summed. -/
theorem phi_fails :
    let s : Sizes := ⟨true, false, false, false, false, (1, 2, 1, 1, 1, 1, 1), (1, 1, 1, 1, 1, 1, 1, 1),
      (1, 1, 1, 1, 1, 1, 1), (1, 1, 1, 1, 1, 1, 1, 1), (1, 1, 1)⟩
    1 < Sizes.size5D s ∧ (diagSum s ones ones).h5D 1 = 1 := by
  constructor
  · decide
  · norm_num [diagSum, arraysum, ones]

/-- The constants-of-motion distribution is never changed, and collecting it adds the 6D array
of the second run to that of the first. -/
theorem com_fails (s : Sizes) (a b : Diag K) :
    (diagSum s a b).hCom = a.hCom ∧
    (s.onCom = true → s.on6D = false → 0 < s.com.1 * s.com.2.1 * s.com.2.2 →
      (diagSum s a b).h6D 0 = a.h6D 0 + b.h6D 0) := by
  obtain ⟨o5, o6, p5, p6, oc, ⟨x1, x2, x3, x4, x5, x6, x7⟩, ⟨y1, y2, y3, y4, y5, y6, y7, y8⟩,
    ⟨z1, z2, z3, z4, z5, z6, z7⟩, ⟨w1, w2, w3, w4, w5, w6, w7, w8⟩, ⟨c1, c2, c3⟩⟩ := s
  constructor
  · cases o5 <;> cases o6 <;> cases p5 <;> cases p6 <;> cases oc <;> rfl
  · intro h1 h2 h3
    dsimp only at h1 h2 h3
    subst h1; subst h2
    cases o5 <;> cases p5 <;> cases p6 <;> exact if_pos h3

end Ascot.C26
