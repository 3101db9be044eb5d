import Verif.Model.Moments
import Verif.Props.C159_ExiDist
import Verif.Props.C158_DistData
import Mathlib.Algebra.BigOperators.Field

set_option linter.unusedSectionVars false
set_option linter.unusedSimpArgs false

/-!
# C160: moments of distributions

Density times volume sums to the number of particles, and energy density to the kinetic energy of the particles.  The
pressure is a third of the trace of the pressure tensor, the parallel current is that of particles with the velocities
of the cells.  Averages over angles keep the total.

The first two and averages are proved; pressure and current are not what they should be.
-/
namespace Ascot.C160

open DistData Marginal ExiDist Moments

theorem lookup_others (stay : ℕ → Bool) : ∀ (l : List Axis) (k : ℕ), (∃ a ∈ l, a.name = k) →
    (((l.filter fun a => !stay a.name).map fun a => (a.name, Sel.slice none none 1)).lookup k).isNone = stay k
  | [], k, ⟨a, ha, _⟩ => by simp at ha
  | b :: l, k, h => by
    cases hb : stay b.name with
    | true =>
      rw [List.filter_cons_of_neg (by simp [hb])]
      by_cases hk : ∃ a ∈ l, a.name = k
      · exact lookup_others stay l k hk
      · obtain ⟨a, ha, rfl⟩ := h
        rcases List.mem_cons.1 ha with rfl | ha
        · rw [hb, Option.isNone_iff_eq_none, List.lookup_eq_none_iff]
          intro p hp
          obtain ⟨a', ha', rfl⟩ := List.mem_map.1 hp
          rw [bne_iff_ne]
          intro he
          exact hk ⟨a', (List.mem_filter.1 ha').1, he.symm⟩
        · exact absurd ⟨a, ha, rfl⟩ hk
    | false =>
      rw [List.filter_cons_of_pos (by simp [hb]), List.map_cons, List.lookup_cons]
      by_cases hk : k = b.name
      · subst hk
        simp [hb]
      · rw [beq_eq_false_iff_ne.2 hk]
        simp only
        refine lookup_others stay l k ?_
        obtain ⟨a, ha, rfl⟩ := h
        rcases List.mem_cons.1 ha with rfl | ha
        · exact absurd rfl hk
        · exact ⟨a, ha, rfl⟩

theorem integrate_others (stay : ℕ → Bool) {d : Data} (he : ∀ a ∈ d.axes, IsEdges a.edges) :
    ∃ d', integrate (others stay d) d = some d' ∧ d'.axes = d.axes.filter (fun a => stay a.name) ∧
      total (d'.axes.map (·.size)) (histogram d') = total (d.axes.map (·.size)) (histogram d) := by
  obtain ⟨d', h1, h2, h3⟩ := C158.number (args := others stay d) he
    (by
      intro x hx
      obtain ⟨a, ha, rfl⟩ := List.mem_map.1 hx
      exact List.mem_map_of_mem (List.mem_filter.1 ha).1)
    (by
      intro x hx
      obtain ⟨a, -, rfl⟩ := List.mem_map.1 hx
      rfl)
  refine ⟨d', h1, ?_, h3⟩
  rw [h2]
  refine List.filter_congr fun a ha => ?_
  exact lookup_others stay d.axes a.name ⟨a, ha, rfl⟩

/-- Density times volume sums to the number of particles. -/
theorem density_total {space : ℕ → Bool} {V : List ℕ → ℝ} {d : Data} (he : ∀ a ∈ d.axes, IsEdges a.edges)
    (hV : ∀ i, Within ((d.axes.filter fun a => space a.name).map (·.size)) i → V i ≠ 0) :
    ∃ n, density space V d = some n ∧
      total ((d.axes.filter fun a => space a.name).map (·.size)) (fun i => n i * V i) =
        total (d.axes.map (·.size)) (histogram d) := by
  obtain ⟨d', h1, h2, h3⟩ := integrate_others space he
  refine ⟨fun i => histogram d' i / V i, by unfold density; rw [h1]; rfl, ?_⟩
  rw [← h3, h2]
  exact C159.total_congr_within fun r hr => div_mul_cancel₀ _ (hV r hr)

example : ∃ (space : ℕ → Bool) (d : Data), (∀ a ∈ d.axes, IsEdges a.edges) ∧
    (d.axes.filter fun a => space a.name).length = 1 :=
  ⟨fun k => decide (k = 0), ⟨C158.exAxes, fun _ => 1⟩, by simp [C158.exAxes, IsEdges], by simp [C158.exAxes]⟩

/-! ## Energy -/

/-- The indices that stay. -/
def keep : List (ℕ × Option (ℕ → ℝ)) → List ℕ → List ℕ
  | (_, none) :: s, i :: r => i :: keep s r
  | (_, some _) :: s, _ :: r => keep s r
  | _, _ => []

theorem total_mul : ∀ {s : List (ℕ × Option (ℕ → ℝ))} {g φ : List ℕ → ℝ},
    (∀ x ∈ s, ∀ w, x.2 = some w → ∀ j < x.1, w j = 1) →
    total ((s.filter fun x => x.2.isNone).map (·.1)) (fun i => marginal s g i * φ i) =
      total (s.map (·.1)) fun r => g r * φ (keep s r)
  | [], g, φ, _ => rfl
  | (n, none) :: s, g, φ, h => by
    rw [List.filter_cons_of_pos rfl, List.map_cons, List.map_cons, total, total]
    refine Finset.sum_congr rfl fun j _ => ?_
    exact total_mul (s := s) (g := fun r => g (j :: r)) (φ := fun r => φ (j :: r))
      fun x hx => h x (List.mem_cons_of_mem _ hx)
  | (n, some w) :: s, g, φ, h => by
    rw [List.filter_cons_of_neg (by simp), List.map_cons, total]
    have h1 : (fun i => marginal ((n, some w) :: s) g i * φ i) =
        fun is => ∑ j ∈ Finset.range n, marginal s (fun r => g (j :: r)) is * φ is := by
      funext is
      rw [marginal, Finset.sum_mul]
      refine Finset.sum_congr rfl fun j hj => ?_
      rw [h _ List.mem_cons_self w rfl j (Finset.mem_range.1 hj), one_mul]
    rw [h1, total_sum n (fun j is => marginal s (fun r => g (j :: r)) is * φ is)]
    refine Finset.sum_congr rfl fun j _ => ?_
    exact total_mul (s := s) (g := fun r => g (j :: r)) (φ := φ) fun x hx => h x (List.mem_cons_of_mem _ hx)

theorem keep_getD (o : Axis → Option (ℕ → ℝ)) (stay : ℕ → Bool) {k : ℕ} (hk : stay k = true) :
    ∀ {axes : List Axis} {r : List ℕ}, (∀ a ∈ axes, (o a).isNone = stay a.name) → r.length = axes.length →
    (keep (axes.map fun a => (a.size, o a)) r).getD (pos (axes.filter fun a => stay a.name) k) 0 = r.getD (pos axes k) 0
  | [], [], _, _ => rfl
  | a :: axes, i :: r, h, hl => by
    have ih := keep_getD o stay hk (axes := axes) (r := r) (fun a ha => h a (List.mem_cons_of_mem _ ha)) (by simpa using hl)
    have ha := h a List.mem_cons_self
    rw [List.map_cons]
    cases hs : stay a.name with
    | true =>
      rw [hs, Option.isNone_iff_eq_none] at ha
      rw [ha, keep, List.filter_cons_of_pos (by exact hs)]
      unfold pos
      by_cases hn : a.name = k
      · rw [List.findIdx_cons, List.findIdx_cons]
        simp [hn]
      · rw [List.findIdx_cons, List.findIdx_cons]
        simp only [hn, decide_false, cond_false, List.getD_cons_succ]
        exact ih
    | false =>
      rw [hs] at ha
      have hn : a.name ≠ k := by
        rintro rfl
        rw [hk] at hs
        exact absurd hs (by simp)
      obtain ⟨w, hw⟩ := Option.isSome_iff_exists.1 (Option.isNone_eq_false_iff.1 ha)
      rw [hw, keep, List.filter_cons_of_neg (by simp [hs]), ih]
      unfold pos
      rw [List.findIdx_cons]
      simp only [hn, decide_false, cond_false, List.getD_cons_succ]
  | [], _ :: _, _, hl => by simp at hl
  | _ :: _, [], _, hl => by simp at hl

/-- A total of the particles times a function of abscissae that stay. -/
theorem total_others (stay : ℕ → Bool) {d d' : Data} (he : ∀ a ∈ d.axes, IsEdges a.edges)
    (hi : integrate (others stay d) d = some d') (hax : d'.axes = d.axes.filter fun a => stay a.name)
    {j k : ℕ} (hj : stay j = true) (hk : stay k = true) (fac : ℕ → ℕ → ℝ) :
    total (d'.axes.map (·.size))
        (fun i => histogram d' i * fac (i.getD (pos d'.axes j) 0) (i.getD (pos d'.axes k) 0)) =
      total (d.axes.map (·.size))
        (fun r => histogram d r * fac (r.getD (pos d.axes j) 0) (r.getD (pos d.axes k) 0)) := by
  obtain ⟨-, h2⟩ := C158.integrated hi
  let o : Axis → Option (ℕ → ℝ) := fun a => ((others stay d).lookup a.name).bind (factor a)
  have hfull : ∀ a s, (others stay d).lookup a = some s → s = .slice none none 1 := by
    intro a s hs
    obtain ⟨l1, l2, hl, -⟩ := List.lookup_eq_some_iff.1 hs
    have hm : (a, s) ∈ others stay d := by rw [hl]; simp
    obtain ⟨b, -, hb⟩ := List.mem_map.1 hm
    exact (Prod.mk.inj hb).2.symm
  have ho : ∀ a ∈ d.axes, (o a).isNone = stay a.name := by
    intro a ha
    rw [← lookup_others stay d.axes a.name ⟨a, ha, rfl⟩]
    show (((others stay d).lookup a.name).bind (factor a)).isNone = ((others stay d).lookup a.name).isNone
    cases hl : (others stay d).lookup a.name with
    | none => rfl
    | some s =>
      obtain rfl := hfull _ _ hl
      rfl
  have h1 : ∀ x ∈ d.axes.map fun a => (a.size, o a), ∀ w, x.2 = some w → ∀ j < x.1, w j = 1 := by
    intro x hx w hw j hj
    obtain ⟨a, -, rfl⟩ := List.mem_map.1 hx
    obtain ⟨s, hs1, hs2⟩ := Option.bind_eq_some_iff.1 hw
    obtain rfl := hfull _ _ hs1
    obtain ⟨w', hw', h1'⟩ := C158.factor_full (a := a)
    rw [hw'] at hs2
    obtain rfl := Option.some.inj hs2
    exact h1' j hj
  have h3 := total_mul (s := d.axes.map fun a => (a.size, o a)) (g := histogram d)
    (φ := fun i => fac (i.getD (pos d'.axes j) 0) (i.getD (pos d'.axes k) 0)) h1
  have h4 : ((d.axes.map fun a => (a.size, o a)).filter fun x => x.2.isNone).map (·.1) = d'.axes.map (·.size) := by
    rw [hax, List.filter_map, List.map_map]
    have : d.axes.filter ((fun x : ℕ × Option (ℕ → ℝ) => x.2.isNone) ∘ fun a => (a.size, o a)) =
        d.axes.filter fun a => stay a.name := List.filter_congr fun a ha => ho a ha
    rw [this]
    rfl
  rw [h4] at h3
  have h5 : total (d'.axes.map (·.size))
        (fun i => histogram d' i * fac (i.getD (pos d'.axes j) 0) (i.getD (pos d'.axes k) 0)) =
      total (d'.axes.map (·.size)) (fun i => marginal (d.axes.map fun a => (a.size, o a)) (histogram d) i *
        fac (i.getD (pos d'.axes j) 0) (i.getD (pos d'.axes k) 0)) := by
    refine total_congr fun r hr => ?_
    rw [h2 r (by simpa using hr)]
  rw [h5, h3, List.map_map]
  refine total_congr fun r hr => ?_
  rw [hax, keep_getD o stay hj ho (by simpa using hr), keep_getD o stay hk ho (by simpa using hr)]

theorem histogram_multiply (fac : ℕ → ℕ → ℝ) (j k : ℕ) (d : Data) (r : List ℕ) :
    histogram (multiply fac j k d) r = histogram d r * fac (r.getD (pos d.axes j) 0) (r.getD (pos d.axes k) 0) := by
  unfold histogram multiply
  simp only
  ring

/-- Energy density times volume sums to the kinetic energy of the particles, with momenta at the middle of the cells, if
the number of momentum cells is not three. -/
theorem energy_total {space : ℕ → Bool} {V : List ℕ → ℝ} {d : Data} {ppar pperp : ℕ} {par perp : Axis} (c m : ℝ)
    (he : ∀ a ∈ d.axes, IsEdges a.edges) (hs1 : space ppar = false) (hs2 : space pperp = false)
    (h1 : axis ppar d = some par) (h2 : axis pperp d = some perp) (h3 : par.size * perp.size ≠ 3)
    (hV : ∀ i, Within ((d.axes.filter fun a => space a.name).map (·.size)) i → V i ≠ 0) :
    ∃ w, energydensity space ppar pperp c m V d = some w ∧
      total ((d.axes.filter fun a => space a.name).map (·.size)) (fun i => w i * V i) =
        total (d.axes.map (·.size)) fun r => histogram d r *
          energy c m (Real.sqrt (par.center (r.getD (pos d.axes ppar) 0) ^ 2 +
            perp.center (r.getD (pos d.axes pperp) 0) ^ 2)) := by
  let stay : ℕ → Bool := fun k => space k || decide (k = ppar) || decide (k = pperp)
  have hj : stay ppar = true := by simp [stay]
  have hk : stay pperp = true := by simp [stay]
  obtain ⟨d1, i1, i2, -⟩ := integrate_others stay he
  have he1 : ∀ a ∈ d1.axes, IsEdges a.edges := by
    rw [i2]
    exact fun a ha => he a (List.mem_filter.1 ha).1
  have hfind : ∀ {k : ℕ} {a : Axis}, stay k = true → axis k d = some a → axis k d1 = some a := by
    intro k a hs ha
    unfold axis at ha ⊢
    rw [i2]
    generalize d.axes = l at ha
    induction l with
    | nil => simp at ha
    | cons b l ih =>
      by_cases hb : b.name = k
      · rw [List.find?_cons_of_pos (by simp [hb])] at ha
        rw [List.filter_cons_of_pos (by simp [hb, hs]), List.find?_cons_of_pos (by simp [hb])]
        exact ha
      · rw [List.find?_cons_of_neg (by simp [hb])] at ha
        by_cases hsb : stay b.name = true
        · rw [List.filter_cons_of_pos (by simp [hsb]), List.find?_cons_of_neg (by simp [hb])]
          exact ih ha
        · rw [List.filter_cons_of_neg (by simp [hsb])]
          exact ih ha
  have a1 := hfind hj h1
  have a2 := hfind hk h2
  have hmem : ∀ {k : ℕ} {a : Axis}, axis k d1 = some a → k ∈ d1.axes.map (·.name) := by
    intro k a ha
    have hn := List.find?_some ha
    simp only [decide_eq_true_eq] at hn
    rw [← hn]
    exact List.mem_map_of_mem (List.mem_of_find?_eq_some ha)
  let fac : ℕ → ℕ → ℝ := fun i j => energy c m (cellP par perp i j)
  obtain ⟨d2, j1, j2, j3⟩ := C158.number (d := multiply fac ppar pperp d1)
    (args := [(ppar, .slice none none 1), (pperp, .slice none none 1)]) he1
    (by
      intro x hx
      rcases List.mem_cons.1 hx with rfl | hx
      · exact hmem a1
      · rcases List.mem_cons.1 hx with rfl | hx
        · exact hmem a2
        · simp at hx)
    (by simp)
  have hax2 : d2.axes = d.axes.filter fun a => space a.name := by
    rw [j2]
    show d1.axes.filter _ = _
    rw [i2, List.filter_filter]
    refine List.filter_congr fun a _ => ?_
    by_cases e1 : a.name = ppar
    · simp [e1, hs1, List.lookup_cons]
    · by_cases e2 : a.name = pperp
      · simp [e2, hs2, List.lookup_cons]
        intro h
        rw [← e2] at h
        simp [stay, List.lookup_cons] at *
        split at h <;> simp_all
      · simp [List.lookup_cons, beq_eq_false_iff_ne.2 e1, beq_eq_false_iff_ne.2 e2, stay, e1, e2]
  refine ⟨fun i => histogram d2 i / V i, ?_, ?_⟩
  · unfold energydensity
    rw [i1, Option.bind_some, a1, Option.bind_some, a2, Option.bind_some, if_neg h3, j1]
    rfl
  · have e1 : total ((d.axes.filter fun a => space a.name).map (·.size)) (fun i => histogram d2 i / V i * V i) =
        total (d2.axes.map (·.size)) (histogram d2) := by
      rw [hax2]
      exact C159.total_congr_within fun r hr => div_mul_cancel₀ _ (hV r hr)
    rw [e1, j3]
    have e2 := total_others stay he i1 i2 hj hk fac
    rw [← total_congr (fun r _ => histogram_multiply fac ppar pperp d1 r)] at e2
    exact e2

example : ∃ (space : ℕ → Bool) (d : Data) (par perp : Axis), (∀ a ∈ d.axes, IsEdges a.edges) ∧ space 0 = false ∧
    space 1 = false ∧ axis 0 d = some par ∧ axis 1 d = some perp ∧ par.size * perp.size ≠ 3 :=
  ⟨fun k => decide (k = 2), ⟨C158.exAxes, fun _ => 1⟩, ⟨0, [0, 1, 3]⟩, ⟨1, [-1, 0, 1]⟩,
    by simp [C158.exAxes, IsEdges], by simp, by simp, rfl, rfl, by simp [Axis.size]⟩

/-! ## Pressure -/

theorem cells_add (par perp : Axis) (h u v : ℕ → ℕ → ℝ) :
    cells par perp h (fun i j => u i j + v i j) = cells par perp h u + cells par perp h v := by
  unfold cells
  simp only [mul_add, Finset.sum_add_distrib]

theorem cells_smul (par perp : Axis) (h u : ℕ → ℕ → ℝ) (a : ℝ) :
    cells par perp h (fun i j => a * u i j) = a * cells par perp h u := by
  unfold cells
  rw [Finset.mul_sum]
  refine Finset.sum_congr rfl fun i _ => ?_
  rw [Finset.mul_sum]
  refine Finset.sum_congr rfl fun j _ => ?_
  ring

theorem cells_nonneg {par perp : Axis} {h u : ℕ → ℕ → ℝ} (hh : ∀ i j, 0 ≤ h i j) (hu : ∀ i j, 0 ≤ u i j) :
    0 ≤ cells par perp h u :=
  Finset.sum_nonneg fun i _ => Finset.sum_nonneg fun j _ => mul_nonneg (hh i j) (hu i j)

/-- The parallel pressure is the spread of the parallel velocity. -/
theorem spread (c m : ℝ) {par perp : Axis} {h : ℕ → ℕ → ℝ} (V : ℝ) (hN : cells par perp h (fun _ _ => 1) ≠ 0) :
    ∃ u, u * cells par perp h (fun _ _ => 1) = cells par perp h (vpa c m par perp) ∧
      Ppa c m par perp h V = m * cells par perp h (fun i j => (vpa c m par perp i j - u) ^ 2) / V := by
  have hu : vpaAvg c m par perp h = cells par perp h (vpa c m par perp) / cells par perp h fun _ _ => 1 := by
    unfold vpaAvg
    simp only
    rw [if_neg hN]
  refine ⟨vpaAvg c m par perp h, by rw [hu]; exact div_mul_cancel₀ _ hN, ?_⟩
  unfold Ppa
  simp only
  rw [if_neg hN]
  obtain ⟨u, hu'⟩ : ∃ u, u = vpaAvg c m par perp h := ⟨_, rfl⟩
  rw [← hu'] at hu ⊢
  have h1 : cells par perp h (vpa c m par perp) = u * cells par perp h fun _ _ => 1 := by
    rw [hu]
    exact (div_mul_cancel₀ _ hN).symm
  have h2 : cells par perp h (fun i j => (vpa c m par perp i j - u) ^ 2) =
      cells par perp h (fun i j => vpa c m par perp i j ^ 2) - cells par perp h (fun _ _ => 1) * u ^ 2 := by
    have : (fun i j => (vpa c m par perp i j - u) ^ 2) = fun i j => (vpa c m par perp i j ^ 2 +
        ((-2 * u) * vpa c m par perp i j + u ^ 2 * 1)) := by
      funext i j
      ring
    rw [this, cells_add par perp h (fun i j => vpa c m par perp i j ^ 2)
      (fun i j => (-2 * u) * vpa c m par perp i j + u ^ 2 * 1),
      cells_add par perp h (fun i j => (-2 * u) * vpa c m par perp i j) (fun _ _ => u ^ 2 * 1),
      cells_smul, cells_smul, h1]
    ring
  rw [h2]

/-- It is not negative, and neither is the pressure. -/
theorem nonneg (c : ℝ) {m : ℝ} (hm : 0 < m) {par perp : Axis} {h : ℕ → ℕ → ℝ} {V : ℝ} (hV : 0 < V)
    (hh : ∀ i j, 0 ≤ h i j) : 0 ≤ Ppa c m par perp h V ∧ 0 ≤ pressure c m par perp h V := by
  have h1 : 0 ≤ Ppa c m par perp h V := by
    by_cases hN : cells par perp h (fun _ _ => 1) = 0
    · unfold Ppa
      simp only
      rw [if_pos hN]
    · obtain ⟨u, -, hu⟩ := spread c m V hN
      rw [hu]
      exact div_nonneg (mul_nonneg hm.le (cells_nonneg hh fun _ _ => sq_nonneg _)) hV.le
  refine ⟨h1, ?_⟩
  have h2 : 0 ≤ Ppe c m par perp h V := by
    unfold Ppe
    simp only
    split_ifs
    · exact le_rfl
    · exact div_nonneg (mul_nonneg hm.le (cells_nonneg hh fun _ _ => sq_nonneg _)) hV.le
  unfold pressure
  linarith

/-- A third of the trace of the pressure tensor, `(m / 3 V) Σ |v - u|²`, where the mean velocity `u` is along the field. -/
noncomputable def scalarPressure (c m : ℝ) (par perp : Axis) (h : ℕ → ℕ → ℝ) (V u : ℝ) : ℝ :=
  m / (3 * V) * cells par perp h fun i j => (vpa c m par perp i j - u) ^ 2 + vpe c m par perp i j ^ 2

/-- The perpendicular motion is counted twice: the pressure is too large by its share, which is positive if any particle
moves across the field. -/
theorem pressure_excess (c m : ℝ) {par perp : Axis} {h : ℕ → ℕ → ℝ} (V : ℝ)
    (hN : cells par perp h (fun _ _ => 1) ≠ 0) :
    ∃ u, u * cells par perp h (fun _ _ => 1) = cells par perp h (vpa c m par perp) ∧
      pressure c m par perp h V = scalarPressure c m par perp h V u +
        m / (3 * V) * cells par perp h (fun i j => vpe c m par perp i j ^ 2) := by
  obtain ⟨u, hu1, hu2⟩ := spread c m V hN
  refine ⟨u, hu1, ?_⟩
  unfold pressure scalarPressure
  rw [hu2, cells_add par perp h (fun i j => (vpa c m par perp i j - u) ^ 2) fun i j => vpe c m par perp i j ^ 2]
  unfold Ppe
  simp only
  rw [if_neg hN]
  rw [div_eq_mul_inv _ V, div_eq_mul_inv _ V, div_eq_mul_inv m, mul_inv]
  ring

/-- One cell with one particle, in the middle at `(0, 1)`. -/
noncomputable def onePar : Axis := ⟨0, [-1, 1]⟩

@[inherit_doc onePar]
noncomputable def onePerp : Axis := ⟨1, [0, 2]⟩

theorem one_cells (h w : ℕ → ℕ → ℝ) : cells onePar onePerp h w = h 0 0 * w 0 0 := by
  have s1 : onePar.size = 1 := rfl
  have s2 : onePerp.size = 1 := rfl
  unfold cells
  rw [s1, s2, Finset.sum_range_one, Finset.sum_range_one]

theorem one_cellP : cellP onePar onePerp 0 0 = 1 := by
  have hc1 : onePar.center 0 = 0 := by simp [onePar, Axis.center, Axis.edge]
  have hc2 : onePerp.center 0 = 1 := by simp [onePerp, Axis.center, Axis.edge]
  unfold cellP
  rw [hc1, hc2]
  norm_num

/-- For particles that only move across the field, the pressure is twice as large as it should be. -/
theorem twice {c m V : ℝ} (hc : 0 < c) (hm : 0 < m) (hV : 0 < V) :
    pressure c m onePar onePerp (fun _ _ => 1) V = 2 * scalarPressure c m onePar onePerp (fun _ _ => 1) V 0 ∧
      0 < scalarPressure c m onePar onePerp (fun _ _ => 1) V 0 := by
  have hc1 : onePar.center 0 = 0 := by simp [onePar, Axis.center, Axis.edge]
  have hc2 : onePerp.center 0 = 1 := by simp [onePerp, Axis.center, Axis.edge]
  have hv : vpa c m onePar onePerp 0 0 = 0 := by
    unfold vpa
    rw [hc1]
    simp
  have hvp : 0 < vpe c m onePar onePerp 0 0 := by
    unfold vpe
    rw [hc2, one_cellP]
    have : 0 < Real.sqrt (1 + 1 ^ 2 / (m * c) ^ 2) := Real.sqrt_pos.2 (by positivity)
    positivity
  constructor
  · obtain ⟨u, hu1, hu2⟩ := pressure_excess c m (par := onePar) (perp := onePerp) (h := fun _ _ => 1) V
      (by rw [one_cells]; norm_num)
    rw [one_cells, one_cells, hv] at hu1
    obtain rfl : u = 0 := by linarith
    rw [hu2]
    unfold scalarPressure
    rw [one_cells, one_cells, hv]
    ring
  · unfold scalarPressure
    rw [one_cells, hv]
    positivity

/-! ## Current -/

/-- The parallel current has the momentum over the mass in place of the velocity: it is too large by the Lorentz factor of
each cell. -/
theorem current {c m q V : ℝ} (hc : 0 < c) (hm : 0 < m) {par perp : Axis} (h : ℕ → ℕ → ℝ)
    (hp : ∀ i j, cellP par perp i j ≠ 0) :
    parallelcurrent m q par perp h V = q / V * cells par perp h fun i j =>
      Real.sqrt (1 + cellP par perp i j ^ 2 / (m * c) ^ 2) * vpa c m par perp i j := by
  have hg : ∀ i j, Real.sqrt (1 + cellP par perp i j ^ 2 / (m * c) ^ 2) ≠ 0 := fun i j =>
    (Real.sqrt_pos.2 (by positivity)).ne'
  have h1 : (fun i j => Real.sqrt (1 + cellP par perp i j ^ 2 / (m * c) ^ 2) * vpa c m par perp i j) =
      fun i _ => (1 / m) * par.center i := by
    funext i j
    unfold vpa
    have := hg i j
    have := hp i j
    generalize Real.sqrt (1 + cellP par perp i j ^ 2 / (m * c) ^ 2) = g at *
    field_simp
  rw [h1, cells_smul]
  unfold parallelcurrent
  rw [cells_smul]
  ring

/-- The current of particles can exceed that at the speed of light. -/
theorem faster_than_light {c : ℝ} (hc : 0 < c) :
    ∃ (m : ℝ) (par perp : Axis), 0 < m ∧ IsEdges par.edges ∧ IsEdges perp.edges ∧
      1 * c * cells par perp (fun _ _ => 1) (fun _ _ => 1) / 1 < parallelcurrent m 1 par perp (fun _ _ => 1) 1 := by
  refine ⟨1, ⟨0, [c, 3 * c]⟩, ⟨1, [0, 1]⟩, one_pos, ⟨by simp, by simp; linarith⟩, by simp [IsEdges], ?_⟩
  simp [parallelcurrent, cells, Axis.size, Axis.center, Axis.edge]
  linarith

/-! ## Volumes -/

/-- The volumes of the bins sum to that of the whole grid: half the square of the radii times angle and height. -/
theorem volumes (r phi z : Axis) : ∑ i ∈ Finset.range r.size, ∑ j ∈ Finset.range phi.size, ∑ k ∈ Finset.range z.size,
    cylVolume r phi z i j k = (r.edge r.size ^ 2 - r.edge 0 ^ 2) / 2 * (phi.edge phi.size - phi.edge 0) *
      (z.edge z.size - z.edge 0) := by
  have h1 := sum_diff r (fun e => e ^ 2) r.size
  have h2 := sum_diff phi (fun e => e) phi.size
  have h3 := sum_diff z (fun e => e) z.size
  rw [← h1, ← h2, ← h3, div_mul_eq_mul_div, div_mul_eq_mul_div, Finset.sum_mul_sum, Finset.sum_mul, Finset.sum_div]
  refine Finset.sum_congr rfl fun i _ => ?_
  rw [Finset.sum_mul, Finset.sum_div]
  refine Finset.sum_congr rfl fun j _ => ?_
  rw [Finset.mul_sum, Finset.sum_div]
  refine Finset.sum_congr rfl fun k _ => ?_
  unfold cylVolume
  ring

/-- The same for bins in flux coordinates: the volumes are those of a uniform grid up to one, whatever the edges. -/
theorem shells_uniform {vol : ℝ → ℝ} {rho : Axis} {n : ℕ} (hn : 2 ≤ n) (h : rho.edges = linspace 0 1 n) {i : ℕ}
    (hi : i < rho.size) : shellVolume vol rho i = vol (rho.edge (i + 1)) - vol (rho.edge i) := by
  have hl : rho.edges.length = n := by rw [h]; simp [linspace]
  unfold shellVolume Axis.edge
  rw [hl, h]

/-- For a grid that reaches further, they are wrong. -/
theorem shells_wrong {vol : ℝ → ℝ} (hv : StrictMono vol) {x : ℝ} (hx : 1 < x) :
    shellVolume vol ⟨0, [0, x]⟩ 0 < vol (Axis.edge ⟨0, [0, x]⟩ 1) - vol (Axis.edge ⟨0, [0, x]⟩ 0) := by
  have h1 : shellVolume vol ⟨0, [0, x]⟩ 0 = vol 1 - vol 0 := by
    unfold shellVolume
    have : linspace 0 1 2 = [0, 1] := by
      simp [linspace, List.range_succ]
      norm_num
    simp [this]
  have h2 := hv hx
  rw [h1]
  simp [Axis.edge]
  linarith

/-! ## Averages -/

/-- The toroidal averages keep the total. -/
theorem toroidal {n1 n2 n3 : ℕ} {V f : ℕ → ℕ → ℕ → ℝ} :
    ((∀ i j, ∑ k ∈ Finset.range n3, V i j k ≠ 0) →
      ∑ i ∈ Finset.range n1, ∑ j ∈ Finset.range n2, toravgRho n3 V f i j * ∑ k ∈ Finset.range n3, V i j k =
      ∑ i ∈ Finset.range n1, ∑ j ∈ Finset.range n2, ∑ k ∈ Finset.range n3, f i j k * V i j k) ∧
    ((∀ i k, ∑ j ∈ Finset.range n2, V i j k ≠ 0) →
      ∑ i ∈ Finset.range n1, ∑ k ∈ Finset.range n3, toravgCyl n2 V f i k * ∑ j ∈ Finset.range n2, V i j k =
      ∑ i ∈ Finset.range n1, ∑ j ∈ Finset.range n2, ∑ k ∈ Finset.range n3, f i j k * V i j k) := by
  constructor
  · intro h
    refine Finset.sum_congr rfl fun i _ => Finset.sum_congr rfl fun j _ => ?_
    exact div_mul_cancel₀ _ (h i j)
  · intro h
    refine Finset.sum_congr rfl fun i _ => ?_
    rw [Finset.sum_comm]
    refine Finset.sum_congr rfl fun k _ => ?_
    exact div_mul_cancel₀ _ (h i k)

/-- So do radial profiles. -/
theorem radial {n1 n2 n3 : ℕ} {V f : ℕ → ℕ → ℕ → ℝ} (h1 : ∀ i j, ∑ k ∈ Finset.range n3, V i j k ≠ 0)
    (h2 : ∀ i, ∑ j ∈ Finset.range n2, ∑ k ∈ Finset.range n3, V i j k ≠ 0) :
    ∑ i ∈ Finset.range n1, profile n2 n3 V f i * ∑ j ∈ Finset.range n2, ∑ k ∈ Finset.range n3, V i j k =
      ∑ i ∈ Finset.range n1, ∑ j ∈ Finset.range n2, ∑ k ∈ Finset.range n3, f i j k * V i j k := by
  rw [← (toroidal (n1 := n1) (n2 := n2) (n3 := n3) (V := V) (f := f)).1 h1]
  refine Finset.sum_congr rfl fun i _ => ?_
  exact div_mul_cancel₀ _ (h2 i)

example : (∀ i j : ℕ, ∑ k ∈ Finset.range 2, (fun _ _ _ => (1 : ℝ)) i j k ≠ 0) ∧
    ∀ i : ℕ, ∑ j ∈ Finset.range 2, ∑ k ∈ Finset.range 2, (fun _ _ _ => (1 : ℝ)) i j k ≠ 0 := by
  simp

end Ascot.C160
