import Verif.Lemmas.DistData
import Mathlib.Data.List.Sort
import Mathlib.Algebra.Order.BigOperators.Group.Finset
import Mathlib.Tactic.NormNum
import Mathlib.Tactic.FieldSimp

set_option linter.unusedSectionVars false
set_option linter.unusedSimpArgs false

/-!
# C158: integrating, slicing and interpolating distributions

The histogram of a distribution is what it was made from.  Integrating over some abscissae (or over a range, or with
factors for each bin) sums the particles in the bins; without factors, the number of particles stays.  A slice is the
part in the chosen bins.  Interpolation at a point gives the value there.

Integration and slices without step are proved.  Integration with factors is refused if the factors times widths sum
to zero; slices with a step, and interpolation, are wrong.
-/
namespace Ascot.C158

open DistData Marginal

/-! ## Histograms -/

/-- A distribution made from a histogram has this histogram. -/
theorem made {axes : List Axis} (he : ∀ a ∈ axes, IsEdges a.edges) (h : List ℕ → ℝ) {i : List ℕ}
    (hi : Within (axes.map (·.size)) i) : histogram (ofHistogram axes h) i = h i :=
  div_mul_cancel₀ _ (volume_pos he hi).ne'

/-- A copy has the same abscissae and values. -/
theorem copied {d : Data} (he : ∀ a ∈ d.axes, IsEdges a.edges) {i : List ℕ} (hi : Within (d.axes.map (·.size)) i) :
    (copy d).axes = d.axes ∧ (copy d).f i = d.f i :=
  ⟨rfl, mul_div_cancel_right₀ _ (volume_pos he hi).ne'⟩

/-- Two axes with two bins each. -/
noncomputable def exAxes : List Axis := [⟨0, [0, 1, 3]⟩, ⟨1, [-1, 0, 1]⟩]

example : (∀ a ∈ exAxes, IsEdges a.edges) ∧ Within (exAxes.map (·.size)) [1, 0] := by
  constructor
  · simp [exAxes, IsEdges]
  · simp [exAxes, Axis.size, Within]

/-! ## Integration -/

/-- The result has the abscissae that were not integrated over, and its bins have the particles from all bins that are
summed over, times the factors. -/
theorem integrated {args : List (ℕ × Sel)} {d d' : Data} (h : integrate args d = some d') :
    d'.axes = d.axes.filter (fun a => (args.lookup a.name).isNone) ∧
    ∀ i : List ℕ, i.length = d'.axes.length →
      histogram d' i = marginal (d.axes.map fun a => (a.size, (args.lookup a.name).bind (factor a))) (histogram d) i := by
  unfold integrate at h
  split_ifs at h
  obtain ⟨h1, h2⟩ := loop_histogram (fun k => args.lookup k) (pre := []) (as := d.axes) rfl h
  refine ⟨h1, fun i hi => ?_⟩
  rw [h1] at hi
  exact h2 [] i rfl hi

/-- Factors of arrays: the entries. -/
theorem factor_array {a : Axis} {l : List ℝ} (h : l.length = a.size) :
    ∃ w, factor a (.array l) = some w ∧ ∀ j (hj : j < a.size), w j = l[j] := by
  refine ⟨_, if_pos h, fun j hj => ?_⟩
  exact List.getD_eq_getElem _ _ (h ▸ hj)

theorem mem_full {n j : ℕ} : j ∈ pySlice n none none 1 ↔ j < n := by
  unfold pySlice
  simp [Nat.mod_one]

/-- Factors of the slice `:`: one. -/
theorem factor_full {a : Axis} : ∃ w, factor a (.slice none none 1) = some w ∧ ∀ j < a.size, w j = 1 :=
  ⟨_, rfl, fun _ hj => if_pos (mem_full.2 hj)⟩

theorem total_marginal : ∀ {s : List (ℕ × Option (ℕ → ℝ))} {g : List ℕ → ℝ},
    (∀ x ∈ s, ∀ w, x.2 = some w → ∀ j < x.1, w j = 1) →
    total ((s.filter fun x => x.2.isNone).map (·.1)) (marginal s g) = total (s.map (·.1)) g
  | [], g, _ => rfl
  | (n, none) :: s, g, h => by
    rw [List.filter_cons_of_pos rfl, List.map_cons, List.map_cons, total, total]
    refine Finset.sum_congr rfl fun j _ => ?_
    exact total_marginal (s := s) (g := fun r => g (j :: r)) fun x hx => h x (List.mem_cons_of_mem _ hx)
  | (n, some w) :: s, g, h => by
    rw [List.filter_cons_of_neg (by simp), List.map_cons, total]
    have h1 : marginal ((n, some w) :: s) g = fun is => ∑ j ∈ Finset.range n, marginal s (fun r => g (j :: r)) is := by
      funext is
      rw [marginal]
      refine Finset.sum_congr rfl fun j hj => ?_
      rw [h _ List.mem_cons_self w rfl j (Finset.mem_range.1 hj), one_mul]
    rw [h1, total_sum n (fun j is => marginal s (fun r => g (j :: r)) is)]
    refine Finset.sum_congr rfl fun j _ => ?_
    exact total_marginal (s := s) (g := fun r => g (j :: r)) fun x hx => h x (List.mem_cons_of_mem _ hx)

/-- Integration over any of the abscissae succeeds, and the number of particles stays. -/
theorem number {args : List (ℕ × Sel)} {d : Data} (he : ∀ a ∈ d.axes, IsEdges a.edges)
    (hn : ∀ x ∈ args, x.1 ∈ d.axes.map (·.name)) (hs : ∀ x ∈ args, x.2 = .slice none none 1) :
    ∃ d', integrate args d = some d' ∧
      d'.axes = d.axes.filter (fun a => (args.lookup a.name).isNone) ∧
      total (d'.axes.map (·.size)) (histogram d') = total (d.axes.map (·.size)) (histogram d) := by
  have hlook : ∀ (l : List (ℕ × Sel)) (k : ℕ) (s : Sel), l.lookup k = some s → (k, s) ∈ l := by
    intro l k s
    induction l with
    | nil => intro h; simp at h
    | cons x l ih =>
      intro h
      rw [List.lookup_cons] at h
      by_cases hk : k == x.1
      · rw [hk] at h
        simp only at h
        obtain rfl := Option.some.inj h
        rw [beq_iff_eq] at hk
        rw [hk]
        exact List.mem_cons_self
      · simp only [Bool.not_eq_true] at hk
        rw [hk] at h
        exact List.mem_cons_of_mem _ (ih h)
  have hfull : ∀ k s, args.lookup k = some s → s = .slice none none 1 := fun k s h => hs _ (hlook args k s h)
  obtain ⟨d', hd'⟩ : ∃ d', integrate args d = some d' := by
    unfold integrate
    rw [if_pos hn]
    refine loop_some _ fun a ha s h => ?_
    obtain rfl := hfull _ _ h
    obtain ⟨w, hw, h1⟩ := factor_full (a := a)
    refine ⟨w, hw, ?_⟩
    rw [Finset.sum_congr rfl fun j hj => by rw [h1 j (Finset.mem_range.1 hj), one_mul]]
    exact (Finset.sum_pos (fun j hj => width_pos (he a ha) (Finset.mem_range.1 hj))
      ⟨0, Finset.mem_range.2 (size_pos (he a ha))⟩).ne'
  obtain ⟨h1, h2⟩ := integrated hd'
  refine ⟨d', hd', h1, ?_⟩
  have h3 : total (d'.axes.map (·.size)) (histogram d') = total (d'.axes.map (·.size))
      (marginal (d.axes.map fun a => (a.size, (args.lookup a.name).bind (factor a))) (histogram d)) :=
    total_congr fun r hr => h2 r (by simpa using hr)
  rw [h3, h1]
  have h4 : (d.axes.filter fun a => (args.lookup a.name).isNone).map (·.size) =
      ((d.axes.map fun a => (a.size, (args.lookup a.name).bind (factor a))).filter fun x => x.2.isNone).map (·.1) := by
    rw [List.filter_map, List.map_map]
    have h5 : d.axes.filter (fun a => (args.lookup a.name).isNone) =
        d.axes.filter ((fun x : ℕ × Option (ℕ → ℝ) => x.2.isNone) ∘
          fun a => (a.size, (args.lookup a.name).bind (factor a))) := by
      apply List.filter_congr
      intro a _
      show _ = ((args.lookup a.name).bind (factor a)).isNone
      cases hl : args.lookup a.name with
      | none => rfl
      | some s =>
        obtain rfl := hfull _ _ hl
        obtain ⟨w, hw, -⟩ := factor_full (a := a)
        rw [Option.bind_some, hw]
        rfl
    rw [h5]
    rfl
  rw [h4, total_marginal]
  · rw [List.map_map]
    rfl
  · intro x hx w hw j hj
    obtain ⟨a, -, rfl⟩ := List.mem_map.1 hx
    simp only at hw hj
    obtain ⟨s, hs1, hs2⟩ := Option.bind_eq_some_iff.1 hw
    obtain rfl := hfull _ _ hs1
    obtain ⟨w', hw', h1'⟩ := factor_full (a := a)
    rw [hw'] at hs2
    obtain rfl := Option.some.inj hs2
    exact h1' j hj

example : (∀ a ∈ (⟨exAxes, fun _ => 1⟩ : Data).axes, IsEdges a.edges) ∧
    ∀ x ∈ [((1 : ℕ), Sel.slice none none 1)], x.1 ∈ (⟨exAxes, fun _ => 1⟩ : Data).axes.map (·.name) := by
  constructor
  · simp [exAxes, IsEdges]
  · simp [exAxes]

/-- Integration with the abscissa itself as factor (as for charge and current densities) is refused if the first and the
last edge are opposite, as for a grid from `-p` to `p`: NumPy does not average with weights that sum to zero. -/
theorem symmetric_refused {args : List (ℕ × Sel)} {d : Data} {a : Axis} (ha : a ∈ d.axes)
    (hl : args.lookup a.name = some (.array ((List.range a.size).map a.center)))
    (hsym : |a.edge 0| = |a.edge a.size|) : integrate args d = none := by
  unfold integrate
  by_cases hn : ∀ x ∈ args, x.1 ∈ d.axes.map (·.name)
  · rw [if_pos hn]
    obtain ⟨w, hw, h1⟩ := factor_array (a := a) (l := (List.range a.size).map a.center) (by simp)
    refine loop_none _ ha hl hw ?_
    have h2 : ∀ j ∈ Finset.range a.size, w j * a.width j =
        (fun e => e ^ 2 / 2) (a.edge (j + 1)) - (fun e => e ^ 2 / 2) (a.edge j) := by
      intro j hj
      rw [h1 j (Finset.mem_range.1 hj), List.getElem_map, List.getElem_range]
      unfold Axis.center Axis.width
      ring
    rw [Finset.sum_congr rfl h2, sum_diff a (fun e => e ^ 2 / 2)]
    rw [← sq_abs (a.edge a.size), ← sq_abs (a.edge 0), hsym, sub_self]
  · rw [if_neg hn]

example : ∃ a ∈ exAxes, |a.edge 0| = |a.edge a.size| :=
  ⟨⟨1, [-1, 0, 1]⟩, by simp [exAxes], by simp [Axis.edge, Axis.size]⟩

/-! ## Slices -/

/-- What a bound in a slice says, for `n` bins. -/
def Bound (n : ℕ) (default : ℕ) (s : Option ℤ) (k : ℕ) : Prop :=
  (k : ℤ) = match s with
    | none => (default : ℤ)
    | some s => if s < 0 then n + s else s

theorem mem_slice {n lo hi j : ℕ} {start stop : Option ℤ} (h1 : Bound n 0 start lo) (h2 : Bound n n stop hi)
    (hlo : lo ≤ n) (hhi : hi ≤ n) : j ∈ pySlice n start stop 1 ↔ lo ≤ j ∧ j < hi := by
  unfold pySlice
  have e1 : (start.map fun s : ℤ => if s < 0 then (s + n).toNat else min s.toNat n).getD 0 = lo := by
    unfold Bound at h1
    cases start with
    | none => simp at h1 ⊢; omega
    | some s =>
      simp only [Option.map_some, Option.getD_some] at h1 ⊢
      split_ifs at h1 ⊢ <;> omega
  have e2 : (stop.map fun s : ℤ => if s < 0 then (s + n).toNat else min s.toNat n).getD n = hi := by
    unfold Bound at h2
    cases stop with
    | none => simp at h2 ⊢; omega
    | some s =>
      simp only [Option.map_some, Option.getD_some] at h2 ⊢
      split_ifs at h2 ⊢ <;> omega
  simp only
  rw [e1, e2]
  simp [Nat.mod_one]
  omega

theorem eq_range' {l : List ℕ} {lo hi : ℕ} (hs : l.Pairwise (· < ·)) (hm : ∀ j, j ∈ l ↔ lo ≤ j ∧ j < hi) :
    l = List.range' lo (hi - lo) := by
  have h1 : l.Nodup := hs.imp fun h => h.ne
  refine List.Perm.eq_of_pairwise' (r := (· ≤ ·)) (hs.imp le_of_lt) (List.pairwise_le_range' ..) ?_
  refine (List.perm_ext_iff_of_nodup h1 (List.nodup_range' ..)).2 fun j => ?_
  rw [hm, List.mem_range'_1]
  omega

theorem slice_sorted (n : ℕ) (p : ℕ → Bool) : ((List.range n).filter p).Pairwise (· < ·) :=
  List.pairwise_lt_range.filter _

theorem inBin_iff {a : Axis} (he : IsEdges a.edges) {i j : ℕ} (hi : i < a.size) (hj : j < a.size) :
    inBin a j (a.center i) ↔ i = j := by
  have hw := edge_lt he (Nat.lt_succ_self i) hi
  have c1 : a.edge i < a.center i := by unfold Axis.center; simp only [Nat.succ_eq_add_one] at hw; linarith
  have c2 : a.center i < a.edge (i + 1) := by unfold Axis.center; simp only [Nat.succ_eq_add_one] at hw; linarith
  unfold inBin
  constructor
  · rintro ⟨h1, h2⟩
    by_contra hne
    rcases Nat.lt_or_gt_of_ne hne with h | h
    · have := edge_le he (Nat.succ_le_of_lt h) hj.le
      linarith
    · have h3 := edge_le he (Nat.succ_le_of_lt h) hi.le
      rcases h2 with h2 | ⟨_, h2⟩
      · simp only [Nat.succ_eq_add_one] at h3
        linarith
      · simp only [Nat.succ_eq_add_one] at h3
        linarith
  · rintro rfl
    exact ⟨c1.le, Or.inl c2⟩

theorem bins_eq {a : Axis} (he : IsEdges a.edges) {lo hi : ℕ} {start stop : Option ℤ}
    (h1 : Bound a.size 0 start lo) (h2 : Bound a.size a.size stop hi) (hlo : lo ≤ a.size) (hhi : hi ≤ a.size) :
    bins a (pySlice a.size start stop 1) = List.range' lo (hi - lo) := by
  unfold bins
  refine eq_range' (slice_sorted _ _) fun j => ?_
  rw [List.mem_filter, List.mem_range]
  simp only [decide_eq_true_eq]
  constructor
  · rintro ⟨hj, i, hi, hb⟩
    have hi' := (mem_slice h1 h2 hlo hhi).1 hi
    rw [inBin_iff he (by omega) hj] at hb
    omega
  · intro hj
    exact ⟨by omega, j, (mem_slice h1 h2 hlo hhi).2 hj, (inBin_iff he (by omega) (by omega)).2 rfl⟩

theorem edges_eq {a : Axis} (he : IsEdges a.edges) {lo hi : ℕ} {start stop : Option ℤ}
    (h1 : Bound a.size 0 start lo) (h2 : Bound a.size a.size stop hi) (hlo : lo ≤ a.size) (hhi : hi ≤ a.size) :
    sliceEdges a start stop = (List.range' lo (hi + 1 - lo)).map fun j => a.edges.getD j 0 := by
  have hlen : a.edges.length = a.size + 1 := by
    have := he.1
    unfold Axis.size
    omega
  unfold sliceEdges
  simp only
  congr 1
  have e1 : (match (generalizing := false) start with | none => (0 : ℤ) | some s => if s < 0 then (a.size : ℤ) + s else s) = (lo : ℤ) := by
    unfold Bound at h1
    rw [h1]
    cases start <;> rfl
  have e2 : (match (generalizing := false) stop with
      | none => (a.size : ℤ) + 1
      | some s => if s < 0 then (a.size : ℤ) + s + 1 else s + 1) = (hi : ℤ) + 1 := by
    unfold Bound at h2
    rw [h2]
    cases stop with
    | none => rfl
    | some s => simp only; split_ifs <;> rfl
  refine (congrArg₂ (fun x y => pySlice a.edges.length (some x) (some y) 1) e1 e2).trans ?_
  refine eq_range' (slice_sorted _ _) fun j => ?_
  exact mem_slice (n := a.edges.length) (start := some (lo : ℤ)) (stop := some ((hi : ℤ) + 1)) (lo := lo) (hi := hi + 1)
    (by unfold Bound; simp only; rw [if_neg (by omega)])
    (by unfold Bound; simp only; rw [if_neg (by omega)]; omega) (by omega) (by omega)

theorem volume_set {a a' : Axis} {g : ℕ → ℕ} : ∀ {axes : List Axis} {dim : ℕ} {i : List ℕ}, axes[dim]? = some a →
    (∀ k, i[dim]? = some k → a'.width k = a.width (g k)) →
    volume (axes.set dim a') i = volume axes (i.modify dim g)
  | [], dim, i, h, _ => by simp at h
  | b :: axes, 0, [], h, _ => by
    rw [List.set_cons_zero, List.modify_nil]
    rfl
  | b :: axes, 0, k :: i, h, hk => by
    rw [List.set_cons_zero, List.modify_zero_cons, volume, volume]
    obtain rfl : b = a := by simpa using h
    rw [hk k (by simp)]
  | b :: axes, dim + 1, [], h, _ => by
    rw [List.set_cons_succ, List.modify_nil]
    rfl
  | b :: axes, dim + 1, k :: i, h, hk => by
    rw [List.set_cons_succ, List.modify_succ_cons, volume, volume,
      volume_set (axes := axes) (dim := dim) (i := i) (by simpa using h) (by simpa using hk)]

/-- A slice without step, from `lo` up to `hi` (counted from the end if negative): the abscissa has these bins with
their edges, and each has the particles it had. -/
theorem sliced {d : Data} {dim : ℕ} {a : Axis} (ha : d.axes[dim]? = some a) (he : IsEdges a.edges) {lo hi : ℕ}
    {start stop : Option ℤ} (h1 : Bound a.size 0 start lo) (h2 : Bound a.size a.size stop hi) (hlo : lo < hi)
    (hhi : hi ≤ a.size) :
    ∃ d' a', slice dim start stop 1 d = some d' ∧ d'.axes = d.axes.set dim a' ∧ a'.name = a.name ∧
      a'.size = hi - lo ∧ (∀ j ≤ hi - lo, a'.edge j = a.edge (lo + j)) ∧
      ∀ i : List ℕ, (∀ k, i[dim]? = some k → k < hi - lo) →
        histogram d' i = histogram d (i.modify dim fun k => lo + k) := by
  have hlo' : lo ≤ a.size := by omega
  have hee := edges_eq he h1 h2 hlo' hhi
  have hbb := bins_eq he h1 h2 hlo' hhi
  have hedge : ∀ j ≤ hi - lo, ({ a with edges := sliceEdges a start stop } : Axis).edge j = a.edge (lo + j) := by
    intro j hj
    unfold Axis.edge
    simp only
    rw [hee, List.getD_eq_getElem _ _ (by simp; omega), List.getElem_map, List.getElem_range']
    rw [one_mul]
  unfold slice
  rw [ha, Option.map_some]
  refine ⟨_, { a with edges := sliceEdges a start stop }, rfl, rfl, rfl, ?_, hedge, ?_⟩
  · unfold Axis.size at *
    simp only
    rw [hee, List.length_map, List.length_range']
    omega
  · intro i hi'
    have hidx : i.modify dim (fun j => (bins a (pySlice a.size start stop 1)).getD j 0) =
        i.modify dim fun k => lo + k := by
      apply List.ext_getElem?
      intro m
      rw [List.getElem?_modify, List.getElem?_modify]
      by_cases hm : dim = m
      · subst hm
        simp only [if_true]
        cases hk : i[dim]? with
        | none => rfl
        | some k =>
          simp only [Option.map_eq_map, Option.map_some]
          have hk' := hi' k hk
          rw [hbb, List.getD_eq_getElem _ _ (by simpa using hk'), List.getElem_range', one_mul]
      · simp only [if_neg hm]
    unfold histogram
    simp only
    rw [hidx, volume_set (a := a) (g := fun k => lo + k) ha]
    intro k hk
    have hk' := hi' k hk
    unfold Axis.width
    rw [hedge k hk'.le, hedge (k + 1) hk']
    rfl

example : ∃ a : Axis, exAxes[0]? = some a ∧ IsEdges a.edges ∧ Bound a.size 0 (some (-1)) 1 ∧
    Bound a.size a.size none 2 :=
  ⟨⟨0, [0, 1, 3]⟩, rfl, by simp [IsEdges], by simp [Bound, Axis.size], by simp [Bound, Axis.size]⟩

/-- A slice with step two takes every edge but not every bin, so that edges and bins do not belong together. -/
theorem step_wrong {a : Axis} (he : IsEdges a.edges) (h2 : 2 ≤ a.size) :
    (bins a (pySlice a.size none none 2)).length < (sliceEdges a none none).length - 1 := by
  have hee := edges_eq he (lo := 0) (hi := a.size) (start := none) (stop := none) rfl rfl (Nat.zero_le _) le_rfl
  rw [hee, List.length_map, List.length_range']
  have : (bins a (pySlice a.size none none 2)).length < (List.range a.size).length := by
    unfold bins
    refine List.length_filter_lt_length_iff_exists.2 ⟨1, List.mem_range.2 (by omega), ?_⟩
    simp only [decide_eq_true_eq]
    rintro ⟨i, hi, hb⟩
    unfold pySlice at hi
    simp at hi
    rw [inBin_iff he hi.1 (by omega)] at hb
    omega
  rw [List.length_range] at this
  omega

example : ∃ a : Axis, IsEdges a.edges ∧ 2 ≤ a.size := ⟨⟨0, [0, 1, 3]⟩, by simp [IsEdges], by simp [Axis.size]⟩

/-! ## Interpolation -/

theorem cell_eq {a : Axis} (he : IsEdges a.edges) {j : ℕ} (hj : j < a.size) {x : ℝ} (h1 : a.edge j ≤ x)
    (h2 : x < a.edge (j + 1)) : cell a x = j := by
  have hlen : a.edges.length = a.size + 1 := by
    have := he.1
    unfold Axis.size
    omega
  have : a.edges.findIdx? (fun e => decide (x < e)) = some (j + 1) := by
    rw [List.findIdx?_eq_some_iff_getElem]
    refine ⟨by omega, ?_, ?_⟩
    · have : a.edge (j + 1) = a.edges[j + 1] := List.getD_eq_getElem _ _ (by omega)
      rw [← this]
      exact decide_eq_true h2
    · intro k hk
      have h3 : a.edge k = a.edges[k]'(by omega) := List.getD_eq_getElem _ _ (by omega)
      have h4 := edge_le he (i := k) (j := j) (by omega) hj.le
      rw [← h3]
      simp only [decide_eq_true_eq, not_lt]
      linarith
  unfold cell
  rw [this]
  push_cast
  ring

theorem pyIdx_nat {n k : ℕ} (h : k < n) : pyIdx n (k : ℤ) = some k := by
  unfold pyIdx
  rw [if_pos (by omega), if_pos (by omega)]
  rfl

/-- In every cell but the last, the value is between those of this and the next bin; but the nearer the lower edge, the
more it is of the next bin. -/
theorem interpolated {a : Axis} (he : IsEdges a.edges) {j : ℕ} (hj : j + 1 < a.size) {x : ℝ} (h1 : a.edge j ≤ x)
    (h2 : x < a.edge (j + 1)) (f : ℕ → ℝ) :
    interpolate a f x = some ((x - a.edge j) / (a.edge (j + 1) - a.edge j) * f j +
      (1 - (x - a.edge j) / (a.edge (j + 1) - a.edge j)) * f (j + 1)) := by
  have hlen : a.edges.length = a.size + 1 := by
    have := he.1
    unfold Axis.size
    omega
  have e0 := edge_le he (Nat.zero_le j) (by omega)
  have e1 := edge_le he hj.le le_rfl
  unfold interpolate
  rw [if_neg (by rw [not_or, not_lt, not_lt]; exact ⟨e0.trans h1, h2.le.trans e1⟩)]
  simp only
  have hc : (cell a x) + 1 = ((j + 1 : ℕ) : ℤ) := by
    rw [cell_eq he (by omega) h1 h2]
    push_cast
    rfl
  rw [hc, cell_eq he (by omega) h1 h2, pyIdx_nat (by omega), pyIdx_nat (by omega), pyIdx_nat (by omega),
    pyIdx_nat (by omega)]
  rfl

/-- At the lower edge of a bin the value of the next bin is returned. -/
theorem lower_edge {a : Axis} (he : IsEdges a.edges) {j : ℕ} (hj : j + 1 < a.size) (f : ℕ → ℝ) :
    interpolate a f (a.edge j) = some (f (j + 1)) := by
  rw [interpolated he hj le_rfl (edge_lt he (Nat.lt_succ_self j) (by omega))]
  simp

/-- In the last cell interpolation fails. -/
theorem last_cell {a : Axis} (he : IsEdges a.edges) {x : ℝ} (h1 : a.edge (a.size - 1) ≤ x) (h2 : x < a.edge a.size)
    (f : ℕ → ℝ) : interpolate a f x = none := by
  have hs := size_pos he
  have hc : (cell a x) = ((a.size - 1 : ℕ) : ℤ) :=
    cell_eq he (by omega) h1 (by rwa [Nat.sub_add_cancel hs])
  have hc1 : cell a x + 1 = ((a.size : ℕ) : ℤ) := by rw [hc]; omega
  unfold interpolate
  split_ifs
  · rfl
  · simp only
    have hp : pyIdx a.size (cell a x + 1) = none := by
      rw [hc1]
      unfold pyIdx
      rw [if_pos (by omega), if_neg (by omega)]
    rw [hp]
    simp

/-- At the last edge the value of the first bin is returned. -/
theorem last_edge {a : Axis} (he : IsEdges a.edges) (f : ℕ → ℝ) : interpolate a f (a.edge a.size) = some (f 0) := by
  have hs := size_pos he
  have hlen : a.edges.length = a.size + 1 := by
    have := he.1
    unfold Axis.size
    omega
  have hc : cell a (a.edge a.size) = -1 := by
    have : a.edges.findIdx? (fun e => decide (a.edge a.size < e)) = none := by
      rw [List.findIdx?_eq_none_iff]
      intro e hem
      obtain ⟨k, hk, rfl⟩ := List.getElem_of_mem hem
      have h3 : a.edge k = a.edges[k] := List.getD_eq_getElem _ _ hk
      have h4 := edge_le he (i := k) (j := a.size) (by omega) le_rfl
      rw [← h3]
      simp only [decide_eq_false_iff_not, not_lt]
      exact h4
    unfold cell
    rw [this]
  unfold interpolate
  rw [if_neg (by rw [not_or, not_lt, not_lt]; exact ⟨edge_le he (Nat.zero_le _) le_rfl, le_rfl⟩)]
  simp only
  have hc1 : cell a (a.edge a.size) + 1 = ((0 : ℕ) : ℤ) := by rw [hc]; rfl
  have hm : ∀ n : ℕ, 0 < n → pyIdx n (-1) = some (n - 1) := by
    intro n hn
    unfold pyIdx
    rw [if_neg (by omega), if_pos (by omega)]
    congr 1
    omega
  rw [hc1, hc, hm _ (by omega), hm _ hs, pyIdx_nat (by omega), pyIdx_nat hs]
  have : a.edges.length - 1 = a.size := by omega
  simp [this]

end Ascot.C158
