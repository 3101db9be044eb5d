import Mathlib.MeasureTheory.Measure.Lebesgue.Basic
import Mathlib.Tactic.Linarith
import Mathlib.Tactic.FieldSimp
import Mathlib.Tactic.LinearCombination
import Mathlib.Tactic.Positivity
import Verif.Model.Afsi
import Verif.Props.C25_Hist

/-!
# C59: reactant momenta sampled from a distribution
-/
set_option linter.unusedSectionVars false
set_option linter.unusedSimpArgs false

namespace Ascot.C59
open Ascot.Afsi Ascot.Dist Ascot.Physlib Ascot.HistG Ascot.C25

/-! ## Specification -/

/-- Centre of bin `k` of an axis. -/
noncomputable def centre (a : Axis ℝ) (k : Nat) : ℝ :=
  let w := (a.max - a.min) / a.n
  ((a.min + k * w) + (a.min + (k + 1) * w)) / 2

/-- The full set of bins for the cell `i0`, `i1`, `i2` of the first three axes and the bins `k1`, `k2` of the axes `p1`, `p2`. -/
def address (p1 p2 i0 i1 i2 k1 k2 : Nat) : List Nat :=
  (((((List.replicate 16 0).set 0 i0).set 1 i1).set 2 i2).set p1 k1).set p2 k2

/-- A histogram as it is set up for 16 axes, with entries that are not negative. -/
structure Valid (h : Hist) : Prop where
  axes : h.axes.length = 16
  size : h.bins.length = (h.axes.map (fun a => eff a.n)).prod
  nonneg : ∀ b ∈ h.bins, 0 ≤ b

/-- The content of a bin. -/
noncomputable def content (h : Hist) (p1 p2 i0 i1 i2 k1 k2 : Nat) : ℝ := (h.bins[elementOf h.axes (address p1 p2 i0 i1 i2 k1 k2)]?).getD 0

/-- Total content of a cell. -/
noncomputable def total (h : Hist) (p1 p2 i0 i1 i2 : Nat) : ℝ :=
  ∑ k1 ∈ Finset.range (h.n p1), ∑ k2 ∈ Finset.range (h.n p2), content h p1 p2 i0 i1 i2 k1 k2

/-! ## Selection of a bin -/

theorem length_cumulate : ∀ (l : List ℝ) (a : ℝ), (cumulate a l).length = l.length
  | [], _ => rfl
  | _ :: l, _ => by simp [cumulate, length_cumulate l]

theorem get_cumulate : ∀ (l : List ℝ) (a : ℝ) (j : Nat), j < l.length → (cumulate a l)[j]? = some (a + (l.take (j + 1)).sum)
  | [], _, _, h => by simp at h
  | b :: l, a, 0, _ => by simp [cumulate]
  | b :: l, a, j + 1, h => by
    have := get_cumulate l (a + b) j (by simpa using h)
    simp only [cumulate, List.getElem?_cons_succ, this, List.take_succ_cons, List.sum_cons]
    congr 1; ring

theorem last_cumulate : ∀ (l : List ℝ) (a d : ℝ), (cumulate a l).getLastD d = if l = [] then d else a + l.sum
  | [], _, _ => rfl
  | b :: l, a, d => by
    rw [cumulate, List.getLastD_cons, last_cumulate l (a + b) (a + b)]
    by_cases h : l = []
    · simp [h]
    · simp [h]; ring

theorem last_cumulate0 (l : List ℝ) : (cumulate 0 l).getLastD 0 = l.sum := by
  rw [last_cumulate]; by_cases h : l = [] <;> simp [h]

theorem take_mono {l : List ℝ} (h : ∀ b ∈ l, 0 ≤ b) {i j : Nat} (hij : i ≤ j) : (l.take i).sum ≤ (l.take j).sum := by
  obtain ⟨k, rfl⟩ := Nat.exists_eq_add_of_le hij
  rw [List.take_add, List.sum_append]
  have : 0 ≤ ((l.drop i).take k).sum := List.sum_nonneg fun b hb => h b (List.mem_of_mem_drop (List.mem_of_mem_take hb))
  linarith

theorem pick_iff {l : List ℝ} (h : ∀ b ∈ l, 0 ≤ b) {u : ℝ} (h0 : 0 ≤ u * l.sum) (j : Nat) :
    pick (cumulate 0 l) u = some j ↔ j < l.length ∧ (l.take j).sum ≤ u * l.sum ∧ u * l.sum < (l.take (j + 1)).sum := by
  unfold pick
  rw [last_cumulate0, List.findIdx?_eq_some_iff_getElem]
  have hg : ∀ (i : Nat) (hi : i < (cumulate 0 l).length), (cumulate 0 l)[i] = (l.take (i + 1)).sum := by
    intro i hi
    have := get_cumulate l 0 i (by simpa [length_cumulate] using hi)
    rw [List.getElem?_eq_getElem hi] at this
    simpa using this
  constructor
  · rintro ⟨hj, h1, h2⟩
    rw [hg j hj, decide_eq_true_iff] at h1
    refine ⟨by simpa [length_cumulate] using hj, ?_, h1⟩
    cases j with
    | zero => simpa using h0
    | succ j =>
      have := h2 j (by omega)
      rw [hg] at this
      simpa using this
  · rintro ⟨hj, h1, h2⟩
    refine ⟨by simpa [length_cumulate] using hj, by rw [hg, decide_eq_true_iff]; exact h2, fun i hi => ?_⟩
    rw [hg]
    simpa using (take_mono h (show i + 1 ≤ j by omega)).trans h1

theorem pick_exists {l : List ℝ} (h : ∀ b ∈ l, 0 ≤ b) (hs : 0 < l.sum) {u : ℝ} (h0 : 0 ≤ u) (h1 : u < 1) : ∃ j, pick (cumulate 0 l) u = some j := by
  have hus : 0 ≤ u * l.sum := by positivity
  have hlt : u * l.sum < l.sum := by nlinarith
  have hex : ∃ j, u * l.sum < (l.take (j + 1)).sum := ⟨l.length, by rw [List.take_of_length_le (by omega)]; exact hlt⟩
  classical
  have hf := Nat.find_spec hex
  have hm := fun j => Nat.find_min (H := hex) (m := j)
  set j := Nat.find hex
  refine ⟨j, (pick_iff h hus j).2 ⟨?_, ?_, hf⟩⟩
  · by_contra hc
    push Not at hc
    cases hj : j with
    | zero =>
      have : l = [] := List.length_eq_zero_iff.1 (by omega)
      rw [this] at hs; simp at hs
    | succ k =>
      have := hm k (by omega)
      rw [List.take_of_length_le (by omega)] at this
      exact this hlt
  · cases hj : j with
    | zero => simpa using hus
    | succ k => exact not_lt.1 (hm k (by omega))

/-- The bin `j` is selected with the probability `l[j] / Σ l`. -/
theorem pick_probability {l : List ℝ} (h : ∀ b ∈ l, 0 ≤ b) (hs : 0 < l.sum) {j : Nat} (hj : j < l.length) :
    MeasureTheory.volume {u : ℝ | (0 ≤ u ∧ u < 1) ∧ pick (cumulate 0 l) u = some j} = ENNReal.ofReal (l[j] / l.sum) := by
  have hset : {u : ℝ | (0 ≤ u ∧ u < 1) ∧ pick (cumulate 0 l) u = some j} = Set.Ico ((l.take j).sum / l.sum) ((l.take (j + 1)).sum / l.sum) := by
    ext u
    simp only [Set.mem_setOf_eq, Set.mem_Ico]
    constructor
    · rintro ⟨⟨h0, h1⟩, h2⟩
      obtain ⟨-, h3, h4⟩ := (pick_iff h (by positivity) j).1 h2
      exact ⟨(div_le_iff₀ hs).2 h3, (lt_div_iff₀ hs).2 h4⟩
    · rintro ⟨h3, h4⟩
      rw [div_le_iff₀ hs] at h3
      rw [lt_div_iff₀ hs] at h4
      have h5 : 0 ≤ (l.take j).sum := by simpa using take_mono h (Nat.zero_le j)
      have h6 : (l.take (j + 1)).sum ≤ l.sum := by
        have := take_mono h (show j + 1 ≤ l.length by omega)
        rwa [List.take_length] at this
      have hu0 : 0 ≤ u := by
        by_contra hc
        push Not at hc
        nlinarith
      refine ⟨⟨hu0, ?_⟩, (pick_iff h (by positivity) j).2 ⟨hj, h3, h4⟩⟩
      by_contra hc
      push Not at hc
      nlinarith
  rw [hset, Real.volume_Ico]
  congr 1
  rw [List.take_succ_eq_append_getElem hj, List.sum_append]
  simp only [List.sum_singleton]
  field_simp
  ring

/-- A random number equal to one selects nothing. -/
theorem pick_one {l : List ℝ} (h : ∀ b ∈ l, 0 ≤ b) : pick (cumulate 0 l) 1 = none := by
  rw [← Option.not_isSome_iff_eq_none]
  intro hc
  obtain ⟨j, hj⟩ := Option.isSome_iff_exists.1 hc
  obtain ⟨h1, -, h3⟩ := (pick_iff h (by rw [one_mul]; exact List.sum_nonneg h) j).1 hj
  have := take_mono h (show j + 1 ≤ l.length by omega)
  rw [List.take_length] at this
  linarith

/-! ## The bins of a cell -/

theorem list15 {l : List Nat} (h : l.length = 15) : ∃ s0 s1 s2 s3 s4 s5 s6 s7 s8 s9 s10 s11 s12 s13 s14,
    l = [s0, s1, s2, s3, s4, s5, s6, s7, s8, s9, s10, s11, s12, s13, s14] := by
  match l, h with
  | [s0, s1, s2, s3, s4, s5, s6, s7, s8, s9, s10, s11, s12, s13, s14], _ => exact ⟨_, _, _, _, _, _, _, _, _, _, _, _, _, _, _, rfl⟩

theorem index_eq {h : Hist} (ha : h.axes.length = 16) {p1 p2 : Nat} (hp : (p1, p2) = (5, 6) ∨ (p1, p2) = (10, 11)) (i0 i1 i2 k1 k2 : Nat) :
    i0 * h.stride 0 + i1 * h.stride 1 + i2 * h.stride 2 + k1 * h.stride p1 + k2 * h.stride p2 =
      elementOf h.axes (address p1 p2 i0 i1 i2 k1 k2) := by
  have hlen : (address p1 p2 i0 i1 i2 k1 k2).length = (h.axes.map Axis.n).length := by simp [address, ha]
  obtain ⟨e1, e2, -⟩ := strides_sum (h.axes.map Axis.n) (address p1 p2 i0 i1 i2 k1 k2) hlen (by
    intro hc; have := congrArg List.length hc; simp [ha] at this)
  have he : elementOf h.axes (address p1 p2 i0 i1 i2 k1 k2) = radix ((h.axes.map Axis.n).map eff) (address p1 p2 i0 i1 i2 k1 k2) := by
    unfold elementOf; rw [List.map_map]; rfl
  rw [he, ← e1]
  unfold Hist.stride
  obtain ⟨s0, s1, s2, s3, s4, s5, s6, s7, s8, s9, s10, s11, s12, s13, s14, hs⟩ := list15 (l := strides (h.axes.map Axis.n)) (by
    simp [ha] at e2; omega)
  rw [hs]
  rcases hp with hp | hp
  · cases hp
    simp [address, List.replicate, List.set]
    omega
  · cases hp
    simp [address, List.replicate, List.set]
    omega

theorem n_eq {h : Hist} (k : Nat) : h.n k = (h.axis k).n := by
  unfold Hist.n Hist.axis
  rw [List.getElem?_map]
  cases h.axes[k]? <;> rfl

/-- Bins that exist. -/
def InCell (h : Hist) (i0 i1 i2 : Nat) : Prop := i0 < eff (h.n 0) ∧ i1 < eff (h.n 1) ∧ i2 < eff (h.n 2)

theorem address_cell {h : Hist} (ha : h.axes.length = 16) {p1 p2 : Nat} (hp : (p1, p2) = (5, 6) ∨ (p1, p2) = (10, 11)) {i0 i1 i2 k1 k2 : Nat}
    (hc : InCell h i0 i1 i2) (h1 : k1 < h.n p1) (h2 : k2 < h.n p2) : CellOpt h.axes (address p1 p2 i0 i1 i2 k1 k2) := by
  obtain ⟨c0, c1, c2⟩ := hc
  obtain ⟨ax, bins⟩ := h
  unfold CellOpt
  simp only at ha ⊢
  have hpos : ∀ n, 0 < eff n := by intro n; unfold eff; split_ifs <;> omega
  have hle : ∀ {k n : Nat}, k < n → k < eff n := by intro k n hkn; unfold eff; split_ifs <;> omega
  match ax, ha with
  | [a0, a1, a2, a3, a4, a5, a6, a7, a8, a9, a10, a11, a12, a13, a14, a15], _ =>
    simp only [Hist.n, List.map_cons, List.getElem?_cons_zero, List.getElem?_cons_succ, Option.getD_some] at c0 c1 c2
    rcases hp with hp | hp
    · cases hp
      simp only [Hist.n, List.map_cons, List.getElem?_cons_zero, List.getElem?_cons_succ, Option.getD_some] at h1 h2
      simp only [address, List.replicate, List.set, List.forall₂_cons, List.forall₂_nil_right_iff]
      exact ⟨c0, c1, c2, hpos _, hpos _, hle h1, hle h2, hpos _, hpos _, hpos _, hpos _, hpos _, hpos _, hpos _, hpos _, hpos _, trivial⟩
    · cases hp
      simp only [Hist.n, List.map_cons, List.getElem?_cons_zero, List.getElem?_cons_succ, Option.getD_some] at h1 h2
      simp only [address, List.replicate, List.set, List.forall₂_cons, List.forall₂_nil_right_iff]
      exact ⟨c0, c1, c2, hpos _, hpos _, hpos _, hpos _, hpos _, hpos _, hpos _, hle h1, hle h2, hpos _, hpos _, hpos _, hpos _, trivial⟩

theorem mapM_some {α β : Type} (f : α → Option β) (g : α → β) : ∀ l : List α, (∀ x ∈ l, f x = some (g x)) → l.mapM f = some (l.map g)
  | [], _ => rfl
  | x :: l, h => by
    rw [List.mapM_cons, h x (by simp), mapM_some f g l (fun y hy => h y (by simp [hy]))]
    rfl

/-- The bins of a cell are those of the histogram, in the order of the momentum bins. -/
theorem cellBins_eq {h : Hist} (hv : Valid h) {p1 p2 : Nat} (hp : (p1, p2) = (5, 6) ∨ (p1, p2) = (10, 11)) {i0 i1 i2 : Nat}
    (hc : InCell h i0 i1 i2) :
    cellBins h p1 p2 i0 i1 i2 = some ((List.range (h.n p1 * h.n p2)).map fun j => content h p1 p2 i0 i1 i2 (j / h.n p2) (j % h.n p2)) := by
  unfold cellBins
  apply mapM_some
  intro j hj
  rw [List.mem_range] at hj
  have hn2 : 0 < h.n p2 := by
    rcases Nat.eq_zero_or_pos (h.n p2) with h0 | h0
    · rw [h0] at hj; simp at hj
    · exact h0
  have h1 : j / h.n p2 < h.n p1 := Nat.div_lt_of_lt_mul (by rwa [Nat.mul_comm])
  have h2 : j % h.n p2 < h.n p2 := Nat.mod_lt _ hn2
  rw [index_eq hv.axes hp]
  unfold content
  have hlt := (cells h.axes).1 _ (address_cell hv.axes hp hc h1 h2)
  rw [← hv.size] at hlt
  rw [List.getElem?_eq_getElem hlt]
  rfl

theorem content_nonneg {h : Hist} (hv : Valid h) (p1 p2 i0 i1 i2 k1 k2 : Nat) : 0 ≤ content h p1 p2 i0 i1 i2 k1 k2 := by
  unfold content
  cases e : h.bins[elementOf h.axes (address p1 p2 i0 i1 i2 k1 k2)]? with
  | none => simp
  | some b => exact hv.nonneg b (List.mem_of_getElem? e)

theorem sum_range_mul (n1 n2 : Nat) (f : Nat → Nat → ℝ) :
    ((List.range (n1 * n2)).map fun j => f (j / n2) (j % n2)).sum = ∑ k1 ∈ Finset.range n1, ∑ k2 ∈ Finset.range n2, f k1 k2 := by
  rw [← List.sum_toFinset _ List.nodup_range, List.toFinset_range]
  rcases Nat.eq_zero_or_pos n2 with h0 | h0
  · subst h0; simp
  · rw [← Finset.sum_product']
    refine Finset.sum_nbij' (fun j => (j / n2, j % n2)) (fun k => k.1 * n2 + k.2) ?_ ?_ ?_ ?_ ?_
    · intro j hj
      simp only [Finset.mem_range] at hj
      simp only [Finset.mem_product, Finset.mem_range]
      exact ⟨Nat.div_lt_of_lt_mul (by rwa [Nat.mul_comm]), Nat.mod_lt _ h0⟩
    · rintro ⟨a, b⟩ hk
      simp only [Finset.mem_product, Finset.mem_range] at hk ⊢
      calc a * n2 + b < a * n2 + n2 := by omega
        _ = (a + 1) * n2 := by ring
        _ ≤ n1 * n2 := Nat.mul_le_mul_right _ hk.1
    · intro j _
      simp only
      rw [Nat.mul_comm]; exact Nat.div_add_mod j n2
    · rintro ⟨a, b⟩ hk
      simp only [Finset.mem_product, Finset.mem_range] at hk
      simp only [Prod.mk.injEq]
      rw [Nat.mul_comm a n2, Nat.mul_add_div h0, Nat.mul_add_mod, Nat.div_eq_of_lt hk.2, Nat.mod_eq_of_lt hk.2]
      simp
    · intro j _; rfl

theorem density_eq (vol : ℝ) (l : List ℝ) : density vol l = l.sum / vol := by
  unfold density
  have : ∀ (l : List ℝ) (a : ℝ), l.foldl (fun d b => d + b / vol) a = a + l.sum / vol := by
    intro l
    induction l with
    | nil => intro a; simp
    | cons b l ih => intro a; rw [List.foldl_cons, ih, List.sum_cons]; ring
  rw [this]; ring

/-! ## The property -/

/-- **Selection.**  For a cell with some content, every momentum bin is selected with a probability in proportion to its content, the
density is the content of the cell by volume, and the momentum is the one for the number `k1 n2 + k2` of the selected bin. -/
theorem selection {h : Hist} (hv : Valid h) {p1 p2 : Nat} {ppar : Bool} (hax : momentumAxes h = some (p1, p2, ppar)) {i0 i1 i2 : Nat}
    (hc : InCell h i0 i1 i2) {vol : ℝ} (hvol : 0 < vol) (ht : 0 < total h p1 p2 i0 i1 i2) :
    ∃ sel : ℝ → Nat × Nat, (∀ u, 0 ≤ u → u < 1 → (sel u).1 < h.n p1 ∧ (sel u).2 < h.n p2) ∧
      (∀ k1 < h.n p1, ∀ k2 < h.n p2, MeasureTheory.volume {u : ℝ | (0 ≤ u ∧ u < 1) ∧ sel u = (k1, k2)} =
        ENNReal.ofReal (content h p1 p2 i0 i1 i2 k1 k2 / total h p1 p2 i0 i1 i2)) ∧
      ∀ (c mass : ℝ) (us : List ℝ), (∀ u ∈ us, 0 ≤ u ∧ u < 1) → sampleBeam c mass vol h i0 i1 i2 us =
        (us.mapM fun u => momentum c mass h ppar ((sel u).1 * h.n p2 + (sel u).2)).map fun l => (total h p1 p2 i0 i1 i2 / vol, l) := by
  have hp : (p1, p2) = (5, 6) ∨ (p1, p2) = (10, 11) := by
    unfold momentumAxes at hax
    split_ifs at hax <;> cases hax <;> simp
  set l := (List.range (h.n p1 * h.n p2)).map fun j => content h p1 p2 i0 i1 i2 (j / h.n p2) (j % h.n p2) with hl
  have hsum : l.sum = total h p1 p2 i0 i1 i2 := sum_range_mul _ _ _
  have hnn : ∀ b ∈ l, 0 ≤ b := by
    intro b hb
    rw [hl, List.mem_map] at hb
    obtain ⟨j, -, rfl⟩ := hb
    exact content_nonneg hv _ _ _ _ _ _ _
  have hlen : l.length = h.n p1 * h.n p2 := by simp [hl]
  have hn2 : 0 < h.n p2 := by
    rcases Nat.eq_zero_or_pos (h.n p2) with h0 | h0
    · unfold total at ht; rw [h0] at ht; simp at ht
    · exact h0
  have hs : 0 < l.sum := by rw [hsum]; exact ht
  let g : ℝ → Nat := fun u => (pick (cumulate 0 l) u).getD 0
  have hg : ∀ u, 0 ≤ u → u < 1 → pick (cumulate 0 l) u = some (g u) ∧ g u < l.length := by
    intro u h0 h1
    obtain ⟨j, hj⟩ := pick_exists hnn hs h0 h1
    have : g u = j := by simp [g, hj]
    rw [this]
    exact ⟨hj, ((pick_iff hnn (by positivity) j).1 hj).1⟩
  refine ⟨fun u => (g u / h.n p2, g u % h.n p2), fun u h0 h1 => ?_, fun k1 h1 k2 h2 => ?_, fun c mass us hus => ?_⟩
  · have := (hg u h0 h1).2
    rw [hlen] at this
    exact ⟨Nat.div_lt_of_lt_mul (by rwa [Nat.mul_comm]), Nat.mod_lt _ hn2⟩
  · have hj : k1 * h.n p2 + k2 < l.length := by
      rw [hlen]
      calc k1 * h.n p2 + k2 < k1 * h.n p2 + h.n p2 := by omega
        _ = (k1 + 1) * h.n p2 := by ring
        _ ≤ h.n p1 * h.n p2 := Nat.mul_le_mul_right _ h1
    have hd : (k1 * h.n p2 + k2) / h.n p2 = k1 ∧ (k1 * h.n p2 + k2) % h.n p2 = k2 := by
      rw [Nat.mul_comm k1, Nat.mul_add_div hn2, Nat.mul_add_mod, Nat.div_eq_of_lt h2, Nat.mod_eq_of_lt h2]; simp
    have := pick_probability hnn hs hj
    have hget : l[k1 * h.n p2 + k2] = content h p1 p2 i0 i1 i2 k1 k2 := by
      simp only [hl, List.getElem_map, List.getElem_range, hd.1, hd.2]
    rw [hget, hsum] at this
    rw [← this]
    congr 1
    ext u
    simp only [Set.mem_setOf_eq, Prod.mk.injEq]
    refine and_congr_right fun ⟨h0, h1'⟩ => ?_
    rw [(hg u h0 h1').1, Option.some.injEq]
    constructor
    · rintro ⟨e1, e2⟩
      have := Nat.div_add_mod (g u) (h.n p2)
      rw [e1, e2] at this
      rw [← this]; ring
    · intro e
      rw [e]; exact hd
  · unfold sampleBeam
    rw [hax]
    simp only [Option.bind_some]
    rw [cellBins_eq hv hp hc]
    simp only [Option.bind_some]
    rw [← hl, density_eq, hsum]
    rw [if_neg (by positivity)]
    congr 1
    have hcongr : ∀ us : List ℝ, (∀ u ∈ us, 0 ≤ u ∧ u < 1) → us.mapM (fun u => (pick (cumulate 0 l) u).bind (momentum c mass h ppar)) =
        us.mapM (fun u => momentum c mass h ppar (g u / h.n p2 * h.n p2 + g u % h.n p2)) := by
      intro us
      induction us with
      | nil => intro _; rfl
      | cons u us ih =>
        intro hus
        rw [List.mapM_cons, List.mapM_cons, ih (fun v hv => hus v (by simp [hv])), (hg u (hus u (by simp)).1 (hus u (by simp)).2).1]
        have : g u / h.n p2 * h.n p2 + g u % h.n p2 = g u := by rw [Nat.mul_comm]; exact Nat.div_add_mod _ _
        rw [this]
        rfl
    exact hcongr us hus

theorem centre_eq (a : Axis ℝ) (k : Nat) (hn : a.n ≠ 0) : a.min + ((k : ℝ) + 0.5) * (a.max - a.min) / a.n = centre a k := by
  unfold centre
  have : (a.n : ℝ) ≠ 0 := by exact_mod_cast hn
  field_simp
  ring

/-- **Momentum basis, same number of bins on both axes**: the sampled momentum is the centre of the selected bin. -/
theorem momentum_partial {h : Hist} (hn : h.n 5 = h.n 6) (c mass : ℝ) {k1 k2 : Nat} (h2 : k2 < h.n 6) :
    momentum c mass h true (k1 * h.n 6 + k2) = some (centre (h.axis 5) k1, centre (h.axis 6) k2) := by
  have h0 : 0 < h.n 6 := by omega
  unfold momentum
  rw [if_pos rfl, hn]
  have hd : (k1 * h.n 6 + k2) / h.n 6 = k1 ∧ (k1 * h.n 6 + k2) % h.n 6 = k2 := by
    rw [Nat.mul_comm k1, Nat.mul_add_div h0, Nat.mul_add_mod, Nat.div_eq_of_lt h2, Nat.mod_eq_of_lt h2]; simp
  rw [hd.1, hd.2]
  have e6 := centre_eq (h.axis 6) k2 (by rw [← n_eq]; omega)
  have e5 := centre_eq (h.axis 5) k1 (by rw [← n_eq]; omega)
  rw [← n_eq] at e5 e6
  rw [hn] at e5
  rw [e5, e6]

/-- **Momentum basis in general**: the perpendicular momentum is that of the selected bin, the parallel one that of the bin
`(k1 n6 + k2) / n5`. -/
theorem momentum_bins {h : Hist} (c mass : ℝ) (h5 : h.n 5 ≠ 0) {k1 k2 : Nat} (h2 : k2 < h.n 6) :
    momentum c mass h true (k1 * h.n 6 + k2) = some (centre (h.axis 5) ((k1 * h.n 6 + k2) / h.n 5), centre (h.axis 6) k2) := by
  unfold momentum
  rw [if_pos rfl]
  have hd : (k1 * h.n 6 + k2) % h.n 6 = k2 := by
    rw [Nat.mul_comm k1, Nat.mul_add_mod, Nat.mod_eq_of_lt h2]
  rw [hd]
  have e6 := centre_eq (h.axis 6) k2 (by rw [← n_eq]; omega)
  have e5 := centre_eq (h.axis 5) ((k1 * h.n 6 + k2) / h.n 5) (by rw [← n_eq]; exact h5)
  rw [← n_eq] at e5 e6
  rw [e5, e6]

/-- **Energy and pitch basis**: the pitch is the centre of the pitch bin with the number `k1` of the *energy* bin, and the energy that of
the bin `(k1 n11 + k2) / n10`; there is no momentum if that pitch exceeds one or the energy is negative. -/
theorem energy_pitch_bins {h : Hist} (c mass : ℝ) (h10 : h.n 10 ≠ 0) {k1 k2 : Nat} (h2 : k2 < h.n 11) :
    momentum c mass h false (k1 * h.n 11 + k2) =
      let pitch := centre (h.axis 11) k1
      let gamma := gammaEkin c mass (centre (h.axis 10) ((k1 * h.n 11 + k2) / h.n 10))
      if 1 - pitch * pitch < 0 ∨ gamma * gamma - 1 < 0 then none
      else some (pitch * (Real.sqrt (gamma * gamma - 1) * mass * c), Real.sqrt (1 - pitch * pitch) * (Real.sqrt (gamma * gamma - 1) * mass * c)) := by
  have h0 : 0 < h.n 11 := by omega
  unfold momentum
  rw [if_neg (by decide)]
  have hd : (k1 * h.n 11 + k2) / h.n 11 = k1 := by
    rw [Nat.mul_comm k1, Nat.mul_add_div h0, Nat.div_eq_of_lt h2]; simp
  rw [hd]
  have e11 := centre_eq (h.axis 11) k1 (by rw [← n_eq]; omega)
  have e10 := centre_eq (h.axis 10) ((k1 * h.n 11 + k2) / h.n 10) (by rw [← n_eq]; exact h10)
  rw [← n_eq] at e10 e11
  simp only [e10, e11]

/-! ## Violations -/

/-- Unused axes. -/
noncomputable def unused (n : Nat) : List (Axis ℝ) := List.replicate n ⟨0, 0, 1⟩

/-- Histogram in one cell with one bin for the parallel momentum on [0,1] and two for the perpendicular momentum on [0,2]; only the
second has content. -/
noncomputable def exPpar : Hist := ⟨[⟨1, 0, 1⟩, ⟨1, 0, 1⟩, ⟨1, 0, 1⟩] ++ unused 2 ++ [⟨1, 0, 1⟩, ⟨2, 0, 2⟩] ++ unused 9, [0, 1]⟩

theorem exPpar_valid : Valid exPpar :=
  ⟨by simp [exPpar, unused], by simp [exPpar, unused, eff, List.replicate], by intro b hb; simp [exPpar] at hb; rcases hb with rfl | rfl <;> norm_num⟩

theorem exPpar_axes : momentumAxes exPpar = some (5, 6, true) := by
  simp [momentumAxes, exPpar, unused, Hist.n, List.replicate]

theorem exPpar_cell : InCell exPpar 0 0 0 := by
  simp [InCell, exPpar, unused, Hist.n, List.replicate, eff]

theorem exPpar_content (k2 : Nat) (h : k2 < 2) : content exPpar 5 6 0 0 0 0 k2 = k2 := by
  rcases k2 with _ | _ | k
  · simp [content, exPpar, unused, elementOf, address, radix, List.replicate, List.set, eff]
  · simp [content, exPpar, unused, elementOf, address, radix, List.replicate, List.set, eff]
  · omega

theorem exPpar_total : total exPpar 5 6 0 0 0 = 1 := by
  have h5 : exPpar.n 5 = 1 := by simp [exPpar, unused, Hist.n, List.replicate]
  have h6 : exPpar.n 6 = 2 := by simp [exPpar, unused, Hist.n, List.replicate]
  unfold total
  rw [h5, h6, Finset.sum_range_one, Finset.sum_range_succ, Finset.sum_range_one, exPpar_content 0 (by omega), exPpar_content 1 (by omega)]
  norm_num

/-- **Violation**: the parallel momentum comes out as 3/2 although the distribution is limited to [0,1]. -/
theorem parallel_outside (c mass : ℝ) {u : ℝ} (h0 : 0 ≤ u) (h1 : u < 1) :
    sampleBeam c mass 1 exPpar 0 0 0 [u] = some (1, [(3 / 2, 3 / 2)]) := by
  obtain ⟨sel, s1, -, s3⟩ := selection exPpar_valid exPpar_axes exPpar_cell one_pos (by rw [exPpar_total]; norm_num)
  have h5 : exPpar.n 5 = 1 := by simp [exPpar, unused, Hist.n, List.replicate]
  have h6 : exPpar.n 6 = 2 := by simp [exPpar, unused, Hist.n, List.replicate]
  have hx5 : exPpar.axis 5 = ⟨1, 0, 1⟩ := by simp [exPpar, unused, Hist.axis, List.replicate]
  have hx6 : exPpar.axis 6 = ⟨2, 0, 2⟩ := by simp [exPpar, unused, Hist.axis, List.replicate]
  clear s1 s3 sel
  unfold sampleBeam
  rw [exPpar_axes]
  simp only [Option.bind_some]
  rw [cellBins_eq exPpar_valid (Or.inl rfl) exPpar_cell]
  simp only [Option.bind_some, h5, h6]
  have hl : ((List.range (1 * 2)).map fun j => content exPpar 5 6 0 0 0 (j / 2) (j % 2)) = [0, 1] := by
    simp only [show (1 * 2 : Nat) = 2 from rfl, List.range_succ, List.range_zero, List.nil_append, List.cons_append, List.map_cons, List.map_nil]
    rw [show (0 / 2 : Nat) = 0 from rfl, show (1 % 2 : Nat) = 1 from rfl,
      exPpar_content 0 (by omega), exPpar_content 1 (by omega)]
    norm_num
  rw [hl]
  have hd : density 1 [0, 1] = 1 := by simp [density]
  have hpick : pick (cumulate 0 [0, 1]) u = some 1 :=
    (pick_iff (by intro b hb; simp at hb; rcases hb with rfl | rfl <;> norm_num) (by simpa using h0) 1).2 ⟨by simp, by simpa using h0, by simpa using h1⟩
  rw [hd, if_neg one_ne_zero]
  have hm := momentum_bins (h := exPpar) c mass (by rw [h5]; omega) (k1 := 0) (k2 := 1) (by rw [h6]; omega)
  simp only [h5, h6, hx5, hx6] at hm
  simp only [List.mapM_cons, List.mapM_nil, hpick, Option.bind_some]
  rw [show (0 * 2 + 1 : Nat) = 1 from rfl] at hm
  rw [hm]
  simp [centre]
  norm_num

/-- Histogram in one cell with three bins for the energy and two for the pitch; only the last energy bin has content. -/
noncomputable def exPitch : Hist := ⟨[⟨1, 0, 1⟩, ⟨1, 0, 1⟩, ⟨1, 0, 1⟩] ++ unused 7 ++ [⟨3, 0, 3⟩, ⟨2, -1, 1⟩] ++ unused 4, [0, 0, 0, 0, 1, 0]⟩

/-- **Violation**: the pitch comes out as 3/2, and the perpendicular momentum is the square root of a negative number. -/
theorem pitch_outside (c mass : ℝ) : centre (exPitch.axis 11) 2 = 3 / 2 ∧ momentum c mass exPitch false (2 * exPitch.n 11 + 0) = none := by
  have h10 : exPitch.n 10 = 3 := by simp [exPitch, unused, Hist.n, List.replicate]
  have h11 : exPitch.n 11 = 2 := by simp [exPitch, unused, Hist.n, List.replicate]
  have hx11 : exPitch.axis 11 = ⟨2, -1, 1⟩ := by simp [exPitch, unused, Hist.axis, List.replicate]
  have hc : centre (exPitch.axis 11) 2 = 3 / 2 := by rw [hx11]; norm_num [centre]
  refine ⟨hc, ?_⟩
  rw [energy_pitch_bins c mass (by rw [h10]; omega) (by rw [h11]; omega)]
  simp only [hc]
  rw [if_pos (Or.inl (by norm_num))]

/-- **Violation**: a random number equal to one leaves the momentum unset. -/
theorem one_unset {h : Hist} (hv : Valid h) {p1 p2 : Nat} {ppar : Bool} (hax : momentumAxes h = some (p1, p2, ppar)) {i0 i1 i2 : Nat}
    (hc : InCell h i0 i1 i2) {vol : ℝ} (hvol : 0 < vol) (ht : 0 < total h p1 p2 i0 i1 i2) (c mass : ℝ) :
    sampleBeam c mass vol h i0 i1 i2 [1] = none := by
  have hp : (p1, p2) = (5, 6) ∨ (p1, p2) = (10, 11) := by
    unfold momentumAxes at hax
    split_ifs at hax <;> cases hax <;> simp
  unfold sampleBeam
  rw [hax]
  simp only [Option.bind_some]
  rw [cellBins_eq hv hp hc]
  simp only [Option.bind_some]
  rw [density_eq, sum_range_mul]
  rw [if_neg (by unfold total at ht; positivity)]
  simp only [List.mapM_cons, List.mapM_nil]
  rw [pick_one (by
    intro b hb
    rw [List.mem_map] at hb
    obtain ⟨j, -, rfl⟩ := hb
    exact content_nonneg hv _ _ _ _ _ _ _)]
  rfl

/-- **Violation**: for a distribution in flux coordinates (no axis for the major radius) the cell is looked up on the axes for major
radius, toroidal angle and height, as soon as the first index is not zero outside of the array. -/
theorem flux_cell_outside {h : Hist} (hv : Valid h) (hR : h.n 0 = 0) {p1 p2 : Nat} {ppar : Bool} (hax : momentumAxes h = some (p1, p2, ppar))
    (hp2 : h.n p2 ≠ 0) {i0 : Nat} (hi : 0 < i0) (i1 i2 : Nat) (c mass vol : ℝ) (us : List ℝ) : sampleBeam c mass vol h i0 i1 i2 us = none := by
  have hp1 : h.n p1 ≠ 0 := by
    unfold momentumAxes at hax
    split_ifs at hax with h1 h2 <;> cases hax
    · exact h1
    · exact h2
  have hsize : h.stride 0 = h.bins.length := by
    rw [hv.size]
    have ha := hv.axes
    obtain ⟨ax, bins⟩ := h
    simp only at ha ⊢
    match ax, ha with
    | a0 :: a1 :: rest, ha =>
      have h0 : a0.n = 0 := hR
      have := (strides_sum ((a0 :: a1 :: rest).map Axis.n) ((a0 :: a1 :: rest).map (fun _ => 0)) (by simp) (by simp)).2.2 a0.n a1.n (rest.map Axis.n) rfl
      unfold Hist.stride
      simp only [List.map_cons, List.prod_cons] at this ⊢
      rw [h0]
      rw [show eff 0 = 1 from rfl, one_mul]
      rw [h0] at this
      rw [show (rest.map fun a => eff a.n) = (rest.map Axis.n).map eff by rw [List.map_map]; rfl, ← this]
      cases strides (0 :: a1.n :: rest.map Axis.n) <;> rfl
  have hnone : cellBins h p1 p2 i0 i1 i2 = none := by
    unfold cellBins
    have hr : List.range (h.n p1 * h.n p2) ≠ [] := by
      intro hc
      have := congrArg List.length hc
      simp at this
      omega
    obtain ⟨j, l, hl⟩ := List.exists_cons_of_ne_nil hr
    rw [hl, List.mapM_cons]
    have : h.bins.length ≤ i0 * h.stride 0 + i1 * h.stride 1 + i2 * h.stride 2 + j / h.n p2 * h.stride p1 + j % h.n p2 * h.stride p2 := by
      have := Nat.le_mul_of_pos_left (h.stride 0) hi
      omega
    rw [List.getElem?_eq_none this]
    rfl
  unfold sampleBeam
  rw [hax]
  simp only [Option.bind_some]
  rw [hnone]
  rfl

end Ascot.C59
