import Verif.Spec.Marginal
import Mathlib.Algebra.BigOperators.Ring.Finset
import Mathlib.Algebra.BigOperators.Intervals
import Mathlib.Data.List.GetD
import Mathlib.Tactic.Ring
import Mathlib.Tactic.Linarith

set_option linter.unusedSectionVars false
set_option linter.unusedSimpArgs false

/-!
# Lemmas on distributions
-/
namespace Ascot.DistData

open Marginal

theorem volume_append : ∀ {pre : List Axis} {ip : List ℕ}, ip.length = pre.length → ∀ (as : List Axis) (r : List ℕ),
    volume (pre ++ as) (ip ++ r) = volume pre ip * volume as r
  | [], [], _, as, r => by simp [volume]
  | a :: pre, i :: ip, h, as, r => by
    rw [List.cons_append, List.cons_append, volume, volume, volume_append (by simpa using h), mul_assoc]
  | [], _ :: _, h, _, _ => by simp at h
  | _ :: _, [], h, _, _ => by simp at h

theorem insertIdx_append (r : List ℕ) (j : ℕ) : ∀ ip : List ℕ, (ip ++ r).insertIdx ip.length j = ip ++ j :: r
  | [] => rfl
  | i :: ip => by
    rw [List.cons_append, List.length_cons, List.insertIdx_succ_cons, insertIdx_append r j ip]
    rfl

/-- The argument for an axis as factors. -/
noncomputable def spec (sel : ℕ → Option Sel) (a : Axis) : ℕ × Option (ℕ → ℝ) :=
  (a.size, (sel a.name).bind (factor a))

/-- The axes that stay. -/
def kept (sel : ℕ → Option Sel) (as : List Axis) : List Axis := as.filter fun a => (sel a.name).isNone

theorem marginal_congr : ∀ {s : List (ℕ × Option (ℕ → ℝ))} {g g' : List ℕ → ℝ} {is : List ℕ},
    (∀ r : List ℕ, g r = g' r) → marginal s g is = marginal s g' is := by
  intro s g g' is h
  have : g = g' := funext h
  rw [this]

/-- Integration over one axis. -/
theorem average_histogram {pre as : List Axis} {a : Axis} {w : ℕ → ℝ} {d d' : Data}
    (hax : d.axes = pre ++ a :: as) (h : average pre.length a w d = some d') :
    d'.axes = pre ++ as ∧ ∀ ip r : List ℕ, ip.length = pre.length →
      histogram d' (ip ++ r) = ∑ j ∈ Finset.range a.size, w j * histogram d (ip ++ j :: r) := by
  unfold average at h
  simp only at h
  split_ifs at h with hs
  obtain rfl := (Option.some.inj h).symm
  have hax' : d.axes.eraseIdx pre.length = pre ++ as := by
    rw [hax, List.eraseIdx_append_of_length_le (le_refl _), Nat.sub_self, List.eraseIdx_cons_zero]
  refine ⟨hax', fun ip r hip => ?_⟩
  unfold histogram
  simp only
  rw [hax', volume_append hip, div_mul_cancel₀ _ hs, Finset.sum_mul]
  refine Finset.sum_congr rfl fun j _ => ?_
  have hi : (ip ++ r).insertIdx pre.length j = ip ++ j :: r := by
    rw [← hip, insertIdx_append]
  rw [hi, hax, volume_append hip, volume]
  ring

theorem loop_histogram (sel : ℕ → Option Sel) : ∀ {as pre : List Axis} {d d' : Data}, d.axes = pre ++ as →
    integrateLoop sel as pre.length d = some d' →
    d'.axes = pre ++ kept sel as ∧ ∀ ip ir : List ℕ, ip.length = pre.length → ir.length = (kept sel as).length →
      histogram d' (ip ++ ir) = marginal (as.map (spec sel)) (fun r => histogram d (ip ++ r)) ir := by
  intro as
  induction as with
  | nil =>
    intro pre d d' hax h
    rw [integrateLoop] at h
    obtain rfl := Option.some.inj h
    refine ⟨hax, fun ip ir _ hir => ?_⟩
    obtain rfl := List.length_eq_zero_iff.1 hir
    rfl
  | cons a as ih =>
    intro pre d d' hax h
    rw [integrateLoop] at h
    cases hs : sel a.name with
    | none =>
      rw [hs] at h
      simp only at h
      have hk : kept sel (a :: as) = a :: kept sel as := by
        unfold kept
        rw [List.filter_cons_of_pos (by rw [hs]; rfl)]
      have := ih (pre := pre ++ [a]) (d := d) (d' := d') (by rw [hax, List.append_assoc]; rfl)
        (by rw [List.length_append]; exact h)
      refine ⟨by rw [this.1, hk, List.append_assoc]; rfl, fun ip ir hip hir => ?_⟩
      rw [hk] at hir
      cases ir with
      | nil => simp at hir
      | cons i ir =>
        have h2 := this.2 (ip ++ [i]) ir (by rw [List.length_append, List.length_append, hip]; rfl) (by simpa using hir)
        rw [List.append_assoc] at h2
        refine h2.trans ?_
        rw [List.map_cons]
        unfold spec
        rw [hs]
        show _ = marginal ((a.size, none) :: _) _ _
        rw [marginal]
        refine marginal_congr fun r => ?_
        rw [List.append_assoc]
        rfl
    | some s =>
      rw [hs] at h
      simp only at h
      obtain ⟨w, hw, h⟩ := Option.bind_eq_some_iff.1 h
      obtain ⟨d1, hd1, h⟩ := Option.bind_eq_some_iff.1 h
      have hk : kept sel (a :: as) = kept sel as := by
        unfold kept
        rw [List.filter_cons_of_neg (by rw [hs]; simp)]
      obtain ⟨hax1, hh1⟩ := average_histogram hax hd1
      obtain ⟨hax2, hh2⟩ := ih hax1 h
      refine ⟨by rw [hk]; exact hax2, fun ip ir hip hir => ?_⟩
      rw [hk] at hir
      rw [hh2 ip ir hip hir, List.map_cons]
      have hsp : spec sel a = (a.size, some w) := by
        unfold spec
        rw [hs, Option.bind_some, hw]
      rw [hsp, marginal, marginal_congr fun r => hh1 ip r hip]
      clear h hh1 hh2 hd1 hax1 hax2 hir
      generalize as.map (spec sel) = S
      have key : ∀ (S : List (ℕ × Option (ℕ → ℝ))) (g : ℕ → List ℕ → ℝ) (ir : List ℕ),
          marginal S (fun r => ∑ j ∈ Finset.range a.size, w j * g j r) ir =
            ∑ j ∈ Finset.range a.size, w j * marginal S (g j) ir := by
        intro S
        induction S with
        | nil => intro g ir; rfl
        | cons x S ihS =>
          intro g ir
          obtain ⟨n, o⟩ := x
          cases o with
          | none =>
            cases ir with
            | nil => simp [marginal]
            | cons i ir =>
              rw [marginal]
              exact ihS (fun j r => g j (i :: r)) ir
          | some v =>
            rw [marginal]
            simp only [marginal]
            rw [Finset.sum_congr rfl fun k _ => by rw [ihS (fun j r => g j (k :: r)) ir]]
            simp only [Finset.mul_sum]
            rw [Finset.sum_comm]
            refine Finset.sum_congr rfl fun j _ => Finset.sum_congr rfl fun k _ => by ring
      exact key S (fun j r => histogram d (ip ++ j :: r)) ir

/-- When the loop succeeds. -/
theorem loop_some (sel : ℕ → Option Sel) : ∀ {as : List Axis} {dim : ℕ} {d : Data},
    (∀ a ∈ as, ∀ s, sel a.name = some s → ∃ w, factor a s = some w ∧
      ∑ j ∈ Finset.range a.size, w j * a.width j ≠ 0) → ∃ d', integrateLoop sel as dim d = some d'
  | [], _, d, _ => ⟨d, rfl⟩
  | a :: as, dim, d, h => by
    rw [integrateLoop]
    cases hs : sel a.name with
    | none => exact loop_some sel fun a ha => h a (List.mem_cons_of_mem _ ha)
    | some s =>
      obtain ⟨w, hw, h0⟩ := h a List.mem_cons_self s hs
      simp only
      rw [hw, Option.bind_some]
      unfold average
      simp only
      rw [if_neg h0, Option.bind_some]
      exact loop_some sel fun a ha => h a (List.mem_cons_of_mem _ ha)

/-- When it fails. -/
theorem loop_none (sel : ℕ → Option Sel) : ∀ {as : List Axis} {dim : ℕ} {d : Data} {a : Axis} {s : Sel} {w : ℕ → ℝ},
    a ∈ as → sel a.name = some s → factor a s = some w → ∑ j ∈ Finset.range a.size, w j * a.width j = 0 →
    integrateLoop sel as dim d = none
  | b :: as, dim, d, a, s, w, ha, hs, hw, h0 => by
    rw [integrateLoop]
    rcases List.mem_cons.1 ha with rfl | ha
    · rw [hs]
      simp only
      rw [hw, Option.bind_some]
      unfold average
      simp only
      rw [if_pos h0]
      rfl
    · cases sel b.name with
      | none => exact loop_none sel ha hs hw h0
      | some t =>
        simp only
        cases factor b t with
        | none => rfl
        | some v =>
          rw [Option.bind_some]
          cases average dim b v d with
          | none => rfl
          | some d1 =>
            rw [Option.bind_some]
            exact loop_none sel ha hs hw h0

/-- Sums over everything. -/
theorem total_congr : ∀ {s : List ℕ} {g g' : List ℕ → ℝ}, (∀ r : List ℕ, r.length = s.length → g r = g' r) →
    total s g = total s g'
  | [], _, _, h => h [] rfl
  | n :: s, g, g', h => by
    rw [total, total]
    exact Finset.sum_congr rfl fun j _ => total_congr fun r hr => h (j :: r) (by simp [hr])

theorem total_sum (n : ℕ) (g : ℕ → List ℕ → ℝ) : ∀ s : List ℕ,
    total s (fun r => ∑ j ∈ Finset.range n, g j r) = ∑ j ∈ Finset.range n, total s (g j)
  | [] => rfl
  | m :: s => by
    rw [total]
    simp only [total]
    rw [Finset.sum_congr rfl fun k _ => total_sum n (fun j r => g j (k :: r)) s, Finset.sum_comm]

/-- A telescoping sum. -/
theorem sum_diff (a : Axis) (g : ℝ → ℝ) (n : ℕ) :
    ∑ j ∈ Finset.range n, (g (a.edge (j + 1)) - g (a.edge j)) = g (a.edge n) - g (a.edge 0) :=
  Finset.sum_range_sub (fun j => g (a.edge j)) n

theorem edge_lt {a : Axis} (h : IsEdges a.edges) {i j : ℕ} (hij : i < j) (hj : j ≤ a.size) : a.edge i < a.edge j := by
  have hl : j < a.edges.length := by
    have := h.1
    unfold Axis.size at hj
    omega
  unfold Axis.edge
  rw [List.getD_eq_getElem _ _ hl, List.getD_eq_getElem _ _ (hij.trans hl)]
  exact List.pairwise_iff_getElem.1 h.2 i j (hij.trans hl) hl hij

theorem edge_le {a : Axis} (h : IsEdges a.edges) {i j : ℕ} (hij : i ≤ j) (hj : j ≤ a.size) : a.edge i ≤ a.edge j := by
  rcases hij.eq_or_lt with rfl | hij
  · exact le_refl _
  · exact (edge_lt h hij hj).le

theorem size_pos {a : Axis} (h : IsEdges a.edges) : 0 < a.size := by
  have := h.1
  unfold Axis.size
  omega

theorem width_pos {a : Axis} (h : IsEdges a.edges) {j : ℕ} (hj : j < a.size) : 0 < a.width j :=
  sub_pos.2 (edge_lt h (Nat.lt_succ_self j) hj)

theorem volume_pos : ∀ {as : List Axis} {is : List ℕ}, (∀ a ∈ as, IsEdges a.edges) →
    Within (as.map (·.size)) is → 0 < volume as is
  | [], [], _, _ => by rw [volume]; exact one_pos; all_goals simp
  | a :: as, i :: is, h, hw => by
    rw [volume]
    exact mul_pos (width_pos (h a List.mem_cons_self) hw.1)
      (volume_pos (fun a ha => h a (List.mem_cons_of_mem _ ha)) hw.2)
  | [], _ :: _, _, hw => by exact absurd hw (by simp [Within])
  | _ :: _, [], _, hw => by exact absurd hw (by simp [Within])

end Ascot.DistData
