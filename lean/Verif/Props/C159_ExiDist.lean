import Verif.Model.ExiDist
import Verif.Lemmas.DistData
import Mathlib.Tactic.Positivity
import Mathlib.Tactic.FieldSimp
import Mathlib.Tactic.NormNum

set_option linter.unusedSectionVars false
set_option linter.unusedSimpArgs false

/-!
# C159: conversion of a distribution to energy and pitch

Each cell of the momentum grid is moved, as one marker with the momentum at its middle, to the bin of energy and pitch
that has it; the number of particles stays.  With a number instead of edges, there are so many bins, and they reach to
the highest energy on the momentum grid.

The first is proved for cells that are within the new grid, and the others are shown to be lost.  The rest is wrong.
-/
namespace Ascot.C159

open DistData Marginal ExiDist

theorem count_iff {x : ℝ} : ∀ {l : List ℝ} {k : ℕ}, l.Pairwise (· < ·) → k ≤ l.length →
    (l.countP (fun e => decide (e ≤ x)) = k ↔
      (∀ i (h : i < l.length), i < k → l[i] ≤ x) ∧ ∀ i (h : i < l.length), k ≤ i → x < l[i])
  | [], k, _, hk => by
    simp at hk
    simp [hk]
  | e :: l, k, hp, hk => by
    have hp' := List.pairwise_cons.1 hp
    by_cases he : e ≤ x
    · rw [List.countP_cons_of_pos (by simpa using he)]
      cases k with
      | zero =>
        constructor
        · intro h
          omega
        · rintro ⟨-, h⟩
          exact absurd (h 0 (by simp) le_rfl) (by simpa using he)
      | succ k =>
        rw [Nat.add_right_cancel_iff, count_iff (l := l) hp'.2 (by simpa using hk)]
        constructor
        · rintro ⟨h1, h2⟩
          refine ⟨fun i h hi => ?_, fun i h hi => ?_⟩
          · cases i with
            | zero => simpa using he
            | succ i => simpa using h1 i (by simpa using h) (by omega)
          · cases i with
            | zero => omega
            | succ i => simpa using h2 i (by simpa using h) (by omega)
        · rintro ⟨h1, h2⟩
          refine ⟨fun i h hi => ?_, fun i h hi => ?_⟩
          · exact h1 (i + 1) (by simpa using h) (by omega)
          · exact h2 (i + 1) (by simpa using h) (by omega)
    · have hl : l.countP (fun e => decide (e ≤ x)) = 0 := by
        rw [List.countP_eq_zero]
        intro y hy
        have := hp'.1 y hy
        simp
        linarith
      rw [List.countP_cons_of_neg (by simpa using he), hl]
      constructor
      · rintro rfl
        refine ⟨fun i h hi => by omega, fun i h hi => ?_⟩
        cases i with
        | zero => simpa using he
        | succ i =>
          have := hp'.1 (l[i]'(by simpa using h)) (List.getElem_mem _)
          simp
          linarith
      · rintro ⟨h1, -⟩
        by_contra hk0
        exact he (h1 0 (by simp) (by omega))

theorem digitize_iff {a : Axis} (he : IsEdges a.edges) {x : ℝ} {u : ℕ} (hu : u < a.size) :
    digitize x a.edges = u + 1 ↔ a.edge u ≤ x ∧ x < a.edge (u + 1) := by
  have hlen : a.edges.length = a.size + 1 := by
    have := he.1
    unfold Axis.size
    omega
  have hget : ∀ i (h : i < a.edges.length), a.edge i = a.edges[i] := fun i h => List.getD_eq_getElem _ _ h
  unfold digitize
  rw [count_iff he.2 (by omega)]
  constructor
  · rintro ⟨h1, h2⟩
    rw [hget u (by omega), hget (u + 1) (by omega)]
    exact ⟨h1 u (by omega) (by omega), h2 (u + 1) (by omega) le_rfl⟩
  · rintro ⟨h1, h2⟩
    refine ⟨fun i h hi => ?_, fun i h hi => ?_⟩
    · rw [← hget i h]
      exact (edge_le he (by omega) (by omega)).trans h1
    · rw [← hget i h]
      exact h2.trans_le (edge_le he hi (by omega))

/-- The value is within the grid. -/
def Inside (a : Axis) (x : ℝ) : Prop := a.edge 0 ≤ x ∧ x < a.edge a.size

theorem inside_iff {a : Axis} (he : IsEdges a.edges) {x : ℝ} :
    Inside a x ↔ ∃ u < a.size, digitize x a.edges = u + 1 := by
  have hlen : a.edges.length = a.size + 1 := by
    have := he.1
    unfold Axis.size
    omega
  have hs := size_pos he
  have hget : ∀ i (h : i < a.edges.length), a.edge i = a.edges[i] := fun i h => List.getD_eq_getElem _ _ h
  constructor
  · rintro ⟨h1, h2⟩
    have hle : digitize x a.edges ≤ a.edges.length := List.countP_le_length
    obtain ⟨g1, g2⟩ := (count_iff (x := x) he.2 hle).1 rfl
    have hpos : 0 < digitize x a.edges := by
      by_contra h0
      have := g2 0 (by omega) (by omega)
      rw [← hget 0 (by omega)] at this
      linarith
    have hlt : digitize x a.edges < a.edges.length := by
      by_contra h0
      have := g1 a.size (by omega) (by omega)
      rw [← hget a.size (by omega)] at this
      linarith
    exact ⟨digitize x a.edges - 1, by omega, by omega⟩
  · rintro ⟨u, hu, h⟩
    rw [digitize_iff he hu] at h
    exact ⟨(edge_le he (Nat.zero_le u) hu.le).trans h.1, h.2.trans_le (edge_le he hu le_rfl)⟩

theorem volume_ne {axes : List Axis} (he : ∀ a ∈ axes, IsEdges a.edges) {i : List ℕ}
    (hi : Within (axes.map (·.size)) i) : volume axes i ≠ 0 := (volume_pos he hi).ne'

/-- Each bin has the particles of the cells whose middle is in it. -/
theorem binned {c m : ℝ} {pre post : List Axis} {par perp : Axis} {f : List ℕ → ℝ} {eg pg : Grid} {d : Data}
    (h : convert c m pre par perp post f eg pg = some d) :
    ∃ ea pa : Axis, d.axes = pre ++ ea :: pa :: post ∧ ea.edges = ekinEdges c m par perp eg ∧ pa.edges = pitchEdges pg ∧
    ((∀ a ∈ d.axes, IsEdges a.edges) → ∀ (ip ir : List ℕ) (u v : ℕ), ip.length = pre.length →
      Within (d.axes.map (·.size)) (ip ++ u :: v :: ir) → u < ea.size → v < pa.size → ∀ S : Finset (ℕ × ℕ),
      (∀ i j, (i, j) ∈ S ↔ i < par.size ∧ j < perp.size ∧
        (ea.edge u ≤ cellEkin c m par perp i j ∧ cellEkin c m par perp i j < ea.edge (u + 1)) ∧
        (pa.edge v ≤ cellPitch par perp i j ∧ cellPitch par perp i j < pa.edge (v + 1))) →
      histogram d (ip ++ u :: v :: ir) =
        ∑ s ∈ S, histogram ⟨pre ++ par :: perp :: post, f⟩ (ip ++ s.1 :: s.2 :: ir)) := by
  unfold convert at h
  split_ifs at h
  simp only at h
  obtain rfl := (Option.some.inj h).symm
  refine ⟨⟨ekinName, ekinEdges c m par perp eg⟩, ⟨pitchName, pitchEdges pg⟩, rfl, rfl, rfl, ?_⟩
  intro he ip ir u v hip hw hu hv S hS
  have hea := he ⟨ekinName, ekinEdges c m par perp eg⟩ (by simp)
  have hpa := he ⟨pitchName, pitchEdges pg⟩ (by simp)
  have hvol := volume_ne he hw
  generalize hH : histogram ⟨pre ++ par :: perp :: post, f⟩ = H
  unfold histogram
  simp only
  rw [div_mul_cancel₀ _ hvol]
  have e1 : (ip ++ u :: v :: ir).take pre.length = ip := by rw [← hip, List.take_left']; rfl
  have e2 : (ip ++ u :: v :: ir).getD pre.length 0 = u := by
    rw [← hip, List.getD_eq_getElem _ _ (by simp), List.getElem_append_right (le_refl _)]
    simp
  have e3 : (ip ++ u :: v :: ir).getD (pre.length + 1) 0 = v := by
    rw [← hip, List.getD_eq_getElem _ _ (by simp), List.getElem_append_right (by omega)]
    simp
  have e4 : (ip ++ u :: v :: ir).drop (pre.length + 2) = ir := by
    rw [← hip, List.drop_append]
    simp
  rw [e1, e2, e3, e4]
  rw [← Finset.sum_product' (Finset.range par.size) (Finset.range perp.size) fun i j =>
    if digitize (cellEkin c m par perp i j) (ekinEdges c m par perp eg) = u + 1 ∧
      digitize (cellPitch par perp i j) (pitchEdges pg) = v + 1 then H (ip ++ i :: j :: ir) else 0]
  rw [← Finset.sum_filter]
  refine Finset.sum_congr ?_ fun _ _ => rfl
  ext ⟨i, j⟩
  rw [hS, Finset.mem_filter, Finset.mem_product, Finset.mem_range, Finset.mem_range]
  rw [digitize_iff (a := ⟨ekinName, ekinEdges c m par perp eg⟩) hea hu,
    digitize_iff (a := ⟨pitchName, pitchEdges pg⟩) hpa hv]
  simp only
  tauto

theorem total_append (t : List ℕ) : ∀ (s : List ℕ) (g : List ℕ → ℝ),
    total (s ++ t) g = total s fun a => total t fun b => g (a ++ b)
  | [], g => rfl
  | n :: s, g => by
    rw [List.cons_append, total, total]
    exact Finset.sum_congr rfl fun j _ => total_append t s fun r => g (j :: r)

theorem within_append : ∀ {s t i j : List ℕ}, Within s i → Within t j → Within (s ++ t) (i ++ j)
  | [], t, [], j, _, h => h
  | n :: s, t, k :: i, j, h1, h2 => ⟨h1.1, within_append h1.2 h2⟩
  | [], _, _ :: _, _, h, _ => by simp [Within] at h
  | _ :: _, _, [], _, h, _ => by simp [Within] at h

theorem within_length : ∀ {s i : List ℕ}, Within s i → i.length = s.length
  | [], [], _ => rfl
  | n :: s, k :: i, h => by rw [List.length_cons, List.length_cons, within_length h.2]
  | [], _ :: _, h => by simp [Within] at h
  | _ :: _, [], h => by simp [Within] at h

theorem total_congr_within : ∀ {s : List ℕ} {g g' : List ℕ → ℝ}, (∀ r : List ℕ, Within s r → g r = g' r) →
    total s g = total s g'
  | [], _, _, h => h [] trivial
  | n :: s, g, g', h => by
    rw [total, total]
    exact Finset.sum_congr rfl fun j hj =>
      total_congr_within fun r hr => h (j :: r) ⟨Finset.mem_range.1 hj, hr⟩

open Classical in
/-- The number of particles after the conversion is that in the cells whose energy and pitch are within the new grid. -/
theorem number {c m : ℝ} {pre post : List Axis} {par perp : Axis} {f : List ℕ → ℝ} {eg pg : Grid} {d : Data}
    (h : convert c m pre par perp post f eg pg = some d) (he : ∀ a ∈ d.axes, IsEdges a.edges) :
    ∃ ea pa : Axis, d.axes = pre ++ ea :: pa :: post ∧ ea.edges = ekinEdges c m par perp eg ∧ pa.edges = pitchEdges pg ∧
      total (d.axes.map (·.size)) (histogram d) =
        total (pre.map (·.size)) fun ip =>
          ∑ i ∈ Finset.range par.size, ∑ j ∈ Finset.range perp.size,
            if Inside ea (cellEkin c m par perp i j) ∧ Inside pa (cellPitch par perp i j) then
              total (post.map (·.size)) fun ir => histogram ⟨pre ++ par :: perp :: post, f⟩ (ip ++ i :: j :: ir)
            else 0 := by
  obtain ⟨ea, pa, hax, hea, hpa, hb⟩ := binned h
  refine ⟨ea, pa, hax, hea, hpa, ?_⟩
  have hie := he ea (by rw [hax]; simp)
  have hip := he pa (by rw [hax]; simp)
  have hb := hb he
  rw [hax] at hb ⊢
  rw [List.map_append, total_append]
  refine total_congr_within fun ip hpw => ?_
  rw [List.map_cons, List.map_cons]
  simp only [total]
  generalize hH : histogram ⟨pre ++ par :: perp :: post, f⟩ = H at hb ⊢
  have hlen : ip.length = pre.length := by simpa using within_length hpw
  have step : ∀ u ∈ Finset.range ea.size, ∀ v ∈ Finset.range pa.size,
      (total (post.map (·.size)) fun r => histogram d (ip ++ u :: v :: r)) =
        ∑ i ∈ Finset.range par.size, ∑ j ∈ Finset.range perp.size,
          if digitize (cellEkin c m par perp i j) ea.edges = u + 1 ∧ digitize (cellPitch par perp i j) pa.edges = v + 1
          then total (post.map (·.size)) fun ir => H (ip ++ i :: j :: ir) else 0 := by
    intro u hu v hv
    rw [Finset.mem_range] at hu hv
    let S := (Finset.range par.size ×ˢ Finset.range perp.size).filter fun s =>
      digitize (cellEkin c m par perp s.1 s.2) ea.edges = u + 1 ∧ digitize (cellPitch par perp s.1 s.2) pa.edges = v + 1
    have h1 : ∀ r : List ℕ, Within (post.map (·.size)) r → histogram d (ip ++ u :: v :: r) =
        ∑ s ∈ S, H (ip ++ s.1 :: s.2 :: r) := by
      intro r hr
      refine hb ip r u v hlen ?_ hu hv S ?_
      · rw [List.map_append]
        exact within_append hpw ⟨hu, hv, hr⟩
      · intro i j
        rw [Finset.mem_filter, Finset.mem_product, Finset.mem_range, Finset.mem_range, digitize_iff hie hu,
          digitize_iff hip hv]
        tauto
    rw [total_congr_within h1]
    have h2 : ∀ (T : Finset (ℕ × ℕ)) (s : List ℕ) (g : ℕ × ℕ → List ℕ → ℝ),
        total s (fun r => ∑ x ∈ T, g x r) = ∑ x ∈ T, total s (g x) := by
      intro T s
      induction s with
      | nil => intro g; rfl
      | cons n s ih =>
        intro g
        simp only [total]
        rw [Finset.sum_congr rfl fun k _ => ih fun x r => g x (k :: r), Finset.sum_comm]
    rw [h2, Finset.sum_filter, Finset.sum_product]
  rw [Finset.sum_congr rfl fun u hu => Finset.sum_congr rfl fun v hv => step u hu v hv]
  rw [Finset.sum_congr rfl fun u _ => Finset.sum_comm]
  rw [Finset.sum_comm]
  refine Finset.sum_congr rfl fun i _ => ?_
  rw [Finset.sum_congr rfl fun u _ => Finset.sum_comm]
  rw [Finset.sum_comm]
  refine Finset.sum_congr rfl fun j _ => ?_
  generalize (total (post.map (·.size)) fun ir => H (ip ++ i :: j :: ir)) = T
  by_cases hin : Inside ea (cellEkin c m par perp i j) ∧ Inside pa (cellPitch par perp i j)
  · rw [if_pos hin]
    obtain ⟨u0, hu0, hu1⟩ := (inside_iff hie).1 hin.1
    obtain ⟨v0, hv0, hv1⟩ := (inside_iff hip).1 hin.2
    rw [Finset.sum_eq_single u0, Finset.sum_eq_single v0, if_pos ⟨hu1, hv1⟩]
    · intro v _ hne
      rw [if_neg]
      rintro ⟨-, h2⟩
      omega
    · intro hn
      exact absurd (Finset.mem_range.2 hv0) hn
    · intro u _ hne
      refine Finset.sum_eq_zero fun v _ => if_neg ?_
      rintro ⟨h2, -⟩
      omega
    · intro hn
      exact absurd (Finset.mem_range.2 hu0) hn
  · rw [if_neg hin]
    refine Finset.sum_eq_zero fun u hu => Finset.sum_eq_zero fun v hv => if_neg ?_
    rintro ⟨h1, h2⟩
    exact hin ⟨(inside_iff hie).2 ⟨u, Finset.mem_range.1 hu, h1⟩, (inside_iff hip).2 ⟨v, Finset.mem_range.1 hv, h2⟩⟩

/-- If all cells are within the new grid, the number of particles stays. -/
theorem conserved {c m : ℝ} {pre post : List Axis} {par perp : Axis} {f : List ℕ → ℝ} {eg pg : Grid} {d : Data}
    (h : convert c m pre par perp post f eg pg = some d) (he : ∀ a ∈ d.axes, IsEdges a.edges)
    (hin : ∀ ea pa : Axis, ea.edges = ekinEdges c m par perp eg → pa.edges = pitchEdges pg →
      ∀ i < par.size, ∀ j < perp.size, Inside ea (cellEkin c m par perp i j) ∧ Inside pa (cellPitch par perp i j)) :
    total (d.axes.map (·.size)) (histogram d) =
      total ((pre ++ par :: perp :: post).map (·.size)) (histogram ⟨pre ++ par :: perp :: post, f⟩) := by
  obtain ⟨ea, pa, -, hea, hpa, hn⟩ := number h he
  rw [hn, List.map_append, total_append]
  refine total_congr fun ip _ => ?_
  rw [List.map_cons, List.map_cons]
  simp only [total]
  refine Finset.sum_congr rfl fun i hi => Finset.sum_congr rfl fun j hj => ?_
  rw [if_pos (hin ea pa hea hpa i (Finset.mem_range.1 hi) j (Finset.mem_range.1 hj))]

/-! ## Default grids -/

theorem linspace_edges {a b : ℝ} (h : a < b) {n : ℕ} (hn : 2 ≤ n) : IsEdges (linspace a b n) := by
  have hn1 : (0 : ℝ) < (n : ℝ) - 1 := by
    have : (2 : ℝ) ≤ n := by exact_mod_cast hn
    linarith
  refine ⟨by simpa [linspace] using hn, ?_⟩
  unfold linspace
  rw [List.pairwise_map]
  refine List.pairwise_lt_range.imp fun {x y} hxy => ?_
  have : (x : ℝ) < y := by exact_mod_cast hxy
  have h2 : 0 < (b - a) / ((n : ℝ) - 1) := div_pos (by linarith) hn1
  nlinarith

theorem linspace_ends {a b : ℝ} {n : ℕ} (hn : 2 ≤ n) {x : Axis} (hx : x.edges = linspace a b n) :
    x.size = n - 1 ∧ x.edge 0 = a ∧ x.edge x.size = b := by
  have hn1 : (n : ℝ) - 1 ≠ 0 := by
    have : (2 : ℝ) ≤ n := by exact_mod_cast hn
    linarith
  have hl : x.edges.length = n := by rw [hx]; simp [linspace]
  have hs : x.size = n - 1 := by unfold Axis.size; rw [hl]
  refine ⟨hs, ?_, ?_⟩
  · unfold Axis.edge
    rw [List.getD_eq_getElem _ _ (by omega)]
    simp [hx, linspace]
  · unfold Axis.edge
    rw [hs, List.getD_eq_getElem _ _ (by omega)]
    simp only [hx, linspace, List.getElem_map, List.getElem_range]
    rw [Nat.cast_sub (by omega)]
    push_cast
    field_simp
    ring

/-- With a number of bins, there is one bin less. -/
theorem one_less {c m : ℝ} {par perp ea pa : Axis} {n k : ℕ} (hn : 2 ≤ n) (hk : 2 ≤ k)
    (he : ea.edges = ekinEdges c m par perp (.number n)) (hp : pa.edges = pitchEdges (.number k)) :
    ea.size = n - 1 ∧ pa.size = k - 1 :=
  ⟨(linspace_ends hn he).1, (linspace_ends hk hp).1⟩

theorem energy_lt {c m p q : ℝ} (hc : 0 < c) (hm : 0 < m) : energy c m p < energy c m q ↔ p ^ 2 < q ^ 2 := by
  have hmc : 0 < (m * c) ^ 2 := by positivity
  have h1 : ∀ x : ℝ, 0 ≤ 1 + x ^ 2 / (m * c) ^ 2 := fun x => by positivity
  unfold energy
  rw [mul_lt_mul_iff_left₀ (by positivity), mul_lt_mul_iff_left₀ hm, sub_lt_sub_iff_right,
    Real.sqrt_lt_sqrt_iff (h1 p), add_lt_add_iff_left, div_lt_div_iff_of_pos_right hmc]

theorem energy_zero (c m : ℝ) : energy c m 0 = 0 := by simp [energy]

theorem energy_nonneg {c m : ℝ} (hm : 0 < m) (p : ℝ) : 0 ≤ energy c m p := by
  have : 1 ≤ Real.sqrt (1 + p ^ 2 / (m * c) ^ 2) := by
    rw [Real.one_le_sqrt]
    have : 0 ≤ p ^ 2 / (m * c) ^ 2 := by positivity
    linarith
  unfold energy
  have h2 : 0 ≤ Real.sqrt (1 + p ^ 2 / (m * c) ^ 2) - 1 := by linarith
  positivity

/-- On the default grids, a cell is kept if its momentum is below the largest parallel momentum on the grid; otherwise it is
lost, whatever the perpendicular momentum on the grid. -/
theorem default_kept {c m : ℝ} (hc : 0 < c) (hm : 0 < m) {par perp ea pa : Axis} (hpar : IsEdges par.edges)
    (hperp : IsEdges perp.edges) (h0 : 0 ≤ perp.edge 0) {n k : ℕ} (hn : 2 ≤ n) (hk : 2 ≤ k)
    (he : ea.edges = ekinEdges c m par perp (.number n)) (hp : pa.edges = pitchEdges (.number k)) {i j : ℕ}
    (hj : j < perp.size) :
    (IsEdges ea.edges ∧ IsEdges pa.edges) ∧
    (Inside ea (cellEkin c m par perp i j) ∧ Inside pa (cellPitch par perp i j) ↔
      par.center i ^ 2 + perp.center j ^ 2 < par.edge 0 ^ 2 ∨
      par.center i ^ 2 + perp.center j ^ 2 < par.edge par.size ^ 2) := by
  have hcen : 0 < perp.center j := by
    have h1 := edge_le hperp (Nat.zero_le j) hj.le
    have h2 := edge_lt hperp (Nat.lt_succ_self j) hj
    unfold Axis.center
    simp only [Nat.succ_eq_add_one] at h2
    linarith
  have hP0 : 0 < par.center i ^ 2 + perp.center j ^ 2 := by positivity
  have hP : cellP par perp i j ^ 2 = par.center i ^ 2 + perp.center j ^ 2 := Real.sq_sqrt hP0.le
  have hPpos : 0 < cellP par perp i j := Real.sqrt_pos.2 hP0
  have hmaxpos : 0 < p2max par perp := by
    have h3 := edge_lt hpar (size_pos hpar) le_rfl
    unfold p2max
    rw [lt_max_iff]
    by_contra hcon
    rw [not_or, not_lt, not_lt] at hcon
    have e1 : par.edge par.size = 0 := pow_eq_zero_iff (two_ne_zero) |>.1 (le_antisymm hcon.1 (sq_nonneg _))
    have e2 : par.edge 0 = 0 := pow_eq_zero_iff (two_ne_zero) |>.1 (le_antisymm hcon.2 (sq_nonneg _))
    linarith
  have hE : 0 < energy c m (Real.sqrt (p2max par perp)) := by
    rw [← energy_zero c m, energy_lt hc hm, Real.sq_sqrt hmaxpos.le]
    simpa using hmaxpos
  obtain ⟨-, e0, e1⟩ := linspace_ends hn he
  obtain ⟨-, p0, p1⟩ := linspace_ends hk hp
  refine ⟨⟨by rw [he]; exact linspace_edges hE hn, by rw [hp]; exact linspace_edges (by norm_num) hk⟩, ?_⟩
  have hpitch : Inside pa (cellPitch par perp i j) := by
    unfold Inside cellPitch
    rw [p0, p1, le_div_iff₀ hPpos, div_lt_iff₀ hPpos]
    have hlt : |par.center i| < cellP par perp i j := by
      rw [← Real.sqrt_sq_eq_abs]
      exact Real.sqrt_lt_sqrt (sq_nonneg _) (by nlinarith)
    rw [abs_lt] at hlt
    constructor <;> linarith [hlt.1, hlt.2]
  have hek : Inside ea (cellEkin c m par perp i j) ↔ par.center i ^ 2 + perp.center j ^ 2 < p2max par perp := by
    unfold Inside cellEkin
    rw [e0, e1, energy_lt hc hm, Real.sq_sqrt hmaxpos.le, hP]
    exact ⟨fun h => h.2, fun h => ⟨energy_nonneg hm _, h⟩⟩
  rw [and_iff_left hpitch, hek]
  unfold p2max
  rw [lt_max_iff, or_comm]

/-- A distribution with one momentum cell and one particle in it. -/
noncomputable def exPar : Axis := ⟨0, [0, 1]⟩

@[inherit_doc exPar]
noncomputable def exPerp : Axis := ⟨1, [0, 4]⟩

/-- On the default grids all particles may be lost: here the perpendicular momentum is larger than the parallel one. -/
theorem default_lost {c m : ℝ} (hc : 0 < c) (hm : 0 < m) {n k : ℕ} (hn : 2 ≤ n) (hk : 2 ≤ k) :
    ∃ d, convert c m [] exPar exPerp [] (fun _ => 1 / 4) (.number n) (.number k) = some d ∧
      total (d.axes.map (·.size)) (histogram d) = 0 ∧
      total ([exPar, exPerp].map Axis.size) (histogram ⟨[exPar, exPerp], fun _ => 1 / 4⟩) = 1 := by
  have s1 : exPar.size = 1 := rfl
  have s2 : exPerp.size = 1 := rfl
  obtain ⟨d, hd⟩ : ∃ d, convert c m [] exPar exPerp [] (fun _ => 1 / 4) (.number n) (.number k) = some d := by
    unfold convert
    rw [if_neg (by rw [s1, s2]; norm_num)]
    exact ⟨_, rfl⟩
  have hk0 := fun (ea pa : Axis) he hp => default_kept hc hm (par := exPar) (perp := exPerp) (ea := ea) (pa := pa)
    (by simp [exPar, IsEdges]) (by simp [exPerp, IsEdges]) (by simp [exPerp, Axis.edge]) hn hk he hp (i := 0) (j := 0)
    (by rw [s2]; norm_num)
  obtain ⟨ea, pa, hax, hea, hpa, -⟩ := binned hd
  have hed : ∀ a ∈ d.axes, IsEdges a.edges := by
    rw [hax]
    intro a ha
    rcases List.mem_cons.1 ha with rfl | ha
    · exact (hk0 _ pa hea hpa).1.1
    · rcases List.mem_cons.1 ha with rfl | ha
      · exact (hk0 ea _ hea hpa).1.2
      · simp at ha
  refine ⟨d, hd, ?_, ?_⟩
  · obtain ⟨ea, pa, -, hea, hpa, hnum⟩ := number hd hed
    rw [hnum, s1, s2]
    simp only [List.map_nil, total, Finset.sum_range_one]
    rw [if_neg]
    rw [(hk0 ea pa hea hpa).2]
    simp [exPar, exPerp, Axis.center, Axis.edge, Axis.size]
    norm_num
  · simp [total, histogram, volume, exPar, exPerp, Axis.size, Axis.width, Axis.edge]

/-- With three momentum cells the conversion fails. -/
theorem three_refused {c m : ℝ} {pre post : List Axis} {par perp : Axis} {f : List ℕ → ℝ} {eg pg : Grid}
    (h : par.size * perp.size = 3) : convert c m pre par perp post f eg pg = none := if_pos h

/-- Other numbers of cells are converted. -/
theorem converted {c m : ℝ} {pre post : List Axis} {par perp : Axis} {f : List ℕ → ℝ} {eg pg : Grid}
    (h : par.size * perp.size ≠ 3) : ∃ d, convert c m pre par perp post f eg pg = some d := by
  unfold convert
  rw [if_neg h]
  exact ⟨_, rfl⟩

/-- All conditions of `conserved` can be met: the grid `[0, 1]` in energy has the cell, if the mass is large. -/
example : ∃ d, convert 1 100 [] exPar exPerp [] (fun _ => 1 / 4) (.edges [0, 1]) (.edges [-1, 1]) = some d ∧
    (∀ a ∈ d.axes, IsEdges a.edges) ∧
    ∀ ea pa : Axis, ea.edges = ekinEdges 1 100 exPar exPerp (.edges [0, 1]) → pa.edges = pitchEdges (.edges [-1, 1]) →
      ∀ i < exPar.size, ∀ j < exPerp.size, Inside ea (cellEkin 1 100 exPar exPerp i j) ∧
        Inside pa (cellPitch exPar exPerp i j) := by
  have s1 : exPar.size = 1 := rfl
  have s2 : exPerp.size = 1 := rfl
  obtain ⟨d, hd⟩ := converted (c := 1) (m := 100) (pre := []) (post := []) (par := exPar) (perp := exPerp)
    (f := fun _ => 1 / 4) (eg := .edges [0, 1]) (pg := .edges [-1, 1]) (by rw [s1, s2]; norm_num)
  refine ⟨d, hd, ?_, ?_⟩
  · obtain ⟨ea, pa, hax, hea, hpa, -⟩ := binned hd
    rw [hax]
    intro a ha
    rcases List.mem_cons.1 ha with rfl | ha
    · rw [hea]
      simp [ekinEdges, IsEdges]
    · rcases List.mem_cons.1 ha with rfl | ha
      · rw [hpa]
        simp [pitchEdges, IsEdges]
      · simp at ha
  · intro ea pa hea hpa i hi j hj
    obtain rfl : i = 0 := by omega
    obtain rfl : j = 0 := by omega
    have hc1 : exPar.center 0 = 1 / 2 := by simp [exPar, Axis.center, Axis.edge]
    have hc2 : exPerp.center 0 = 2 := by simp [exPerp, Axis.center, Axis.edge]; norm_num
    have hP : cellP exPar exPerp 0 0 ^ 2 = 17 / 4 := by
      unfold cellP
      rw [hc1, hc2, Real.sq_sqrt (by norm_num)]
      norm_num
    have hP0 : 0 ≤ cellP exPar exPerp 0 0 := Real.sqrt_nonneg _
    have hP1 : 1 / 2 < cellP exPar exPerp 0 0 := by nlinarith
    constructor
    · simp only [Inside, Axis.edge, Axis.size, hea, ekinEdges]
      refine ⟨energy_nonneg (by norm_num) _, ?_⟩
      unfold cellEkin energy
      rw [hP]
      have : Real.sqrt (1 + 17 / 4 / (100 * 1) ^ 2) < 1 + 1 / 100 := by
        rw [Real.sqrt_lt' (by norm_num)]
        norm_num
      simp
      norm_num at this ⊢
      linarith
    · simp only [Inside, Axis.edge, Axis.size, hpa, pitchEdges]
      unfold cellPitch
      rw [hc1]
      simp
      constructor
      · have : 0 ≤ 2⁻¹ / cellP exPar exPerp 0 0 := by positivity
        linarith
      · rw [div_lt_one (by linarith)]
        linarith

/-! ## The list of distributions -/

/-- The list of available distributions (of the five kinds) is right just if of two neighbours at least one is available. -/
theorem listed_iff (has : ℕ → Bool) : available has 6 0 [0, 1, 2, 3, 4] = [0, 1, 2, 3, 4].filter has ↔
    ∀ i < 4, has i = true ∨ has (i + 1) = true := by
  have h4 : (∀ i < 4, has i = true ∨ has (i + 1) = true) ↔ (has 0 = true ∨ has 1 = true) ∧ (has 1 = true ∨ has 2 = true) ∧
      (has 2 = true ∨ has 3 = true) ∧ (has 3 = true ∨ has 4 = true) := by
    constructor
    · intro h
      exact ⟨h 0 (by norm_num), h 1 (by norm_num), h 2 (by norm_num), h 3 (by norm_num)⟩
    · rintro ⟨a0, a1, a2, a3⟩ i hi
      match i, hi with
      | 0, _ => exact a0
      | 1, _ => exact a1
      | 2, _ => exact a2
      | 3, _ => exact a3
  rw [h4]
  cases h0 : has 0 <;> cases h1 : has 1 <;> cases h2 : has 2 <;> cases h3 : has 3 <;> cases h5 : has 4 <;>
    simp [available, h0, h1, h2, h3, h5, List.erase_cons]

/-- Without any distribution, two are listed. -/
theorem listed_wrong : available (fun _ => false) 6 0 [0, 1, 2, 3, 4] = [1, 3] := by
  simp [available, List.erase_cons]

end Ascot.C159
