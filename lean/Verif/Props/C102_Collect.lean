import Verif.Props.C59_Sample
import Verif.Props.C61_Fusion

/-!
# C102: fusion products are collected in the bin of their momentum and the cell of the reaction, with the reaction rate as weight
-/
set_option linter.unusedSectionVars false
set_option linter.unusedSimpArgs false

namespace Ascot.C102
open Ascot.Afsi Ascot.Dist Ascot.HistG Ascot.C25

/-! ## Specification -/

/-- Bin `k` of an axis contains `x`. -/
def Contains (a : Axis ℝ) (k : Nat) (x : ℝ) : Prop :=
  k < a.n ∧ a.min + k * ((a.max - a.min) / a.n) ≤ x ∧ x < a.min + (k + 1) * ((a.max - a.min) / a.n)

/-- The bins of all axes: `cell` on the spatial axes `sp` and `k1`, `k2` on the momentum axes `p1`, `p2`. -/
def place (sp : Nat × Nat × Nat) (p1 p2 : Nat) (cell : Nat × Nat × Nat) (k1 k2 : Nat) : List Nat :=
  (((((List.replicate 16 0).set sp.1 cell.1).set sp.2.1 cell.2.1).set sp.2.2 cell.2.2).set p1 k1).set p2 k2

/-- A cell of the histogram. -/
def IsCell (h : Hist) (sp : Nat × Nat × Nat) (cell : Nat × Nat × Nat) : Prop :=
  cell.1 < eff (h.n sp.1) ∧ cell.2.1 < eff (h.n sp.2.1) ∧ cell.2.2 < eff (h.n sp.2.2)

/-- Set up for 16 axes, with momentum axes of positive length. -/
structure Setup (h : Hist) (sp : Nat × Nat × Nat) (p1 p2 : Nat) : Prop where
  axes : h.axes.length = 16
  space : sp = (0, 1, 2) ∨ sp = (3, 4, 1)
  mom : (p1, p2) = (5, 6) ∨ (p1, p2) = (10, 11)
  len1 : (h.axis p1).min < (h.axis p1).max
  len2 : (h.axis p2).min < (h.axis p2).max

/-! ## Proofs -/

theorem index_eq {h : Hist} {sp : Nat × Nat × Nat} {p1 p2 : Nat} (hs : Setup h sp p1 p2) (cell : Nat × Nat × Nat) (k1 k2 : Nat) :
    cell.1 * h.stride sp.1 + cell.2.1 * h.stride sp.2.1 + cell.2.2 * h.stride sp.2.2 + k1 * h.stride p1 + k2 * h.stride p2 =
      elementOf h.axes (place sp p1 p2 cell k1 k2) := by
  have ha := hs.axes
  have hlen : (place sp p1 p2 cell k1 k2).length = (h.axes.map Axis.n).length := by simp [place, ha]
  obtain ⟨e1, e2, -⟩ := strides_sum (h.axes.map Axis.n) (place sp p1 p2 cell k1 k2) hlen (by
    intro hc; have := congrArg List.length hc; simp [ha] at this)
  have he : elementOf h.axes (place sp p1 p2 cell k1 k2) = radix ((h.axes.map Axis.n).map eff) (place sp p1 p2 cell k1 k2) := by
    unfold elementOf; rw [List.map_map]; rfl
  rw [he, ← e1]
  unfold Hist.stride
  obtain ⟨s0, s1, s2, s3, s4, s5, s6, s7, s8, s9, s10, s11, s12, s13, s14, hst⟩ := C59.list15 (l := strides (h.axes.map Axis.n)) (by
    simp [ha] at e2; omega)
  rw [hst]
  obtain ⟨i0, i1, i2⟩ := cell
  rcases hs.mom with hp | hp <;> rcases hs.space with hq | hq <;> cases hp <;> subst hq <;>
    simp [place, List.replicate, List.set] <;> omega

theorem place_cell {h : Hist} {sp : Nat × Nat × Nat} {p1 p2 : Nat} (hs : Setup h sp p1 p2) {cell : Nat × Nat × Nat} {k1 k2 : Nat}
    (hc : IsCell h sp cell) (h1 : k1 < h.n p1) (h2 : k2 < h.n p2) : CellOpt h.axes (place sp p1 p2 cell k1 k2) := by
  obtain ⟨c0, c1, c2⟩ := hc
  have ha := hs.axes
  have hm := hs.mom
  have hsp := hs.space
  clear hs
  obtain ⟨ax, bins⟩ := h
  obtain ⟨i0, i1, i2⟩ := cell
  unfold CellOpt
  simp only at ha ⊢
  have hpos : ∀ n, 0 < eff n := by intro n; unfold eff; split_ifs <;> omega
  have hle : ∀ {k n : Nat}, k < n → k < eff n := by intro k n hkn; unfold eff; split_ifs <;> omega
  match ax, ha with
  | [a0, a1, a2, a3, a4, a5, a6, a7, a8, a9, a10, a11, a12, a13, a14, a15], _ =>
    rcases hm with hp | hp <;> rcases hsp with hq | hq <;> cases hp <;> subst hq <;>
      simp only [Hist.n, List.map_cons, List.getElem?_cons_zero, List.getElem?_cons_succ, Option.getD_some] at c0 c1 c2 h1 h2 <;>
      simp only [place, List.replicate, List.set, List.forall₂_cons, List.forall₂_nil_right_iff]
    · exact ⟨c0, c1, c2, hpos _, hpos _, hle h1, hle h2, hpos _, hpos _, hpos _, hpos _, hpos _, hpos _, hpos _, hpos _, hpos _, trivial⟩
    · exact ⟨hpos _, c2, hpos _, c0, c1, hle h1, hle h2, hpos _, hpos _, hpos _, hpos _, hpos _, hpos _, hpos _, hpos _, hpos _, trivial⟩
    · exact ⟨c0, c1, c2, hpos _, hpos _, hpos _, hpos _, hpos _, hpos _, hpos _, hle h1, hle h2, hpos _, hpos _, hpos _, hpos _, trivial⟩
    · exact ⟨hpos _, c2, hpos _, c0, c1, hpos _, hpos _, hpos _, hpos _, hpos _, hle h1, hle h2, hpos _, hpos _, hpos _, hpos _, trivial⟩

theorem place_inj {sp : Nat × Nat × Nat} {p1 p2 : Nat} (hsp : sp = (0, 1, 2) ∨ sp = (3, 4, 1)) (hm : (p1, p2) = (5, 6) ∨ (p1, p2) = (10, 11))
    {cell cell' : Nat × Nat × Nat} {k1 k2 k1' k2' : Nat} (h : place sp p1 p2 cell k1 k2 = place sp p1 p2 cell' k1' k2') :
    cell = cell' ∧ k1 = k1' ∧ k2 = k2' := by
  obtain ⟨i0, i1, i2⟩ := cell
  obtain ⟨j0, j1, j2⟩ := cell'
  rcases hm with hp | hp <;> rcases hsp with hq | hq <;> cases hp <;> subst hq <;>
    simp [place, List.replicate, List.set] at h ⊢ <;> tauto

/-- **Different bins are different elements**: two places share an element of the array only if cell and momentum bins agree. -/
theorem no_overlap {h : Hist} {sp : Nat × Nat × Nat} {p1 p2 : Nat} (hs : Setup h sp p1 p2) {cell cell' : Nat × Nat × Nat} {k1 k2 k1' k2' : Nat}
    (hc : IsCell h sp cell) (hc' : IsCell h sp cell') (h1 : k1 < h.n p1) (h2 : k2 < h.n p2) (h1' : k1' < h.n p1) (h2' : k2' < h.n p2)
    (he : elementOf h.axes (place sp p1 p2 cell k1 k2) = elementOf h.axes (place sp p1 p2 cell' k1' k2')) : cell = cell' ∧ k1 = k1' ∧ k2 = k2' :=
  place_inj hs.space hs.mom ((cells h.axes).2.1 _ _ (place_cell hs hc h1 h2) (place_cell hs hc' h1' h2') he)

theorem binIndex_iff {a : Axis ℝ} (ha : a.min < a.max) (hn : 0 < a.n) (x : ℝ) (k : Nat) :
    (binIndex a x = k ∧ k < a.n) ↔ Contains a k x := by
  have hd : 0 < a.max - a.min := by linarith
  have hn' : (0 : ℝ) < a.n := Nat.cast_pos.2 hn
  unfold binIndex Contains
  rw [Int.floor_eq_iff, le_div_iff₀ hd, div_lt_iff₀ hd]
  have e1 : (((k : Nat) : Int) : ℝ) = k := by norm_cast
  rw [e1]
  have a1 : (k : ℝ) * (a.max - a.min) ≤ a.n * (x - a.min) ↔ a.min + k * ((a.max - a.min) / a.n) ≤ x := by
    rw [← mul_div_assoc]
    constructor
    · intro h
      have : (k : ℝ) * (a.max - a.min) / a.n ≤ x - a.min := by rw [div_le_iff₀ hn']; linarith
      linarith
    · intro h
      have : (k : ℝ) * (a.max - a.min) / a.n ≤ x - a.min := by linarith
      rw [div_le_iff₀ hn'] at this; linarith
  have a2 : a.n * (x - a.min) < ((k : ℝ) + 1) * (a.max - a.min) ↔ x < a.min + (k + 1) * ((a.max - a.min) / a.n) := by
    rw [← mul_div_assoc]
    constructor
    · intro h
      have : x - a.min < ((k : ℝ) + 1) * (a.max - a.min) / a.n := by rw [lt_div_iff₀ hn']; linarith
      linarith
    · intro h
      have : x - a.min < ((k : ℝ) + 1) * (a.max - a.min) / a.n := by linarith
      rw [lt_div_iff₀ hn'] at this; linarith
  rw [a1, a2]
  tauto

theorem binIndex_nonneg {a : Axis ℝ} (ha : a.min < a.max) {x : ℝ} (hx : a.min ≤ x) : 0 ≤ binIndex a x := by
  unfold binIndex
  rw [Int.le_floor]
  push_cast
  exact div_nonneg (mul_nonneg (Nat.cast_nonneg _) (by linarith)) (by linarith)

open Classical in
/-- What a sample adds to element `j`: its weight if `j` belongs to its cell and the bins that contain its momentum. -/
noncomputable def added (h : Hist) (sp : Nat × Nat × Nat) (p1 p2 : Nat) (mult : ℝ) (cell : Nat × Nat × Nat) (s : (ℝ × ℝ) × ℝ) (j : Nat) : ℝ :=
  if ∃ k1 k2, Contains (h.axis p1) k1 s.1.1 ∧ Contains (h.axis p2) k2 s.1.2 ∧ j = elementOf h.axes (place sp p1 p2 cell k1 k2) then s.2 * mult else 0

theorem collect_spec {h : Hist} {sp : Nat × Nat × Nat} {p1 p2 : Nat} (hs : Setup h sp p1 p2) (cell : Nat × Nat × Nat) (s : (ℝ × ℝ) × ℝ) (mult : ℝ)
    (h1 : (h.axis p1).min ≤ s.1.1) (h2 : (h.axis p2).min ≤ s.1.2) (b : Nat → ℝ) :
    collect h sp p1 p2 cell s.1 (s.2 * mult) b = some (fun j => b j + added h sp p1 p2 mult cell s j) := by
  have n1 := binIndex_nonneg hs.len1 h1
  have n2 := binIndex_nonneg hs.len2 h2
  unfold collect
  simp only
  rw [if_neg (by omega)]
  split_ifs with hr
  · congr 1
    funext j
    rw [index_eq hs]
    have c1 : Contains (h.axis p1) (binIndex (h.axis p1) s.1.1).toNat s.1.1 :=
      (binIndex_iff hs.len1 (by rw [← C59.n_eq]; omega) _ _).1 ⟨by omega, by rw [← C59.n_eq]; exact hr.1⟩
    have c2 : Contains (h.axis p2) (binIndex (h.axis p2) s.1.2).toNat s.1.2 :=
      (binIndex_iff hs.len2 (by rw [← C59.n_eq]; omega) _ _).1 ⟨by omega, by rw [← C59.n_eq]; exact hr.2⟩
    unfold addAt added
    by_cases hj : j = elementOf h.axes (place sp p1 p2 cell (binIndex (h.axis p1) s.1.1).toNat (binIndex (h.axis p2) s.1.2).toNat)
    · rw [if_pos hj, if_pos ⟨_, _, c1, c2, hj⟩, hj]
    · rw [if_neg hj, if_neg]
      · ring
      · rintro ⟨k1, k2, d1, d2, hj'⟩
        have e1 := ((binIndex_iff hs.len1 (by have := d1.1; omega) _ _).2 d1).1
        have e2 := ((binIndex_iff hs.len2 (by have := d2.1; omega) _ _).2 d2).1
        rw [e1, e2] at hj
        exact hj hj'
  · congr 1
    funext j
    unfold added
    rw [if_neg]
    · ring
    · rintro ⟨k1, k2, d1, d2, -⟩
      have e1 := (binIndex_iff hs.len1 (by have := d1.1; omega) _ _).2 d1
      have e2 := (binIndex_iff hs.len2 (by have := d2.1; omega) _ _).2 d2
      apply hr
      rw [e1.1, e2.1, C59.n_eq, C59.n_eq]
      exact ⟨e1.2, e2.2⟩

/-- **Collection.**  If no coordinate is below the range of its axis, every element of the product histogram grows by the weights of just
those samples whose cell and momentum bins it belongs to; samples above the range are left out. -/
theorem collected {h : Hist} {sp : Nat × Nat × Nat} {p1 p2 : Nat} (hs : Setup h sp p1 p2) (mult : ℝ) :
    ∀ (l : List ((Nat × Nat × Nat) × List ((ℝ × ℝ) × ℝ))) (b : Nat → ℝ),
    (∀ e ∈ l, ∀ s ∈ e.2, (h.axis p1).min ≤ s.1.1 ∧ (h.axis p2).min ≤ s.1.2) →
    collectAll h sp p1 p2 mult l b = some (fun j => b j + (l.map fun e => (e.2.map fun s => added h sp p1 p2 mult e.1 s j).sum).sum)
  | [], b, _ => by simp [collectAll]
  | (cell, ss) :: rest, b, hl => by
    have inner : ∀ (ss : List ((ℝ × ℝ) × ℝ)) (b : Nat → ℝ), (∀ s ∈ ss, (h.axis p1).min ≤ s.1.1 ∧ (h.axis p2).min ≤ s.1.2) →
        ss.foldlM (fun b s => collect h sp p1 p2 cell s.1 (s.2 * mult) b) b =
          some (fun j => b j + (ss.map fun s => added h sp p1 p2 mult cell s j).sum) := by
      intro ss
      induction ss with
      | nil => intro b _; simp
      | cons s ss ih =>
        intro b hb
        rw [List.foldlM_cons, collect_spec hs cell s mult (hb s (by simp)).1 (hb s (by simp)).2]
        simp only [Option.bind_eq_bind, Option.bind_some]
        rw [ih _ (fun t ht => hb t (by simp [ht]))]
        congr 1
        funext j
        simp only [List.map_cons, List.sum_cons]; ring
    rw [collectAll, inner ss b (fun s hs' => hl (cell, ss) (by simp) s hs')]
    simp only [Option.bind_some]
    rw [collected hs mult rest _ (fun e he => hl e (by simp [he]))]
    congr 1
    funext j
    simp only [List.map_cons, List.sum_cons]; ring

open Classical in
/-- **One bin.**  The element of a cell and two momentum bins gets the weights of the samples from this cell with a momentum in
these bins. -/
theorem bin {h : Hist} {sp : Nat × Nat × Nat} {p1 p2 : Nat} (hs : Setup h sp p1 p2) (mult : ℝ)
    (l : List ((Nat × Nat × Nat) × List ((ℝ × ℝ) × ℝ))) (hcells : ∀ e ∈ l, IsCell h sp e.1)
    (hlow : ∀ e ∈ l, ∀ s ∈ e.2, (h.axis p1).min ≤ s.1.1 ∧ (h.axis p2).min ≤ s.1.2)
    {cell : Nat × Nat × Nat} (hc : IsCell h sp cell) {k1 k2 : Nat} (h1 : k1 < h.n p1) (h2 : k2 < h.n p2) :
    ∃ b, collectAll h sp p1 p2 mult l (fun _ => 0) = some b ∧
      b (elementOf h.axes (place sp p1 p2 cell k1 k2)) =
        (l.map fun e => if e.1 = cell then
          (e.2.map fun s => if Contains (h.axis p1) k1 s.1.1 ∧ Contains (h.axis p2) k2 s.1.2 then s.2 * mult else 0).sum else 0).sum := by
  refine ⟨_, collected hs mult l _ hlow, ?_⟩
  rw [zero_add]
  congr 1
  apply List.map_congr_left
  intro e he
  have key : ∀ s : (ℝ × ℝ) × ℝ, added h sp p1 p2 mult e.1 s (elementOf h.axes (place sp p1 p2 cell k1 k2)) =
      if e.1 = cell ∧ Contains (h.axis p1) k1 s.1.1 ∧ Contains (h.axis p2) k2 s.1.2 then s.2 * mult else 0 := by
    intro s
    unfold added
    congr 1
    rw [eq_iff_iff]
    constructor
    · rintro ⟨m1, m2, c1, c2, e'⟩
      obtain ⟨r1, r2, r3⟩ := no_overlap hs hc (hcells e he) h1 h2 (by rw [C59.n_eq]; exact c1.1) (by rw [C59.n_eq]; exact c2.1) e'
      subst r2 r3
      exact ⟨r1.symm, c1, c2⟩
    · rintro ⟨r1, c1, c2⟩
      exact ⟨k1, k2, c1, c2, by rw [r1]⟩
  simp only [key]
  by_cases hcell : e.1 = cell
  · simp [hcell]
  · simp [hcell]

/-- **No race**: threads work on different values of the first index, and what one of them writes no other one writes or reads. -/
theorem no_race {h : Hist} {sp : Nat × Nat × Nat} {p1 p2 : Nat} (hs : Setup h sp p1 p2) {mult mult' : ℝ} {cell cell' : Nat × Nat × Nat}
    (hc : IsCell h sp cell) (hc' : IsCell h sp cell') (hne : cell.1 ≠ cell'.1) (s s' : (ℝ × ℝ) × ℝ) (j : Nat) :
    added h sp p1 p2 mult cell s j = 0 ∨ added h sp p1 p2 mult' cell' s' j = 0 := by
  by_contra hcon
  push Not at hcon
  obtain ⟨ha, hb⟩ := hcon
  unfold added at ha hb
  split_ifs at ha with h1
  · split_ifs at hb with h2
    · obtain ⟨k1, k2, c1, c2, e1⟩ := h1
      obtain ⟨k1', k2', c1', c2', e2⟩ := h2
      have := no_overlap hs hc hc' (by rw [C59.n_eq]; exact c1.1) (by rw [C59.n_eq]; exact c2.1) (by rw [C59.n_eq]; exact c1'.1)
        (by rw [C59.n_eq]; exact c2'.1) (e1.symm.trans e2)
      exact hne (congrArg Prod.fst this.1)
    · exact hb rfl
  · exact ha rfl

/-- **Weight.**  The weights of the `n` samples of a cell add up to volume times the product of the densities times the average of
relative speed times cross section; the cross section is taken at the kinetic energy in the frame of the centre of mass. -/
theorem rate {k : Reaction} (hk : C61.Valid k) (sigma : ℝ → ℝ) (d1 d2 vol : ℝ) (samples : List Sample) :
    (samples.map fun s => weight k sigma d1 d2 vol samples.length (sampleRelative2 k s)).sum =
      d1 * d2 * vol * ((samples.map fun s => Real.sqrt (sampleRelative2 k s) *
        sigma (C61.kinetic k.m1 k.m2 (C61.reactants k s).1 (C61.reactants k s).2
          (C61.com k.m1 k.m2 (C61.reactants k s).1 (C61.reactants k s).2))).sum / samples.length) := by
  generalize samples.length = n
  simp only [C61.relative_energy hk]
  induction samples with
  | nil => simp
  | cons s l ih =>
    simp only [List.map_cons, List.sum_cons]
    rw [ih]
    unfold weight
    ring

/-- The setup of the examples can be used for products. -/
theorem exSetup : Setup C59.exPpar (0, 1, 2) 5 6 := by
  refine ⟨C59.exPpar_valid.axes, Or.inl rfl, Or.inl rfl, ?_, ?_⟩
  · simp [C59.exPpar, C59.unused, Hist.axis, List.replicate]
  · simp [C59.exPpar, C59.unused, Hist.axis, List.replicate]

/-- The hypotheses of `bin` can be met, with a sample in the second momentum bin. -/
example : IsCell C59.exPpar (0, 1, 2) (0, 0, 0) ∧ (C59.exPpar.axis 5).min ≤ 1 / 2 ∧ (C59.exPpar.axis 6).min ≤ 3 / 2 ∧
    Contains (C59.exPpar.axis 5) 0 (1 / 2) ∧ Contains (C59.exPpar.axis 6) 1 (3 / 2) := by
  have hx5 : C59.exPpar.axis 5 = ⟨1, 0, 1⟩ := by simp [C59.exPpar, C59.unused, Hist.axis, List.replicate]
  have hx6 : C59.exPpar.axis 6 = ⟨2, 0, 2⟩ := by simp [C59.exPpar, C59.unused, Hist.axis, List.replicate]
  rw [hx5, hx6]
  refine ⟨?_, by norm_num, by norm_num, by norm_num [Contains], by norm_num [Contains]⟩
  simp [IsCell, C59.exPpar, C59.unused, Hist.n, List.replicate, eff]

/-- **Violation**: a coordinate below the range of its axis makes the conversion of the bin number undefined. -/
theorem below_range {h : Hist} {sp : Nat × Nat × Nat} {p1 p2 : Nat} (hs : Setup h sp p1 p2) (hn : 0 < h.n p1) (cell : Nat × Nat × Nat) (x : ℝ × ℝ)
    (w : ℝ) (b : Nat → ℝ) (hx : x.1 < (h.axis p1).min) : collect h sp p1 p2 cell x w b = none := by
  unfold collect
  simp only
  rw [if_pos]
  left
  unfold binIndex
  rw [Int.floor_lt]
  push_cast
  rw [← C59.n_eq]
  have : (0 : ℝ) < h.n p1 := by exact_mod_cast hn
  exact div_neg_of_neg_of_pos (mul_neg_of_pos_of_neg this (by linarith)) (by linarith [hs.len1])

end Ascot.C102
