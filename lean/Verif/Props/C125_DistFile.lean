import Verif.Spec.DistDoc
import Verif.Props.C22_C26_Dist
import Mathlib.Tactic.FieldSimp

/-!
# C125: distributions in the output file

Full statement: the number in each cell of a distribution in the file is the sum of weight times
time step over the running markers that were in the cell, as given by the edges in the file.  For
guiding centers this is proved (`gc`); for full orbits with all markers inside the grid
(`fo_partial`), since the collection is wrong otherwise (C24).
-/

set_option linter.unusedSectionVars false
set_option linter.unusedSimpArgs false

namespace Ascot.C125
open Ascot.DistFile Ascot.DistDoc
open Ascot.Dist (Axis Hist Env Gc Fo Lane dist5D dist6D distRho5D distRho6D distCom coords5DGc
  coords6DGc coordsRho5DGc coordsRho6DGc coordsComGc coords5DFo coords6DFo coordsRho5DFo
  coordsRho6DFo coordsComFo laneGc laneFo updateGc updateFo addAt)
open Ascot.OutputDoc (Dim unitOf)

/-- A distribution: what is written, the histogram it comes from, its kind. -/
inductive Output : ((ℕ → ℝ) → HistGroup) → Hist ℝ → Kind → Prop
  | d5 (r phi z ppara pperp time q) : Output (write5D r phi z ppara pperp time q)
      (dist5D r phi z ppara pperp time q) .d5
  | d6 (r phi z pr pphi pz time q) : Output (write6D r phi z pr pphi pz time q)
      (dist6D r phi z pr pphi pz time q) .d6
  | rho5 (rho theta phi ppara pperp time q) : Output (writeRho5D rho theta phi ppara pperp time q)
      (distRho5D rho theta phi ppara pperp time q) .rho5
  | rho6 (rho theta phi pr pphi pz time q) : Output (writeRho6D rho theta phi pr pphi pz time q)
      (distRho6D rho theta phi pr pphi pz time q) .rho6
  | com (mu Ekin Ptor) : Output (writeCom mu Ekin Ptor) (distCom mu Ekin Ptor) .com

/-- The coordinates of a marker in SI units, from those the diagnostics collect, where the charge is
in units of the elementary charge (C23 and C24 say what they are). -/
noncomputable def si : Kind → List ℝ → List ℝ
  | .d5, [a, b, c, d, f, t, q] => [a, b, c, d, f, t, q * OutputDoc.e]
  | .d6, [a, b, c, d, f, g, t, q] => [a, b, c, d, f, g, t, q * OutputDoc.e]
  | .rho5, [a, b, c, d, f, t, q] => [a, b, c, d, f, t, q * OutputDoc.e]
  | .rho6, [a, b, c, d, f, g, t, q] => [a, b, c, d, f, g, t, q * OutputDoc.e]
  | .com, [a, b, c] => [a, b, c]
  | _, _ => []

/-- The coordinates of the guiding center in SI units. -/
theorem si_gc (v : Env ℝ) (hv : v.e = OutputDoc.e) (p : Gc ℝ) :
    si .d5 (coords5DGc v p) = [p.r, Dist.wrap v.twoPi p.phi, p.z, p.ppar, Dist.gcPperp v p, p.time, p.charge] ∧
    si .rho5 (coordsRho5DGc v p) = [p.rho, Dist.wrap v.twoPi p.theta, Dist.wrap v.twoPi p.phi, p.ppar,
      Dist.gcPperp v p, p.time, p.charge] ∧
    si .com (coordsComGc v p) = coordsComGc v p := by
  have he : OutputDoc.e ≠ 0 := by unfold OutputDoc.e; norm_num
  refine ⟨?_, ?_, rfl⟩ <;>
  · simp only [coords5DGc, coordsRho5DGc, si, hv]
    rw [div_mul_cancel₀ _ he]

theorem e_pos : (0 : ℝ) < OutputDoc.e := by unfold OutputDoc.e; norm_num

/-- A written abscissa: cell `i` of the file is bin `i` of the axis, if the numbers in the file are
those of the axis up to the factor of the unit. -/
theorem spans_iff (b : Absc) (a : Axis ℝ) (d : Dim) (f x y : ℝ) (i : ℕ) (hn : b.n = a.n)
    (hu : unitOf b.unit = some (d, f)) (g : ℝ) (hg : 0 < g) (hmin : b.min * f = a.min * g) (hmax : b.max * f = a.max * g)
    (hi : i < a.n) (hx : y = x * g) :
    Spans ⟨b.name, b.unit, b.n, (List.range (b.n + 1)).map fun j : ℕ => b.min + j * ((b.max - b.min) / b.n)⟩ d i y ↔
      Dist.InBin a i x := by
  have h1 : ((List.range (b.n + 1)).map fun j : ℕ => b.min + j * ((b.max - b.min) / b.n))[i]? =
      some (b.min + i * ((b.max - b.min) / b.n)) := by
    rw [List.getElem?_map, List.getElem?_range (by omega)]; rfl
  have h2 : ((List.range (b.n + 1)).map fun j : ℕ => b.min + j * ((b.max - b.min) / b.n))[i + 1]? =
      some (b.min + (i + 1 : ℕ) * ((b.max - b.min) / b.n)) := by
    rw [List.getElem?_map, List.getElem?_range (by omega)]; rfl
  have key : ∀ k : ℝ, (b.min + k * ((b.max - b.min) / b.n)) * f = (a.min + k * ((a.max - a.min) / a.n)) * g := by
    intro k
    have : (b.min + k * ((b.max - b.min) / b.n)) * f = b.min * f + k * ((b.max * f - b.min * f) / b.n) := by ring
    rw [this, hmin, hmax, hn]; ring
  unfold Spans Dist.InBin
  simp only [h1, h2, hu, Option.some.injEq, Prod.mk.injEq, true_and]
  constructor
  · rintro ⟨_, _, _, rfl, rfl, rfl, h3, h4⟩
    rw [key, hx] at h3 h4
    push_cast at h4
    exact ⟨le_of_mul_le_mul_right h3 hg, lt_of_mul_lt_mul_right h4 hg.le⟩
  · rintro ⟨h3, h4⟩
    refine ⟨_, _, _, rfl, rfl, rfl, ?_, ?_⟩
    · rw [key, hx]; exact mul_le_mul_of_nonneg_right h3 hg.le
    · rw [key, hx]; push_cast; exact mul_lt_mul_of_pos_right h4 hg

/-- An abscissa that is written right: unit of dimension `d` with factor `f`; quantities in SI units
are `g` times those of the axis. -/
structure Right (b : Absc) (a : Axis ℝ) (d : Dim) (g : ℝ) : Prop where
  n : b.n = a.n
  unit : ∃ f, unitOf b.unit = some (d, f) ∧ b.min * f = a.min * g ∧ b.max * f = a.max * g
  pos : 0 < g

theorem right_same (name u : String) (a : Axis ℝ) (d : Dim) (hu : unitOf u = some (d, 1)) :
    Right ⟨name, u, a.n, a.min, a.max⟩ a d 1 := ⟨rfl, ⟨1, hu, rfl, rfl⟩, one_pos⟩

theorem right_deg (name : String) (a : Axis ℝ) :
    Right ⟨name, "deg", a.n, rad2deg a.min, rad2deg a.max⟩ a .one 1 := by
  have hp := Real.pi_ne_zero
  refine ⟨rfl, ⟨Real.pi / 180, rfl, ?_, ?_⟩, one_pos⟩ <;> simp only [rad2deg] <;> field_simp

theorem right_e (name : String) (a : Axis ℝ) :
    Right ⟨name, "e", a.n, a.min, a.max⟩ a .charge OutputDoc.e := ⟨rfl, ⟨OutputDoc.e, rfl, rfl, rfl⟩, e_pos⟩

theorem right_div (name u : String) (a : Axis ℝ) (d : Dim) (hu : unitOf u = some (d, OutputDoc.e)) :
    Right ⟨name, u, a.n, a.min / MarkerFile.eCharge, a.max / MarkerFile.eCharge⟩ a d 1 := by
  have : MarkerFile.eCharge ≠ 0 := e_pos.ne'
  refine ⟨rfl, ⟨_, hu, ?_, ?_⟩, one_pos⟩
  · show a.min / MarkerFile.eCharge * MarkerFile.eCharge = _; rw [div_mul_cancel₀ _ this, mul_one]
  · show a.max / MarkerFile.eCharge * MarkerFile.eCharge = _; rw [div_mul_cancel₀ _ this, mul_one]

/-- The abscissae of a file that are written right, one for each axis. -/
inductive AllRight : List Absc → List (Axis ℝ) → List Dim → List ℝ → Prop
  | nil : AllRight [] [] [] []
  | cons {b a d g bs as ds gs} : Right b a d g → AllRight bs as ds gs →
      AllRight (b :: bs) (a :: as) (d :: ds) (g :: gs)

theorem AllRight.cell {bs as ds gs} (h : AllRight bs as ds gs) (o : ℕ → ℝ) (u n : String) (is : List ℕ) :
    IsCell (writeUniform bs u n o) is ↔ Dist.Cell as is := by
  unfold IsCell Dist.Cell writeUniform
  simp only
  induction h generalizing is with
  | nil => simp
  | cons h1 h2 ih =>
    cases is with
    | nil => simp
    | cons i is =>
      rw [List.map_cons, List.forall₂_cons, List.forall₂_cons, ih]
      simp only [h1.n]

theorem AllRight.inCell {bs as ds gs} (h : AllRight bs as ds gs) (o : ℕ → ℝ) (u n : String) (is : List ℕ)
    (hc : Dist.Cell as is) (xs : List ℝ) (hl : xs.length = as.length) :
    InCell (writeUniform bs u n o).absc ds is (List.zipWith (· * ·) xs gs) ↔ Dist.InCell as is xs := by
  unfold writeUniform
  simp only
  induction h generalizing is xs with
  | nil =>
    cases is with
    | nil => cases xs with
      | nil => simp [InCell, Dist.InCell]
      | cons => simp at hl
    | cons => cases hc
  | cons h1 h2 ih =>
    cases hc with
    | cons hi hc =>
      cases xs with
      | nil => simp at hl
      | cons x xs =>
        rw [List.map_cons, List.zipWith_cons_cons, InCell, Dist.InCell, ih _ hc xs (by simpa using hl)]
        obtain ⟨f, hu, hmin, hmax⟩ := h1.unit
        rw [spans_iff _ _ _ f x _ _ h1.n hu _ h1.pos hmin hmax hi rfl]

theorem place_eq (ns is : List ℕ) : place ns is = Dist.radix ns is := by
  induction ns generalizing is with
  | nil => cases is <;> rfl
  | cons n ns ih => cases is with
    | nil => rfl
    | cons i is => rw [place, Dist.radix, ih]

/-- Factors from the collected coordinates to SI units. -/
noncomputable def factors : Kind → List ℝ
  | .d5 => [1, 1, 1, 1, 1, 1, OutputDoc.e]
  | .d6 => [1, 1, 1, 1, 1, 1, 1, OutputDoc.e]
  | .rho5 => [1, 1, 1, 1, 1, 1, OutputDoc.e]
  | .rho6 => [1, 1, 1, 1, 1, 1, 1, OutputDoc.e]
  | .com => [1, 1, 1]

theorem si_eq (k : Kind) (xs : List ℝ) (h : xs.length = (factors k).length) :
    si k xs = List.zipWith (· * ·) xs (factors k) := by
  cases k
  · match xs, h with
    | [a, b, c, d, f, t, q], _ => simp [si, factors]
  · match xs, h with
    | [a, b, c, d, f, g, t, q], _ => simp [si, factors]
  · match xs, h with
    | [a, b, c, d, f, t, q], _ => simp [si, factors]
  · match xs, h with
    | [a, b, c, d, f, g, t, q], _ => simp [si, factors]
  · match xs, h with
    | [a, b, c], _ => simp [si, factors]

theorem Output.flen {w d k} (h : Output w d k) : (factors k).length = d.axes.length := by cases h <;> rfl

theorem Output.right {w d k} (h : Output w d k) : ∃ bs u n, w = writeUniform bs u n ∧
    AllRight bs d.axes ((doc k).map Prod.snd) (factors k) ∧ bs.map Absc.name = (doc k).map Prod.fst := by
  cases h
  · exact ⟨_, _, _, rfl, .cons (right_same _ _ _ _ rfl) (.cons (right_deg _ _) (.cons (right_same _ _ _ _ rfl)
      (.cons (right_same _ _ _ _ rfl) (.cons (right_same _ _ _ _ rfl) (.cons (right_same _ _ _ _ rfl)
      (.cons (right_e _ _) .nil)))))), rfl⟩
  · exact ⟨_, _, _, rfl, .cons (right_same _ _ _ _ rfl) (.cons (right_deg _ _) (.cons (right_same _ _ _ _ rfl)
      (.cons (right_same _ _ _ _ rfl) (.cons (right_same _ _ _ _ rfl) (.cons (right_same _ _ _ _ rfl)
      (.cons (right_same _ _ _ _ rfl) (.cons (right_e _ _) .nil))))))), rfl⟩
  · exact ⟨_, _, _, rfl, .cons (right_same _ _ _ _ rfl) (.cons (right_deg _ _) (.cons (right_deg _ _)
      (.cons (right_same _ _ _ _ rfl) (.cons (right_same _ _ _ _ rfl) (.cons (right_same _ _ _ _ rfl)
      (.cons (right_e _ _) .nil)))))), rfl⟩
  · exact ⟨_, _, _, rfl, .cons (right_same _ _ _ _ rfl) (.cons (right_deg _ _) (.cons (right_deg _ _)
      (.cons (right_same _ _ _ _ rfl) (.cons (right_same _ _ _ _ rfl) (.cons (right_same _ _ _ _ rfl)
      (.cons (right_same _ _ _ _ rfl) (.cons (right_e _ _) .nil))))))), rfl⟩
  · exact ⟨_, _, _, rfl, .cons (right_div _ _ _ _ rfl) (.cons (right_div _ _ _ _ rfl)
      (.cons (right_div _ _ _ _ rfl) .nil)), rfl⟩

theorem Output.index {w d k} (h : Output w d k) (o : ℕ → ℝ) (is : List ℕ) (hc : Dist.Cell d.axes is) :
    value (w o) is = o (d.index is) := by
  have hl := hc.length_eq
  unfold value
  rw [place_eq]
  cases h
  · match is, hl with
    | [a, b, c, d, e, f, g], _ =>
      simp only [write5D, writeUniform, dist5D, Dist.dist5DIndex, List.map, Dist.radix, List.prod_cons, List.prod_nil]
      congr 1; ring
  · match is, hl with
    | [a, b, c, d, e, f, g, i], _ =>
      simp only [write6D, writeUniform, dist6D, Dist.dist6DIndex, List.map, Dist.radix, List.prod_cons, List.prod_nil]
      congr 1; ring
  · match is, hl with
    | [a, b, c, d, e, f, g], _ =>
      simp only [writeRho5D, writeUniform, distRho5D, Dist.distRho5DIndex, List.map, Dist.radix, List.prod_cons, List.prod_nil]
      congr 1; ring
  · match is, hl with
    | [a, b, c, d, e, f, g, i], _ =>
      simp only [writeRho6D, writeUniform, distRho6D, Dist.distRho6DIndex, List.map, Dist.radix, List.prod_cons, List.prod_nil]
      congr 1; ring
  · match is, hl with
    | [a, b, c], _ =>
      simp only [writeCom, writeUniform, distCom, Dist.distComIndex, List.map, Dist.radix, List.prod_cons, List.prod_nil]
      congr 1; ring

open Classical in
/-- Sum of weight times time step over the running markers in a cell of the file. -/
noncomputable def deposited (g : HistGroup) (k : Kind) (is : List ℕ) (ls : List (Lane ℝ)) : ℝ :=
  (ls.map fun l => if l.running = true ∧ InCell g.absc ((doc k).map Prod.snd) is (si k l.coords) then
    l.weight * (l.timeF - l.timeI) else 0).sum

theorem deposited_eq {w d k} (h : Output w d k) (o : ℕ → ℝ) (is : List ℕ) (hc : Dist.Cell d.axes is)
    (ls : List (Lane ℝ)) (hl : ∀ l ∈ ls, l.coords.length = d.axes.length) :
    deposited (w o) k is ls = Dist.cellSum d.axes is ls := by
  have hf := h.flen
  obtain ⟨bs, u, n, rfl, hr, -⟩ := h.right
  unfold deposited Dist.cellSum
  congr 1
  refine List.map_congr_left fun l hm => ?_
  rw [si_eq k _ (by rw [hl l hm, hf]), hr.inCell o u n is hc _ (hl l hm)]
  rfl

/-- The abscissae in the file are those documented, in their order. -/
theorem names {w d k} (h : Output w d k) (o : ℕ → ℝ) :
    ((w o).absc.map AxisSet.name) = (doc k).map Prod.fst ∧
    (∀ s ∈ (w o).absc, s.edges.length = s.nbin + 1) ∧
    (w o).dims = 1 :: (w o).absc.map AxisSet.nbin := by
  obtain ⟨bs, u, n, rfl, -, hn⟩ := h.right
  refine ⟨?_, ?_, ?_⟩
  · rw [← hn]; simp only [writeUniform, List.map_map]; rfl
  · intro s hs
    obtain ⟨b, -, rfl⟩ := List.mem_map.mp hs
    simp
  · simp only [writeUniform, List.map_map]; rfl

/-- Guiding centers: after any number of updates of the empty histogram, the file holds in each cell
the sum of weight times time step over the running markers in it. -/
theorem gc (v : Env ℝ) (w : (ℕ → ℝ) → HistGroup) (d : Hist ℝ) (k : Kind) (f : Gc ℝ → List ℝ)
    (ho : Output w d k) (hu : C23.Update v d f) (hv : ∀ a ∈ d.axes, a.Valid)
    (us : List (List (Gc ℝ × Gc ℝ))) (is : List ℕ)
    (hc : IsCell (w (us.foldl (fun h ps => updateGc d (C23.lanes f ps) h) fun _ => 0)) is) :
    value (w (us.foldl (fun h ps => updateGc d (C23.lanes f ps) h) fun _ => 0)) is =
      deposited (w (us.foldl (fun h ps => updateGc d (C23.lanes f ps) h) fun _ => 0)) k is
        (us.map (C23.lanes f)).flatten := by
  have hc' : Dist.Cell d.axes is := by
    obtain ⟨bs, u, n, rfl, hr, -⟩ := ho.right
    exact (hr.cell _ u n is).mp hc
  rw [ho.index _ is hc', (C23.gc_update v d f hu hv us _).1 is hc',
    deposited_eq ho _ is hc' _ (C23.lanes_length hu us), zero_add]

/-- Full orbits, one update in which all running markers are inside the grid.  Missing: markers
outside the grid, for which the collected histogram is wrong (C24.`outside_fails`). -/
theorem fo_partial (v : Env ℝ) (w : (ℕ → ℝ) → HistGroup) (d : Hist ℝ) (k : Kind) (f : Fo ℝ → List ℝ)
    (ho : Output w d k) (hu : C24.Update v d f) (hv : ∀ a ∈ d.axes, a.Valid)
    (ps : List ((Fo ℝ × Fo ℝ) × (ℕ × ℝ)))
    (hin : ∀ x ∈ ps, x.1.1.running = true → Dist.Inside d.axes (f x.1.1)) (h : ℕ → ℝ) (is : List ℕ)
    (hc : IsCell (w h) is) :
    value (w (updateFo d (ps.map fun x => (laneFo f x.1.1 x.1.2, x.2)) h)) is =
      value (w h) is + deposited (w h) k is (C24.lanes f (ps.map Prod.fst)) := by
  have hc' : Dist.Cell d.axes is := by
    obtain ⟨bs, u, n, rfl, hr, -⟩ := ho.right
    exact (hr.cell _ u n is).mp hc
  have hl2 : ∀ l ∈ C24.lanes f (ps.map Prod.fst), l.coords.length = d.axes.length := by
    intro l hl
    obtain ⟨x, _, rfl⟩ := List.mem_map.1 hl
    exact hu.length _
  rw [ho.index _ is hc', ho.index _ is hc', (C24.fo_update_partial v d f hu hv ps hin h).1 is hc',
    deposited_eq ho _ is hc' _ hl2]

/-- Every marker inside the grid is in one cell of the file, and only there. -/
theorem one_cell {w d k} (ho : Output w d k) (hv : ∀ a ∈ d.axes, a.Valid) (o : ℕ → ℝ) (xs : List ℝ)
    (hi : Dist.Inside d.axes xs) :
    ∃ is, IsCell (w o) is ∧ InCell (w o).absc ((doc k).map Prod.snd) is (si k xs) ∧
      ∀ js, IsCell (w o) js → InCell (w o).absc ((doc k).map Prod.snd) js (si k xs) → js = is := by
  obtain ⟨is, h1, h2, h3⟩ := C23.one_cell d.axes hv xs hi
  have hlen := hi.length_eq
  have hf := ho.flen
  obtain ⟨bs, u, n, rfl, hr, -⟩ := ho.right
  rw [si_eq k xs (by rw [hlen, hf])]
  refine ⟨is, (hr.cell o u n is).mpr h1, (hr.inCell o u n is h1 xs hlen).mpr h2, fun js hj hx => ?_⟩
  have hj' := (hr.cell o u n js).mp hj
  exact h3 js ((hr.inCell o u n js hj' xs hlen).mp hx)

/-- Hypotheses: a 5D distribution with two bins of each angle and momentum. -/
example : Output (write5D ⟨1, 0, 1⟩ ⟨2, 0, 6⟩ ⟨1, 0, 1⟩ ⟨2, 0, 2⟩ ⟨2, 0, 2⟩ ⟨1, 0, 2⟩ ⟨1, 0, 2⟩)
      (dist5D ⟨1, 0, 1⟩ ⟨2, 0, 6⟩ ⟨1, 0, 1⟩ ⟨2, 0, 2⟩ ⟨2, 0, 2⟩ ⟨1, 0, 2⟩ ⟨1, 0, 2⟩) .d5 ∧
    (∀ a ∈ (dist5D (⟨1, 0, 1⟩ : Axis ℝ) ⟨2, 0, 6⟩ ⟨1, 0, 1⟩ ⟨2, 0, 2⟩ ⟨2, 0, 2⟩ ⟨1, 0, 2⟩ ⟨1, 0, 2⟩).axes,
      a.Valid) ∧
    Dist.Inside (dist5D (⟨1, 0, 1⟩ : Axis ℝ) ⟨2, 0, 6⟩ ⟨1, 0, 1⟩ ⟨2, 0, 2⟩ ⟨2, 0, 2⟩ ⟨1, 0, 2⟩ ⟨1, 0, 2⟩).axes
      [0, 4, 0, 1, 0, 1, 1] := by
  refine ⟨.d5 .., ?_, ?_⟩
  · intro a ha
    simp only [dist5D, List.mem_cons, List.not_mem_nil, or_false] at ha
    rcases ha with rfl | rfl | rfl | rfl | rfl | rfl | rfl <;> norm_num [Axis.Valid]
  · simp only [dist5D, Dist.Inside, List.forall₂_cons]
    norm_num

end Ascot.C125
