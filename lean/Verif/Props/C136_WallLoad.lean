import Verif.Lemmas.WallLoad
import Mathlib.Algebra.BigOperators.Ring.Finset
set_option linter.unusedSectionVars false
set_option linter.unusedSimpArgs false

/-!
# C136: wall loads

The markers are those that ended at the wall; `cells` are the elements of the wall, the one with identifier `w` has index
`w - 1`.
-/
namespace Ascot.C136
open Ascot.WallLoad

/-- What is known of `np.argsort`: the indices in an order in which the elements do not decrease.  (The order of equal elements is
not specified.) -/
structure IsArgsort (xs idx : List ℕ) : Prop where
  perm : idx.Perm (List.range xs.length)
  le : (idx.map fun i => xs.getD i 0).Pairwise (· ≤ ·)

/-- The markers that hit an element. -/
def onTile (hs : List Hit) (w : ℕ) : List Hit := hs.filter fun h => h.tile = w

/-- The identifiers of the markers are those of elements. -/
def Valid (cells : List Cell) (hs : List Hit) : Prop := ∀ h ∈ hs, 1 ≤ h.tile ∧ h.tile ≤ cells.length

/-! ## Lemmas -/

theorem sorted_map {β : Type} (f : Rec → β) (f' : Hit → β)
    (hf : ∀ (h : Hit) (x y z : ℝ), f ⟨h.tile, h.energy, h.weight, x, y, z⟩ = f' h) {hs : List Hit} {idx : List ℕ}
    (h : idx.Perm (List.range hs.length)) : (sorted hs idx).map f = (gather hs idx).map f' := by
  unfold sorted
  have hl : (gather hs idx).length = (hs.map Hit.phi).length := by rw [(gather_perm h).length_eq]; simp
  generalize gather hs idx = a at hl
  generalize hs.map Hit.phi = b at hl
  induction a generalizing b with
  | nil => simp
  | cons x t ih =>
    cases b with
    | nil => simp at hl
    | cons y u =>
      simp only [List.zipWith_cons_cons, List.map_cons]
      rw [ih u (by simpa using hl)]
      exact congrArg (· :: _) (hf ..)

theorem filter_map_sum {hs : List Hit} {idx : List ℕ} (h : idx.Perm (List.range hs.length)) (w : ℕ) (f : Rec → ℝ) (f' : Hit → ℝ)
    (hf : ∀ (h : Hit) (x y z : ℝ), f ⟨h.tile, h.energy, h.weight, x, y, z⟩ = f' h) :
    (((sorted hs idx).filter fun r => r.tile = w).map f).sum = ((onTile hs w).map f').sum := by
  have e1 : ((sorted hs idx).filter fun r => r.tile = w).map f =
      ((gather hs idx).filter fun r => r.tile = w).map f' := by
    have e := sorted_map (β := ℕ × ℝ) (fun r => (r.tile, f r)) (fun r => (r.tile, f' r)) (by intro h x y z; simp [hf]) h
    have e2 : ∀ l : List Rec, (l.filter fun r => r.tile = w).map f = ((l.map fun r => (r.tile, f r)).filter fun q => q.1 = w).map Prod.snd := by
      intro l; rw [List.filter_map, List.map_map]; rfl
    have e3 : ∀ l : List Hit, (l.filter fun r => r.tile = w).map f' = ((l.map fun r => (r.tile, f' r)).filter fun q => q.1 = w).map Prod.snd := by
      intro l; rw [List.filter_map, List.map_map]; rfl
    rw [e2, e3, e]
  rw [e1]
  exact (((gather_perm h).filter _).map f').sum_eq

theorem filter_length {hs : List Hit} {idx : List ℕ} (h : idx.Perm (List.range hs.length)) (w : ℕ) :
    ((sorted hs idx).filter fun r => r.tile = w).length = (onTile hs w).length := by
  have e := filter_map_sum h w (fun _ => 1) (fun _ => 1) (fun _ _ _ _ => rfl)
  simp at e
  exact_mod_cast e

/-- The rows that are returned. -/
theorem loads_eq (weights : Bool) {cells : List Cell} {hs : List Hit} {idx : List ℕ} (hv : Valid cells hs)
    (hi : IsArgsort (hs.map Hit.tile) idx) (c : ℕ → Cell) (hc : ∀ h ∈ hs, cells[h.tile - 1]? = some (c h.tile)) :
    loads weights cells hs idx = some ((unique (hs.map Hit.tile)).map fun w =>
      row weights w (c w) ((sorted hs idx).filter fun r => r.tile = w)) := by
  have hp : idx.Perm (List.range hs.length) := by simpa using hi.perm
  have et : (sorted hs idx).map Rec.tile = (gather hs idx).map Hit.tile := sorted_map _ _ (fun _ _ _ _ => rfl) hp
  have eg : (gather hs idx).map Hit.tile = idx.map fun i => (hs.map Hit.tile).getD i 0 := by
    rw [gather_map, gather_getD]
    intro i hi
    have := hp.mem_iff.mp hi
    simpa using this
  have hs' : (sorted hs idx).Pairwise fun a b => a.tile ≤ b.tile := by
    rw [← List.pairwise_map (f := Rec.tile) (R := (· ≤ ·)), et, eg]
    exact hi.le
  have hu : unique ((sorted hs idx).map Rec.tile) = unique (hs.map Hit.tile) := by
    unfold unique
    congr 1
    ext x
    rw [et]
    simp [(gather_perm hp).mem_iff]
  have hcell : ∀ r ∈ sorted hs idx, cells[r.tile - 1]? = some (c r.tile) := by
    intro r hr
    have : r.tile ∈ (sorted hs idx).map Rec.tile := List.mem_map.mpr ⟨r, hr, rfl⟩
    rw [et] at this
    obtain ⟨h, hh, e⟩ := List.mem_map.mp this
    rw [← e]
    exact hc h ((gather_perm hp).mem_iff.mp hh)
  have := loop_groups weights cells c _ (sorted hs idx) rfl hs' hcell []
  simp only [List.nil_append, List.length_nil, add_zero, List.map_id'] at this
  rw [hu] at this
  exact this

theorem cells_exist {cells : List Cell} {hs : List Hit} (hv : Valid cells hs) :
    ∃ c : ℕ → Cell, ∀ h ∈ hs, cells[h.tile - 1]? = some (c h.tile) := by
  refine ⟨fun w => cells.getD (w - 1) ⟨0, 0, 0, 0⟩, fun h hh => ?_⟩
  obtain ⟨a, b⟩ := hv h hh
  dsimp only
  rw [List.getD_eq_getElem?_getD, List.getElem?_eq_getElem (by omega)]
  rfl

theorem map_tile (weights : Bool) (c : ℕ → Cell) (f : ℕ → List Rec) (l : List ℕ) :
    (l.map fun w => row weights w (c w) (f w)).map Row.tile = l := by
  rw [List.map_map]
  have : (Row.tile ∘ fun w => row weights w (c w) (f w)) = id := by
    funext w
    unfold row
    cases weights <;> rfl
  rw [this, List.map_id]

/-! ## Deposition -/

/-- For all markers: there is one row for each element that was hit, in increasing order, with the area of the element; the
particle deposition is the sum of the weights of the markers that hit the element, and the energy deposition that of their energies
times weights. -/
theorem deposition {cells : List Cell} {hs : List Hit} {idx : List ℕ} (hv : Valid cells hs) (hi : IsArgsort (hs.map Hit.tile) idx) :
    ∃ rows, loads true cells hs idx = some rows ∧ (rows.map Row.tile).Pairwise (· < ·) ∧
      (∀ w, w ∈ rows.map Row.tile ↔ ∃ h ∈ hs, h.tile = w) ∧
      ∀ r ∈ rows, (cells[r.tile - 1]?).map Cell.area = some r.area ∧
        r.pdepo = ((onTile hs r.tile).map Hit.weight).sum ∧
        r.edepo = ((onTile hs r.tile).map fun h => h.energy * h.weight).sum := by
  obtain ⟨c, hc⟩ := cells_exist hv
  have hp : idx.Perm (List.range hs.length) := by simpa using hi.perm
  have e1 : ∀ w, (row true w (c w) ((sorted hs idx).filter fun r => r.tile = w)).tile = w := fun w => rfl
  refine ⟨_, loads_eq true hv hi c hc, ?_, ?_, ?_⟩
  · rw [map_tile]
    exact unique_pairwise _
  · intro w
    rw [map_tile, mem_unique, List.mem_map]
  · intro r hr
    obtain ⟨w, hw, rfl⟩ := List.mem_map.mp hr
    obtain ⟨h, hh, rfl⟩ := List.mem_map.mp (mem_unique.mp hw)
    refine ⟨?_, ?_, ?_⟩
    · rw [e1, hc h hh]; rfl
    · exact filter_map_sum hp _ Rec.weight Hit.weight fun _ _ _ _ => rfl
    · exact filter_map_sum hp _ (fun r => r.energy * r.weight) (fun h => h.energy * h.weight) fun _ _ _ _ => rfl

/-- Without weights the particle deposition is the number of markers, and the energy deposition the sum of their energies. -/
theorem counts {cells : List Cell} {hs : List Hit} {idx : List ℕ} (hv : Valid cells hs) (hi : IsArgsort (hs.map Hit.tile) idx) :
    ∃ rows, loads false cells hs idx = some rows ∧ (rows.map Row.tile).Pairwise (· < ·) ∧
      (∀ w, w ∈ rows.map Row.tile ↔ ∃ h ∈ hs, h.tile = w) ∧
      ∀ r ∈ rows, (cells[r.tile - 1]?).map Cell.area = some r.area ∧ r.pdepo = (onTile hs r.tile).length ∧
        r.edepo = ((onTile hs r.tile).map Hit.energy).sum := by
  obtain ⟨c, hc⟩ := cells_exist hv
  have hp : idx.Perm (List.range hs.length) := by simpa using hi.perm
  have e1 : ∀ w, (row false w (c w) ((sorted hs idx).filter fun r => r.tile = w)).tile = w := fun w => rfl
  refine ⟨_, loads_eq false hv hi c hc, ?_, ?_, ?_⟩
  · rw [map_tile]
    exact unique_pairwise _
  · intro w
    rw [map_tile, mem_unique, List.mem_map]
  · intro r hr
    obtain ⟨w, hw, rfl⟩ := List.mem_map.mp hr
    obtain ⟨h, hh, rfl⟩ := List.mem_map.mp (mem_unique.mp hw)
    refine ⟨?_, ?_, ?_⟩
    · rw [e1, hc h hh]; rfl
    · rw [e1, ← filter_length hp]; rfl
    · exact filter_map_sum hp _ Rec.energy Hit.energy fun _ _ _ _ => rfl

/-- Sums over the elements that were hit of sums over the markers on them. -/
theorem sum_tiles (f : Hit → ℝ) (hs : List Hit) (s : Finset ℕ) (h : ∀ x ∈ hs, x.tile ∈ s) :
    ∑ w ∈ s, ((onTile hs w).map f).sum = (hs.map f).sum := by
  induction hs with
  | nil => simp [onTile]
  | cons x t ih =>
    have e : ∀ w, ((onTile (x :: t) w).map f).sum = (if x.tile = w then f x else 0) + ((onTile t w).map f).sum := by
      intro w
      unfold onTile
      rw [List.filter_cons]
      by_cases hx : x.tile = w <;> simp [hx]
    rw [Finset.sum_congr rfl fun w _ => e w, Finset.sum_add_distrib, ih fun y hy => h y (by simp [hy])]
    rw [Finset.sum_ite_eq, if_pos (h x (by simp))]
    simp

/-- Nothing is lost: the loads of all elements add up to the energies times weights of all markers that ended at the wall. -/
theorem total {cells : List Cell} {hs : List Hit} {idx : List ℕ} (hv : Valid cells hs) (hi : IsArgsort (hs.map Hit.tile) idx) :
    ∃ rows, loads true cells hs idx = some rows ∧ (rows.map Row.edepo).sum = (hs.map fun h => h.energy * h.weight).sum ∧
      (rows.map Row.pdepo).sum = (hs.map Hit.weight).sum := by
  obtain ⟨c, hc⟩ := cells_exist hv
  have hp : idx.Perm (List.range hs.length) := by simpa using hi.perm
  have key : ∀ (f : Hit → ℝ) (g : Row → ℝ), (∀ w, g (row true w (c w) ((sorted hs idx).filter fun r => r.tile = w)) = ((onTile hs w).map f).sum) →
      (((unique (hs.map Hit.tile)).map fun w => row true w (c w) ((sorted hs idx).filter fun r => r.tile = w)).map g).sum = (hs.map f).sum := by
    intro f g h
    rw [List.map_map, ← sum_tiles f hs (hs.map Hit.tile).toFinset fun x hx => by simpa using ⟨x, hx, rfl⟩]
    unfold unique
    rw [← List.sum_toFinset _ (Finset.sort_nodup _ _), Finset.sort_toFinset]
    exact Finset.sum_congr rfl fun w _ => h w
  refine ⟨_, loads_eq true hv hi c hc, key _ _ fun w => ?_, key _ _ fun w => ?_⟩
  · exact filter_map_sum hp _ (fun r => r.energy * r.weight) (fun h => h.energy * h.weight) fun _ _ _ _ => rfl
  · exact filter_map_sum hp _ Rec.weight Hit.weight fun _ _ _ _ => rfl

/-! ## Flags -/

/-- With the argument `flags` the markers on the elements with these flags are kept. -/
theorem kept {flag mask : List ℤ} {hs : List Hit} (hv : ∀ h ∈ hs, 1 ≤ h.tile ∧ h.tile ≤ flag.length) :
    keep flag mask hs = some (hs.filter fun h => flag.getD (h.tile - 1) 0 ∈ mask) := by
  have e : hs.mapM (fun h => flag[h.tile - 1]?) = some (hs.map fun h => flag.getD (h.tile - 1) 0) := by
    induction hs with
    | nil => rfl
    | cons x t ih =>
      obtain ⟨a, b⟩ := hv x (by simp)
      have hx : flag[x.tile - 1]? = some (flag.getD (x.tile - 1) 0) := by
        rw [List.getD_eq_getElem?_getD, List.getElem?_eq_getElem (by omega)]; rfl
      rw [List.mapM_cons, hx, ih fun h hh => hv h (by simp [hh])]
      rfl
  unfold keep
  rw [e]
  simp only [Option.bind_eq_bind, Option.bind_some, Option.pure_def, Option.some.injEq]
  clear e hv
  induction hs with
  | nil => rfl
  | cons x t ih =>
    simp only [List.map_cons, List.zip_cons_cons, List.filter_cons]
    by_cases h : flag.getD (x.tile - 1) 0 ∈ mask
    · simp only [h, decide_true, if_true, List.map_cons, ih]
    · simp only [h, decide_false, Bool.false_eq_true, if_false, ih]

/-- With the argument `flags` there is one row for each element hit that has one of the flags, and its loads are those of all markers on
it. -/
theorem flagged {cells : List Cell} {flag mask : List ℤ} {hs : List Hit} (hv : Valid cells hs) (hl : flag.length = cells.length) :
    ∃ ks, keep flag mask hs = some ks ∧ ∀ idx, IsArgsort (ks.map Hit.tile) idx →
      ∃ rows, loads true cells ks idx = some rows ∧
        (∀ w, w ∈ rows.map Row.tile ↔ (∃ h ∈ hs, h.tile = w) ∧ flag.getD (w - 1) 0 ∈ mask) ∧
        ∀ r ∈ rows, r.pdepo = ((onTile hs r.tile).map Hit.weight).sum ∧
          r.edepo = ((onTile hs r.tile).map fun h => h.energy * h.weight).sum := by
  refine ⟨_, kept fun h hh => by rw [hl]; exact hv h hh, fun idx hi => ?_⟩
  obtain ⟨rows, h1, -, h3, h4⟩ := deposition (cells := cells) (fun h hh => hv h (List.mem_of_mem_filter hh)) hi
  refine ⟨rows, h1, fun w => ?_, fun r hr => ?_⟩
  · rw [h3]
    constructor
    · rintro ⟨h, hh, rfl⟩
      rw [List.mem_filter] at hh
      exact ⟨⟨h, hh.1, rfl⟩, by simpa using hh.2⟩
    · rintro ⟨⟨h, hh, rfl⟩, hf⟩
      exact ⟨h, List.mem_filter.mpr ⟨hh, by simpa using hf⟩, rfl⟩
  · obtain ⟨-, a, b⟩ := h4 r hr
    have e : onTile (hs.filter fun h => flag.getD (h.tile - 1) 0 ∈ mask) r.tile = onTile hs r.tile := by
      unfold onTile
      rw [List.filter_filter]
      obtain ⟨h, hh, ht⟩ := (h3 r.tile).mp (List.mem_map.mpr ⟨r, hr, rfl⟩)
      have hm : flag.getD (r.tile - 1) 0 ∈ mask := by rw [← ht]; simpa using (List.mem_filter.mp hh).2
      apply List.filter_congr
      intro x _
      by_cases hx : x.tile = r.tile
      · rw [hx]; simpa using hm
      · simp [hx]
    rw [e] at a b
    exact ⟨a, b⟩

/-! ## The mesh and the figures of merit -/

theorem scatter_spec (x : Row → ℝ) (k : ℕ) (rows : List Row) (old : Option ℝ) :
    (∃ r ∈ rows, r.tile - 1 = k ∧ rows.foldl (fun old r => if r.tile - 1 = k then some (x r) else old) old = some (x r)) ∨
      ((∀ r ∈ rows, r.tile - 1 ≠ k) ∧ rows.foldl (fun old r => if r.tile - 1 = k then some (x r) else old) old = old) := by
  induction rows generalizing old with
  | nil => right; simp
  | cons a t ih =>
    rw [List.foldl_cons]
    rcases ih (if a.tile - 1 = k then some (x a) else old) with ⟨r, hr, e, h⟩ | ⟨h1, h2⟩
    · exact .inl ⟨r, by simp [hr], e, h⟩
    · by_cases ha : a.tile - 1 = k
      · left
        rw [if_pos ha] at h2 ⊢
        exact ⟨a, by simp, ha, h2⟩
      · right
        rw [if_neg ha] at h2 ⊢
        exact ⟨by simpa [ha] using h1, h2⟩

/-- The mesh for plotting: the load of a triangle is the energy of the markers that hit it divided by its area, and not a number if
there are none. -/
theorem mesh {cells : List Cell} {hs : List Hit} {idx : List ℕ} (hv : Valid cells hs) (hi : IsArgsort (hs.map Hit.tile) idx) :
    ∃ rows, loads true cells hs idx = some rows ∧ ∀ k (hk : k < cells.length),
      ((∀ h ∈ hs, h.tile ≠ k + 1) → eload rows k = none) ∧
      ((∃ h ∈ hs, h.tile = k + 1) →
        eload rows k = some (((onTile hs (k + 1)).map fun h => h.energy * h.weight).sum / cells[k].area)) := by
  obtain ⟨rows, h1, -, h3, h4⟩ := deposition hv hi
  refine ⟨rows, h1, fun k hk => ?_⟩
  have hge : ∀ r ∈ rows, 1 ≤ r.tile := by
    intro r hr
    obtain ⟨h, hh, e⟩ := (h3 r.tile).mp (List.mem_map.mpr ⟨r, hr, rfl⟩)
    rw [← e]
    exact (hv h hh).1
  unfold eload scatter
  rcases scatter_spec (fun r => r.edepo / r.area) k rows none with ⟨r, hr, e, h⟩ | ⟨a, b⟩
  · have ht : r.tile = k + 1 := by have := hge r hr; omega
    obtain ⟨q1, -, q3⟩ := h4 r hr
    constructor
    · intro hno
      obtain ⟨h', hh, e'⟩ := (h3 r.tile).mp (List.mem_map.mpr ⟨r, hr, rfl⟩)
      exact absurd (e'.trans ht) (hno h' hh)
    · intro _
      rw [h, q3, ht]
      rw [ht, Nat.add_sub_cancel, List.getElem?_eq_getElem hk] at q1
      have : cells[k].area = r.area := by simpa using q1
      rw [this]
  · constructor
    · intro _; exact b
    · rintro ⟨h, hh, e⟩
      obtain ⟨r, hr, e2⟩ := List.mem_map.mp ((h3 (k + 1)).mpr ⟨h, hh, e⟩)
      exact absurd (by omega) (a r hr)

/-- The figures of merit: the wetted area is the sum of the areas, and the peak load the largest of the loads. -/
theorem figures {rows : List Row} (h : rows ≠ []) :
    ∃ p, figuresOfMerit rows = some ((rows.map Row.area).sum, p) ∧ (∃ r ∈ rows, p = r.edepo / r.area) ∧
      ∀ r ∈ rows, r.edepo / r.area ≤ p := by
  rcases rows with _ | ⟨a, as⟩
  · exact absurd rfl h
  refine ⟨_, rfl, ?_⟩
  obtain ⟨f, hf⟩ : ∃ f : Row → ℝ, f = fun r => r.edepo / r.area := ⟨_, rfl⟩
  have hf' : ∀ r : Row, r.edepo / r.area = f r := fun r => by rw [hf]
  rw [← hf]
  simp only [hf']
  have key : ∀ (l : List Row) (m : ℝ), (∃ r ∈ l, (l.map f).foldl max m = f r) ∨ (l.map f).foldl max m = m := by
    intro l
    induction l with
    | nil => intro m; right; rfl
    | cons x t ih =>
      intro m
      rw [List.map_cons, List.foldl_cons]
      rcases ih (max m (f x)) with ⟨r, hr, e⟩ | e
      · exact .inl ⟨r, by simp [hr], e⟩
      · rw [e]
        rcases max_choice m (f x) with h | h
        · right; exact h
        · left; exact ⟨x, by simp, h⟩
  have key2 : ∀ (l : List Row) (m : ℝ), m ≤ (l.map f).foldl max m ∧ ∀ r ∈ l, f r ≤ (l.map f).foldl max m := by
    intro l
    induction l with
    | nil => intro m; simp
    | cons x t ih =>
      intro m
      rw [List.map_cons, List.foldl_cons]
      obtain ⟨p, q⟩ := ih (max m (f x))
      refine ⟨le_trans (le_max_left _ _) p, fun r hr => ?_⟩
      rcases List.mem_cons.mp hr with rfl | hr
      · exact le_trans (le_max_right _ _) p
      · exact q r hr
  constructor
  · rcases key as (f a) with ⟨r, hr, e⟩ | e
    · exact ⟨r, by simp [hr], e⟩
    · exact ⟨a, by simp, e⟩
  · intro r hr
    obtain ⟨p, q⟩ := key2 as (f a)
    rcases List.mem_cons.mp hr with rfl | hr
    · exact p
    · exact q r hr

/-! ## The angle of incidence -/

/-- The angle in degrees between the line along the momentum of a marker and the normal of the element, from the Cartesian components
of the momentum. -/
noncomputable def incidence (c : Cell) (h : Hit) : ℝ :=
  Real.arccos |(h.pr * Real.cos h.phi - h.pphi * Real.sin h.phi) / h.pnorm * c.nx +
    (h.pr * Real.sin h.phi + h.pphi * Real.cos h.phi) / h.pnorm * c.ny + h.pz / h.pnorm * c.nz| * (180 / Real.pi)

theorem angle_eq (c : Cell) (r : Rec) : angle c r = Real.arccos |r.ux * c.nx + r.uy * c.ny + r.uz * c.nz| * (180 / Real.pi) := by
  unfold angle
  obtain ⟨x, hx⟩ : ∃ x, x = r.ux * c.nx + r.uy * c.ny + r.uz * c.nz := ⟨_, rfl⟩
  rw [← hx]
  have hpi := Real.pi_pos
  have e90 : (90 : ℝ) = Real.pi / 2 * (180 / Real.pi) := by field_simp; norm_num
  have e180 : (180 : ℝ) = Real.pi * (180 / Real.pi) := by field_simp
  have hk : 0 < 180 / Real.pi := by positivity
  dsimp only
  by_cases h : 0 ≤ x
  · rw [abs_of_nonneg h, if_neg]
    have := Real.arccos_le_pi_div_two.mpr h
    intro h2
    have := mul_le_mul_of_nonneg_right this hk.le
    linarith
  · have hlt : x < 0 := not_le.mp h
    rw [abs_of_neg hlt, Real.arccos_neg, if_pos]
    · linarith
    · have h1 : Real.pi / 2 < Real.arccos x := by
        by_contra hc
        exact h (Real.arccos_le_pi_div_two.mp (not_lt.mp hc))
      have := mul_lt_mul_of_pos_right h1 hk
      linarith

/-- The angle is the average over the markers on the element, weighted with energy times weight.  `partial`: for markers at the same
toroidal angle. -/
theorem incidence_partial {cells : List Cell} {hs : List Hit} {idx : List ℕ} (hv : Valid cells hs)
    (hi : IsArgsort (hs.map Hit.tile) idx) (phi : ℝ) (hphi : ∀ h ∈ hs, h.phi = phi) :
    ∃ rows, loads true cells hs idx = some rows ∧ ∀ r ∈ rows, ∀ c, cells[r.tile - 1]? = some c →
      r.iangle = ((onTile hs r.tile).map fun h => incidence c h * h.energy * h.weight).sum /
        ((onTile hs r.tile).map fun h => h.energy * h.weight).sum := by
  obtain ⟨c, hc⟩ := cells_exist hv
  have hp : idx.Perm (List.range hs.length) := by simpa using hi.perm
  refine ⟨_, loads_eq true hv hi c hc, fun r hr c' hc' => ?_⟩
  obtain ⟨w, hw, rfl⟩ := List.mem_map.mp hr
  obtain ⟨h, hh, rfl⟩ := List.mem_map.mp (mem_unique.mp hw)
  have e1 : ∀ w, (row true w (c w) ((sorted hs idx).filter fun r => r.tile = w)).tile = w := fun w => rfl
  rw [e1] at hc' ⊢
  obtain rfl : c h.tile = c' := by rw [hc h hh] at hc'; exact Option.some.inj hc'
  have es : sorted hs idx = (gather hs idx).map fun h => ⟨h.tile, h.energy, h.weight,
      (h.pr * Real.cos h.phi - h.pphi * Real.sin h.phi) / h.pnorm, (h.pr * Real.sin h.phi + h.pphi * Real.cos h.phi) / h.pnorm, h.pz / h.pnorm⟩ := by
    unfold sorted
    have hl : (gather hs idx).length = (hs.map Hit.phi).length := by rw [(gather_perm hp).length_eq]; simp
    have hm : ∀ h ∈ gather hs idx, h.phi = phi := fun h hh => hphi h ((gather_perm hp).mem_iff.mp hh)
    have hm2 : ∀ x ∈ hs.map Hit.phi, x = phi := by
      intro x hx; obtain ⟨h, hh, rfl⟩ := List.mem_map.mp hx; exact hphi h hh
    generalize gather hs idx = a at hl hm
    generalize hs.map Hit.phi = b at hl hm2
    induction a generalizing b with
    | nil => simp
    | cons x t ih =>
      cases b with
      | nil => simp at hl
      | cons y u =>
        simp only [List.zipWith_cons_cons, List.map_cons]
        rw [ih (fun h hh => hm h (by simp [hh])) u (by simpa using hl) fun x hx => hm2 x (by simp [hx]), hm x (by simp), hm2 y (by simp)]
        congr 2 <;> ring
  have key : ∀ (f : Rec → ℝ) (f' : Hit → ℝ), (∀ h : Hit, f ⟨h.tile, h.energy, h.weight,
      (h.pr * Real.cos h.phi - h.pphi * Real.sin h.phi) / h.pnorm, (h.pr * Real.sin h.phi + h.pphi * Real.cos h.phi) / h.pnorm, h.pz / h.pnorm⟩ = f' h) →
      (((sorted hs idx).filter fun r => r.tile = h.tile).map f).sum = ((onTile hs h.tile).map f').sum := by
    intro f f' hf
    rw [es, List.filter_map, List.map_map]
    have ef : (f ∘ fun h : Hit => (⟨h.tile, h.energy, h.weight, (h.pr * Real.cos h.phi - h.pphi * Real.sin h.phi) / h.pnorm,
        (h.pr * Real.sin h.phi + h.pphi * Real.cos h.phi) / h.pnorm, h.pz / h.pnorm⟩ : Rec)) = f' := funext hf
    rw [ef]
    exact (((gather_perm hp).filter _).map f').sum_eq
  show _ / _ = _
  rw [key (fun r => angle (c h.tile) r * r.energy * r.weight) (fun x => incidence (c h.tile) x * x.energy * x.weight),
    key (fun r => r.energy * r.weight) (fun x => x.energy * x.weight)]
  · intro _; rfl
  · intro x
    dsimp only
    rw [angle_eq]
    rfl

/-- **Violation.** Two markers hit two different elements with the same normal, one along the normal and one along the surface, so that
the angles are 0 and 90 degrees.  They are reported the other way round, since the toroidal angles are not sorted along with the
momenta. -/
theorem incidence_violation :
    ∃ (c : Cell) (a b : Hit) (idx : List ℕ), a.tile = 2 ∧ b.tile = 1 ∧ incidence c a = 0 ∧ incidence c b = 90 ∧
      IsArgsort ([a, b].map Hit.tile) idx ∧
      ∃ r1 r2, loads true [c, c] [a, b] idx = some [r1, r2] ∧ r1.tile = 1 ∧ r2.tile = 2 ∧ r1.iangle = 0 ∧ r2.iangle = 90 := by
  have hd : Real.arccos 0 * (180 / Real.pi) = 90 := by
    have := Real.pi_pos
    rw [Real.arccos_zero]; field_simp; norm_num
  refine ⟨⟨1, 1, 0, 0⟩, ⟨2, 1, 1, 1, 0, 0, 1, 0⟩, ⟨1, 1, 1, 1, 0, 0, 1, Real.pi / 2⟩, [1, 0], rfl, rfl, ?_, ?_, ⟨?_, ?_⟩, ?_⟩
  · simp [incidence]
  · simp [incidence]; simpa using hd
  · decide
  · simp
  · have hu : unique [2, 1] = [1, 2] := by
      rw [unique_cons (w := 1) (ys := [2]) (by simp; tauto) (by simp), unique_cons (w := 2) (ys := []) (by simp) (by simp)]
      simp [unique]
    refine ⟨⟨1, 1, 1, 1, 0⟩, ⟨2, 1, 1, 1, 90⟩, ?_, rfl, rfl, rfl, rfl⟩
    have e : sorted [⟨2, 1, 1, 1, 0, 0, 1, 0⟩, ⟨1, 1, 1, 1, 0, 0, 1, Real.pi / 2⟩] [1, 0] = [⟨1, 1, 1, 1, 0, 0⟩, ⟨2, 1, 1, 0, 1, 0⟩] := by
      simp [sorted, gather]
    have eb : bounds [⟨1, 1, 1, 1, 0, 0⟩, ⟨2, 1, 1, 0, 1, 0⟩] = [0, 1] := by simp [bounds]
    simp only [loads, List.map_cons, List.map_nil, hu, e, eb]
    simp [loop, row, angle_eq]
    simpa using hd

/-! ### The hypotheses can be met -/

example : Valid [⟨1, 1, 0, 0⟩, ⟨1, 1, 0, 0⟩] [⟨2, 1, 1, 1, 0, 0, 1, 0⟩, ⟨1, 1, 1, 1, 0, 0, 1, 0⟩] := by
  intro h hh
  simp at hh
  rcases hh with rfl | rfl <;> simp

example : IsArgsort [2, 1, 2] [1, 2, 0] := ⟨by decide, by decide⟩

end Ascot.C136
