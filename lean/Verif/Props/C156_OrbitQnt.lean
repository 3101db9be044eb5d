import Verif.Lemmas.OrbitQnt
import Mathlib.Tactic.NormNum
import Mathlib.Tactic.Linarith

set_option linter.unusedSectionVars false
set_option linter.unusedSimpArgs false

/-!
# C156: quantities along orbits belong to the points in the order of markers and mileage

Quantities along orbits are returned for all recorded points (of the markers and planes that are asked for), ordered by
the marker and then by the mileage, so that entries at the same place in two quantities are of the same point, and the
mass and initial time that enter are those of the point's marker.

Proved for data of one mode (gyro-orbits, guiding centres or field lines) in which every marker has a recorded point.
Not so otherwise, see below.
-/
namespace Ascot.C156

open OrbitQnt OrbitPoints

variable {D : Type} {ini : List Ini} {pts : List (Point D)}

theorem mem_modes {k : ℕ} : k ∈ pts.map (·.mode) ↔ ∃ p ∈ pts, p.mode = k := by
  rw [List.mem_map]

theorem not_mode {k m : ℕ} (h : ∀ p ∈ pts, p.mode = m) (hk : k ≠ m) : k ∉ pts.map (·.mode) := by
  rw [mem_modes]
  rintro ⟨p, hp, e⟩
  exact hk (e ▸ h p hp)

theorem mask_uniform {m : ℕ} (hm : m = 1 ∨ m = 2 ∨ m = 3) (h : ∀ p ∈ pts, p.mode = m) :
    ∀ p ∈ pts, mask pts p = true := by
  intro p hp
  unfold mask
  rcases hm with rfl | rfl | rfl
  · rw [if_neg (not_mode h (by decide)), if_pos (mem_modes.2 ⟨p, hp, h p hp⟩)]
    simpa using h p hp
  · rw [if_pos (mem_modes.2 ⟨p, hp, h p hp⟩)]
    simpa using h p hp
  · rw [if_neg (not_mode h (by decide)), if_neg (not_mode h (by decide))]
    simp [h p hp]

theorem rows_modes (g : Point D → Row D) (hg : ∀ p, (g p).point = p) :
    (pts.map g).map (·.point.mode) = pts.map (·.mode) := by
  rw [List.map_map]
  exact List.map_congr_left fun p _ => by show (g p).point.mode = _; rw [hg]

theorem rows_filter {m : ℕ} (h : ∀ p ∈ pts, p.mode = m) (g : Point D → Row D) (hg : ∀ p, (g p).point = p) :
    (pts.map g).filter (·.point.mode = m) = pts.map g := by
  rw [List.filter_eq_self]
  intro r hr
  obtain ⟨p, hp, rfl⟩ := List.mem_map.1 hr
  simpa [hg] using h p hp

theorem get_common (hd : Distinct ini) (hr : Recorded ini pts) {m : ℕ} (hm : m = 1 ∨ m = 2 ∨ m = 3)
    (h : ∀ p ∈ pts, p.mode = m) (f : ℝ → ℝ → Point D → ℝ) :
    get ini pts (.common f) = some ((ordered ini pts).map fun x =>
      f x.1.mass (if 3 ∈ pts.map (·.mode) then x.1.time else x.1.time + x.2.mileage) x.2) := by
  rw [get_uniform hd hr (mask_uniform hm h) (v := fun p => f (own ini pts p).mass
    (if 3 ∈ pts.map (·.mode) then (own ini pts p).time else (own ini pts p).time + p.mileage) p)]
  · unfold ordered
    rw [List.map_map]
    rfl
  · unfold items
    dsimp only
    rw [List.map_map]
    rfl

theorem get_connlen (hd : Distinct ini) (hr : Recorded ini pts) {m : ℕ} (hm : m = 1 ∨ m = 2 ∨ m = 3)
    (h : ∀ p ∈ pts, p.mode = m) :
    get ini pts .connlen = some ((ordered ini pts).map fun x => x.1.mileage - x.2.mileage) := by
  rw [get_uniform hd hr (mask_uniform hm h) (v := fun p => (own ini pts p).mileage - p.mileage)]
  · unfold ordered
    rw [List.map_map]
    rfl
  · unfold items
    dsimp only
    rw [List.map_map]
    rfl

theorem orbit_common (hd : Distinct ini) (hr : Recorded ini pts) {m : ℕ} (hm : m = 1 ∨ m = 2 ∨ m = 3)
    (h : ∀ p ∈ pts, p.mode = m) {q : Quantity D} {v : Ini × Point D → ℝ}
    (hq : get ini pts q = some ((ordered ini pts).map v)) (idsE pncr idsW : Option (List ℝ)) :
    getorbit ini pts idsE pncr idsW q = some (values idsE pncr idsW v (ordered ini pts)) :=
  getorbit_eq hq (get_common hd hr hm h _) (get_common hd hr hm h _) idsE pncr idsW

/-- Gyro-orbits: every quantity is given at the wanted points in the order of markers and mileage, with the mass of the
point's marker and the time at that point. -/
theorem gyro_orbits (hd : Distinct ini) (hr : Recorded ini pts) (h : ∀ p ∈ pts, p.mode = 1) (hne : pts ≠ []) :
    ∃ l, Listed ini pts l ∧ ∀ idsE pncr idsW,
      (∀ f, getorbit ini pts idsE pncr idsW (.common f) =
        some (values idsE pncr idsW (fun x => f x.1.mass (x.1.time + x.2.mileage) x.2) l)) ∧
      (∀ go gc, getorbit ini pts idsE pncr idsW (.masked go gc) =
        some (values idsE pncr idsW (fun x => go x.1.mass (x.1.time + x.2.mileage) x.2) l)) ∧
      ∀ go pnorm ppar f, getorbit ini pts idsE pncr idsW (.pperp go pnorm ppar f) =
        some (values idsE pncr idsW (fun x => go x.1.mass (x.1.time + x.2.mileage) x.2) l) := by
  have hm : (1 : ℕ) = 1 ∨ (1 : ℕ) = 2 ∨ (1 : ℕ) = 3 := Or.inl rfl
  have h3 := not_mode h (k := 3) (by decide)
  have h2 := not_mode h (k := 2) (by decide)
  have h1 : 1 ∈ pts.map (·.mode) := by
    obtain ⟨p, hp⟩ := List.exists_mem_of_ne_nil _ hne
    exact mem_modes.2 ⟨p, hp, h p hp⟩
  have hg : ∀ go : ℝ → ℝ → Point D → ℝ,
      ((ordered ini pts).map fun x => go x.1.mass (x.1.time + x.2.mileage) x.2) =
        (pts.insertionSort lex).map fun p => go (own ini pts p).mass ((own ini pts p).time + p.mileage) p := by
    intro go
    unfold ordered
    rw [List.map_map]
    rfl
  refine ⟨ordered ini pts, ordered_listed hd hr, fun idsE pncr idsW => ⟨fun f => ?_, fun go gc => ?_,
    fun go pnorm ppar f => ?_⟩⟩
  · apply orbit_common hd hr hm h
    rw [get_common hd hr hm h]
    simp only [if_neg h3]
  · apply orbit_common hd hr hm h
    rw [hg]
    apply get_uniform hd hr (mask_uniform hm h)
    unfold items
    simp only
    rw [rows_modes _ fun _ => rfl, if_neg h2, if_pos h1, rows_filter h _ fun _ => rfl, List.map_map]
    congr 1
    refine List.map_congr_left fun p _ => ?_
    show go _ (if 3 ∈ pts.map (·.mode) then _ else _) p = _
    rw [if_neg h3]
    rfl
  · apply orbit_common hd hr hm h
    rw [hg]
    apply get_uniform hd hr (mask_uniform hm h)
    unfold items
    simp only
    rw [rows_modes _ fun _ => rfl, if_neg h2, if_pos h1, rows_filter h _ fun _ => rfl, List.map_map]
    congr 1
    refine List.map_congr_left fun p _ => ?_
    show go _ (if 3 ∈ pts.map (·.mode) then _ else _) p = _
    rw [if_neg h3]
    rfl

/-- Guiding centres. -/
theorem guiding_centers (hd : Distinct ini) (hr : Recorded ini pts) (h : ∀ p ∈ pts, p.mode = 2) (hne : pts ≠ []) :
    ∃ l, Listed ini pts l ∧ ∀ idsE pncr idsW,
      (∀ f, getorbit ini pts idsE pncr idsW (.common f) =
        some (values idsE pncr idsW (fun x => f x.1.mass (x.1.time + x.2.mileage) x.2) l)) ∧
      (∀ go gc, getorbit ini pts idsE pncr idsW (.masked go gc) =
        some (values idsE pncr idsW (fun x => gc x.1.mass (x.1.time + x.2.mileage) x.2) l)) ∧
      ∀ go pnorm ppar f, getorbit ini pts idsE pncr idsW (.pperp go pnorm ppar f) =
        some (values idsE pncr idsW (fun x => f (pnorm x.1.mass (x.1.time + x.2.mileage) x.2) (ppar x.2)) l) := by
  have hm : (2 : ℕ) = 1 ∨ (2 : ℕ) = 2 ∨ (2 : ℕ) = 3 := Or.inr (Or.inl rfl)
  have h3 := not_mode h (k := 3) (by decide)
  have h1 := not_mode h (k := 1) (by decide)
  have h2 : 2 ∈ pts.map (·.mode) := by
    obtain ⟨p, hp⟩ := List.exists_mem_of_ne_nil _ hne
    exact mem_modes.2 ⟨p, hp, h p hp⟩
  have hg : ∀ go : ℝ → ℝ → Point D → ℝ,
      ((ordered ini pts).map fun x => go x.1.mass (x.1.time + x.2.mileage) x.2) =
        (pts.insertionSort lex).map fun p => go (own ini pts p).mass ((own ini pts p).time + p.mileage) p := by
    intro go
    unfold ordered
    rw [List.map_map]
    rfl
  refine ⟨ordered ini pts, ordered_listed hd hr, fun idsE pncr idsW => ⟨fun f => ?_, fun go gc => ?_,
    fun go pnorm ppar f => ?_⟩⟩
  · apply orbit_common hd hr hm h
    rw [get_common hd hr hm h]
    simp only [if_neg h3]
  · apply orbit_common hd hr hm h
    rw [hg]
    apply get_uniform hd hr (mask_uniform hm h)
    unfold items
    simp only
    rw [rows_modes _ fun _ => rfl, if_pos h2, if_neg h1, rows_filter h _ fun _ => rfl, List.map_map]
    congr 1
    refine List.map_congr_left fun p _ => ?_
    show gc _ (if 3 ∈ pts.map (·.mode) then _ else _) p = _
    rw [if_neg h3]
    rfl
  · apply orbit_common hd hr hm h
    rw [hg fun m t p => f (pnorm m t p) (ppar p)]
    apply get_uniform hd hr (mask_uniform hm h)
    unfold items
    simp only
    rw [rows_modes _ fun _ => rfl, if_pos h2, if_neg h1, rows_filter h _ fun _ => rfl, List.map_map, List.map_map]
    unfold broadcast
    rw [if_pos (by rw [List.length_map, List.length_map]), List.zipWith_map, List.zipWith_self, Option.map_some]
    show some _ = some _
    congr 1
    refine List.map_congr_left fun p _ => ?_
    show f (pnorm _ (if 3 ∈ pts.map (·.mode) then _ else _) p) _ = _
    rw [if_neg h3]
    rfl

/-- Field lines: time stands still, and quantities of particles are refused. -/
theorem field_lines (hd : Distinct ini) (hr : Recorded ini pts) (h : ∀ p ∈ pts, p.mode = 3) (hne : pts ≠ []) :
    ∃ l, Listed ini pts l ∧ ∀ idsE pncr idsW,
      (∀ f, getorbit ini pts idsE pncr idsW (.common f) =
        some (values idsE pncr idsW (fun x => f x.1.mass x.1.time x.2) l)) ∧
      ∀ go gc, getorbit ini pts idsE pncr idsW (.masked go gc) = none := by
  have hm : (3 : ℕ) = 1 ∨ (3 : ℕ) = 2 ∨ (3 : ℕ) = 3 := Or.inr (Or.inr rfl)
  have h1 := not_mode h (k := 1) (by decide)
  have h2 := not_mode h (k := 2) (by decide)
  have h3 : 3 ∈ pts.map (·.mode) := by
    obtain ⟨p, hp⟩ := List.exists_mem_of_ne_nil _ hne
    exact mem_modes.2 ⟨p, hp, h p hp⟩
  refine ⟨ordered ini pts, ordered_listed hd hr, fun idsE pncr idsW => ⟨fun f => ?_, fun go gc => ?_⟩⟩
  · apply orbit_common hd hr hm h
    rw [get_common hd hr hm h]
    simp only [if_pos h3]
  · have : get ini pts (.masked go gc) = none := by
      unfold OrbitQnt.get
      rw [rows_eq hd hr, Option.bind_some]
      unfold items
      simp only
      rw [rows_modes _ fun _ => rfl, if_neg h2, if_neg h1]
      rfl
    unfold getorbit
    rw [this]
    rfl

/-- Two markers with points in a scrambled order. -/
noncomputable def exIni : List Ini := [⟨7, 2, 0, 0⟩, ⟨3, 4, 1, 0⟩]

noncomputable def exPts : List (Point ℝ) := [⟨7, 1, 5, 0, 1⟩, ⟨3, 1, 2, 0, 2⟩, ⟨7, 1, 1, 0, 3⟩]

example : Distinct exIni ∧ Recorded exIni exPts ∧ (∀ p ∈ exPts, p.mode = 1) ∧ exPts ≠ [] := by
  refine ⟨by simp [Distinct, exIni], ⟨?_, ?_⟩, ?_, by simp [exPts]⟩ <;> simp [exIni, exPts]

/-! ## Markers without points

If a marker has no recorded point, points of markers after it get the mass and time of another marker. -/

/-- All points are of the second of two markers: they get the mass, and the initial time, of the first. -/
theorem unrecorded (a b : Ini) (hab : a.id < b.id) (h : ∀ p ∈ pts, p.id = b.id) {m : ℕ} (hm : m = 1 ∨ m = 2 ∨ m = 3)
    (hmode : ∀ p ∈ pts, p.mode = m) (hne : pts ≠ []) :
    get [a, b] pts (.common fun mass _ _ => mass) = some (pts.map fun _ => a.mass) := by
  have hu : uniq (pts.map (·.id)) = [b.id] := by
    have : (pts.map (·.id)) = List.replicate pts.length b.id :=
      List.eq_replicate_iff.2 ⟨List.length_map _, fun x hx => by
        obtain ⟨p, hp, rfl⟩ := List.mem_map.1 hx
        exact h p hp⟩
    unfold uniq
    rw [this, List.replicate_dedup (by rwa [Ne, List.length_eq_zero_iff])]
    rfl
  have hs : states [a, b] = [a, b] := by
    unfold states
    exact List.Pairwise.insertionSort_eq (by simpa using hab.le)
  have hrow : ∀ p ∈ pts, row [a, b] pts p = some
      { mass := a.mass, time := if 3 ∈ pts.map (·.mode) then a.time else a.time + p.mileage,
        connlen := a.mileage - p.mileage, point := p } := by
    intro p hp
    unfold row stateOf
    rw [hu, hs, h p hp, List.idxOf_cons_self]
    rfl
  unfold OrbitQnt.get
  rw [mapM_some hrow, Option.bind_some]
  unfold items
  dsimp only
  rw [List.map_map, Option.bind_some, List.filter_eq_self.2 (mask_uniform hm hmode)]
  refine (lexsort_map fun _ => a.mass).trans ?_
  rw [List.map_const', List.map_const', List.length_insertionSort]

/-- So the mass of the points can be that of a marker of another species. -/
theorem unrecorded_wrong : ∃ (ini : List Ini) (pts : List (Point Unit)), Distinct ini ∧
    (∀ p ∈ pts, p.mode = 1) ∧ (∀ p ∈ pts, ∃ s ∈ ini, s.id = p.id) ∧ pts.length = 2 ∧
    get ini pts (.common fun mass _ _ => mass) = some [1, 1] ∧
    ∀ p ∈ pts, ∀ s ∈ ini, s.id = p.id → s.mass = 2 := by
  refine ⟨[⟨1, 1, 0, 0⟩, ⟨2, 2, 0, 0⟩], [⟨2, 1, 0, 0, ()⟩, ⟨2, 1, 1, 0, ()⟩], by simp [Distinct], by simp, by simp, rfl,
    ?_, by simp⟩
  exact unrecorded ⟨1, 1, 0, 0⟩ ⟨2, 2, 0, 0⟩ (by norm_num) (by simp) (Or.inl rfl) (by simp) (by simp)

/-! ## Both modes in the same data -/

theorem mapM_length {α β : Type} {f : α → Option β} :
    ∀ {l : List α} {r : List β}, l.mapM f = some r → r.length = l.length
  | [], r, h => by
    rw [List.mapM_nil] at h
    obtain rfl := (Option.some.inj h).symm
    rfl
  | a :: l, r, h => by
    rw [List.mapM_cons] at h
    obtain ⟨x, -, h⟩ := Option.bind_eq_some_iff.1 h
    obtain ⟨t, ht, h⟩ := Option.bind_eq_some_iff.1 h
    obtain rfl := (Option.some.inj h).symm
    rw [List.length_cons, List.length_cons, mapM_length ht]

/-- With gyro-orbits and guiding centres in the data, there are as many values as points of guiding centres, for every
quantity: the others are left out. -/
theorem hybrid_length (h2 : ∃ p ∈ pts, p.mode = 2) {q : Quantity D} {r : List ℝ} (hg : get ini pts q = some r) :
    r.length = (pts.filter (·.mode = 2)).length := by
  unfold OrbitQnt.get at hg
  obtain ⟨rows, -, hg⟩ := Option.bind_eq_some_iff.1 hg
  obtain ⟨l, -, hg⟩ := Option.bind_eq_some_iff.1 hg
  rw [mapM_length hg]
  unfold lexsort
  rw [List.length_map, List.length_insertionSort, List.length_zipIdx]
  congr 1
  apply List.filter_congr
  intro p _
  unfold mask
  rw [if_pos (mem_modes.2 h2)]

/-- So points are lost. -/
theorem hybrid_lost (h2 : ∃ p ∈ pts, p.mode = 2) (h1 : ∃ p ∈ pts, p.mode = 1) {q : Quantity D} {r : List ℝ}
    (hg : get ini pts q = some r) : r.length < pts.length := by
  rw [hybrid_length h2 hg]
  obtain ⟨p, hp, e⟩ := h1
  exact List.length_filter_lt_length_iff_exists.2 ⟨p, hp, by simp [e]⟩

example : ∃ pts : List (Point Unit), (∃ p ∈ pts, p.mode = 2) ∧ (∃ p ∈ pts, p.mode = 1) ∧
    get [⟨1, 1, 0, 0⟩] pts (.common fun mass _ _ => mass) = some [1] := by
  refine ⟨[⟨1, 1, 0, 0, ()⟩, ⟨1, 2, 1, 0, ()⟩], by simp, by simp, ?_⟩
  simp [OrbitQnt.get, row, stateOf, states, uniq, items, lexsort, mask]

/-- And what is returned is not of one point: the marker was first a gyro-orbit, then a guiding centre, and the mileage
(as any other common quantity) is of the first point while `ppar` (as any quantity with a formula for each) is of the
second. -/
theorem hybrid_mixed (s : Ini) (p q : Point D) (hp : p.id = s.id) (hq : q.id = s.id) (h1 : p.mode = 1)
    (h2 : q.mode = 2) (f : Point D → ℝ) (go gc : ℝ → ℝ → Point D → ℝ) :
    get [s] [p, q] (.common fun _ _ x => f x) = some [f p] ∧
    get [s] [p, q] (.masked go gc) = some [gc s.mass (s.time + q.mileage) q] := by
  have hu : uniq ([p, q].map (·.id)) = [s.id] := by
    simp [uniq, hp, hq]
  have hs : states [s] = [s] := by simp [states]
  have hr : ∀ x : Point D, x.id = s.id → row [s] [p, q] x = some
      { mass := s.mass, time := s.time + x.mileage, connlen := s.mileage - x.mileage, point := x } := by
    intro x hx
    unfold row stateOf
    rw [hu, hs, hx, List.idxOf_cons_self]
    simp [h1, h2]
  have hl : lexsort ([p, q].filter (mask [p, q])) = [0] := by
    have : [p, q].filter (mask [p, q]) = [q] := by simp [mask, h1, h2]
    rw [this]
    simp [lexsort]
  constructor <;>
  · unfold OrbitQnt.get
    rw [hl]
    simp [hr p hp, hr q hq, items, h1, h2, add]

/-- The point at mileage 3 gets returned with the mileage 2 of the one before. -/
example : get [⟨1, 1, 0, 0⟩] [⟨1, 1, 2, 0, ()⟩, ⟨1, 2, 3, 0, ()⟩] (.common fun _ _ x => x.mileage) = some [2] ∧
    get [⟨1, 1, 0, 0⟩] [⟨1, 1, 2, 0, ()⟩, ⟨1, 2, 3, 0, ()⟩] (.masked (fun _ _ x => x.mileage) fun _ _ x => x.mileage) =
      some [3] :=
  hybrid_mixed ⟨1, 1, 0, 0⟩ ⟨1, 1, 2, 0, ()⟩ ⟨1, 2, 3, 0, ()⟩ rfl rfl rfl rfl (fun x => x.mileage) _ _

/-- With both modes, `pperp` is refused if there are two guiding-centre points or more. -/
theorem hybrid_pperp (h1 : ∃ p ∈ pts, p.mode = 1) (h2 : 2 ≤ (pts.filter (·.mode = 2)).length)
    (go pnorm : ℝ → ℝ → Point D → ℝ) (ppar : Point D → ℝ) (f : ℝ → ℝ → ℝ) :
    get ini pts (.pperp go pnorm ppar f) = none := by
  unfold OrbitQnt.get
  cases hm : pts.mapM (row ini pts) with
  | none => rfl
  | some rows =>
    have hpts : rows.map (·.point) = pts := by
      clear h1 h2
      have key : ∀ {l : List (Point D)} {rows : List (Row D)}, l.mapM (row ini pts) = some rows →
          rows.map (·.point) = l := by
        intro l
        induction l with
        | nil =>
          intro rows h
          rw [List.mapM_nil] at h
          obtain rfl := (Option.some.inj h).symm
          rfl
        | cons a l ih =>
          intro rows h
          rw [List.mapM_cons] at h
          obtain ⟨x, hx, h⟩ := Option.bind_eq_some_iff.1 h
          obtain ⟨t, ht, h⟩ := Option.bind_eq_some_iff.1 h
          obtain rfl := (Option.some.inj h).symm
          unfold row at hx
          obtain ⟨s, -, rfl⟩ := Option.map_eq_some_iff.1 hx
          rw [List.map_cons, ih ht]
      exact key hm
    have hfil : ((rows.filter (·.point.mode = 2)).map (·.point)) = pts.filter (·.mode = 2) := by
      rw [← hpts, List.filter_map]
      rfl
    have hlen : 2 ≤ (rows.filter (·.point.mode = 2)).length := by
      rw [← hfil, List.length_map] at h2
      exact h2
    have hlt : (rows.filter (·.point.mode = 2)).length < rows.length := by
      obtain ⟨p, hp, e⟩ := h1
      rw [← hpts] at hp
      obtain ⟨r, hr, rfl⟩ := List.mem_map.1 hp
      exact List.length_filter_lt_length_iff_exists.2 ⟨r, hr, by simp [e]⟩
    have hmodes : 2 ∈ rows.map (·.point.mode) := by
      obtain ⟨r, hr⟩ := List.exists_mem_of_length_pos (Nat.lt_of_lt_of_le Nat.zero_lt_two hlen)
      rw [List.mem_filter] at hr
      exact List.mem_map.2 ⟨r, hr.1, by simpa using hr.2⟩
    have hb : ∀ a b : List ℝ, 2 ≤ a.length → a.length < b.length → broadcast f a b = none := by
      intro a b ha hab
      unfold broadcast
      rw [if_neg hab.ne]
      match a, b, ha, hab with
      | _ :: _ :: _, _ :: _ :: _, _, _ => rfl
      | _ :: _ :: _, [_], _, h => simp at h
    rw [Option.bind_some]
    unfold items
    simp only
    rw [if_pos hmodes, hb _ _ (by rwa [List.length_map]) (by rwa [List.length_map, List.length_map])]
    rfl

example : ∃ pts : List (Point Unit), (∃ p ∈ pts, p.mode = 1) ∧ 2 ≤ (pts.filter (·.mode = 2)).length :=
  ⟨[⟨1, 1, 0, 0, ()⟩, ⟨1, 2, 1, 0, ()⟩, ⟨1, 2, 2, 0, ()⟩], by simp, by simp⟩

/-! ## Other -/

/-- The direction of the crossings is listed but always refused: it is read under a name the code does not write. -/
theorem pncrdir_refused : get ini pts .pncrdir = none := by
  unfold OrbitQnt.get
  cases pts.mapM (row ini pts) <;> rfl

/-- The connection length is what the marker has travelled so far, with a minus sign; how long it goes on until it is
lost does not enter. -/
theorem connlen_travelled (hd : Distinct ini) (hr : Recorded ini pts) {m : ℕ} (hm : m = 1 ∨ m = 2 ∨ m = 3)
    (h : ∀ p ∈ pts, p.mode = m) (h0 : ∀ s ∈ ini, s.mileage = 0) :
    ∃ l, Listed ini pts l ∧ get ini pts .connlen = some (l.map fun x => -x.2.mileage) := by
  refine ⟨_, ordered_listed hd hr, ?_⟩
  rw [get_connlen hd hr hm h]
  congr 1
  refine List.map_congr_left fun x hx => ?_
  rw [h0 _ ((ordered_listed hd hr).own x hx).1, zero_sub]

example : ∀ s ∈ exIni, s.mileage = 0 := by simp [exIni]

end Ascot.C156
