import Verif.Model.GatherDiag
import Verif.Props.C20_C21_Mpi
import Verif.Lemmas.Options

set_option linter.unusedSectionVars false
set_option linter.unusedSimpArgs false

/-!
# C176: diagnostics of runs with several processes

The specification: `points` and `allPoints`.
-/
namespace Ascot.C176
open GatherDiag Mpi Options

/-- The values of a quantity at the points that one process with `n` markers has recorded. -/
noncomputable def points (n npnt : ℕ) (d : Col → ℕ → ℝ) (c : Col) : List ℝ :=
  ((List.range (n * npnt)).filter fun k => decide (d .id k > 0.1)).map (d c)

/-- The values at the points recorded by all processes. -/
noncomputable def allPoints (nTot size npnt : ℕ) (d : ℕ → Col → ℕ → ℝ) (c : Col) : List ℝ :=
  (List.range size).flatMap fun rank => points (myParticles nTot rank size).2 npnt (d rank) c

theorem elements_some {a : ℕ → Option ℝ} {f : ℕ → ℝ} : ∀ n, (∀ k < n, a k = some (f k)) →
    elements a n = some ((List.range n).map f)
  | 0, _ => rfl
  | n + 1, h => by
    have ih := elements_some n fun k hk => h k (by omega)
    unfold elements at ih ⊢
    rw [List.range_succ, List.mapM_append, ih]
    simp [h n (by omega)]

theorem zip_filter (ids v : ℕ → ℝ) (l : List ℕ) :
    ((((l.map ids).zip (l.map v)).filter fun x => decide (x.1 > 0.1)).map Prod.snd) =
      (l.filter fun k => decide (ids k > 0.1)).map v := by
  induction l with
  | nil => rfl
  | cons a l ih =>
    simp only [List.map_cons, List.zip_cons_cons, List.filter_cons]
    by_cases h : ids a > 0.1
    · simp only [h, decide_true, if_true, List.map_cons, ih]
    · simp only [h, decide_false, Bool.false_eq_true, if_false, ih]

/-- The modes with particles. -/
def Particles (mode : ℕ) : Prop := mode = 1 ∨ mode = 2 ∨ mode = 3

/-- What is written is allocated. -/
theorem stored_allocated {mode : ℕ} (hm : Particles mode ∨ mode = 4) (p : Bool) :
    ∀ c ∈ stored mode p, c ∈ allocated mode p := by
  rcases hm with (rfl | rfl | rfl) | rfl <;> cases p <;> decide

theorem id_stored {mode : ℕ} (hm : Particles mode ∨ mode = 4) (p : Bool) : Col.id ∈ stored mode p := by
  rcases hm with (rfl | rfl | rfl) | rfl <;> cases p <;> decide

/-- Pointers are in order for particles. -/
theorem pointers {mode : ℕ} (hm : Particles mode) (p : Bool) :
    (∀ c ∈ enlarged mode p, c ∈ allocated mode p) ∧ (∀ c ∈ received mode p, c ∈ enlarged mode p) ∧
      ∀ c ∈ sent mode p, c ∈ allocated mode p := by
  rcases hm with rfl | rfl | rfl <;> cases p <;> decide

/-- Every array is received from where it was sent. -/
theorem matched (mode : ℕ) (p : Bool) : ∀ c c',
    ((received mode p).zip (sent mode p)).lookup c = some c' → c' = c := by
  intro c c' h
  have e : received mode p = sent mode p := rfl
  rw [e] at h
  have : ∀ l : List Col, (l.zip l).lookup c = some c' → c' = c := by
    intro l
    induction l with
    | nil => intro h; cases h
    | cons a l ih =>
      intro h
      rw [List.zip_cons_cons, List.lookup_cons] at h
      by_cases ha : c = a
      · subst ha
        simp at h
        exact h.symm
      · rw [show (c == a) = false by simpa using ha] at h
        exact ih h
  exact this _ h

/-- The array of the root begins with its own data. -/
theorem gatherCol_own (mode : ℕ) (p : Bool) (nTot size npnt : ℕ) (hs : 0 < size) (d : ℕ → Col → ℕ → ℝ) (c : Col)
    (k : ℕ) (hk : k < (myParticles nTot 0 size).2 * npnt) :
    gatherCol mode p nTot size npnt d c k = some (d 0 c k) := by
  unfold gatherCol
  cases ((received mode p).zip (sent mode p)).lookup c with
  | some c' =>
    have hn : 0 < npnt := Nat.pos_of_ne_zero fun h => by simp [h] at hk
    have h := C68.gather_orbits nTot size npnt hs (fun rank => if rank = 0 then d 0 c else d rank c') 0 hs (k / npnt)
      (by rwa [Nat.div_lt_iff_lt_mul hn]) (k % npnt) (Nat.mod_lt _ hn)
    have h0 : (myParticles nTot 0 size).1 = 0 := (C20.consecutive nTot size hs).1
    rw [h0, Nat.zero_add, Nat.div_add_mod' k npnt] at h
    simpa using h
  | none => exact if_pos hk

/-- **C176, orbits in the file.**  With particles, the file has the points of the first process, with all quantities: all
points of a run with one process (`single`), not those of the other processes (`several_violation`). -/
theorem orbits_partial {mode : ℕ} (hm : Particles mode) (p : Bool) (nTot size npnt : ℕ) (hs : 0 < size)
    (d : ℕ → Col → ℕ → ℝ) (c : Col) (hc : c ∈ stored mode p) :
    orbitFile mode p nTot size npnt d c = .ok (points (myParticles nTot 0 size).2 npnt (d 0) c) := by
  unfold orbitFile gatherOrbits
  obtain ⟨h1, h2, h3⟩ := pointers hm p
  rw [if_pos ⟨h1, fun _ => ⟨h2, h3⟩⟩]
  simp only [Res.bind, writeColumn]
  rw [if_pos (stored_allocated (Or.inl hm) p _ hc), if_pos (stored_allocated (Or.inl hm) p _ (id_stored (Or.inl hm) p))]
  simp only [Option.bind_some]
  rw [elements_some _ fun k hk => gatherCol_own mode p nTot size npnt hs d .id k hk,
    elements_some _ fun k hk => gatherCol_own mode p nTot size npnt hs d c k hk]
  simp only [zip_filter, points]

/-- **C176, one process.**  The file has all points. -/
theorem single {mode : ℕ} (hm : Particles mode) (p : Bool) (nTot npnt : ℕ) (d : ℕ → Col → ℕ → ℝ) (c : Col)
    (hc : c ∈ stored mode p) :
    orbitFile mode p nTot 1 npnt d c = .ok (allPoints nTot 1 npnt d c) ∧ (myParticles nTot 0 1).2 = nTot := by
  refine ⟨?_, by simp [myParticles]⟩
  rw [orbits_partial hm p nTot 1 npnt Nat.one_pos d c hc]
  simp [allPoints]

/-- **C176, several processes.**  Whenever a process other than the first has recorded a point, points are missing in the
file. -/
theorem several_violation {mode : ℕ} (hm : Particles mode) (p : Bool) (nTot size npnt : ℕ)
    (d : ℕ → Col → ℕ → ℝ) (c : Col) (hc : c ∈ stored mode p) (rank : ℕ) (hr : rank < size) (h0 : 0 < rank)
    (k : ℕ) (hk : k < (myParticles nTot rank size).2 * npnt) (hid : d rank .id k > 0.1) :
    ∃ l, orbitFile mode p nTot size npnt d c = .ok l ∧ l.length < (allPoints nTot size npnt d c).length := by
  refine ⟨_, orbits_partial hm p nTot size npnt (by omega) d c hc, ?_⟩
  obtain ⟨m, rfl⟩ : ∃ m, size = m + 1 := ⟨size - 1, by omega⟩
  unfold allPoints
  rw [List.range_succ_eq_map, List.flatMap_cons, List.length_append]
  refine Nat.lt_add_of_pos_right (List.length_pos_of_mem (a := d rank c k) ?_)
  refine List.mem_flatMap.mpr ⟨rank, List.mem_map.mpr ⟨rank - 1, by rw [List.mem_range]; omega, by omega⟩, ?_⟩
  unfold points
  refine List.mem_map.mpr ⟨k, List.mem_filter.mpr ⟨List.mem_range.mpr hk, ?_⟩, rfl⟩
  simpa using hid

/-- **C176, orbits in memory.**  For full orbits and guiding centres the root has, after gathering, every quantity of every
point of every marker at the place of that marker. -/
theorem memory_partial {mode : ℕ} (hm : mode = 1 ∨ mode = 2) (p : Bool) (nTot size npnt : ℕ) (hs : 0 < size)
    (d : ℕ → Col → ℕ → ℝ) :
    ∃ arr, gatherOrbits mode p nTot size npnt d = .ok arr ∧ ∀ c ∈ stored mode p, ∃ a, arr c = some a ∧
      ∀ rank < size, ∀ j < (myParticles nTot rank size).2, ∀ i < npnt,
        a (((myParticles nTot rank size).1 + j) * npnt + i) = some (d rank c (j * npnt + i)) := by
  have hm' : Particles mode := by rcases hm with h | h <;> simp [Particles, h]
  obtain ⟨h1, h2, h3⟩ := pointers hm' p
  refine ⟨_, if_pos ⟨h1, fun _ => ⟨h2, h3⟩⟩, fun c hc => ⟨_, if_pos (stored_allocated (Or.inl hm') p c hc), ?_⟩⟩
  intro rank hr j hj i hi
  have hl : ∃ c', ((received mode p).zip (sent mode p)).lookup c = some c' := by
    have : ∀ c ∈ stored mode p, (((received mode p).zip (sent mode p)).lookup c).isSome := by
      rcases hm with rfl | rfl <;> cases p <;> decide
    exact Option.isSome_iff_exists.mp (this c hc)
  obtain ⟨c', hc'⟩ := hl
  obtain rfl := matched mode p _ _ hc'
  unfold gatherCol
  rw [hc']
  simp only
  rw [C68.gather_orbits nTot size npnt hs _ rank hr j hj i hi]
  by_cases h : rank = 0
  · subst h; simp
  · simp [h]

/-- **C176, hybrid runs.**  The momenta and charges of the markers of other processes do not reach the root. -/
theorem hybrid_violation (p : Bool) (nTot size npnt : ℕ) (d : ℕ → Col → ℕ → ℝ) :
    ∃ arr, gatherOrbits 3 p nTot size npnt d = .ok arr ∧
      ∀ c ∈ [Col.p_r, .p_phi, .p_z, .ppar, .mu, .zeta, .charge], c ∈ stored 3 p ∧ ∃ a, arr c = some a ∧
        ∀ k, (myParticles nTot 0 size).2 * npnt ≤ k → a k = none := by
  obtain ⟨h1, h2, h3⟩ := pointers (mode := 3) (Or.inr (Or.inr rfl)) p
  refine ⟨_, if_pos ⟨h1, fun _ => ⟨h2, h3⟩⟩, fun c hc => ?_⟩
  have hst : ∀ c ∈ [Col.p_r, .p_phi, .p_z, .ppar, .mu, .zeta, .charge], c ∈ stored 3 p := by cases p <;> decide
  have hlk : ∀ c ∈ [Col.p_r, .p_phi, .p_z, .ppar, .mu, .zeta, .charge],
      ((received 3 p).zip (sent 3 p)).lookup c = none := by cases p <;> decide
  refine ⟨hst c hc, _, if_pos (stored_allocated (Or.inl (Or.inr (Or.inr rfl))) p c (hst c hc)), fun k hk => ?_⟩
  unfold gatherCol
  rw [hlk c hc]
  exact if_neg (by omega)

/-- **C176, field lines.**  With any number of processes, also one, gathering the orbits of field lines uses pointers that
were never set. -/
theorem field_line_violation (p : Bool) (nTot size npnt : ℕ) (d : ℕ → Col → ℕ → ℝ) (c : Col) :
    orbitFile 4 p nTot size npnt d c = .ub := by
  have h : ¬ ∀ c ∈ enlarged 4 p, c ∈ allocated 4 p := by cases p <;> decide
  unfold orbitFile gatherOrbits
  rw [if_neg fun hh => h hh.1]
  rfl

/-- **C176, distributions.**  With fewer than 2^31 cells, every cell is the sum over all processes. -/
theorem distribution_partial (cells size : ℕ) (hc : cells < 2 ^ 31) (h : ℕ → ℕ → ℝ) :
    ∃ g, reduce cells size h = .ok g ∧ ∀ i < cells, g i = ((List.range size).map fun rank => h rank i).sum := by
  have e : toCount cells = cells := by
    unfold toCount
    rw [Nat.mod_eq_of_lt (by omega), if_pos hc]
  refine ⟨_, if_neg (by rw [e]; omega), fun i hi => ?_⟩
  simp only [e]
  rw [if_pos (by exact_mod_cast hi)]

/-- **C176, large distributions.**  With 2^31 to 2^32 - 1 cells the program ends; with 2^32 cells the file has the
distribution of the first process only. -/
theorem distribution_violation (size : ℕ) (h : ℕ → ℕ → ℝ) :
    (∀ cells, 2 ^ 31 ≤ cells → cells < 2 ^ 32 → reduce cells size h = .fail) ∧
    reduce (2 ^ 32) size h = .ok (h 0) := by
  constructor
  · intro cells h1 h2
    refine if_pos ?_
    unfold toCount
    rw [Nat.mod_eq_of_lt h2, if_neg (by omega)]
    have : (cells : ℤ) < 2 ^ 32 := by exact_mod_cast h2
    omega
  · have e : toCount (2 ^ 32) = 0 := by decide
    unfold reduce
    rw [e, if_neg (by decide)]
    congr 1

/-- **C176, transport coefficients.**  With one process the file has the IDs of all markers with coefficients. -/
theorem coefficients_partial (nTot : ℕ) (ids : ℕ → ℕ → ℤ) :
    coefFile nTot 1 ids = .ok (((List.range nTot).map (ids 0)).filter fun x => decide (x > 0)) := by
  unfold coefFile
  rw [if_pos fun rank h1 h2 => by omega]
  simp [myParticles]

/-- **C176, transport coefficients of several processes.**  With two or more processes, memory behind the array of IDs is
sent. -/
theorem coefficients_violation (nTot size : ℕ) (hn : 0 < nTot) (hs : 2 ≤ size) (ids : ℕ → ℕ → ℤ) :
    coefFile nTot size ids = .ub := by
  unfold coefFile
  rw [if_neg]
  intro h
  have h1 := h (size - 1) (by omega) (by omega)
  have h2 : 0 < (myParticles nTot (size - 1) size).2 := by
    simp only [myParticles, if_true]
    have h3 : size * (nTot / size) ≤ nTot := Nat.mul_div_le nTot size
    rcases Nat.eq_zero_or_pos (nTot / size) with h4 | h4
    · rw [h4]; omega
    · have h5 : (size - 1) * (nTot / size) < size * (nTot / size) := Nat.mul_lt_mul_of_pos_right (by omega) h4
      omega
  omega

/-- Non-vacuity of `several_violation`: four markers, two processes, one point for each marker. -/
example : ∃ l, orbitFile 2 false 4 2 1 (fun rank c k => if c = .id then rank * 2 + k + 1 else 0) .id = .ok l ∧
    l.length < (allPoints 4 2 1 (fun rank c k => if c = .id then (rank * 2 + k + 1 : ℝ) else 0) .id).length :=
  several_violation (Or.inr (Or.inl rfl)) false 4 2 1 _ .id (by decide) 1 (by omega) (by omega) 0 (by decide)
    (by norm_num)

end Ascot.C176
