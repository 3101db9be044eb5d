import Verif.Lemmas.Output
import Verif.Props.C27_C28_Orbit

/-!
# C122: orbits in the output file
-/

set_option linter.unusedSectionVars false
set_option linter.unusedSimpArgs false

namespace Ascot.C122
open Ascot.Output Ascot.OutputDoc
open Ascot.Options (Res)
open Ascot.MarkerFile (eCharge e_pos)
open Ascot.Orbit (Pt)

/-- The numbers of the integer quantities of a point are integers, and fit an `int`. -/
structure Whole (o : Pt ℝ) : Prop where
  id : ∃ k : ℤ, o.id = k ∧ |k| ≤ 2147483647
  simmode : ∃ k : ℤ, o.simmode = k ∧ |k| ≤ 2147483647
  charge : ∃ k : ℤ, o.charge = k * e ∧ |k| ≤ 2147483647
  pncrid : ∃ k : ℤ, o.pncrid = k ∧ |k| ≤ 2147483647
  pncrdi : ∃ k : ℤ, o.pncrdi = k ∧ |k| ≤ 2147483647

/-- The points with a marker in them. -/
noncomputable def rows (pts : List (Pt ℝ)) : List (Pt ℝ) := pts.filter fun o => decide (1 ≤ o.id)

/-- The column of a call. -/
noncomputable def col (s : OSet) (rs : List (Pt ℝ)) : Col :=
  match s.type with
  | .f64 => .real (rs.map fun o => s.confac * s.get o)
  | .i32 => .int (rs.map fun o => ⌊s.confac * s.get o⌋)
  | .i16 => .int (rs.map fun o => ⌊s.confac * s.get o⌋)

/-- A call whose numbers are written as they are. -/
def Exact (s : OSet) (o : Pt ℝ) : Prop :=
  s.type = .f64 ∨ ∃ k : ℤ, s.confac * s.get o = k ∧ |k| ≤ 2147483647

theorem writeset_eq (mask : Pt ℝ → Bool) (pts : List (Pt ℝ)) (s : OSet) (g : Group)
    (h : ∀ o ∈ pts.filter mask, Exact s o) :
    writeset mask pts s g = .ok (put g s.name s.unit (col s (pts.filter mask))) := by
  unfold writeset col
  cases ht : s.type with
  | f64 => rfl
  | i32 =>
    simp only
    rw [mapRes_ok _ _ (fun x => ⌊x⌋), List.map_map]
    · rfl
    · intro x hx
      obtain ⟨o, ho, rfl⟩ := List.mem_map.mp hx
      rcases h o ho with h1 | ⟨k, h1, h2⟩
      · rw [ht] at h1; cases h1
      · rw [h1, toInt32_int k h2, Int.floor_intCast]
  | i16 =>
    simp only
    rw [mapRes_ok _ _ (fun x => ⌊x⌋), List.map_map]
    · rfl
    · intro x hx
      obtain ⟨o, ho, rfl⟩ := List.mem_map.mp hx
      rcases h o ho with h1 | ⟨k, h1, h2⟩
      · rw [ht] at h1; cases h1
      · rw [h1, toInt64_int k h2, Int.floor_intCast]

theorem writesets_eq (mask : Pt ℝ → Bool) (pts : List (Pt ℝ)) (l : List OSet) (g : Group)
    (h : ∀ s ∈ l, ∀ o ∈ pts.filter mask, Exact s o) :
    writesets mask pts l g =
      .ok (puts (l.map fun s => (s.name, s.unit, col s (pts.filter mask))) g) := by
  induction l generalizing g with
  | nil => rfl
  | cons s l ih =>
    unfold writesets
    rw [writeset_eq _ _ _ _ (h s (by simp))]
    simp only
    rw [ih _ fun t ht => h t (by simp [ht])]
    rfl

theorem col_length (s : OSet) (rs : List (Pt ℝ)) : (col s rs).length = rs.length := by
  unfold col
  cases s.type <;> simp [Col.length]

/-- A call that writes the quantity `q`. -/
def Writes (s : OSet) (q : Quantity (Pt ℝ)) : Prop :=
  s.name = q.name ∧ ∃ f, unitOf s.unit = some (q.dim, f) ∧ ∀ o, s.confac * s.get o * f = q.val o

theorem stored {l : List OSet} {rs : List (Pt ℝ)} (hn : (l.map OSet.name).Nodup) (hr : rs ≠ [])
    (hx : ∀ s ∈ l, ∀ o ∈ rs, Exact s o) {s : OSet} (hs : s ∈ l) {q : Quantity (Pt ℝ)}
    (hw : Writes s q) :
    Stored (puts (l.map fun s => (s.name, s.unit, col s rs)) newGroup) q.name q.dim
      (rs.map q.val) := by
  obtain ⟨h1, f, h2, h3⟩ := hw
  have h0 := puts_mem (l.map fun s => (s.name, s.unit, col s rs)) newGroup
    (by simpa [List.map_map, Function.comp_def] using hn) (fun _ _ => rfl)
    (by
      intro t ht
      obtain ⟨t, -, rfl⟩ := List.mem_map.mp ht
      simp only [col_length]
      exact fun e => hr (List.length_eq_zero_iff.mp e))
    (s.name, s.unit, col s rs) (List.mem_map_of_mem hs)
  refine ⟨_, _, f, h1 ▸ h0, rfl, h2, ?_⟩
  have hfl : s.type ≠ .f64 → ∀ o ∈ rs, ((⌊s.confac * s.get o⌋ : ℤ) : ℝ) = s.confac * s.get o := by
    intro ht o ho
    rcases hx s hs o ho with h | ⟨k, h, -⟩
    · exact absurd h ht
    · rw [h, Int.floor_intCast]
  unfold col
  cases ht : s.type with
  | f64 =>
    simp only [values, List.map_map]
    exact List.map_congr_left fun o _ => h3 o
  | i32 =>
    simp only [values, List.map_map]
    exact List.map_congr_left fun o ho => by
      simp only [Function.comp]; rw [hfl (by simp [ht]) o ho, h3]
  | i16 =>
    simp only [values, List.map_map]
    exact List.map_congr_left fun o ho => by
      simp only [Function.comp]; rw [hfl (by simp [ht]) o ho, h3]

/-- The calls in a simulation mode. -/
noncomputable def sets (m : SimMode) (poincare : Bool) : List OSet :=
  (match m with
    | .fo => foSets
    | .gc => gcSets
    | .hybrid => hybridSets
    | .ml => mlSets) ++ if poincare then poincareSets else []

theorem writeOrbit_eq (m : SimMode) (poincare : Bool) (pts : List (Pt ℝ)) :
    writeOrbit m.code poincare pts =
      writesets (fun o => decide (o.id > 0.1)) pts (sets m poincare) newGroup := by
  unfold writeOrbit sets
  cases m <;> simp [SimMode.code]

theorem sets_nodup (m : SimMode) (poincare : Bool) :
    ((sets m poincare).map OSet.name).Nodup := by
  cases m <;> cases poincare <;>
    simp [sets, foSets, gcSets, hybridSets, mlSets, poincareSets]

theorem sets_exact (m : SimMode) (poincare : Bool) (o : Pt ℝ) (h : Whole o) :
    ∀ s ∈ sets m poincare, Exact s o := by
  have hq : ∃ k : ℤ, 1 / eCharge * o.charge = k ∧ |k| ≤ 2147483647 := by
    obtain ⟨k, h1, h2⟩ := h.charge
    refine ⟨k, ?_, h2⟩
    rw [h1, show OutputDoc.e = eCharge from rfl]
    have := e_pos.ne'
    field_simp
  have h1 := h.id
  have h2 := h.simmode
  have h3 := h.pncrid
  have h4 := h.pncrdi
  cases m <;> cases poincare <;>
    simp only [sets, foSets, gcSets, hybridSets, mlSets, poincareSets, List.append_nil,
      List.cons_append, List.nil_append, List.forall_mem_cons, List.not_mem_nil, false_imp_iff,
      implies_true, and_true, Exact, true_or, reduceCtorEq, false_or, one_mul, true_and, reduceIte,
      Bool.false_eq_true] <;> simp only [h1, h2, h3, h4, hq, and_self, true_and, and_true]

theorem unit_values : unitOf "1" = some (.one, 1) ∧ unitOf "rad" = some (.one, 1) ∧
    unitOf "deg" = some (.one, Real.pi / 180) ∧ unitOf "m" = some (.length, 1) ∧
    unitOf "s" = some (.time, 1) ∧ unitOf "kg*m/s" = some (.momentum, 1) ∧
    unitOf "e" = some (.charge, e) ∧ unitOf "eV/T" = some (.moment, e) ∧
    unitOf "T" = some (.field, 1) := by
  refine ⟨?_, ?_, ?_, ?_, ?_, ?_, ?_, ?_, ?_⟩ <;> simp [unitOf, List.lookup]

theorem sets_writes (m : SimMode) (poincare : Bool) :
    ∀ q ∈ orbit m poincare, ∃ s ∈ sets m poincare, Writes s q := by
  obtain ⟨u1, u2, u3, u4, u5, u6, u7, u8, u9⟩ := unit_values
  have hpi := Real.pi_ne_zero
  have he : OutputDoc.e ≠ 0 := e_pos.ne'
  have hee : eCharge = OutputDoc.e := rfl
  have a1 : ∀ x : ℝ, 180 / Real.pi * x * (Real.pi / 180) = x := by intro x; field_simp
  have a2 : ∀ x : ℝ, 1 / OutputDoc.e * x * OutputDoc.e = x := by intro x; field_simp
  have ex : ∀ (d : Dim) (c : ℝ) (P : ℝ → Prop), (∃ f, some (d, c) = some (d, f) ∧ P f) ↔ P c := by
    intro d c P
    constructor
    · rintro ⟨f, h, hf⟩
      simp only [Option.some.injEq, Prod.mk.injEq, true_and] at h
      exact h ▸ hf
    · exact fun h => ⟨c, rfl, h⟩
  have exm : ∀ (s : OSet) (l : List OSet) (P : OSet → Prop),
      (∃ x ∈ s :: l, P x) ↔ P s ∨ ∃ x ∈ l, P x := by intro s l P; simp
  have exn : ∀ P : OSet → Prop, (∃ x ∈ ([] : List OSet), P x) ↔ False := by intro P; simp
  cases m <;> cases poincare <;>
    simp only [sets, foSets, gcSets, hybridSets, mlSets, poincareSets, orbit, orbitCommon, orbitParticle,
      orbitFo, orbitGc, orbitPoincare, List.append_nil,
      List.cons_append, List.nil_append, List.forall_mem_cons, List.not_mem_nil, false_imp_iff,
      implies_true, and_true, reduceIte, Bool.false_eq_true, exm, exn, Writes,
      String.reduceEq, false_and, true_and, false_or, or_false, exists_false, hee,
      u1, u2, u3, u4, u5, u6, u7, u8, u9, ex, one_mul, mul_one, a1, a2]

/-- The file holds one row for each recorded point, in the order of the memory: every quantity of
the mode is a data set, row by row, in the unit that is given with it; and there are no other data
sets. -/
theorem orbits (m : SimMode) (poincare : Bool) (pts : List (Pt ℝ))
    (hid : ∀ o ∈ pts, o.id ≤ 0 ∨ 1 ≤ o.id) (hr : rows pts ≠ []) (hw : ∀ o ∈ rows pts, Whole o) :
    ∃ g, writeOrbit m.code poincare pts = .ok g ∧
      (∀ q ∈ orbit m poincare, Stored g q.name q.dim ((rows pts).map q.val)) ∧
      ∀ name, g name ≠ none → ∃ q ∈ orbit m poincare, q.name = name := by
  have hrows : pts.filter (fun o => decide (o.id > 0.1)) = rows pts := by
    unfold rows
    refine List.filter_congr fun o ho => ?_
    rw [decide_eq_decide]
    rcases hid o ho with h | h
    · constructor <;> intro h' <;> norm_num at h' <;> linarith
    · constructor <;> intro h' <;> norm_num <;> linarith
  have hx : ∀ s ∈ sets m poincare, ∀ o ∈ rows pts, Exact s o :=
    fun s hs o ho => sets_exact m poincare o (hw o ho) s hs
  refine ⟨puts ((sets m poincare).map fun s => (s.name, s.unit, col s (rows pts))) newGroup,
    ?_, ?_, ?_⟩
  · rw [writeOrbit_eq, writesets_eq _ _ _ _ (by rw [hrows]; exact hx), hrows]
  · intro q hq
    obtain ⟨s, hs, hw⟩ := sets_writes m poincare q hq
    exact stored (sets_nodup m poincare) hr hx hs hw
  · intro name hname
    have hm : name ∈ (sets m poincare).map OSet.name := by
      by_contra hm
      refine hname ?_
      rw [puts_other]
      · rfl
      · simpa [List.map_map, Function.comp_def] using hm
    have : ∀ x ∈ (sets m poincare).map OSet.name, x ∈ (orbit m poincare).map Quantity.name := by
      cases m <;> cases poincare <;>
      simp [sets, foSets, gcSets, hybridSets, mlSets, poincareSets, orbit, orbitCommon, orbitParticle,
        orbitFo, orbitGc, orbitPoincare]
    obtain ⟨q, hq, rfl⟩ := List.mem_map.mp (this name hm)
    exact ⟨q, hq, rfl⟩

/-- The memory of `nmrk` markers with `N` points each. -/
noncomputable def memory (nmrk N : ℕ) (d : Orbit.Orb ℝ) : List (Pt ℝ) :=
  (List.range (nmrk * N)).map d.buf

theorem shows_id {m : Orbit.Mode} {o : Pt ℝ} {p : Orbit.Mrk ℝ} (h : Orbit.Shows m o p) :
    o.id = p.id := by
  cases m <;> exact h.1

theorem range_mul (a N : ℕ) {α : Type} (f : ℕ → α) :
    (List.range (a * N)).map f =
      (List.range a).flatMap fun m => (List.range N).map fun j => f (m * N + j) := by
  induction a with
  | zero => simp
  | succ a ih =>
    rw [Nat.add_mul, one_mul, List.range_add, List.map_append, ih, List.range_succ,
      List.flatMap_append]
    simp [List.map_map, Function.comp_def]

theorem filter_take {α : Type} (N k : ℕ) (hk : k ≤ N) (f : ℕ → α) (P : α → Bool)
    (h1 : ∀ j < k, P (f j) = true) (h2 : ∀ j, k ≤ j → j < N → P (f j) = false) :
    ((List.range N).map f).filter P = (List.range k).map f := by
  obtain ⟨b, rfl⟩ := Nat.exists_eq_add_of_le hk
  rw [List.range_add, List.map_append, List.filter_append]
  have e1 : ((List.range k).map f).filter P = (List.range k).map f := by
    rw [List.filter_eq_self]
    intro x hx
    obtain ⟨j, hj, rfl⟩ := List.mem_map.mp hx
    exact h1 j (List.mem_range.mp hj)
  have e2 : (((List.range b).map (k + ·)).map f).filter P = [] := by
    rw [List.filter_eq_nil_iff]
    intro x hx
    obtain ⟨j, hj, rfl⟩ := List.mem_map.mp hx
    obtain ⟨i, hi, rfl⟩ := List.mem_map.mp hj
    have := List.mem_range.mp hi
    rw [h2 _ (by omega) (by omega)]
    simp
  rw [e1, e2, List.append_nil]

/-- From the steps to the file: after any simulation that records orbits at intervals, the rows of
the file are grouped by marker, and those of each marker are the latest `N` of the points that were
due (all of them if there are fewer), the `t`-th due point in place `t mod N`. -/
theorem interval (wI : ℝ) (nmrk N : ℕ) (hN : 0 < N)
    (steps : List (Orbit.Mode × Orbit.Mrk ℝ × Orbit.Mrk ℝ))
    (hid : ∀ s ∈ steps, s.2.1.id > 0 → s.2.2.id > 0) :
    ∃ block : ℕ → List (Pt ℝ),
      rows (memory nmrk N (C27.run wI N steps)) = (List.range nmrk).flatMap block ∧
      ∀ m, (block m).length = min N (Orbit.kept wI (C27.stepsOf m steps)).length ∧
        ∀ t q, (Orbit.kept wI (C27.stepsOf m steps))[t]? = some q →
          (Orbit.kept wI (C27.stepsOf m steps)).length ≤ t + N →
          ∃ o, (block m)[t % N]? = some o ∧ Orbit.Shows q.1 o q.2 := by
  set d := C27.run wI N steps with hd
  set len : ℕ → ℕ := fun m => (Orbit.kept wI (C27.stepsOf m steps)).length with hlen
  refine ⟨fun m => (List.range (min N (len m))).map fun j => d.buf (m * N + j), ?_, ?_⟩
  · unfold rows memory
    rw [range_mul, List.filter_flatMap]
    congr 1
    funext m
    have hm := C27.interval_mode wI N hN steps hid m
    have hpos := (C27.inv_run hN wI steps hid).ids m
    refine filter_take N _ (min_le_left _ _) _ _ ?_ ?_
    · intro j hj
      have hjN : j < N := lt_of_lt_of_le hj (min_le_left _ _)
      have hjL : j < len m := lt_of_lt_of_le hj (min_le_right _ _)
      obtain ⟨t, ht, htL, htN⟩ : ∃ t, t % N = j ∧ t < len m ∧ len m ≤ t + N := by
        refine ⟨(len m - 1) - (len m - 1 - j) % N, ?_, ?_, ?_⟩
        · have h1 := Nat.div_add_mod (len m - 1 - j) N
          have h2 : len m - 1 - (len m - 1 - j) % N = j + N * ((len m - 1 - j) / N) := by omega
          rw [h2, Nat.add_mul_mod_self_left, Nat.mod_eq_of_lt hjN]
        · omega
        · have := Nat.mod_lt (len m - 1 - j) hN
          omega
      have hq : (Orbit.kept wI (C27.stepsOf m steps))[t]? =
          some ((Orbit.kept wI (C27.stepsOf m steps))[t]'htL) := List.getElem?_eq_getElem htL
      have hs := shows_id (hm.1 t _ hq htN)
      rw [ht] at hs
      have hp := hpos _ (List.getElem_mem htL)
      rw [decide_eq_true_eq, hs]
      exact_mod_cast hp
    · intro j h1 h2
      have : len m ≤ j := by
        rcases min_le_iff.mp h1 with h | h
        · omega
        · exact h
      have h0 := hm.2.1 j h2 this
      rw [decide_eq_false_iff_not, h0]
      norm_num
  · intro m
    refine ⟨by simp [hlen], ?_⟩
    intro t q hq hl
    have hm := C27.interval_mode wI N hN steps hid m
    refine ⟨_, ?_, hm.1 t q hq hl⟩
    have htL : t < len m := by
      by_contra h
      rw [List.getElem?_eq_none (not_lt.mp h)] at hq
      cases hq
    have : t % N < min N (len m) := by
      have h1 := Nat.mod_lt t hN
      have h2 := Nat.mod_le t N
      exact lt_min h1 (by omega)
    rw [List.getElem?_map, List.getElem?_range this]
    rfl

/-- Nothing recorded: no data sets. -/
theorem nothing (m : SimMode) (poincare : Bool) (pts : List (Pt ℝ)) (h : ∀ o ∈ pts, o.id ≤ 0) :
    writeOrbit m.code poincare pts = .ok newGroup := by
  have hr : pts.filter (fun o => decide (o.id > 0.1)) = [] := by
    rw [List.filter_eq_nil_iff]
    intro o ho
    have := h o ho
    rw [decide_eq_true_eq]
    norm_num
    linarith
  rw [writeOrbit_eq, writesets_eq _ _ _ _ (by rw [hr]; simp), hr, puts_empty _ _ (fun _ _ => rfl)]
  intro s hs
  obtain ⟨t, -, rfl⟩ := List.mem_map.mp hs
  simp [col_length]

/-! ## The hypotheses can be met -/

/-- A memory with one point of marker 7 and one unused place. -/
noncomputable def sample : List (Pt ℝ) :=
  [{ id := 7, mileage := 1, r := 6, phi := 1, z := 0, p_r := 0, p_phi := 0, p_z := 0, ppar := 1,
     mu := 2, zeta := 0, weight := 1, charge := 2 * e, rho := 0, theta := 0, B_r := 0, B_phi := 5,
     B_z := 0, simmode := 2, pncrid := 0, pncrdi := 1 },
   (Orbit.init 2 : Orbit.Orb ℝ).buf 1]

example : (∀ o ∈ sample, o.id ≤ 0 ∨ 1 ≤ o.id) ∧ rows sample ≠ [] ∧ ∀ o ∈ rows sample, Whole o := by
  have hr : rows sample = [sample[0]] := by
    simp [rows, sample, Orbit.init]
  rw [hr]
  refine ⟨?_, by simp, ?_⟩
  · intro o ho
    simp only [sample, List.mem_cons, List.not_mem_nil, or_false] at ho
    rcases ho with rfl | rfl
    · right; norm_num
    · left; simp [Orbit.init]
  · intro o ho
    rw [List.mem_singleton] at ho
    subst ho
    exact ⟨⟨7, by simp [sample], by norm_num⟩, ⟨2, by simp [sample], by norm_num⟩,
      ⟨2, by simp [sample], by norm_num⟩, ⟨0, by simp [sample], by norm_num⟩,
      ⟨1, by simp [sample], by norm_num⟩⟩

end Ascot.C122
