import Verif.Model.InteractiveMarkers
import Verif.Props.C120_MarkerFile

/-!
# C171: interactive runs and runs of the program begin with the same markers
-/

set_option linter.unusedSectionVars false
set_option linter.unusedSimpArgs false

namespace Ascot.C171
open Ascot.MarkerFile Ascot.InteractiveMarkers
open Ascot.MarkerDoc (Prt Gc Fl)
open Ascot.Options (Res)
open Ascot.Particle (InP InGc InMl)

theorem back {n : ℕ} (c : Col n) (u : ℝ) (hu : u ≠ 0) (i : Fin n) : c.inUnit u i * u = c.si u i := by
  unfold Col.inUnit
  field_simp

theorem back_one {n : ℕ} (c : Col n) (i : Fin n) : c.inUnit 1 i = c.si 1 i := by
  unfold Col.inUnit
  simp

theorem deg_ne : InteractiveMarkers.deg ≠ 0 := by
  unfold InteractiveMarkers.deg
  exact div_ne_zero Real.pi_ne_zero (by norm_num)

theorem trunc_int (k : ℤ) : trunc (k : ℝ) = k := by
  unfold trunc
  split <;> simp

/-- The charge of every marker is a whole number of elementary charges. -/
def Whole {n : ℕ} (q : Col n) : Prop := ∀ i, ∃ k : ℤ, q.si MarkerDoc.e i = k * MarkerDoc.e

/-- The column is given in the unit `u` or without a unit. -/
def Plain {n : ℕ} (c : Col n) (u : ℝ) : Prop := c.unit = none ∨ c.unit = some u

theorem plain_si {n : ℕ} {c : Col n} {u : ℝ} (h : Plain c u) (i : Fin n) : c.si u i = c.val i * u := by
  unfold Col.si
  rcases h with h | h <;> rw [h] <;> rfl

theorem charge_back {n : ℕ} {q : Col n} (h : Whole q) (i : Fin n) :
    (trunc (q.inUnit eCharge i) : ℝ) * MarkerDoc.e = q.si eCharge i := by
  obtain ⟨k, hk⟩ := h i
  have he : MarkerDoc.e = eCharge := rfl
  rw [he] at hk ⊢
  have : q.inUnit eCharge i = k := by
    unfold Col.inUnit
    rw [hk]
    have := e_pos.ne'
    field_simp
  rw [this, trunc_int, hk]

/-- The table that is written. -/
noncomputable def tableGc {n : ℕ} (d : GcIn n) : Gc n where
  r := d.r.inUnit 1
  phi := d.phi.inUnit InteractiveMarkers.deg
  z := d.z.inUnit 1
  energy := d.energy.inUnit eCharge
  pitch := d.pitch
  zeta := d.zeta.inUnit 1
  mass := d.mass.inUnit amu
  charge := fun i => trunc (d.charge.inUnit eCharge i)
  anum := d.anum
  znum := d.znum
  weight := d.weight.inUnit 1
  time := d.time.inUnit 1
  id := d.ids

/-- Guiding centers, in any units: the program reads from the file exactly the markers of the interactive run. -/
theorem guiding_centers {n : ℕ} (d : GcIn n) (hn : n ≤ 2147483647) (hq : Whole d.charge) (hw : Plain d.weight 1) :
    readGuidingCenters (writeGc d) = .ok (List.ofFn (guidingCenter d)) := by
  rw [C120.guiding_centers_inv]
  refine ⟨n, hn, tableGc d, ?_, guidingCenter d, ?_, rfl⟩
  · refine ⟨rfl, ?_, ?_⟩ <;>
      simp only [List.forall_mem_cons, List.not_mem_nil, false_imp_iff, implies_true, and_true] <;>
      refine ⟨?_, ?_⟩ <;> simp [writeGc, group, tableGc, List.lookup]
  · intro i
    have w : d.weight.val i = d.weight.inUnit 1 i := by rw [back_one, plain_si hw, mul_one]
    exact ⟨by simp only [guidingCenter, tableGc, back_one]; rw [← back d.phi _ deg_ne]; rfl,
      (back d.mass _ u_pos.ne' i).symm, (back d.energy _ e_pos.ne' i).symm, rfl, (back_one d.zeta i).symm,
      (charge_back hq i).symm, rfl, rfl, w, (back_one d.time i).symm, rfl⟩

/-- The table that is written. -/
def tableFl {n : ℕ} (d : FlIn n) : Fl n where
  r := d.r.val
  phi := d.phi.val
  z := d.z.val
  pitch := d.pitch
  weight := d.weight.val
  time := d.time.val
  id := d.ids

theorem tableFl_in {n : ℕ} (d : FlIn n) : (tableFl d).In (writeFl d) := by
  refine ⟨rfl, ?_, ?_⟩
  · simp only [List.forall_mem_cons, List.not_mem_nil, false_imp_iff, implies_true, and_true]
    refine ⟨?_, ?_⟩ <;> simp [writeFl, group, tableFl, List.lookup]
  · simp [writeFl, group, tableFl, List.lookup]

/-- Field lines in the documented units: the program reads from the file exactly the markers of the interactive run. -/
theorem field_lines_partial {n : ℕ} (d : FlIn n) (hn : n ≤ 2147483647) (hr : Plain d.r 1) (hphi : Plain d.phi InteractiveMarkers.deg)
    (hz : Plain d.z 1) (ht : Plain d.time 1) : readFieldLines (writeFl d) = .ok (List.ofFn (fieldLine d)) := by
  rw [C120.field_lines_inv]
  refine ⟨n, hn, tableFl d, tableFl_in d, fieldLine d, ?_, rfl⟩
  intro i
  refine ⟨?_, rfl, rfl, ?_, rfl⟩
  · simp only [fieldLine, plain_si hr, plain_si hphi, plain_si hz, mul_one]
    rfl
  · simp only [fieldLine, plain_si ht, mul_one]
    rfl

/-- In other units they are not: a field line whose toroidal angle is given in radians starts elsewhere when it comes from the
file. -/
theorem field_lines_units {n : ℕ} (d : FlIn n) (i : Fin n) (hphi : d.phi.unit = some 1) (h0 : d.phi.val i ≠ 0) (l : List InMl)
    (h : readFieldLines (writeFl d) = .ok l) : l[i.1]? ≠ some (fieldLine d i) := by
  rw [C120.field_lines_inv] at h
  obtain ⟨m, hm, t, ht, q, hq, rfl⟩ := h
  have hin := tableFl_in d
  have e : n = m := by
    have h1 := hin.1
    rw [ht.1] at h1
    simpa using h1.symm
  subst e
  have e2 : t.phi = d.phi.val := by
    have h1 := hin.2.1 ("phi", (tableFl d).phi) (by simp)
    have h2 := ht.2.1 ("phi", t.phi) (by simp)
    dsimp only at h1 h2
    rw [h2] at h1
    exact List.ofFn_injective (Option.some.inj h1)
  intro hl
  have hl' : q i = fieldLine d i := by
    rw [List.getElem?_ofFn] at hl
    simpa using hl
  have hp := (hq i).1
  rw [hl'] at hp
  have hy := congrArg V3.y hp
  simp only [fieldLine, Col.si, hphi, Option.getD_some, mul_one, e2] at hy
  have h1 : d.phi.val i * (1 - MarkerDoc.deg) = 0 := by linarith
  rcases mul_eq_zero.1 h1 with h1 | h1
  · exact h0 h1
  · unfold MarkerDoc.deg at h1
    have := Real.pi_le_four
    linarith

/-- The table that is written. -/
noncomputable def tablePrt {n : ℕ} (d : PrtIn n) : Prt n where
  r := d.r.inUnit 1
  phi := d.phi.inUnit InteractiveMarkers.deg
  z := d.z.inUnit 1
  vr := d.vr.inUnit 1
  vphi := d.vphi.inUnit 1
  vz := d.vz.inUnit 1
  mass := d.mass.inUnit amu
  charge := fun i => trunc (d.charge.inUnit eCharge i)
  anum := d.anum
  znum := d.znum
  weight := d.weight.inUnit 1
  time := d.time.inUnit 1
  id := d.ids

/-- The two Lorentz factors are the same. -/
theorem gamma_eq (v : V3 ℝ) : gammaVelocity v = gammaV v := by
  unfold gammaVelocity gammaV
  have hc := c_pos.ne'
  have hs : Real.sqrt (v.x ^ 2 + v.y ^ 2 + v.z ^ 2) ^ 2 = v.x ^ 2 + v.y ^ 2 + v.z ^ 2 := Real.sq_sqrt (by positivity)
  have e : (1 - Real.sqrt (v.x ^ 2 + v.y ^ 2 + v.z ^ 2) / cLight) * (1 + Real.sqrt (v.x ^ 2 + v.y ^ 2 + v.z ^ 2) / cLight)
      = 1 - (v.x * v.x + v.y * v.y + v.z * v.z) / (cLight * cLight) := by
    have : (1 - Real.sqrt (v.x ^ 2 + v.y ^ 2 + v.z ^ 2) / cLight) * (1 + Real.sqrt (v.x ^ 2 + v.y ^ 2 + v.z ^ 2) / cLight)
      = 1 - Real.sqrt (v.x ^ 2 + v.y ^ 2 + v.z ^ 2) ^ 2 / (cLight * cLight) := by
      field_simp
      ring
    rw [this, hs]
    ring
  dsimp only
  rw [e]
  split
  · rw [Real.sqrt_div zero_le_one, Real.sqrt_one]
  · rfl

/-- What the program reads for the particles of an interactive run: the same markers with the momentum multiplied by `k`, the
value in kilograms of the unit in which the masses were given (the atomic mass unit if no unit was given). -/
theorem particles_read {n : ℕ} (d : PrtIn n) (hn : n ≤ 2147483647) (hq : Whole d.charge) (hw : Plain d.weight 1) :
    readParticles (writePrt d) = .ok (List.ofFn fun i => (particle d i).map fun m =>
      { m with p := ⟨m.p.x * d.mass.unit.getD MarkerDoc.amu, m.p.y * d.mass.unit.getD MarkerDoc.amu,
          m.p.z * d.mass.unit.getD MarkerDoc.amu⟩ }) := by
  rw [C120.particles_inv]
  refine ⟨n, hn, tablePrt d, ?_, ?_⟩
  · refine ⟨rfl, ?_, ?_⟩ <;>
      simp only [List.forall_mem_cons, List.not_mem_nil, false_imp_iff, implies_true, and_true] <;>
      refine ⟨?_, ?_⟩ <;> simp [writePrt, group, tablePrt, List.lookup]
  · congr 1
    funext i
    have w : d.weight.val i = d.weight.inUnit 1 i := by rw [back_one, plain_si hw, mul_one]
    have hd : d.phi.inUnit InteractiveMarkers.deg i * Real.pi / 180 = d.phi.si InteractiveMarkers.deg i := by
      rw [← back d.phi _ deg_ne, InteractiveMarkers.deg, mul_div_assoc]
    have hm := back d.mass _ u_pos.ne' i
    have hc := charge_back hq i
    have he : MarkerDoc.e = eCharge := rfl
    rw [he] at hc
    unfold InteractiveMarkers.particle MarkerFile.particle
    simp only [gamma_eq, tablePrt, back_one, hd, hc, hm, Option.map_map]
    congr 1
    funext g
    have hm' : d.mass.inUnit amu i * amu = d.mass.val i * d.mass.unit.getD MarkerDoc.amu := hm
    have p : ∀ v : ℝ, v * g * d.mass.inUnit amu i * amu = g * d.mass.val i * v * d.mass.unit.getD MarkerDoc.amu := by
      intro v
      rw [mul_assoc, hm']
      ring
    simp only [Function.comp, p]
    simp only [plain_si hw, mul_one]

/-- Particles whose masses are given in kilograms: the program reads from the file exactly the markers of the interactive run.
Missing: other masses, see `momentum_wrong`. -/
theorem particles_partial {n : ℕ} (d : PrtIn n) (hn : n ≤ 2147483647) (hq : Whole d.charge) (hw : Plain d.weight 1)
    (hm : d.mass.unit = some 1) : readParticles (writePrt d) = .ok (List.ofFn (particle d)) := by
  rw [particles_read d hn hq hw, hm]
  simp

/-- The momentum of an interactive particle whose mass is given in the documented unit, or without unit, is wrong: it is that of the
file divided by the value of the atomic mass unit, so more than 10²⁶ times too large, for every velocity below that of light. -/
theorem momentum_wrong {n : ℕ} (d : PrtIn n) (hn : n ≤ 2147483647) (hq : Whole d.charge) (hw : Plain d.weight 1)
    (hm : Plain d.mass MarkerDoc.amu) :
    ∃ f : Fin n → Option InP, readParticles (writePrt d) = .ok (List.ofFn f) ∧
      ∀ i a b, particle d i = some a → f i = some b →
        a.p = ⟨b.p.x / MarkerDoc.amu, b.p.y / MarkerDoc.amu, b.p.z / MarkerDoc.amu⟩ ∧ (10 : ℝ) ^ 26 * |b.p.x| ≤ |a.p.x| := by
  refine ⟨_, particles_read d hn hq hw, ?_⟩
  intro i a b ha hb
  have hu : d.mass.unit.getD MarkerDoc.amu = MarkerDoc.amu := by rcases hm with h | h <;> rw [h] <;> rfl
  rw [ha, hu] at hb
  simp only [Option.map_some, Option.some.injEq] at hb
  subst hb
  have hpos : 0 < MarkerDoc.amu := u_pos
  constructor
  · rcases a with ⟨_, ⟨x, y, z⟩, _, _, _, _, _, _, _⟩
    simp only [V3.mk.injEq]
    refine ⟨?_, ?_, ?_⟩ <;> field_simp
  · dsimp only
    rw [abs_mul, abs_of_pos hpos]
    have : (10 : ℝ) ^ 26 * MarkerDoc.amu ≤ 1 := by unfold MarkerDoc.amu; norm_num
    nlinarith [abs_nonneg a.p.x]

/-- What the program reads for the guiding centers of an interactive run, for any charges and units of the weight. -/
theorem guiding_centers_read {n : ℕ} (d : GcIn n) (hn : n ≤ 2147483647) :
    readGuidingCenters (writeGc d) = .ok (List.ofFn fun i => { guidingCenter d i with
      weight := d.weight.si 1 i, charge := (trunc (d.charge.inUnit eCharge i) : ℝ) * eCharge }) := by
  rw [C120.guiding_centers_inv]
  refine ⟨n, hn, tableGc d, ?_, _, ?_, rfl⟩
  · refine ⟨rfl, ?_, ?_⟩ <;>
      simp only [List.forall_mem_cons, List.not_mem_nil, false_imp_iff, implies_true, and_true] <;>
      refine ⟨?_, ?_⟩ <;> simp [writeGc, group, tableGc, List.lookup]
  · intro i
    exact ⟨by simp only [guidingCenter, tableGc, back_one]; rw [← back d.phi _ deg_ne]; rfl,
      (back d.mass _ u_pos.ne' i).symm, (back d.energy _ e_pos.ne' i).symm, rfl, (back_one d.zeta i).symm,
      rfl, rfl, rfl, (back_one d.weight i).symm, (back_one d.time i).symm, rfl⟩

/-- A charge that is not a whole number of elementary charges is kept by interactive runs and cut off in the file. -/
theorem charge_cut {n : ℕ} (d : GcIn n) (hn : n ≤ 2147483647) (i : Fin n) (hq : d.charge.si MarkerDoc.e i = 1 / 2 * MarkerDoc.e) :
    (guidingCenter d i).charge = 1 / 2 * MarkerDoc.e ∧
    ∃ q : Fin n → InGc, readGuidingCenters (writeGc d) = .ok (List.ofFn q) ∧ (q i).charge = 0 := by
  refine ⟨hq, _, guiding_centers_read d hn, ?_⟩
  have he : MarkerDoc.e = eCharge := rfl
  have : d.charge.inUnit eCharge i = 1 / 2 := by
    unfold Col.inUnit
    rw [← he, hq, he]
    have := e_pos.ne'
    field_simp
  dsimp only
  rw [this]
  have h0 : trunc (1 / 2 : ℝ) = 0 := by
    unfold trunc
    rw [if_pos (by norm_num)]
    norm_num
  rw [h0]
  simp

/-- The unit of the weight is heeded by the file only: a weight given in another unit than particles per second is different in
the interactive run. -/
theorem weight_unit {n : ℕ} (d : GcIn n) (hn : n ≤ 2147483647) (i : Fin n) (k : ℝ) (hu : d.weight.unit = some k) (hk : k ≠ 1)
    (h0 : d.weight.val i ≠ 0) :
    ∃ q : Fin n → InGc, readGuidingCenters (writeGc d) = .ok (List.ofFn q) ∧ (q i).weight = k * d.weight.val i ∧
      (guidingCenter d i).weight ≠ (q i).weight := by
  refine ⟨_, guiding_centers_read d hn, ?_, ?_⟩
  · simp only [Col.si, hu, Option.getD_some, mul_comm]
  · simp only [guidingCenter, Col.si, hu, Option.getD_some]
    intro e
    have : d.weight.val i * (k - 1) = 0 := by linarith
    rcases mul_eq_zero.1 this with h | h
    · exact h0 h
    · exact hk (by linarith)

/-! ## Examples -/

/-- A column with one number. -/
def one (x : ℝ) (u : Option ℝ) : Col 1 := ⟨fun _ => x, u⟩

/-- A deuteron with 1000 km/s along R, its mass in the unit `u`. -/
noncomputable def deuteron (x : ℝ) (u : Option ℝ) : PrtIn 1 where
  r := one 6 none
  phi := one 90 (some InteractiveMarkers.deg)
  z := one 0 none
  vr := one 1000000 none
  vphi := one 0 none
  vz := one 0 none
  mass := one x u
  charge := one 1 none
  anum := fun _ => 2
  znum := fun _ => 1
  weight := one 1 none
  time := one 0 none
  ids := fun _ => 1

theorem deuteron_whole (x : ℝ) (u : Option ℝ) : Whole (deuteron x u).charge := fun _ => ⟨1, by simp [deuteron, one, Col.si]⟩

/-- Interactive runs give it a momentum, so the theorem on its size is not void. -/
theorem deuteron_some (x : ℝ) (u : Option ℝ) : ∃ a, particle (deuteron x u) 0 = some a ∧ (0 < x → 0 < a.p.x) := by
  have hv : (1000000 : ℝ) ^ 2 + 0 ^ 2 + 0 ^ 2 < MarkerDoc.c ^ 2 := by unfold MarkerDoc.c; norm_num
  have hg : gammaVelocity ⟨1000000, 0, 0⟩ = some (1 / Real.sqrt (1 - (1000000 * 1000000 + 0 * 0 + 0 * 0) / (cLight * cLight))) := by
    rw [gamma_eq]
    unfold gammaV
    dsimp only
    rw [if_pos (by unfold cLight; norm_num)]
  unfold InteractiveMarkers.particle
  have e : (⟨(deuteron x u).vr.si 1 0, (deuteron x u).vphi.si 1 0, (deuteron x u).vz.si 1 0⟩ : V3 ℝ) = ⟨1000000, 0, 0⟩ := by
    simp [deuteron, one, Col.si]
  simp only [e, hg, Option.map_some, Option.some.injEq, exists_eq_left']
  intro hx
  have : (0 : ℝ) < 1 - (1000000 * 1000000 + 0 * 0 + 0 * 0) / (cLight * cLight) := by unfold cLight; norm_num
  have hs := Real.sqrt_pos.2 this
  have hm : (deuteron x u).mass.val 0 = x := rfl
  rw [hm]
  exact mul_pos (mul_pos (one_div_pos.2 hs) hx) (by simp [deuteron, one, Col.si])

example : ∃ d : PrtIn 1, Whole d.charge ∧ Plain d.weight 1 ∧ d.mass.unit = some 1 :=
  ⟨deuteron (2 * MarkerDoc.amu) (some 1), deuteron_whole _ _, Or.inl rfl, rfl⟩

example : ∃ d : PrtIn 1, Whole d.charge ∧ Plain d.weight 1 ∧ Plain d.mass MarkerDoc.amu ∧ ∃ a, particle d 0 = some a ∧ 0 < a.p.x := by
  obtain ⟨a, h1, h2⟩ := deuteron_some 2 (some MarkerDoc.amu)
  exact ⟨deuteron 2 (some MarkerDoc.amu), deuteron_whole _ _, Or.inl rfl, Or.inr rfl, a, h1, h2 (by norm_num)⟩

/-- A guiding center with its energy in joules. -/
noncomputable def alpha (q : ℝ) : GcIn 1 where
  r := one 6 none
  phi := one 1 (some 1)
  z := one 0 none
  energy := one 1e-13 (some 1)
  pitch := fun _ => 1 / 2
  zeta := one 0 none
  mass := one 4 none
  charge := one q none
  anum := fun _ => 4
  znum := fun _ => 2
  weight := one 1 none
  time := one 0 none
  ids := fun _ => 1

example : Whole (alpha 2).charge ∧ Plain (alpha 2).weight 1 ∧ (alpha (1 / 2)).charge.si MarkerDoc.e 0 = 1 / 2 * MarkerDoc.e :=
  ⟨fun _ => ⟨2, by simp [alpha, one, Col.si]⟩, Or.inl rfl, by simp [alpha, one, Col.si]⟩

example : ∃ d : GcIn 1, d.weight.unit = some 1000 ∧ d.weight.val 0 ≠ 0 :=
  ⟨{ alpha 2 with weight := one 3 (some 1000) }, rfl, by norm_num [one]⟩

/-- A field line at `x` in the unit `u`. -/
noncomputable def line (x : ℝ) (u : Option ℝ) : FlIn 1 where
  r := one 6 none
  phi := one x u
  z := one 0 none
  pitch := fun _ => 1
  weight := one 1 none
  time := one 0 none
  ids := fun _ => 1

example : Plain (line 90 (some InteractiveMarkers.deg)).r 1 ∧ Plain (line 90 (some InteractiveMarkers.deg)).phi InteractiveMarkers.deg ∧
    Plain (line 90 (some InteractiveMarkers.deg)).z 1 ∧ Plain (line 90 (some InteractiveMarkers.deg)).time 1 :=
  ⟨Or.inl rfl, Or.inr rfl, Or.inl rfl, Or.inl rfl⟩

example : (line 1 (some 1)).phi.unit = some 1 ∧ (line 1 (some 1)).phi.val 0 ≠ 0 ∧ ∃ l, readFieldLines (writeFl (line 1 (some 1))) = .ok l := by
  refine ⟨rfl, by norm_num [line, one], ?_⟩
  refine ⟨_, C120.field_lines_inv.2 ⟨1, by norm_num, tableFl (line 1 (some 1)), tableFl_in _,
    fun i => { pos := ⟨(line 1 (some 1)).r.val i, (line 1 (some 1)).phi.val i * MarkerDoc.deg, (line 1 (some 1)).z.val i⟩
               pitch := 1, weight := 1, time := 0, id := 1 }, ?_, rfl⟩⟩
  intro i
  exact ⟨rfl, rfl, rfl, rfl, rfl⟩

end Ascot.C171
