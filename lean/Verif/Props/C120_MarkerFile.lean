import Verif.Lemmas.MarkerFile
import Verif.Spec.MarkerDoc

/-!
# C120: the simulated markers are those in the marker file
-/

set_option linter.unusedSectionVars false
set_option linter.unusedSimpArgs false

namespace Ascot.C120
open Ascot.MarkerFile Ascot.MarkerDoc
open Ascot.Options (Res bind_ok pure_ok)
open Ascot.Particle (InP InGc InMl)

/-- What a successful read of particles means. -/
theorem particles_inv {g : Group} {l : List (Option InP)} :
    readParticles g = .ok l ↔ ∃ n, n ≤ 2147483647 ∧ ∃ t : Prt n, t.In g ∧
      l = List.ofFn fun i => particle (t.r i) (t.phi i) (t.z i) (t.vr i) (t.vphi i) (t.vz i)
        (t.mass i) (t.charge i) (t.anum i) (t.znum i) (t.weight i) (t.time i) (t.id i) := by
  unfold readParticles
  simp only [bind_ok, pure_ok, readReals_ok, readInts_ok, readN_ok, Prt.In, List.forall_mem_cons,
    List.not_mem_nil, false_imp_iff, implies_true, and_true]
  constructor
  · rintro ⟨n, ⟨h0, hn⟩, r, h1, phi, h2, z, h3, vr, h4, vphi, h5, vz, h6, mass, h7, charge, h8,
      anum, h9, znum, h10, weight, h11, time, h12, id, h13, h⟩
    exact ⟨n, hn, ⟨r, phi, z, vr, vphi, vz, mass, charge, anum, znum, weight, time, id⟩,
      ⟨h0, ⟨h1, h2, h3, h4, h5, h6, h7, h11, h12⟩, h8, h9, h10, h13⟩, h.symm⟩
  · rintro ⟨n, hn, t, ⟨h0, ⟨h1, h2, h3, h4, h5, h6, h7, h11, h12⟩, h8, h9, h10, h13⟩, h⟩
    exact ⟨n, ⟨h0, hn⟩, _, h1, _, h2, _, h3, _, h4, _, h5, _, h6, _, h7, _, h8, _, h9, _, h10, _,
      h11, _, h12, _, h13, h.symm⟩

/-- The momentum of a slow particle gives its velocity back. -/
theorem velocity_momentum (v : V3 ℝ) (m : ℝ) (hm : 0 < m) (hv : v.x ^ 2 + v.y ^ 2 + v.z ^ 2 < c ^ 2) :
    ∃ gamma, gammaV v = some gamma ∧
      velocity m ⟨v.x * gamma * m, v.y * gamma * m, v.z * gamma * m⟩ = v := by
  have hc : (0 : ℝ) < c := by unfold MarkerDoc.c; norm_num
  have hcc : cLight = c := rfl
  set s := v.x ^ 2 + v.y ^ 2 + v.z ^ 2 with hs
  set a := 1 - s / c ^ 2 with ha
  have ha0 : 0 < a := by
    rw [ha, sub_pos, div_lt_one (by positivity)]; exact hv
  have e1 : (1 - (v.x * v.x + v.y * v.y + v.z * v.z) / (cLight * cLight)) = a := by
    rw [ha, hs, hcc]; ring
  refine ⟨1 / Real.sqrt a, ?_, ?_⟩
  · unfold gammaV
    simp only [e1]
    rw [if_pos ha0]
  · have hsq : Real.sqrt a ^ 2 = a := Real.sq_sqrt ha0.le
    have hsp : 0 < Real.sqrt a := Real.sqrt_pos.mpr ha0
    have key : Real.sqrt (1 + ((v.x * (1 / Real.sqrt a) * m) ^ 2 + (v.y * (1 / Real.sqrt a) * m) ^ 2
        + (v.z * (1 / Real.sqrt a) * m) ^ 2) / (m * c) ^ 2) = 1 / Real.sqrt a := by
      rw [Real.sqrt_eq_iff_mul_self_eq (by positivity) (by positivity)]
      have : ((v.x * (1 / Real.sqrt a) * m) ^ 2 + (v.y * (1 / Real.sqrt a) * m) ^ 2
        + (v.z * (1 / Real.sqrt a) * m) ^ 2) / (m * c) ^ 2 = (s / c ^ 2) / Real.sqrt a ^ 2 := by
        rw [hs]; field_simp
      rw [this, hsq]
      have h1 : s / c ^ 2 = 1 - a := by rw [ha]; ring
      rw [h1]
      have : 1 / Real.sqrt a * (1 / Real.sqrt a) = 1 / a := by
        rw [div_mul_div_comm, one_mul, Real.mul_self_sqrt ha0.le]
      rw [this]; field_simp; ring
    unfold velocity
    simp only [key]
    ext <;> simp <;> field_simp

/-- All particles of the file are read, in order: each one that is slower than light gets the
position, velocity and other values of its row, in SI units.  The others get coordinates that are
not numbers. -/
theorem particles {n : ℕ} (t : Prt n) (g : Group) (h : t.In g) (hn : n ≤ 2147483647)
    (hm : ∀ i, 0 < t.mass i) :
    ∃ q : Fin n → Option InP, readParticles g = .ok (List.ofFn q) ∧
      ∀ i, (t.Slow i → ∃ m, q i = some m ∧ t.Row i m) ∧ (¬ t.Slow i → q i = none) := by
  refine ⟨_, particles_inv.mpr ⟨n, hn, t, h, rfl⟩, fun i => ⟨fun hs => ?_, fun hs => ?_⟩⟩
  · obtain ⟨gamma, h1, h2⟩ := velocity_momentum ⟨t.vr i, t.vphi i, t.vz i⟩ (t.mass i * MarkerDoc.amu)
      (mul_pos (hm i) u_pos) hs
    unfold particle
    rw [h1]
    refine ⟨_, rfl, ?_, rfl, ?_, rfl, rfl, rfl, rfl, rfl, rfl⟩
    · simp [deg, mul_div_assoc]
    · have h3 : velocity (t.mass i * MarkerFile.amu) _ = _ := h2
      simpa [mul_assoc, show MarkerDoc.amu = MarkerFile.amu from rfl] using h3
  · unfold particle gammaV
    have hc : (0 : ℝ) < c := by unfold MarkerDoc.c; norm_num
    have hcc : cLight = c := rfl
    rw [if_neg]
    · rfl
    · unfold Prt.Slow at hs
      rw [hcc]
      rw [not_lt] at hs ⊢
      rw [sub_nonpos, one_le_div (by positivity)]
      nlinarith

/-- Particles are read only if all data sets are there, with one value for each marker. -/
theorem particles_needed (g : Group) (l : List (Option InP)) (h : readParticles g = .ok l) :
    ∃ t : Prt l.length, t.In g := by
  obtain ⟨n, -, t, ht, rfl⟩ := particles_inv.mp h
  have : (List.ofFn fun i => particle (t.r i) (t.phi i) (t.z i) (t.vr i) (t.vphi i) (t.vz i)
        (t.mass i) (t.charge i) (t.anum i) (t.znum i) (t.weight i) (t.time i) (t.id i)).length = n :=
    List.length_ofFn
  rw [this]
  exact ⟨t, ht⟩

theorem guiding_centers_inv {g : Group} {l : List InGc} :
    readGuidingCenters g = .ok l ↔ ∃ n, n ≤ 2147483647 ∧ ∃ t : Gc n, t.In g ∧
      ∃ q : Fin n → InGc, (∀ i, t.Row i (q i)) ∧ l = List.ofFn q := by
  unfold readGuidingCenters
  simp only [bind_ok, pure_ok, readReals_ok, readInts_ok, readN_ok, Gc.In, List.forall_mem_cons,
    List.not_mem_nil, false_imp_iff, implies_true, and_true]
  constructor
  · rintro ⟨n, ⟨h0, hn⟩, r, h1, phi, h2, z, h3, vr, h4, vphi, h5, vz, h6, mass, h7, charge, h8,
      anum, h9, znum, h10, weight, h11, time, h12, id, h13, h⟩
    refine ⟨n, hn, ⟨r, phi, z, vr, vphi, vz, mass, charge, anum, znum, weight, time, id⟩,
      ⟨h0, ⟨h1, h2, h3, h4, h5, h6, h7, h11, h12⟩, h8, h9, h10, h13⟩, _, fun i => ?_, h.symm⟩
    exact ⟨by simp [deg, mul_div_assoc], rfl, rfl, rfl, rfl, rfl, rfl, rfl, rfl, rfl, rfl⟩
  · rintro ⟨n, hn, t, ⟨h0, ⟨h1, h2, h3, h4, h5, h6, h7, h11, h12⟩, h8, h9, h10, h13⟩, q, hq, h⟩
    refine ⟨n, ⟨h0, hn⟩, _, h1, _, h2, _, h3, _, h4, _, h5, _, h6, _, h7, _, h8, _, h9, _, h10, _,
      h11, _, h12, _, h13, ?_⟩
    rw [h]
    congr 1
    funext i
    obtain ⟨a1, a2, a3, a4, a5, a6, a7, a8, a9, a10, a11⟩ := hq i
    cases hqi : q i
    rw [hqi] at a1 a2 a3 a4 a5 a6 a7 a8 a9 a10 a11
    simp only at a1 a2 a3 a4 a5 a6 a7 a8 a9 a10 a11
    simp only [a1, a2, a3, a4, a5, a6, a7, a8, a9, a10, a11, deg, mul_div_assoc]
    rfl

/-- Guiding centers are read, in order and in SI units, and only if the whole table is there. -/
theorem guiding_centers (g : Group) (l : List InGc) :
    readGuidingCenters g = .ok l ↔ l.length ≤ 2147483647 ∧
      ∃ t : Gc l.length, t.In g ∧ ∀ i, t.Row i (l.get i) := by
  rw [guiding_centers_inv]
  constructor
  · rintro ⟨n, hn, t, ht, q, hq, rfl⟩
    have e : (List.ofFn q).length = n := List.length_ofFn
    refine ⟨by rw [e]; exact hn, ?_⟩
    revert t
    intro t ht hq
    generalize hl : List.ofFn q = l at e ⊢
    subst e
    refine ⟨t, ht, fun i => ?_⟩
    rw [show l.get i = q i from
      (congrFun (List.ofFn_injective (hl.trans (List.ofFn_get l).symm)) i).symm]
    exact hq i
  · rintro ⟨hn, t, ht, h⟩
    exact ⟨_, hn, t, ht, l.get, h, by simp⟩

theorem field_lines_inv {g : Group} {l : List InMl} :
    readFieldLines g = .ok l ↔ ∃ n, n ≤ 2147483647 ∧ ∃ t : Fl n, t.In g ∧
      ∃ q : Fin n → InMl, (∀ i, t.Row i (q i)) ∧ l = List.ofFn q := by
  unfold readFieldLines
  simp only [bind_ok, pure_ok, readReals_ok, readInts_ok, readN_ok, Fl.In, List.forall_mem_cons,
    List.not_mem_nil, false_imp_iff, implies_true, and_true]
  constructor
  · rintro ⟨n, ⟨h0, hn⟩, r, h1, phi, h2, z, h3, pitch, h4, weight, h11, time, h12, id, h13, h⟩
    refine ⟨n, hn, ⟨r, phi, z, pitch, weight, time, id⟩,
      ⟨h0, ⟨h1, h2, h3, h4, h11, h12⟩, h13⟩, _, fun i => ?_, h.symm⟩
    exact ⟨by simp [deg, mul_div_assoc], rfl, rfl, rfl, rfl⟩
  · rintro ⟨n, hn, t, ⟨h0, ⟨h1, h2, h3, h4, h11, h12⟩, h13⟩, q, hq, h⟩
    refine ⟨n, ⟨h0, hn⟩, _, h1, _, h2, _, h3, _, h4, _, h11, _, h12, _, h13, ?_⟩
    rw [h]
    congr 1
    funext i
    obtain ⟨a1, a2, a3, a4, a5⟩ := hq i
    cases hqi : q i
    rw [hqi] at a1 a2 a3 a4 a5
    simp only at a1 a2 a3 a4 a5
    simp only [a1, a2, a3, a4, a5, deg, mul_div_assoc]

/-- Field lines are read, in order and in SI units, and only if the whole table is there. -/
theorem field_lines (g : Group) (l : List InMl) :
    readFieldLines g = .ok l ↔ l.length ≤ 2147483647 ∧
      ∃ t : Fl l.length, t.In g ∧ ∀ i, t.Row i (l.get i) := by
  rw [field_lines_inv]
  constructor
  · rintro ⟨n, hn, t, ht, q, hq, rfl⟩
    have e : (List.ofFn q).length = n := List.length_ofFn
    refine ⟨by rw [e]; exact hn, ?_⟩
    revert t
    intro t ht hq
    generalize hl : List.ofFn q = l at e ⊢
    subst e
    refine ⟨t, ht, fun i => ?_⟩
    rw [show l.get i = q i from
      (congrFun (List.ofFn_injective (hl.trans (List.ofFn_get l).symm)) i).symm]
    exact hq i
  · rintro ⟨hn, t, ht, h⟩
    exact ⟨_, hn, t, ht, l.get, h, by simp⟩

/-- With a single kind of markers in the file, these are the markers of the simulation; a file with
none, or with a table that is not complete, is refused. -/
theorem kind (g : Group) :
    markerRead ⟨some g, none, none⟩ = (match readParticles g with
      | .ok l => .ok (some (.prt l)) | .fail => .ok none | .ub => .ub) ∧
    markerRead ⟨none, some g, none⟩ = (match readGuidingCenters g with
      | .ok l => .ok (some (.gc l)) | .fail => .ok none | .ub => .ub) ∧
    markerRead ⟨none, none, some g⟩ = (match readFieldLines g with
      | .ok l => .ok (some (.ml l)) | .fail => .ok none | .ub => .ub) ∧
    markerRead ⟨none, none, none⟩ = .ok none := by
  refine ⟨?_, ?_, ?_, rfl⟩
  · unfold markerRead part
    simp only
    cases readParticles g <;> rfl
  · unfold markerRead part
    simp only
    cases readGuidingCenters g <;> rfl
  · unfold markerRead part
    simp only
    cases readFieldLines g <;> rfl

/-- A data set that is missing is noticed. -/
theorem missing (g : Group) (l : List (Option InP))
    (h : ∃ x ∈ ["r", "phi", "z", "vr", "vphi", "vz", "mass", "weight", "time"], g.reals x = none) :
    readParticles g ≠ .ok l := by
  intro hr
  obtain ⟨n, -, t, ⟨-, ht, -⟩, -⟩ := particles_inv.mp hr
  obtain ⟨x, hx, h⟩ := h
  simp only [List.forall_mem_cons, List.not_mem_nil, false_imp_iff, implies_true, and_true] at ht
  simp only [List.mem_cons, List.not_mem_nil, or_false] at hx
  obtain ⟨h1, h2, h3, h4, h5, h6, h7, h8, h9⟩ := ht
  rcases hx with rfl | rfl | rfl | rfl | rfl | rfl | rfl | rfl | rfl <;> simp_all

/-! ## Writing -/

/-- The table that is written. -/
noncomputable def written (ps : List InP) : Prt ps.length where
  r := fun i => (ps.get i).pos.x
  phi := fun i => (ps.get i).pos.y * 180 / Real.pi
  z := fun i => (ps.get i).pos.z
  vr := fun i => (ps.get i).p.x / ((ps.get i).mass * gammaW (ps.get i))
  vphi := fun i => (ps.get i).p.y / ((ps.get i).mass * gammaW (ps.get i))
  vz := fun i => (ps.get i).p.z / ((ps.get i).mass * gammaW (ps.get i))
  mass := fun i => (ps.get i).mass / MarkerFile.amu
  charge := fun i => cRound ((ps.get i).charge / eCharge)
  anum := fun i => (ps.get i).anum
  znum := fun i => (ps.get i).znum
  weight := fun i => (ps.get i).weight
  time := fun i => (ps.get i).time
  id := fun i => (ps.get i).id

theorem map_ofFn {α β : Type} (l : List α) (f : α → β) : l.map f = List.ofFn fun i => f (l.get i) := by
  conv_lhs => rw [← List.ofFn_get l]
  rw [List.map_ofFn]; rfl

theorem written_in (ps : List InP) (h : ps ≠ []) : (written ps).In (writeParticles ps) := by
  have h0 : ps.length ≠ 0 := fun e => h (List.length_eq_zero_iff.mp e)
  refine ⟨by simp [writeParticles], ?_, ?_⟩ <;>
  simp only [List.forall_mem_cons, List.not_mem_nil, false_imp_iff, implies_true, and_true,
    writeParticles, if_neg h0, written, map_ofFn, reduceIte, String.reduceEq]

/-- Particles that are written and read again keep their order, positions, masses, charges (if a
multiple of the elementary charge), weights, times and identifiers; those at rest stay at rest.
Missing: the momentum of the others, see `write_violation`. -/
theorem write_read_partial (ps : List InP) (h : ps ≠ []) (hn : ps.length ≤ 2147483647)
    (hq : ∀ m ∈ ps, ∃ k : ℤ, m.charge = k * MarkerDoc.e) :
    ∃ q : Fin ps.length → Option InP, readParticles (writeParticles ps) = .ok (List.ofFn q) ∧
      ∀ i, (∀ m, q i = some m → ∃ p, m = { ps.get i with p := p }) ∧
        ((ps.get i).p = ⟨0, 0, 0⟩ → q i = some (ps.get i)) := by
  refine ⟨_, particles_inv.mpr ⟨_, hn, _, written_in ps h, rfl⟩, fun i => ?_⟩
  have hmem : ps.get i ∈ ps := List.get_mem ps i
  obtain ⟨k, hk⟩ := hq _ hmem
  have hpi := Real.pi_ne_zero
  have hu := u_pos.ne'
  have he := e_pos.ne'
  have ec : ((cRound ((ps.get i).charge / eCharge) : ℤ) : ℝ) * eCharge = (ps.get i).charge := by
    rw [hk, show MarkerDoc.e = eCharge from rfl, mul_div_assoc, div_self he, mul_one, cRound_int]
  have ep : (ps.get i).pos.y * 180 / Real.pi * Real.pi / 180 = (ps.get i).pos.y := by field_simp
  have em : (ps.get i).mass / MarkerFile.amu * MarkerFile.amu = (ps.get i).mass := by field_simp
  unfold particle
  constructor
  · intro m hm
    rw [Option.map_eq_some_iff] at hm
    obtain ⟨gamma, -, rfl⟩ := hm
    simp only [written, ec, ep, em]
    exact ⟨_, rfl⟩
  · intro hp
    have hg : gammaV ⟨(written ps).vr i, (written ps).vphi i, (written ps).vz i⟩ = some 1 := by
      simp only [written, hp, gammaV]
      simp
    rw [hg]
    simp only [Option.map_some, written, ec, ep, em]
    generalize ps.get i = m at *
    cases m
    simp_all

/-- A proton with momentum `2 m c` is written with a velocity above that of light, which is not
read back. -/
theorem write_violation (q : InP) (hm : q.mass = MarkerDoc.amu)
    (hp : q.p = ⟨2 * MarkerDoc.amu * c, 0, 0⟩) :
    (∃ v, (writeParticles [q]).reals "vr" = some [v] ∧ c < v) ∧
    readParticles (writeParticles [q]) = .ok [none] := by
  have hc : (0 : ℝ) < c := by unfold MarkerDoc.c; norm_num
  have hcc : cLight = c := rfl
  have hu : (0 : ℝ) < MarkerDoc.amu := u_pos
  have hu1 : 4 * MarkerDoc.amu < 3 := by unfold MarkerDoc.amu; norm_num
  have hg : gammaW q = Real.sqrt (1 + 4 * MarkerDoc.amu) := by
    unfold gammaW
    rw [hm, hp, hcc]
    congr 1
    simp only
    generalize MarkerDoc.amu = u at *
    generalize MarkerDoc.c = c at *
    field_simp; ring
  have hs2 : Real.sqrt (1 + 4 * MarkerDoc.amu) < 2 := by
    rw [Real.sqrt_lt' (by norm_num)]; linarith
  have hs0 : 0 < Real.sqrt (1 + 4 * MarkerDoc.amu) := Real.sqrt_pos.mpr (by linarith)
  have hv : c < q.p.x / (q.mass * gammaW q) := by
    rw [hg, hm, hp, lt_div_iff₀ (by positivity)]
    simp only
    have : 0 < MarkerDoc.amu * c := by positivity
    nlinarith
  refine ⟨⟨_, by simp [writeParticles], hv⟩, ?_⟩
  rw [particles_inv]
  refine ⟨1, by norm_num, written [q], written_in [q] (by simp), ?_⟩
  have : ¬ (0 : ℝ) < 1 - (q.p.x / (q.mass * gammaW q) * (q.p.x / (q.mass * gammaW q)) +
      q.p.y / (q.mass * gammaW q) * (q.p.y / (q.mass * gammaW q)) +
      q.p.z / (q.mass * gammaW q) * (q.p.z / (q.mass * gammaW q))) / (cLight * cLight) := by
    rw [hcc, not_lt, sub_nonpos, one_le_div (by positivity)]
    nlinarith [mul_self_nonneg (q.p.y / (q.mass * gammaW q)),
      mul_self_nonneg (q.p.z / (q.mass * gammaW q))]
  simp [written, particle, gammaV, this]

/-! ## The hypotheses can be met -/

/-- A table with two deuterons, one of them at rest. -/
noncomputable def sampleT : Prt 2 where
  r := ![6, 7]
  phi := ![90, 0]
  z := ![0, 1]
  vr := ![0, 0]
  vphi := ![100000, 0]
  vz := ![0, 0]
  mass := ![2, 2]
  charge := ![1, 1]
  anum := ![2, 2]
  znum := ![1, 1]
  weight := ![1, 3]
  time := ![0, 0]
  id := ![1, 2]

/-- A file with that table. -/
noncomputable def sampleG : Group where
  reals := fun x => [("r", sampleT.r), ("phi", sampleT.phi), ("z", sampleT.z), ("vr", sampleT.vr),
    ("vphi", sampleT.vphi), ("vz", sampleT.vz), ("mass", sampleT.mass), ("weight", sampleT.weight),
    ("time", sampleT.time)].lookup x |>.map List.ofFn
  ints := fun x => if x = "n" then some [2] else
    [("charge", sampleT.charge), ("anum", sampleT.anum), ("znum", sampleT.znum),
      ("id", sampleT.id)].lookup x |>.map List.ofFn

example : sampleT.In sampleG ∧ (∀ i, 0 < sampleT.mass i) ∧ ∀ i, sampleT.Slow i := by
  refine ⟨⟨by simp [sampleG], ?_, ?_⟩, ?_, ?_⟩
  · simp [sampleG, List.lookup]
  · simp [sampleG, List.lookup]
  · intro i; fin_cases i <;> simp [sampleT]
  · intro i; fin_cases i <;> simp [sampleT, Prt.Slow, MarkerDoc.c] <;> norm_num

noncomputable example : InP :=
  { pos := ⟨6, 0, 0⟩, p := ⟨2 * MarkerDoc.amu * c, 0, 0⟩, mass := MarkerDoc.amu,
    charge := MarkerDoc.e, anum := 1, znum := 1, weight := 1, time := 0, id := 1 }

end Ascot.C120
