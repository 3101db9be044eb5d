import Verif.Lemmas.EndCond
import Verif.Model.ToState
import Mathlib.Data.Rat.Floor
import Mathlib.Tactic.NormNum
import Mathlib.Tactic.IntervalCases

/-!
# C07-C12: end conditions
-/

namespace Ascot.C07
open Ascot.EndCond

variable {K : Type} [Field K] [LinearOrder K] [IsStrictOrderedRing K] [FloorRing K]

/-- The flags after the check are those before it plus the conditions that are
enabled and met; the marker stops iff a condition is met. -/
theorem fo_endcond (o : Opts K) (e : Env K) (ekin : Fo K → K) (i f : Fo K)
    (hrun : f.running = true) (herr : f.err = 0)
    (htemp : let res := checkFo o e ekin i f
      o.on .emin ∨ o.on .therm → (e.temp f.rho res.r res.phi res.z res.time).1 = 0) :
    let res := checkFo o e ekin i f
    (∀ c : Cond, res.endcond.testBit c.bit = true ↔
      f.endcond.testBit c.bit = true ∨ Met o (foFacts o e ekin i f res) c) ∧
    (res.running = false ↔ ∃ c, Met o (foFacts o e ekin i f res) c) ∧ res.err = 0 := by
  obtain ⟨m0, m, x, _, _, hc, hx, g1, g2, g3, g4, g5, g6, g7⟩ := fo_normal o e ekin i f hrun
  intro res
  have hpos : res.r = m.r ∧ res.phi = m.phi ∧ res.z = m.z ∧ res.time = m.time ∧
      res.bounces = m.bounces := by
    show (checkFo o e ekin i f).r = _ ∧ (checkFo o e ekin i f).phi = _ ∧
      (checkFo o e ekin i f).z = _ ∧ (checkFo o e ekin i f).time = _ ∧
      (checkFo o e ekin i f).bounces = _
    rw [hc]; unfold stepErr fail; split_ifs <;> simp
  obtain ⟨p1, p2, p3, p4, p5⟩ := hpos
  have htemp' : o.on .emin ∨ o.on .therm → (e.temp f.rho res.r res.phi res.z res.time).1 = 0 := htemp
  have hnt : ¬ TempFails o e m := by
    rintro ⟨a, b⟩
    have := htemp' a
    rw [p1, p2, p3, p4, ← g1] at this
    exact b this
  have hres : res = chain o x m := by
    show checkFo o e ekin i f = _
    rw [hc, fail, if_neg hnt]
    exact stepErr_eq _ (by rw [chain_err, g5, herr])
  have hmet : ∀ c, Met o x c ↔ Met o (foFacts o e ekin i f res) c := by
    intro c
    rw [hx]
    by_cases hon : o.on .emin ∨ o.on .therm
    · have ht := htemp' hon
      rw [p1, p2, p3, p4, ← g1] at ht
      have : foFacts o e ekin i f res = foFacts o e ekin i f m := by
        unfold foFacts; rw [p1, p2, p3, p4, p5]
      rw [this]
      cases c <;> simp [Met, foFacts, ht, g1] <;> rw [← g1] <;> simp [ht]
    · have h1 : ¬ o.on .emin := fun h => hon (.inl h)
      have h2 : ¬ o.on .therm := fun h => hon (.inr h)
      cases c <;> simp [Met, foFacts, h1, h2, p2, p5]
  refine ⟨?_, ?_, ?_⟩
  · intro c
    rw [← hmet c, hres, chain_endcond, g6]
  · simp only [← hmet]
    rw [hres, chain_running_false _ _ _ g7]
  · rw [hres, chain_err, g5, herr]

/-- What else the check writes: at a wall hit, time and position are moved to the hit
point and the tile is recorded; the bounce counter changes only if the parallel
momentum changed sign; nothing else changes. -/
theorem fo_position (o : Opts K) (e : Env K) (ekin : Fo K → K) (i f : Fo K)
    (hrun : f.running = true) :
    let res := checkFo o e ekin i f
    let h := e.wallHit i.r i.phi i.z f.r f.phi f.z
    (o.on .wall ∧ 0 < h.1 →
      res.time = i.time + h.2 * (f.time - i.time) ∧ res.r = i.r + h.2 * (f.r - i.r) ∧
      res.phi = i.phi + h.2 * (f.phi - i.phi) ∧ res.z = i.z + h.2 * (f.z - i.z) ∧
      res.walltile = h.1) ∧
    (¬ (o.on .wall ∧ 0 < h.1) → res.time = f.time ∧ res.r = f.r ∧ res.phi = f.phi ∧
      res.z = f.z ∧ res.walltile = f.walltile) ∧
    res.mileage = f.mileage ∧ res.cputime = f.cputime ∧ res.rho = f.rho ∧ res.theta = f.theta ∧
    (¬ FoTurned i f → res.bounces = f.bounces) ∧
    (FoTurned i f → res.bounces = bounce f.bounces) := by
  obtain ⟨m0, m, x, hm0, hm, hc, hx, g1, g2, g3, g4, g5, g6, g7⟩ := fo_normal o e ekin i f hrun
  intro res h
  have hpos : res.r = m.r ∧ res.phi = m.phi ∧ res.z = m.z ∧ res.time = m.time ∧
      res.bounces = m.bounces ∧ res.walltile = m.walltile ∧ res.mileage = m.mileage ∧
      res.cputime = m.cputime ∧ res.rho = m.rho ∧ res.theta = m.theta := by
    simp only [res]
    rw [hc]; unfold stepErr fail; split_ifs <;> simp
  obtain ⟨p1, p2, p3, p4, p5, p6, p7, p8, p9, p10⟩ := hpos
  have hon : o.on .wall ↔ o.active &&& wall ≠ 0 := (on_wall _).symm
  have e0 : m0.time = f.time ∧ m0.r = f.r ∧ m0.phi = f.phi ∧ m0.z = f.z ∧ m0.walltile = f.walltile ∧
      (¬ FoTurned i f → m0.bounces = f.bounces) ∧ (FoTurned i f → m0.bounces = bounce f.bounces) := by
    rw [hm0]; unfold stepBounce
    by_cases ht : FoTurned i f <;> simp [ht]
  obtain ⟨e1, e2, e3, e4, e5, e6, e7⟩ := e0
  rw [p1, p2, p3, p4, p5, p6, p7, p8, p9, p10]
  by_cases hh : o.on .wall ∧ 0 < h.1
  · rw [if_pos ⟨hon.1 hh.1, hh.2⟩] at hm
    subst hm
    refine ⟨fun _ => ?_, fun hn => absurd hh hn, g3, g4, g1, g2, e6, e7⟩
    simp [hitLane, e1, e2, e3, e4, h]
  · rw [if_neg (fun hc => hh ⟨hon.2 hc.1, hc.2⟩)] at hm
    subst hm
    exact ⟨fun hn => absurd hn hh, fun _ => ⟨e1, e2, e3, e4, e5⟩, g3, g4, g1, g2, e6, e7⟩

/-- If the plasma temperature is needed but cannot be evaluated, the marker stops with
that error and reports no end condition. -/
theorem fo_error (o : Opts K) (e : Env K) (ekin : Fo K → K) (i f : Fo K)
    (hrun : f.running = true)
    (htemp : let res := checkFo o e ekin i f
      (o.on .emin ∨ o.on .therm) ∧ (e.temp f.rho res.r res.phi res.z res.time).1 ≠ 0) :
    let res := checkFo o e ekin i f
    res.err = (e.temp f.rho res.r res.phi res.z res.time).1 ∧ res.endcond = 0 ∧
      res.running = false := by
  obtain ⟨m0, m, x, hm0, hm, hc, hx, g1, g2, g3, g4, g5, g6, g7⟩ := fo_normal o e ekin i f hrun
  intro res
  have hpos : res.r = m.r ∧ res.phi = m.phi ∧ res.z = m.z ∧ res.time = m.time := by
    simp only [res]
    rw [hc]; unfold stepErr fail; split_ifs <;> simp
  obtain ⟨p1, p2, p3, p4⟩ := hpos
  have ht : TempFails o e m := by
    refine ⟨htemp.1, ?_⟩
    have := htemp.2
    rw [g1, ← p1, ← p2, ← p3, ← p4]; exact this
  rw [p1, p2, p3, p4, ← g1]
  have hf : fail (TempFails o e m) (e.temp m.rho m.r m.phi m.z m.time).1 m =
      { m with err := (e.temp m.rho m.r m.phi m.z m.time).1, running := false } := by
    unfold fail; rw [if_pos ht]
  simp only [res]
  rw [hc, hf]
  have h2 := ht.2
  unfold stepErr
  rw [if_pos (by rw [chain_err]; exact h2)]
  refine ⟨by simp, rfl, ?_⟩
  have := chain_running o x { m with err := (e.temp m.rho m.r m.phi m.z m.time).1, running := false }
  simpa using this

/-- Markers that are not running are not changed. -/
theorem fo_not_running (o : Opts K) (e : Env K) (ekin : Fo K → K) (i f : Fo K)
    (hrun : f.running = false) : checkFo o e ekin i f = f.toLane := by
  simp [checkFo, hrun]

/-! Example: time limit and wall enabled; a marker that passes the time limit and hits
tile 7 half way gets both flags and is placed at the hit point. -/

def exOpts : Opts ℚ where
  active := 9
  reverseTime := false
  torAndPol := false
  simMode := 1
  limSimtime := 1
  maxMileage := 100
  maxCputime := 100
  minRho := 0
  maxRho := 1
  minEkin := 0
  minThermal := 0
  maxTororb := 100
  maxPolorb := 100

def exEnv : Env ℚ where
  wallHit := fun _ _ _ _ _ _ => (7, 1 / 2)
  temp := fun _ _ _ _ _ => (0, 1)
  twoPi := 44 / 7

def exLane : Lane ℚ where
  time := 0
  mileage := 0
  cputime := 0
  r := 1
  phi := 0
  z := 0
  rho := 1 / 2
  theta := 0
  bounces := 0
  walltile := 0
  endcond := 0
  err := 0
  running := true

def exFo (t r : ℚ) : Fo ℚ :=
  { exLane with time := t, r := r, pr := 1, pphi := 0, pz := 0, br := 1, bphi := 0, bz := 0, charge := 1 }

example :
    let res := checkFo exOpts exEnv (fun _ => 5) (exFo 0 1) (exFo 2 3)
    res.endcond.testBit 0 = true ∧ res.endcond.testBit 3 = true ∧ res.r = 2 ∧ res.time = 1 ∧
      res.running = false := by
  have h := fo_endcond exOpts exEnv (fun _ => 5) (exFo 0 1) (exFo 2 3) rfl rfl (fun _ => rfl)
  have hp := fo_position exOpts exEnv (fun _ => 5) (exFo 0 1) (exFo 2 3) rfl
  have h1 : Met exOpts (foFacts exOpts exEnv (fun _ => 5) (exFo 0 1) (exFo 2 3)
      (checkFo exOpts exEnv (fun _ => 5) (exFo 0 1) (exFo 2 3))) .tlim :=
    ⟨rfl, .inl ⟨rfl, by norm_num [foFacts, exFo, exOpts]⟩⟩
  have h2 : Met exOpts (foFacts exOpts exEnv (fun _ => 5) (exFo 0 1) (exFo 2 3)
      (checkFo exOpts exEnv (fun _ => 5) (exFo 0 1) (exFo 2 3))) .wall :=
    ⟨rfl, by simp [foFacts, exEnv]⟩
  have hw := hp.1 ⟨rfl, by simp [exEnv]⟩
  refine ⟨(h.1 .tlim).2 (.inr h1), (h.1 .wall).2 (.inr h2), ?_, ?_, h.2.1.2 ⟨_, h1⟩⟩
  · rw [hw.2.1]; norm_num [exFo, exEnv]
  · rw [hw.1]; norm_num [exFo, exEnv]

/-- The hypotheses of `fo_error` can be met. -/
example :
    let e : Env ℚ := { exEnv with temp := fun _ _ _ _ _ => (77, 0) }
    let o : Opts ℚ := { exOpts with active := 11 }
    (checkFo o e (fun _ => 5) (exFo 0 1) (exFo 2 3)).endcond = 0 :=
  (fo_error { exOpts with active := 11 } { exEnv with temp := fun _ _ _ _ _ => (77, 0) }
    (fun _ => 5) (exFo 0 1) (exFo 2 3) rfl ⟨.inl rfl, by simp⟩).2.1

end Ascot.C07

namespace Ascot.C08
open Ascot.EndCond

variable {K : Type} [Field K] [LinearOrder K] [IsStrictOrderedRing K] [FloorRing K]

/-- Guiding centers: the flags after the check are those before it plus the
conditions that are enabled and met (for hybrid: hybrid mode and beyond the maximum
rho); the marker stops iff a condition is met. -/
theorem gc_endcond (o : Opts K) (e : Env K) (ekin : Gc K → K) (i f : Gc K)
    (hrun : f.running = true) (herr : f.err = 0)
    (htemp : o.on .emin ∨ o.on .therm → (e.temp f.rho f.r f.phi f.z f.time).1 = 0) :
    let res := checkGc o e ekin i f
    (∀ c : Cond, res.endcond.testBit c.bit = true ↔
      f.endcond.testBit c.bit = true ∨ Met o (gcFacts o e ekin i f res) c) ∧
    (res.running = false ↔ ∃ c, Met o (gcFacts o e ekin i f res) c) ∧ res.err = 0 := by
  obtain ⟨m0, m, x, _, _, hc, hx, g1, g2, g3, g4, g5, g6, g7, g8, g9, g10, g11⟩ :=
    gc_normal o e ekin i f hrun
  intro res
  have hnt : ¬ TempFails o e m := by
    rintro ⟨a, b⟩
    rw [g1, g8, g9, g10, g11] at b
    exact b (htemp a)
  have hres : res = chain o x m := by
    show checkGc o e ekin i f = _
    rw [hc, fail, if_neg hnt]
    exact stepErr_eq _ (by rw [chain_err, g5, herr])
  have p5 : res.bounces = m.bounces := by rw [hres, chain_bounces]
  have hmet : ∀ c, Met o x c ↔ Met o (gcFacts o e ekin i f res) c := by
    intro c
    rw [hx]
    have : gcFacts o e ekin i f res = gcFacts o e ekin i f m := by unfold gcFacts; rw [p5]
    rw [this]
    by_cases hon : o.on .emin ∨ o.on .therm
    · have ht := htemp hon
      cases c <;> simp [Met, gcFacts, ht]
    · have h1 : ¬ o.on .emin := fun h => hon (.inl h)
      have h2 : ¬ o.on .therm := fun h => hon (.inr h)
      cases c <;> simp [Met, gcFacts, h1, h2]
  refine ⟨?_, ?_, ?_⟩
  · intro c
    rw [← hmet c, hres, chain_endcond, g6]
  · simp only [← hmet]
    rw [hres, chain_running_false _ _ _ g7]
  · rw [hres, chain_err, g5, herr]

/-- The check moves no guiding center; the tile is recorded at a wall hit, the bounce
counter changes only at a change of sign of the parallel momentum. -/
theorem gc_rest (o : Opts K) (e : Env K) (ekin : Gc K → K) (i f : Gc K)
    (hrun : f.running = true) :
    let res := checkGc o e ekin i f
    let h := e.wallHit i.r i.phi i.z f.r f.phi f.z
    (o.on .wall ∧ 0 < h.1 → res.walltile = h.1) ∧
    (¬ (o.on .wall ∧ 0 < h.1) → res.walltile = f.walltile) ∧
    res.time = f.time ∧ res.r = f.r ∧ res.phi = f.phi ∧ res.z = f.z ∧
    res.mileage = f.mileage ∧ res.cputime = f.cputime ∧ res.rho = f.rho ∧ res.theta = f.theta ∧
    (¬ i.ppar * f.ppar < 0 → res.bounces = f.bounces) ∧
    (i.ppar * f.ppar < 0 → res.bounces = bounce f.bounces) := by
  obtain ⟨m0, m, x, hm0, hm, hc, hx, g1, g2, g3, g4, g5, g6, g7, g8, g9, g10, g11⟩ :=
    gc_normal o e ekin i f hrun
  intro res h
  have hpos : res.r = m.r ∧ res.phi = m.phi ∧ res.z = m.z ∧ res.time = m.time ∧
      res.bounces = m.bounces ∧ res.walltile = m.walltile ∧ res.mileage = m.mileage ∧
      res.cputime = m.cputime ∧ res.rho = m.rho ∧ res.theta = m.theta := by
    simp only [res]
    rw [hc]; unfold stepErr fail; split_ifs <;> simp
  obtain ⟨p1, p2, p3, p4, p5, p6, p7, p8, p9, p10⟩ := hpos
  have hon : o.on .wall ↔ o.active &&& wall ≠ 0 := (on_wall _).symm
  have e0 : m0.walltile = f.walltile ∧
      (¬ i.ppar * f.ppar < 0 → m0.bounces = f.bounces) ∧
      (i.ppar * f.ppar < 0 → m0.bounces = bounce f.bounces) := by
    rw [hm0]; unfold stepBounce
    by_cases ht : i.ppar * f.ppar < 0 <;> simp [ht]
  obtain ⟨e5, e6, e7⟩ := e0
  rw [p1, p2, p3, p4, p5, p6, p7, p8, p9, p10]
  by_cases hh : o.on .wall ∧ 0 < h.1
  · rw [if_pos ⟨hon.1 hh.1, hh.2⟩] at hm
    have hb : m.bounces = m0.bounces := by rw [hm]; rfl
    exact ⟨fun _ => by rw [hm]; rfl, fun hn => absurd hh hn, g8, g9, g10, g11, g3, g4, g1, g2,
      by rw [hb]; exact e6, by rw [hb]; exact e7⟩
  · rw [if_neg (fun hc => hh ⟨hon.2 hc.1, hc.2⟩)] at hm
    exact ⟨fun hn => absurd hn hh, fun _ => by rw [hm]; exact e5, g8, g9, g10, g11, g3, g4, g1, g2,
      by rw [hm]; exact e6, by rw [hm]; exact e7⟩

/-- If the plasma temperature is needed but cannot be evaluated, the marker stops with
that error and reports no end condition. -/
theorem gc_error (o : Opts K) (e : Env K) (ekin : Gc K → K) (i f : Gc K)
    (hrun : f.running = true) (hon : o.on .emin ∨ o.on .therm)
    (htemp : (e.temp f.rho f.r f.phi f.z f.time).1 ≠ 0) :
    let res := checkGc o e ekin i f
    res.err = (e.temp f.rho f.r f.phi f.z f.time).1 ∧ res.endcond = 0 ∧ res.running = false := by
  obtain ⟨m0, m, x, hm0, hm, hc, hx, g1, g2, g3, g4, g5, g6, g7, g8, g9, g10, g11⟩ :=
    gc_normal o e ekin i f hrun
  intro res
  have ht : TempFails o e m := ⟨hon, by rw [g1, g8, g9, g10, g11]; exact htemp⟩
  simp only [res]
  rw [hc, fail, if_pos ht]
  unfold stepErr
  rw [if_pos (by rw [chain_err]; exact htemp)]
  refine ⟨by simp, rfl, ?_⟩
  have := chain_running o x { m with err := (e.temp f.rho f.r f.phi f.z f.time).1, running := false }
  simpa using this

theorem gc_not_running (o : Opts K) (e : Env K) (ekin : Gc K → K) (i f : Gc K)
    (hrun : f.running = false) : checkGc o e ekin i f = f.toLane := by
  simp [checkGc, hrun]

/-- Example: in hybrid mode with no condition enabled, a guiding center beyond the
maximum rho is handed over, and one within is not. -/
example (r : ℚ) :
    let o : Opts ℚ := { C07.exOpts with active := 0, simMode := 3 }
    let f : Gc ℚ := { C07.exLane with rho := r, ppar := 1 }
    (checkGc o C07.exEnv (fun _ => 5) f f).endcond.testBit 9 = true ↔ 1 < r := by
  intro o f
  have h := (gc_endcond o C07.exEnv (fun _ => 5) f f rfl rfl (fun _ => rfl)).1 .hybrid
  simpa [Cond.bit, f, o, C07.exLane, C07.exOpts, Met, gcFacts] using h

end Ascot.C08

namespace Ascot.C09
open Ascot.EndCond

variable {K : Type} [Field K] [LinearOrder K] [IsStrictOrderedRing K] [FloorRing K]

/-- Field lines: the flags after the check are those before it plus the conditions
that are enabled and met, none of which is about energy, charge or hybrid mode; the
marker stops iff a condition is met. -/
theorem ml_endcond (o : Opts K) (e : Env K) (i f : Lane K) (hrun : f.running = true) :
    let res := checkMl o e i f
    (∀ c : Cond, res.endcond.testBit c.bit = true ↔
      f.endcond.testBit c.bit = true ∨ Met o (mlFacts e i f) c) ∧
    (res.running = false ↔ ∃ c, Met o (mlFacts e i f) c) ∧ res.err = f.err := by
  intro res
  have hm := ml_normal o e i f hrun
  simp only [res]
  rw [hm]
  have h0 : ∀ (c : Prop) [Decidable c] (n : Nat), (if c then tileLane f n else f).endcond = f.endcond ∧
      (if c then tileLane f n else f).running = true ∧
      (if c then tileLane f n else f).err = f.err := by
    intro c _ n; split <;> simp [tileLane, hrun]
  refine ⟨?_, ?_, ?_⟩
  · intro c; rw [chain_endcond, (h0 _ _).1]
  · rw [chain_running_false _ _ _ (h0 _ _).2.1]
  · rw [chain_err, (h0 _ _).2.2]

/-- The check changes nothing else, except for the tile at a wall hit. -/
theorem ml_rest (o : Opts K) (e : Env K) (i f : Lane K) (hrun : f.running = true) :
    let res := checkMl o e i f
    let h := e.wallHit i.r i.phi i.z f.r f.phi f.z
    (o.on .wall ∧ 0 < h.1 → res.walltile = h.1) ∧
    (¬ (o.on .wall ∧ 0 < h.1) → res.walltile = f.walltile) ∧
    res.time = f.time ∧ res.r = f.r ∧ res.phi = f.phi ∧ res.z = f.z ∧
    res.mileage = f.mileage ∧ res.cputime = f.cputime ∧ res.rho = f.rho ∧ res.theta = f.theta := by
  intro res h
  have hon : o.on .wall ↔ o.active &&& wall ≠ 0 := (on_wall _).symm
  have hm := ml_normal o e i f hrun
  simp only [res]
  rw [hm]
  by_cases hh : o.on .wall ∧ 0 < h.1
  · rw [if_pos ⟨hon.1 hh.1, hh.2⟩]
    refine ⟨fun _ => ?_, fun hn => absurd hh hn, ?_⟩ <;> simp [tileLane, h]
  · rw [if_neg (fun hc => hh ⟨hon.2 hc.1, hc.2⟩)]
    refine ⟨fun hn => absurd hn hh, fun _ => ?_, ?_⟩ <;> simp

theorem ml_not_running (o : Opts K) (e : Env K) (i f : Lane K)
    (hrun : f.running = false) : checkMl o e i f = f := by
  simp [checkMl, hrun]

/-- Example: with energy conditions enabled a field line does not report them. -/
example : (checkMl { C07.exOpts with active := 6, minEkin := 10, minThermal := 10 } C07.exEnv
    C07.exLane C07.exLane).running = true := by
  have h := (ml_endcond { C07.exOpts with active := 6, minEkin := 10, minThermal := 10 } C07.exEnv
    C07.exLane C07.exLane rfl).2.1
  by_contra hc
  obtain ⟨c, hm⟩ := h.1 (by simpa using hc)
  cases c <;> simp [Met, mlFacts, TorMet, PolMet, Opts.on, C07.exOpts, Cond.bit] at hm <;>
    revert hm <;> decide

end Ascot.C09

namespace Ascot.C10
open Ascot.EndCond Ascot.ToState

variable {K : Type} [Field K] [LinearOrder K] [IsStrictOrderedRing K] [FloorRing K]

/-- What a lane reports: nothing while running, and exactly one of error and end
condition once it has stopped. -/
def Consistent (l : Lane K) : Prop :=
  (l.running = true ∧ l.err = 0 ∧ l.endcond = 0) ∨
  (l.running = false ∧ l.err ≠ 0 ∧ l.endcond = 0) ∨
  (l.running = false ∧ l.err = 0 ∧ l.endcond ≠ 0)

/-- A check (of any of the three kinds) as used in the main loops. -/
def FoCheck (o : Opts K) (e : Env K) (ekin : Fo K → K) (a b c : Lane K) : Prop :=
  ∃ i f : Fo K, i.toLane = a ∧ f.toLane = b ∧ c = checkFo o e ekin i f

def GcCheck (o : Opts K) (e : Env K) (ekin : Gc K → K) (a b c : Lane K) : Prop :=
  ∃ i f : Gc K, i.toLane = a ∧ f.toLane = b ∧ c = checkGc o e ekin i f

def MlCheck (o : Opts K) (e : Env K) (a b c : Lane K) : Prop := c = checkMl o e a b

theorem bits_zero {n : Nat} (h : n = 0) (b : Nat) : ¬ n.testBit b = true := by simp [h]

theorem ne_zero_of_bit {n b : Nat} (h : n.testBit b = true) : n ≠ 0 := by
  rintro rfl; simp at h

/-- A check keeps lanes consistent. -/
theorem chain_consistent (o : Opts K) (x : Facts K) (q : Lane K) (hr : q.running = true)
    (h1 : q.err = 0) (h2 : q.endcond = 0) : Consistent (chain o x q) := by
  by_cases hm : ∃ c, Met o x c
  · obtain ⟨c, hc⟩ := hm
    exact .inr (.inr ⟨(chain_running_false o x q hr).2 ⟨c, hc⟩, by simp [h1],
      ne_zero_of_bit ((chain_endcond o x q c).2 (.inr hc))⟩)
  · left
    refine ⟨(chain_running o x q).2 ⟨hr, fun c hc => hm ⟨c, hc⟩⟩, by simp [h1], ?_⟩
    apply Nat.eq_of_testBit_eq
    intro b
    rw [Bool.eq_iff_iff, chain_bits]
    simp only [h2, Nat.zero_testBit, Bool.false_eq_true, false_or, iff_false]
    rintro ⟨c, _, hc⟩
    exact hm ⟨c, hc⟩

theorem fail_consistent (o : Opts K) (x : Facts K) (q : Lane K) (c : Prop) (n : Nat)
    (hn : c → n ≠ 0) (hr : q.running = true) (h1 : q.err = 0) (h2 : q.endcond = 0) :
    Consistent (stepErr (chain o x (fail c n q))) := by
  unfold fail
  split
  · rename_i hc
    right; left
    unfold stepErr
    rw [if_pos (by simpa using hn hc)]
    refine ⟨?_, by simpa using hn hc, rfl⟩
    have := chain_running o x { q with err := n, running := false }
    simpa using this
  · rw [stepErr_eq _ (by simp [h1])]
    exact chain_consistent o x q hr h1 h2

/-- In every mode, after any sequence of steps, a lane that is still running has
neither error nor end condition, and a lane that has stopped has exactly one. -/
theorem lane_consistent (o : Opts K) (e : Env K) (ekf : Fo K → K) (ekg : Gc K → K)
    (check : Lane K → Lane K → Lane K → Prop)
    (hcheck : check = FoCheck o e ekf ∨ check = GcCheck o e ekg ∨ check = MlCheck o e)
    (l : Lane K) (h : Reach check l) : Consistent l := by
  induction h with
  | load l h1 h2 h3 => exact .inl ⟨h3, h1, h2⟩
  | step a b c _ ha hp hc ih =>
    obtain ⟨hea, hna⟩ : a.err = 0 ∧ a.endcond = 0 := by
      rcases ih with ih | ih | ih
      · exact ih.2
      · rw [ha] at ih; cases ih.1
      · rw [ha] at ih; cases ih.1
    -- the check on a lane stopped by the physics step changes nothing
    have hstop : b.running = false → c = b := by
      intro hb
      rcases hcheck with rfl | rfl | rfl
      · obtain ⟨i, f, _, rfl, rfl⟩ := hc; simp [checkFo, hb]
      · obtain ⟨i, f, _, rfl, rfl⟩ := hc; simp [checkGc, hb]
      · rw [hc]; simp [checkMl, hb]
    cases hp with
    | fail h1 h2 h3 =>
      rw [hstop h3]; exact .inr (.inl ⟨h3, h1, by rw [h2, hna]⟩)
    | ok h1 h2 h3 =>
      have hb : b.running = true := by rw [h3, ha]
      have hbe : b.err = 0 := by rw [h1, hea]
      have hbn : b.endcond = 0 := by rw [h2, hna]
      rcases hcheck with rfl | rfl | rfl
      · obtain ⟨i, f, _, rfl, rfl⟩ := hc
        obtain ⟨m0, m, x, _, _, hcc, hx, g1, g2, g3, g4, g5, g6, g7⟩ := fo_normal o e ekf i f hb
        rw [hcc]
        exact fail_consistent o x m _ _ (fun h => h.2) g7 (by rw [g5, hbe]) (by rw [g6, hbn])
      · obtain ⟨i, f, _, rfl, rfl⟩ := hc
        obtain ⟨m0, m, x, _, _, hcc, hx, g1, g2, g3, g4, g5, g6, g7, g8, g9, g10, g11⟩ :=
          gc_normal o e ekg i f hb
        rw [hcc]
        refine fail_consistent o x m _ _ (fun h => ?_) g7 (by rw [g5, hbe]) (by rw [g6, hbn])
        have := h.2
        rwa [g1, g8, g9, g10, g11] at this
      · rw [hc, ml_normal o e a b hb]
        apply chain_consistent
        · split <;> simp [tileLane, hb]
        · split <;> simp [tileLane, hbe]
        · split <;> simp [tileLane, hbn]

/-- Full orbits and guiding centers whose final conversion succeeds: a marker stopped
by an error reports that error and no end condition; a marker stopped by an end
condition reports it and no error.  Missing from C10: failing conversions
(`end_condition_and_error`) and field lines (`ml_error_lost`). -/
theorem report_partial (o : Opts K) (e : Env K) (ekf : Fo K → K) (ekg : Gc K → K)
    (check : Lane K → Lane K → Lane K → Prop)
    (hcheck : check = FoCheck o e ekf ∨ check = GcCheck o e ekg)
    (l : Lane K) (h : Reach check l) (hl : l.running = false) :
    (toState 0 l).err = l.err ∧ (toState 0 l).endcond = l.endcond ∧
    ((toState 0 l).err ≠ 0 ↔ (toState 0 l).endcond = 0) := by
  have hcons := lane_consistent o e ekf ekg check
    (hcheck.elim .inl (fun h => .inr (.inl h))) l h
  unfold toState
  rcases hcons with hc | hc | hc
  · rw [hl] at hc; cases hc.1
  · simp [hc.2.1, hc.2.2]
  · simp [hc.2.1, hc.2.2]

/-- If the final coordinate transformation fails, a marker that stopped because of an
end condition reports both the end condition and an error. -/
theorem end_condition_and_error (o : Opts K) (e : Env K) (ekf : Fo K → K) (ekg : Gc K → K)
    (check : Lane K → Lane K → Lane K → Prop)
    (hcheck : check = FoCheck o e ekf ∨ check = GcCheck o e ekg)
    (l : Lane K) (h : Reach check l) (hl : l.running = false) (hend : l.endcond ≠ 0)
    (convErr : Nat) (hconv : convErr ≠ 0) :
    (toState convErr l).endcond ≠ 0 ∧ (toState convErr l).err ≠ 0 := by
  have hcons := lane_consistent o e ekf ekg check
    (hcheck.elim .inl (fun h => .inr (.inl h))) l h
  unfold toState
  rcases hcons with hc | hc | hc
  · rw [hl] at hc; cases hc.1
  · exact absurd hc.2.2 hend
  · simp [hc.2.1, hc.2.2, hconv]

omit [Field K] [LinearOrder K] [IsStrictOrderedRing K] [FloorRing K] in
/-- Field lines: the error of a marker is never reported, whatever it was. -/
theorem ml_error_lost (l : Lane K) : (mlToState l).err = 0 := by simp [mlToState]

/-- So a field line that stopped because of an error ends with neither an error nor an
end condition. -/
theorem ml_error_unreported (o : Opts K) (e : Env K) (l : Lane K)
    (h : Reach (MlCheck o e) l) (hl : l.running = false) (herr : l.err ≠ 0) :
    (mlToState l).err = 0 ∧ (mlToState l).endcond = 0 := by
  have hcons := lane_consistent o e (fun _ => 0) (fun _ => 0) _ (.inr (.inr rfl)) l h
  refine ⟨ml_error_lost l, ?_⟩
  rcases hcons with hc | hc | hc
  · rw [hl] at hc; cases hc.1
  · simp [mlToState, hc.2.2]
  · exact absurd hc.2.1 herr

/-- Such a field line exists: one whose first step fails. -/
example : ∃ l : Lane ℚ, Reach (MlCheck C07.exOpts C07.exEnv) l ∧ l.running = false ∧ l.err ≠ 0 := by
  refine ⟨{ C07.exLane with err := 5, running := false }, ?_, rfl, by decide⟩
  exact .step C07.exLane { C07.exLane with err := 5, running := false } _
    (.load _ rfl rfl rfl) rfl (.fail _ _ (by decide) rfl rfl) (by simp [MlCheck, checkMl])

/-- And a full-orbit marker that stops by an end condition. -/
example : ∃ l : Lane ℚ, Reach (FoCheck C07.exOpts C07.exEnv (fun _ => 5)) l ∧
    l.running = false ∧ l.endcond ≠ 0 := by
  have h := C07.fo_endcond C07.exOpts C07.exEnv (fun _ => 5) (C07.exFo 0 1) (C07.exFo 2 3) rfl rfl
    (fun _ => rfl)
  have h1 : Met C07.exOpts (foFacts C07.exOpts C07.exEnv (fun _ => 5) (C07.exFo 0 1) (C07.exFo 2 3)
      (checkFo C07.exOpts C07.exEnv (fun _ => 5) (C07.exFo 0 1) (C07.exFo 2 3))) .tlim :=
    ⟨rfl, .inl ⟨rfl, by norm_num [foFacts, C07.exFo, C07.exOpts]⟩⟩
  refine ⟨_, .step (C07.exFo 0 1).toLane (C07.exFo 2 3).toLane _ (.load _ rfl rfl rfl) rfl
    (.ok _ _ rfl rfl rfl) ⟨_, _, rfl, rfl, rfl⟩, h.2.1.2 ⟨_, h1⟩,
    ne_zero_of_bit ((h.1 .tlim).2 (.inr h1))⟩

end Ascot.C10

namespace Ascot.C11
open Ascot.EndCond

variable {K : Type} [Field K] [LinearOrder K] [IsStrictOrderedRing K] [FloorRing K]

/-- The counter after `m` turns: 0, 1, -1, 2, -2, 3, ... -/
def counterAfter (m : Nat) : Int := if m % 2 = 1 then (m + 1 : Int) / 2 else -((m : Int) / 2)

theorem bounce_counterAfter (m : Nat) : bounce (counterAfter m) = counterAfter (m + 1) := by
  unfold bounce counterAfter
  rcases Nat.mod_two_eq_zero_or_one m with h | h <;> simp [h, Nat.add_mod] <;> split_ifs <;> omega

/-- A guiding center followed from a reset of its counter (src/particle.c:907): each step
moves the marker without touching the counter and is followed by an end-condition
check against the marker before the step.  `m` is the number of steps in which the
parallel momentum changed sign. -/
inductive GcFollow (o : Opts K) (e : Env K) (ekin : Gc K → K) : Gc K → Nat → Prop
  | load (p : Gc K) : p.bounces = 0 → GcFollow o e ekin p 0
  | step (p f : Gc K) (m : Nat) : GcFollow o e ekin p m → f.running = true →
      f.bounces = p.bounces →
      GcFollow o e ekin { checkGc o e ekin p f with ppar := f.ppar }
        (m + if p.ppar * f.ppar < 0 then 1 else 0)

/-- The same for a full orbit (src/particle.c:708). -/
inductive FoFollow (o : Opts K) (e : Env K) (ekin : Fo K → K) : Fo K → Nat → Prop
  | load (p : Fo K) : p.bounces = 0 → FoFollow o e ekin p 0
  | step (p f : Fo K) (m : Nat) : FoFollow o e ekin p m → f.running = true →
      f.bounces = p.bounces →
      FoFollow o e ekin { f with toLane := checkFo o e ekin p f }
        (m + if FoTurned p f then 1 else 0)

/-- The counter of a guiding center is determined by its number of turns. -/
theorem gc_counter (o : Opts K) (e : Env K) (ekin : Gc K → K) (p : Gc K) (m : Nat)
    (h : GcFollow o e ekin p m) : p.bounces = counterAfter m := by
  induction h with
  | load p h => simp [h, counterAfter]
  | step p f m _ hr hb ih =>
    obtain ⟨-, -, -, -, -, -, -, -, -, -, h1, h2⟩ := C08.gc_rest o e ekin p f hr
    show (checkGc o e ekin p f).bounces = _
    by_cases ht : p.ppar * f.ppar < 0
    · rw [h2 ht, hb, ih, bounce_counterAfter, if_pos ht]
    · rw [h1 ht, hb, ih, if_neg ht, Nat.add_zero]

/-- The counter of a full orbit is determined by its number of turns. -/
theorem fo_counter (o : Opts K) (e : Env K) (ekin : Fo K → K) (p : Fo K) (m : Nat)
    (h : FoFollow o e ekin p m) : p.bounces = counterAfter m := by
  induction h with
  | load p h => simp [h, counterAfter]
  | step p f m _ hr hb ih =>
    obtain ⟨-, -, -, -, -, -, h1, h2⟩ := C07.fo_position o e ekin p f hr
    show (checkFo o e ekin p f).bounces = _
    by_cases ht : FoTurned p f
    · rw [h2 ht, hb, ih, bounce_counterAfter, if_pos ht]
    · rw [h1 ht, hb, ih, if_neg ht, Nat.add_zero]

/-- The number of completed bounces, i.e. full cycles since the first turn, is what is
compared with the limit when the marker is at an odd turn, and it does not decrease
from one odd turn to the next.  Missing from C11: at even turns the compared number
is not the number of completed bounces (`compared_decreases`). -/
theorem compared_at_odd_turns_partial (j : Nat) :
    counterAfter (2 * j + 1) - 1 = j ∧
    counterAfter (2 * j + 1) - 1 ≤ counterAfter (2 * (j + 1) + 1) - 1 := by
  unfold counterAfter
  have h1 : (2 * j + 1) % 2 = 1 := by omega
  have h2 : (2 * (j + 1) + 1) % 2 = 1 := by omega
  simp only [h1, h2, if_true]
  omega

/-- The compared number `bounces - 1` decreases at every even turn: from `j` to
`-(j+1) - 1`. -/
theorem compared_decreases (j : Nat) :
    counterAfter (2 * j + 2) - 1 < counterAfter (2 * j + 1) - 1 := by
  unfold counterAfter
  have h1 : (2 * j + 1) % 2 = 1 := by omega
  have h2 : (2 * j + 2) % 2 = 0 := by omega
  simp only [h1, h2, if_true, zero_ne_one, if_false]
  omega

/-- What the user gets: a marker with limit of `N` poloidal turns meets the bounce
criterion for the first time exactly at its turn number `2 N + 1`, i.e. after `N`
complete bounces following the first turn. -/
theorem first_met (N : Nat) :
    (N : Int) ≤ counterAfter (2 * N + 1) - 1 ∧
    ∀ m, m < 2 * N + 1 → ¬ (N : Int) ≤ counterAfter m - 1 := by
  unfold counterAfter
  constructor
  · have h1 : (2 * N + 1) % 2 = 1 := by omega
    simp only [h1, if_true]; omega
  · intro m hm
    split_ifs <;> omega

/-- Two steps of a guiding center with a turn in each: the counter is `-1`. -/
example : ∃ p : Gc ℚ, GcFollow C07.exOpts C07.exEnv (fun _ => 5) p 2 ∧ p.bounces = -1 := by
  let p0 : Gc ℚ := { C07.exLane with ppar := 1 }
  let f1 : Gc ℚ := { C07.exLane with ppar := -1 }
  have h1 := GcFollow.step (o := C07.exOpts) (e := C07.exEnv) (ekin := fun _ => 5) p0 f1 0
    (.load _ rfl) rfl rfl
  have h2 := GcFollow.step _ { C07.exLane with ppar := 2, bounces := _ } _ h1 rfl rfl
  have hc := gc_counter _ _ _ _ _ h2
  norm_num [p0, f1] at h2 hc
  exact ⟨_, h2, hc⟩

end Ascot.C11

namespace Ascot.C12
open Ascot.EndCond

/-- Specification: the codes of the conditions in the order of their flags. -/
def code : Cond → Nat
  | .tlim => 1 | .emin => 2 | .therm => 3 | .wall => 4 | .rhomin => 5 | .rhomax => 6
  | .polmax => 7 | .tormax => 8 | .cpumax => 9 | .hybrid => 10 | .neutr => 11 | .ioniz => 12

def codesOf (bits : Nat → Bool) : List Nat :=
  (List.range 12).filterMap fun b => if bits b then some (b + 1) else none

theorem parse_eq (ec : Nat) : parse ec = codesOf (fun b => ec.testBit b) := by
  have h1 : ∀ (flag n : Nat) (out : List Nat),
      parse1 ec flag n out = out ++ (if ec &&& flag ≠ 0 then [n] else []) := by
    intro flag n out; unfold parse1; split <;> simp
  have h2 : ∀ (a : Nat) (l : List Nat),
      (a :: l).filterMap (fun b => if ec.testBit b then some (b + 1) else none) =
        (if ec.testBit a then [a + 1] else []) ++
          l.filterMap (fun b => if ec.testBit b then some (b + 1) else none) := by
    intro a l; rw [List.filterMap_cons]; split <;> simp_all
  have h3 : List.range 12 = [0, 1, 2, 3, 4, 5, 6, 7, 8, 9, 10, 11] := rfl
  simp only [parse, on_tlim, on_emin, on_therm, on_wall, on_rhomin, on_rhomax, on_polmax,
    on_tormax, on_cpumax, on_hybrid, on_neutr, on_ioniz, codesOf, h3, h2, h1, List.filterMap_nil,
    List.nil_append, List.append_nil, List.append_assoc, Opts.on, Cond.bit, Nat.reduceAdd]

/-- The code of a condition is in the list iff its flag is set; every listed number is
the code of some condition; the list is strictly increasing and fits in the array of
32 entries used by the callers. -/
theorem parse_spec (ec : Nat) :
    (∀ c : Cond, code c ∈ parse ec ↔ ec.testBit c.bit = true) ∧
    (∀ n ∈ parse ec, ∃ c : Cond, n = code c) ∧
    (parse ec).Pairwise (· < ·) ∧ (parse ec).length ≤ 12 := by
  rw [parse_eq]
  have hcode : ∀ c : Cond, code c = c.bit + 1 := by intro c; cases c <;> rfl
  have hlt : ∀ c : Cond, c.bit < 12 := by intro c; cases c <;> decide
  refine ⟨?_, ?_, ?_, ?_⟩
  · intro c
    simp only [codesOf, List.mem_filterMap, List.mem_range, hcode]
    constructor
    · rintro ⟨b, _, hb⟩
      split at hb
      · simp at hb; subst hb; assumption
      · cases hb
    · intro h; exact ⟨c.bit, hlt c, by simp [h]⟩
  · intro n hn
    simp only [codesOf, List.mem_filterMap, List.mem_range] at hn
    obtain ⟨b, hb, h⟩ := hn
    split at h
    · simp at h; subst h
      have : ∃ c : Cond, c.bit = b := by
        interval_cases b
        exacts [⟨.tlim, rfl⟩, ⟨.emin, rfl⟩, ⟨.therm, rfl⟩, ⟨.wall, rfl⟩, ⟨.rhomin, rfl⟩,
          ⟨.rhomax, rfl⟩, ⟨.polmax, rfl⟩, ⟨.tormax, rfl⟩, ⟨.cpumax, rfl⟩, ⟨.hybrid, rfl⟩,
          ⟨.neutr, rfl⟩, ⟨.ioniz, rfl⟩]
      obtain ⟨c, rfl⟩ := this
      exact ⟨c, (hcode c).symm⟩
    · cases h
  · unfold codesOf
    rw [List.pairwise_filterMap]
    refine List.Pairwise.imp ?_ (List.pairwise_lt_range (n := 12))
    intro a b hab x hx y hy
    split at hx
    · split at hy
      · simp at hx hy; omega
      · cases hy
    · cases hx
  · unfold codesOf
    exact (List.length_filterMap_le _ _).trans (by simp)

/-- Distinct sets of flags give distinct lists. -/
theorem parse_injective (a b : Nat) (ha : a < 2 ^ 12) (hb : b < 2 ^ 12) (h : parse a = parse b) :
    a = b := by
  apply Nat.eq_of_testBit_eq
  intro k
  by_cases hk : k < 12
  · have : ∃ c : Cond, c.bit = k := by
      interval_cases k
      exacts [⟨.tlim, rfl⟩, ⟨.emin, rfl⟩, ⟨.therm, rfl⟩, ⟨.wall, rfl⟩, ⟨.rhomin, rfl⟩,
        ⟨.rhomax, rfl⟩, ⟨.polmax, rfl⟩, ⟨.tormax, rfl⟩, ⟨.cpumax, rfl⟩, ⟨.hybrid, rfl⟩,
        ⟨.neutr, rfl⟩, ⟨.ioniz, rfl⟩]
    obtain ⟨c, rfl⟩ := this
    rw [Bool.eq_iff_iff, ← (parse_spec a).1 c, ← (parse_spec b).1 c, h]
  · have hk2 : 2 ^ 12 ≤ 2 ^ k := Nat.pow_le_pow_right (by decide) (by omega)
    rw [Nat.testBit_lt_two_pow (by omega), Nat.testBit_lt_two_pow (by omega)]

/-- The text of a code produced by `endcond_parse` is that of the condition... -/
theorem text_of_code (c : Cond) : parse2str (code c) ≠ none := by cases c <;> decide

/-- ...and distinct conditions have distinct texts. -/
theorem text_injective (c d : Cond) (h : parse2str (code c) = parse2str (code d)) : c = d := by
  cases c <;> cases d <;> first | rfl | (exact absurd h (by decide))

/-- A value with the time-limit, wall and hybrid flags. -/
example : parse 0x209 = [1, 4, 10] := by decide

end Ascot.C12
