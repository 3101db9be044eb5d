import Verif.Props.C109_Input

/-!
# C110: conversions between marker types

Conversions between the stored state of a marker and the structures in which it is simulated keep everything that both sides
hold, keep its error, and store the guiding center that belongs to the particle.
-/
set_option linter.unusedSectionVars false
set_option linter.unusedSimpArgs false

namespace Ascot.C110
open Ascot.Coord Ascot.Bfield Ascot.Particle
open Ascot.Gctransform (Gc particle2gc gc2particle momentum)
open Ascot.C47 (fld)

variable {order : Bool} {c : ℝ} {b : Data} {i : Nat}

/-! ### Specification -/

/-- What the state and the structure for full orbits both hold, apart from position and momentum. -/
structure SameFo (f : Fo) (s : State) : Prop where
  mass : f.mass = s.mass
  charge : f.charge = s.charge
  anum : f.anum = s.anum
  znum : f.znum = s.znum
  weight : f.weight = s.weight
  time : f.time = s.time
  mileage : f.mileage = s.mileage
  cputime : f.cputime = s.cputime
  theta : f.theta = s.theta
  id : f.id = s.id
  endcond : f.endcond = s.endcond
  walltile : f.walltile = s.walltile

/-- What the state and the structure for guiding centers both hold. -/
structure SameGc (g : GcM) (s : State) : Prop where
  gc : g.gc = s.gc
  mass : g.mass = s.mass
  charge : g.charge = s.charge
  weight : g.weight = s.weight
  time : g.time = s.time
  mileage : g.mileage = s.mileage
  cputime : g.cputime = s.cputime
  rho : g.rho = s.rho
  theta : g.theta = s.theta
  B : g.B = s.B
  id : g.id = s.id
  endcond : g.endcond = s.endcond
  walltile : g.walltile = s.walltile

/-- What the state and the structure for field lines both hold. -/
structure SameMl (m : Ml) (s : State) : Prop where
  pos : m.pos = s.gc.pos
  weight : m.weight = s.weight
  time : m.time = s.time
  mileage : m.mileage = s.mileage
  cputime : m.cputime = s.cputime
  rho : m.rho = s.rho
  theta : m.theta = s.theta
  B : m.B = s.B
  id : m.id = s.id
  endcond : m.endcond = s.endcond
  walltile : m.walltile = s.walltile

/-- A field that is the same Cartesian vector everywhere. -/
def Uniform (b : Data) (B : V3 ℝ) : Prop :=
  ∀ pos : V3 ℝ, 0 < pos.x → ∃ jac rho, FieldOf b pos jac rho ∧ vecRpz2xyz (fld jac) pos.y = B

/-! ### From the state -/

/-- A state with an error is not converted: the structure stays as it is and the error is returned. -/
theorem refused {s : State} (h : s.err ≠ 0) (f : Fo) (g : GcM) (m : Ml) :
    stateToFo b s i f = some (f, s.err) ∧ stateToGc s i g = (g, s.err) ∧ stateToMl s i m = (m, s.err) := by
  refine ⟨?_, ?_, ?_⟩
  · unfold stateToFo; rw [if_pos h]
  · unfold stateToGc; rw [if_pos h]
  · unfold stateToMl; rw [if_pos h]

/-- A state converted for full orbits: particle coordinates and the field there; it runs if it has no end condition. -/
theorem state_to_fo {s : State} {f0 f : Fo} (h : stateToFo b s i f0 = some (f, 0)) :
    f.pos = s.prt ∧ f.p = s.p ∧ SameFo f s ∧ FieldOf b s.prt f.B f.rho ∧ (f.running = true ↔ s.endcond = 0) ∧ f.index = i ∧
    f.bounces = 0 ∧ f.err = 0 := by
  unfold stateToFo at h
  by_cases h0 : s.err ≠ 0
  · rw [if_pos h0] at h
    simp only [Option.some.injEq, Prod.mk.injEq] at h
    exact absurd h.2 h0
  · rw [if_neg h0] at h
    dsimp only at h
    cases h1 : fieldAt b 0 s.prt with
    | none => simp [h1] at h
    | some x =>
      obtain ⟨jac, rho, e⟩ := x
      rw [h1] at h
      dsimp only at h
      by_cases h2 : e ≠ 0
      · rw [if_pos h2] at h
        simp only [Option.some.injEq, Prod.mk.injEq] at h
        exact absurd h.2 h2
      · rw [if_neg h2] at h
        rw [not_not] at h2
        subst h2
        simp only [Option.some.injEq, Prod.mk.injEq, and_true] at h
        subst h
        exact ⟨rfl, rfl, ⟨rfl, rfl, rfl, rfl, rfl, rfl, rfl, rfl, rfl, rfl, rfl, rfl⟩, fieldAt_zero.1 h1, by simp, rfl, rfl, rfl⟩

/-- A state converted for guiding centers. -/
theorem state_to_gc {s : State} {g0 g : GcM} (h : stateToGc s i g0 = (g, 0)) :
    SameGc g s ∧ (g.running = true ↔ s.endcond = 0) ∧ g.index = i ∧ g.bounces = 0 ∧ g.err = 0 := by
  unfold stateToGc at h
  by_cases h0 : s.err ≠ 0
  · rw [if_pos h0] at h
    simp only [Prod.mk.injEq] at h
    exact absurd h.2 h0
  · rw [if_neg h0] at h
    simp only [Prod.mk.injEq, and_true] at h
    subst h
    exact ⟨⟨rfl, rfl, rfl, rfl, rfl, rfl, rfl, rfl, rfl, rfl, rfl, rfl, rfl⟩, by simp, rfl, rfl, rfl⟩

/-- A state converted for field lines; the pitch is 1 or -1. -/
theorem state_to_ml {s : State} {m0 m : Ml} (h : stateToMl s i m0 = (m, 0)) :
    SameMl m s ∧ (m.pitch = 1 ∨ m.pitch = -1) ∧ (m.pitch = 1 ↔ 0 ≤ s.gc.ppar) ∧ (m.running = true ↔ s.endcond = 0) ∧ m.index = i ∧
    m.err = 0 := by
  unfold stateToMl at h
  by_cases h0 : s.err ≠ 0
  · rw [if_pos h0] at h
    simp only [Prod.mk.injEq] at h
    exact absurd h.2 h0
  · rw [if_neg h0] at h
    simp only [Prod.mk.injEq, and_true] at h
    subst h
    refine ⟨⟨rfl, rfl, rfl, rfl, rfl, rfl, rfl, rfl, rfl, rfl, rfl⟩, ?_, ?_, by simp, rfl, rfl⟩
    · dsimp only
      split <;> norm_num
    · dsimp only
      split
      · rename_i hp; norm_num; exact hp
      · rename_i hp; norm_num; exact not_le.1 hp

/-! ### Back to the state -/

theorem gcErr_zero {l1 l2 : Nat} {g : Gc} : gcErr l1 l2 g = 0 ↔ 0 < g.pos.x ∧ 0 ≤ g.mu := by
  unfold gcErr
  by_cases q1 : g.pos.x ≤ 0
  · rw [if_pos q1]
    exact iff_of_false (C109.raise_ne _ _ _ (by decide)) (fun h => absurd h.1 (not_lt.2 q1))
  · rw [if_neg q1]
    by_cases q2 : g.mu < 0
    · rw [if_pos q2]
      exact iff_of_false (C109.raise_ne _ _ _ (by decide)) (fun h => absurd h.2 (not_le.2 q2))
    · rw [if_neg q2]
      exact iff_of_true rfl ⟨not_le.1 q1, not_lt.1 q2⟩

/-- A full orbit is stored with its particle coordinates, whatever happens to the guiding center, and an error that it has is
kept. -/
theorem fo_to_state {f : Fo} {s0 s : State} (h : foToState order c b f s0 = some s) :
    s.prt = f.pos ∧ s.p = f.p ∧ SameFo f s ∧ (f.err ≠ 0 → s.err = f.err) := by
  unfold foToState at h
  split at h
  · cases h
  · rename_i g hg
    dsimp only at h
    split at h
    · cases h
      exact ⟨rfl, rfl, ⟨rfl, rfl, rfl, rfl, rfl, rfl, rfl, rfl, rfl, rfl, rfl, rfl⟩, fun h => if_pos h⟩
    · split at h
      · cases h
      · rename_i jac rho e hf
        by_cases he : e ≠ 0
        · rw [if_pos he] at h
          cases h
          exact ⟨rfl, rfl, ⟨rfl, rfl, rfl, rfl, rfl, rfl, rfl, rfl, rfl, rfl, rfl, rfl⟩, fun h => if_pos h⟩
        · rw [if_neg he] at h
          cases h
          exact ⟨rfl, rfl, ⟨rfl, rfl, rfl, rfl, rfl, rfl, rfl, rfl, rfl, rfl, rfl, rfl⟩, fun h => if_pos h⟩

/-- If the stored marker has no error, its guiding center is that of the particle, with the field there. -/
theorem fo_to_state_center {f : Fo} {s0 s : State} (h : foToState order c b f s0 = some s) (he : s.err = 0) :
    particle2gc order f.mass f.charge f.B f.pos f.p = some s.gc ∧ 0 < s.gc.pos.x ∧ 0 ≤ s.gc.mu ∧ FieldOf b s.gc.pos s.B s.rho := by
  unfold foToState at h
  have hz : ∀ e : Nat, (if f.err ≠ 0 then f.err else e) = 0 → e = 0 := fun e h => by
    by_cases h0 : f.err ≠ 0
    · rw [if_pos h0] at h; exact absurd h h0
    · rw [if_neg h0] at h; exact h
  split at h
  · cases h
  · rename_i g hg
    dsimp only at h
    split at h
    · rename_i h1
      cases h
      exact absurd (hz _ he) h1
    · rename_i h1
      rw [not_not] at h1
      split at h
      · cases h
      · rename_i jac rho e hf
        by_cases h2 : e ≠ 0
        · rw [if_pos h2] at h
          cases h
          exact absurd (hz _ he) h2
        · rw [if_neg h2] at h
          rw [not_not] at h2
          subst h2
          cases h
          obtain ⟨k1, k2⟩ := gcErr_zero.1 h1
          exact ⟨hg, k1, k2, fieldAt_zero.1 hf⟩

/-- A guiding center is stored as it is; an error that it has is kept, and mass and charge numbers stay those of the state. -/
theorem gc_to_state {g : GcM} {s0 s : State} (h : gcToState order b g s0 = some s) :
    SameGc g s ∧ s.anum = s0.anum ∧ s.znum = s0.znum ∧ (g.err ≠ 0 → s.err = g.err) := by
  unfold gcToState at h
  split at h
  · cases h
  · split at h
    · cases h
    · split at h
      · cases h
      · dsimp only at h
        split at h
        · cases h
          exact ⟨⟨rfl, rfl, rfl, rfl, rfl, rfl, rfl, rfl, rfl, rfl, rfl, rfl, rfl⟩, rfl, rfl, fun h => if_pos h⟩
        · cases h
          exact ⟨⟨rfl, rfl, rfl, rfl, rfl, rfl, rfl, rfl, rfl, rfl, rfl, rfl, rfl⟩, rfl, rfl, fun h => if_pos h⟩

/-- If the stored guiding center has no error, its particle is that of the transformation. -/
theorem gc_to_state_particle {g : GcM} {s0 s : State} (h : gcToState order b g s0 = some s) (he : s.err = 0) :
    ∃ q jac e, gc2particle order g.mass g.charge g.B g.gc = some q ∧ s.prt = q.pos ∧ 0 < q.pos.x ∧
      evalBdB b q.pos.x q.pos.y q.pos.z = some (jac, e) ∧ momentum g.mass g.charge (fld jac) q.pos.y q.ppar q.mu q.zeta = some s.p := by
  unfold gcToState at h
  split at h
  · cases h
  · rename_i q hq
    split at h
    · cases h
    · rename_i jac e hj
      split at h
      · cases h
      · rename_i p hp
        dsimp only at h
        by_cases hx : q.pos.x ≤ 0
        · rw [if_pos hx, if_neg (C109.raise_ne _ _ _ (by decide))] at h
          cases h
          dsimp only at he
          by_cases h0 : g.err ≠ 0
          · rw [if_pos h0] at he; exact absurd he h0
          · rw [if_neg h0] at he; exact absurd he (C109.raise_ne _ _ _ (by decide))
        · rw [if_neg hx, if_pos rfl] at h
          cases h
          exact ⟨q, jac, e, hq, rfl, not_le.1 hx, hj, hp⟩

/-- A field line is stored as it is. -/
theorem ml_to_state (m : Ml) (s0 : State) : SameMl m (mlToState m s0) ∧ (mlToState m s0).gc.ppar = m.pitch :=
  ⟨⟨rfl, rfl, rfl, rfl, rfl, rfl, rfl, rfl, rfl, rfl, rfl⟩, rfl⟩

/-! ### Round trips through the state -/

/-- Converting a state for full orbits and back keeps the particle and everything else except the guiding center. -/
theorem fo_round_trip {s s' s0 : State} {f0 f : Fo} (h : stateToFo b s i f0 = some (f, 0)) (h' : foToState order c b f s0 = some s') :
    s'.prt = s.prt ∧ s'.p = s.p ∧ s'.mass = s.mass ∧ s'.charge = s.charge ∧ s'.anum = s.anum ∧ s'.znum = s.znum ∧
    s'.weight = s.weight ∧ s'.time = s.time ∧ s'.mileage = s.mileage ∧ s'.cputime = s.cputime ∧ s'.theta = s.theta ∧ s'.id = s.id ∧
    s'.endcond = s.endcond ∧ s'.walltile = s.walltile := by
  obtain ⟨a1, a2, a3, -⟩ := state_to_fo h
  obtain ⟨c1, c2, c3, -⟩ := fo_to_state h'
  exact ⟨c1.trans a1, c2.trans a2, c3.mass ▸ a3.mass, c3.charge ▸ a3.charge, c3.anum ▸ a3.anum, c3.znum ▸ a3.znum, c3.weight ▸ a3.weight,
    c3.time ▸ a3.time, c3.mileage ▸ a3.mileage, c3.cputime ▸ a3.cputime, c3.theta ▸ a3.theta, c3.id ▸ a3.id, c3.endcond ▸ a3.endcond,
    c3.walltile ▸ a3.walltile⟩

/-- Converting a state for guiding centers and back into the same place keeps everything except the particle. -/
theorem gc_round_trip {s s' : State} {g0 g : GcM} (h : stateToGc s i g0 = (g, 0)) (h' : gcToState order b g s = some s') :
    s' = { s with prt := s'.prt, p := s'.p, err := s'.err } := by
  obtain ⟨a, -⟩ := state_to_gc h
  obtain ⟨d, d1, d2, -⟩ := gc_to_state h'
  obtain ⟨prt', p', gc', mass', charge', anum', znum', weight', time', mileage', cputime', rho', theta', id', endcond', walltile', B', err'⟩ := s'
  simp only at d1 d2
  subst d1
  subst d2
  have e1 := d.gc.symm.trans a.gc
  have e2 := d.mass.symm.trans a.mass
  have e3 := d.charge.symm.trans a.charge
  have e4 := d.weight.symm.trans a.weight
  have e5 := d.time.symm.trans a.time
  have e6 := d.mileage.symm.trans a.mileage
  have e7 := d.cputime.symm.trans a.cputime
  have e8 := d.rho.symm.trans a.rho
  have e9 := d.theta.symm.trans a.theta
  have e10 := d.B.symm.trans a.B
  have e11 := d.id.symm.trans a.id
  have e12 := d.endcond.symm.trans a.endcond
  have e13 := d.walltile.symm.trans a.walltile
  simp only at e1 e2 e3 e4 e5 e6 e7 e8 e9 e10 e11 e12 e13
  rw [e1, e2, e3, e4, e5, e6, e7, e8, e9, e10, e11, e12, e13]

/-- Converting a full orbit directly, or through the state, gives the same guiding center. -/
theorem direct_agrees {f : Fo} {g0 g1 g h : GcM} {s0 s : State} (hg : foToGc order b f g0 = some g) (he : g.err = 0)
    (hs : foToState order c b f s0 = some s) (hse : s.err = 0) (hh : stateToGc s f.index g1 = (h, 0)) :
    g.gc = h.gc ∧ g.mass = h.mass ∧ g.charge = h.charge ∧ g.weight = h.weight ∧ g.time = h.time ∧ g.mileage = h.mileage ∧
    g.cputime = h.cputime ∧ g.rho = h.rho ∧ g.B = h.B ∧ g.id = h.id ∧ g.endcond = h.endcond ∧ g.walltile = h.walltile ∧ g.index = h.index := by
  obtain ⟨k1, k2, k3, k4⟩ := fo_to_state_center hs hse
  obtain ⟨-, -, m1, -⟩ := fo_to_state hs
  obtain ⟨m2, -, m3, -⟩ := state_to_gc hh
  unfold foToGc at hg
  dsimp only at hg
  by_cases h0 : f.err ≠ 0
  · rw [if_pos h0] at hg
    cases hg
    exact absurd he h0
  · rw [if_neg h0, k1] at hg
    dsimp only at hg
    rw [if_neg (not_not.2 (gcErr_zero.2 ⟨k2, k3⟩)), fieldAt_zero.2 k4] at hg
    dsimp only at hg
    rw [if_neg (by simp)] at hg
    split at hg
    · cases hg
    · rename_i a e ha
      by_cases h1 : e ≠ 0
      · rw [if_pos h1] at hg
        cases hg
        exact absurd he h1
      · rw [if_neg h1] at hg
        cases hg
        exact ⟨m2.gc.symm, m1.mass.trans m2.mass.symm, m1.charge.trans m2.charge.symm, m1.weight.trans m2.weight.symm,
          m1.time.trans m2.time.symm, m1.mileage.trans m2.mileage.symm, m1.cputime.trans m2.cputime.symm, m2.rho.symm, m2.B.symm,
          m1.id.trans m2.id.symm, m1.endcond.trans m2.endcond.symm, m1.walltile.trans m2.walltile.symm, m3.symm⟩

/-- What the direct conversion stores when it succeeds. -/
theorem direct_ok {f : Fo} {g0 g : GcM} (hg : foToGc order b f g0 = some g) (he : g.err = 0) :
    f.err = 0 ∧ particle2gc order f.mass f.charge f.B f.pos f.p = some g.gc ∧ 0 < g.gc.pos.x ∧ 0 ≤ g.gc.mu ∧ FieldOf b g.gc.pos g.B g.rho ∧
      ∃ a, axis b g0.gc.pos.y = some (a, 0) ∧ g.theta = f.theta + C82.turn a f.pos.x f.pos.z g.gc.pos.x g.gc.pos.z := by
  unfold foToGc at hg
  dsimp only at hg
  by_cases h0 : f.err ≠ 0
  · rw [if_pos h0] at hg
    cases hg
    exact absurd he h0
  · rw [if_neg h0] at hg
    split at hg
    · cases hg
    · rename_i q hq
      split at hg
      · rename_i h1
        cases hg
        exact absurd he h1
      · rename_i h1
        rw [not_not] at h1
        obtain ⟨k1, k2⟩ := gcErr_zero.1 h1
        split at hg
        · cases hg
        · rename_i jac rho e hf
          by_cases h2 : e ≠ 0
          · rw [if_pos h2] at hg
            cases hg
            exact absurd he h2
          · rw [if_neg h2] at hg
            rw [not_not] at h2
            subst h2
            split at hg
            · cases hg
            · rename_i a e ha
              by_cases h3 : e ≠ 0
              · rw [if_pos h3] at hg
                cases hg
                exact absurd he h3
              · rw [if_neg h3] at hg
                rw [not_not] at h3
                subst h3
                cases hg
                exact ⟨not_not.1 h0, hq, k1, k2, fieldAt_zero.1 hf, a, ha, rfl⟩

/-- When the direct conversion fails, the guiding center is stopped, with its number, an error and no end condition. -/
theorem direct_failed {f : Fo} {g0 g : GcM} (hg : foToGc order b f g0 = some g) (he : g.err ≠ 0) :
    g.running = false ∧ g.endcond = 0 ∧ g.id = f.id ∧ g.index = f.index ∧ (f.err ≠ 0 → g.err = f.err) := by
  unfold foToGc at hg
  dsimp only at hg
  by_cases h0 : f.err ≠ 0
  · rw [if_pos h0] at hg
    cases hg
    exact ⟨rfl, rfl, rfl, rfl, fun _ => rfl⟩
  · rw [if_neg h0] at hg
    split at hg
    · cases hg
    · split at hg
      · cases hg
        exact ⟨rfl, rfl, rfl, rfl, fun h => absurd h h0⟩
      · split at hg
        · cases hg
        · rename_i jac rho e hf
          by_cases h2 : e ≠ 0
          · rw [if_pos h2] at hg
            cases hg
            exact ⟨rfl, rfl, rfl, rfl, fun h => absurd h h0⟩
          · rw [if_neg h2] at hg
            split at hg
            · cases hg
            · rename_i a e ha
              by_cases h3 : e ≠ 0
              · rw [if_pos h3] at hg
                cases hg
                exact ⟨rfl, rfl, rfl, rfl, fun h => absurd h h0⟩
              · rw [if_neg h3] at hg
                cases hg
                exact absurd rfl he

/-- If the axis does not depend on the toroidal angle, the poloidal angle of the direct conversion points to the guiding center. -/
theorem direct_theta_partial {f : Fo} {g0 g : GcM} {a : ℝ × ℝ} (ha : ∀ phi, axis b phi = some (a, 0)) (hf : C82.Points f.theta a f.pos.x f.pos.z)
    (hg : foToGc order b f g0 = some g) (he : g.err = 0) (hne : (g.gc.pos.x, g.gc.pos.z) ≠ a) : C82.Points g.theta a g.gc.pos.x g.gc.pos.z := by
  obtain ⟨-, -, -, -, -, a', h1, h2⟩ := direct_ok hg he
  rw [ha] at h1
  cases h1
  rw [h2]
  exact C82.points_turn hf hne

/-- An accepted particle that is converted for full orbits and back is unchanged in every field. -/
theorem particle_unchanged {n : InP} {s s0 s1 : State} {f0 f : Fo} (h1 : inputToState order c b (.p n) s0 = some s) (he : s.err = 0)
    (h2 : stateToFo b s i f0 = some (f, 0)) (hc : s.gc.ppar < c) : foToState order c b f s1 = some s := by
  obtain ⟨a1, a2, a3, a4, -, -, -, a5⟩ := state_to_fo h2
  obtain ⟨r, h3, h4, rfl⟩ := C109.of_p h1 he
  obtain ⟨a, ea, jac0, g, jac, rho, -, h5, h6, h7, h8, h9, h10⟩ := C109.inputP_ok h3 h4
  have hB : f.B = jac0 := by
    have := a4.1
    rw [h10] at this
    rw [h5] at this
    cases this
    rfl
  rw [h10] at a1 a2 a3 hc
  obtain ⟨b1, b2, b3, b4, b5, b6, b7, b8, b9, b10, b11, b12⟩ := a3
  dsimp only at a1 a2 b1 b2 b3 b4 b5 b6 b7 b8 b9 b10 b11 b12 hc
  unfold foToState
  rw [hB, a1, a2, b1, b2, h6]
  dsimp only
  rw [if_neg (not_not.2 (gcErr_zero.2 ⟨h7, h8⟩)), fieldAt_zero.2 h9]
  dsimp only
  rw [if_neg (by simp), if_neg (not_le.2 hc), if_neg (not_not.2 a5), h10, b3, b4, b5, b6, b7, b8, b9, b10, b11, b12]

/-- An accepted guiding center that is converted for guiding centers and back is unchanged in every field. -/
theorem center_unchanged {n : InGc} {s s0 : State} {g0 g : GcM} (h1 : inputToState order c b (.gc n) s0 = some s) (he : s.err = 0)
    (h2 : stateToGc s i g0 = (g, 0)) : gcToState order b g s = some s := by
  obtain ⟨a, -, -, -, a5⟩ := state_to_gc h2
  obtain ⟨r, h3, h4, rfl⟩ := C109.of_gc h1 he
  obtain ⟨ax, jac, rho, q, jq, eq, p, -, -, -, -, -, h5, h6, h7, h8, -, h9⟩ := C109.inputGc_ok h3 h4
  have e1 : r.1.mass = n.mass := by rw [h9]
  have e2 : r.1.charge = n.charge := by rw [h9]
  have e3 : r.1.B = jac := by rw [h9]
  have e4 : r.1.prt = q.pos := by rw [h9]
  have e5 : r.1.p = p := by rw [h9]
  unfold gcToState
  rw [a.mass, a.charge, a.B, a.gc, e1, e2, e3, h5]
  dsimp only
  rw [h6]
  dsimp only
  unfold fld at h7
  rw [h7]
  dsimp only
  rw [if_neg (not_le.2 h8), if_pos rfl, if_neg (not_not.2 a5), ← e1, ← e2, ← e3, ← e4, ← e5, a.weight, a.time, a.mileage, a.cputime, a.rho,
    a.theta, a.id, a.endcond, a.walltile, ← he]

/-- An accepted field line that is converted for field lines and back is unchanged, apart from the direction (see C64). -/
theorem line_unchanged {n : InMl} {s s0 : State} {m0 m : Ml} (h1 : inputToState order c b (.ml n) s0 = some s) (he : s.err = 0)
    (h2 : stateToMl s i m0 = (m, 0)) : mlToState m s = { s with gc := { s.gc with ppar := m.pitch } } := by
  obtain ⟨a, -⟩ := state_to_ml h2
  obtain ⟨r, h3, h4, rfl⟩ := C109.of_ml h1 he
  obtain ⟨ax, jac, rho, -, -, h5⟩ := C109.inputMl_ok h3 h4
  unfold mlToState
  rw [a.pos, a.weight, a.time, a.mileage, a.cputime, a.rho, a.theta, a.B, a.id, a.endcond, a.walltile, h5]

/-- At zeroth order in a uniform field, an accepted particle that is converted for guiding centers and stored again is where it
was, with the momentum that it had. -/
theorem particle_round_trip_partial {n : InP} {B : V3 ℝ} {s s0 : State} (g0 : GcM) (hu : Uniform b B)
    (h1 : inputToState false c b (.p n) s0 = some s) (he : s.err = 0) :
    ∃ g s', stateToGc s i g0 = (g, 0) ∧ gcToState false b g s = some s' ∧ s'.err = 0 ∧
      rpz2xyz s'.prt = rpz2xyz n.pos ∧ vecRpz2xyz s'.p s'.prt.y = vecRpz2xyz n.p n.pos.y := by
  have hphys := C109.accepted h1 he
  obtain ⟨-, -, hm, hq, -, -, -, -, -, -, ⟨jac, hj, hp⟩, hx, -, hF, -⟩ := C109.particle h1 he
  obtain ⟨g, h2⟩ : ∃ g, stateToGc s i g0 = (g, 0) := by
    unfold stateToGc
    rw [if_neg (not_not.2 he)]
    exact ⟨_, rfl⟩
  obtain ⟨hG, -, -, -, hge⟩ := state_to_gc h2
  obtain ⟨j1, r1, f1, u1⟩ := hu n.pos hphys.1
  obtain ⟨j2, r2, f2, u2⟩ := hu s.gc.pos hx
  have e1 : j1 = jac := by
    have := f1.1
    rw [hj] at this
    cases this
    rfl
  have e2 : j2 = s.B := by
    have := f2.1
    rw [hF.1] at this
    cases this
    rfl
  rw [e1] at u1
  rw [e2] at u2
  obtain ⟨u, w, zeta, hu1, hn, hq1, -⟩ := C47.zeroth hp
  rw [hu1] at hq1
  rw [u1] at hn hq1
  obtain ⟨q, k1, k3'⟩ : ∃ q, gc2particle false n.mass n.charge s.B s.gc = some q ∧ 0 ≤ q.pos.x := by
    have hbn : (Gctransform.geom s.B s.gc.pos.x s.gc.pos.y).bnorm = V3.norm Real.sqrt B := by rw [← u2]; exact Gctransform.geom_bnorm _ _ _
    have hbh : (Gctransform.geom s.B s.gc.pos.x s.gc.pos.y).bhat = V3.unit Real.sqrt B := by rw [← u2]; exact Gctransform.geom_bhat _ _ _
    unfold gc2particle
    dsimp only
    rw [hbn, hbh, if_neg (not_or.2 ⟨hn, not_or.2 ⟨hq1, by simp⟩⟩)]
    exact ⟨_, rfl, Real.sqrt_nonneg _⟩
  obtain ⟨p1, p2, p3, p4⟩ := C47.position_round_trip hp k1 (u2.trans u1.symm)
  have k3 : 0 < q.pos.x := by
    refine lt_of_le_of_ne k3' fun hz => hphys.1.ne' ?_
    unfold rpz2xyz at p1
    rw [← hz] at p1
    simp only [zero_mul, V3.mk.injEq] at p1
    have := Real.cos_sq_add_sin_sq n.pos.y
    have h0 : n.pos.x * n.pos.x = 0 := by
      linear_combination (-(n.pos.x * n.pos.x)) * this - n.pos.x * Real.cos n.pos.y * p1.1 - n.pos.x * Real.sin n.pos.y * p1.2.1
    exact mul_self_eq_zero.1 h0
  obtain ⟨j3, r3, f3, u3⟩ := hu q.pos k3
  have hmom := C47.momentum_round_trip hphys.2.1 hp
  obtain ⟨p', p5, p6⟩ := momentum_frame hmom (u3.trans u1.symm)
  refine ⟨g, { s with prt := q.pos, p := p' }, h2, ?_, ?_, ?_, ?_⟩
  · unfold gcToState
    rw [hG.mass, hG.charge, hG.B, hG.gc, hm, hq, k1]
    dsimp only
    rw [f3.1]
    dsimp only
    unfold fld at p5
    rw [p2, p3, p4, p5]
    dsimp only
    rw [if_neg (not_le.2 k3), if_pos rfl, if_neg (not_not.2 hge), hG.weight, hG.time, hG.mileage, hG.cputime, hG.rho,
      hG.theta, hG.id, hG.endcond, hG.walltile, ← hm, ← hq, ← he]
  · exact he
  · exact p1
  · exact p6

/-! ### Violations -/

/-- **Violation.** When a guiding center is simulated as full orbit (after input, or after the switch in hybrid simulations), its
poloidal angle stays that of the guiding center: it does not point to the particle unless that is on the same line from the axis. -/
theorem theta_fails {s : State} {f0 f : Fo} {a : ℝ × ℝ} (h : stateToFo b s i f0 = some (f, 0))
    (hp : C82.Points s.theta a s.gc.pos.x s.gc.pos.z)
    (hoff : (s.gc.pos.x - a.1) * (s.prt.z - a.2) ≠ (s.gc.pos.z - a.2) * (s.prt.x - a.1)) : ¬ C82.Points f.theta a f.pos.x f.pos.z := by
  obtain ⟨k0, -, k, -⟩ := state_to_fo h
  rw [k.theta, k0]
  rintro ⟨d, -, e1, e2⟩
  obtain ⟨d', -, e3, e4⟩ := hp
  refine hoff ?_
  rw [e1, e2, e3, e4]
  ring

/-- A guiding center at R = 1 with a particle above it. -/
noncomputable def above : InGc := { C109.start 0 with zeta := Real.pi / 2 }

/-- A witness. -/
theorem theta_witness (s0 : State) (f0 : Fo) : ∃ s f, inputToState false 1 C109.ring (.gc above) s0 = some s ∧ s.err = 0 ∧
    stateToFo C109.ring s 0 f0 = some (f, 0) ∧ axis C109.ring 0 = some ((1 / 2, 0), 0) ∧ ¬ C82.Points f.theta (1 / 2, 0) f.pos.x f.pos.z := by
  have hx : 0 < above.pos.x := by unfold above C109.start; norm_num
  have hphys : C109.Physical (.gc above) := by
    refine ⟨hx, ?_, ?_, ?_, ?_, ?_⟩ <;> (unfold above C109.start; norm_num)
  have hf : FieldOf C109.ring above.pos C109.boxJac 0 := C109.ring_field hx
  obtain ⟨g, g1, g2, g3, -, g4⟩ := C109.gc_reaches (order := false) (c := 1) (s := s0) (a := (1 / 2, 0)) one_pos hphys hf rfl
    (by rw [C109.box_norm]; norm_num)
  have hmu : g.mu = 3 / 4 := by
    rw [g2, C109.box_norm]
    unfold Physlib.gcMu above C109.start
    dsimp only
    have : Real.sqrt ((1 + 1 / (1 * (1 * 1))) * (1 + 1 / (1 * (1 * 1))) - 1) * Real.sqrt ((1 + 1 / (1 * (1 * 1))) * (1 + 1 / (1 * (1 * 1))) - 1) = (3 : ℝ) := by
      rw [Real.mul_self_sqrt] <;> norm_num
    nlinarith [this]
  have hh : ¬ (C109.boxJac.a.v = 0 ∧ C109.boxJac.b.v = 0) := by unfold C109.boxJac; norm_num
  obtain ⟨h1, -, -⟩ := C109.direction hh g.pos.y
  have hbn : (Gctransform.geom C109.boxJac g.pos.x g.pos.y).bnorm = 2 := by rw [← C109.box_norm, ← h1]; exact Gctransform.geom_bnorm _ _ _
  have hbh : (Gctransform.geom C109.boxJac g.pos.x g.pos.y).bhat = ⟨0, 1, 0⟩ := by
    have : (Gctransform.geom C109.boxJac g.pos.x g.pos.y).bhat = V3.unit Real.sqrt (vecRpz2xyz (fld C109.boxJac) g.pos.y) := Gctransform.geom_bhat _ _ _
    rw [this]
    unfold V3.unit
    rw [h1, C109.box_norm, g1]
    unfold vecRpz2xyz fld C109.boxJac above C109.start
    norm_num
  have hba : Gctransform.basis ⟨0, 1, 0⟩ = (⟨1, 0, 0⟩, ⟨0, 0, -1⟩) := by
    unfold Gctransform.basis V3.unit V3.norm V3.cross
    norm_num
  have hL : Gctransform.gyrolength above.mass above.charge g.mu 2 = Real.sqrt (3 / 4) := by
    unfold Gctransform.gyrolength above C109.start
    rw [hmu]
    norm_num
  have hLp : 0 < Real.sqrt (3 / 4) := Real.sqrt_pos.2 (by norm_num)
  obtain ⟨q, hq, hqx, hqz⟩ : ∃ q, gc2particle false above.mass above.charge C109.boxJac g = some q ∧ q.pos.x = 1 ∧ q.pos.z = Real.sqrt (3 / 4) := by
    unfold gc2particle
    dsimp only
    rw [hbn, hbh, if_neg (by norm_num), hba, hL, g3, g1]
    refine ⟨_, rfl, ?_, ?_⟩
    · unfold xyz2rpz rpz2xyz above C109.start
      simp
    · unfold xyz2rpz rpz2xyz above C109.start
      simp
  obtain ⟨p, hp⟩ := C109.momentum_defined (jac := C109.boxJac) (mass := above.mass) (charge := above.charge)
    (phi := q.pos.y) (ppar := q.ppar) (mu := q.mu) (zeta := q.zeta) hh
  have hq0 : 0 < q.pos.x := by rw [hqx]; norm_num
  obtain ⟨s, k1, k2, k3, k4, k5, k6⟩ := g4 q _ 0 p hq (C109.ring_field hq0).1 hp hq0
  obtain ⟨f, hf⟩ : ∃ f, stateToFo C109.ring s 0 f0 = some (f, 0) := by
    unfold stateToFo
    rw [if_neg (not_not.2 k2)]
    dsimp only
    rw [k3, fieldAt_zero.2 (C109.ring_field hq0)]
    exact ⟨_, rfl⟩
  refine ⟨s, f, k1, k2, hf, rfl, theta_fails hf ?_ ?_⟩
  · obtain ⟨-, -, -, -, -, -, -, -, -, -, -, -, -, -, -, a, ha, hP⟩ := C109.guiding_center one_pos k1 k2
    have ha' : axis C109.ring above.pos.y = some ((1 / 2, 0), 0) := rfl
    rw [ha'] at ha
    cases ha
    rw [k5, g1]
    refine hP fun h => ?_
    have := congrArg Prod.fst h
    unfold above C109.start at this
    norm_num at this
  · rw [k5, k3, hqx, hqz, g1]
    unfold above C109.start
    norm_num

/-- **Violation.** If there is no field at the guiding center, the stored field is neither that of the particle nor that of the
guiding center: it is the default of the field interface. -/
theorem stored_field_fails {f : Fo} {s0 s : State} {g : Gc} {jac : Jac} {e : Nat} (hg : particle2gc order f.mass f.charge f.B f.pos f.p = some g)
    (hx : 0 < g.pos.x) (hm : 0 ≤ g.mu) (hB : evalBdB b g.pos.x g.pos.y g.pos.z = some (jac, e)) (he : e ≠ 0)
    (h : foToState order c b f s0 = some s) : s.B = ⟨⟨1, 0, 0, 0⟩, ⟨0, 0, 0, 0⟩, ⟨0, 0, 0, 0⟩⟩ ∧ s.rho = f.rho ∧ s.err ≠ 0 := by
  have hj : jac = ⟨⟨1, 0, 0, 0⟩, ⟨0, 0, 0, 0⟩, ⟨0, 0, 0, 0⟩⟩ := by
    unfold evalBdB withFallback at hB
    split at hB
    · cases hB; exact absurd rfl he
    · cases hB; rfl
    · cases hB
  unfold foToState at h
  rw [hg] at h
  dsimp only at h
  rw [if_neg (not_not.2 (gcErr_zero.2 ⟨hx, hm⟩))] at h
  have hF : fieldAt b f.rho g.pos = some (jac, f.rho, e) := by
    unfold fieldAt
    rw [hB]
    dsimp only
    rw [if_pos he]
  rw [hF] at h
  dsimp only at h
  rw [if_pos he] at h
  cases h
  refine ⟨hj, rfl, ?_⟩
  dsimp only
  split
  · assumption
  · exact he

/-- The test that is to find markers faster than light compares the parallel momentum with the speed of light.  All finite momenta
belong to speeds below that of light; what is rejected are momenta that are large as numbers in SI units. -/
theorem momentum_bound {f : Fo} {s0 s : State} {g : Gc} (hg : particle2gc order f.mass f.charge f.B f.pos f.p = some g) (hp : c ≤ g.ppar)
    (h : foToState order c b f s0 = some s) : s.err ≠ 0 := by
  intro he
  obtain ⟨k1, k2, k3, k4⟩ := fo_to_state_center h he
  rw [hg] at k1
  injection k1 with k1
  subst k1
  unfold foToState at h
  rw [hg] at h
  dsimp only at h
  rw [if_neg (not_not.2 (gcErr_zero.2 ⟨k2, k3⟩)), fieldAt_zero.2] at h
  rotate_left
  · exact k4
  · dsimp only at h
    rw [if_neg (by simp), if_pos hp] at h
    injection h with h
    have he := (congrArg State.err h).trans he
    dsimp only at he
    split at he
    · contradiction
    · exact C109.raise_ne _ _ _ (by decide) he

/-- A toroidal field of 2 T with an axis at R = 1 that is above the plane z = 0 for the angle 0 and below it for other angles. -/
noncomputable def twisted : Data :=
  .sts ⟨0, 1, fun _ => some 1, fun phi => some (if phi = 0 then 1 else -1), ⟨fun _ _ _ => some 0, fun _ _ _ => some ⟨0, 0, 0, 0⟩⟩,
    ⟨fun _ _ _ => some 0, fun _ _ _ => some ⟨0, 0, 0, 0⟩⟩, ⟨fun _ _ _ => some 2, fun _ _ _ => some ⟨2, 0, 0, 0⟩⟩,
    ⟨fun _ _ _ => some 0, fun _ _ _ => some ⟨0, 0, 0, 0⟩⟩⟩

theorem twisted_field (pos : V3 ℝ) : FieldOf twisted pos C109.boxJac 0 := by
  refine ⟨?_, 0, ?_, ?_, ?_⟩
  · unfold evalBdB modelBdB twisted STS.evalBdB
    simp [withFallback, C109.boxJac]
  · unfold evalPsi modelPsi twisted STS.evalPsi
    simp [withFallback]
  · unfold evalRho limits twisted
    simp
  · unfold evalRho limits twisted
    simp

theorem twisted_axis (phi : ℝ) : axis twisted phi = some ((1, if phi = 0 then 1 else -1), 0) := rfl

/-- A full orbit at R = 1 with vertical momentum, and its guiding center at R = 1/2. -/
noncomputable def gyrating : Fo :=
  { pos := ⟨1, 0, 0⟩, p := ⟨0, 0, 1⟩, mass := 1, charge := 1, anum := 1, znum := 1, bounces := 0, weight := 1, time := 0, mileage := 0,
    cputime := 0, rho := 0, theta := -(Real.pi / 2), id := 7, endcond := 0, walltile := 0, B := C109.boxJac, running := true, index := 0, err := 0 }

theorem gyrating_center : ∃ g, particle2gc false 1 1 C109.boxJac ⟨1, 0, 0⟩ ⟨0, 0, 1⟩ = some g ∧ g.pos = ⟨1 / 2, 0, 0⟩ ∧ 0 ≤ g.mu ∧ g.ppar = 0 := by
  have hh : ¬ (C109.boxJac.a.v = 0 ∧ C109.boxJac.b.v = 0) := by unfold C109.boxJac; norm_num
  obtain ⟨h1, -, -⟩ := C109.direction hh 0
  have hbn : (Gctransform.geom C109.boxJac 1 0).bnorm = 2 := by rw [← C109.box_norm, ← h1]; exact Gctransform.geom_bnorm _ _ _
  have hbh : (Gctransform.geom C109.boxJac 1 0).bhat = ⟨0, 1, 0⟩ := by
    have : (Gctransform.geom C109.boxJac 1 0).bhat = V3.unit Real.sqrt (vecRpz2xyz (fld C109.boxJac) 0) := Gctransform.geom_bhat _ _ _
    rw [this]
    unfold V3.unit
    rw [h1, C109.box_norm]
    unfold vecRpz2xyz fld C109.boxJac
    norm_num
  have hs : Real.sqrt (1 / 4) = 1 / 2 := by
    rw [show (1 / 4 : ℝ) = (1 / 2) ^ 2 by norm_num, Real.sqrt_sq (by norm_num)]
  have hp : vecRpz2xyz ⟨0, 0, 1⟩ 0 = (⟨0, 0, 1⟩ : V3 ℝ) := by unfold vecRpz2xyz; norm_num
  unfold particle2gc
  dsimp only
  rw [hbn, hbh, hp, if_neg (by norm_num [V3.dot]), if_neg (by simp)]
  refine ⟨_, rfl, ?_, ?_, by norm_num⟩
  · have e1 : V3.unit Real.sqrt ⟨(0 : ℝ) - (0 * 0 + 0 * 1 + 1 * 0) * 0, 0 - (0 * 0 + 0 * 1 + 1 * 0) * 1, 1 - (0 * 0 + 0 * 1 + 1 * 0) * 0⟩ = ⟨0, 0, 1⟩ := by
      unfold V3.unit V3.norm
      norm_num
    have e2 : Gctransform.gyrolength 1 1 (V3.dot (⟨(0 : ℝ) - (0 * 0 + 0 * 1 + 1 * 0) * 0, 0 - (0 * 0 + 0 * 1 + 1 * 0) * 1, 1 - (0 * 0 + 0 * 1 + 1 * 0) * 0⟩ : V3 ℝ)
        ⟨(0 : ℝ) - (0 * 0 + 0 * 1 + 1 * 0) * 0, 0 - (0 * 0 + 0 * 1 + 1 * 0) * 1, 1 - (0 * 0 + 0 * 1 + 1 * 0) * 0⟩ / (2 * 1 * 2)) 2 = 1 / 2 := by
      unfold Gctransform.gyrolength V3.dot
      rw [if_pos one_ne_zero, ← hs]
      norm_num
    rw [e1, e2, if_neg (by norm_num)]
    unfold xyz2rpz rpz2xyz V3.cross
    simp only [Real.cos_zero, Real.sin_zero]
    have e3 : ((1 : ℝ) * 1 - 1 / 2 * (1 * 1 - 0 * 0)) = 1 / 2 := by norm_num
    have e4 : ((1 : ℝ) * 0 - 1 / 2 * (0 * 0 - 0 * 1)) = 0 := by norm_num
    rw [e3, e4]
    ext
    · dsimp only
      rw [← hs]
      norm_num
    · show atan2 0 (1 / 2) = 0
      unfold atan2
      have : (⟨1 / 2, 0⟩ : ℂ) = ((1 / 2 : ℝ) : ℂ) := rfl
      rw [this, Complex.arg_ofReal_of_nonneg (by norm_num)]
    · norm_num
  · dsimp only
    exact div_nonneg (Gctransform.dot_nonneg _) (by norm_num)

/-- **Violation.** In a three-dimensional field the direct conversion looks up the axis at the toroidal angle that happens to be in
the structure: here the angle of the particle points from the axis to it, particle and guiding center are at the toroidal angle 0, and
the angle of the guiding center points elsewhere. -/
theorem direct_theta_fails (g0 : GcM) (h0 : g0.gc.pos.y ≠ 0) : ∃ g, foToGc false twisted gyrating g0 = some g ∧ g.err = 0 ∧
    gyrating.pos.y = 0 ∧ g.gc.pos.y = 0 ∧ axis twisted 0 = some ((1, 1), 0) ∧ C82.Points gyrating.theta (1, 1) gyrating.pos.x gyrating.pos.z ∧
    (g.gc.pos.x, g.gc.pos.z) ≠ (1, 1) ∧ ¬ C82.Points g.theta (1, 1) g.gc.pos.x g.gc.pos.z := by
  obtain ⟨q, k1, k2, k3, -⟩ := gyrating_center
  have hg : foToGc false twisted gyrating g0 = some
      { gc := q, mass := 1, charge := 1, bounces := g0.bounces, weight := 1, time := 0, mileage := 0, cputime := 0, rho := 0,
        theta := -(Real.pi / 2) + turn (1, -1) 1 0 q.pos.x q.pos.z, id := 7, endcond := 0, walltile := 0, B := C109.boxJac, running := true,
        index := 0, err := 0 } := by
    unfold foToGc
    dsimp only
    rw [if_neg (by unfold gyrating; simp), show particle2gc false gyrating.mass gyrating.charge gyrating.B gyrating.pos gyrating.p = some q from k1]
    dsimp only
    rw [if_neg (not_not.2 (gcErr_zero.2 ⟨by rw [k2]; norm_num, k3⟩)), fieldAt_zero.2 (twisted_field q.pos)]
    dsimp only
    rw [if_neg (by simp), twisted_axis, if_neg h0]
    rfl
  refine ⟨_, hg, rfl, rfl, by rw [k2], by rw [twisted_axis, if_pos rfl], ⟨1, one_pos, ?_, ?_⟩, ?_, ?_⟩
  · unfold gyrating
    dsimp only
    rw [Real.cos_neg, Real.cos_pi_div_two]
    norm_num
  · unfold gyrating
    dsimp only
    rw [Real.sin_neg, Real.sin_pi_div_two]
    norm_num
  · rw [k2]
    intro h
    have := congrArg Prod.fst h
    norm_num at this
  · rintro ⟨d, hd, e1, -⟩
    dsimp only at e1
    rw [k2] at e1
    have ht : turn (1, -1) 1 0 (1 / 2) 0 = Complex.arg ⟨1, 1 / 2⟩ := by
      unfold turn atan2
      norm_num
    dsimp only at e1
    rw [ht, neg_add_eq_sub, Real.cos_sub_pi_div_two, Complex.sin_arg] at e1
    have hn : 0 < ‖(⟨1, 1 / 2⟩ : ℂ)‖ := by
      rw [norm_pos_iff]
      intro h
      have := congrArg Complex.re h
      norm_num at this
    have : 0 < d * ((1 / 2 : ℝ) / ‖(⟨1, 1 / 2⟩ : ℂ)‖) := by positivity
    have e : (⟨1, 1 / 2⟩ : ℂ).im = 1 / 2 := rfl
    rw [e] at e1
    norm_num at e1 this
    linarith

/-! ### The hypotheses can be met -/

example (s0 : State) : ∃ s, foToState false 1 .unknown gyrating s0 = some s ∧ s.B = ⟨⟨1, 0, 0, 0⟩, ⟨0, 0, 0, 0⟩, ⟨0, 0, 0, 0⟩⟩ ∧ gyrating.B ≠ s.B := by
  obtain ⟨q, k1, k2, k3, -⟩ := gyrating_center
  have k1' : particle2gc false gyrating.mass gyrating.charge gyrating.B gyrating.pos gyrating.p = some q := k1
  have hB : evalBdB .unknown q.pos.x q.pos.y q.pos.z = some (⟨⟨1, 0, 0, 0⟩, ⟨0, 0, 0, 0⟩, ⟨0, 0, 0, 0⟩⟩, Error.raise 2 476 21) := rfl
  have hx : 0 < q.pos.x := by rw [k2]; norm_num
  obtain ⟨s, hs⟩ : ∃ s, foToState false 1 .unknown gyrating s0 = some s := by
    unfold foToState
    rw [k1']
    dsimp only
    rw [if_neg (not_not.2 (gcErr_zero.2 ⟨hx, k3⟩))]
    unfold fieldAt
    rw [hB]
    dsimp only
    rw [if_pos (C109.raise_ne _ _ _ (by decide))]
    dsimp only
    rw [if_pos (C109.raise_ne _ _ _ (by decide))]
    exact ⟨_, rfl⟩
  have := (stored_field_fails k1' hx k3 hB (C109.raise_ne _ _ _ (by decide)) hs).1
  refine ⟨s, hs, this, ?_⟩
  rw [this]
  unfold gyrating C109.boxJac
  simp

example (f : Fo) (h : f = gyrating) : ∃ g, particle2gc false f.mass f.charge f.B f.pos f.p = some g ∧ (-1 : ℝ) ≤ g.ppar := by
  subst h
  obtain ⟨q, k1, -, -, k4⟩ := gyrating_center
  exact ⟨q, k1, by rw [k4]; norm_num⟩

example (s0 s1 : State) (f0 : Fo) : ∃ s f, inputToState false 1 C109.ring (.p C109.launch) s0 = some s ∧ s.err = 0 ∧
    stateToFo C109.ring s 3 f0 = some (f, 0) ∧ foToState false 1 C109.ring f s1 = some s := by
  obtain ⟨q, k1, k2, k3, k4⟩ := gyrating_center
  have hx : 0 < C109.launch.pos.x := by unfold C109.launch; norm_num
  obtain ⟨s, h1, h2⟩ : ∃ s', inputToState false 1 C109.ring (.p C109.launch) s0 = some s' ∧ s'.err = 0 := by
    refine C109.accepts_particle (a := ((1 / 2, 0), 0)) (by unfold C109.launch C109.Physical; norm_num) C109.ring_all rfl fun jac rho h => ?_
    rw [C109.ring_jac hx h, C109.box_norm]
    constructor
    · unfold C109.launch V3.cross fld C109.boxJac
      simp
    · intro _
      unfold C109.launch V3.norm
      norm_num
  obtain ⟨hp, -, -, -, -, -, -, -, -, -, ⟨jac, hj, hg⟩, -⟩ := C109.particle h1 h2
  have hjac : jac = C109.boxJac := by
    rw [(C109.ring_field hx).1] at hj
    cases hj
    rfl
  rw [hjac, show particle2gc false C109.launch.mass C109.launch.charge C109.boxJac C109.launch.pos C109.launch.p = some q from k1] at hg
  injection hg with hg
  have hf : ∃ f, stateToFo C109.ring s 3 f0 = some (f, 0) := by
    unfold stateToFo
    rw [if_neg (not_not.2 h2)]
    dsimp only
    rw [hp, fieldAt_zero.2 (C109.ring_field hx)]
    exact ⟨_, rfl⟩
  obtain ⟨f, hf⟩ := hf
  exact ⟨s, f, h1, h2, hf, particle_unchanged h1 h2 hf (by rw [← hg, k4]; norm_num)⟩

example (s0 : State) (g0 : GcM) : ∃ s g, inputToState false 1 C109.ring (.gc (C109.start (1 / 2))) s0 = some s ∧ s.err = 0 ∧
    stateToGc s 3 g0 = (g, 0) ∧ gcToState false C109.ring g s = some s := by
  have hx : 0 < (C109.start (1 / 2)).pos.x := by unfold C109.start; norm_num
  obtain ⟨s, h1, h2⟩ : ∃ s', inputToState false 1 C109.ring (.gc (C109.start (1 / 2))) s0 = some s' ∧ s'.err = 0 := by
    refine C109.accepts (a := (1 / 2, 0)) one_pos (C109.start_physical (by rw [abs_of_nonneg] <;> norm_num)) C109.ring_all rfl fun _ jac rho h => ?_
    rw [C109.ring_jac hx h, C109.box_norm]
    unfold C109.momentumOf C109.start
    dsimp only
    rw [← Real.sqrt_mul (by norm_num), Real.sqrt_lt' (by norm_num)]
    norm_num
  obtain ⟨g, hg⟩ : ∃ g, stateToGc s 3 g0 = (g, 0) := by
    unfold stateToGc
    rw [if_neg (not_not.2 h2)]
    exact ⟨_, rfl⟩
  exact ⟨s, g, h1, h2, hg, center_unchanged h1 h2 hg⟩

/-- A uniform field along the x axis. -/
noncomputable def straight : Data := .tc ⟨1, 0, 1, 1, ⟨2, 0, 0⟩, ⟨0, 0, 0⟩, ⟨0, 0, 0⟩, ⟨0, 0, 0⟩⟩

theorem straight_field (pos : V3 ℝ) : ∃ jac, FieldOf straight pos jac 1 ∧ vecRpz2xyz (fld jac) pos.y = ⟨2, 0, 0⟩ := by
  refine ⟨_, ⟨rfl, 1, rfl, ?_, ?_⟩, ?_⟩
  · unfold evalRho limits straight
    norm_num
  · unfold evalRho limits straight
    norm_num
  · exact (C44.vec_round_trips ⟨2, 0, 0⟩ pos.y).2

theorem straight_uniform : Uniform straight ⟨2, 0, 0⟩ := fun pos _ => by
  obtain ⟨jac, h1, h2⟩ := straight_field pos
  exact ⟨jac, 1, h1, h2⟩

example (s0 : State) : ∃ s, inputToState false 1 straight (.p C109.launch) s0 = some s ∧ s.err = 0 := by
  have key : ∀ pos : V3 ℝ, ∀ jac : Jac, vecRpz2xyz (fld jac) pos.y = ⟨2, 0, 0⟩ → fld jac = vecXyz2rpz ⟨2, 0, 0⟩ pos.y := fun pos jac h => by
    rw [← h, (C44.vec_round_trips _ _).1]
  have hx : 0 < C109.launch.pos.x := by unfold C109.launch; norm_num
  have hu : ∀ pos : V3 ℝ, ∃ jac rho, FieldOf straight pos jac rho ∧ ¬ (jac.a.v = 0 ∧ jac.b.v = 0) := fun pos => by
    obtain ⟨jac, h1, h2⟩ := straight_field pos
    refine ⟨jac, 1, h1, fun h => ?_⟩
    have e := congrArg V3.x h2
    have e' := congrArg V3.y h2
    unfold vecRpz2xyz fld at e e'
    dsimp only at e e'
    rw [h.1, h.2] at e
    norm_num at e
  refine C109.accepts_particle (a := ((1, 0), 0)) (by unfold C109.launch C109.Physical; norm_num) (fun pos _ => hu pos) rfl fun jac rho h => ?_
  obtain ⟨j', h1, h2⟩ := straight_field C109.launch.pos
  have hj : j' = jac := by
    have := h1.1
    rw [h.1] at this
    cases this
    rfl
  rw [hj] at h2
  have e : fld jac = ⟨2, 0, 0⟩ := by
    rw [key _ _ h2]
    unfold vecXyz2rpz C109.launch
    norm_num
  rw [e]
  constructor
  · unfold C109.launch V3.cross
    simp
  · intro _
    unfold C109.launch V3.norm
    have : (1 : ℝ) < Real.sqrt 4 := by rw [Real.lt_sqrt] <;> norm_num
    norm_num
    exact this

end Ascot.C110
