import Verif.Lemmas.Particle
import Verif.Props.C46_Physlib
import Verif.Props.C82_Theta

/-!
# C109: marker input

An input marker that is accepted is physical and starts with the position, momentum, energy, pitch, species, weight and time
that the user gave; one that is not physical is rejected with an error and keeps its number.
-/
set_option linter.unusedSectionVars false
set_option linter.unusedSimpArgs false

namespace Ascot.C109
open Ascot.Coord Ascot.Bfield Ascot.Particle
open Ascot.Gctransform (Gc particle2gc gc2particle momentum)
open Ascot.C47 (fld)

/-! ### Specification -/

/-- What an input marker must satisfy. -/
def Physical : Input → Prop
  | .p i => 0 < i.pos.x ∧ 0 < i.mass ∧ 0 < i.weight ∧ 0 < i.id
  | .gc i => 0 < i.pos.x ∧ |i.pitch| ≤ 1 ∧ 0 < i.energy ∧ 0 < i.mass ∧ 0 < i.weight ∧ 0 < i.id
  | .ml i => 0 < i.pos.x ∧ 0 < i.weight ∧ 0 < i.id
  | .other => True

/-- The number of a marker. -/
def number : Input → Int
  | .p i => i.id
  | .gc i => i.id
  | .ml i => i.id
  | .other => 0

/-- Kinetic energy for a momentum. -/
noncomputable def kinetic (c m : ℝ) (p : V3 ℝ) : ℝ := (Real.sqrt (1 + V3.dot p p / (m * c) ^ 2) - 1) * m * c ^ 2

/-- A marker that has not been simulated yet. -/
structure Fresh (s : State) : Prop where
  mileage : s.mileage = 0
  endcond : s.endcond = 0
  walltile : s.walltile = 0
  cputime : s.cputime = 0
  err : s.err = 0

variable {order : Bool} {c : ℝ} {b : Data} {s s' : State}

/-! ### Lemmas -/

theorem raise_ne (t l f : Nat) (ht : t ≠ 0) : Error.raise t l f ≠ 0 := by
  unfold Error.raise
  omega

theorem inputP_ok {i : InP} {r : State × Nat} (h : inputP order b i s = some r) (he : r.2 = 0) :
    ∃ a ea jac0 g jac rho, axis b i.pos.y = some (a, ea) ∧ evalBdB b i.pos.x i.pos.y i.pos.z = some (jac0, 0) ∧
      particle2gc order i.mass i.charge jac0 i.pos i.p = some g ∧ 0 < g.pos.x ∧ 0 ≤ g.mu ∧ FieldOf b g.pos jac rho ∧
      r.1 = { prt := i.pos, p := i.p, mass := i.mass, charge := i.charge, anum := i.anum, znum := i.znum,
              weight := i.weight, time := i.time, theta := atan2 (i.pos.z - a.2) (i.pos.x - a.1), id := i.id,
              mileage := 0, endcond := 0, walltile := 0, cputime := 0, gc := g, rho := rho, B := jac, err := 0 } := by
  unfold inputP at h
  cases h1 : axis b i.pos.y with
  | none => simp [h1] at h
  | some x =>
    obtain ⟨a, ea⟩ := x
    rw [h1] at h
    dsimp only at h
    cases h2 : evalBdB b i.pos.x i.pos.y i.pos.z with
    | none => simp [h2] at h
    | some y =>
      obtain ⟨jac0, e⟩ := y
      rw [h2] at h
      dsimp only at h
      by_cases h3 : e ≠ 0
      · rw [if_pos h3] at h
        cases h
        exact absurd he h3
      · rw [if_neg h3] at h
        rw [not_not] at h3
        subst h3
        cases h4 : particle2gc order i.mass i.charge jac0 i.pos i.p with
        | none => simp [h4] at h
        | some g =>
          rw [h4] at h
          dsimp only at h
          by_cases h5 : gcErr 1487 1490 g ≠ 0
          · rw [if_pos h5] at h
            cases h
            exact absurd he h5
          · rw [if_neg h5] at h
            have hg : 0 < g.pos.x ∧ 0 ≤ g.mu := by
              rw [not_not] at h5
              unfold gcErr at h5
              by_cases q1 : g.pos.x ≤ 0
              · rw [if_pos q1] at h5; exact absurd h5 (raise_ne _ _ _ (by decide))
              · rw [if_neg q1] at h5
                by_cases q2 : g.mu < 0
                · rw [if_pos q2] at h5; exact absurd h5 (raise_ne _ _ _ (by decide))
                · exact ⟨not_le.1 q1, not_lt.1 q2⟩
            cases h6 : fieldAt b 0 g.pos with
            | none => simp [h6] at h
            | some z =>
              obtain ⟨jac, rho, e⟩ := z
              rw [h6] at h
              dsimp only at h
              by_cases h7 : e ≠ 0
              · rw [if_pos h7] at h
                cases h
                exact absurd he h7
              · rw [if_neg h7] at h
                rw [not_not] at h7
                subst h7
                cases h
                exact ⟨a, ea, jac0, g, jac, rho, rfl, rfl, h4, hg.1, hg.2, fieldAt_zero.1 h6, rfl⟩

theorem inputGc_ok {i : InGc} {r : State × Nat} (h : inputGc order c b i s = some r) (he : r.2 = 0) :
    ∃ a jac rho q jq eq p, axis b i.pos.y = some (a, 0) ∧ FieldOf b i.pos jac rho ∧
      i.mass * (c * c) ≠ 0 ∧ 2 * V3.norm Real.sqrt (fld jac) * i.mass ≠ 0 ∧
      0 ≤ (1 + i.energy / (i.mass * (c * c))) * (1 + i.energy / (i.mass * (c * c))) - 1 ∧
      gc2particle order i.mass i.charge jac r.1.gc = some q ∧ evalBdB b q.pos.x q.pos.y q.pos.z = some (jq, eq) ∧
      momentum i.mass i.charge (fld jq) q.pos.y q.ppar q.mu q.zeta = some p ∧ 0 < q.pos.x ∧ 0 ≤ r.1.gc.mu ∧
      r.1 = { prt := q.pos, p := p, mass := i.mass, charge := i.charge, anum := i.anum, znum := i.znum,
              weight := i.weight, time := i.time, theta := atan2 (i.pos.z - a.2) (i.pos.x - a.1), id := i.id,
              mileage := 0, endcond := 0, walltile := 0, cputime := 0,
              gc := ⟨i.pos, Physlib.gcPpar (Real.sqrt ((1 + i.energy / (i.mass * (c * c))) * (1 + i.energy / (i.mass * (c * c))) - 1) * i.mass * c) i.pitch,
                Physlib.gcMu i.mass (Real.sqrt ((1 + i.energy / (i.mass * (c * c))) * (1 + i.energy / (i.mass * (c * c))) - 1) * i.mass * c) i.pitch
                  (V3.norm Real.sqrt (fld jac)), i.zeta⟩,
              rho := rho, B := jac, err := 0 } := by
  unfold inputGc at h
  cases h1 : fieldAt b 0 i.pos with
  | none => simp [h1] at h
  | some x =>
    obtain ⟨jac, rho, e⟩ := x
    rw [h1] at h
    dsimp only at h
    by_cases h2 : e ≠ 0
    · rw [if_pos h2] at h
      cases h
      exact absurd he h2
    · rw [if_neg h2] at h
      rw [not_not] at h2
      subst h2
      have hn : Real.sqrt (jac.a.v * jac.a.v + jac.b.v * jac.b.v + jac.c.v * jac.c.v) = V3.norm Real.sqrt (fld jac) := rfl
      rw [hn] at h
      split at h
      · cases h
      · rename_i h3
        rw [not_or, not_or, not_lt] at h3
        split at h
        · cases h
          exact absurd he (raise_ne _ _ _ (by decide))
        · rename_i h4
          cases h5 : axis b i.pos.y with
          | none => simp [h5] at h
          | some y =>
            obtain ⟨a, e⟩ := y
            rw [h5] at h
            dsimp only at h
            by_cases h6 : e ≠ 0
            · rw [if_pos h6] at h
              cases h
              exact absurd he h6
            · rw [if_neg h6] at h
              rw [not_not] at h6
              subst h6
              split at h
              · cases h
              · rename_i q h7
                split at h
                · cases h
                · rename_i jq eq h8
                  split at h
                  · cases h
                  · rename_i p h9
                    split at h
                    · cases h
                      exact absurd he (raise_ne _ _ _ (by decide))
                    · rename_i h10
                      cases h
                      exact ⟨a, jac, rho, q, jq, eq, p, rfl, fieldAt_zero.1 h1, h3.1, h3.2.1, h3.2.2, h7, h8, h9, not_le.1 h10,
                        not_lt.1 h4, rfl⟩

theorem inputMl_ok {i : InMl} {r : State × Nat} (h : inputMl b i s = some r) (he : r.2 = 0) :
    ∃ a jac rho, axis b i.pos.y = some (a, 0) ∧ FieldOf b i.pos jac rho ∧
      r.1 = { prt := i.pos, p := ⟨0, 0, 0⟩, mass := 0, charge := 0, anum := 0, znum := 0, weight := i.weight, time := i.time,
              id := i.id, theta := atan2 (i.pos.z - a.2) (i.pos.x - a.1), endcond := 0, walltile := 0, cputime := 0,
              mileage := 0, gc := ⟨i.pos, if i.pitch ≥ 0 then 1 else 0, 0, 0⟩, rho := rho, B := jac, err := 0 } := by
  unfold inputMl at h
  cases h1 : fieldAt b 0 i.pos with
  | none => simp [h1] at h
  | some x =>
    obtain ⟨jac, rho, e⟩ := x
    rw [h1] at h
    dsimp only at h
    by_cases h2 : e ≠ 0
    · rw [if_pos h2] at h
      cases h
      exact absurd he h2
    · rw [if_neg h2] at h
      rw [not_not] at h2
      subst h2
      cases h5 : axis b i.pos.y with
      | none => simp [h5] at h
      | some y =>
        obtain ⟨a, e⟩ := y
        rw [h5] at h
        dsimp only at h
        by_cases h6 : e ≠ 0
        · rw [if_pos h6] at h
          cases h
          exact absurd he h6
        · rw [if_neg h6] at h
          rw [not_not] at h6
          subst h6
          cases h
          exact ⟨a, jac, rho, rfl, fieldAt_zero.1 h1, rfl⟩

theorem reject_zero {id : Int} {r : State × Nat} (h : (reject id r).err = 0) : r.2 = 0 ∧ reject id r = r.1 := by
  unfold reject at h ⊢
  by_cases hr : r.2 ≠ 0
  · rw [if_pos hr] at h
    exact absurd h hr
  · rw [if_neg hr]
    exact ⟨not_not.1 hr, rfl⟩

/-! ### The property -/

/-- Markers that are not physical are rejected: error, number of the marker, no end condition. -/
theorem unphysical {i : Input} (h : ¬ Physical i) :
    ∃ s', inputToState order c b i s = some s' ∧ s'.err ≠ 0 ∧ s'.id = number i ∧ s'.endcond = 0 := by
  have key : ∀ (id : Int) (l : Nat), (reject id (s, Error.raise 4 l 22)).err ≠ 0 ∧ (reject id (s, Error.raise 4 l 22)).id = id ∧
      (reject id (s, Error.raise 4 l 22)).endcond = 0 := fun id l => by
    have := raise_ne 4 l 22 (by decide)
    unfold reject
    rw [if_pos this]
    exact ⟨this, rfl, rfl⟩
  cases i with
  | other => exact absurd trivial h
  | p i =>
    simp only [Physical, not_and_or, not_lt] at h
    unfold inputToState
    dsimp only
    split_ifs with h1 h2 h3 h4
    · exact ⟨_, rfl, key _ _⟩
    · exact ⟨_, rfl, key _ _⟩
    · exact ⟨_, rfl, key _ _⟩
    · exact ⟨_, rfl, key _ _⟩
    · tauto
  | gc i =>
    simp only [Physical, not_and_or, not_lt, not_le] at h
    unfold inputToState
    dsimp only
    split_ifs with h1 h2 h3 h4 h5 h6
    · exact ⟨_, rfl, key _ _⟩
    · exact ⟨_, rfl, key _ _⟩
    · exact ⟨_, rfl, key _ _⟩
    · exact ⟨_, rfl, key _ _⟩
    · exact ⟨_, rfl, key _ _⟩
    · exact ⟨_, rfl, key _ _⟩
    · tauto
  | ml i =>
    simp only [Physical, not_and_or, not_lt] at h
    unfold inputToState
    dsimp only
    split_ifs with h1 h2 h3
    · exact ⟨_, rfl, key _ _⟩
    · exact ⟨_, rfl, key _ _⟩
    · exact ⟨_, rfl, key _ _⟩
    · tauto

/-- Markers that are accepted are physical. -/
theorem accepted {i : Input} (h : inputToState order c b i s = some s') (he : s'.err = 0) : Physical i := by
  by_contra hp
  obtain ⟨s'', h1, h2, -⟩ := unphysical (order := order) (c := c) (b := b) (s := s) hp
  rw [h] at h1
  cases h1
  exact h2 he

/-- Whether accepted or not, the marker has its number and no end condition. -/
theorem identified {i : Input} (ht : i ≠ .other) (h : inputToState order c b i s = some s') : s'.id = number i ∧ s'.endcond = 0 := by
  have key : ∀ (id : Int) (o : Option (State × Nat)), (∀ r, o = some r → r.2 = 0 → r.1.id = id ∧ r.1.endcond = 0) →
      o.map (reject id) = some s' → s'.id = id ∧ s'.endcond = 0 := by
    intro id o ho h
    cases o with
    | none => cases h
    | some r =>
      cases h
      unfold reject
      by_cases hr : r.2 ≠ 0
      · rw [if_pos hr]; exact ⟨rfl, rfl⟩
      · rw [if_neg hr]; exact ho r rfl (not_not.1 hr)
  cases i with
  | other => exact absurd rfl ht
  | p i =>
    refine key _ _ (fun r hr he => ?_) h
    split_ifs at hr
    all_goals first
      | (cases hr; exact absurd he (raise_ne _ _ _ (by decide)))
      | (obtain ⟨_, _, _, _, _, _, _, _, _, _, _, _, e⟩ := inputP_ok hr he; rw [e]; exact ⟨rfl, rfl⟩)
  | gc i =>
    refine key _ _ (fun r hr he => ?_) h
    split_ifs at hr
    all_goals first
      | (cases hr; exact absurd he (raise_ne _ _ _ (by decide)))
      | (obtain ⟨_, _, _, _, _, _, _, _, _, _, _, _, _, _, _, _, _, e⟩ := inputGc_ok hr he; rw [e]; exact ⟨rfl, rfl⟩)
  | ml i =>
    refine key _ _ (fun r hr he => ?_) h
    split_ifs at hr
    all_goals first
      | (cases hr; exact absurd he (raise_ne _ _ _ (by decide)))
      | (obtain ⟨_, _, _, _, _, e⟩ := inputMl_ok hr he; rw [e]; exact ⟨rfl, rfl⟩)

theorem of_p {i : InP} (h : inputToState order c b (.p i) s = some s') (he : s'.err = 0) : ∃ r, inputP order b i s = some r ∧ r.2 = 0 ∧ s' = r.1 := by
  have hp := accepted h he
  obtain ⟨h1, h2, h3, h4⟩ := hp
  unfold inputToState at h
  dsimp only at h
  rw [if_neg (not_le.2 h1), if_neg (not_le.2 h2), if_neg (not_le.2 h3), if_neg (not_le.2 h4)] at h
  cases h5 : inputP order b i s with
  | none => simp [h5] at h
  | some r =>
    rw [h5] at h
    cases h
    exact ⟨r, rfl, reject_zero he⟩

theorem of_gc {i : InGc} (h : inputToState order c b (.gc i) s = some s') (he : s'.err = 0) :
    ∃ r, inputGc order c b i s = some r ∧ r.2 = 0 ∧ s' = r.1 := by
  have hp := accepted h he
  obtain ⟨h1, h2, h3, h4, h5, h6⟩ := hp
  unfold inputToState at h
  dsimp only at h
  rw [if_neg (not_le.2 h1), if_neg (not_lt.2 h2), if_neg (not_le.2 h3), if_neg (not_le.2 h4), if_neg (not_le.2 h5), if_neg (not_le.2 h6)] at h
  cases h7 : inputGc order c b i s with
  | none => simp [h7] at h
  | some r =>
    rw [h7] at h
    cases h
    exact ⟨r, rfl, reject_zero he⟩

theorem of_ml {i : InMl} (h : inputToState order c b (.ml i) s = some s') (he : s'.err = 0) : ∃ r, inputMl b i s = some r ∧ r.2 = 0 ∧ s' = r.1 := by
  have hp := accepted h he
  obtain ⟨h1, h2, h3⟩ := hp
  unfold inputToState at h
  dsimp only at h
  rw [if_neg (not_le.2 h1), if_neg (not_le.2 h2), if_neg (not_le.2 h3)] at h
  cases h5 : inputMl b i s with
  | none => simp [h5] at h
  | some r =>
    rw [h5] at h
    cases h
    exact ⟨r, rfl, reject_zero he⟩

/-- An accepted particle starts as given; its guiding center is the transformed particle with the field there. -/
theorem particle {i : InP} (h : inputToState order c b (.p i) s = some s') (he : s'.err = 0) :
    s'.prt = i.pos ∧ s'.p = i.p ∧ s'.mass = i.mass ∧ s'.charge = i.charge ∧ s'.anum = i.anum ∧ s'.znum = i.znum ∧
    s'.weight = i.weight ∧ s'.time = i.time ∧ s'.id = i.id ∧ Fresh s' ∧
    (∃ jac, evalBdB b i.pos.x i.pos.y i.pos.z = some (jac, 0) ∧ particle2gc order i.mass i.charge jac i.pos i.p = some s'.gc) ∧
    0 < s'.gc.pos.x ∧ 0 ≤ s'.gc.mu ∧ FieldOf b s'.gc.pos s'.B s'.rho ∧
    ∃ a e, axis b i.pos.y = some (a, e) ∧ ((i.pos.x, i.pos.z) ≠ a → C82.Points s'.theta a i.pos.x i.pos.z) := by
  obtain ⟨r, h1, h2, rfl⟩ := of_p h he
  obtain ⟨a, ea, jac0, g, jac, rho, h3, h4, h5, h6, h7, h8, h9⟩ := inputP_ok h1 h2
  rw [h9]
  exact ⟨rfl, rfl, rfl, rfl, rfl, rfl, rfl, rfl, rfl, ⟨rfl, rfl, rfl, rfl, rfl⟩, ⟨jac0, h4, h5⟩, h6, h7, h8, a, ea, h3,
    fun hne => C82.initial_points hne⟩

/-- The momentum for a kinetic energy. -/
theorem pnorm_energy {c m E : ℝ} (hc : 0 < c) (hm : 0 < m) (hE : 0 < E) :
    let g := 1 + E / (m * (c * c))
    let p := Real.sqrt (g * g - 1) * m * c
    0 < p ∧ Physlib.ekinPnorm c m p = E := by
  intro g p
  have hg : 1 < g := by
    have : 0 < E / (m * (c * c)) := by positivity
    linarith
  have hgg : 0 < g * g - 1 := by nlinarith
  have hp : 0 < p := by
    have := Real.sqrt_pos.2 hgg
    positivity
  refine ⟨hp, ?_⟩
  have hsq : p * p / (m * m * (c * c)) = g * g - 1 := by
    have := Real.mul_self_sqrt hgg.le
    show Real.sqrt (g * g - 1) * m * c * (Real.sqrt (g * g - 1) * m * c) / (m * m * (c * c)) = _
    rw [show Real.sqrt (g * g - 1) * m * c * (Real.sqrt (g * g - 1) * m * c) = (Real.sqrt (g * g - 1) * Real.sqrt (g * g - 1)) * (m * m * (c * c)) by ring,
      this]
    field_simp
  unfold Physlib.ekinPnorm Physlib.gammaPnorm
  rw [hsq, show 1 + (g * g - 1) = g ^ 2 by ring, Real.sqrt_sq (by linarith)]
  show (1 + E / (m * (c * c)) - 1) * m * (c * c) = E
  field_simp
  ring

/-- An accepted guiding center starts at the given place with the given kinetic energy, pitch and gyroangle. -/
theorem guiding_center {i : InGc} (hc : 0 < c) (h : inputToState order c b (.gc i) s = some s') (he : s'.err = 0) :
    s'.gc.pos = i.pos ∧ s'.gc.zeta = i.zeta ∧ 0 ≤ s'.gc.mu ∧ FieldOf b i.pos s'.B s'.rho ∧
    Physlib.ekinPpar c i.mass s'.gc.mu s'.gc.ppar (V3.norm Real.sqrt (fld s'.B)) = i.energy ∧
    Physlib.gcXi c i.mass s'.gc.mu s'.gc.ppar (V3.norm Real.sqrt (fld s'.B)) = i.pitch ∧
    s'.mass = i.mass ∧ s'.charge = i.charge ∧ s'.anum = i.anum ∧ s'.znum = i.znum ∧
    s'.weight = i.weight ∧ s'.time = i.time ∧ s'.id = i.id ∧ Fresh s' ∧ 0 < s'.prt.x ∧
    ∃ a, axis b i.pos.y = some (a, 0) ∧ ((i.pos.x, i.pos.z) ≠ a → C82.Points s'.theta a i.pos.x i.pos.z) := by
  obtain ⟨-, hpi, hE, hm, -, -⟩ := accepted h he
  obtain ⟨r, h1, h2, rfl⟩ := of_gc h he
  obtain ⟨a, jac, rho, q, jq, eq, p, h3, h4, -, h5, -, h6, h7, h8, h9, h10, h11⟩ := inputGc_ok h1 h2
  have hB : 0 < V3.norm Real.sqrt (fld jac) := by
    refine lt_of_le_of_ne (Real.sqrt_nonneg _) fun h0 => h5 ?_
    rw [← h0]
    ring
  obtain ⟨hp0, hp1⟩ := pnorm_energy hc hm hE
  obtain ⟨-, k2, k3, k4⟩ := C46.pitch_to_moment hc hm hp0 hpi hB
  rw [h11]
  refine ⟨rfl, rfl, k4, h4, ?_, k2, rfl, rfl, rfl, rfl, rfl, rfl, rfl, ⟨rfl, rfl, rfl, rfl, rfl⟩, h9, a, h3,
    fun hne => C82.initial_points hne⟩
  show Physlib.ekinPpar c i.mass _ _ _ = _
  unfold Physlib.ekinPpar
  rw [k3]
  exact hp1

theorem zeroth_same {m q : ℝ} {jac : Jac} {g g' : Gc} (h : gc2particle false m q jac g = some g') : g'.ppar = g.ppar ∧ g'.mu = g.mu := by
  unfold gc2particle at h
  dsimp only at h
  split at h
  · cases h
  · cases h
    exact ⟨rfl, rfl⟩

/-- At zeroth order the particle of an accepted guiding center has the given kinetic energy if the field is as strong at its
position as at the guiding center. -/
theorem guiding_center_particle_partial {i : InGc} (hc : 0 < c) (h : inputToState false c b (.gc i) s = some s') (he : s'.err = 0) :
    ∃ jac e, evalBdB b s'.prt.x s'.prt.y s'.prt.z = some (jac, e) ∧
      (V3.norm Real.sqrt (fld jac) = V3.norm Real.sqrt (fld s'.B) → kinetic c i.mass s'.p = i.energy) := by
  obtain ⟨-, hpi, hE, hm, -, -⟩ := accepted h he
  obtain ⟨r, h1, h2, rfl⟩ := of_gc h he
  obtain ⟨a, jac, rho, q, jq, eq, p, h3, h4, -, h5, -, h6, h7, h8, h9, h10, h11⟩ := inputGc_ok h1 h2
  obtain ⟨hp0, hp1⟩ := pnorm_energy hc hm hE
  rw [h11] at h6 h10 ⊢
  dsimp only at h6 h10 ⊢
  refine ⟨jq, eq, h7, fun hB => ?_⟩
  have hq := zeroth_same h6
  dsimp only at hq
  have hs := momentum_sq hm (by rw [hq.2]; exact h10) h8
  rw [hq.1, hq.2] at hs
  set P := Real.sqrt ((1 + i.energy / (i.mass * (c * c))) * (1 + i.energy / (i.mass * (c * c))) - 1) * i.mass * c with hP
  have hBn : V3.norm Real.sqrt (fld jac) ≠ 0 := fun h0 => h5 (by rw [h0]; ring)
  have e : V3.dot p p = P * P := by
    rw [hs, hB]
    unfold Physlib.gcPpar Physlib.gcMu
    field_simp
    ring
  unfold kinetic
  rw [e, ← hp1]
  unfold Physlib.ekinPnorm Physlib.gammaPnorm
  rw [show (i.mass * c) ^ 2 = i.mass * i.mass * (c * c) by ring, show c ^ 2 = c * c by ring]

/-- An accepted field line starts at the given place. -/
theorem field_line {i : InMl} (h : inputToState order c b (.ml i) s = some s') (he : s'.err = 0) :
    s'.gc.pos = i.pos ∧ s'.prt = i.pos ∧ s'.weight = i.weight ∧ s'.time = i.time ∧ s'.id = i.id ∧ Fresh s' ∧
    FieldOf b i.pos s'.B s'.rho ∧
    ∃ a, axis b i.pos.y = some (a, 0) ∧ ((i.pos.x, i.pos.z) ≠ a → C82.Points s'.theta a i.pos.x i.pos.z) := by
  obtain ⟨r, h1, h2, rfl⟩ := of_ml h he
  obtain ⟨a, jac, rho, h3, h4, h5⟩ := inputMl_ok h1 h2
  rw [h5]
  exact ⟨rfl, rfl, rfl, rfl, rfl, ⟨rfl, rfl, rfl, rfl, rfl⟩, h4, a, h3, fun hne => C82.initial_points hne⟩

/-! ### Violations -/

theorem norm_of_horizontal {jac : Jac} (h : ¬ (jac.a.v = 0 ∧ jac.b.v = 0)) : V3.norm Real.sqrt (fld jac) ≠ 0 := by
  unfold V3.norm fld
  dsimp only
  refine (Real.sqrt_pos.2 ?_).ne'
  rcases not_and_or.1 h with h | h
  · nlinarith [mul_self_pos.2 h, mul_self_nonneg jac.b.v, mul_self_nonneg jac.c.v]
  · nlinarith [mul_self_pos.2 h, mul_self_nonneg jac.a.v, mul_self_nonneg jac.c.v]

/-- The direction of a field that is not vertical. -/
theorem direction {jac : Jac} (h : ¬ (jac.a.v = 0 ∧ jac.b.v = 0)) (phi : ℝ) :
    V3.norm Real.sqrt (vecRpz2xyz (fld jac) phi) = V3.norm Real.sqrt (fld jac) ∧
    V3.dot (V3.unit Real.sqrt (vecRpz2xyz (fld jac) phi)) (V3.unit Real.sqrt (vecRpz2xyz (fld jac) phi)) = 1 ∧
    (V3.unit Real.sqrt (vecRpz2xyz (fld jac) phi)).x * (V3.unit Real.sqrt (vecRpz2xyz (fld jac) phi)).x +
      (V3.unit Real.sqrt (vecRpz2xyz (fld jac) phi)).y * (V3.unit Real.sqrt (vecRpz2xyz (fld jac) phi)).y ≠ 0 := by
  have hB := norm_of_horizontal h
  have hn : V3.norm Real.sqrt (vecRpz2xyz (fld jac) phi) = V3.norm Real.sqrt (fld jac) := by
    unfold V3.norm vecRpz2xyz
    dsimp only
    congr 1
    linear_combination ((fld jac).x * (fld jac).x + (fld jac).y * (fld jac).y) * Real.cos_sq_add_sin_sq phi
  refine ⟨hn, Gctransform.unit_dot (Gctransform.norm_ne (by rw [hn]; exact hB)), ?_⟩
  unfold V3.unit
  dsimp only
  rw [hn]
  have e : ((vecRpz2xyz (fld jac) phi).x / V3.norm Real.sqrt (fld jac)) * ((vecRpz2xyz (fld jac) phi).x / V3.norm Real.sqrt (fld jac)) +
      ((vecRpz2xyz (fld jac) phi).y / V3.norm Real.sqrt (fld jac)) * ((vecRpz2xyz (fld jac) phi).y / V3.norm Real.sqrt (fld jac)) =
      (jac.a.v * jac.a.v + jac.b.v * jac.b.v) / (V3.norm Real.sqrt (fld jac) * V3.norm Real.sqrt (fld jac)) := by
    unfold vecRpz2xyz
    dsimp only
    generalize V3.norm Real.sqrt (fld jac) = n at hB
    unfold fld
    dsimp only
    field_simp
    linear_combination (jac.a.v ^ 2 + jac.b.v ^ 2) * Real.cos_sq_add_sin_sq phi
  rw [e]
  refine div_ne_zero ?_ (mul_self_ne_zero.2 hB)
  rcases not_and_or.1 h with h | h
  · nlinarith [mul_self_pos.2 h, mul_self_nonneg jac.b.v]
  · nlinarith [mul_self_pos.2 h, mul_self_nonneg jac.a.v]

theorem momentum_defined {mass charge : ℝ} {jac : Jac} {phi ppar mu zeta : ℝ} (h : ¬ (jac.a.v = 0 ∧ jac.b.v = 0)) :
    ∃ p, momentum mass charge (fld jac) phi ppar mu zeta = some p := by
  obtain ⟨h1, -, h2⟩ := direction h phi
  unfold momentum
  dsimp only
  rw [if_neg (not_or.2 ⟨by rw [h1]; exact norm_of_horizontal h, h2⟩)]
  exact ⟨_, rfl⟩

/-- The particle position is within a gyroradius of the guiding center. -/
theorem displaced {mass charge : ℝ} {jac : Jac} {g : Gc} (h : ¬ (jac.a.v = 0 ∧ jac.b.v = 0)) (hx : 0 < g.pos.x)
    (hr : Gctransform.gyrolength mass charge g.mu (V3.norm Real.sqrt (fld jac)) < g.pos.x) :
    ∃ q, gc2particle false mass charge jac g = some q ∧ 0 < q.pos.x := by
  obtain ⟨h1, h2, h3⟩ := direction h g.pos.y
  have hbn : (Gctransform.geom jac g.pos.x g.pos.y).bnorm = V3.norm Real.sqrt (fld jac) := by rw [← h1]; exact Gctransform.geom_bnorm _ _ _
  have hbh : (Gctransform.geom jac g.pos.x g.pos.y).bhat = V3.unit Real.sqrt (vecRpz2xyz (fld jac) g.pos.y) := Gctransform.geom_bhat _ _ _
  have h0 : 0 ≤ Gctransform.gyrolength mass charge g.mu (V3.norm Real.sqrt (fld jac)) := by
    unfold Gctransform.gyrolength
    split
    · positivity
    · exact le_rfl
  unfold gc2particle
  dsimp only
  rw [if_neg (by
    rw [hbn, hbh]
    refine not_or.2 ⟨norm_of_horizontal h, not_or.2 ⟨h3, ?_⟩⟩
    simp), hbn, hbh]
  simp only [Bool.false_eq_true, if_false]
  refine ⟨_, rfl, ?_⟩
  generalize Gctransform.gyrolength mass charge g.mu (V3.norm Real.sqrt (fld jac)) = L at hr h0
  generalize V3.unit Real.sqrt (vecRpz2xyz (fld jac) g.pos.y) = u at h2 h3
  have e11 := Gctransform.e1_e1 h3
  have e22 := Gctransform.e2_e2 h2 h3
  have e12 := Gctransform.e1_e2 (b := u)
  generalize Gctransform.basis u = e at e11 e22 e12
  obtain ⟨⟨e1, e2, e3⟩, f1, f2, f3⟩ := e
  unfold V3.dot at e11 e22 e12
  unfold xyz2rpz rpz2xyz
  dsimp only at e11 e22 e12 ⊢
  refine Real.sqrt_pos.2 ?_
  have hcs := Real.cos_sq_add_sin_sq g.zeta
  have hcs' := Real.cos_sq_add_sin_sq g.pos.y
  generalize Real.cos g.zeta = c at *
  generalize Real.sin g.zeta = d at *
  generalize Real.cos g.pos.y = C at *
  generalize Real.sin g.pos.y = D at *
  generalize g.pos.x = R at *
  by_contra hneg
  have z1 : R * C + L * (c * e1 - d * f1) = 0 := mul_self_eq_zero.1 (by
    nlinarith [mul_self_nonneg (R * C + L * (c * e1 - d * f1)), mul_self_nonneg (R * D + L * (c * e2 - d * f2))])
  have z2 : R * D + L * (c * e2 - d * f2) = 0 := mul_self_eq_zero.1 (by
    nlinarith [mul_self_nonneg (R * C + L * (c * e1 - d * f1)), mul_self_nonneg (R * D + L * (c * e2 - d * f2))])
  have k1 : (c * e1 - d * f1) ^ 2 + (c * e2 - d * f2) ^ 2 + (c * e3 - d * f3) ^ 2 = 1 := by
    linear_combination hcs + c ^ 2 * e11 + d ^ 2 * e22 - 2 * c * d * e12
  have k2 : R ^ 2 = L ^ 2 * ((c * e1 - d * f1) ^ 2 + (c * e2 - d * f2) ^ 2) := by
    linear_combination (-R ^ 2) * hcs' + (R * C - L * (c * e1 - d * f1)) * z1 + (R * D - L * (c * e2 - d * f2)) * z2
  have k3 : R ^ 2 ≤ L ^ 2 := by
    rw [k2]
    nlinarith [sq_nonneg (c * e3 - d * f3), sq_nonneg L, mul_nonneg (sq_nonneg L) (sq_nonneg (c * e3 - d * f3))]
  nlinarith

/-- A physical guiding center at a place where the field is known reaches the transformation. -/
theorem gc_reaches {i : InGc} {jac : Jac} {rho : ℝ} {a : ℝ × ℝ} (hc : 0 < c) (hi : Physical (.gc i)) (hf : FieldOf b i.pos jac rho)
    (ha : axis b i.pos.y = some (a, 0)) (hB : V3.norm Real.sqrt (fld jac) ≠ 0) :
    ∃ g : Gc, g.pos = i.pos ∧ g.mu = Physlib.gcMu i.mass (Real.sqrt ((1 + i.energy / (i.mass * (c * c))) * (1 + i.energy / (i.mass * (c * c))) - 1) * i.mass * c)
        i.pitch (V3.norm Real.sqrt (fld jac)) ∧ g.zeta = i.zeta ∧
      (gc2particle order i.mass i.charge jac g = none → inputToState order c b (.gc i) s = none) ∧
      ∀ q jq eq p, gc2particle order i.mass i.charge jac g = some q → evalBdB b q.pos.x q.pos.y q.pos.z = some (jq, eq) →
        momentum i.mass i.charge (fld jq) q.pos.y q.ppar q.mu q.zeta = some p → 0 < q.pos.x →
        ∃ s', inputToState order c b (.gc i) s = some s' ∧ s'.err = 0 ∧ s'.prt = q.pos ∧ s'.p = p ∧ s'.gc = g ∧
          g.ppar = (Real.sqrt ((1 + i.energy / (i.mass * (c * c))) * (1 + i.energy / (i.mass * (c * c))) - 1) * i.mass * c) * i.pitch := by
  obtain ⟨h1, h2, h3, h4, h5, h6⟩ := hi
  have hBp : 0 < V3.norm Real.sqrt (fld jac) := lt_of_le_of_ne (Real.sqrt_nonneg _) (Ne.symm hB)
  obtain ⟨hp0, -⟩ := pnorm_energy hc h4 h3
  obtain ⟨-, -, -, hmu⟩ := C46.pitch_to_moment hc h4 hp0 h2 hBp
  have hg : 0 ≤ (1 + i.energy / (i.mass * (c * c))) * (1 + i.energy / (i.mass * (c * c))) - 1 := by
    have : 0 < i.energy / (i.mass * (c * c)) := by positivity
    nlinarith
  have hn : Real.sqrt (jac.a.v * jac.a.v + jac.b.v * jac.b.v + jac.c.v * jac.c.v) = V3.norm Real.sqrt (fld jac) := rfl
  have hd : ¬ (i.mass * (c * c) = 0 ∨ 2 * V3.norm Real.sqrt (fld jac) * i.mass = 0 ∨
      (1 + i.energy / (i.mass * (c * c))) * (1 + i.energy / (i.mass * (c * c))) - 1 < 0) := by
    have e1 : i.mass * (c * c) ≠ 0 := by positivity
    have e2 : 2 * V3.norm Real.sqrt (fld jac) * i.mass ≠ 0 := by positivity
    have e3 := not_lt.2 hg
    tauto
  refine ⟨⟨i.pos, Physlib.gcPpar (Real.sqrt ((1 + i.energy / (i.mass * (c * c))) * (1 + i.energy / (i.mass * (c * c))) - 1) * i.mass * c) i.pitch,
    Physlib.gcMu i.mass (Real.sqrt ((1 + i.energy / (i.mass * (c * c))) * (1 + i.energy / (i.mass * (c * c))) - 1) * i.mass * c) i.pitch
      (V3.norm Real.sqrt (fld jac)), i.zeta⟩, rfl, rfl, rfl, fun h => ?_, fun q jq eq p h7 h8 h9 h10 => ?_⟩
  · unfold inputToState
    dsimp only
    rw [if_neg (not_le.2 h1), if_neg (not_lt.2 h2), if_neg (not_le.2 h3), if_neg (not_le.2 h4), if_neg (not_le.2 h5), if_neg (not_le.2 h6)]
    unfold inputGc
    rw [fieldAt_zero.2 hf]
    dsimp only
    rw [if_neg (by simp), hn, if_neg hd, if_neg (not_lt.2 hmu), ha]
    dsimp only
    rw [if_neg (by simp), h]
    rfl
  · unfold inputToState
    dsimp only
    rw [if_neg (not_le.2 h1), if_neg (not_lt.2 h2), if_neg (not_le.2 h3), if_neg (not_le.2 h4), if_neg (not_le.2 h5), if_neg (not_le.2 h6)]
    unfold inputGc
    rw [fieldAt_zero.2 hf]
    dsimp only
    unfold fld at h9
    rw [if_neg (by simp), hn, if_neg hd, if_neg (not_lt.2 hmu), ha]
    dsimp only
    rw [if_neg (by simp), h7]
    dsimp only
    rw [h8]
    dsimp only
    rw [h9]
    dsimp only
    rw [if_neg (not_le.2 h10)]
    exact ⟨_, rfl, rfl, rfl, rfl, rfl, by show Physlib.gcPpar _ _ = _; unfold Physlib.gcPpar; ring⟩

/-- The size of the momentum for a kinetic energy. -/
noncomputable def momentumOf (c m E : ℝ) : ℝ := Real.sqrt ((E / c) ^ 2 + 2 * m * E)

/-- At zeroth order a physical guiding center whose gyroradius is smaller than its major radius is accepted in a field that is
known and not vertical everywhere. -/
theorem accepts {i : InGc} {a : ℝ × ℝ} (hc : 0 < c) (hi : Physical (.gc i))
    (hf : ∀ pos : V3 ℝ, 0 < pos.x → ∃ jac rho, FieldOf b pos jac rho ∧ ¬ (jac.a.v = 0 ∧ jac.b.v = 0)) (ha : axis b i.pos.y = some (a, 0))
    (hx : i.charge ≠ 0 → ∀ jac rho, FieldOf b i.pos jac rho →
      momentumOf c i.mass i.energy * Real.sqrt (1 - i.pitch ^ 2) < |i.charge| * V3.norm Real.sqrt (fld jac) * i.pos.x) :
    ∃ s', inputToState false c b (.gc i) s = some s' ∧ s'.err = 0 := by
  obtain ⟨jac, rho, hF, hh⟩ := hf i.pos hi.1
  have hB : V3.norm Real.sqrt (fld jac) ≠ 0 := norm_of_horizontal hh
  have hBp : 0 < V3.norm Real.sqrt (fld jac) := lt_of_le_of_ne (Real.sqrt_nonneg _) (Ne.symm hB)
  obtain ⟨g, g1, g2, g3, -, g4⟩ := gc_reaches (order := false) (s := s) hc hi hF ha hB
  obtain ⟨h1, h2, h3, h4, -, -⟩ := hi
  have hrho : Gctransform.gyrolength i.mass i.charge g.mu (V3.norm Real.sqrt (fld jac)) < i.pos.x := by
    unfold Gctransform.gyrolength
    by_cases hq : i.charge = 0
    · rw [if_neg (by simpa using hq)]; exact h1
    · rw [if_pos hq]
      have hqp : 0 < |i.charge| := abs_pos.2 hq
      have := hx hq _ _ hF
      rw [div_lt_iff₀ hqp, g2]
      have e : 2 * i.mass * Physlib.gcMu i.mass (Real.sqrt ((1 + i.energy / (i.mass * (c * c))) * (1 + i.energy / (i.mass * (c * c))) - 1) * i.mass * c)
          i.pitch (V3.norm Real.sqrt (fld jac)) / V3.norm Real.sqrt (fld jac) =
          (((i.energy / c) ^ 2 + 2 * i.mass * i.energy) * (1 - i.pitch ^ 2)) / V3.norm Real.sqrt (fld jac) ^ 2 := by
        have hg : 0 ≤ (1 + i.energy / (i.mass * (c * c))) * (1 + i.energy / (i.mass * (c * c))) - 1 := by
          have : 0 < i.energy / (i.mass * (c * c)) := by positivity
          nlinarith
        have hs := Real.mul_self_sqrt hg
        unfold Physlib.gcMu
        set S := Real.sqrt ((1 + i.energy / (i.mass * (c * c))) * (1 + i.energy / (i.mass * (c * c))) - 1) with hS
        rw [show S * i.mass * c * (S * i.mass * c) = (S * S) * (i.mass * c) ^ 2 by ring, hs]
        field_simp
        ring
      rw [e, Real.sqrt_div' _ (by positivity), Real.sqrt_sq hBp.le, div_lt_iff₀ hBp, Real.sqrt_mul' _ (by
        have := abs_le.1 h2
        nlinarith [this.1, this.2])]
      unfold momentumOf at this
      nlinarith [this]
  obtain ⟨q, hq, hqx⟩ := displaced (mass := i.mass) (charge := i.charge) (g := g) hh (by rw [g1]; exact h1) (by rw [g1]; exact hrho)
  obtain ⟨jq, rq, hFq, hhq⟩ := hf q.pos hqx
  obtain ⟨p, hp⟩ := momentum_defined (mass := i.mass) (charge := i.charge) (phi := q.pos.y) (ppar := q.ppar) (mu := q.mu) (zeta := q.zeta) hhq
  obtain ⟨s', k1, k2, -⟩ := g4 q jq 0 p hq hFq.1 hp hqx
  exact ⟨s', k1, k2⟩

/-- The guiding center of a particle is within a gyroradius of it. -/
theorem centered {mass charge : ℝ} {jac : Jac} {pos p : V3 ℝ} (hm : 0 < mass) (h : ¬ (jac.a.v = 0 ∧ jac.b.v = 0)) (hp : V3.cross p (fld jac) ≠ ⟨0, 0, 0⟩)
    (hx : 0 < pos.x) (hr : charge ≠ 0 → V3.norm Real.sqrt p < |charge| * V3.norm Real.sqrt (fld jac) * pos.x) :
    ∃ g, particle2gc false mass charge jac pos p = some g ∧ 0 < g.pos.x ∧ 0 ≤ g.mu := by
  obtain ⟨g, hg⟩ := (C47.defined_iff mass charge jac pos p).2 ⟨h, hp⟩
  obtain ⟨u, w, zeta, hu, hn, hq, hb, hw, -, -, hmu, -, -, hpos⟩ := C47.zeroth hg
  have hBp : 0 < V3.norm Real.sqrt (vecRpz2xyz (fld jac) pos.y) := lt_of_le_of_ne (Real.sqrt_nonneg _) (Ne.symm hn)
  have h0 : 0 ≤ g.pos.x := by
    unfold particle2gc at hg
    dsimp only at hg
    split at hg
    · cases hg
    · cases hg
      exact Real.sqrt_nonneg _
  refine ⟨g, hg, lt_of_le_of_ne h0 fun hz => ?_, ?_⟩
  · have hcs' := Real.cos_sq_add_sin_sq pos.y
    have hG : rpz2xyz g.pos = ⟨0, 0, g.pos.z⟩ := by unfold rpz2xyz; rw [← hz]; simp
    by_cases hc : charge = 0
    · rw [hG] at hpos
      have hl : ∀ a B, Gctransform.gyrolength mass charge a B = 0 := fun a B => by unfold Gctransform.gyrolength; rw [if_neg (by simpa using hc)]
      rw [hl] at hpos
      unfold V3.sub rpz2xyz at hpos
      simp only [zero_mul, sub_zero, V3.mk.injEq] at hpos
      have : pos.x * pos.x = 0 := by
        linear_combination (-(pos.x * pos.x)) * hcs' - pos.x * Real.cos pos.y * hpos.1 - pos.x * Real.sin pos.y * hpos.2.1
      exact hx.ne' (mul_self_eq_zero.1 this)
    · have hgc := C47.guiding_center hm hc hg
      dsimp only at hgc
      rw [hG] at hgc
      have hr' := hr hc
      have hn1 := (direction h pos.y).1
      have hpn : V3.norm Real.sqrt (vecRpz2xyz p pos.y) = V3.norm Real.sqrt p := by
        unfold V3.norm vecRpz2xyz
        dsimp only
        congr 1
        linear_combination (p.x * p.x + p.y * p.y) * hcs'
      rw [← hn1, ← hpn] at hr'
      generalize vecRpz2xyz (fld jac) pos.y = B at *
      generalize vecRpz2xyz p pos.y = P at *
      have hBB : V3.dot B B = V3.norm Real.sqrt B * V3.norm Real.sqrt B := (Real.mul_self_sqrt (Gctransform.dot_nonneg B)).symm
      have hPP : V3.dot P P = V3.norm Real.sqrt P * V3.norm Real.sqrt P := (Real.mul_self_sqrt (Gctransform.dot_nonneg P)).symm
      have hPn : 0 ≤ V3.norm Real.sqrt P := Real.sqrt_nonneg _
      generalize V3.norm Real.sqrt B = n at *
      generalize V3.norm Real.sqrt P = m at *
      unfold V3.sub rpz2xyz at hgc
      simp only [sub_zero, V3.mk.injEq] at hgc
      obtain ⟨k1, k2, -⟩ := hgc
      have hBBp : 0 < V3.dot B B := by rw [hBB]; positivity
      have e : pos.x ^ 2 * (charge * V3.dot B B) ^ 2 = (V3.cross B P).x ^ 2 + (V3.cross B P).y ^ 2 := by
        rw [eq_div_iff (mul_ne_zero hc hBBp.ne')] at k1 k2
        rw [← k1, ← k2]
        linear_combination (-(pos.x ^ 2 * (charge * V3.dot B B) ^ 2)) * hcs'
      have e2 : (V3.cross B P).x ^ 2 + (V3.cross B P).y ^ 2 ≤ V3.dot B B * V3.dot P P := by
        unfold V3.cross V3.dot
        dsimp only
        nlinarith [sq_nonneg (B.x * P.x + B.y * P.y + B.z * P.z), sq_nonneg (B.x * P.y - B.y * P.x)]
      have e3 : m * m < (|charge| * n * pos.x) * (|charge| * n * pos.x) := mul_self_lt_mul_self hPn hr'
      have e4 : |charge| * |charge| = charge * charge := abs_mul_abs_self charge
      rw [hPP] at e2
      have e5 : pos.x ^ 2 * (charge * V3.dot B B) ^ 2 = V3.dot B B * ((|charge| * n * pos.x) * (|charge| * n * pos.x)) := by
        rw [show (|charge| * n * pos.x) * (|charge| * n * pos.x) = (|charge| * |charge|) * (n * n) * (pos.x * pos.x) by ring, e4, ← hBB]
        ring
      nlinarith [mul_lt_mul_of_pos_left e3 hBBp]
  · rw [hmu]
    have := Gctransform.dot_nonneg w
    positivity

/-- At zeroth order a physical particle that moves across the field, with a gyroradius smaller than its major radius, is accepted
in a field that is known and not vertical everywhere. -/
theorem accepts_particle {i : InP} {a : (ℝ × ℝ) × Nat} (hi : Physical (.p i))
    (hf : ∀ pos : V3 ℝ, 0 < pos.x → ∃ jac rho, FieldOf b pos jac rho ∧ ¬ (jac.a.v = 0 ∧ jac.b.v = 0)) (ha : axis b i.pos.y = some a)
    (hx : ∀ jac rho, FieldOf b i.pos jac rho → V3.cross i.p (fld jac) ≠ ⟨0, 0, 0⟩ ∧
      (i.charge ≠ 0 → V3.norm Real.sqrt i.p < |i.charge| * V3.norm Real.sqrt (fld jac) * i.pos.x)) :
    ∃ s', inputToState false c b (.p i) s = some s' ∧ s'.err = 0 := by
  obtain ⟨jac, rho, hF, hh⟩ := hf i.pos hi.1
  obtain ⟨x1, x2⟩ := hx _ _ hF
  obtain ⟨g, hg, hgx, hgm⟩ := centered hi.2.1 hh x1 hi.1 x2
  obtain ⟨jg, rg, hFg, -⟩ := hf g.pos hgx
  obtain ⟨h1, h2, h3, h4⟩ := hi
  unfold inputToState
  dsimp only
  rw [if_neg (not_le.2 h1), if_neg (not_le.2 h2), if_neg (not_le.2 h3), if_neg (not_le.2 h4)]
  unfold inputP
  rw [ha]
  obtain ⟨a, e⟩ := a
  dsimp only
  rw [hF.1]
  dsimp only
  rw [if_neg (by simp), hg]
  dsimp only
  have h0 : gcErr 1487 1490 g = 0 := by
    unfold gcErr
    rw [if_neg (not_le.2 hgx), if_neg (not_lt.2 hgm)]
  rw [h0, if_neg (by simp), fieldAt_zero.2 hFg]
  exact ⟨_, rfl, rfl⟩

/-- A physical field-line marker is accepted wherever the field is known. -/
theorem accepts_line {i : InMl} {a : ℝ × ℝ} {jac : Jac} {rho : ℝ} (hi : Physical (.ml i)) (hf : FieldOf b i.pos jac rho)
    (ha : axis b i.pos.y = some (a, 0)) : ∃ s', inputToState order c b (.ml i) s = some s' ∧ s'.err = 0 := by
  obtain ⟨h1, h3, h4⟩ := hi
  unfold inputToState
  dsimp only
  rw [if_neg (not_le.2 h1), if_neg (not_le.2 h3), if_neg (not_le.2 h4)]
  unfold inputMl
  rw [fieldAt_zero.2 hf]
  dsimp only
  rw [if_neg (by simp), ha]
  exact ⟨_, rfl, rfl⟩

/-- **Violation.** With the first-order transformation a charged guiding center whose pitch is 1 or -1 passes all tests, and gets
a particle position that is not a number. -/
theorem parallel_fails {i : InGc} {jac : Jac} {rho : ℝ} {a : ℝ × ℝ} (hc : 0 < c) (hi : Physical (.gc i)) (hf : FieldOf b i.pos jac rho)
    (ha : axis b i.pos.y = some (a, 0)) (hB : V3.norm Real.sqrt (fld jac) ≠ 0) (hq : i.charge ≠ 0) (hp : |i.pitch| = 1) :
    inputToState true c b (.gc i) s = none := by
  obtain ⟨g, -, h1, -, h2, -⟩ := gc_reaches (order := true) (s := s) hc hi hf ha hB
  refine h2 ?_
  have hmu : g.mu = 0 := by
    rw [h1]
    unfold Physlib.gcMu
    have : i.pitch * i.pitch = 1 := by rw [← abs_mul_abs_self, hp, one_mul]
    rw [this]
    simp
  unfold gc2particle
  dsimp only
  rw [if_pos (Or.inr (Or.inr ⟨rfl, Or.inr ⟨hq, hmu⟩⟩))]

theorem defined_false {mass charge : ℝ} {jac : Jac} {pos p : V3 ℝ} {g : Gc} (h : particle2gc true mass charge jac pos p = some g) :
    ∃ g', particle2gc false mass charge jac pos p = some g' := by
  unfold particle2gc at h ⊢
  dsimp only at h ⊢
  split at h
  · cases h
  · rename_i hne
    rw [if_neg (fun hh => hne (by simp at hh ⊢; tauto))]
    exact ⟨_, rfl⟩

/-- **Violation.** A particle whose momentum is along the field passes the tests of the input, and has a guiding center that is
not a number. -/
theorem along_fails {i : InP} {jac : Jac} {k : ℝ} {a : (ℝ × ℝ) × Nat} (hi : Physical (.p i)) (ha : axis b i.pos.y = some a)
    (he : evalBdB b i.pos.x i.pos.y i.pos.z = some (jac, 0)) (hp : i.p = ⟨k * jac.a.v, k * jac.b.v, k * jac.c.v⟩) :
    inputToState order c b (.p i) s = none := by
  have hn : particle2gc order i.mass i.charge jac i.pos i.p = none := by
    by_contra h
    obtain ⟨g, hg⟩ := Option.ne_none_iff_exists'.1 h
    have hg' : ∃ g', particle2gc false i.mass i.charge jac i.pos i.p = some g' := by
      cases order with
      | false => exact ⟨g, hg⟩
      | true => exact defined_false hg
    obtain ⟨-, h2⟩ := (C47.defined_iff _ _ _ _ _).1 hg'
    refine h2 ?_
    rw [hp]
    unfold V3.cross fld
    ext <;> (dsimp only; ring)
  obtain ⟨h1, h2, h3, h4⟩ := hi
  unfold inputToState
  dsimp only
  rw [if_neg (not_le.2 h1), if_neg (not_le.2 h2), if_neg (not_le.2 h3), if_neg (not_le.2 h4)]
  unfold inputP
  rw [ha]
  obtain ⟨a, e⟩ := a
  dsimp only
  rw [he]
  dsimp only
  rw [if_neg (by simp), hn]
  rfl

/-- **Violation.** If the field cannot be evaluated at the particle position, the guiding center is accepted all the same, and the momentum of
the particle is computed for a field of 1 T. -/
theorem edge_fails {i : InGc} (h : inputToState false c b (.gc i) s = some s') (he : s'.err = 0) {jac : Jac} {e : Nat}
    (hB : evalBdB b s'.prt.x s'.prt.y s'.prt.z = some (jac, e)) (h0 : e ≠ 0) :
    V3.dot s'.p s'.p = s'.gc.ppar ^ 2 + 2 * i.mass * s'.gc.mu := by
  obtain ⟨-, hpi, hE, hm, -, -⟩ := accepted h he
  obtain ⟨r, h1, h2, rfl⟩ := of_gc h he
  obtain ⟨a, jac', rho, q, jq, eq, p, h3, h4, -, h5, -, h6, h7, h8, h9, h10, h11⟩ := inputGc_ok h1 h2
  rw [h11] at h6 h10 hB ⊢
  dsimp only at h6 h10 hB ⊢
  have hq := zeroth_same h6
  dsimp only at hq
  have hs := momentum_sq hm (by rw [hq.2]; exact h10) h8
  rw [hq.1, hq.2] at hs
  have hj : jq = ⟨⟨1, 0, 0, 0⟩, ⟨0, 0, 0, 0⟩, ⟨0, 0, 0, 0⟩⟩ := by
    rw [h7] at hB
    cases hB
    unfold evalBdB withFallback at h7
    split at h7
    · cases h7; exact absurd rfl h0
    · cases h7; rfl
    · cases h7
  have hn : V3.norm Real.sqrt (fld jq) = 1 := by
    rw [hj]
    simp [V3.norm, fld]
  rw [hn] at hs
  rw [hs]
  simp

/-! ### The hypotheses can be met -/

/-- A toroidal field of 2 T, known up to the major radius `l`; the axis is at R = 1/2. -/
noncomputable def box (l : ℝ) : Data :=
  .b2 ⟨0, 1, 1 / 2, 0, ⟨fun r _ => if r ≤ l then some 0 else none, fun r _ => if r ≤ l then some ⟨0, 0, 0, 0, 0, 0⟩ else none⟩,
    ⟨fun _ _ => some 0, fun _ _ => some ⟨0, 0, 0, 0, 0, 0⟩⟩, ⟨fun _ _ => some 2, fun _ _ => some ⟨2, 0, 0, 0, 0, 0⟩⟩,
    ⟨fun _ _ => some 0, fun _ _ => some ⟨0, 0, 0, 0, 0, 0⟩⟩⟩

/-- The field of `box` with its gradient. -/
def boxJac : Jac := ⟨⟨0, 0, 0, 0⟩, ⟨2, 0, 0, 0⟩, ⟨0, 0, 0, 0⟩⟩

theorem box_field {l : ℝ} {pos : V3 ℝ} (h0 : 0 < pos.x) (hl : pos.x ≤ l) : FieldOf (box l) pos boxJac 0 := by
  refine ⟨?_, 0, ?_, ?_, ?_⟩
  · unfold evalBdB modelBdB box B2.evalBdB
    simp [hl, h0.ne', withFallback, boxJac]
  · unfold evalPsi modelPsi box B2.evalPsi
    simp [hl, withFallback]
  · unfold evalRho limits box
    simp
  · unfold evalRho limits box
    simp

theorem box_beyond {l : ℝ} {pos : V3 ℝ} (h0 : 0 < pos.x) (hl : l < pos.x) :
    ∃ e, e ≠ 0 ∧ evalBdB (box l) pos.x pos.y pos.z = some (⟨⟨1, 0, 0, 0⟩, ⟨0, 0, 0, 0⟩, ⟨0, 0, 0, 0⟩⟩, e) := by
  refine ⟨Error.raise 1 343 12, raise_ne _ _ _ (by decide), ?_⟩
  unfold evalBdB modelBdB box B2.evalBdB
  simp [not_le.2 hl, withFallback]

theorem box_axis (l phi : ℝ) : axis (box l) phi = some ((1 / 2, 0), 0) := rfl

/-- A guiding center at R = 1 with energy 1 and pitch `xi`, for units in which its mass, its charge and the speed of light are 1. -/
noncomputable def start (xi : ℝ) : InGc := ⟨⟨1, 0, 0⟩, 1, xi, 0, 1, 1, 1, 1, 1, 0, 7⟩

theorem start_physical {xi : ℝ} (h : |xi| ≤ 1) : Physical (.gc (start xi)) := by
  refine ⟨?_, h, ?_, ?_, ?_, ?_⟩ <;> (unfold start; norm_num)

theorem box_norm : V3.norm Real.sqrt (fld boxJac) = 2 := by
  unfold V3.norm fld boxJac
  dsimp only
  rw [show (0 * 0 + 2 * 2 + 0 * 0 : ℝ) = 2 ^ 2 by norm_num, Real.sqrt_sq (by norm_num)]

example (s : State) : inputToState true 1 (box 1) (.gc (start (-1))) s = none :=
  parallel_fails one_pos (start_physical (by norm_num)) (box_field (by unfold start; norm_num) (by unfold start; norm_num))
    (box_axis _ _) (by rw [box_norm]; norm_num) (by unfold start; norm_num) (by unfold start; norm_num)

/-- The witness for the violation at the edge: with the field known up to R = 1, the guiding center there with energy 1 is
accepted, and its particle has less energy. -/
theorem edge_witness (s : State) : ∃ s', inputToState false 1 (box 1) (.gc (start 0)) s = some s' ∧ s'.err = 0 ∧
    kinetic 1 1 s'.p < 0.6 := by
  have hx : 0 < (start 0).pos.x := by unfold start; norm_num
  have hf : FieldOf (box 1) (start 0).pos boxJac 0 := box_field hx (by unfold start; norm_num)
  obtain ⟨g, g1, g2, g3, -, g4⟩ := gc_reaches (order := false) (c := 1) (s := s) one_pos (start_physical (xi := 0) (by norm_num)) hf (box_axis _ _)
    (by rw [box_norm]; norm_num)
  have hmu : g.mu = 3 / 4 := by
    rw [g2, box_norm]
    unfold Physlib.gcMu start
    dsimp only
    have : Real.sqrt ((1 + 1 / (1 * (1 * 1))) * (1 + 1 / (1 * (1 * 1))) - 1) * Real.sqrt ((1 + 1 / (1 * (1 * 1))) * (1 + 1 / (1 * (1 * 1))) - 1) = (3 : ℝ) := by
      rw [Real.mul_self_sqrt] <;> norm_num
    nlinarith [this]
  have hh : ¬ (boxJac.a.v = 0 ∧ boxJac.b.v = 0) := by unfold boxJac; norm_num
  obtain ⟨h1, h2, h3⟩ := direction hh g.pos.y
  have hbn : (Gctransform.geom boxJac g.pos.x g.pos.y).bnorm = 2 := by rw [← box_norm, ← h1]; exact Gctransform.geom_bnorm _ _ _
  have hbh : (Gctransform.geom boxJac g.pos.x g.pos.y).bhat = ⟨0, 1, 0⟩ := by
    have : (Gctransform.geom boxJac g.pos.x g.pos.y).bhat = V3.unit Real.sqrt (vecRpz2xyz (fld boxJac) g.pos.y) := Gctransform.geom_bhat _ _ _
    rw [this]
    unfold V3.unit
    rw [h1, box_norm, g1]
    unfold vecRpz2xyz fld boxJac start
    norm_num
  have hba : Gctransform.basis ⟨0, 1, 0⟩ = (⟨1, 0, 0⟩, ⟨0, 0, -1⟩) := by
    unfold Gctransform.basis V3.unit V3.norm V3.cross
    norm_num
  have hL : Gctransform.gyrolength (start 0).mass (start 0).charge g.mu 2 = Real.sqrt (3 / 4) := by
    unfold Gctransform.gyrolength start
    rw [hmu]
    norm_num
  have hLp : 0 < Real.sqrt (3 / 4) := Real.sqrt_pos.2 (by norm_num)
  obtain ⟨q, hq, hqx⟩ : ∃ q, gc2particle false (start 0).mass (start 0).charge boxJac g = some q ∧ q.pos.x = 1 + Real.sqrt (3 / 4) := by
    unfold gc2particle
    dsimp only
    rw [hbn, hbh, if_neg (by norm_num), hba, hL, g3, g1]
    refine ⟨_, rfl, ?_⟩
    unfold xyz2rpz rpz2xyz start
    simp only [Bool.false_eq_true, if_false, Real.cos_zero, Real.sin_zero]
    rw [← Real.sqrt_mul_self (by linarith : (0 : ℝ) ≤ 1 + Real.sqrt (3 / 4))]
    congr 1
    ring
  obtain ⟨e, he, hev⟩ := box_beyond (l := 1) (pos := q.pos) (by rw [hqx]; linarith) (by rw [hqx]; linarith)
  obtain ⟨p, hp⟩ := momentum_defined (jac := ⟨⟨1, 0, 0, 0⟩, ⟨0, 0, 0, 0⟩, ⟨0, 0, 0, 0⟩⟩) (mass := (start 0).mass) (charge := (start 0).charge)
    (phi := q.pos.y) (ppar := q.ppar) (mu := q.mu) (zeta := q.zeta) (by norm_num)
  obtain ⟨s', k1, k2, k3, k4, k5, k6⟩ := g4 q _ e p hq hev hp (by rw [hqx]; linarith)
  refine ⟨s', k1, k2, ?_⟩
  have := edge_fails k1 k2 (by rw [k3]; exact hev) he
  have hpp : g.ppar = 0 := by
    rw [k6]
    exact mul_zero _
  rw [k5, hpp, hmu] at this
  unfold kinetic
  rw [this]
  have : Real.sqrt (1 + (0 ^ 2 + 2 * (start 0).mass * (3 / 4)) / (1 * 1) ^ 2) < 1.6 := by
    rw [Real.sqrt_lt' (by norm_num)]
    unfold start
    norm_num
  linarith

/-- The toroidal field of `box` without an edge. -/
noncomputable def ring : Data :=
  .b2 ⟨0, 1, 1 / 2, 0, ⟨fun _ _ => some 0, fun _ _ => some ⟨0, 0, 0, 0, 0, 0⟩⟩,
    ⟨fun _ _ => some 0, fun _ _ => some ⟨0, 0, 0, 0, 0, 0⟩⟩, ⟨fun _ _ => some 2, fun _ _ => some ⟨2, 0, 0, 0, 0, 0⟩⟩,
    ⟨fun _ _ => some 0, fun _ _ => some ⟨0, 0, 0, 0, 0, 0⟩⟩⟩

theorem ring_field {pos : V3 ℝ} (h0 : 0 < pos.x) : FieldOf ring pos boxJac 0 := by
  refine ⟨?_, 0, ?_, ?_, ?_⟩
  · unfold evalBdB modelBdB ring B2.evalBdB
    simp [h0.ne', withFallback, boxJac]
  · unfold evalPsi modelPsi ring B2.evalPsi
    simp [withFallback]
  · unfold evalRho limits ring
    simp
  · unfold evalRho limits ring
    simp

theorem ring_jac {pos : V3 ℝ} {jac : Jac} {rho : ℝ} (h0 : 0 < pos.x) (h : FieldOf ring pos jac rho) : jac = boxJac := by
  have h1 := h.1
  rw [(ring_field h0).1] at h1
  cases h1
  rfl

theorem ring_all (pos : V3 ℝ) (h0 : 0 < pos.x) : ∃ jac rho, FieldOf ring pos jac rho ∧ ¬ (jac.a.v = 0 ∧ jac.b.v = 0) :=
  ⟨boxJac, 0, ring_field h0, by unfold boxJac; norm_num⟩

example (s : State) : ∃ s', inputToState false 1 ring (.gc (start (1 / 2))) s = some s' ∧ s'.err = 0 := by
  have hx : 0 < (start (1 / 2)).pos.x := by unfold start; norm_num
  refine accepts (a := (1 / 2, 0)) one_pos (start_physical (by rw [abs_of_nonneg] <;> norm_num)) ring_all rfl fun _ jac rho h => ?_
  rw [ring_jac hx h, box_norm]
  unfold momentumOf start
  dsimp only
  rw [← Real.sqrt_mul (by norm_num), Real.sqrt_lt' (by norm_num)]
  norm_num

/-- A particle at R = 1 with vertical momentum. -/
noncomputable def launch : InP := ⟨⟨1, 0, 0⟩, ⟨0, 0, 1⟩, 1, 1, 1, 1, 1, 0, 7⟩

example (s : State) : ∃ s', inputToState false 1 ring (.p launch) s = some s' ∧ s'.err = 0 := by
  have hx : 0 < launch.pos.x := by unfold launch; norm_num
  refine accepts_particle (a := ((1 / 2, 0), 0)) (by unfold launch Physical; norm_num) ring_all rfl fun jac rho h => ?_
  rw [ring_jac hx h, box_norm]
  constructor
  · unfold launch V3.cross fld boxJac
    simp
  · intro _
    unfold launch V3.norm
    norm_num

example (s : State) : ∃ s', inputToState true 1 ring (.ml ⟨⟨1, 0, 0⟩, -1, 1, 0, 7⟩) s = some s' ∧ s'.err = 0 :=
  accepts_line (by unfold Physical; norm_num) (ring_field (by norm_num)) rfl

example (s : State) : inputToState true 1 ring (.p { launch with p := ⟨0, 3, 0⟩ }) s = none :=
  along_fails (k := 3 / 2) (by unfold launch Physical; norm_num) rfl (ring_field (by unfold launch; norm_num)).1 (by unfold boxJac; norm_num)

end Ascot.C109
