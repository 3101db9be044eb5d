import Verif.Lemmas.StateQnt

set_option linter.unusedSectionVars false
set_option linter.unusedSimpArgs false

/-!
# C155: quantities of marker states are those of each marker

For every number of markers, each quantity is returned once for each marker, in the order of identifiers, and the
values of a marker are those of a particle with its momentum in the field.

Proved unless there are three markers.  With three markers, arrays of one number per marker are taken for vectors
(`three_particles`, `three_guiding_centers`).  The poloidal angle of a particle is shifted by half a turn
(`thetamod_shifted`) and is not cumulative (`theta_not_cumulative`).
-/
namespace Ascot.C155

open StateQnt Kinematic

/-- Particles. -/
theorem particles {c : ℝ} (hc : 0 < c) {E : Input}
    (hE : ∀ r phi z t, E.bnorm r phi z t = Real.sqrt (V3.dot (E.b r phi z t) (E.b r phi z t))) {ms : List Marker}
    (hn : ms.length ≠ 3) (hm : ∀ m ∈ ms, 0 < m.mass)
    (hb : ∀ m ∈ ms, 0 < V3.dot (E.b m.rprt m.phiprt m.zprt m.time) (E.b m.rprt m.phiprt m.zprt m.time))
    (hp : ∀ m ∈ ms, 0 < m.prprt ^ 2 + m.pphiprt ^ 2 + m.pzprt ^ 2) :
    ∃ (s : List Marker) (val : Marker → Qnt → ℝ), s.Perm ms ∧ s.Pairwise (fun a b => a.id ≤ b.id) ∧
      (∀ qnt : List Qnt, qnt.Nodup →
        get true c E ms qnt = some (qnt.map fun q => .row (s.map fun m => val m q))) ∧
      ∀ m ∈ ms,
        Correct c m.mass ⟨m.prprt, m.pphiprt, m.pzprt⟩ (E.b m.rprt m.phiprt m.zprt m.time) (val m) ∧
        Placed m.rprt m.phiprt m.zprt (val m) ∧
        val m .charge = m.charge ∧ val m .time = m.time ∧ val m .weight = m.weight ∧
        val m .psi = E.psi m.rprt m.phiprt m.zprt m.time ∧ val m .rho = E.rho m.rprt m.phiprt m.zprt m.time ∧
        val m .ptor = m.rprt * m.pphiprt + m.charge * E.psi m.rprt m.phiprt m.zprt m.time := by
  refine ⟨ms.insertionSort fun a b => a.id ≤ b.id, prtVal c E, List.perm_insertionSort _ _,
    List.pairwise_insertionSort (r := fun a b : Marker => a.id ≤ b.id) ms, ?_, ?_⟩
  · intro qnt hq
    exact get_map (fun q => by rw [if_pos rfl]; exact prt_val c E hn q) hq
  · intro m hmem
    have hM := hm m hmem
    have hB := hb m hmem
    have hP := hp m hmem
    obtain ⟨b, eb⟩ : ∃ b, b = E.b m.rprt m.phiprt m.zprt m.time := ⟨_, rfl⟩
    obtain ⟨p, ep⟩ : ∃ p : V3 ℝ, p = ⟨m.prprt, m.pphiprt, m.pzprt⟩ := ⟨_, rfl⟩
    have hpp : 0 < V3.dot p p := by
      rw [ep]; simp only [V3.dot]; linarith [hP]
    rw [← eb] at hB
    have hbn : 0 < Real.sqrt (V3.dot b b) := Real.sqrt_pos.2 hB
    have hb2 : Real.sqrt (V3.dot b b) ^ 2 = V3.dot b b := Real.sq_sqrt hB.le
    have hpn : 0 < Real.sqrt (V3.dot p p) := Real.sqrt_pos.2 hpp
    have hp2 : Real.sqrt (V3.dot p p) ^ 2 = V3.dot p p := Real.sq_sqrt hpp.le
    have hcs := dot_le p b
    have hpar : (V3.dot p b / Real.sqrt (V3.dot b b)) ^ 2 ≤ V3.dot p p := by
      rw [div_pow, hb2, div_le_iff₀ hB]; exact hcs
    have g0 : 0 < lorentz c m.mass (V3.dot p p) := lorentz_pos hpp.le
    have vx : prtVal c E m .vr = p.x / (m.mass * lorentz c m.mass (V3.dot p p)) := by rw [ep]; rfl
    have vy : prtVal c E m .vphi = p.y / (m.mass * lorentz c m.mass (V3.dot p p)) := by rw [ep]; rfl
    have vz : prtVal c E m .vz = p.z / (m.mass * lorentz c m.mass (V3.dot p p)) := by rw [ep]; rfl
    have vn : prtVal c E m .vnorm = Real.sqrt (V3.dot p p) / (m.mass * lorentz c m.mass (V3.dot p p)) := by
      rw [← congrArg (lorentz c m.mass) hp2, ep]; rfl
    have vpa : prtVal c E m .vpar =
        V3.dot p b / (lorentz c m.mass (V3.dot p p) * m.mass * Real.sqrt (V3.dot b b)) := by rw [ep, eb]; rfl
    have vpe : prtVal c E m .vperp = Real.sqrt (prtVal c E m .vnorm ^ 2 - prtVal c E m .vpar ^ 2) := rfl
    have ppa : prtVal c E m .ppar = V3.dot p b / Real.sqrt (V3.dot b b) := by rw [ep, eb]; rfl
    have ppe : prtVal c E m .pperp = Real.sqrt (V3.dot p p - (V3.dot p b / Real.sqrt (V3.dot b b)) ^ 2) := by
      rw [ep, eb]; rfl
    have pn : prtVal c E m .pnorm = Real.sqrt (V3.dot p p) := by rw [ep]; rfl
    have pit : prtVal c E m .pitch = V3.dot p b / Real.sqrt (V3.dot p p * V3.dot b b) := by rw [ep, eb]; rfl
    have mu : prtVal c E m .mu = (1 - (V3.dot p b / (Real.sqrt (V3.dot p p) * Real.sqrt (V3.dot b b))) ^ 2) *
        Real.sqrt (V3.dot p p) ^ 2 / (2 * Real.sqrt (V3.dot b b) * m.mass) := by rw [ep, eb]; rfl
    have ek : prtVal c E m .ekin = (lorentz c m.mass (V3.dot p p) - 1) * m.mass * c ^ 2 := by rw [ep]; rfl
    have vle : prtVal c E m .vpar ^ 2 ≤ prtVal c E m .vnorm ^ 2 := by
      rw [vpa, vn, div_pow, div_pow, hp2, div_le_div_iff₀ (by positivity) (by positivity), mul_pow _ (Real.sqrt _), hb2,
        mul_comm (lorentz c m.mass (V3.dot p p))]
      have : 0 ≤ (m.mass * lorentz c m.mass (V3.dot p p)) ^ 2 := sq_nonneg _
      nlinarith
    rw [← ep, ← eb]
    refine ⟨⟨rfl, by rw [ep]; exact ⟨rfl, rfl, rfl⟩, ?_, ?_, ?_, ?_, ?_, ?_, ?_, ?_, ?_, ?_, ?_⟩,
      ⟨⟨rfl, rfl, rfl⟩, mod2pi_spec _, ⟨rfl, rfl⟩⟩, rfl, rfl, rfl, rfl, rfl, ?_⟩
    · rw [pn]; exact ⟨hpn.le, hp2⟩
    · rw [ppa]; exact div_mul_cancel₀ _ hbn.ne'
    · rw [ppe, ppa]
      refine ⟨Real.sqrt_nonneg _, ?_⟩
      rw [Real.sq_sqrt (by linarith)]; ring
    · rw [vx, vy, vz]; exact isVelocity hc hM p
    · rw [vn, vx, vy, vz]
      refine ⟨by positivity, ?_⟩
      rw [div_pow, hp2]
      simp only [V3.dot]
      ring
    · rw [vpa, vx, vy, vz]
      have : V3.dot (⟨p.x / (m.mass * lorentz c m.mass (V3.dot p p)), p.y / (m.mass * lorentz c m.mass (V3.dot p p)),
          p.z / (m.mass * lorentz c m.mass (V3.dot p p))⟩ : V3 ℝ) b =
          V3.dot p b / (m.mass * lorentz c m.mass (V3.dot p p)) := by
        generalize lorentz c m.mass (V3.dot p p) = g
        simp only [V3.dot]; ring
      rw [this]
      field_simp
    · rw [vpe]
      refine ⟨Real.sqrt_nonneg _, ?_⟩
      rw [Real.sq_sqrt (by linarith)]; ring
    · rw [ek]; exact energy hc hM hpp.le
    · rw [pit, pn, ppa, Real.sqrt_mul hpp.le]
      field_simp
    · rw [ppe, Real.sq_sqrt (by linarith), mu, hp2, div_pow, div_pow, mul_pow, hp2, hb2]
      field_simp
    · exact ⟨by rw [eb]; rfl, by rw [eb]; rfl, by rw [eb]; rfl, by rw [eb]; exact hE _ _ _ _⟩
    · show m.pphiprt * m.rprt + _ = _
      ring

/-- Guiding centres: there is a momentum with the parallel momentum and the magnetic moment of the marker to which all
quantities belong. -/
theorem guiding_centers {c : ℝ} (hc : 0 < c) {E : Input} {ms : List Marker} (hn : ms.length ≠ 3)
    (hm : ∀ m ∈ ms, 0 < m.mass) (hmu : ∀ m ∈ ms, 0 ≤ m.mu) (hb : ∀ m ∈ ms, m.br ≠ 0 ∨ m.bphi ≠ 0)
    (hp : ∀ m ∈ ms, m.ppar ≠ 0 ∨ m.mu ≠ 0) :
    ∃ (s : List Marker) (val : Marker → Qnt → ℝ), s.Perm ms ∧ s.Pairwise (fun a b => a.id ≤ b.id) ∧
      (∀ qnt : List Qnt, qnt.Nodup →
        get false c E ms qnt = some (qnt.map fun q => .row (s.map fun m => val m q))) ∧
      ∀ m ∈ ms,
        (∃ p, Correct c m.mass p ⟨m.br, m.bphi, m.bz⟩ (val m)) ∧ val m .ppar = m.ppar ∧ val m .mu = m.mu ∧
        Placed m.r m.phi m.z (val m) ∧
        val m .theta = m.theta ∧ (∃ k : ℤ, val m .thetamod = m.theta + k * (2 * Real.pi)) ∧
        val m .charge = m.charge ∧ val m .time = m.time ∧ val m .weight = m.weight ∧ val m .zeta = m.zeta ∧
        val m .psi = E.psi m.r m.phi m.z m.time ∧ val m .rho = m.rho ∧
        val m .ptor = m.r * (m.ppar * m.bphi / Real.sqrt (m.br ^ 2 + m.bphi ^ 2 + m.bz ^ 2)) +
          m.charge * E.psi m.r m.phi m.z m.time := by
  refine ⟨ms.insertionSort fun a b => a.id ≤ b.id, gcVal c E, List.perm_insertionSort _ _,
    List.pairwise_insertionSort (r := fun a b : Marker => a.id ≤ b.id) ms, ?_, ?_⟩
  · intro qnt hq
    exact get_map (fun q => by rw [if_neg Bool.false_ne_true]; exact gc_val c E hn q) hq
  · intro m hmem
    have hM := hm m hmem
    have hMu := hmu m hmem
    have hB := hb m hmem
    have hP := hp m hmem
    obtain ⟨b, eb⟩ : ∃ b : V3 ℝ, b = ⟨m.br, m.bphi, m.bz⟩ := ⟨_, rfl⟩
    have hbb : 0 < V3.dot b b := by
      rw [eb]; simp only [V3.dot]
      rcases hB with h | h
      · have := mul_self_pos.2 h; nlinarith [mul_self_nonneg m.bphi, mul_self_nonneg m.bz]
      · have := mul_self_pos.2 h; nlinarith [mul_self_nonneg m.br, mul_self_nonneg m.bz]
    obtain ⟨bn, ebn⟩ : ∃ x, x = Real.sqrt (V3.dot b b) := ⟨_, rfl⟩
    have hbn : 0 < bn := by rw [ebn]; exact Real.sqrt_pos.2 hbb
    obtain ⟨pn, epn⟩ : ∃ x, x = Real.sqrt (2 * m.mass * m.mu * bn + m.ppar ^ 2) := ⟨_, rfl⟩
    have hsum : 0 < 2 * m.mass * m.mu * bn + m.ppar ^ 2 := by
      rcases hP with h | h
      · have := sq_pos_of_ne_zero h
        have : 0 ≤ 2 * m.mass * m.mu * bn := by positivity
        linarith
      · have h' := lt_of_le_of_ne hMu (Ne.symm h)
        have : 0 < 2 * m.mass * m.mu * bn := by positivity
        nlinarith [sq_nonneg m.ppar]
    have hpn : 0 < pn := by rw [epn]; exact Real.sqrt_pos.2 hsum
    have hpn2 : pn ^ 2 = 2 * m.mass * m.mu * bn + m.ppar ^ 2 := by rw [epn, Real.sq_sqrt hsum.le]
    have hle : m.ppar ^ 2 ≤ pn ^ 2 := by
      rw [hpn2]
      have : 0 ≤ 2 * m.mass * m.mu * bn := by positivity
      linarith
    obtain ⟨p, ep⟩ : ∃ p, p = gyro b bn m.ppar m.zeta pn := ⟨_, rfl⟩
    have hg := gyro_spec (b := b) (by rw [eb]; exact hB) (zeta := m.zeta) hle
    rw [← ebn, ← ep] at hg
    obtain ⟨h1, h2⟩ := hg
    have hpp : 0 < V3.dot p p := by rw [h2]; positivity
    obtain ⟨g, eg⟩ : ∃ g, g = lorentz c m.mass (V3.dot p p) := ⟨_, rfl⟩
    have g0 : 0 < g := by rw [eg]; exact lorentz_pos hpp.le
    have hgm : Real.sqrt (1 + 2 * (m.mu * bn) / (m.mass * c ^ 2) + (m.ppar / (m.mass * c)) ^ 2) = g := by
      rw [eg, h2, hpn2]
      unfold lorentz
      congr 1
      field_simp
      ring
    have vx : gcVal c E m .vr = p.x / (m.mass * g) := by rw [eg, ep, epn, ebn, eb]; rfl
    have vy : gcVal c E m .vphi = p.y / (m.mass * g) := by rw [eg, ep, epn, ebn, eb]; rfl
    have vz : gcVal c E m .vz = p.z / (m.mass * g) := by rw [eg, ep, epn, ebn, eb]; rfl
    have vn : gcVal c E m .vnorm = pn / (g * m.mass) := by rw [eg, h2, epn, ebn, eb]; rfl
    have vpa : gcVal c E m .vpar = m.ppar / (g * m.mass) := by rw [← hgm, ebn, eb]; rfl
    have pe : gcVal c E m .pperp = Real.sqrt (pn ^ 2 - m.ppar ^ 2) := by rw [epn, ebn, eb]; rfl
    have pe2 : gcVal c E m .pperp ^ 2 = pn ^ 2 - m.ppar ^ 2 := by rw [pe, Real.sq_sqrt (by linarith)]
    have pe0 : 0 ≤ gcVal c E m .pperp := by rw [pe]; exact Real.sqrt_nonneg _
    have vpe : gcVal c E m .vperp = gcVal c E m .pperp / (g * m.mass) := by rw [pe, eg, h2, epn, ebn, eb]; rfl
    have pno : gcVal c E m .pnorm = pn := by rw [epn, ebn, eb]; rfl
    have pit : gcVal c E m .pitch = m.ppar / pn := by rw [epn, ebn, eb]; rfl
    have ek : gcVal c E m .ekin = (g - 1) * m.mass * c ^ 2 := by rw [← hgm, ebn, eb]; rfl
    rw [← eb]
    refine ⟨⟨p, ⟨rfl, ?_, ?_, ?_, ?_, ?_, ?_, ?_, ?_, ?_, ?_, ?_, ?_⟩⟩, rfl, rfl,
      ⟨⟨rfl, rfl, rfl⟩, mod2pi_spec _, ⟨rfl, rfl⟩⟩, rfl, (mod2pi_spec _).2.2, rfl, rfl, rfl, rfl, rfl, rfl, ?_⟩
    · rw [ep, epn, ebn, eb]; exact ⟨rfl, rfl, rfl⟩
    · rw [pno]; exact ⟨hpn.le, h2.symm⟩
    · rw [← ebn]; exact h1.symm
    · refine ⟨pe0, ?_⟩
      rw [pe2, h2]
      show m.ppar ^ 2 + _ = _
      ring
    · rw [vx, vy, vz, eg]; exact isVelocity hc hM p
    · rw [vn, vx, vy, vz]
      refine ⟨by positivity, ?_⟩
      rw [div_pow, ← h2]
      simp only [V3.dot]
      field_simp
    · rw [vpa, vx, vy, vz, ← ebn]
      have : V3.dot (⟨p.x / (m.mass * g), p.y / (m.mass * g), p.z / (m.mass * g)⟩ : V3 ℝ) b =
          V3.dot p b / (m.mass * g) := by simp only [V3.dot]; ring
      rw [this, h1]
      field_simp
    · rw [vpe, vpa, vn]
      refine ⟨by positivity, ?_⟩
      rw [div_pow, div_pow, pe2]
      field_simp
      ring
    · rw [ek, eg]; exact energy hc hM hpp.le
    · rw [pit, pno]
      exact div_mul_cancel₀ _ hpn.ne'
    · rw [pe2, hpn2, ← ebn]
      show m.mu * _ = _
      ring
    · rw [eb]
      refine ⟨rfl, rfl, rfl, ?_⟩
      show Real.sqrt _ = Real.sqrt _
      congr 1
      simp only [V3.dot]; ring
    · show m.ppar * m.r * m.bphi / Real.sqrt _ + _ = _
      have : V3.dot (⟨m.br, m.bphi, m.bz⟩ : V3 ℝ) ⟨m.br, m.bphi, m.bz⟩ = m.br ^ 2 + m.bphi ^ 2 + m.bz ^ 2 := by
        simp only [V3.dot]; ring
      rw [this]
      ring

/-- A quantity cannot be asked for twice. -/
theorem twice {mode : Bool} {c : ℝ} {E : Input} {ms : List Marker} {qnt : List Qnt} (hq : ¬ qnt.Nodup) :
    get mode c E ms qnt = none := get_twice hq

/-! ## Three markers -/

/-- The speeds of three particles are nine numbers. -/
theorem three_particles (c : ℝ) (E : Input) {ms : List Marker} (hn : ms.length = 3) :
    ∃ l, l.length = 3 ∧ get true c E ms [.vnorm] = some [.tab l] := by
  have h : (ms.map fun m => Real.sqrt (V3.dot (⟨m.prprt, m.pphiprt, m.pzprt⟩ : V3 ℝ)
      ⟨m.prprt, m.pphiprt, m.pzprt⟩)).length = 3 := by rw [List.length_map, hn]
  have e : prt c E ms .vnorm = some (velocityMomentum c (ms.map (·.mass)) (.row (ms.map fun m =>
      Real.sqrt (V3.dot (⟨m.prprt, m.pphiprt, m.pzprt⟩ : V3 ℝ) ⟨m.prprt, m.pphiprt, m.pzprt⟩)))) := by
    simp only [prt, pvecprt, List.map_map, Function.comp_def]
  obtain ⟨l, hl, h3⟩ : ∃ l, velocityMomentum c (ms.map (·.mass)) (.row (ms.map fun m =>
      Real.sqrt (V3.dot (⟨m.prprt, m.pphiprt, m.pzprt⟩ : V3 ℝ) ⟨m.prprt, m.pphiprt, m.pzprt⟩))) = .tab l ∧
      l.length = 3 := by
    unfold velocityMomentum
    dsimp only
    rw [if_pos h]
    refine ⟨_, rfl, ?_⟩
    rw [List.length_zipWith, List.length_zipWith, h, List.length_map, hn]
    simp [gammaMomentum, squares, hn]
  refine ⟨l, h3, ?_⟩
  have : get true c E ms [.vnorm] = (item true c E ms [.vnorm] 0).map fun x => [x] := by
    unfold StateQnt.get
    simp only [List.length_singleton, List.range_one, List.mapM_cons, List.mapM_nil]
    cases item true c E ms [.vnorm] 0 <;> rfl
  rw [this]
  unfold item
  simp only [List.getElem?_cons_zero, List.idxOf_cons_self, if_true, e, hl, Option.map_some, order]

/-- The speed of a guiding centre is smaller if it is asked for together with two others. -/
theorem three_guiding_centers {c : ℝ} (hc : 0 < c) (E : Input) {m1 m2 m3 : Marker} (h12 : m1.id ≤ m2.id)
    (h23 : m2.id ≤ m3.id) (hm : 0 < m1.mass) (hp1 : m1.ppar ≠ 0) (hp2 : m2.ppar ≠ 0) (hmu1 : 0 ≤ m1.mu)
    (hmass2 : 0 < m2.mass) (hmu2 : 0 ≤ m2.mu) :
    ∃ v v1 v2 v3, get false c E [m1] [.vnorm] = some [.row [v]] ∧
      get false c E [m1, m2, m3] [.vnorm] = some [.row [v1, v2, v3]] ∧ v1 < v := by
  let b (m : Marker) := Real.sqrt (V3.dot (⟨m.br, m.bphi, m.bz⟩ : V3 ℝ) ⟨m.br, m.bphi, m.bz⟩)
  let pn (m : Marker) := Real.sqrt (2 * m.mass * m.mu * b m + m.ppar ^ 2)
  have hpos : ∀ m : Marker, 0 < m.mass → 0 ≤ m.mu → m.ppar ≠ 0 → 0 < pn m := by
    intro m h1 h2 h3
    apply Real.sqrt_pos.2
    have := sq_pos_of_ne_zero h3
    have : 0 ≤ 2 * m.mass * m.mu * b m := mul_nonneg (by positivity) (Real.sqrt_nonneg _)
    linarith
  have q1 := hpos m1 hm hmu1 hp1
  have q2 := hpos m2 hmass2 hmu2 hp2
  have e : gc c E [m1, m2, m3] .vnorm = some (.row [
      pn m1 / (lorentz c m1.mass (pn m1 ^ 2 + (pn m2 ^ 2 + (pn m3 ^ 2 + 0))) * m1.mass),
      pn m2 / (lorentz c m2.mass (pn m1 ^ 2 + (pn m2 ^ 2 + (pn m3 ^ 2 + 0))) * m2.mass),
      pn m3 / (lorentz c m3.mass (pn m1 ^ 2 + (pn m2 ^ 2 + (pn m3 ^ 2 + 0))) * m3.mass)]) := rfl
  refine ⟨gcVal c E m1 .vnorm, pn m1 / (lorentz c m1.mass (pn m1 ^ 2 + (pn m2 ^ 2 + (pn m3 ^ 2 + 0))) * m1.mass),
    pn m2 / (lorentz c m2.mass (pn m1 ^ 2 + (pn m2 ^ 2 + (pn m3 ^ 2 + 0))) * m2.mass),
    pn m3 / (lorentz c m3.mass (pn m1 ^ 2 + (pn m2 ^ 2 + (pn m3 ^ 2 + 0))) * m3.mass),
    get_map (mode := false) (ms := [m1]) (fun q => by rw [if_neg Bool.false_ne_true]; exact gc_val c E (by simp) q)
      (List.nodup_singleton _), ?_, ?_⟩
  · have : get false c E [m1, m2, m3] [.vnorm] = (item false c E [m1, m2, m3] [.vnorm] 0).map fun x => [x] := by
      unfold StateQnt.get
      simp only [List.length_singleton, List.range_one, List.mapM_cons, List.mapM_nil]
      cases item false c E [m1, m2, m3] [.vnorm] 0 <;> rfl
    rw [this]
    unfold item
    have h13 := h12.trans h23
    simp only [List.getElem?_cons_zero, List.idxOf_cons_self, if_true, Bool.false_eq_true, if_false, e,
      Option.map_some, order, List.map_cons, List.map_nil, List.zip_cons_cons, List.zip_nil_left,
      List.insertionSort_cons, List.insertionSort_nil, List.orderedInsert, h23, h12]
  · have ev : gcVal c E m1 .vnorm = pn m1 / (lorentz c m1.mass (pn m1 ^ 2) * m1.mass) := rfl
    rw [ev]
    have hl : lorentz c m1.mass (pn m1 ^ 2) < lorentz c m1.mass (pn m1 ^ 2 + (pn m2 ^ 2 + (pn m3 ^ 2 + 0))) := by
      unfold lorentz
      apply Real.sqrt_lt_sqrt (by positivity)
      have : pn m1 ^ 2 < pn m1 ^ 2 + (pn m2 ^ 2 + (pn m3 ^ 2 + 0)) := by nlinarith [sq_nonneg (pn m3), pow_pos q2 2]
      have := div_lt_div_of_pos_right this (show 0 < (m1.mass * c) ^ 2 by positivity)
      linarith
    have g0 : 0 < lorentz c m1.mass (pn m1 ^ 2) := lorentz_pos (sq_nonneg _)
    exact div_lt_div_of_pos_left q1 (by positivity) (mul_lt_mul_of_pos_right hl hm)

/-! ## The poloidal angle of particles -/

theorem atan2_poloidal {dr dz : ℝ} (h : dr ≠ 0 ∨ dz ≠ 0) : Poloidal dr dz (Coord.atan2 dz dr) := by
  have hne : (⟨dr, dz⟩ : ℂ) ≠ 0 := by
    intro h0
    have h1 := congrArg Complex.re h0
    have h2 := congrArg Complex.im h0
    dsimp at h1 h2
    rcases h with h | h
    · exact h h1
    · exact h h2
  have hn : ‖(⟨dr, dz⟩ : ℂ)‖ = Real.sqrt (dr ^ 2 + dz ^ 2) := by
    rw [Complex.norm_def, Complex.normSq_mk]; congr 1; ring
  unfold Poloidal Coord.atan2
  rw [← hn, Complex.norm_mul_cos_arg, Complex.norm_mul_sin_arg]
  exact ⟨rfl, rfl⟩

/-- The angle of a guiding centre with the right initial value is the poloidal angle, and that of a particle is
the direction from the particle to the axis, not from the axis to the particle. -/
theorem thetamod_shifted (c : ℝ) (E : Input) {ms : List Marker} (hn : ms.length ≠ 3)
    (h : ∀ m ∈ ms, m.rprt - E.axisr m.rprt m.phiprt m.zprt m.time ≠ 0 ∨
      m.zprt - E.axisz m.rprt m.phiprt m.zprt m.time ≠ 0) :
    ∃ (s : List Marker) (val : Marker → ℝ), s.Perm ms ∧ get true c E ms [.thetamod] = some [.row (s.map val)] ∧
      ∀ m ∈ ms, Poloidal (-(m.rprt - E.axisr m.rprt m.phiprt m.zprt m.time))
        (-(m.zprt - E.axisz m.rprt m.phiprt m.zprt m.time)) (val m) := by
  refine ⟨_, fun m => prtVal c E m .thetamod, List.perm_insertionSort (fun a b => a.id ≤ b.id) ms,
    get_map (mode := true) (fun q => by rw [if_pos rfl]; exact prt_val c E hn q) (List.nodup_singleton _), ?_⟩
  intro m hm
  have h1 := atan2_poloidal (h m hm)
  obtain ⟨-, -, k, hk⟩ := mod2pi_spec (Coord.atan2 (m.zprt - E.axisz m.rprt m.phiprt m.zprt m.time)
    (m.rprt - E.axisr m.rprt m.phiprt m.zprt m.time) + Real.pi)
  have hv : prtVal c E m .thetamod = mod2pi (Coord.atan2 (m.zprt - E.axisz m.rprt m.phiprt m.zprt m.time)
    (m.rprt - E.axisr m.rprt m.phiprt m.zprt m.time) + Real.pi) := rfl
  unfold Poloidal at h1 ⊢
  dsimp only
  rw [hv, hk, Real.cos_add_int_mul_two_pi, Real.sin_add_int_mul_two_pi, Real.cos_add_pi, Real.sin_add_pi, neg_sq,
    neg_sq, mul_neg, mul_neg, h1.1, h1.2]
  exact ⟨rfl, rfl⟩

/-- The angle that is to count the turns of a particle does not. -/
theorem theta_not_cumulative (c : ℝ) (E : Input) {ms : List Marker} (hn : ms.length ≠ 3) :
    ∃ (s : List Marker) (val : Marker → ℝ), s.Perm ms ∧ get true c E ms [.theta] = some [.row (s.map val)] ∧
      get true c E ms [.thetamod] = some [.row (s.map val)] ∧ ∀ m ∈ ms, 0 ≤ val m ∧ val m < 2 * Real.pi := by
  have hv : ∀ m, prtVal c E m .theta = prtVal c E m .thetamod := by
    intro m
    show mod2pi _ = mod2pi _
    have hp : 2 * Real.pi ≠ 0 := by have := Real.pi_pos; positivity
    unfold mod2pi
    set t := Coord.atan2 (m.zprt - E.axisz m.rprt m.phiprt m.zprt m.time)
      (m.rprt - E.axisr m.rprt m.phiprt m.zprt m.time)
    set k := ⌊m.phi / (2 * Real.pi)⌋
    have : (2 * Real.pi * k + t + Real.pi) / (2 * Real.pi) = (t + Real.pi) / (2 * Real.pi) + k := by
      field_simp; ring
    rw [this, Int.floor_add_intCast]
    push_cast
    ring
  refine ⟨_, fun m => prtVal c E m .theta, List.perm_insertionSort (fun a b => a.id ≤ b.id) ms,
    get_map (mode := true) (fun q => by rw [if_pos rfl]; exact prt_val c E hn q) (List.nodup_singleton _), ?_, ?_⟩
  · rw [get_map (mode := true) (fun q => by rw [if_pos rfl]; exact prt_val c E hn q) (List.nodup_singleton _)]
    simp only [List.map_cons, List.map_nil, hv]
  · intro m _
    exact ⟨(mod2pi_spec _).1, (mod2pi_spec _).2.1⟩

/-! ## The hypotheses can be met -/

/-- A marker. -/
noncomputable def marker (id : ℕ) : Marker :=
  ⟨id, 1, 1, 0, 1, 2, 0, 0, 1, 2, 3, 2, 0, 0, 1, 1, 0, 0, 1 / 2, 0, 1, 1⟩

/-- A uniform field. -/
noncomputable def input : Input :=
  ⟨fun _ _ _ _ => ⟨0, 1, 0⟩, fun _ _ _ _ => Real.sqrt (V3.dot (⟨0, 1, 0⟩ : V3 ℝ) ⟨0, 1, 0⟩), fun _ _ _ _ => 0,
    fun _ _ _ _ => 1 / 2, fun _ _ _ _ => 1, fun _ _ _ _ => 0⟩

example : ∃ (s : List Marker) (val : Marker → Qnt → ℝ), s.Perm [marker 2, marker 1] ∧
    get true 3 input [marker 2, marker 1] [.vnorm, .ekin] =
      some [.row (s.map fun m => val m .vnorm), .row (s.map fun m => val m .ekin)] := by
  obtain ⟨s, val, h1, -, h2, -⟩ := particles (c := 3) (by norm_num) (E := input) (fun _ _ _ _ => rfl)
    (ms := [marker 2, marker 1]) (by simp) (by simp [marker]) (by simp [marker, input, V3.dot])
    (by simp [marker]; norm_num)
  exact ⟨s, val, h1, h2 [.vnorm, .ekin] (by decide)⟩

example : ∀ m ∈ [marker 2, marker 1], 0 < m.mass ∧ 0 ≤ m.mu ∧ (m.br ≠ 0 ∨ m.bphi ≠ 0) ∧ (m.ppar ≠ 0 ∨ m.mu ≠ 0) ∧
    (m.rprt - input.axisr m.rprt m.phiprt m.zprt m.time ≠ 0 ∨
      m.zprt - input.axisz m.rprt m.phiprt m.zprt m.time ≠ 0) := by
  simp [marker, input]
  norm_num

end Ascot.C155
