import Verif.Spec.Kinematic

set_option linter.unusedSectionVars false
set_option linter.unusedSimpArgs false

/-! # Lemmas on quantities of markers -/
namespace Ascot.StateQnt
open Kinematic

noncomputable def lorentz (c m p2 : ℝ) : ℝ := Real.sqrt (1 + p2 / (m * c) ^ 2)

/-- The quantities of one particle. -/
noncomputable def prtVal (c : ℝ) (E : Input) (m : Marker) : Qnt → ℝ :=
  let p : V3 ℝ := ⟨m.prprt, m.pphiprt, m.pzprt⟩
  let b := E.b m.rprt m.phiprt m.zprt m.time
  let g := lorentz c m.mass (V3.dot p p)
  let pn := Real.sqrt (V3.dot p p)
  let bn := Real.sqrt (V3.dot b b)
  let vpar := V3.dot p b / (g * m.mass * bn)
  let vn := pn / (m.mass * lorentz c m.mass (pn ^ 2))
  let t := Coord.atan2 (m.zprt - E.axisz m.rprt m.phiprt m.zprt m.time)
    (m.rprt - E.axisr m.rprt m.phiprt m.zprt m.time)
  fun q => match q with
  | .mass => m.mass
  | .charge => m.charge
  | .time => m.time
  | .weight => m.weight
  | .r => m.rprt
  | .z => m.zprt
  | .phi => m.phiprt
  | .phimod => mod2pi m.phiprt
  | .theta => mod2pi (2 * Real.pi * ⌊m.phi / (2 * Real.pi)⌋ + t + Real.pi)
  | .thetamod => mod2pi (t + Real.pi)
  | .x => m.rprt * Real.cos m.phiprt
  | .y => m.rprt * Real.sin m.phiprt
  | .pr => m.prprt
  | .pz => m.pzprt
  | .pphi => m.pphiprt
  | .ppar => V3.dot p b / bn
  | .pperp => Real.sqrt (V3.dot p p - (V3.dot p b / bn) ^ 2)
  | .pnorm => pn
  | .vr => m.prprt / (m.mass * g)
  | .vz => m.pzprt / (m.mass * g)
  | .vphi => m.pphiprt / (m.mass * g)
  | .vpar => vpar
  | .vperp => Real.sqrt (vn ^ 2 - vpar ^ 2)
  | .vnorm => vn
  | .br => b.x
  | .bz => b.z
  | .bphi => b.y
  | .bnorm => E.bnorm m.rprt m.phiprt m.zprt m.time
  | .ekin => (g - 1) * m.mass * c ^ 2
  | .pitch => V3.dot p b / Real.sqrt (V3.dot p p * V3.dot b b)
  | .mu => (1 - (V3.dot p b / (pn * bn)) ^ 2) * pn ^ 2 / (2 * bn * m.mass)
  | .zeta => m.zeta
  | .psi => E.psi m.rprt m.phiprt m.zprt m.time
  | .rho => E.rho m.rprt m.phiprt m.zprt m.time
  | .ptor => m.pphiprt * m.rprt + m.charge * E.psi m.rprt m.phiprt m.zprt m.time

theorem zip_map {α β γ δ : Type} (f : β → γ → δ) (g : α → β) (h : α → γ) (l : List α) :
    List.zipWith f (l.map g) (l.map h) = l.map fun x => f (g x) (h x) := by
  induction l with
  | nil => rfl
  | cons a l ih => simp [ih]

theorem zip_map_left {α γ δ : Type} (f : α → γ → δ) (h : α → γ) (l : List α) :
    List.zipWith f l (l.map h) = l.map fun x => f x (h x) := by
  induction l with
  | nil => rfl
  | cons a l ih => simp [ih]

theorem zip_map_right {α γ δ : Type} (f : γ → α → δ) (h : α → γ) (l : List α) :
    List.zipWith f (l.map h) l = l.map fun x => f (h x) x := by
  induction l with
  | nil => rfl
  | cons a l ih => simp [ih]

theorem squares_row {ms : List Marker} (hn : ms.length ≠ 3) (f : Marker → ℝ) :
    squares (.row (ms.map f)) = ms.map fun m => f m ^ 2 := by
  unfold squares
  dsimp only
  rw [if_neg (by rwa [List.length_map]), List.map_map]
  rfl

theorem strength_row {ms : List Marker} (hn : ms.length ≠ 3) (f : Marker → ℝ) :
    strength (.row (ms.map f)) = ms.map f := by
  unfold strength
  dsimp only
  rw [if_neg (by rwa [List.length_map])]

theorem squares_tab {ms : List Marker} (f : Marker → V3 ℝ) :
    squares (.tab (ms.map f)) = ms.map fun m => V3.dot (f m) (f m) := by
  simp [squares]

theorem strength_tab {ms : List Marker} (f : Marker → V3 ℝ) :
    strength (.tab (ms.map f)) = ms.map fun m => Real.sqrt (V3.dot (f m) (f m)) := by
  simp [strength]

theorem gammaMomentum_tab (c : ℝ) {ms : List Marker} (f : Marker → V3 ℝ) :
    gammaMomentum c (ms.map (·.mass)) (.tab (ms.map f)) =
      ms.map fun m => lorentz c m.mass (V3.dot (f m) (f m)) := by
  unfold gammaMomentum
  rw [squares_tab, zip_map]
  rfl

theorem gammaMomentum_row (c : ℝ) {ms : List Marker} (hn : ms.length ≠ 3) (f : Marker → ℝ) :
    gammaMomentum c (ms.map (·.mass)) (.row (ms.map f)) = ms.map fun m => lorentz c m.mass (f m ^ 2) := by
  unfold gammaMomentum
  rw [squares_row hn, zip_map]
  rfl

theorem velocityMomentum_tab (c : ℝ) {ms : List Marker} (f : Marker → V3 ℝ) :
    velocityMomentum c (ms.map (·.mass)) (.tab (ms.map f)) =
      .tab (ms.map fun m => ⟨(f m).x / (m.mass * lorentz c m.mass (V3.dot (f m) (f m))),
        (f m).y / (m.mass * lorentz c m.mass (V3.dot (f m) (f m))),
        (f m).z / (m.mass * lorentz c m.mass (V3.dot (f m) (f m)))⟩) := by
  unfold velocityMomentum
  rw [gammaMomentum_tab]
  simp only [zip_map]

theorem velocityMomentum_row (c : ℝ) {ms : List Marker} (hn : ms.length ≠ 3) (f : Marker → ℝ) :
    velocityMomentum c (ms.map (·.mass)) (.row (ms.map f)) =
      .row (ms.map fun m => f m / (m.mass * lorentz c m.mass (f m ^ 2))) := by
  unfold velocityMomentum
  rw [gammaMomentum_row c hn]
  dsimp only
  rw [if_neg (by rwa [List.length_map])]
  simp only [zip_map]

theorem vparMomentum_map (c : ℝ) {ms : List Marker} (f b : Marker → V3 ℝ) :
    vparMomentum c (ms.map (·.mass)) (ms.map f) (ms.map b) =
      ms.map fun m => V3.dot (f m) (b m) /
        (lorentz c m.mass (V3.dot (f m) (f m)) * m.mass * Real.sqrt (V3.dot (b m) (b m))) := by
  unfold vparMomentum
  rw [gammaMomentum_tab]
  simp only [zip_map]

theorem prt_val (c : ℝ) (E : Input) {ms : List Marker} (hn : ms.length ≠ 3) (q : Qnt) :
    prt c E ms q = some (.row (ms.map fun m => prtVal c E m q)) := by
  have h1 : evalprt E.b ms = ms.map fun m => E.b m.rprt m.phiprt m.zprt m.time := rfl
  have h2 : pvecprt ms = ms.map fun m => ⟨m.prprt, m.pphiprt, m.pzprt⟩ := rfl
  cases q <;>
    simp only [prt, prtVal, h1, h2, velocityMomentum_tab, component, vparMomentum_map, List.map_map,
      Function.comp_def, velocityMomentum_row c hn, gammaMomentum_tab, zip_map, zip_map_left, pparMomentum,
      energyGamma, pitchMomentum, muMomentum, poloidal, evalprt]

/-! ## Guiding centres -/

/-- The quantities of one guiding centre. -/
noncomputable def gcVal (c : ℝ) (E : Input) (m : Marker) : Qnt → ℝ :=
  let b : V3 ℝ := ⟨m.br, m.bphi, m.bz⟩
  let bn := Real.sqrt (V3.dot b b)
  let pn := Real.sqrt (2 * m.mass * m.mu * bn + m.ppar ^ 2)
  let pe := Real.sqrt (pn ^ 2 - m.ppar ^ 2)
  let p := gyro b bn m.ppar m.zeta pn
  let g := lorentz c m.mass (V3.dot p p)
  let gm := Real.sqrt (1 + 2 * (m.mu * bn) / (m.mass * c ^ 2) + (m.ppar / (m.mass * c)) ^ 2)
  let gp := lorentz c m.mass (pn ^ 2)
  fun q => match q with
  | .mass => m.mass
  | .charge => m.charge
  | .time => m.time
  | .weight => m.weight
  | .r => m.r
  | .z => m.z
  | .phi => m.phi
  | .phimod => mod2pi m.phi
  | .theta => m.theta
  | .thetamod => mod2pi m.theta
  | .x => m.r * Real.cos m.phi
  | .y => m.r * Real.sin m.phi
  | .pr => p.x
  | .pz => p.z
  | .pphi => p.y
  | .ppar => m.ppar
  | .pperp => pe
  | .pnorm => pn
  | .vr => p.x / (m.mass * g)
  | .vz => p.z / (m.mass * g)
  | .vphi => p.y / (m.mass * g)
  | .vpar => m.ppar / (gm * m.mass)
  | .vperp => pe / (gp * m.mass)
  | .vnorm => pn / (gp * m.mass)
  | .br => m.br
  | .bz => m.bz
  | .bphi => m.bphi
  | .bnorm => Real.sqrt (m.br ^ 2 + m.bphi ^ 2 + m.bz ^ 2)
  | .ekin => (gm - 1) * m.mass * c ^ 2
  | .pitch => m.ppar / pn
  | .mu => m.mu
  | .zeta => m.zeta
  | .psi => E.psi m.r m.phi m.z m.time
  | .rho => m.rho
  | .ptor => m.ppar * m.r * m.bphi / bn + m.charge * E.psi m.r m.phi m.z m.time

theorem momentumMuppar_tab {ms : List Marker} :
    momentumMuppar (ms.map (·.mass)) (ms.map (·.mu)) (ms.map (·.ppar)) (.tab (bvecgc ms)) =
      ms.map fun m => Real.sqrt (2 * m.mass * m.mu *
        Real.sqrt (V3.dot (⟨m.br, m.bphi, m.bz⟩ : V3 ℝ) ⟨m.br, m.bphi, m.bz⟩) + m.ppar ^ 2) := by
  unfold momentumMuppar bvecgc
  rw [strength_tab]
  simp only [zip_map]

theorem gammaMuppar_tab (c : ℝ) {ms : List Marker} :
    gammaMuppar c (ms.map (·.mass)) (ms.map (·.mu)) (ms.map (·.ppar)) (.tab (bvecgc ms)) =
      ms.map fun m => Real.sqrt (1 + 2 * (m.mu *
        Real.sqrt (V3.dot (⟨m.br, m.bphi, m.bz⟩ : V3 ℝ) ⟨m.br, m.bphi, m.bz⟩)) / (m.mass * c ^ 2) +
          (m.ppar / (m.mass * c)) ^ 2) := by
  unfold gammaMuppar bvecgc
  rw [strength_tab]
  simp only [zip_map]

theorem pvecgc_map {ms : List Marker} (hn : ms.length ≠ 3) :
    pvecgc ms = ms.map fun m =>
      let b : V3 ℝ := ⟨m.br, m.bphi, m.bz⟩
      gyro b (Real.sqrt (V3.dot b b)) m.ppar m.zeta
        (Real.sqrt (2 * m.mass * m.mu * Real.sqrt (V3.dot b b) + m.ppar ^ 2)) := by
  unfold pvecgc bvecgc momentumMuppar
  dsimp only
  rw [List.map_map]
  simp only [Function.comp_def]
  rw [strength_row hn]
  simp only [zip_map]
  rw [List.zip, zip_map, zip_map_left]

theorem gc_val (c : ℝ) (E : Input) {ms : List Marker} (hn : ms.length ≠ 3) (q : Qnt) :
    gc c E ms q = some (.row (ms.map fun m => gcVal c E m q)) := by
  cases q <;>
    simp only [gc, gcVal, pvecgc_map hn, momentumMuppar_tab, gammaMuppar_tab, velocityMomentum_tab, component,
      List.map_map, Function.comp_def, gammaMomentum_row c hn, zip_map, zip_map_left, zip_map_right, vparMuppar,
      energyGamma, pitchMuppar, evalgc]

/-! ## Order -/

theorem order_map {ms : List Marker} (f : Marker → ℝ) :
    order (ms.map (·.id)) (.row (ms.map f)) =
      .row ((ms.insertionSort fun a b => a.id ≤ b.id).map f) := by
  unfold order
  dsimp only
  rw [List.zip, zip_map]
  congr 1
  rw [← List.map_insertionSort (r := fun a b : Marker => a.id ≤ b.id)
    (s := fun a b : ℕ × ℝ => a.1 ≤ b.1) (fun m => (m.id, f m)) ms (fun a _ b _ => Iff.rfl), List.map_map]
  rfl

theorem mapM_some {α β : Type} {f : α → Option β} {g : α → β} :
    ∀ {l : List α}, (∀ x ∈ l, f x = some (g x)) → l.mapM f = some (l.map g)
  | [], _ => rfl
  | a :: l, h => by
    rw [List.mapM_cons, h a List.mem_cons_self, mapM_some fun x hx => h x (List.mem_cons_of_mem _ hx)]
    rfl

theorem get_map {mode : Bool} {c : ℝ} {E : Input} {ms : List Marker} {val : Marker → Qnt → ℝ}
    (h : ∀ q, (if mode then prt c E ms q else gc c E ms q) = some (.row (ms.map fun m => val m q)))
    {qnt : List Qnt} (hq : qnt.Nodup) :
    get mode c E ms qnt = some (qnt.map fun q =>
      .row ((ms.insertionSort fun a b => a.id ≤ b.id).map fun m => val m q)) := by
  unfold get
  rw [mapM_some (g := fun i => (qnt[i]?.map fun q =>
    Arr.row ((ms.insertionSort fun a b => a.id ≤ b.id).map fun m => val m q)).getD (.row []))]
  · congr 1
    apply List.ext_getElem?
    intro i
    by_cases hi : i < qnt.length
    · rw [List.getElem?_map, List.getElem?_map, List.getElem?_range hi, List.getElem?_eq_getElem hi]
      simp [hi]
    · rw [List.getElem?_eq_none (by simpa using hi), List.getElem?_eq_none (by simpa using hi)]
  · intro i hi
    have hi' := List.mem_range.1 hi
    unfold item
    rw [List.getElem?_eq_getElem hi']
    dsimp only
    rw [if_pos (hq.idxOf_getElem i hi'), h, Option.map_some, order_map]
    rfl

/-- A name that is given twice is refused. -/
theorem get_twice {mode : Bool} {c : ℝ} {E : Input} {ms : List Marker} {qnt : List Qnt} (hq : ¬ qnt.Nodup) :
    get mode c E ms qnt = none := by
  have : ∃ i ∈ List.range qnt.length, item mode c E ms qnt i = none := by
    by_contra hno
    apply hq
    rw [List.nodup_iff_injective_getElem]
    intro a b hab
    have e : ∀ i : Fin qnt.length, qnt.idxOf qnt[i] = i := by
      intro i
      by_contra hne
      apply hno
      refine ⟨i, List.mem_range.2 i.2, ?_⟩
      unfold item
      rw [List.getElem?_eq_getElem i.2]
      dsimp only
      exact if_neg hne
    have h1 := e a
    have h2 := e b
    dsimp only at hab
    apply Fin.ext
    rw [← h1, ← h2]
    show List.idxOf qnt[(a : ℕ)] qnt = List.idxOf qnt[(b : ℕ)] qnt
    rw [hab]
  obtain ⟨i, hi, h⟩ := this
  unfold get
  have key : ∀ l : List ℕ, i ∈ l → l.mapM (item mode c E ms qnt) = none := by
    intro l
    induction l with
    | nil => intro h; cases h
    | cons a l ih =>
      intro hm
      rw [List.mapM_cons]
      rcases List.mem_cons.1 hm with rfl | hm
      · rw [h]; rfl
      · rw [ih hm]; cases item mode c E ms qnt a <;> rfl
  exact key _ hi

/-! ## Relations -/

theorem dot_nonneg (p : V3 ℝ) : 0 ≤ V3.dot p p := by
  simp only [V3.dot]; nlinarith [sq_nonneg p.x, sq_nonneg p.y, sq_nonneg p.z]

theorem dot_le (p b : V3 ℝ) : V3.dot p b ^ 2 ≤ V3.dot p p * V3.dot b b := by
  simp only [V3.dot]
  nlinarith [sq_nonneg (p.x * b.y - p.y * b.x), sq_nonneg (p.x * b.z - p.z * b.x),
    sq_nonneg (p.y * b.z - p.z * b.y)]

theorem lorentz_pos {c m p2 : ℝ} (h : 0 ≤ p2) : 0 < lorentz c m p2 :=
  Real.sqrt_pos.2 (by positivity)

theorem lorentz_sq {c m p2 : ℝ} (h : 0 ≤ p2) : lorentz c m p2 ^ 2 = 1 + p2 / (m * c) ^ 2 :=
  Real.sq_sqrt (by positivity)

theorem isVelocity {c m : ℝ} (hc : 0 < c) (hm : 0 < m) (p : V3 ℝ) :
    let a := m * lorentz c m (V3.dot p p)
    IsVelocity c m ⟨p.x / a, p.y / a, p.z / a⟩ p := by
  intro a
  have hp := dot_nonneg p
  obtain ⟨g, hg⟩ : ∃ g, g = lorentz c m (V3.dot p p) := ⟨_, rfl⟩
  have g0 : 0 < g := by rw [hg]; exact lorentz_pos hp
  have g2 : g ^ 2 = 1 + V3.dot p p / (m * c) ^ 2 := by rw [hg]; exact lorentz_sq hp
  have ha : a = m * g := by rw [hg]
  have hv : V3.dot (⟨p.x / a, p.y / a, p.z / a⟩ : V3 ℝ) ⟨p.x / a, p.y / a, p.z / a⟩ =
      V3.dot p p / (m * g) ^ 2 := by
    rw [ha]; simp only [V3.dot]; field_simp
  have e2 : V3.dot p p = (g ^ 2 - 1) * (m * c) ^ 2 := by rw [g2]; field_simp; ring
  have e3 : 1 - V3.dot p p / (m * g) ^ 2 / c ^ 2 = (1 / g) ^ 2 := by rw [e2]; field_simp; ring
  have e4 : Real.sqrt (1 - V3.dot p p / (m * g) ^ 2 / c ^ 2) = 1 / g := by
    rw [e3, Real.sqrt_sq (by positivity)]
  unfold IsVelocity
  rw [hv, e4]
  refine ⟨?_, ?_, ?_, ?_⟩
  · rw [e2, div_lt_iff₀ (by positivity)]
    have : 0 < (m * c) ^ 2 := by positivity
    nlinarith
  all_goals
    dsimp only
    rw [ha]
    field_simp

theorem energy {c m p2 : ℝ} (hc : 0 < c) (hm : 0 < m) (hp : 0 ≤ p2) :
    0 ≤ (lorentz c m p2 - 1) * m * c ^ 2 ∧
      ((lorentz c m p2 - 1) * m * c ^ 2 + m * c ^ 2) ^ 2 = p2 * c ^ 2 + (m * c ^ 2) ^ 2 := by
  have g2 : lorentz c m p2 ^ 2 = 1 + p2 / (m * c) ^ 2 := lorentz_sq hp
  constructor
  · have : 1 ≤ lorentz c m p2 := by
      unfold lorentz
      rw [Real.one_le_sqrt]
      have : 0 ≤ p2 / (m * c) ^ 2 := by positivity
      linarith
    have h1 := sub_nonneg.2 this
    positivity
  · have : ((lorentz c m p2 - 1) * m * c ^ 2 + m * c ^ 2) ^ 2 = lorentz c m p2 ^ 2 * (m * c ^ 2) ^ 2 := by ring
    rw [this, g2]
    field_simp
    ring

theorem mod2pi_spec (x : ℝ) : 0 ≤ mod2pi x ∧ mod2pi x < 2 * Real.pi ∧ ∃ k : ℤ, mod2pi x = x + k * (2 * Real.pi) := by
  have hp : 0 < 2 * Real.pi := by have := Real.pi_pos; linarith
  have h1 := Int.floor_le (x / (2 * Real.pi))
  have h2 := Int.lt_floor_add_one (x / (2 * Real.pi))
  rw [le_div_iff₀ hp] at h1
  rw [div_lt_iff₀ hp] at h2
  unfold mod2pi
  refine ⟨by linarith, by linarith, -⌊x / (2 * Real.pi)⌋, by push_cast; ring⟩

/-- A vector in the direction of the field and one around it. -/
theorem gyro_spec {b : V3 ℝ} (hb : b.x ≠ 0 ∨ b.y ≠ 0) {ppar zeta pnorm : ℝ} (hp : ppar ^ 2 ≤ pnorm ^ 2) :
    let p := gyro b (Real.sqrt (V3.dot b b)) ppar zeta pnorm
    V3.dot p b = ppar * Real.sqrt (V3.dot b b) ∧ V3.dot p p = pnorm ^ 2 := by
  intro p
  have hxy : 0 < b.x ^ 2 + b.y ^ 2 := by
    rcases hb with h | h
    · have := pow_pos (abs_pos.2 h) 2; rw [sq_abs] at this; nlinarith [sq_nonneg b.y]
    · have := pow_pos (abs_pos.2 h) 2; rw [sq_abs] at this; nlinarith [sq_nonneg b.x]
  have hn0 : 0 < V3.dot b b := by simp only [V3.dot]; nlinarith [sq_nonneg b.z]
  obtain ⟨n, hn⟩ : ∃ n, n = Real.sqrt (V3.dot b b) := ⟨_, rfl⟩
  have hnp : 0 < n := by rw [hn]; exact Real.sqrt_pos.2 hn0
  have hn2 : n ^ 2 = b.x ^ 2 + b.y ^ 2 + b.z ^ 2 := by
    rw [hn, Real.sq_sqrt hn0.le]; simp only [V3.dot]; ring
  obtain ⟨hx, e1⟩ : ∃ x, x = b.x / n := ⟨_, rfl⟩
  obtain ⟨hy, e2⟩ : ∃ y, y = b.y / n := ⟨_, rfl⟩
  obtain ⟨hz, e3⟩ : ∃ z, z = b.z / n := ⟨_, rfl⟩
  have hu : hx ^ 2 + hy ^ 2 + hz ^ 2 = 1 := by
    rw [e1, e2, e3]; field_simp; exact hn2.symm
  have hq0 : 0 < hx ^ 2 + hy ^ 2 := by
    rw [e1, e2, div_pow, div_pow, ← add_div]; positivity
  obtain ⟨q, hq⟩ : ∃ q, q = Real.sqrt (hx ^ 2 + hy ^ 2) := ⟨_, rfl⟩
  have hqp : 0 < q := by rw [hq]; exact Real.sqrt_pos.2 hq0
  have hq2 : q ^ 2 = hx ^ 2 + hy ^ 2 := by rw [hq]; exact Real.sq_sqrt hq0.le
  have hq' : Real.sqrt (V3.dot (V3.cross ⟨hx, hy, hz⟩ (⟨0, 0, 1⟩ : V3 ℝ))
      (V3.cross ⟨hx, hy, hz⟩ (⟨0, 0, 1⟩ : V3 ℝ))) = q := by
    rw [hq]; congr 1; simp only [V3.cross, V3.dot]; ring
  have hb1 : b.x = hx * n := by rw [e1]; field_simp
  have hb2 : b.y = hy * n := by rw [e2]; field_simp
  have hb3 : b.z = hz * n := by rw [e3]; field_simp
  have hsc := Real.sin_sq_add_cos_sq zeta
  obtain ⟨ppe, hpe⟩ : ∃ x, x = Real.sqrt (pnorm ^ 2 - ppar ^ 2) := ⟨_, rfl⟩
  have hpe2 : ppe ^ 2 = pnorm ^ 2 - ppar ^ 2 := by rw [hpe, Real.sq_sqrt (by linarith)]
  obtain ⟨al, ha⟩ : ∃ x, x = hy / q := ⟨_, rfl⟩
  obtain ⟨be, hbe⟩ : ∃ x, x = -hx / q := ⟨_, rfl⟩
  have g1 : hx = -be * q := by rw [hbe]; field_simp
  have g2 : hy = al * q := by rw [ha]; field_simp
  have hA : al ^ 2 + be ^ 2 = 1 := by
    rw [ha, hbe, div_pow, div_pow, ← add_div, hq2, neg_sq, add_comm, div_self hq0.ne']
  have hQ : q ^ 2 + hz ^ 2 = 1 := by rw [hq2]; exact hu
  have g3 : (hy * 1 - hz * 0) / q = al := by rw [ha]; ring
  have g4 : (hz * 0 - hx * 1) / q = be := by rw [hbe]; ring
  have g5 : (hx * 0 - hy * 0) / q = 0 := by ring
  have hpv : p = ⟨hx * ppar + (-Real.sin zeta * al - Real.cos zeta * (hy * 0 - hz * be)) * ppe,
      hy * ppar + (-Real.sin zeta * be - Real.cos zeta * (hz * al - hx * 0)) * ppe,
      hz * ppar + (-Real.sin zeta * 0 - Real.cos zeta * (hx * be - hy * al)) * ppe⟩ := by
    simp only [p, gyro]
    rw [← hn, ← e1, ← e2, ← e3, hq', ← hpe]
    simp only [V3.cross]
    rw [g3, g4, g5]
  rw [hpv, ← hn]
  generalize Real.sin zeta = s at *
  generalize Real.cos zeta = k at *
  simp only [V3.dot]
  rw [hb1, hb2, hb3, g1, g2]
  constructor
  · linear_combination (ppar * n * q ^ 2) * hA + ppar * n * hQ
  · linear_combination (ppar ^ 2 * q ^ 2 + ppe ^ 2 * (s ^ 2 + k ^ 2 * hz ^ 2) +
      q ^ 2 * k ^ 2 * ppe ^ 2 * (al ^ 2 + be ^ 2 + 1)) * hA +
      (ppar ^ 2 + ppe ^ 2 * k ^ 2) * hQ + ppe ^ 2 * hsc + hpe2

end Ascot.StateQnt
