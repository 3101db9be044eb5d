import Verif.Props.C117_Options
import Verif.Props.C07_C12_EndCond

/-!
# C118: the end conditions a simulation applies are those set in the options
-/

set_option linter.unusedSectionVars false
set_option linter.unusedSimpArgs false

namespace Ascot.C118

open Ascot.Options Ascot.OptionDoc Ascot.EndCond

theorem bit_testBit (flag : ℕ) (ec : ℤ) (b : ℕ) :
    (bit flag ec).testBit b = (decide (0 < ec) && flag.testBit b) := by
  unfold bit
  by_cases h : 0 < ec <;> simp [h]

theorem pos_iff {f : File} {n : String} {k : ℤ} (h : int f n = .ok k) :
    0 < k ↔ ∃ x, f n = some [x] ∧ 1 ≤ x := by
  obtain ⟨x, h1, h2⟩ := int_ok.mp h
  have h3 := (toInt_ok h2).1
  have : 0 < k ↔ 1 ≤ x := by
    rw [h3]
    split
    · constructor
      · intro h
        have : (1 : ℤ) ≤ ⌊x⌋ := h
        simpa using Int.le_floor.mp this
      · intro h
        have : (1 : ℤ) ≤ ⌊x⌋ := Int.le_floor.mpr (by simpa using h)
        omega
    · rename_i h0
      constructor
      · intro h
        have : ⌈x⌉ ≤ 0 := Int.ceil_le.mpr (by push_cast; linarith)
        omega
      · intro h
        exact absurd (le_trans zero_le_one h) h0
  rw [this]
  constructor
  · intro h; exact ⟨x, h1, h⟩
  · rintro ⟨y, h4, h5⟩
    rw [h1] at h4
    injection h4 with h4
    injection h4 with h4
    rw [h4]; exact h5

/-- The reads behind the bit array. -/
theorem active_ints {f : File} {a : Active} (h : readActive f = .ok a) :
    ∃ k1 k2 k3 k4 k5 k6 k7 k8, int f "ENDCOND_SIMTIMELIM" = .ok k1 ∧
      int f "ENDCOND_CPUTIMELIM" = .ok k2 ∧ int f "ENDCOND_RHOLIM" = .ok k3 ∧
      int f "ENDCOND_ENERGYLIM" = .ok k4 ∧ int f "ENDCOND_WALLHIT" = .ok k5 ∧
      int f "ENDCOND_MAXORBS" = .ok k6 ∧ int f "ENDCOND_NEUTRALIZED" = .ok k7 ∧
      int f "ENDCOND_IONIZED" = .ok k8 ∧
      (∀ b, a.bits.testBit b =
        ((decide (0 < k1) && Nat.testBit 0x1 b) || (decide (0 < k2) && Nat.testBit 0x100 b) ||
         (decide (0 < k3) && Nat.testBit 0x10 b) || (decide (0 < k3) && Nat.testBit 0x20 b) ||
         (decide (0 < k4) && Nat.testBit 0x2 b) || (decide (0 < k4) && Nat.testBit 0x4 b) ||
         (decide (0 < k5) && Nat.testBit 0x8 b) || (decide (0 < k6) && Nat.testBit 0x40 b) ||
         (decide (0 < k6) && Nat.testBit 0x80 b) || (decide (0 < k7) && Nat.testBit 0x400 b) ||
         (decide (0 < k8) && Nat.testBit 0x800 b))) ∧
      a.torandpol = if k8 = 2 then 1 else 0 := by
  simp only [readActive, bind_ok, pure_ok] at h
  obtain ⟨_, h1, _, h2, _, h3, _, h4, _, h5, _, h6, _, h7, _, h8, rfl⟩ := h
  refine ⟨_, _, _, _, _, _, _, _, h1, h2, h3, h4, h5, h6, h7, h8, ?_, rfl⟩
  intro b
  simp only [Nat.testBit_or, bit_testBit, Nat.zero_testBit, Bool.false_or]

/-- A condition is switched on exactly when the option that controls it is at least
one; no other bits are set. -/
theorem switches (f : File) (o : Opt) (h : readOptions f = .ok o) :
    (∀ e ∈ endconds, ∀ b ∈ e.2,
      (o.active.bits.testBit b = true ↔ ∃ x, f e.1 = some [x] ∧ 1 ≤ x)) ∧
    ∀ b, (∀ e ∈ endconds, b ∉ e.2) → o.active.bits.testBit b = false := by
  obtain ⟨-, -, -, ha, -⟩ := C117.blocks h
  obtain ⟨k1, k2, k3, k4, k5, k6, k7, k8, h1, h2, h3, h4, h5, h6, h7, h8, hb, -⟩ := active_ints ha
  constructor
  · intro e he b hbm
    rw [hb b]
    simp only [endconds, List.mem_cons, List.not_mem_nil, or_false] at he
    rcases he with rfl | rfl | rfl | rfl | rfl | rfl | rfl | rfl
    · simp only [List.mem_cons, List.not_mem_nil, or_false] at hbm
      subst hbm
      simp [Nat.testBit, ← pos_iff h1]
    · simp only [List.mem_cons, List.not_mem_nil, or_false] at hbm
      subst hbm
      simp [Nat.testBit, ← pos_iff h2]
    · simp only [List.mem_cons, List.not_mem_nil, or_false] at hbm
      rcases hbm with rfl | rfl <;> simp [Nat.testBit, ← pos_iff h3]
    · simp only [List.mem_cons, List.not_mem_nil, or_false] at hbm
      rcases hbm with rfl | rfl <;> simp [Nat.testBit, ← pos_iff h4]
    · simp only [List.mem_cons, List.not_mem_nil, or_false] at hbm
      subst hbm
      simp [Nat.testBit, ← pos_iff h5]
    · simp only [List.mem_cons, List.not_mem_nil, or_false] at hbm
      rcases hbm with rfl | rfl <;> simp [Nat.testBit, ← pos_iff h6]
    · simp only [List.mem_cons, List.not_mem_nil, or_false] at hbm
      subst hbm
      simp [Nat.testBit, ← pos_iff h7]
    · simp only [List.mem_cons, List.not_mem_nil, or_false] at hbm
      subst hbm
      simp [Nat.testBit, ← pos_iff h8]
  · intro b hn
    rw [hb b]
    have hne : ∀ c ∈ [0, 8, 4, 5, 1, 2, 3, 6, 7, 10, 11], b ≠ c := by
      rintro c hc rfl
      have : ∀ c ∈ [0, 8, 4, 5, 1, 2, 3, 6, 7, 10, 11], ∃ e ∈ endconds, c ∈ e.2 := by decide
      obtain ⟨e, he, hm⟩ := this b hc
      exact hn e he hm
    simp only [List.mem_cons, List.not_mem_nil, or_false, forall_eq_or_imp, forall_eq] at hne
    obtain ⟨n0, n8, n4, n5, n1, n2, n3, n6, n7, n10, n11⟩ := hne
    have hp : ∀ m, b ≠ m → Nat.testBit (2 ^ m) b = false := fun m hm => by
      rw [Nat.testBit_two_pow]; simpa using Ne.symm hm
    have p0 := hp 0 n0
    have p1 := hp 1 n1
    have p2 := hp 2 n2
    have p3 := hp 3 n3
    have p4 := hp 4 n4
    have p5 := hp 5 n5
    have p6 := hp 6 n6
    have p7 := hp 7 n7
    have p8 := hp 8 n8
    have p10 := hp 10 n10
    have p11 := hp 11 n11
    norm_num at p0 p1 p2 p3 p4 p5 p6 p7 p8 p10 p11
    simp [p0, p1, p2, p3, p4, p5, p6, p7, p8, p10, p11]

/-- Whether both limits on the number of orbits have to be reached is decided by the
option for ionization, whatever the option for the number of orbits says. -/
theorem both_flag (f : File) (o : Opt) (h : readOptions f = .ok o) :
    (o.active.torandpol = 1 ↔ ∃ x, f "ENDCOND_IONIZED" = some [x] ∧ 2 ≤ x ∧ x < 3) ∧
    (o.active.torandpol = 1 ∨ o.active.torandpol = 0) := by
  obtain ⟨-, -, -, ha, -⟩ := C117.blocks h
  obtain ⟨k1, k2, k3, k4, k5, k6, k7, k8, h1, h2, h3, h4, h5, h6, h7, h8, -, ht⟩ := active_ints ha
  rw [ht]
  refine ⟨?_, by split <;> simp⟩
  obtain ⟨x, hx, h9⟩ := int_ok.mp h8
  have hk := (toInt_ok h9).1
  have : k8 = 2 ↔ 2 ≤ x ∧ x < 3 := by
    rw [hk]
    split
    · rw [Int.floor_eq_iff]; push_cast
      constructor
      · rintro ⟨a, b⟩; exact ⟨a, by linarith⟩
      · rintro ⟨a, b⟩; exact ⟨a, by linarith⟩
    · rename_i h0
      constructor
      · intro h
        have : ⌈x⌉ ≤ 0 := Int.ceil_le.mpr (by push_cast; linarith)
        omega
      · rintro ⟨a, -⟩
        exact absurd (le_trans zero_le_two a) h0
  by_cases hk2 : k8 = 2
  · rw [if_pos hk2]
    exact ⟨fun _ => ⟨x, hx, this.mp hk2⟩, fun _ => rfl⟩
  · rw [if_neg hk2]
    refine ⟨fun h => absurd h (by norm_num), ?_⟩
    rintro ⟨y, hy, h10⟩
    rw [hx] at hy
    injection hy with hy
    injection hy with hy
    exact absurd (this.mpr (by rw [hy]; exact h10)) hk2

/-- The options as `endcond.c` sees them: the same `sim_data` fields. -/
noncomputable def view (o : Opt) : Opts ℝ where
  active := o.active.bits
  reverseTime := o.physics.reverseTime ≠ 0
  torAndPol := o.active.torandpol ≠ 0
  simMode := o.mode.simMode.toNat
  limSimtime := o.limits.simtime
  maxMileage := o.limits.mileage
  maxCputime := o.limits.cputime
  minRho := o.limits.minRho
  maxRho := o.limits.maxRho
  minEkin := o.limits.minEkin
  minThermal := o.limits.minThermal
  maxTororb := o.limits.maxTororb
  maxPolorb := o.limits.maxPolorb

/-- What is known about a guiding centre after a step. -/
structure Seen where
  time : ℝ
  mileage : ℝ
  cputime : ℝ
  rho : ℝ
  /-- kinetic energy in joules -/
  ekin : ℝ
  /-- local temperature in joules -/
  temp : ℝ
  /-- toroidal and poloidal angle travelled -/
  phi : ℝ
  theta : ℝ
  hit : Prop
  /-- poloidal orbits completed, counted by bounces -/
  bounced : ℤ

/-- The documented criterion for ending the simulation of a marker, in terms of the
values `v` in the options file: `both` says whether both limits on the number of
orbits have to be reached. -/
def Ends (v : String → ℝ) (both : Prop) (x : Seen) : Prop :=
  (1 ≤ v "ENDCOND_SIMTIMELIM" ∧
    ((v "REVERSE_TIME" = 0 ∧ v "ENDCOND_LIM_SIMTIME" < x.time) ∨
      (v "REVERSE_TIME" ≠ 0 ∧ x.time < v "ENDCOND_LIM_SIMTIME") ∨
      v "ENDCOND_MAX_MILEAGE" < x.mileage)) ∨
  (1 ≤ v "ENDCOND_CPUTIMELIM" ∧ v "ENDCOND_MAX_CPUTIME" < x.cputime) ∨
  (1 ≤ v "ENDCOND_RHOLIM" ∧ (x.rho < v "ENDCOND_MIN_RHO" ∨ v "ENDCOND_MAX_RHO" < x.rho)) ∨
  (1 ≤ v "ENDCOND_ENERGYLIM" ∧
    (x.ekin < v "ENDCOND_MIN_ENERGY" * 1.602176565e-19 ∨
      x.ekin < v "ENDCOND_MIN_THERMAL" * x.temp)) ∨
  (1 ≤ v "ENDCOND_WALLHIT" ∧ x.hit) ∨
  (1 ≤ v "ENDCOND_MAXORBS" ∧
    let tor := v "ENDCOND_MAX_TOROIDALORBS" * (2 * Real.pi) < |x.phi|
    let pol := v "ENDCOND_MAX_POLOIDALORBS" * (2 * Real.pi) < |x.theta| ∨
      v "ENDCOND_MAX_POLOIDALORBS" ≤ x.bounced
    (¬ both ∧ (tor ∨ pol)) ∨ (both ∧ tor ∧ pol)) ∨
  -- hybrid mode: the marker is handed over to the gyro-orbit simulation
  (v "SIM_MODE" = 3 ∧ v "ENDCOND_MAX_RHO" < x.rho)

theorem exists_cond {P : Cond → Prop} : (∃ c, P c) ↔ P .tlim ∨ P .emin ∨ P .therm ∨ P .wall ∨
    P .rhomin ∨ P .rhomax ∨ P .polmax ∨ P .tormax ∨ P .cpumax ∨ P .hybrid ∨ P .neutr ∨
    P .ioniz := by
  constructor
  · rintro ⟨c, h⟩
    cases c <;> simp [h]
  · rintro (h | h | h | h | h | h | h | h | h | h | h | h) <;> exact ⟨_, h⟩

/-- The values of the integer options are whole numbers of the documented kind. -/
structure Whole (v : String → ℝ) : Prop where
  mode : ∃ k : ℕ, v "SIM_MODE" = k
  reverse : ∃ k : ℤ, v "REVERSE_TIME" = k
  pol : ∃ k : ℕ, v "ENDCOND_MAX_POLOIDALORBS" = k
  tor : ∃ k : ℕ, v "ENDCOND_MAX_TOROIDALORBS" = k

/-- What the check of a guiding centre looks at. -/
noncomputable def seen (e : Env ℝ) (ekin : Gc ℝ → ℝ) (i f : Gc ℝ) (bounces : ℤ) : Seen where
  time := f.time
  mileage := f.mileage
  cputime := f.cputime
  rho := f.rho
  ekin := ekin f
  temp := (e.temp f.rho f.r f.phi f.z f.time).2
  phi := f.phi
  theta := f.theta
  hit := 0 < (e.wallHit i.r i.phi i.z f.r f.phi f.z).1
  bounced := bounces - 1

theorem reorder {A T0 B b1 C c1 c2 D d1 d2 E e1 M X T P H h1 : Prop} :
    ((A ∧ T0) ∨ (D ∧ d1) ∨ (D ∧ d2) ∨ (E ∧ e1) ∨ (C ∧ c1) ∨ (C ∧ c2) ∨
      (M ∧ P ∧ (X → M ∧ T)) ∨ (M ∧ T ∧ (X → M ∧ P)) ∨ (B ∧ b1) ∨ (H ∧ h1)) ↔
    ((A ∧ T0) ∨ (B ∧ b1) ∨ (C ∧ (c1 ∨ c2)) ∨ (D ∧ (d1 ∨ d2)) ∨ (E ∧ e1) ∨
      (M ∧ ((¬ X ∧ (T ∨ P)) ∨ (X ∧ T ∧ P))) ∨ (H ∧ h1)) := by
  by_cases hX : X
  · simp only [hX, true_implies, not_true_eq_false, false_and, false_or, true_and]
    constructor
    · rintro (h | h | h | h | h | h | h | h | h | h) <;> simp [h]
    · rintro (h | h | h | h | h | h | h)
      · simp [h]
      · simp [h]
      · rcases h with ⟨h, h' | h'⟩ <;> simp [h, h']
      · rcases h with ⟨h, h' | h'⟩ <;> simp [h, h']
      · simp [h]
      · simp [h]
      · simp [h]
  · simp only [hX, false_implies, not_false_eq_true, true_and, false_and, or_false, and_true]
    constructor
    · rintro (h | h | h | h | h | h | h | h | h | h) <;> simp [h]
    · rintro (h | h | h | h | h | h | h)
      · simp [h]
      · simp [h]
      · rcases h with ⟨h, h' | h'⟩ <;> simp [h, h']
      · rcases h with ⟨h, h' | h'⟩ <;> simp [h, h']
      · simp [h]
      · rcases h with ⟨h, h' | h'⟩ <;> simp [h, h']
      · simp [h]

/-- A guiding centre is stopped exactly when the criterion set in the options file
is met, where the option for ionization takes the place of the option for the number
of orbits in deciding whether both limits are needed. -/
theorem gc_stops (f : File) (v : String → ℝ) (hf : ∀ n ∈ always, f n = some [v n])
    (hv : Whole v) (o : Opt) (h : readOptions f = .ok o) (e : Env ℝ) (he : e.twoPi = 2 * Real.pi)
    (ekin : Gc ℝ → ℝ) (i p : Gc ℝ) (hrun : p.running = true) (herr : p.err = 0)
    (htemp : (e.temp p.rho p.r p.phi p.z p.time).1 = 0) :
    let res := checkGc (view o) e ekin i p
    res.running = false ↔
      Ends v (2 ≤ v "ENDCOND_IONIZED" ∧ v "ENDCOND_IONIZED" < 3)
        (seen e ekin i p res.bounces) := by
  intro res
  have hsw := (switches f o h).1
  have hon : ∀ n b, (∃ bs, (n, bs) ∈ endconds ∧ b ∈ bs) →
      (o.active.bits.testBit b = true ↔ 1 ≤ v n) := by
    rintro n b ⟨bs, h1, h2⟩
    rw [hsw _ h1 b h2]
    have hn : f n = some [v n] := hf n (by
      simp only [always, List.mem_append, List.mem_map]
      exact Or.inr ⟨_, h1, rfl⟩)
    constructor
    · rintro ⟨x, h3, h4⟩
      rw [hn] at h3
      injection h3 with h3
      injection h3 with h3
      rw [h3]; exact h4
    · intro h3; exact ⟨_, hn, h3⟩
  have o0 := hon "ENDCOND_SIMTIMELIM" 0 ⟨[0], by decide⟩
  have o8 := hon "ENDCOND_CPUTIMELIM" 8 ⟨[8], by decide⟩
  have o4 := hon "ENDCOND_RHOLIM" 4 ⟨[4, 5], by decide⟩
  have o5 := hon "ENDCOND_RHOLIM" 5 ⟨[4, 5], by decide⟩
  have o1 := hon "ENDCOND_ENERGYLIM" 1 ⟨[1, 2], by decide⟩
  have o2 := hon "ENDCOND_ENERGYLIM" 2 ⟨[1, 2], by decide⟩
  have o3 := hon "ENDCOND_WALLHIT" 3 ⟨[3], by decide⟩
  have o6 := hon "ENDCOND_MAXORBS" 6 ⟨[6, 7], by decide⟩
  have o7 := hon "ENDCOND_MAXORBS" 7 ⟨[6, 7], by decide⟩
  have hreal : ∀ n fld u, (n, fld, u) ∈ reals → n ∈ always → fld o = v n * u := by
    intro n fld u hm ha
    obtain ⟨x, h1, h2⟩ := C117.real_options f o h _ hm
    have h1' : f n = some [x] := h1
    rw [hf n ha] at h1'
    injection h1' with h1'
    injection h1' with h1'
    rw [h1']; exact h2
  have r1 := hreal "ENDCOND_LIM_SIMTIME" (fun o => o.limits.simtime) 1 (by simp [reals]) (by decide +kernel)
  have r2 := hreal "ENDCOND_MAX_MILEAGE" (fun o => o.limits.mileage) 1 (by simp [reals]) (by decide +kernel)
  have r3 := hreal "ENDCOND_MAX_CPUTIME" (fun o => o.limits.cputime) 1 (by simp [reals]) (by decide +kernel)
  have r4 := hreal "ENDCOND_MAX_RHO" (fun o => o.limits.maxRho) 1 (by simp [reals]) (by decide +kernel)
  have r5 := hreal "ENDCOND_MIN_RHO" (fun o => o.limits.minRho) 1 (by simp [reals]) (by decide +kernel)
  have r6 := hreal "ENDCOND_MIN_ENERGY" (fun o => o.limits.minEkin) 1.602176565e-19
    (by simp [reals]) (by decide +kernel)
  have r7 := hreal "ENDCOND_MIN_THERMAL" (fun o => o.limits.minThermal) 1 (by simp [reals]) (by decide +kernel)
  rw [mul_one] at r1 r2 r3 r4 r5 r7
  obtain ⟨km, hm⟩ := hv.mode
  obtain ⟨kr, hr⟩ := hv.reverse
  obtain ⟨kp, hp⟩ := hv.pol
  obtain ⟨kt, ht⟩ := hv.tor
  have t1 : o.limits.maxPolorb = kp * (2 * Real.pi) := by
    have := (C117.turn_options f o h ("ENDCOND_MAX_POLOIDALORBS", fun o => o.limits.maxPolorb)
      (by simp [turns])).2 kp (by
        rw [show (("ENDCOND_MAX_POLOIDALORBS", fun o => o.limits.maxPolorb) :
          String × (Opt → ℝ)).1 = "ENDCOND_MAX_POLOIDALORBS" from rfl, hf _ (by decide +kernel), hp]
        simp)
    simpa using this
  have t2 : o.limits.maxTororb = kt * (2 * Real.pi) := by
    have := (C117.turn_options f o h ("ENDCOND_MAX_TOROIDALORBS", fun o => o.limits.maxTororb)
      (by simp [turns])).2 kt (by
        rw [show (("ENDCOND_MAX_TOROIDALORBS", fun o => o.limits.maxTororb) :
          String × (Opt → ℝ)).1 = "ENDCOND_MAX_TOROIDALORBS" from rfl, hf _ (by decide +kernel), ht]
        simp)
    simpa using this
  have i1 : o.mode.simMode = km := by
    have := (C117.integer_options f o h ("SIM_MODE", fun o => o.mode.simMode)
      (by simp [integers])).2 km (by
        rw [show (("SIM_MODE", fun o => o.mode.simMode) : String × (Opt → ℤ)).1 = "SIM_MODE"
          from rfl, hf _ (by decide +kernel), hm]
        simp)
    exact this
  have i2 : o.physics.reverseTime = kr := by
    have := (C117.integer_options f o h ("REVERSE_TIME", fun o => o.physics.reverseTime)
      (by simp [integers])).2 kr (by
        rw [show (("REVERSE_TIME", fun o => o.physics.reverseTime) : String × (Opt → ℤ)).1 =
          "REVERSE_TIME" from rfl, hf _ (by decide +kernel), hr])
    exact this
  have hb : (view o).torAndPol = true ↔ 2 ≤ v "ENDCOND_IONIZED" ∧ v "ENDCOND_IONIZED" < 3 := by
    have hfl := both_flag f o h
    have : (view o).torAndPol = true ↔ o.active.torandpol = 1 := by
      simp only [view, decide_eq_true_eq]
      rcases hfl.2 with h | h <;> simp [h]
    rw [this, hfl.1]
    constructor
    · rintro ⟨x, h1, h2⟩
      rw [hf _ (by decide +kernel)] at h1
      injection h1 with h1
      injection h1 with h1
      rw [h1]; exact h2
    · intro h1; exact ⟨_, hf _ (by decide +kernel), h1⟩
  have hrev : (view o).reverseTime = true ↔ v "REVERSE_TIME" ≠ 0 := by
    simp only [view, decide_eq_true_eq, i2, hr]
    simp
  have hrev' : (view o).reverseTime = false ↔ v "REVERSE_TIME" = 0 := by
    rw [← Bool.not_eq_true, hrev, not_not]
  have hmode : (view o).simMode = 3 ↔ v "SIM_MODE" = 3 := by
    simp only [view, i1, hm, Int.toNat_natCast]
    constructor
    · intro h; rw [h]; norm_num
    · intro h; exact_mod_cast h
  have hbnc : (if 0 ≤ (view o).maxPolorb / e.twoPi then ⌊(view o).maxPolorb / e.twoPi⌋
      else ⌈(view o).maxPolorb / e.twoPi⌉) = kp := by
    have : (view o).maxPolorb / e.twoPi = kp := by
      simp only [view, t1, he]
      have := Real.pi_pos
      field_simp
    rw [this]
    split <;> simp
  have hmain : res.running = false ↔ ∃ c, Met (view o) (gcFacts (view o) e ekin i p res) c :=
    (C08.gc_endcond (view o) e ekin i p hrun herr (fun _ => htemp)).2.1
  rw [hmain, exists_cond]
  have v0 : (view o).on .tlim ↔ 1 ≤ v "ENDCOND_SIMTIMELIM" := o0
  have v1 : (view o).on .emin ↔ 1 ≤ v "ENDCOND_ENERGYLIM" := o1
  have v2 : (view o).on .therm ↔ 1 ≤ v "ENDCOND_ENERGYLIM" := o2
  have v3 : (view o).on .wall ↔ 1 ≤ v "ENDCOND_WALLHIT" := o3
  have v4 : (view o).on .rhomin ↔ 1 ≤ v "ENDCOND_RHOLIM" := o4
  have v5 : (view o).on .rhomax ↔ 1 ≤ v "ENDCOND_RHOLIM" := o5
  have v6 : (view o).on .polmax ↔ 1 ≤ v "ENDCOND_MAXORBS" := o6
  have v7 : (view o).on .tormax ↔ 1 ≤ v "ENDCOND_MAXORBS" := o7
  have v8 : (view o).on .cpumax ↔ 1 ≤ v "ENDCOND_CPUTIMELIM" := o8
  have hbb : ((kp : ℤ) ≤ res.bounces - 1) ↔ v "ENDCOND_MAX_POLOIDALORBS" ≤ ((res.bounces - 1 : ℤ) : ℝ) := by
    rw [hp]
    constructor
    · intro h; exact_mod_cast h
    · intro h; exact_mod_cast h
  have w1 : (view o).limSimtime = v "ENDCOND_LIM_SIMTIME" := r1
  have w2 : (view o).maxMileage = v "ENDCOND_MAX_MILEAGE" := r2
  have w3 : (view o).maxCputime = v "ENDCOND_MAX_CPUTIME" := r3
  have w4 : (view o).maxRho = v "ENDCOND_MAX_RHO" := r4
  have w5 : (view o).minRho = v "ENDCOND_MIN_RHO" := r5
  have w6 : (view o).minEkin = v "ENDCOND_MIN_ENERGY" * 1.602176565e-19 := r6
  have w7 : (view o).minThermal = v "ENDCOND_MIN_THERMAL" := r7
  have w8 : (view o).maxPolorb = v "ENDCOND_MAX_POLOIDALORBS" * (2 * Real.pi) := by
    rw [hp]; exact t1
  have w9 : (view o).maxTororb = v "ENDCOND_MAX_TOROIDALORBS" * (2 * Real.pi) := by
    rw [ht]; exact t2
  rw [w8] at hbnc
  simp only [Met, TimeOver, PolMet, TorMet, gcFacts, v0, v1, v2, v3, v4, v5, v6, v7, v8, hb, hrev,
    hrev', hmode, hbnc, w1, w2, w3, w4, w5, w6, w7, w8, w9, Ends, seen, Option.some.injEq,
    exists_eq_left', reduceCtorEq, false_and, exists_const, and_false, or_false]
  rw [hbb]
  exact reorder

/-- The documented criterion holds when the option for ionization happens to say the
same about both limits as the option for the number of orbits. Missing: the case of
a file that asks for both limits without setting the ionization option to 2, where
the criterion fails (`both_limits_wrong`). -/
theorem gc_stops_partial (f : File) (v : String → ℝ) (hf : ∀ n ∈ always, f n = some [v n])
    (hv : Whole v) (hsame : 2 ≤ v "ENDCOND_MAXORBS" ↔
      2 ≤ v "ENDCOND_IONIZED" ∧ v "ENDCOND_IONIZED" < 3)
    (o : Opt) (h : readOptions f = .ok o) (e : Env ℝ) (he : e.twoPi = 2 * Real.pi)
    (ekin : Gc ℝ → ℝ) (i p : Gc ℝ) (hrun : p.running = true) (herr : p.err = 0)
    (htemp : (e.temp p.rho p.r p.phi p.z p.time).1 = 0) :
    let res := checkGc (view o) e ekin i p
    res.running = false ↔
      Ends v (2 ≤ v "ENDCOND_MAXORBS") (seen e ekin i p res.bounces) := by
  intro res
  have := gc_stops f v hf hv o h e he ekin i p hrun herr htemp
  rw [hsame]
  exact this

/-- Options asking for a guiding-centre simulation that ends when both limits on the
number of orbits are reached, with all other conditions off. -/
noncomputable def bothValues (n : String) : ℝ :=
  if n = "ENDCOND_MAXORBS" ∨ n = "SIM_MODE" then 2
  else if n ∈ endconds.map (·.1) then 0 else 1

/-- A marker that has made many toroidal turns and no poloidal one. -/
noncomputable def turning : Gc ℝ where
  time := 0
  mileage := 0
  cputime := 0
  r := 1
  phi := 100
  z := 0
  rho := 1 / 2
  theta := 0
  bounces := 0
  walltile := 0
  endcond := 0
  err := 0
  running := true
  ppar := 1

/-- No wall and a plasma temperature of one. -/
noncomputable def open_ : Env ℝ where
  wallHit := fun _ _ _ _ _ _ => (0, 0)
  temp := fun _ _ _ _ _ => (0, 1)
  twoPi := 2 * Real.pi

theorem both_wellFormed : C117.WellFormed (fun n => some [bothValues n]) := by
  refine ⟨fun n _ => Or.inr ⟨_, rfl, ?_⟩, fun n _ => Or.inr ⟨_, rfl, by norm_num⟩⟩
  unfold bothValues
  split
  · norm_num
  · split <;> norm_num

theorem both_whole : Whole bothValues := by
  refine ⟨⟨2, ?_⟩, ⟨1, ?_⟩, ⟨1, ?_⟩, ⟨1, ?_⟩⟩
  · norm_num [bothValues]
  · have : "REVERSE_TIME" ∉ endconds.map (·.1) := by decide
    unfold bothValues
    rw [if_neg (by decide), if_neg this]; norm_num
  · have : "ENDCOND_MAX_POLOIDALORBS" ∉ endconds.map (·.1) := by decide
    unfold bothValues
    rw [if_neg (by decide), if_neg this]; norm_num
  · have : "ENDCOND_MAX_TOROIDALORBS" ∉ endconds.map (·.1) := by decide
    unfold bothValues
    rw [if_neg (by decide), if_neg this]; norm_num

/-- The code ends the simulation of a marker that has reached only one of the limits
although the options ask for both. -/
theorem both_limits_wrong : ∃ (o : Opt),
    readOptions (fun n => some [bothValues n]) = .ok o ∧
    bothValues "ENDCOND_MAXORBS" = 2 ∧
    let res := checkGc (view o) open_ (fun _ => 1) turning turning
    res.running = false ∧
      ¬ Ends bothValues (2 ≤ bothValues "ENDCOND_MAXORBS")
        (seen open_ (fun _ => 1) turning turning res.bounces) := by
  obtain ⟨o, ho⟩ := (C117.complete _ both_wellFormed).1.mpr (fun n _ => by simp)
  have e1 : bothValues "ENDCOND_MAXORBS" = 2 := by norm_num [bothValues]
  have hz : ∀ n, n ∈ endconds.map (·.1) → n ≠ "ENDCOND_MAXORBS" → bothValues n = 0 := by
    intro n hn h1
    have h2 : n ≠ "SIM_MODE" := by rintro rfl; revert hn; decide
    unfold bothValues
    rw [if_neg (by simp [h1, h2]), if_pos hn]
  have hone : ∀ n, n ∉ endconds.map (·.1) → n ≠ "SIM_MODE" → bothValues n = 1 := by
    intro n hn h1
    have h2 : n ≠ "ENDCOND_MAXORBS" := by rintro rfl; revert hn; decide
    unfold bothValues
    rw [if_neg (by simp [h1, h2]), if_neg hn]
  have z1 := hz "ENDCOND_SIMTIMELIM" (by decide) (by decide)
  have z2 := hz "ENDCOND_CPUTIMELIM" (by decide) (by decide)
  have z3 := hz "ENDCOND_RHOLIM" (by decide) (by decide)
  have z4 := hz "ENDCOND_ENERGYLIM" (by decide) (by decide)
  have z5 := hz "ENDCOND_WALLHIT" (by decide) (by decide)
  have z6 := hz "ENDCOND_IONIZED" (by decide) (by decide)
  have u1 := hone "ENDCOND_MAX_TOROIDALORBS" (by decide) (by decide)
  have u2 := hone "ENDCOND_MAX_POLOIDALORBS" (by decide) (by decide)
  have e2 : bothValues "SIM_MODE" = 2 := by norm_num [bothValues]
  have hb : (checkGc (view o) open_ (fun _ => 1) turning turning).bounces = 0 := by
    have := (C08.gc_rest (view o) open_ (fun _ => 1) turning turning rfl).2.2.2.2.2.2.2.2.2.2.1
    exact this (by norm_num [turning])
  refine ⟨o, ho, e1, ?_, ?_⟩
  · refine (gc_stops (fun n => some [bothValues n]) bothValues (fun _ _ => rfl) both_whole o ho open_
      rfl (fun _ => 1) turning turning rfl rfl rfl).mpr ?_
    refine Or.inr (Or.inr (Or.inr (Or.inr (Or.inr (Or.inl ⟨by rw [e1]; norm_num, Or.inl ⟨?_, Or.inl ?_⟩⟩)))))
    · rw [z6]; norm_num
    · rw [u1]
      show 1 * (2 * Real.pi) < |(100 : ℝ)|
      rw [abs_of_pos (by norm_num)]
      have := Real.pi_le_four
      linarith
  · rw [hb]
    simp only [Ends, z1, z2, z3, z4, z5, e1, e2, u1, u2, seen, turning]
    have := Real.pi_pos
    norm_num
    intro _
    positivity

/-- There are files to which the theorems above apply. -/
example : ∃ o, readOptions (fun n => some [bothValues n]) = .ok o ∧ Whole bothValues :=
  let ⟨o, h, _⟩ := both_limits_wrong
  ⟨o, h, both_whole⟩

end Ascot.C118
