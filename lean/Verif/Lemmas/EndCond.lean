import Verif.Spec.EndCond
import Mathlib.Tactic.Common
import Mathlib.Tactic.Tauto
import Mathlib.Data.Nat.Bitwise

set_option linter.unusedSectionVars false
set_option linter.unusedSimpArgs false

namespace Ascot.EndCond

variable {K : Type} [Field K] [LinearOrder K] [IsStrictOrderedRing K] [FloorRing K]

theorem flag_on (a k : Nat) : a &&& 2 ^ k ≠ 0 ↔ a.testBit k = true := by
  rw [Nat.and_two_pow]
  cases h : a.testBit k <;> simp

section flags
variable (a : Nat)
theorem on_tlim : a &&& tlim ≠ 0 ↔ a.testBit 0 = true := flag_on a 0
theorem on_emin : a &&& emin ≠ 0 ↔ a.testBit 1 = true := flag_on a 1
theorem on_therm : a &&& therm ≠ 0 ↔ a.testBit 2 = true := flag_on a 2
theorem on_wall : a &&& wall ≠ 0 ↔ a.testBit 3 = true := flag_on a 3
theorem on_rhomin : a &&& rhomin ≠ 0 ↔ a.testBit 4 = true := flag_on a 4
theorem on_rhomax : a &&& rhomax ≠ 0 ↔ a.testBit 5 = true := flag_on a 5
theorem on_polmax : a &&& polmax ≠ 0 ↔ a.testBit 6 = true := flag_on a 6
theorem on_tormax : a &&& tormax ≠ 0 ↔ a.testBit 7 = true := flag_on a 7
theorem on_cpumax : a &&& cpumax ≠ 0 ↔ a.testBit 8 = true := flag_on a 8
theorem on_hybrid : a &&& hybrid ≠ 0 ↔ a.testBit 9 = true := flag_on a 9
theorem on_neutr : a &&& neutr ≠ 0 ↔ a.testBit 10 = true := flag_on a 10
theorem on_ioniz : a &&& ioniz ≠ 0 ↔ a.testBit 11 = true := flag_on a 11
end flags

open Classical in
/-- Flag `k` is raised and the lane stopped exactly if `c`. -/
noncomputable def stopIf (c : Prop) (k : Nat) (p : Lane K) : Lane K :=
  if c then p.stop (2 ^ k) else p

section proj
variable (c : Prop) (k : Nat) (p : Lane K)
theorem stopIf_pos (h : c) : stopIf c k p = p.stop (2 ^ k) := by simp [stopIf, h]
theorem stopIf_neg (h : ¬ c) : stopIf c k p = p := by simp [stopIf, h]
@[simp] theorem stopIf_time : (stopIf c k p).time = p.time := by unfold stopIf; split <;> rfl
@[simp] theorem stopIf_mileage : (stopIf c k p).mileage = p.mileage := by unfold stopIf; split <;> rfl
@[simp] theorem stopIf_cputime : (stopIf c k p).cputime = p.cputime := by unfold stopIf; split <;> rfl
@[simp] theorem stopIf_r : (stopIf c k p).r = p.r := by unfold stopIf; split <;> rfl
@[simp] theorem stopIf_phi : (stopIf c k p).phi = p.phi := by unfold stopIf; split <;> rfl
@[simp] theorem stopIf_z : (stopIf c k p).z = p.z := by unfold stopIf; split <;> rfl
@[simp] theorem stopIf_rho : (stopIf c k p).rho = p.rho := by unfold stopIf; split <;> rfl
@[simp] theorem stopIf_theta : (stopIf c k p).theta = p.theta := by unfold stopIf; split <;> rfl
@[simp] theorem stopIf_bounces : (stopIf c k p).bounces = p.bounces := by unfold stopIf; split <;> rfl
@[simp] theorem stopIf_walltile : (stopIf c k p).walltile = p.walltile := by unfold stopIf; split <;> rfl
@[simp] theorem stopIf_err : (stopIf c k p).err = p.err := by unfold stopIf; split <;> rfl
@[simp] theorem stopIf_running : (stopIf c k p).running = true ↔ p.running = true ∧ ¬ c := by
  unfold stopIf; split <;> simp_all [Lane.stop]
@[simp] theorem stopIf_endcond (b : Nat) :
    (stopIf c k p).endcond.testBit b = true ↔ p.endcond.testBit b = true ∨ (b = k ∧ c) := by
  unfold stopIf; split
  · rename_i h
    simp only [Lane.stop, Nat.testBit_or, Nat.testBit_two_pow, Bool.or_eq_true, decide_eq_true_eq, h,
      and_true]
    constructor <;> (rintro (h1 | h1) <;> simp [h1])
  · rename_i h; simp [h]
end proj

theorem stop_stop (p : Lane K) (f : Nat) : (p.stop f).stop f = p.stop f := by
  simp [Lane.stop, Nat.or_assoc]

theorem stepTlim_eq (o : Opts K) (p : Lane K) :
    stepTlim o p = stopIf (o.on .tlim ∧ TimeOver o p.time p.mileage) 0 p := by
  have hon : o.on .tlim ↔ o.active &&& tlim ≠ 0 := (on_tlim _).symm
  have hs : ∀ q : Lane K, q.stop tlim = q.stop (2 ^ 0) := fun _ => rfl
  unfold stepTlim
  by_cases h0 : o.active &&& tlim ≠ 0
  · rw [if_pos h0]
    by_cases h1 : o.reverseTime = false ∧ p.time > o.limSimtime
    · have hr : o.reverseTime ≠ true := by simp [h1.1]
      have : TimeOver o p.time p.mileage := .inl h1
      rw [stopIf_pos _ _ _ ⟨hon.2 h0, this⟩]
      rw [if_pos h1]
      have h2 : ¬ (o.reverseTime = true ∧ (p.stop tlim).time < o.limSimtime) := fun h => hr h.1
      simp only [if_neg h2]
      split
      · rw [stop_stop]; rfl
      · rfl
    · by_cases h2 : o.reverseTime = true ∧ p.time < o.limSimtime
      · have : TimeOver o p.time p.mileage := .inr (.inl h2)
        rw [stopIf_pos _ _ _ ⟨hon.2 h0, this⟩]
        simp only [if_neg h1, if_pos h2]
        split
        · rw [stop_stop]; rfl
        · rfl
      · simp only [if_neg h1, if_neg h2]
        by_cases h3 : p.mileage > o.maxMileage
        · rw [if_pos h3, stopIf_pos _ _ _ ⟨hon.2 h0, .inr (.inr h3)⟩]; rfl
        · rw [if_neg h3, stopIf_neg]
          rintro ⟨_, hc | hc | hc⟩
          · exact h1 hc
          · exact h2 hc
          · exact h3 hc
  · rw [if_neg h0, stopIf_neg]
    rintro ⟨hc, _⟩; exact h0 (hon.1 hc)

/-- The lane with the tile number stored. -/
def tileLane (p : Lane K) (t : Nat) : Lane K := { p with walltile := t }

theorem stepWall_eq (o : Opts K) (e : Env K) (i p : Lane K) :
    stepWall o e i p =
      let h := e.wallHit i.r i.phi i.z p.r p.phi p.z
      stopIf (o.on .wall ∧ 0 < h.1) 3
        (if o.active &&& wall ≠ 0 ∧ 0 < h.1 then tileLane p h.1 else p) := by
  have hon : o.on .wall ↔ o.active &&& wall ≠ 0 := (on_wall _).symm
  unfold stepWall
  by_cases h0 : o.active &&& wall ≠ 0
  · by_cases h1 : 0 < (e.wallHit i.r i.phi i.z p.r p.phi p.z).1
    · simp only [if_pos h0, gt_iff_lt, if_pos h1, stopIf, hon, h0, h1, and_self, ne_eq,
        not_false_eq_true, if_true]
      rfl
    · simp only [if_pos h0, gt_iff_lt, if_neg h1, stopIf, h1, and_false, if_false]
  · simp only [if_neg h0, stopIf, hon, h0, false_and, if_false]

/-- The lane moved to the hit point. -/
def hitLane (i p : Lane K) (h : Nat × K) : Lane K :=
  { p with
    time := i.time + h.2 * (p.time - i.time)
    r := i.r + h.2 * (p.r - i.r)
    phi := i.phi + h.2 * (p.phi - i.phi)
    z := i.z + h.2 * (p.z - i.z)
    walltile := h.1 }

theorem stepWallFo_eq (o : Opts K) (e : Env K) (i p : Lane K) :
    stepWallFo o e i p =
      let h := e.wallHit i.r i.phi i.z p.r p.phi p.z
      stopIf (o.on .wall ∧ 0 < h.1) 3
        (if o.active &&& wall ≠ 0 ∧ 0 < h.1 then hitLane i p h else p) := by
  have hon : o.on .wall ↔ o.active &&& wall ≠ 0 := (on_wall _).symm
  unfold stepWallFo
  by_cases h0 : o.active &&& wall ≠ 0
  · by_cases h1 : 0 < (e.wallHit i.r i.phi i.z p.r p.phi p.z).1
    · simp only [if_pos h0, gt_iff_lt, if_pos h1, stopIf, hon, h0, h1, and_self, ne_eq,
        not_false_eq_true, if_true]
      rfl
    · simp only [if_pos h0, gt_iff_lt, if_neg h1, stopIf, h1, and_false, if_false]
  · simp only [if_neg h0, stopIf, hon, h0, false_and, if_false]

/-- The temperature at the marker's position could not be evaluated although it was
needed. -/
def TempFails (o : Opts K) (e : Env K) (p : Lane K) : Prop :=
  (o.on .emin ∨ o.on .therm) ∧ (e.temp p.rho p.r p.phi p.z p.time).1 ≠ 0

open Classical in
/-- The error is recorded and the lane stopped. -/
noncomputable def fail (c : Prop) (err : Nat) (p : Lane K) : Lane K :=
  if c then { p with err := err, running := false } else p

theorem fail_stopIf (c c' : Prop) (k n : Nat) (p : Lane K) :
    fail c n (stopIf c' k p) = stopIf c' k (fail c n p) := by
  unfold fail stopIf
  split_ifs <;> rfl

theorem hitLane_stopIf (c : Prop) (k : Nat) (i p : Lane K) (h : Nat × K) :
    hitLane i (stopIf c k p) h = stopIf c k (hitLane i p h) := by
  unfold stopIf; split <;> rfl

theorem tile_stopIf (c : Prop) (k : Nat) (p : Lane K) (t : Nat) :
    tileLane (stopIf c k p) t = stopIf c k (tileLane p t) := by
  unfold stopIf; split <;> rfl

theorem stepEnergy_eq (o : Opts K) (e : Env K) (ekin : K) (p : Lane K) :
    let t := e.temp p.rho p.r p.phi p.z p.time
    stepEnergy o e ekin p =
      stopIf (o.on .therm ∧ ekin < o.minThermal * (if t.1 ≠ 0 then 0 else t.2)) 2
        (stopIf (o.on .emin ∧ ekin < o.minEkin) 1 (fail (TempFails o e p) t.1 p)) := by
  intro t
  have h1 : o.on .emin ↔ o.active &&& emin ≠ 0 := (on_emin _).symm
  have h2 : o.on .therm ↔ o.active &&& therm ≠ 0 := (on_therm _).symm
  have hT : TempFails o e p ↔ (o.active &&& emin ≠ 0 ∨ o.active &&& therm ≠ 0) ∧ t.1 ≠ 0 := by
    unfold TempFails; rw [h1, h2]
  unfold stepEnergy
  dsimp only
  change (if o.active &&& emin ≠ 0 ∨ o.active &&& therm ≠ 0 then _ else p) = _
  by_cases hon : o.active &&& emin ≠ 0 ∨ o.active &&& therm ≠ 0
  · rw [if_pos hon]
    have hf : (if t.1 ≠ 0 then { p with err := t.1, running := false } else p) =
        fail (TempFails o e p) t.1 p := by
      unfold fail
      by_cases ht : t.1 ≠ 0
      · rw [if_pos ht, if_pos (hT.2 ⟨hon, ht⟩)]
      · rw [if_neg ht, if_neg (fun h => ht (hT.1 h).2)]
    rw [hf]
    set T := (if t.1 ≠ 0 then 0 else t.2) with hTdef
    change (if o.active &&& therm ≠ 0 ∧ ekin < o.minThermal * T then
      Lane.stop (if o.active &&& emin ≠ 0 ∧ ekin < o.minEkin then _ else _) therm else
      (if o.active &&& emin ≠ 0 ∧ ekin < o.minEkin then _ else _)) = _
    by_cases hA : o.active &&& emin ≠ 0 ∧ ekin < o.minEkin <;>
      by_cases hB : o.active &&& therm ≠ 0 ∧ ekin < o.minThermal * T
    · rw [if_pos hA, if_pos hB, stopIf_pos _ _ _ ⟨h2.2 hB.1, hB.2⟩, stopIf_pos _ _ _ ⟨h1.2 hA.1, hA.2⟩]
      rfl
    · rw [if_pos hA, if_neg hB, stopIf_neg (_ ∧ _) 2 _ (fun h => hB ⟨h2.1 h.1, h.2⟩),
        stopIf_pos _ _ _ ⟨h1.2 hA.1, hA.2⟩]
      rfl
    · rw [if_neg hA, if_pos hB, stopIf_pos _ _ _ ⟨h2.2 hB.1, hB.2⟩,
        stopIf_neg _ _ _ (fun h => hA ⟨h1.1 h.1, h.2⟩)]
      rfl
    · rw [if_neg hA, if_neg hB, stopIf_neg _ _ _ (fun h => hB ⟨h2.1 h.1, h.2⟩),
        stopIf_neg _ _ _ (fun h => hA ⟨h1.1 h.1, h.2⟩)]
  · rw [if_neg hon]
    rw [stopIf_neg _ _ _ (fun h => hon (.inr (h2.1 h.1))),
      stopIf_neg _ _ _ (fun h => hon (.inl (h1.1 h.1)))]
    unfold fail
    rw [if_neg (fun h => hon (hT.1 h).1)]

theorem stepRho_eq (o : Opts K) (p : Lane K) :
    stepRho o p = stopIf (o.on .rhomin ∧ p.rho < o.minRho) 4
      (stopIf (o.on .rhomax ∧ o.maxRho < p.rho) 5 p) := by
  have h1 : o.on .rhomin ↔ o.active &&& rhomin ≠ 0 := (on_rhomin _).symm
  have h2 : o.on .rhomax ↔ o.active &&& rhomax ≠ 0 := (on_rhomax _).symm
  unfold stepRho stopIf
  simp only [h1, h2, ne_eq, gt_iff_lt]
  by_cases a : o.active &&& rhomin = 0 <;> by_cases b : o.active &&& rhomax = 0 <;>
    simp only [a, b, not_true_eq_false, not_false_eq_true, if_false, if_true, false_and, true_and] <;>
    split_ifs <;> (first | rfl | (rename_i h h'; exact absurd h h') | (rename_i h h'; exact absurd h' h) | skip) <;>
    simp_all [Lane.stop]

theorem stepCpu_eq (o : Opts K) (p : Lane K) :
    stepCpu o p = stopIf (o.on .cpumax ∧ o.maxCputime < p.cputime) 8 p := by
  have h1 : o.on .cpumax ↔ o.active &&& cpumax ≠ 0 := (on_cpumax _).symm
  unfold stepCpu stopIf
  simp only [h1, ne_eq, gt_iff_lt]
  by_cases a : o.active &&& cpumax = 0 <;>
    simp only [a, not_true_eq_false, not_false_eq_true, if_false, if_true, false_and, true_and] <;> rfl

theorem stepCharge_eq (o : Opts K) (qi qf : K) (p : Lane K) :
    stepCharge o qi qf p = stopIf (o.on .ioniz ∧ qi = 0 ∧ qf ≠ 0) 11
      (stopIf (o.on .neutr ∧ qi ≠ 0 ∧ qf = 0) 10 p) := by
  have h1 : o.on .ioniz ↔ o.active &&& ioniz ≠ 0 := (on_ioniz _).symm
  have h2 : o.on .neutr ↔ o.active &&& neutr ≠ 0 := (on_neutr _).symm
  unfold stepCharge stopIf
  simp only [h1, h2, ne_eq]
  by_cases a : o.active &&& ioniz = 0 <;> by_cases b : o.active &&& neutr = 0 <;>
    simp only [a, b, not_true_eq_false, not_false_eq_true, if_false, if_true, false_and, true_and] <;>
    split_ifs <;> rfl

theorem stepHybrid_eq (o : Opts K) (p : Lane K) :
    stepHybrid o p = stopIf (o.simMode = 3 ∧ o.maxRho < p.rho) 9 p := by
  unfold stepHybrid stopIf
  by_cases a : o.simMode = 3 <;> simp only [a, if_false, if_true, false_and, true_and] <;> rfl

theorem stepErr_eq (p : Lane K) (h : p.err = 0) : stepErr p = p := by simp [stepErr, h]

open Classical in
theorem stepOrb_eq (o : Opts K) (e : Env K) (u : Bool) (p : Lane K) :
    stepOrb o e u p =
      stopIf (PolMet o (o.maxTororb < |p.phi|) (o.maxPolorb < |p.theta| ∨
          (u = true ∧ cInt (o.maxPolorb / e.twoPi) ≤ p.bounces - 1))) 6
        (stopIf (TorMet o (o.maxTororb < |p.phi|) (o.maxPolorb < |p.theta| ∨
          (u = true ∧ cInt (o.maxPolorb / e.twoPi) ≤ p.bounces - 1))) 7 p) := by
  have h1 : o.on .tormax ↔ o.active &&& tormax ≠ 0 := (on_tormax _).symm
  have h2 : o.on .polmax ↔ o.active &&& polmax ≠ 0 := (on_polmax _).symm
  have e1 : tormax &&& tormax ≠ 0 := by decide
  have e2 : tormax &&& polmax = 0 := by decide
  have e3 : polmax &&& tormax = 0 := by decide
  have e4 : (tormax ||| polmax) &&& tormax ≠ 0 := by decide
  have e5 : (tormax ||| polmax) &&& polmax ≠ 0 := by decide
  have e6 : tormax ≠ 0 := by decide
  have e7 : polmax ≠ 0 := by decide
  have e8 : (tormax ||| polmax) ≠ 0 := by decide
  have e9 : polmax &&& polmax ≠ 0 := by decide
  have s1 : ∀ q : Lane K, q.stop tormax = q.stop (2 ^ 7) := fun _ => rfl
  have s2 : ∀ q : Lane K, q.stop polmax = q.stop (2 ^ 6) := fun _ => rfl
  have s3 : ∀ q : Lane K, q.stop (tormax ||| polmax) = (q.stop (2 ^ 7)).stop (2 ^ 6) := by
    intro q; simp only [Lane.stop, Nat.or_assoc]; rfl
  generalize hP : (o.maxPolorb < |p.theta| ∨
          (u = true ∧ cInt (o.maxPolorb / e.twoPi) ≤ p.bounces - 1)) = P
  have hm : maxorb o e u p =
      (if o.on .tormax ∧ o.maxTororb < |p.phi| then tormax else 0) |||
      (if o.on .polmax ∧ P then polmax else 0) := by
    subst hP
    unfold maxorb
    simp only [h1, h2, gt_iff_lt, ge_iff_le]
    by_cases a : o.active &&& tormax = 0 <;> by_cases b : o.active &&& polmax = 0 <;>
      by_cases c : o.maxPolorb < |p.theta| <;>
      by_cases d : (u = true ∧ cInt (o.maxPolorb / e.twoPi) ≤ p.bounces - 1) <;>
      simp [a, b, c, d]
  unfold stepOrb
  simp only [hm]
  by_cases a : o.on .tormax ∧ o.maxTororb < |p.phi| <;> by_cases b : o.on .polmax ∧ P <;>
    cases ht : o.torAndPol
  · rw [stopIf_pos (TorMet _ _ _) _ _ ⟨a.1, a.2, by simp [ht]⟩,
      stopIf_pos _ _ _ ⟨b.1, b.2, by simp [ht]⟩]
    simp [a, b, e4, e5, e8, s3]
  · rw [stopIf_pos (TorMet _ _ _) _ _ ⟨a.1, a.2, fun _ => b⟩,
      stopIf_pos _ _ _ ⟨b.1, b.2, fun _ => a⟩]
    simp [a, b, e4, e5, e8, s3]
  · rw [stopIf_pos (TorMet _ _ _) _ _ ⟨a.1, a.2, by simp [ht]⟩,
      stopIf_neg _ _ _ (fun h => b ⟨h.1, h.2.1⟩)]
    simp [a, b, e6, s1]
  · rw [stopIf_neg (TorMet _ _ _) _ _ (fun h => b (h.2.2 ht)),
      stopIf_neg _ _ _ (fun h => b ⟨h.1, h.2.1⟩)]
    simp [a, b, e2]
  · rw [stopIf_neg (TorMet _ _ _) _ _ (fun h => a ⟨h.1, h.2.1⟩),
      stopIf_pos _ _ _ ⟨b.1, b.2, by simp [ht]⟩]
    simp [a, b, e7, s2]
  · rw [stopIf_neg (TorMet _ _ _) _ _ (fun h => a ⟨h.1, h.2.1⟩),
      stopIf_neg _ _ _ (fun h => a (h.2.2 ht))]
    simp [a, b, e3]
  · rw [stopIf_neg (TorMet _ _ _) _ _ (fun h => a ⟨h.1, h.2.1⟩),
      stopIf_neg _ _ _ (fun h => b ⟨h.1, h.2.1⟩)]
    simp [a, b]
  · rw [stopIf_neg (TorMet _ _ _) _ _ (fun h => a ⟨h.1, h.2.1⟩),
      stopIf_neg _ _ _ (fun h => b ⟨h.1, h.2.1⟩)]
    simp [a, b]

/-- All conditions in turn. -/
noncomputable def chain (o : Opts K) (x : Facts K) (p : Lane K) : Lane K :=
  stopIf (Met o x .ioniz) 11 <| stopIf (Met o x .neutr) 10 <| stopIf (Met o x .hybrid) 9 <|
  stopIf (Met o x .cpumax) 8 <| stopIf (Met o x .polmax) 6 <| stopIf (Met o x .tormax) 7 <|
  stopIf (Met o x .rhomin) 4 <| stopIf (Met o x .rhomax) 5 <| stopIf (Met o x .therm) 2 <|
  stopIf (Met o x .emin) 1 <| stopIf (Met o x .wall) 3 <| stopIf (Met o x .tlim) 0 p

section chain
variable (o : Opts K) (x : Facts K) (p : Lane K)
@[simp] theorem chain_time : (chain o x p).time = p.time := by simp [chain]
@[simp] theorem chain_mileage : (chain o x p).mileage = p.mileage := by simp [chain]
@[simp] theorem chain_cputime : (chain o x p).cputime = p.cputime := by simp [chain]
@[simp] theorem chain_r : (chain o x p).r = p.r := by simp [chain]
@[simp] theorem chain_phi : (chain o x p).phi = p.phi := by simp [chain]
@[simp] theorem chain_z : (chain o x p).z = p.z := by simp [chain]
@[simp] theorem chain_rho : (chain o x p).rho = p.rho := by simp [chain]
@[simp] theorem chain_theta : (chain o x p).theta = p.theta := by simp [chain]
@[simp] theorem chain_bounces : (chain o x p).bounces = p.bounces := by simp [chain]
@[simp] theorem chain_walltile : (chain o x p).walltile = p.walltile := by simp [chain]
@[simp] theorem chain_err : (chain o x p).err = p.err := by simp [chain]

theorem chain_running : (chain o x p).running = true ↔ p.running = true ∧ ∀ c, ¬ Met o x c := by
  have hc : (∀ c, ¬ Met o x c) ↔
      (¬ Met o x .tlim) ∧ (¬ Met o x .emin) ∧ (¬ Met o x .therm) ∧ (¬ Met o x .wall) ∧
      (¬ Met o x .rhomin) ∧ (¬ Met o x .rhomax) ∧ (¬ Met o x .polmax) ∧ (¬ Met o x .tormax) ∧
      (¬ Met o x .cpumax) ∧ (¬ Met o x .hybrid) ∧ (¬ Met o x .neutr) ∧ (¬ Met o x .ioniz) := by
    constructor
    · intro h; exact ⟨h _, h _, h _, h _, h _, h _, h _, h _, h _, h _, h _, h _⟩
    · rintro ⟨h1, h2, h3, h4, h5, h6, h7, h8, h9, h10, h11, h12⟩ c
      cases c <;> assumption
  rw [hc]
  simp only [chain, stopIf_running, and_assoc]
  constructor
  · rintro ⟨h0, h1, h2, h3, h4, h5, h6, h7, h8, h9, h10, h11, h12⟩
    exact ⟨h0, h1, h3, h4, h2, h6, h5, h8, h7, h9, h10, h11, h12⟩
  · rintro ⟨h0, h1, h3, h4, h2, h6, h5, h8, h7, h9, h10, h11, h12⟩
    exact ⟨h0, h1, h2, h3, h4, h5, h6, h7, h8, h9, h10, h11, h12⟩

theorem chain_bits (b : Nat) : (chain o x p).endcond.testBit b = true ↔
    p.endcond.testBit b = true ∨ ∃ c : Cond, c.bit = b ∧ Met o x c := by
  have key : (∃ c : Cond, c.bit = b ∧ Met o x c) ↔
      (b = 0 ∧ Met o x .tlim) ∨ (b = 1 ∧ Met o x .emin) ∨ (b = 2 ∧ Met o x .therm) ∨
      (b = 3 ∧ Met o x .wall) ∨ (b = 4 ∧ Met o x .rhomin) ∨ (b = 5 ∧ Met o x .rhomax) ∨
      (b = 6 ∧ Met o x .polmax) ∨ (b = 7 ∧ Met o x .tormax) ∨ (b = 8 ∧ Met o x .cpumax) ∨
      (b = 9 ∧ Met o x .hybrid) ∨ (b = 10 ∧ Met o x .neutr) ∨ (b = 11 ∧ Met o x .ioniz) := by
    constructor
    · rintro ⟨c, rfl, h2⟩; cases c <;> simp [Cond.bit, h2]
    · rintro (⟨rfl, h⟩ | ⟨rfl, h⟩ | ⟨rfl, h⟩ | ⟨rfl, h⟩ | ⟨rfl, h⟩ | ⟨rfl, h⟩ | ⟨rfl, h⟩ | ⟨rfl, h⟩ |
        ⟨rfl, h⟩ | ⟨rfl, h⟩ | ⟨rfl, h⟩ | ⟨rfl, h⟩)
      exacts [⟨.tlim, rfl, h⟩, ⟨.emin, rfl, h⟩, ⟨.therm, rfl, h⟩, ⟨.wall, rfl, h⟩, ⟨.rhomin, rfl, h⟩,
        ⟨.rhomax, rfl, h⟩, ⟨.polmax, rfl, h⟩, ⟨.tormax, rfl, h⟩, ⟨.cpumax, rfl, h⟩,
        ⟨.hybrid, rfl, h⟩, ⟨.neutr, rfl, h⟩, ⟨.ioniz, rfl, h⟩]
  rw [key]
  simp only [chain, stopIf_endcond, or_assoc]
  constructor <;> (rintro (h | h | h | h | h | h | h | h | h | h | h | h | h) <;> simp only [h, true_or, or_true, and_self])

theorem Cond.bit_inj {c d : Cond} (h : c.bit = d.bit) : c = d := by
  cases c <;> cases d <;> simp [Cond.bit] at h ⊢

theorem chain_endcond (c : Cond) : (chain o x p).endcond.testBit c.bit = true ↔
    p.endcond.testBit c.bit = true ∨ Met o x c := by
  rw [chain_bits]
  constructor
  · rintro (h | ⟨c', h1, h2⟩)
    · exact .inl h
    · rw [← Cond.bit_inj h1]; exact .inr h2
  · rintro (h | h)
    · exact .inl h
    · exact .inr ⟨c, rfl, h⟩

theorem chain_running_false (h : p.running = true) :
    (chain o x p).running = false ↔ ∃ c, Met o x c := by
  have hr := chain_running o x p
  constructor
  · intro hf
    by_contra hc
    have := hr.2 ⟨h, fun c hm => hc ⟨c, hm⟩⟩
    rw [hf] at this; cases this
  · rintro ⟨c, hm⟩
    by_contra hc
    exact (hr.1 (by simpa using hc)).2 c hm
end chain

/-- Normal form of the check, from which the theorems below are read off. -/
theorem fo_normal (o : Opts K) (e : Env K) (ekin : Fo K → K) (i f : Fo K)
    (hrun : f.running = true) :
    ∃ (m0 m : Lane K) (x : Facts K),
      m0 = stepBounce (decide (FoTurned i f)) f.toLane ∧
      m = (if o.active &&& wall ≠ 0 ∧ 0 < (e.wallHit i.r i.phi i.z f.r f.phi f.z).1 then
        hitLane i.toLane m0 (e.wallHit i.r i.phi i.z f.r f.phi f.z) else m0) ∧
      checkFo o e ekin i f = stepErr (chain o x (fail (TempFails o e m)
        (e.temp m.rho m.r m.phi m.z m.time).1 m)) ∧
      x = { foFacts o e ekin i f m with
        energy := some (ekin f, if (e.temp m.rho m.r m.phi m.z m.time).1 ≠ 0 then 0
          else (e.temp m.rho m.r m.phi m.z m.time).2) } ∧
      m.rho = f.rho ∧ m.theta = f.theta ∧ m.mileage = f.mileage ∧ m.cputime = f.cputime ∧
      m.err = f.err ∧ m.endcond = f.endcond ∧ m.running = true := by
  set h := e.wallHit i.r i.phi i.z f.r f.phi f.z with hh
  set m0 := stepBounce (decide (FoTurned i f)) f.toLane with hm0
  have fb : m0.time = f.time ∧ m0.mileage = f.mileage ∧ m0.cputime = f.cputime ∧ m0.r = f.r ∧
      m0.phi = f.phi ∧ m0.z = f.z ∧ m0.rho = f.rho ∧ m0.theta = f.theta ∧ m0.err = f.err ∧
      m0.endcond = f.endcond ∧ m0.running = true := by
    rw [hm0]; unfold stepBounce; split <;> simp [hrun]
  obtain ⟨f1, f2, f3, f4, f5, f6, f7, f8, f9, f10, f11⟩ := fb
  set m := (if o.active &&& wall ≠ 0 ∧ 0 < h.1 then hitLane i.toLane m0 h else m0) with hm
  have fm : m.rho = f.rho ∧ m.theta = f.theta ∧ m.mileage = f.mileage ∧ m.cputime = f.cputime ∧
      m.err = f.err ∧ m.endcond = f.endcond ∧ m.running = true := by
    rw [hm]; split <;> simp [hitLane, f2, f3, f7, f8, f9, f10, f11]
  refine ⟨m0, m, _, rfl, rfl, ?_, rfl, fm⟩
  obtain ⟨g1, g2, g3, g4, g5, g6, g7⟩ := fm
  unfold checkFo
  rw [if_pos hrun]
  dsimp only
  congr 1
  change stepCharge o i.charge f.charge (stepCpu o (stepOrb o e true (stepRho o
    (stepEnergy o e (ekin f) (stepWallFo o e i.toLane (stepTlim o m0)))))) = _
  have hw : stepWallFo o e i.toLane (stepTlim o m0) =
      stopIf (o.on .wall ∧ 0 < h.1) 3 (stopIf (o.on .tlim ∧ TimeOver o f.time f.mileage) 0 m) := by
    rw [stepWallFo_eq, stepTlim_eq]
    simp only [stopIf_r, stopIf_phi, stopIf_z, f4, f5, f6, f1, f2, ← hh, hitLane_stopIf]
    rw [hm]
    split <;> rfl
  rw [hw, stepEnergy_eq]
  have hTF : TempFails o e (stopIf (o.on .wall ∧ 0 < h.1) 3
      (stopIf (o.on .tlim ∧ TimeOver o f.time f.mileage) 0 m)) = TempFails o e m := by
    unfold TempFails; simp
  rw [hTF]
  simp only [stepCharge_eq, stepCpu_eq, stepOrb_eq, stepRho_eq, fail_stopIf,
    stopIf_rho, stopIf_phi, stopIf_theta, stopIf_bounces, stopIf_cputime, stopIf_r, stopIf_z,
    stopIf_time]
  have ff : ∀ c n, (fail c n m).rho = f.rho ∧ (fail c n m).phi = m.phi ∧
      (fail c n m).theta = f.theta ∧ (fail c n m).bounces = m.bounces ∧
      (fail c n m).cputime = f.cputime := by
    intro c n; unfold fail; split <;> simp [g1, g2, g4]
  simp only [ff, chain, Met, foFacts, Option.some.injEq, exists_eq_left', cInt, true_and, false_and]
  rw [stopIf_neg False 9 _ id]

theorem gc_normal (o : Opts K) (e : Env K) (ekin : Gc K → K) (i f : Gc K)
    (hrun : f.running = true) :
    ∃ (m0 m : Lane K) (x : Facts K),
      m0 = stepBounce (decide (i.ppar * f.ppar < 0)) f.toLane ∧
      m = (if o.active &&& wall ≠ 0 ∧ 0 < (e.wallHit i.r i.phi i.z f.r f.phi f.z).1 then
        tileLane m0 (e.wallHit i.r i.phi i.z f.r f.phi f.z).1 else m0) ∧
      checkGc o e ekin i f = stepErr (chain o x (fail (TempFails o e m)
        (e.temp f.rho f.r f.phi f.z f.time).1 m)) ∧
      x = { gcFacts o e ekin i f m with
        energy := some (ekin f, if (e.temp f.rho f.r f.phi f.z f.time).1 ≠ 0 then 0
          else (e.temp f.rho f.r f.phi f.z f.time).2) } ∧
      m.rho = f.rho ∧ m.theta = f.theta ∧ m.mileage = f.mileage ∧ m.cputime = f.cputime ∧
      m.err = f.err ∧ m.endcond = f.endcond ∧ m.running = true ∧ m.time = f.time ∧ m.r = f.r ∧
      m.phi = f.phi ∧ m.z = f.z := by
  set h := e.wallHit i.r i.phi i.z f.r f.phi f.z with hh
  set m0 := stepBounce (decide (i.ppar * f.ppar < 0)) f.toLane with hm0
  have fb : m0.time = f.time ∧ m0.mileage = f.mileage ∧ m0.cputime = f.cputime ∧ m0.r = f.r ∧
      m0.phi = f.phi ∧ m0.z = f.z ∧ m0.rho = f.rho ∧ m0.theta = f.theta ∧ m0.err = f.err ∧
      m0.endcond = f.endcond ∧ m0.running = true := by
    rw [hm0]; unfold stepBounce; split <;> simp [hrun]
  obtain ⟨f1, f2, f3, f4, f5, f6, f7, f8, f9, f10, f11⟩ := fb
  set m := (if o.active &&& wall ≠ 0 ∧ 0 < h.1 then tileLane m0 h.1 else m0) with hm
  have fm : m.rho = f.rho ∧ m.theta = f.theta ∧ m.mileage = f.mileage ∧ m.cputime = f.cputime ∧
      m.err = f.err ∧ m.endcond = f.endcond ∧ m.running = true ∧ m.time = f.time ∧ m.r = f.r ∧
      m.phi = f.phi ∧ m.z = f.z := by
    rw [hm]; split <;> simp [tileLane, f1, f2, f3, f4, f5, f6, f7, f8, f9, f10, f11]
  refine ⟨m0, m, _, rfl, rfl, ?_, rfl, fm⟩
  obtain ⟨g1, g2, g3, g4, g5, g6, g7, g8, g9, g10, g11⟩ := fm
  unfold checkGc
  rw [if_pos hrun]
  congr 1
  change stepHybrid o (stepCpu o (stepOrb o e true (stepRho o
    (stepEnergy o e (ekin f) (stepWall o e i.toLane (stepTlim o m0)))))) = _
  have hw : stepWall o e i.toLane (stepTlim o m0) =
      stopIf (o.on .wall ∧ 0 < h.1) 3 (stopIf (o.on .tlim ∧ TimeOver o f.time f.mileage) 0 m) := by
    rw [stepWall_eq, stepTlim_eq]
    simp only [stopIf_r, stopIf_phi, stopIf_z, f4, f5, f6, f1, f2, ← hh, tile_stopIf]
    rw [hm]
    split <;> rfl
  rw [hw, stepEnergy_eq]
  have hTF : TempFails o e (stopIf (o.on .wall ∧ 0 < h.1) 3
      (stopIf (o.on .tlim ∧ TimeOver o f.time f.mileage) 0 m)) = TempFails o e m := by
    unfold TempFails; simp
  rw [hTF]
  simp only [stepHybrid_eq, stepCpu_eq, stepOrb_eq, stepRho_eq, fail_stopIf,
    stopIf_rho, stopIf_phi, stopIf_theta, stopIf_bounces, stopIf_cputime, stopIf_r, stopIf_z,
    stopIf_time]
  have ff : ∀ c n, (fail c n m).rho = f.rho ∧ (fail c n m).phi = f.phi ∧
      (fail c n m).theta = f.theta ∧ (fail c n m).bounces = m.bounces ∧
      (fail c n m).cputime = f.cputime := by
    intro c n; unfold fail; split <;> simp [g1, g2, g4, g10]
  simp only [ff, chain, Met, gcFacts, Option.some.injEq, exists_eq_left', cInt, true_and,
    reduceCtorEq, false_and, exists_false, and_false, g1, g8, g9, g10, g11]
  rw [stopIf_neg False 11 _ id, stopIf_neg False 10 _ id]

theorem ml_normal (o : Opts K) (e : Env K) (i f : Lane K) (hrun : f.running = true) :
    checkMl o e i f = chain o (mlFacts e i f)
      (if o.active &&& wall ≠ 0 ∧ 0 < (e.wallHit i.r i.phi i.z f.r f.phi f.z).1 then
        tileLane f (e.wallHit i.r i.phi i.z f.r f.phi f.z).1 else f) := by
  set h := e.wallHit i.r i.phi i.z f.r f.phi f.z with hh
  set m := (if o.active &&& wall ≠ 0 ∧ 0 < h.1 then tileLane f h.1 else f) with hm
  have fm : m.rho = f.rho ∧ m.theta = f.theta ∧ m.cputime = f.cputime ∧ m.phi = f.phi := by
    rw [hm]; split <;> simp [tileLane]
  obtain ⟨g1, g2, g3, g4⟩ := fm
  unfold checkMl
  rw [if_pos hrun]
  have hw : stepWall o e i (stepTlim o f) =
      stopIf (o.on .wall ∧ 0 < h.1) 3 (stopIf (o.on .tlim ∧ TimeOver o f.time f.mileage) 0 m) := by
    rw [stepWall_eq, stepTlim_eq]
    simp only [stopIf_r, stopIf_phi, stopIf_z, ← hh, tile_stopIf]
    rw [hm]
    split <;> rfl
  rw [hw]
  simp only [stepCpu_eq, stepOrb_eq, stepRho_eq, stopIf_rho, stopIf_phi, stopIf_theta,
    stopIf_cputime, chain, Met, mlFacts, reduceCtorEq, false_and, exists_false, and_false,
    Bool.false_eq_true, or_false, g1, g2, g3, g4, ← hh]
  rw [stopIf_neg False 11 _ id, stopIf_neg False 10 _ id, stopIf_neg False 9 _ id,
    stopIf_neg False 2 _ id, stopIf_neg False 1 _ id]

end Ascot.EndCond
