import Verif.Model.TimeLoop
import Verif.Props.C07_C12_EndCond
import Mathlib.Algebra.BigOperators.Group.List.Basic
import Mathlib.Tactic.Linarith
import Mathlib.Tactic.Ring
import Mathlib.Tactic.FieldSimp

/-!
# C13-C16: time steps of the main loops
-/
set_option linter.unusedSectionVars false
set_option linter.unusedSimpArgs false

namespace Ascot.C13
open Ascot.EndCond Ascot.TimeLoop

variable {K X : Type} [Field K] [LinearOrder K] [IsStrictOrderedRing K] [FloorRing K]

/-- The step exceeds a limit set by the user, and one of the two excesses is larger. -/
def OverLimit (maxDphi maxDrho : K) (phi0 phi rho0 rho : K) : Prop :=
  (1 < |phi0 - phi| / maxDphi ∨ 1 < |rho0 - rho| / maxDrho) ∧
    |phi0 - phi| / maxDphi ≠ |rho0 - rho| / maxDrho

/-- The pass is rejected: an operator has asked for it (`trial_rejected`), or a limit is
exceeded. -/
def Rejected (c : AdaCfg K) (s : AdaSt K X) (t : Trial K X) : Prop :=
  t.hnext < 0 ∨ (0 < t.hnext ∧ OverLimit c.maxDphi c.maxDrho s.p.phi t.p.phi s.p.rho t.p.rho)

/-- The shorter step to try next: the suggestion of the operator, or the step scaled by
the larger excess. -/
def retry (c : AdaCfg K) (s : AdaSt K X) (t : Trial K X) : K :=
  if t.hnext < 0 then -t.hnext
  else t.hin / max (|s.p.phi - t.p.phi| / c.maxDphi) (|s.p.rho - t.p.rho| / c.maxDrho)

theorem overLimit_cases {maxDphi maxDrho phi0 phi rho0 rho hin hn : K} (hpos : 0 < hn) (hin0 : 0 < hin)
    (h : OverLimit maxDphi maxDrho phi0 phi rho0 rho) :
    (if hn > 0 then
      if |phi0 - phi| / maxDphi > 1 ∧ |phi0 - phi| / maxDphi > |rho0 - rho| / maxDrho then
        -hin / (|phi0 - phi| / maxDphi)
      else if |rho0 - rho| / maxDrho > 1 ∧ |rho0 - rho| / maxDrho > |phi0 - phi| / maxDphi then
        -hin / (|rho0 - rho| / maxDrho)
      else hn else hn) = -(hin / max (|phi0 - phi| / maxDphi) (|rho0 - rho| / maxDrho)) ∧
    0 < hin / max (|phi0 - phi| / maxDphi) (|rho0 - rho| / maxDrho) ∧
    hin / max (|phi0 - phi| / maxDphi) (|rho0 - rho| / maxDrho) < hin := by
  unfold OverLimit at h
  generalize |phi0 - phi| / maxDphi = a at *
  generalize |rho0 - rho| / maxDrho = b at *
  obtain ⟨h1, h2⟩ := h
  rw [if_pos hpos]
  have hm : 1 < max a b := by rcases h1 with h | h <;> simp [h]
  refine ⟨?_, div_pos hin0 (by linarith), div_lt_self hin0 hm⟩
  rcases lt_or_gt_of_ne h2 with hlt | hgt
  · rw [max_eq_right hlt.le] at hm ⊢
    rw [if_neg (by rintro ⟨_, h⟩; exact absurd h (not_lt.2 hlt.le)), if_pos ⟨hm, hlt⟩, neg_div]
  · rw [max_eq_left hgt.le] at hm ⊢
    rw [if_pos ⟨hm, hgt⟩, neg_div]

theorem notOver_cases {maxDphi maxDrho phi0 phi rho0 rho hin hn : K}
    (h : ¬ OverLimit maxDphi maxDrho phi0 phi rho0 rho) :
    (if hn > 0 then
      if |phi0 - phi| / maxDphi > 1 ∧ |phi0 - phi| / maxDphi > |rho0 - rho| / maxDrho then
        -hin / (|phi0 - phi| / maxDphi)
      else if |rho0 - rho| / maxDrho > 1 ∧ |rho0 - rho| / maxDrho > |phi0 - phi| / maxDphi then
        -hin / (|rho0 - rho| / maxDrho)
      else hn else hn) = hn := by
  unfold OverLimit at h
  generalize |phi0 - phi| / maxDphi = a at *
  generalize |rho0 - rho| / maxDrho = b at *
  split_ifs with h1 h2 h3
  · exact absurd ⟨.inl h2.1, h2.2.ne'⟩ h
  · exact absurd ⟨.inr h3.1, h3.2.ne⟩ h
  · rfl
  · rfl

/-- After a rejected guiding-center step every field of the marker, including the bounce
counter, is as before the step; only the CPU time has advanced.  `err`, `endcond` and
`running` are what the end-condition check of the unchanged marker gives
(`gc_rejected_endcond`).  The step is retried with a shorter, positive step. -/
theorem gc_rejected (o : Opts K) (c : AdaCfg K) (ops : AdaOps K X) (s : AdaSt K X)
    (hrun : s.p.running = true) (hid : 0 < s.p.id) (hid' : (gcTrial o c ops s).p.id = s.p.id)
    (herr : s.p.err = 0) (hok : (gcTrial o c ops s).p.err = 0)
    (hpos : 0 < (gcTrial o c ops s).hin)
    (hshort : (gcTrial o c ops s).hnext < 0 → -(gcTrial o c ops s).hnext < (gcTrial o c ops s).hin)
    (hwall : (ops.env.wallHit s.p.r s.p.phi s.p.z s.p.r s.p.phi s.p.z).1 = 0)
    (hrej : Rejected c s (gcTrial o c ops s)) :
    let r := gcAda o c ops s
    r.p = { s.p with cputime := s.p.cputime + ops.dcpu, endcond := r.p.endcond,
                     running := r.p.running, err := r.p.err } ∧
    r.hin = retry c s (gcTrial o c ops s) ∧ 0 < r.hin ∧ r.hin < (gcTrial o c ops s).hin ∧
    r.acc = (gcTrial o c ops s).acc := by
  intro r
  have key : adaUpdate o c ops.dcpu s.p (gcTrial o c ops s).p (gcTrial o c ops s).hin
      (gcTrial o c ops s).hnext (gcTrial o c ops s).ho (gcTrial o c ops s).hc (gcTrial o c ops s).hr
      (gcTrial o c ops s).acc =
      { p := { s.p with cputime := s.p.cputime + ops.dcpu }, hin := retry c s (gcTrial o c ops s),
        acc := (gcTrial o c ops s).acc } ∧ 0 < retry c s (gcTrial o c ops s) ∧
      retry c s (gcTrial o c ops s) < (gcTrial o c ops s).hin := by
    generalize gcTrial o c ops s = t at *
    have hcopy : copyGc s.p t.p = s.p := by
      unfold copyGc; rw [hok, ← herr]
    unfold adaUpdate
    rw [if_pos ⟨by rw [hid']; exact hid, hok⟩]
    dsimp only
    rcases hrej with hneg | ⟨hp, hover⟩
    · have hr : retry c s t = -t.hnext := if_pos hneg
      have : ¬ t.hnext > 0 := by linarith
      simp only [if_neg this, if_pos hneg, hcopy, hrun, if_true, hr]
      exact ⟨trivial, by linarith, hshort hneg⟩
    · have hr : retry c s t =
          t.hin / max (|s.p.phi - t.p.phi| / c.maxDphi) (|s.p.rho - t.p.rho| / c.maxDrho) :=
        if_neg (by linarith)
      obtain ⟨h1, h2, h3⟩ := overLimit_cases hp hpos hover
      rw [h1, ← hr] at *
      have hn : -retry c s t < 0 := by rw [hr]; linarith
      simp only [if_pos hn, hcopy, hrun, if_true, neg_neg]
      rw [hr]
      exact ⟨trivial, h2, h3⟩
  obtain ⟨k1, k2, k3⟩ := key
  have hr : r = _ := rfl
  simp only [r, gcAda, k1]
  have hrec : recalc c.safety ops.axis (gcTrial o c ops s).acc
      { s.p with cputime := s.p.cputime + ops.dcpu } s.p = (gcTrial o c ops s).acc := by
    unfold recalc
    have : ¬ ((s.p.z - ops.axis.2) * (s.p.z - ops.axis.2) < 0) :=
      not_lt.2 (mul_self_nonneg _)
    simp [this]
  refine ⟨?_, trivial, k2, k3, ?_⟩
  · obtain ⟨-, h2, h3, h4, h5, h6, h7, h8, h9, h10, h11, -⟩ := C08.gc_rest o ops.env ops.ekin
      s.p.toGc { s.p.toGc with cputime := s.p.cputime + ops.dcpu } hrun
    have hb := h11 (not_lt.2 (mul_self_nonneg _))
    have hw := h2 (by rw [hwall]; simp)
    generalize checkGc o ops.env ops.ekin s.p.toGc
      { s.p.toGc with cputime := s.p.cputime + ops.dcpu } = l at *
    cases l
    simp only at h2 h3 h4 h5 h6 h7 h8 h9 h10 hb hw
    subst h3 h4 h5 h6 h7 h8 h9 h10 hb hw
    rfl
  · split
    · exact hrec
    · rfl

/-- End conditions of a marker whose step was rejected: if it met none before the step, it
can only have run out of CPU time. -/
theorem gc_rejected_endcond (o : Opts K) (c : AdaCfg K) (ops : AdaOps K X) (s : AdaSt K X)
    (hrun : s.p.running = true) (hid : 0 < s.p.id) (hid' : (gcTrial o c ops s).p.id = s.p.id)
    (herr : s.p.err = 0) (hok : (gcTrial o c ops s).p.err = 0) (hend : s.p.endcond = 0)
    (hpos : 0 < (gcTrial o c ops s).hin)
    (htemp : o.on .emin ∨ o.on .therm → (ops.env.temp s.p.rho s.p.r s.p.phi s.p.z s.p.time).1 = 0)
    (hrej : Rejected c s (gcTrial o c ops s))
    (hekin : ∀ d, ops.ekin { s.p.toGc with cputime := d } = ops.ekin s.p.toGc)
    (hnone : ∀ k : Cond, ¬ Met o (gcFacts o ops.env ops.ekin s.p.toGc s.p.toGc s.p.toLane) k) :
    let r := gcAda o c ops s
    r.p.err = 0 ∧
    (∀ k : Cond, r.p.endcond.testBit k.bit = true ↔
      k = .cpumax ∧ o.on .cpumax ∧ o.maxCputime < s.p.cputime + ops.dcpu) ∧
    (r.p.running = false ↔ o.on .cpumax ∧ o.maxCputime < s.p.cputime + ops.dcpu) := by
  intro r
  have key : (adaUpdate o c ops.dcpu s.p (gcTrial o c ops s).p (gcTrial o c ops s).hin
      (gcTrial o c ops s).hnext (gcTrial o c ops s).ho (gcTrial o c ops s).hc (gcTrial o c ops s).hr
      (gcTrial o c ops s).acc).p = { s.p with cputime := s.p.cputime + ops.dcpu } := by
    generalize gcTrial o c ops s = t at *
    have hcopy : copyGc s.p t.p = s.p := by
      unfold copyGc; rw [hok, ← herr]
    unfold adaUpdate
    rw [if_pos ⟨by rw [hid']; exact hid, hok⟩]
    dsimp only
    rcases hrej with hneg | ⟨hp, hover⟩
    · have : ¬ t.hnext > 0 := by linarith
      simp only [if_neg this, if_pos hneg, hcopy, hrun, if_true]
    · obtain ⟨h1, h2, h3⟩ := overLimit_cases hp hpos hover
      rw [h1]
      have hn : -(t.hin / max (|s.p.phi - t.p.phi| / c.maxDphi) (|s.p.rho - t.p.rho| / c.maxDrho)) < 0 := by
        linarith
      simp only [if_pos hn, hcopy, hrun, if_true]
  have h := C08.gc_endcond o ops.env ops.ekin s.p.toGc
    { s.p.toGc with cputime := s.p.cputime + ops.dcpu } hrun herr htemp
  have hb : (checkGc o ops.env ops.ekin s.p.toGc
      { s.p.toGc with cputime := s.p.cputime + ops.dcpu }).bounces = s.p.bounces := by
    obtain ⟨-, -, -, -, -, -, -, -, -, -, h11, -⟩ := C08.gc_rest o ops.env ops.ekin
      s.p.toGc { s.p.toGc with cputime := s.p.cputime + ops.dcpu } hrun
    exact h11 (not_lt.2 (mul_self_nonneg _))
  have hmet : ∀ k, Met o (gcFacts o ops.env ops.ekin s.p.toGc
      { s.p.toGc with cputime := s.p.cputime + ops.dcpu }
      (checkGc o ops.env ops.ekin s.p.toGc { s.p.toGc with cputime := s.p.cputime + ops.dcpu })) k ↔
      k = .cpumax ∧ o.on .cpumax ∧ o.maxCputime < s.p.cputime + ops.dcpu := by
    intro k
    have hn := hnone k
    cases k <;> simp only [Met, gcFacts, hb, hekin, reduceCtorEq, false_and, iff_false, true_and] at hn ⊢ <;>
      exact hn
  have hr : r.p.toLane = checkGc o ops.env ops.ekin s.p.toGc
      { s.p.toGc with cputime := s.p.cputime + ops.dcpu } := by
    simp only [r, gcAda, key]
  simp only [hmet] at h
  rw [← hr] at h
  refine ⟨h.2.2, ?_, ?_⟩
  · intro k; rw [h.1 k]; simp [hend]
  · rw [h.2.1]; simp

/-! When an operator asks for rejection.  Orbit following gets the step in the direction
of time, and its suggestion is in that direction; the others follow if the marker is
still running. -/

/-- Marker after orbit following. -/
def afterOrb (o : Opts K) (c : AdaCfg K) (ops : AdaOps K X) (s : AdaSt K X) : GcM K X :=
  if c.on.orbfol then (ops.orb s.p (along o.reverseTime s.hin)).1 else s.p

/-- The step length that the other operators get. -/
def stepGiven (o : Opts K) (c : AdaCfg K) (s : AdaSt K X) : K :=
  if c.on.orbfol then s.hin else along o.reverseTime s.hin

def OrbRejects (o : Opts K) (c : AdaCfg K) (ops : AdaOps K X) (s : AdaSt K X) : Prop :=
  c.on.orbfol = true ∧ (afterOrb o c ops s).running = true ∧
    along o.reverseTime (ops.orb s.p (along o.reverseTime s.hin)).2 < 0

/-- Marker after collisions. -/
def afterCol (o : Opts K) (c : AdaCfg K) (ops : AdaOps K X) (s : AdaSt K X) : GcM K X :=
  if c.on.clmbcol = true ∧ (afterOrb o c ops s).running = true then
    (ops.col (afterOrb o c ops s) (stepGiven o c s) s.acc.acc).1.1 else afterOrb o c ops s

def ColRejects (o : Opts K) (c : AdaCfg K) (ops : AdaOps K X) (s : AdaSt K X) : Prop :=
  c.on.clmbcol = true ∧ (afterOrb o c ops s).running = true ∧ (afterCol o c ops s).running = true ∧
    (ops.col (afterOrb o c ops s) (stepGiven o c s) s.acc.acc).1.2 < 0

def RfRejects (o : Opts K) (c : AdaCfg K) (ops : AdaOps K X) (s : AdaSt K X) : Prop :=
  c.on.icrh = true ∧ (afterCol o c ops s).running = true ∧
    (ops.rf (afterCol o c ops s) (stepGiven o c s)).1.running = true ∧
    (ops.rf (afterCol o c ops s) (stepGiven o c s)).2 < 0

theorem along_along (b : Bool) (h : K) : along b (along b h) = h := by cases b <;> simp [along]

/-- A pass is rejected before the limits are looked at exactly if an enabled operator asks
for it, and then the suggestion is that of the first operator that did. -/
theorem trial_rejected (o : Opts K) (c : AdaCfg K) (ops : AdaOps K X) (s : AdaSt K X)
    (hrun : s.p.running = true) :
    ((gcTrial o c ops s).hnext < 0 ↔
      OrbRejects o c ops s ∨ ColRejects o c ops s ∨ RfRejects o c ops s) ∧
    (OrbRejects o c ops s →
      (gcTrial o c ops s).hnext = along o.reverseTime (ops.orb s.p (along o.reverseTime s.hin)).2) ∧
    (¬ OrbRejects o c ops s → ColRejects o c ops s →
      (gcTrial o c ops s).hnext = (ops.col (afterOrb o c ops s) (stepGiven o c s) s.acc.acc).1.2) ∧
    (¬ OrbRejects o c ops s → ¬ ColRejects o c ops s → RfRejects o c ops s →
      (gcTrial o c ops s).hnext = (ops.rf (afterCol o c ops s) (stepGiven o c s)).2) ∧
    (gcTrial o c ops s).hin = stepGiven o c s ∧
    ((gcTrial o c ops s).hnext < 0 ∨ (gcTrial o c ops s).hnext = 1) := by
  have h01 : ¬ (1 : K) < 0 := not_lt.2 zero_le_one
  -- the three stages
  obtain ⟨t, ht1, ht2, ht3⟩ : ∃ t : (GcM K X × K) × K × K,
      t = (if c.on.orbfol then
        (reject (if s.p.running then ops.orb s.p (along o.reverseTime s.hin) else (s.p, 1)).1
          (along o.reverseTime
            (if s.p.running then ops.orb s.p (along o.reverseTime s.hin) else (s.p, 1)).2) 1,
         along o.reverseTime
            (if s.p.running then ops.orb s.p (along o.reverseTime s.hin) else (s.p, 1)).2,
         along o.reverseTime (along o.reverseTime s.hin))
        else ((s.p, 1), 1, along o.reverseTime s.hin)) ∧ t.2.2 = stepGiven o c s ∧
      ((OrbRejects o c ops s ∧ t.1.1.running = false ∧
          t.1.2 = along o.reverseTime (ops.orb s.p (along o.reverseTime s.hin)).2 ∧ t.1.2 < 0) ∨
        (¬ OrbRejects o c ops s ∧ t.1 = (afterOrb o c ops s, 1))) := by
    refine ⟨_, rfl, ?_, ?_⟩
    · unfold stepGiven; split <;> simp [along_along]
    · unfold OrbRejects afterOrb
      cases c.on.orbfol
      · right; simp
      · simp only [hrun, if_true, true_and]
        unfold reject
        split
        · left; rename_i h; exact ⟨h, rfl, rfl, h.2⟩
        · right; rename_i h; exact ⟨h, rfl⟩
  obtain ⟨u, hu1, hu2⟩ : ∃ u : (GcM K X × K) × K × Acc K,
      u = (if c.on.clmbcol then
        (reject (if t.1.1.running then ops.col t.1.1 t.2.2 s.acc.acc
            else ((t.1.1, 1), s.acc.collfreq)).1.1
          (if t.1.1.running then ops.col t.1.1 t.2.2 s.acc.acc
            else ((t.1.1, 1), s.acc.collfreq)).1.2 t.1.2,
         (if t.1.1.running then ops.col t.1.1 t.2.2 s.acc.acc
            else ((t.1.1, 1), s.acc.collfreq)).1.2,
         { s.acc with collfreq := (if t.1.1.running then ops.col t.1.1 t.2.2 s.acc.acc
            else ((t.1.1, 1), s.acc.collfreq)).2 })
        else (t.1, 1, s.acc)) ∧
      ((OrbRejects o c ops s ∧ u.1 = t.1) ∨
       (¬ OrbRejects o c ops s ∧ ColRejects o c ops s ∧ u.1.1.running = false ∧
          u.1.2 = (ops.col (afterOrb o c ops s) (stepGiven o c s) s.acc.acc).1.2 ∧ u.1.2 < 0) ∨
       (¬ OrbRejects o c ops s ∧ ¬ ColRejects o c ops s ∧ u.1 = (afterCol o c ops s, 1))) := by
    refine ⟨_, rfl, ?_⟩
    rcases ht3 with ⟨h1, h2, h3, h4⟩ | ⟨h1, h2⟩
    · left; refine ⟨h1, ?_⟩
      cases c.on.clmbcol
      · rfl
      · simp only [h2, Bool.false_eq_true, if_false, if_true]
        unfold reject
        rw [if_neg (by rw [h2]; simp)]
    · right
      rw [h2, ht2]
      unfold ColRejects afterCol
      cases c.on.clmbcol
      · right; simp [h1]
      · simp only [if_true, true_and]
        cases hr : (afterOrb o c ops s).running
        · right
          simp only [Bool.false_eq_true, if_false, false_and, not_false_eq_true, true_and, h1]
          unfold reject; rw [if_neg (by rw [hr]; simp)]
        · simp only [if_true, true_and]
          unfold reject
          split
          · left; rename_i h; exact ⟨h1, h, rfl, rfl, h.2⟩
          · right; rename_i h; exact ⟨h1, h, rfl⟩
  obtain ⟨v, hv1, hv2⟩ : ∃ v : (GcM K X × K) × K,
      v = (if c.on.icrh then
        (reject (if u.1.1.running then ops.rf u.1.1 t.2.2 else (u.1.1, 1)).1
          (if u.1.1.running then ops.rf u.1.1 t.2.2 else (u.1.1, 1)).2 u.1.2,
         (if u.1.1.running then ops.rf u.1.1 t.2.2 else (u.1.1, 1)).2)
        else (u.1, 1)) ∧
      (((OrbRejects o c ops s ∨ ColRejects o c ops s) ∧ v.1 = u.1) ∨
       (¬ OrbRejects o c ops s ∧ ¬ ColRejects o c ops s ∧ RfRejects o c ops s ∧
          v.1.2 = (ops.rf (afterCol o c ops s) (stepGiven o c s)).2 ∧ v.1.2 < 0) ∨
       (¬ OrbRejects o c ops s ∧ ¬ ColRejects o c ops s ∧ ¬ RfRejects o c ops s ∧ v.1.2 = 1)) := by
    refine ⟨_, rfl, ?_⟩
    have hstop : u.1.1.running = false →
        (if c.on.icrh then
        (reject (if u.1.1.running then ops.rf u.1.1 t.2.2 else (u.1.1, 1)).1
          (if u.1.1.running then ops.rf u.1.1 t.2.2 else (u.1.1, 1)).2 u.1.2,
         (if u.1.1.running then ops.rf u.1.1 t.2.2 else (u.1.1, 1)).2)
        else (u.1, 1)).1 = u.1 := by
      intro h
      cases c.on.icrh
      · rfl
      · simp only [h, Bool.false_eq_true, if_false, if_true]
        unfold reject; rw [if_neg (by rw [h]; simp)]
    rcases hu2 with ⟨h1, h2⟩ | ⟨h1, h2, h3, h4, h5⟩ | ⟨h1, h2, h3⟩
    · left
      refine ⟨.inl h1, hstop ?_⟩
      rcases ht3 with h | h
      · rw [h2]; exact h.2.1
      · exact absurd h1 h.1
    · left; exact ⟨.inr h2, hstop h3⟩
    · right
      rw [h3, ht2]
      unfold RfRejects
      cases c.on.icrh
      · right; simp [h1, h2]
      · simp only [if_true, true_and]
        cases hr : (afterCol o c ops s).running
        · right
          simp only [Bool.false_eq_true, if_false, false_and, not_false_eq_true, true_and, h1, h2]
          unfold reject; rw [if_neg (by rw [hr]; simp)]
        · simp only [if_true, true_and]
          unfold reject
          split
          · left; rename_i h; exact ⟨h1, h2, h, rfl, h.2⟩
          · right; rename_i h; exact ⟨h1, h2, h, rfl⟩
  have htrial : (gcTrial o c ops s).hnext = v.1.2 ∧ (gcTrial o c ops s).hin = t.2.2 := by
    rw [hv1, hu1, ht1]; exact ⟨rfl, rfl⟩
  rw [htrial.1, htrial.2]
  have hneg : OrbRejects o c ops s ∨ ColRejects o c ops s → v.1 = u.1 → v.1.2 < 0 := by
    intro h1 h2
    rw [h2]
    rcases hu2 with h | h | h
    · rw [h.2]; rcases ht3 with h' | h'
      · exact h'.2.2.2
      · exact absurd h.1 h'.1
    · exact h.2.2.2.2
    · exact absurd h1 (by simp [h.1, h.2.1])
  refine ⟨?_, ?_, ?_, ?_, ht2, ?_⟩
  · rcases hv2 with ⟨h1, h2⟩ | ⟨h1, h2, h3, h4, h5⟩ | ⟨h1, h2, h3, h4⟩
    · have : v.1.2 < 0 := by
        rw [h2]
        rcases hu2 with h | h | h
        · rw [h.2]; rcases ht3 with h' | h'
          · exact h'.2.2.2
          · exact absurd h.1 h'.1
        · exact h.2.2.2.2
        · exact absurd h1 (by simp [h.1, h.2.1])
      exact ⟨fun _ => h1.elim .inl (fun h => .inr (.inl h)), fun _ => this⟩
    · exact ⟨fun _ => .inr (.inr h3), fun _ => h5⟩
    · rw [h4]; simp [h1, h2, h3, h01]
  · intro h
    rcases hv2 with ⟨h1, h2⟩ | ⟨h1, _⟩ | ⟨h1, _⟩
    · rw [h2]
      rcases hu2 with h' | h' | h'
      · rw [h'.2]; rcases ht3 with h'' | h''
        · exact h''.2.2.1
        · exact absurd h h''.1
      · exact absurd h h'.1
      · exact absurd h h'.1
    · exact absurd h h1
    · exact absurd h h1
  · intro hn h
    rcases hv2 with ⟨h1, h2⟩ | ⟨_, h1, _⟩ | ⟨_, h1, _⟩
    · rw [h2]
      rcases hu2 with h' | h' | h'
      · exact absurd h'.1 hn
      · exact h'.2.2.2.1
      · exact absurd h h'.2.1
    · exact absurd h h1
    · exact absurd h h1
  · intro hn hn' h
    rcases hv2 with ⟨h1, h2⟩ | ⟨_, _, _, h4, _⟩ | ⟨_, _, h3, _⟩
    · exact absurd h1 (by simp [hn, hn'])
    · exact h4
    · exact absurd h h3
  · rcases hv2 with ⟨h1, h2⟩ | ⟨_, _, _, _, h5⟩ | ⟨_, _, _, h4⟩
    · exact .inl (hneg h1 h2)
    · exact .inl h5
    · exact .inr h4

/-- The same for field lines (only the mileage, not the time, advances there). -/
theorem ml_rejected (o : Opts K) (orbfol : Bool) (maxDphi maxDrho dummy light : K) (ops : MlOps K X)
    (s : MlM K X × K) (hrun : s.1.running = true)
    (herr : s.1.err = 0) (hok : (mlTrial o orbfol dummy ops s).p.err = 0) (hpos : 0 < s.2)
    (hshort : (mlTrial o orbfol dummy ops s).hnext < 0 → -(mlTrial o orbfol dummy ops s).hnext < s.2)
    (hwall : (ops.env.wallHit s.1.r s.1.phi s.1.z s.1.r s.1.phi s.1.z).1 = 0)
    (hrej : (mlTrial o orbfol dummy ops s).hnext < 0 ∨ (0 < (mlTrial o orbfol dummy ops s).hnext ∧
      OverLimit maxDphi maxDrho s.1.phi (mlTrial o orbfol dummy ops s).p.phi s.1.rho
        (mlTrial o orbfol dummy ops s).p.rho)) :
    let r := mlAda o orbfol maxDphi maxDrho dummy light ops s
    r.1 = { s.1 with cputime := s.1.cputime + ops.dcpu, endcond := r.1.endcond,
                     running := r.1.running } ∧ 0 < r.2 ∧ r.2 < s.2 := by
  intro r
  have hh : (mlTrial o orbfol dummy ops s).hin = s.2 := by
    unfold mlTrial; dsimp only; split_ifs <;> simp [along_along]
  have key : ∃ h, 0 < h ∧ h < s.2 ∧
      mlUpdate maxDphi maxDrho dummy light ops.dcpu s.1 (mlTrial o orbfol dummy ops s) =
      ({ s.1 with cputime := s.1.cputime + ops.dcpu }, h) := by
    generalize mlTrial o orbfol dummy ops s = t at *
    have hcopy : copyMl s.1 t.p = s.1 := by
      unfold copyMl; rw [hok, ← herr]
    unfold mlUpdate
    dsimp only
    rw [if_pos hok]
    rcases hrej with hneg | ⟨hp, hover⟩
    · refine ⟨-t.hnext, by linarith, hshort hneg, ?_⟩
      have : ¬ t.hnext > 0 := by linarith
      simp only [if_neg this, if_pos hneg, hcopy, hrun, if_true]
    · obtain ⟨h1, h2, h3⟩ := overLimit_cases (hin := t.hin) hp (by rw [hh]; exact hpos) hover
      rw [hh] at h2 h3
      refine ⟨_, h2, h3, ?_⟩
      rw [h1, hh]
      have hn : -(s.2 / max (|s.1.phi - t.p.phi| / maxDphi) (|s.1.rho - t.p.rho| / maxDrho)) < 0 := by
        linarith
      simp only [if_pos hn, hcopy, hrun, if_true, neg_neg]
  obtain ⟨h, k1, k2, k3⟩ := key
  simp only [r, mlAda, k3]
  refine ⟨?_, k1, k2⟩
  obtain ⟨-, h2, h3, h4, h5, h6, h7, h8, h9, h10⟩ := C09.ml_rest o ops.env
    s.1.toLane { s.1.toLane with cputime := s.1.cputime + ops.dcpu } hrun
  have he := (C09.ml_endcond o ops.env s.1.toLane
    { s.1.toLane with cputime := s.1.cputime + ops.dcpu } hrun).2.2
  have hw := h2 (by rw [hwall]; simp)
  have hb : (checkMl o ops.env s.1.toLane
      { s.1.toLane with cputime := s.1.cputime + ops.dcpu }).bounces = s.1.bounces := by
    rw [ml_normal o ops.env _ { s.1.toLane with cputime := s.1.cputime + ops.dcpu } hrun]
    rw [chain_bounces]; split <;> rfl
  generalize checkMl o ops.env s.1.toLane
    { s.1.toLane with cputime := s.1.cputime + ops.dcpu } = l at *
  cases l
  simp only at h2 h3 h4 h5 h6 h7 h8 h9 h10 hw he hb
  subst h3 h4 h5 h6 h7 h8 h9 h10 hw he hb
  rfl

/-! Example: a guiding center whose orbit-following operator moves it but rejects the step
is put back and tries half the step. -/

def exCfg : AdaCfg ℚ where
  on := ⟨true, false, false⟩
  accelerate := true
  safety := 1
  maxDphi := 1
  maxDrho := 1

def exAcc : Acc ℚ where
  acc := 1
  orbittime := -1
  collfreq := 0
  once := false
  twice := false
  firstPpar := false

def exOps (dphi drho suggest : ℚ) : AdaOps ℚ Unit where
  orb := fun p h => ({ p with phi := p.phi + dphi, rho := p.rho + drho }, suggest * h)
  col := fun p _ _ => ((p, 1), 0)
  rf := fun p _ => (p, 1)
  dcpu := 1 / 100
  axis := (1, 0)
  env := { C07.exEnv with wallHit := fun _ _ _ _ _ _ => (0, 0) }
  ekin := fun _ => 5

def exSt : AdaSt ℚ Unit where
  p := { C07.exLane with ppar := 1, id := 1, rest := () }
  hin := 1 / 10
  acc := exAcc

example :
    let r := gcAda C07.exOpts exCfg (exOps (1 / 2) 0 (-1 / 2)) exSt
    r.p.phi = exSt.p.phi ∧ r.hin = 1 / 20 := by
  have hh : (gcTrial C07.exOpts exCfg (exOps (1 / 2) 0 (-1 / 2)) exSt).hnext = -1 / 20 := by
    norm_num [gcTrial, exCfg, exOps, exSt, C07.exOpts, C07.exLane, reject, along]
  have hi : (gcTrial C07.exOpts exCfg (exOps (1 / 2) 0 (-1 / 2)) exSt).hin = 1 / 10 := by
    norm_num [gcTrial, exCfg, exOps, exSt, C07.exOpts, C07.exLane, reject, along]
  have hp : (gcTrial C07.exOpts exCfg (exOps (1 / 2) 0 (-1 / 2)) exSt).p.err = 0 ∧
      (gcTrial C07.exOpts exCfg (exOps (1 / 2) 0 (-1 / 2)) exSt).p.id = exSt.p.id := by
    norm_num [gcTrial, exCfg, exOps, exSt, C07.exOpts, C07.exLane, reject, along]
  have h := gc_rejected C07.exOpts exCfg (exOps (1 / 2) 0 (-1 / 2)) exSt rfl (by decide) hp.2 rfl hp.1
    (by rw [hi]; norm_num) (by rw [hh, hi]; norm_num) rfl (.inl (by rw [hh]; norm_num))
  refine ⟨by rw [h.1], ?_⟩
  rw [h.2.1, retry, if_pos (by rw [hh]; norm_num), hh]; norm_num

end Ascot.C13

namespace Ascot.C14
open Ascot.EndCond Ascot.TimeLoop Ascot.C13

variable {K X : Type} [Field K] [LinearOrder K] [IsStrictOrderedRing K] [FloorRing K]

theorem le_limit {a b : K} (hb : 0 < b) (h : a / b ≤ 1) : a ≤ b := by
  rwa [div_le_one hb] at h

/-- The marker after a pass without error is either the one before the pass or the
trial marker, as far as position is concerned. -/
theorem gc_position (o : Opts K) (c : AdaCfg K) (ops : AdaOps K X) (s : AdaSt K X)
    (hrun : s.p.running = true) (hid : 0 < (gcTrial o c ops s).p.id)
    (hok : (gcTrial o c ops s).p.err = 0) (hpos : 0 < (gcTrial o c ops s).hin) :
    let t := gcTrial o c ops s
    let r := gcAda o c ops s
    (Rejected c s t → r.p.phi = s.p.phi ∧ r.p.rho = s.p.rho) ∧
    (¬ Rejected c s t → r.p.phi = t.p.phi ∧ r.p.rho = t.p.rho) := by
  intro t r
  have hcheck : ∀ p : GcM K X, (checkGc o ops.env ops.ekin s.p.toGc p.toGc).phi = p.phi ∧
      (checkGc o ops.env ops.ekin s.p.toGc p.toGc).rho = p.rho := by
    intro p
    by_cases hp : p.running = true
    · have := C08.gc_rest o ops.env ops.ekin s.p.toGc p.toGc hp
      exact ⟨this.2.2.2.2.1, this.2.2.2.2.2.2.2.2.1⟩
    · rw [C08.gc_not_running _ _ _ _ _ (by simpa using hp)]; exact ⟨rfl, rfl⟩
  have hr : r.p.phi = (adaUpdate o c ops.dcpu s.p t.p t.hin t.hnext t.ho t.hc t.hr t.acc).p.phi ∧
      r.p.rho = (adaUpdate o c ops.dcpu s.p t.p t.hin t.hnext t.ho t.hc t.hr t.acc).p.rho :=
    hcheck _
  rw [hr.1, hr.2]
  have hh := (trial_rejected o c ops s hrun).2.2.2.2.2
  change t.hnext < 0 ∨ t.hnext = 1 at hh
  change 0 < t.p.id at hid
  change t.p.err = 0 at hok
  change 0 < t.hin at hpos
  clear_value t
  unfold adaUpdate
  rw [if_pos ⟨hid, hok⟩]
  dsimp only
  constructor
  · rintro (hneg | ⟨hp, hover⟩)
    · have : ¬ t.hnext > 0 := by linarith
      simp only [if_neg this, if_pos hneg]
      split_ifs <;> exact ⟨rfl, rfl⟩
    · obtain ⟨h1, h2, h3⟩ := overLimit_cases (hin := t.hin) hp hpos hover
      have hn : -(t.hin / max (|s.p.phi - t.p.phi| / c.maxDphi) (|s.p.rho - t.p.rho| / c.maxDrho)) < 0 := by
        linarith
      simp only [h1, if_pos hn]
      split_ifs <;> exact ⟨rfl, rfl⟩
  · intro hn
    have h1 : t.hnext = 1 := by
      rcases hh with h | h
      · exact absurd (.inl h) hn
      · exact h
    have hp : (0 : K) < t.hnext := by rw [h1]; exact one_pos
    have hq : ¬ t.hnext < 0 := by linarith
    simp only [notOver_cases (fun h => hn (.inr ⟨hp, h⟩)), if_neg hq]
    split_ifs <;> exact ⟨rfl, rfl⟩

/-- No pass changes the toroidal angle or rho by more than the limits, provided the two
excesses are not equal.  Missing from C14: the case of equal excesses, in which the
limits are not respected (`gc_tie`). -/
theorem gc_limits_partial (o : Opts K) (c : AdaCfg K) (ops : AdaOps K X) (s : AdaSt K X)
    (hphi : 0 < c.maxDphi) (hrho : 0 < c.maxDrho)
    (hrun : s.p.running = true) (hid : 0 < (gcTrial o c ops s).p.id)
    (hok : (gcTrial o c ops s).p.err = 0) (hpos : 0 < (gcTrial o c ops s).hin)
    (htie : |s.p.phi - (gcTrial o c ops s).p.phi| / c.maxDphi ≠
      |s.p.rho - (gcTrial o c ops s).p.rho| / c.maxDrho) :
    let r := gcAda o c ops s
    |s.p.phi - r.p.phi| ≤ c.maxDphi ∧ |s.p.rho - r.p.rho| ≤ c.maxDrho := by
  intro r
  obtain ⟨h1, h2⟩ := gc_position o c ops s hrun hid hok hpos
  by_cases hr : Rejected c s (gcTrial o c ops s)
  · rw [(h1 hr).1, (h1 hr).2]; simp [hphi.le, hrho.le]
  · rw [(h2 hr).1, (h2 hr).2]
    have hh := (trial_rejected o c ops s hrun).2.2.2.2.2
    have hn : ¬ OverLimit c.maxDphi c.maxDrho s.p.phi (gcTrial o c ops s).p.phi s.p.rho
        (gcTrial o c ops s).p.rho := by
      intro ho
      rcases hh with h | h
      · exact hr (.inl h)
      · exact hr (.inr ⟨by rw [h]; exact one_pos, ho⟩)
    have : ¬ (1 < |s.p.phi - (gcTrial o c ops s).p.phi| / c.maxDphi ∨
        1 < |s.p.rho - (gcTrial o c ops s).p.rho| / c.maxDrho) := fun h => hn ⟨h, htie⟩
    rw [not_or, not_lt, not_lt] at this
    exact ⟨le_limit hphi this.1, le_limit hrho this.2⟩

/-- If both limits are exceeded by the same factor, the step is accepted as it is. -/
theorem gc_tie (o : Opts K) (c : AdaCfg K) (ops : AdaOps K X) (s : AdaSt K X)
    (hrun : s.p.running = true) (hid : 0 < (gcTrial o c ops s).p.id)
    (hok : (gcTrial o c ops s).p.err = 0) (hpos : 0 < (gcTrial o c ops s).hin)
    (hacc : ¬ (gcTrial o c ops s).hnext < 0)
    (htie : |s.p.phi - (gcTrial o c ops s).p.phi| / c.maxDphi =
      |s.p.rho - (gcTrial o c ops s).p.rho| / c.maxDrho) :
    let r := gcAda o c ops s
    r.p.phi = (gcTrial o c ops s).p.phi ∧ r.p.rho = (gcTrial o c ops s).p.rho := by
  refine (gc_position o c ops s hrun hid hok hpos).2 ?_
  rintro (h | ⟨_, _, h⟩)
  · exact hacc h
  · exact h htie

/-- Witness against C14: with both limits 1, a step that changes both by 5 is accepted. -/
theorem gc_limits_fail : ∃ (o : Opts ℚ) (c : AdaCfg ℚ) (ops : AdaOps ℚ Unit) (s : AdaSt ℚ Unit),
    0 < c.maxDphi ∧ 0 < c.maxDrho ∧ s.p.running = true ∧ (gcAda o c ops s).p.err = 0 ∧
    c.maxDphi < |s.p.phi - (gcAda o c ops s).p.phi| := by
  refine ⟨{ C07.exOpts with active := 0 }, exCfg, exOps 5 5 1, exSt, by norm_num [exCfg],
    by norm_num [exCfg], rfl, ?_, ?_⟩
  · norm_num [gcAda, adaUpdate, gcTrial, exCfg, exOps, exSt, C07.exOpts, C07.exLane, reject, along,
      checkGc, stepErr, stepHybrid, stepCpu, stepOrb, maxorb, stepRho, stepEnergy, stepWall, stepTlim,
      stepBounce]
  · have h := (gc_tie { C07.exOpts with active := 0 } exCfg (exOps 5 5 1) exSt rfl
      (by norm_num [gcTrial, exCfg, exOps, exSt, C07.exOpts, C07.exLane, reject, along])
      (by norm_num [gcTrial, exCfg, exOps, exSt, C07.exOpts, C07.exLane, reject, along])
      (by norm_num [gcTrial, exCfg, exOps, exSt, C07.exOpts, C07.exLane, reject, along])
      (by norm_num [gcTrial, exCfg, exOps, exSt, C07.exOpts, C07.exLane, reject, along])
      (by norm_num [gcTrial, exCfg, exOps, exSt, C07.exOpts, C07.exLane, reject, along])).1
    rw [h]
    norm_num [gcTrial, exCfg, exOps, exSt, C07.exOpts, C07.exLane, reject, along]

/-- `gc_limits_partial` applies to a step that exceeds one limit. -/
example : |exSt.p.phi - (gcAda C07.exOpts exCfg (exOps 5 0 1) exSt).p.phi| ≤ 1 :=
  (gc_limits_partial C07.exOpts exCfg (exOps 5 0 1) exSt (by norm_num [exCfg]) (by norm_num [exCfg]) rfl
      (by norm_num [gcTrial, exCfg, exOps, exSt, C07.exOpts, C07.exLane, reject, along])
      (by norm_num [gcTrial, exCfg, exOps, exSt, C07.exOpts, C07.exLane, reject, along])
      (by norm_num [gcTrial, exCfg, exOps, exSt, C07.exOpts, C07.exLane, reject, along])
      (by norm_num [gcTrial, exCfg, exOps, exSt, C07.exOpts, C07.exLane, reject, along])).1

/-- Field lines: the same limits, with the same exception. -/
theorem ml_limits_partial (o : Opts K) (orbfol : Bool) (maxDphi maxDrho dummy light : K)
    (ops : MlOps K X) (s : MlM K X × K) (hphi : 0 < maxDphi) (hrho : 0 < maxDrho)
    (hok : (mlTrial o orbfol dummy ops s).p.err = 0) (hpos : 0 < s.2) (hdummy : 0 < dummy)
    (htie : |s.1.phi - (mlTrial o orbfol dummy ops s).p.phi| / maxDphi ≠
      |s.1.rho - (mlTrial o orbfol dummy ops s).p.rho| / maxDrho) :
    let r := mlAda o orbfol maxDphi maxDrho dummy light ops s
    |s.1.phi - r.1.phi| ≤ maxDphi ∧ |s.1.rho - r.1.rho| ≤ maxDrho := by
  intro r
  have hcheck : ∀ p : Lane K, (checkMl o ops.env s.1.toLane p).phi = p.phi ∧
      (checkMl o ops.env s.1.toLane p).rho = p.rho := by
    intro p
    by_cases hp : p.running = true
    · have := C09.ml_rest o ops.env s.1.toLane p hp
      exact ⟨this.2.2.2.2.1, this.2.2.2.2.2.2.2.2.1⟩
    · rw [C09.ml_not_running _ _ _ _ (by simpa using hp)]; exact ⟨rfl, rfl⟩
  have hh : (mlTrial o orbfol dummy ops s).hin = s.2 := by
    unfold mlTrial; dsimp only; split_ifs <;> simp [along_along]
  have hn : (mlTrial o orbfol dummy ops s).hnext < 0 ∨ (mlTrial o orbfol dummy ops s).hnext = dummy := by
    unfold mlTrial; dsimp only
    by_cases ho : orbfol = true
    · rw [if_pos ho]
      generalize (if s.1.running = true then ops.orb s.1 (along o.reverseTime s.2) else (s.1, dummy)) = q
      split
      · rename_i h; exact .inl h.2
      · exact .inr rfl
    · rw [if_neg ho]; exact .inr rfl
  have hr : r.1.phi = (mlUpdate maxDphi maxDrho dummy light ops.dcpu s.1
        (mlTrial o orbfol dummy ops s)).1.phi ∧
      r.1.rho = (mlUpdate maxDphi maxDrho dummy light ops.dcpu s.1
        (mlTrial o orbfol dummy ops s)).1.rho := hcheck _
  rw [hr.1, hr.2]
  clear hr
  generalize mlTrial o orbfol dummy ops s = t at *
  unfold mlUpdate
  dsimp only
  rw [if_pos hok]
  by_cases ho : OverLimit maxDphi maxDrho s.1.phi t.p.phi s.1.rho t.p.rho
  · have hneg : ∀ x : MlM K X × K, (x.1.phi = s.1.phi ∧ x.1.rho = s.1.rho) →
        |s.1.phi - x.1.phi| ≤ maxDphi ∧ |s.1.rho - x.1.rho| ≤ maxDrho := by
      rintro x ⟨h1, h2⟩; rw [h1, h2]; simp [hphi.le, hrho.le]
    apply hneg
    rcases hn with h | h
    · have : ¬ t.hnext > 0 := by linarith
      simp only [if_neg this, if_pos h]
      split_ifs <;> exact ⟨rfl, rfl⟩
    · obtain ⟨h1, h2, h3⟩ := overLimit_cases (hin := t.hin)
        (show 0 < t.hnext by rw [h]; exact hdummy) (by rw [hh]; exact hpos) ho
      have hn : -(t.hin / max (|s.1.phi - t.p.phi| / maxDphi) (|s.1.rho - t.p.rho| / maxDrho)) < 0 := by
        linarith
      simp only [h1, if_pos hn]
      split_ifs <;> exact ⟨rfl, rfl⟩
  · have : ¬ (1 < |s.1.phi - t.p.phi| / maxDphi ∨ 1 < |s.1.rho - t.p.rho| / maxDrho) :=
      fun h => ho ⟨h, htie⟩
    rw [not_or, not_lt, not_lt] at this
    have h1 := le_limit hphi this.1
    have h2 := le_limit hrho this.2
    rw [notOver_cases ho]
    have hcase : ∀ x : MlM K X × K, (x.1.phi = s.1.phi ∧ x.1.rho = s.1.rho) ∨
        (x.1.phi = t.p.phi ∧ x.1.rho = t.p.rho) →
        |s.1.phi - x.1.phi| ≤ maxDphi ∧ |s.1.rho - x.1.rho| ≤ maxDrho := by
      rintro x (⟨h3, h4⟩ | ⟨h3, h4⟩)
      · rw [h3, h4]; simp [hphi.le, hrho.le]
      · rw [h3, h4]; exact ⟨h1, h2⟩
    apply hcase
    by_cases hn' : t.hnext < 0
    · simp only [if_pos hn']; split_ifs <;> exact .inl ⟨rfl, rfl⟩
    · simp only [if_neg hn']; split_ifs <;> exact .inr ⟨rfl, rfl⟩

end Ascot.C14

namespace Ascot.C15
open Ascot.EndCond Ascot.TimeLoop Ascot.C13

variable {K X : Type} [Field K] [LinearOrder K] [IsStrictOrderedRing K] [FloorRing K]

/-- Sign of the direction of time chosen by the user. -/
def sgn (reverse : Bool) : K := if reverse then -1 else 1

theorem dir_eq (b : Bool) : (dir b : K) = sgn b := by cases b <;> norm_num [dir, sgn]

/-- The physics operators do not touch time and mileage (they are advanced by the main
loop only). -/
structure FoKeepTime (ops : FoOps K X) : Prop where
  orb : ∀ p h, (ops.orb p h).time = p.time ∧ (ops.orb p h).mileage = p.mileage
  col : ∀ p h, (ops.col p h).time = p.time ∧ (ops.col p h).mileage = p.mileage
  atm : ∀ p h, (ops.atm p h).time = p.time ∧ (ops.atm p h).mileage = p.mileage

/-- The physics of one full-orbit pass: the orbit is followed with the step in the
direction of time, the rest with the step itself. -/
def foPhysics (o : Opts K) (ops : FoOps K X) (p : FoM K X) (h : K) : FoM K X :=
  let p := if ops.orbfol = true ∧ p.running = true then ops.orb p (sgn o.reverseTime * h) else p
  let p := if ops.clmbcol = true ∧ p.running = true then ops.col p h else p
  if ops.atomic = true ∧ p.running = true then ops.atm p h else p

theorem along_eq (b : Bool) (h : K) : along b h = sgn b * h := by cases b <;> simp [along, sgn]

theorem foPhysics_time (o : Opts K) (ops : FoOps K X) (hk : FoKeepTime ops) (p : FoM K X) (h : K) :
    (foPhysics o ops p h).time = p.time ∧ (foPhysics o ops p h).mileage = p.mileage := by
  unfold foPhysics
  dsimp only
  split_ifs <;> simp [hk.orb, hk.col, hk.atm]

theorem foFixed_eq (o : Opts K) (ops : FoOps K X) (p : FoM K X) (h : K) :
    let q := foPhysics o ops p h
    let a := if q.running then advanceFo o.reverseTime h ops.dcpu q else q
    foFixed o ops (p, h) = ({ a with toLane := checkFo o ops.env ops.ekin p.toFo a.toFo }, h) := by
  intro q a
  simp only [a, q, foFixed, foPhysics, along_along, onRunning, ← along_eq]

theorem fo_wall_stops (o : Opts K) (e : Env K) (ekin : Fo K → K) (i f : Fo K) (hrun : f.running = true)
    (hw : o.on .wall ∧ 0 < (e.wallHit i.r i.phi i.z f.r f.phi f.z).1) :
    (checkFo o e ekin i f).running = false := by
  obtain ⟨m0, m, x, _, _, hc, hx, g1, g2, g3, g4, g5, g6, g7⟩ := fo_normal o e ekin i f hrun
  rw [hc]
  have hst : ∀ q : Lane K, (stepErr q).running = q.running := by
    intro q; unfold stepErr; split <;> rfl
  rw [hst]
  by_contra hne
  rw [Bool.not_eq_false, chain_running] at hne
  refine hne.2 .wall ⟨hw.1, ?_⟩
  rw [hx]; exact hw.2

/-- One pass of the full-orbit loop: a marker that comes out of the physics running has its
mileage increased by the step length and its time moved by the step in the direction
of time; if it hits the wall, its time is that of the hit, at the fraction `w.2` of the
step.  A marker stopped by the physics keeps its time and mileage.  The step length
does not change. -/
theorem fo_pass (o : Opts K) (ops : FoOps K X) (hk : FoKeepTime ops) (p : FoM K X) (h : K) :
    let q := foPhysics o ops p h
    let r := foFixed o ops (p, h)
    let w := ops.env.wallHit p.r p.phi p.z q.r q.phi q.z
    r.2 = h ∧
    (q.running = false → r.1 = q ∧ r.1.time = p.time ∧ r.1.mileage = p.mileage) ∧
    (q.running = true → r.1.mileage = p.mileage + h ∧
      (¬ (o.on .wall ∧ 0 < w.1) → r.1.time = p.time + sgn o.reverseTime * h) ∧
      (o.on .wall ∧ 0 < w.1 → r.1.time = p.time + w.2 * (sgn o.reverseTime * h) ∧
        r.1.running = false)) := by
  intro q r w
  have hq := foPhysics_time o ops hk p h
  have hr := foFixed_eq o ops p h
  dsimp only at hr
  change r = _ at hr
  refine ⟨by rw [hr], ?_, ?_⟩
  · intro hf
    change (foPhysics o ops p h).running = false at hf
    rw [hr]
    simp only [hf, Bool.false_eq_true, if_false]
    rw [C07.fo_not_running _ _ _ _ _ hf]
    exact ⟨rfl, hq.1, hq.2⟩
  · intro ht
    change (foPhysics o ops p h).running = true at ht
    rw [if_pos ht] at hr
    rw [hr]
    dsimp only
    have h2 := C07.fo_position o ops.env ops.ekin p.toFo
      (advanceFo o.reverseTime h ops.dcpu (foPhysics o ops p h)).toFo ht
    have h3 := C07.fo_endcond o ops.env ops.ekin p.toFo
      (advanceFo o.reverseTime h ops.dcpu (foPhysics o ops p h)).toFo ht
    dsimp only at h2
    obtain ⟨g1, g2, g3, -⟩ := h2
    refine ⟨?_, ?_, ?_⟩
    · rw [g3]; simp [advanceFo, hq.2]
    · intro hw; rw [(g2 hw).1]; simp [advanceFo, hq.1, dir_eq]
    · intro hw
      refine ⟨?_, ?_⟩
      · rw [(g1 hw).1]; simp [advanceFo, hq.1, dir_eq, w, q]
      · exact fo_wall_stops o ops.env ops.ekin p.toFo
          (advanceFo o.reverseTime h ops.dcpu (foPhysics o ops p h)).toFo ht hw

/-- The passes of the loop for one marker. -/
def foRun (o : Opts K) : List (FoOps K X) → FoM K X × K → FoM K X × K
  | [], s => s
  | ops :: l, s => foRun o l (foFixed o ops s)

theorem fo_stays_stopped (o : Opts K) (l : List (FoOps K X)) (s : FoM K X × K)
    (hk : ∀ ops ∈ l, FoKeepTime ops) (hs : s.1.running = false) : (foRun o l s).1 = s.1 := by
  induction l generalizing s with
  | nil => rfl
  | cons ops l ih =>
    have h := fo_pass o ops (hk ops (by simp)) s.1 s.2
    have he : foPhysics o ops s.1 s.2 = s.1 := by simp [foPhysics, hs]
    dsimp only at h
    rw [he] at h
    have h1 : (foFixed o ops s).1 = s.1 := (h.2.1 hs).1
    have := ih (foFixed o ops s) (fun x hx => hk x (by simp [hx])) (by rw [h1]; exact hs)
    rw [foRun, this, h1]

/-- After any number of passes, the time of a marker that is still running is the initial
time plus (in reversed time: minus) the sum of the step lengths, and its mileage has
grown by that sum. -/
theorem fo_time (o : Opts K) (l : List (FoOps K X)) (hk : ∀ ops ∈ l, FoKeepTime ops)
    (p : FoM K X) (h : K) (hrun : (foRun o l (p, h)).1.running = true) :
    let r := foRun o l (p, h)
    r.1.time = p.time + sgn o.reverseTime * (l.length * h) ∧
    r.1.mileage = p.mileage + l.length * h ∧ r.2 = h := by
  induction l generalizing p with
  | nil => simp [foRun]
  | cons ops l ih =>
    have hk' := fun x hx => hk x (List.mem_cons_of_mem _ hx)
    have h1 := fo_pass o ops (hk ops (by simp)) p h
    dsimp only at h1
    change (foRun o l (foFixed o ops (p, h))).1.running = true at hrun
    have hs : (foFixed o ops (p, h)).1.running = true := by
      by_contra hc
      rw [fo_stays_stopped o l (foFixed o ops (p, h)) hk' (by simpa using hc)] at hrun
      exact hc hrun
    have hq : (foPhysics o ops p h).running = true := by
      by_contra hc
      have := (h1.2.1 (by simpa using hc)).1
      rw [this] at hs; exact hc hs
    obtain ⟨h2, h3, h5⟩ := h1.2.2 hq
    -- a marker that goes on did not hit the wall
    have h3 := h3 (fun hw => by rw [(h5 hw).2] at hs; cases hs)
    have h4 : foFixed o ops (p, h) = ((foFixed o ops (p, h)).1, h) := Prod.ext rfl h1.1
    rw [h4] at hrun
    obtain ⟨i1, i2, i3⟩ := ih hk' (foFixed o ops (p, h)).1 hrun
    rw [← h4] at i1 i2 i3
    refine ⟨?_, ?_, i3⟩
    · show (foRun o l (foFixed o ops (p, h))).1.time = _
      rw [i1, h3]; push_cast [List.length_cons]; ring
    · show (foRun o l (foFixed o ops (p, h))).1.mileage = _
      rw [i2, h2]; push_cast [List.length_cons]; ring

/-! ### Guiding centers, fixed step -/

structure GcKeepTime (ops : GcFixOps K X) : Prop where
  orb : ∀ p h, (ops.orb p h).time = p.time ∧ (ops.orb p h).mileage = p.mileage
  col : ∀ p h, (ops.col p h).time = p.time ∧ (ops.col p h).mileage = p.mileage
  rf : ∀ p h, (ops.rf p h).1.time = p.time ∧ (ops.rf p h).1.mileage = p.mileage

/-- The physics of one pass without ICRH. -/
def gcPhysics (o : Opts K) (c : GcOn) (ops : GcFixOps K X) (p : GcM K X) (h : K) : GcM K X :=
  let p := if c.orbfol = true ∧ p.running = true then ops.orb p (sgn o.reverseTime * h) else p
  if c.clmbcol = true ∧ p.running = true then ops.col p h else p

theorem gcPhysics_time (o : Opts K) (c : GcOn) (ops : GcFixOps K X) (hk : GcKeepTime ops)
    (p : GcM K X) (h : K) :
    (gcPhysics o c ops p h).time = p.time ∧ (gcPhysics o c ops p h).mileage = p.mileage := by
  unfold gcPhysics
  dsimp only
  split_ifs <;> simp [hk.orb, hk.col]

theorem gcCheck_time (o : Opts K) (e : Env K) (ekin : Gc K → K) (i f : Gc K) :
    (checkGc o e ekin i f).time = f.time ∧ (checkGc o e ekin i f).mileage = f.mileage := by
  by_cases hp : f.running = true
  · have := C08.gc_rest o e ekin i f hp
    exact ⟨this.2.2.1, this.2.2.2.2.2.2.1⟩
  · rw [C08.gc_not_running _ _ _ _ _ (by simpa using hp)]; exact ⟨rfl, rfl⟩

/-- Without ICRH, one pass of the fixed-step guiding-center loop: as `fo_pass`, but a
marker that hits the wall is left at the end of the step. -/
theorem gc_pass (o : Opts K) (c : GcOn) (hic : c.icrh = false) (ops : GcFixOps K X)
    (hk : GcKeepTime ops) (s : GcFixSt K X) (hrec : s.hrec = 1) :
    let q := gcPhysics o c ops s.p s.hin
    let r := gcFixed o c ops s
    r.hin = s.hin ∧ r.hrec = 1 ∧
    (q.running = false → r.p = q ∧ r.p.time = s.p.time ∧ r.p.mileage = s.p.mileage) ∧
    (q.running = true → r.p.mileage = s.p.mileage + s.hin ∧
      r.p.time = s.p.time + sgn o.reverseTime * s.hin) := by
  intro q r
  have hq := gcPhysics_time o c ops hk s.p s.hin
  have h01 : ¬ (1 : K) < 0 := not_lt.2 zero_le_one
  have hr : r = ⟨{ (if q.running then advanceGc o.reverseTime s.hin ops.dcpu q else q) with
        toLane := checkGc o ops.env ops.ekin s.p.toGc
          (if q.running then advanceGc o.reverseTime s.hin ops.dcpu q else q).toGc },
      s.hin, s.hdef, 1⟩ := by
    simp only [r, q, gcFixed, gcPhysics, hic, Bool.false_eq_true, false_and, if_false, hrec, h01,
      along_along, ← along_eq]
    split_ifs <;> rfl
  refine ⟨by rw [hr], by rw [hr], ?_, ?_⟩
  · intro hf
    rw [hr]
    simp only [hf, Bool.false_eq_true, if_false]
    rw [C08.gc_not_running _ _ _ _ _ hf]
    exact ⟨rfl, hq.1, hq.2⟩
  · intro ht
    rw [if_pos ht] at hr
    rw [hr]
    dsimp only
    have := gcCheck_time o ops.env ops.ekin s.p.toGc (advanceGc o.reverseTime s.hin ops.dcpu q).toGc
    rw [this.1, this.2]
    simp [advanceGc, hq.1, hq.2, dir_eq, q]

/-- The passes of the loop for one marker. -/
def gcRun (o : Opts K) (c : GcOn) : List (GcFixOps K X) → GcFixSt K X → GcFixSt K X
  | [], s => s
  | ops :: l, s => gcRun o c l (gcFixed o c ops s)

theorem gc_stays_stopped (o : Opts K) (c : GcOn) (hic : c.icrh = false) (l : List (GcFixOps K X))
    (s : GcFixSt K X) (hrec : s.hrec = 1) (hk : ∀ ops ∈ l, GcKeepTime ops)
    (hs : s.p.running = false) : (gcRun o c l s).p = s.p := by
  induction l generalizing s with
  | nil => rfl
  | cons ops l ih =>
    have h := gc_pass o c hic ops (hk ops (by simp)) s hrec
    have he : gcPhysics o c ops s.p s.hin = s.p := by simp [gcPhysics, hs]
    dsimp only at h
    rw [he] at h
    have h1 := (h.2.2.1 hs).1
    have := ih _ h.2.1 (fun x hx => hk x (by simp [hx])) (by rw [h1]; exact hs)
    rw [gcRun, this, h1]

/-- Without ICRH: after any number of passes, time and mileage of a marker that is still
running.  Missing from C15: with ICRH, see `gc_icrh_time`. -/
theorem gc_time_partial (o : Opts K) (c : GcOn) (hic : c.icrh = false) (l : List (GcFixOps K X))
    (hk : ∀ ops ∈ l, GcKeepTime ops) (p : GcM K X) (h : K)
    (hrun : (gcRun o c l (gcFixedFirst p h)).p.running = true) :
    let r := gcRun o c l (gcFixedFirst p h)
    r.p.time = p.time + sgn o.reverseTime * (l.length * h) ∧
    r.p.mileage = p.mileage + l.length * h := by
  suffices hs : ∀ s : GcFixSt K X, s.hrec = 1 → (gcRun o c l s).p.running = true →
      (gcRun o c l s).p.time = s.p.time + sgn o.reverseTime * (l.length * s.hin) ∧
      (gcRun o c l s).p.mileage = s.p.mileage + l.length * s.hin by
    exact hs (gcFixedFirst p h) rfl hrun
  clear hrun
  intro s hrec hrun
  induction l generalizing s with
  | nil => simp [gcRun]
  | cons ops l ih =>
    have hk' := fun x hx => hk x (List.mem_cons_of_mem _ hx)
    have h1 := gc_pass o c hic ops (hk ops (by simp)) s hrec
    dsimp only at h1
    change (gcRun o c l (gcFixed o c ops s)).p.running = true at hrun
    have hs : (gcFixed o c ops s).p.running = true := by
      by_contra hc
      rw [gc_stays_stopped o c hic l (gcFixed o c ops s) h1.2.1 hk' (by simpa using hc)] at hrun
      exact hc hrun
    have hq : (gcPhysics o c ops s.p s.hin).running = true := by
      by_contra hc
      have := (h1.2.2.1 (by simpa using hc)).1
      rw [this] at hs; exact hc hs
    obtain ⟨h2, h3⟩ := h1.2.2.2 hq
    obtain ⟨i1, i2⟩ := ih hk' (gcFixed o c ops s) h1.2.1 hrun
    constructor
    · show (gcRun o c l (gcFixed o c ops s)).p.time = _
      rw [i1, h3, h1.1]; push_cast [List.length_cons]; ring
    · show (gcRun o c l (gcFixed o c ops s)).p.mileage = _
      rw [i2, h2, h1.1]; push_cast [List.length_cons]; ring

/-- With ICRH: a pass made with the step `s.hin` and accepted advances time and mileage by
the default step of the lane instead. -/
theorem gc_icrh_time (o : Opts K) (c : GcOn) (hic : c.icrh = true) (ops : GcFixOps K X)
    (hk : GcKeepTime ops) (s : GcFixSt K X) (hrec : s.hrec = 1)
    (hq : (gcPhysics o c ops s.p s.hin).running = true)
    (hrf : (ops.rf (gcPhysics o c ops s.p s.hin) s.hin).1.running = true)
    (hacc : 0 ≤ (ops.rf (gcPhysics o c ops s.p s.hin) s.hin).2) :
    (gcFixed o c ops s).p.time = s.p.time + sgn o.reverseTime * s.hdef ∧
    (gcFixed o c ops s).p.mileage = s.p.mileage + s.hdef ∧ (gcFixed o c ops s).hin = s.hdef := by
  have h01 : ¬ (1 : K) < 0 := not_lt.2 zero_le_one
  have ht := gcPhysics_time o c ops hk s.p s.hin
  have ht2 := hk.rf (gcPhysics o c ops s.p s.hin) s.hin
  have e1 : gcPhysics o c ops s.p s.hin = (if c.clmbcol = true ∧
      (if c.orbfol = true ∧ s.p.running = true then ops.orb s.p (along o.reverseTime s.hin)
        else s.p).running = true then
      ops.col (if c.orbfol = true ∧ s.p.running = true then ops.orb s.p (along o.reverseTime s.hin)
        else s.p) s.hin
      else (if c.orbfol = true ∧ s.p.running = true then ops.orb s.p (along o.reverseTime s.hin)
        else s.p)) := by
    rw [along_eq]; rfl
  have hr : gcFixed o c ops s =
      ⟨{ advanceGc o.reverseTime s.hdef ops.dcpu (ops.rf (gcPhysics o c ops s.p s.hin) s.hin).1 with
        toLane := checkGc o ops.env ops.ekin s.p.toGc (advanceGc o.reverseTime s.hdef ops.dcpu
          (ops.rf (gcPhysics o c ops s.p s.hin) s.hin).1).toGc },
        s.hdef, s.hdef, 1⟩ := by
    unfold gcFixed
    simp only [along_along, ← e1]
    simp only [hic, hq, not_lt.2 hacc, and_self, and_false, if_true, if_false, hrf, hrec, h01]
  have := gcCheck_time o ops.env ops.ekin s.p.toGc (advanceGc o.reverseTime s.hdef ops.dcpu
    (ops.rf (gcPhysics o c ops s.p s.hin) s.hin).1).toGc
  rw [hr]
  dsimp only
  rw [this.1, this.2]
  simp [advanceGc, ht.1, ht.2, ht2.1, ht2.2, dir_eq]

/-- With ICRH: a step that RFOF rejects leaves time and mileage, and is retried with the
shorter step suggested by RFOF. -/
theorem gc_icrh_rejected (o : Opts K) (c : GcOn) (hic : c.icrh = true) (ops : GcFixOps K X)
    (s : GcFixSt K X) (hrun : s.p.running = true)
    (hq : (gcPhysics o c ops s.p s.hin).running = true)
    (hrf : (ops.rf (gcPhysics o c ops s.p s.hin) s.hin).1.running = true)
    (hacc : (ops.rf (gcPhysics o c ops s.p s.hin) s.hin).2 < 0) :
    (gcFixed o c ops s).p.time = s.p.time ∧ (gcFixed o c ops s).p.mileage = s.p.mileage ∧
    (gcFixed o c ops s).hin = -(ops.rf (gcPhysics o c ops s.p s.hin) s.hin).2 ∧
    (gcFixed o c ops s).hdef = s.hdef ∧ (gcFixed o c ops s).hrec = 1 := by
  have e1 : gcPhysics o c ops s.p s.hin = (if c.clmbcol = true ∧
      (if c.orbfol = true ∧ s.p.running = true then ops.orb s.p (along o.reverseTime s.hin)
        else s.p).running = true then
      ops.col (if c.orbfol = true ∧ s.p.running = true then ops.orb s.p (along o.reverseTime s.hin)
        else s.p) s.hin
      else (if c.orbfol = true ∧ s.p.running = true then ops.orb s.p (along o.reverseTime s.hin)
        else s.p)) := by
    rw [along_eq]; rfl
  have hc : ∀ p : GcM K X, (copyGc s.p p).running = s.p.running := fun _ => rfl
  have hr : gcFixed o c ops s =
      ⟨{ copyGc s.p { (ops.rf (gcPhysics o c ops s.p s.hin) s.hin).1 with running := false } with
        toLane := checkGc o ops.env ops.ekin s.p.toGc (copyGc s.p
          { (ops.rf (gcPhysics o c ops s.p s.hin) s.hin).1 with running := false }).toGc },
        -(ops.rf (gcPhysics o c ops s.p s.hin) s.hin).2, s.hdef, 1⟩ := by
    unfold gcFixed
    simp only [along_along, ← e1]
    simp only [hic, hq, hacc, and_self, if_true, hrf, hc, hrun]
  have := gcCheck_time o ops.env ops.ekin s.p.toGc (copyGc s.p
    { (ops.rf (gcPhysics o c ops s.p s.hin) s.hin).1 with running := false }).toGc
  rw [hr]
  dsimp only
  rw [this.1, this.2]
  exact ⟨rfl, rfl, rfl, rfl, rfl⟩

/-- Operators that do nothing except that RFOF rejects steps longer than 1/2. -/
def exFix : GcFixOps ℚ Unit where
  orb p _ := p
  col p _ := p
  rf p h := (p, if h > 1 / 2 then -1 / 2 else 1)
  dcpu := 0
  env := C07.exEnv
  ekin := fun _ => 5

def exGc : GcM ℚ Unit := { exSt.p with time := 0, mileage := 0 }

/-- No conditions are enabled. -/
def exNone : Opts ℚ := { C07.exOpts with active := 0 }

/-- Witness against C15 with ICRH: a default step of 1 is rejected once, the retry is made
with the step 1/2 and accepted, and the marker time then is 1. -/
theorem gc_icrh_fails :
    let c : GcOn := ⟨true, false, true⟩
    let s1 := gcFixed exNone c exFix (gcFixedFirst exGc 1)
    let s2 := gcFixed exNone c exFix s1
    s1.p.time = 0 ∧ s1.hin = 1 / 2 ∧ s2.p.time = 1 ∧ s2.p.mileage = 1 := by
  intro c s1 s2
  have h1 := gc_icrh_rejected exNone c rfl exFix (gcFixedFirst exGc 1) rfl rfl rfl
    (by norm_num [exFix, gcFixedFirst])
  have hh : (gcFixed exNone c exFix (gcFixedFirst exGc 1)).hin = 1 / 2 := by
    rw [h1.2.2.1]; norm_num [exFix, gcFixedFirst]
  have hrun : s1.p.running = true := by
    norm_num [s1, gcFixed, gcFixedFirst, exFix, exGc, exNone, exSt, C07.exOpts, C07.exLane, c, along,
      copyGc, checkGc, stepErr, stepHybrid, stepCpu, stepOrb, maxorb, stepRho, stepEnergy, stepWall,
      stepTlim, stepBounce]
  have hp : gcPhysics exNone c exFix s1.p s1.hin = s1.p := by
    simp [gcPhysics, exFix]
  have h2 := gc_icrh_time exNone c rfl exFix ⟨fun _ _ => ⟨rfl, rfl⟩, fun _ _ => ⟨rfl, rfl⟩,
    fun _ _ => ⟨rfl, rfl⟩⟩ s1 h1.2.2.2.2 (by rw [hp]; exact hrun) (by rw [hp]; exact hrun) (by
      change (0 : ℚ) ≤ if s1.hin > 1 / 2 then -1 / 2 else 1
      rw [show s1.hin = 1 / 2 from hh]; norm_num)
  refine ⟨h1.1, hh, ?_, ?_⟩
  · rw [h2.1, h1.1, h1.2.2.2.1]; norm_num [sgn, exNone, C07.exOpts, gcFixedFirst, exGc]
  · rw [h2.2.1, h1.2.1, h1.2.2.2.1]; norm_num [gcFixedFirst, exGc]

/-- The hypotheses of `gc_time_partial` can be met. -/
example : (gcRun exNone ⟨true, false, false⟩ [exFix, exFix] (gcFixedFirst exGc 3)).p.time = 6 := by
  have h := gc_time_partial exNone ⟨true, false, false⟩ rfl [exFix, exFix] (by
    intro ops ho
    have : ops = exFix := by simpa using ho
    subst this
    exact ⟨fun _ _ => ⟨rfl, rfl⟩, fun _ _ => ⟨rfl, rfl⟩, fun _ _ => ⟨rfl, rfl⟩⟩) exGc 3 (by
    norm_num [gcRun, gcFixed, gcFixedFirst, exFix, exGc, exNone, exSt, C07.exOpts, C07.exLane, along,
      advanceGc, checkGc, stepErr, stepHybrid, stepCpu, stepOrb, maxorb, stepRho, stepEnergy, stepWall,
      stepTlim, stepBounce])
  rw [h.1]; norm_num [sgn, exNone, C07.exOpts, exGc, exSt]

end Ascot.C15

namespace Ascot.C16
open Ascot.EndCond Ascot.TimeLoop Ascot.C13 Ascot.C15

variable {K X : Type} [Field K] [LinearOrder K] [IsStrictOrderedRing K] [FloorRing K]

/-- What is assumed of the integrators: the suggestion for the next step is not zero (its
sign tells whether the step was accepted), and time and mileage are left to the main
loop. -/
structure Sound (ops : AdaOps K X) : Prop where
  orb : ∀ p h, h ≠ 0 → (ops.orb p h).2 ≠ 0
  col : ∀ p h a, 0 < h → (ops.col p h a).1.2 ≠ 0
  rf : ∀ p h, 0 < h → (ops.rf p h).2 ≠ 0
  orbTime : ∀ p h, (ops.orb p h).1.time = p.time ∧ (ops.orb p h).1.mileage = p.mileage
  colTime : ∀ p h a, (ops.col p h a).1.1.time = p.time ∧ (ops.col p h a).1.1.mileage = p.mileage
  rfTime : ∀ p h, (ops.rf p h).1.time = p.time ∧ (ops.rf p h).1.mileage = p.mileage

theorem reject_time (p : GcM K X) (a b : K) :
    (reject p a b).1.time = p.time ∧ (reject p a b).1.mileage = p.mileage := by
  unfold reject; split <;> exact ⟨rfl, rfl⟩

theorem reject_running {p : GcM K X} {a b : K} (h : (reject p a b).1.running = true) :
    p.running = true ∧ 0 ≤ a ∧ (reject p a b).2 = b := by
  unfold reject at h ⊢
  split at h
  · cases h
  · rename_i hn
    refine ⟨h, ?_, ?_⟩
    · by_contra hc; exact hn ⟨h, not_le.1 hc⟩
    · rw [if_neg hn]

theorem along_ne (b : Bool) {h : K} (hh : h ≠ 0) : along b h ≠ 0 := by
  cases b <;> simp [along, hh]

theorem trial_time (o : Opts K) (c : AdaCfg K) (ops : AdaOps K X) (hs : Sound ops) (s : AdaSt K X) :
    (gcTrial o c ops s).p.time = s.p.time ∧ (gcTrial o c ops s).p.mileage = s.p.mileage ∧
    (gcTrial o c ops s).acc.acc = s.acc.acc := by
  unfold gcTrial
  dsimp only
  cases c.on.orbfol <;> cases c.on.clmbcol <;> cases c.on.icrh <;>
    simp only [Bool.false_eq_true, if_false, if_true, reject_time, and_self, and_true] <;>
    split_ifs <;> simp [reject_time, hs.orbTime, hs.colTime, hs.rfTime]

theorem trial_running (o : Opts K) (c : AdaCfg K) (hon : c.on.orbfol = true) (ops : AdaOps K X)
    (hs : Sound ops) (s : AdaSt K X) (hh : 0 < s.hin) (hr : (gcTrial o c ops s).p.running = true) :
    (gcTrial o c ops s).hnext = 1 ∧ 0 < (gcTrial o c ops s).ho ∧ 0 < (gcTrial o c ops s).hc ∧
    0 < (gcTrial o c ops s).hr := by
  unfold gcTrial at hr ⊢
  simp only [hon, if_true, along_along] at hr ⊢
  set q := (if s.p.running = true then ops.orb s.p (along o.reverseTime s.hin) else (s.p, 1)) with hq
  set t := reject q.1 (along o.reverseTime q.2) 1 with ht
  set q2 := (if t.1.running = true then ops.col t.1 s.hin s.acc.acc else ((t.1, 1), s.acc.collfreq)) with hq2
  set u : (GcM K X × K) × K × Acc K := (if c.on.clmbcol = true then
      (reject q2.1.1 q2.1.2 t.2, q2.1.2, { s.acc with collfreq := q2.2 }) else (t, 1, s.acc)) with hu
  set q3 := (if u.1.1.running = true then ops.rf u.1.1 s.hin else (u.1.1, 1)) with hq3
  set v : (GcM K X × K) × K := (if c.on.icrh = true then (reject q3.1 q3.2 u.1.2, q3.2) else (u.1, 1)) with hv
  clear_value v
  have hq3r : q3.1.running = true → u.1.1.running = true := by
    intro h; by_contra hc
    rw [hq3, if_neg hc] at h; exact hc h
  have h3 : u.1.1.running = true ∧ v.1.2 = u.1.2 ∧ 0 < v.2 := by
    cases hc : c.on.icrh
    · rw [hc] at hv
      simp only [Bool.false_eq_true, if_false] at hv
      subst hv
      exact ⟨hr, rfl, one_pos⟩
    · rw [hc] at hv
      simp only [if_true] at hv
      subst hv
      obtain ⟨a1, a2, a3⟩ := reject_running hr
      have a4 := hq3r a1
      refine ⟨a4, a3, lt_of_le_of_ne a2 (Ne.symm ?_)⟩
      rw [hq3, if_pos a4]; exact hs.rf _ _ hh
  have hq2r : q2.1.1.running = true → t.1.running = true := by
    intro h; by_contra hc
    rw [hq2, if_neg hc] at h; exact hc h
  have h2 : t.1.running = true ∧ u.1.2 = t.2 ∧ 0 < u.2.1 := by
    have hur := h3.1
    clear_value u
    cases hc : c.on.clmbcol
    · rw [hc] at hu
      simp only [Bool.false_eq_true, if_false] at hu
      subst hu
      exact ⟨hur, rfl, one_pos⟩
    · rw [hc] at hu
      simp only [if_true] at hu
      subst hu
      obtain ⟨a1, a2, a3⟩ := reject_running hur
      have a4 := hq2r a1
      refine ⟨a4, a3, lt_of_le_of_ne a2 (Ne.symm ?_)⟩
      rw [hq2, if_pos a4]; exact hs.col _ _ _ hh
  have hqr : q.1.running = true → s.p.running = true := by
    intro h; by_contra hc
    rw [hq, if_neg hc] at h; exact hc h
  obtain ⟨a1, a2, a3⟩ := reject_running h2.1
  refine ⟨by rw [h3.2.1, h2.2.1, a3], lt_of_le_of_ne a2 (Ne.symm (along_ne _ ?_)), h2.2.2, h3.2.2⟩
  rw [hq, if_pos (hqr a1)]
  exact hs.orb _ _ (along_ne _ hh.ne')

theorem recalc_acc (safety : K) (axis : K × K) (a : Acc K) (p p0 : GcM K X) (ha : 1 ≤ a.acc) :
    1 ≤ (recalc safety axis a p p0).acc := by
  unfold recalc
  dsimp only
  split_ifs <;> simp [ha]

theorem trial_hin (o : Opts K) (c : AdaCfg K) (hon : c.on.orbfol = true) (ops : AdaOps K X)
    (s : AdaSt K X) : (gcTrial o c ops s).hin = s.hin := by
  simp [gcTrial, hon, along_along]

theorem trial_hnext (o : Opts K) (c : AdaCfg K) (ops : AdaOps K X)
    (s : AdaSt K X) (hneg : ¬ (gcTrial o c ops s).hnext < 0) : (gcTrial o c ops s).hnext = 1 := by
  have key : ∀ (p : GcM K X) (a b : K), (b < 0 ∨ b = 1) → ((reject p a b).2 < 0 ∨ (reject p a b).2 = 1) := by
    intro p a b hb; unfold reject; split
    · rename_i h; exact .inl h.2
    · exact hb
  rcases (show (gcTrial o c ops s).hnext < 0 ∨ (gcTrial o c ops s).hnext = 1 by
    unfold gcTrial
    dsimp only
    cases c.on.orbfol <;> cases c.on.clmbcol <;> cases c.on.icrh <;>
      simp only [Bool.false_eq_true, if_false, if_true] <;>
      first
        | exact .inr rfl
        | exact .inr trivial
        | exact key _ _ _ (.inr rfl)
        | exact key _ _ _ (key _ _ _ (.inr rfl))
        | exact key _ _ _ (key _ _ _ (key _ _ _ (.inr rfl)))) with h | h
  · exact absurd h hneg
  · exact h

/-- One pass: the step length stays positive, the acceleration stays at least one, and
time and mileage advance by the same amount, `hin` times the acceleration or nothing. -/
theorem gc_pass (o : Opts K) (c : AdaCfg K) (hon : c.on.orbfol = true) (ops : AdaOps K X)
    (hs : Sound ops) (s : AdaSt K X) (hh : 0 < s.hin) (ha : 1 ≤ s.acc.acc) :
    let r := gcAda o c ops s
    0 < r.hin ∧ 1 ≤ r.acc.acc ∧
    ((r.p.time = s.p.time ∧ r.p.mileage = s.p.mileage) ∨
     (r.p.time = s.p.time + sgn o.reverseTime * (s.hin * s.acc.acc) ∧
      r.p.mileage = s.p.mileage + s.hin * s.acc.acc)) := by
  intro r
  have key : ∀ t : Trial K X, t.hin = s.hin → t.p.time = s.p.time → t.p.mileage = s.p.mileage →
      t.acc.acc = s.acc.acc →
      (t.p.running = true → t.hnext = 1 ∧ 0 < t.ho ∧ 0 < t.hc ∧ 0 < t.hr) →
      (¬ t.hnext < 0 → t.hnext = 1) →
      let u := adaUpdate o c ops.dcpu s.p t.p t.hin t.hnext t.ho t.hc t.hr t.acc
      0 < u.hin ∧ u.acc.acc = s.acc.acc ∧
      ((u.p.time = s.p.time ∧ u.p.mileage = s.p.mileage) ∨
       (u.p.time = s.p.time + sgn o.reverseTime * (s.hin * s.acc.acc) ∧
        u.p.mileage = s.p.mileage + s.hin * s.acc.acc)) := by
    intro t h1 h2 h3 h4 h5 h6 u
    simp only [u]
    unfold adaUpdate
    by_cases hid : t.p.id > 0 ∧ t.p.err = 0
    swap
    · rw [if_neg hid]; exact ⟨by rw [h1]; exact hh, h4, .inl ⟨h2, h3⟩⟩
    rw [if_pos hid]
    dsimp only
    -- the recommendation after the limits
    obtain ⟨n, hn, hn'⟩ : ∃ n, (if t.hnext > 0 then
        if |s.p.phi - t.p.phi| / c.maxDphi > 1 ∧
            |s.p.phi - t.p.phi| / c.maxDphi > |s.p.rho - t.p.rho| / c.maxDrho then
          -t.hin / (|s.p.phi - t.p.phi| / c.maxDphi)
        else if |s.p.rho - t.p.rho| / c.maxDrho > 1 ∧
            |s.p.rho - t.p.rho| / c.maxDrho > |s.p.phi - t.p.phi| / c.maxDphi then
          -t.hin / (|s.p.rho - t.p.rho| / c.maxDrho)
        else t.hnext else t.hnext) = n ∧ (n < 0 ∨ (n = t.hnext ∧ ¬ n < 0)) := by
      refine ⟨_, rfl, ?_⟩
      by_cases hneg : t.hnext < 0
      · left; rw [if_neg (by linarith)]; exact hneg
      · by_cases hover : OverLimit c.maxDphi c.maxDrho s.p.phi t.p.phi s.p.rho t.p.rho
        · left
          obtain ⟨g1, g2, g3⟩ := overLimit_cases (hin := t.hin)
            (show 0 < t.hnext by rw [h6 hneg]; exact one_pos) (by rw [h1]; exact hh) hover
          rw [g1]; linarith
        · right; rw [notOver_cases hover]; exact ⟨rfl, hneg⟩
    rw [hn]
    rcases hn' with hneg | ⟨he, hnn⟩
    · simp only [if_pos hneg]
      by_cases hrun : (copyGc s.p t.p).running = true
      · rw [if_pos hrun]
        exact ⟨by dsimp only; linarith, h4, .inl ⟨rfl, rfl⟩⟩
      · rw [if_neg hrun]
        exact ⟨by dsimp only; rw [h1]; exact hh, h4, .inl ⟨rfl, rfl⟩⟩
    · simp only [if_neg hnn]
      by_cases hrun : t.p.running = true
      · obtain ⟨k1, k2, k3, k4⟩ := h5 hrun
        rw [if_pos hrun]
        refine ⟨?_, ?_, .inr ⟨?_, ?_⟩⟩
        · dsimp only
          rw [he, k1, h1]
          split_ifs <;> first | assumption | exact one_pos
        · dsimp only; split_ifs <;> exact h4
        · dsimp only; rw [h2, h1, h4, dir_eq]; ring
        · dsimp only; rw [h3, h1, h4]
      · rw [if_neg hrun]; exact ⟨by dsimp only; rw [h1]; exact hh, h4, .inl ⟨h2, h3⟩⟩
  have ht := trial_time o c ops hs s
  obtain ⟨k1, k2, k3⟩ := key (gcTrial o c ops s) (trial_hin o c hon ops s) ht.1 ht.2.1 ht.2.2
    (trial_running o c hon ops hs s hh) (trial_hnext o c ops s)
  have hc := gcCheck_time o ops.env ops.ekin s.p.toGc (adaUpdate o c ops.dcpu s.p (gcTrial o c ops s).p
    (gcTrial o c ops s).hin (gcTrial o c ops s).hnext (gcTrial o c ops s).ho (gcTrial o c ops s).hc
    (gcTrial o c ops s).hr (gcTrial o c ops s).acc).p.toGc
  refine ⟨k1, ?_, ?_⟩
  · simp only [r, gcAda]
    split
    · exact recalc_acc _ _ _ _ _ (by rw [k2]; exact ha)
    · rw [k2]; exact ha
  · simp only [r, gcAda]
    rw [hc.1, hc.2]
    exact k3

/-- The passes of the loop for one marker. -/
def adaRun (o : Opts K) (c : AdaCfg K) : List (AdaOps K X) → AdaSt K X → AdaSt K X
  | [], s => s
  | ops :: l, s => adaRun o c l (gcAda o c ops s)

/-- With orbit following enabled: over any sequence of passes, accepted or rejected, time
moves in the direction chosen by the user by some `d ≥ 0`, and mileage grows by the same
`d`.  In reversed time, time never increases.
Missing from C16: simulations without orbit following, see `orbfol_off_forward`. -/
theorem gc_direction_partial (o : Opts K) (c : AdaCfg K) (hon : c.on.orbfol = true)
    (l : List (AdaOps K X)) (hs : ∀ ops ∈ l, Sound ops) (s : AdaSt K X) (hh : 0 < s.hin)
    (ha : 1 ≤ s.acc.acc) :
    let r := adaRun o c l s
    0 < r.hin ∧ 1 ≤ r.acc.acc ∧ ∃ d, 0 ≤ d ∧ r.p.time = s.p.time + sgn o.reverseTime * d ∧
      r.p.mileage = s.p.mileage + d := by
  induction l generalizing s with
  | nil => exact ⟨hh, ha, 0, le_refl _, by simp [adaRun], by simp [adaRun]⟩
  | cons ops l ih =>
    obtain ⟨g1, g2, g3⟩ := gc_pass o c hon ops (hs ops (by simp)) s hh ha
    obtain ⟨i1, i2, d, i3, i4, i5⟩ := ih (fun x hx => hs x (by simp [hx])) (gcAda o c ops s) g1 g2
    refine ⟨i1, i2, ?_⟩
    show ∃ d, 0 ≤ d ∧ (adaRun o c l (gcAda o c ops s)).p.time = _ ∧
      (adaRun o c l (gcAda o c ops s)).p.mileage = _
    rw [i4, i5]
    rcases g3 with ⟨e1, e2⟩ | ⟨e1, e2⟩
    · exact ⟨d, i3, by rw [e1], by rw [e2]⟩
    · refine ⟨s.hin * s.acc.acc + d, ?_, ?_, ?_⟩
      · have : 0 < s.hin * s.acc.acc := mul_pos hh (by linarith)
        linarith
      · rw [e1]; ring
      · rw [e2]; ring

/-- `ops` with orbit following replaced. -/
def withOrb (f : GcM K X → K → GcM K X × K) (ops : AdaOps K X) : AdaOps K X := { ops with orb := f }

/-- In reversed time only negative steps are given to the integrator of the orbit: what it
does with other steps never matters. -/
theorem orbit_steps_negative_partial (o : Opts K) (hrev : o.reverseTime = true) (c : AdaCfg K)
    (hon : c.on.orbfol = true) (f : GcM K X → K → GcM K X × K)
    (l : List (AdaOps K X)) (hs : ∀ ops ∈ l, Sound ops)
    (hf : ∀ ops ∈ l, ∀ p h, h < 0 → f p h = ops.orb p h) (s : AdaSt K X) (hh : 0 < s.hin)
    (ha : 1 ≤ s.acc.acc) :
    adaRun o c (l.map (withOrb f)) s = adaRun o c l s := by
  induction l generalizing s with
  | nil => rfl
  | cons ops l ih =>
    have h1 : gcAda o c (withOrb f ops) s = gcAda o c ops s := by
      have ht : gcTrial o c (withOrb f ops) s = gcTrial o c ops s := by
        have : f s.p (along o.reverseTime s.hin) = ops.orb s.p (along o.reverseTime s.hin) :=
          hf ops (by simp) _ _ (by rw [hrev]; simpa [along] using hh)
        unfold gcTrial withOrb
        simp only [this]
      unfold gcAda
      rw [ht]
      rfl
    show adaRun o c (l.map (withOrb f)) (gcAda o c (withOrb f ops) s) = adaRun o c l (gcAda o c ops s)
    rw [h1]
    obtain ⟨g1, g2, -⟩ := gc_pass o c hon ops (hs ops (by simp)) s hh ha
    exact ih (fun x hx => hs x (by simp [hx])) (fun x hx => hf x (by simp [hx])) _ g1 g2

/-- Without orbit following, in reversed time: the collision operator gets a negative step
and an accepted step moves time forwards. -/
theorem orbfol_off_forward : ∃ (o : Opts ℚ) (c : AdaCfg ℚ) (ops : AdaOps ℚ Unit) (s : AdaSt ℚ Unit),
    o.reverseTime = true ∧ Sound ops ∧ 0 < s.hin ∧ s.acc.acc = 1 ∧ (gcAda o c ops s).p.err = 0 ∧
    s.p.time < (gcAda o c ops s).p.time ∧ (gcAda o c ops s).p.mileage < s.p.mileage := by
  refine ⟨{ exNone with reverseTime := true }, { exCfg with on := ⟨false, false, false⟩ }, exOps 0 0 1,
    exSt, rfl, ?_, by norm_num [exSt], by norm_num [exSt, exAcc], ?_, ?_, ?_⟩
  · constructor <;> intros <;> simp_all [exOps]
  all_goals
    norm_num [gcAda, adaUpdate, gcTrial, exCfg, exOps, exSt, exAcc, exNone, C07.exOpts, C07.exLane, along, dir,
      checkGc, stepErr, stepHybrid, stepCpu, stepOrb, maxorb, stepRho, stepEnergy, stepWall, stepTlim,
      stepBounce]

/-- The hypotheses of `gc_direction_partial` can be met, and the time does decrease. -/
example : (adaRun { exNone with reverseTime := true } exCfg [exOps 0 0 1] exSt).p.time < exSt.p.time ∧
    Sound (exOps 0 0 1) ∧ 0 < exSt.hin ∧ 1 ≤ exSt.acc.acc := by
  refine ⟨?_, ?_, by norm_num [exSt], by norm_num [exSt, exAcc]⟩
  · norm_num [adaRun, gcAda, adaUpdate, gcTrial, exCfg, exOps, exSt, exAcc, exNone, C07.exOpts, C07.exLane,
      along, dir, reject,
      checkGc, stepErr, stepHybrid, stepCpu, stepOrb, maxorb, stepRho, stepEnergy, stepWall, stepTlim,
      stepBounce]
  · constructor <;> intros <;> simp_all [exOps]

end Ascot.C16
