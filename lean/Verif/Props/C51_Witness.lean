import Verif.Props.C92_Mccc

set_option linter.unusedSectionVars false
set_option linter.unusedSimpArgs false

/-!
# C51, C91-C93: concrete cases and violations

One marker in a uniform vertical field with a plasma of one species that flows with a given speed.
-/
namespace Ascot.C51
open Ascot.Coord Ascot.Physlib Ascot.GcStep Ascot.Mccc Ascot.C92

/-- Units in which the speed of light is 10. -/
noncomputable def units : MConsts := ⟨10, 1, 1, 0⟩
/-- A uniform vertical field. -/
def upward : Jac := ⟨⟨0, 0, 0, 0⟩, ⟨0, 0, 0, 0⟩, ⟨1, 0, 0, 0⟩⟩
/-- Evaluations that always succeed. -/
def calm : Fields := ⟨fun _ _ _ _ => .ok upward, fun _ _ _ _ => .ok ⟨0, 0, 0⟩, fun _ _ _ _ => .ok 0, fun _ => .ok 0,
  fun _ => ((0, 0), 0), fun _ _ _ _ => .error 1⟩
/-- One species. -/
def ion : Species := ⟨1, 1, 1, 1⟩
/-- The plasma, with density `n`, and its flow. -/
def bath (n vflow : ℝ) : Plasma := ⟨fun _ _ _ _ _ => .ok vflow, fun _ _ _ _ _ => .ok [⟨1, 1, n, 1⟩]⟩
/-- A marker whose momentum is perpendicular to the field. -/
noncomputable def mark : Gc := ⟨![1, 0, 0, 0, 1 / 2, 0], 0, 1, 1, upward, 0, 0, 0, true⟩

theorem bath_honest (n vflow : ℝ) : PlasmaHonest (bath n vflow) := ⟨fun _ _ _ _ _ _ h => by simp [bath] at h, fun _ _ _ _ _ _ h => by simp [bath] at h⟩
theorem calm_honest : FieldHonest calm := ⟨fun _ _ _ _ _ h => by simp [calm] at h, fun _ _ _ _ _ h => by simp [calm] at h, fun _ _ h => by simp [calm] at h⟩

theorem mark_B : V3.norm Real.sqrt (fieldOf mark) = 1 := by simp [V3.norm, fieldOf, mark, upward]

theorem mark_ok (vflow : ℝ) : InOk units vflow mark ∧ |(inOf units vflow mark).xi| ≤ 1 := by
  have hmu : mark.y 4 = 1 / 2 := rfl
  have hm : mark.mass = 1 := rfl
  have h := C46.moment_to_pitch (c := units.c) (m := mark.mass) (mu := mark.y 4) (ppar := pparFlow units vflow mark)
    (B := V3.norm Real.sqrt (fieldOf mark)) (by norm_num [units]) (by norm_num [hm]) (by norm_num [hmu]) (by rw [mark_B]; norm_num)
    (.inl (by norm_num [hmu]))
  refine ⟨⟨by norm_num [hm], ?_, h.2.2.2.ne', ?_, ?_⟩, h.2.2.1⟩
  · show V3.norm Real.sqrt (fieldOf mark) ≠ 0
    rw [mark_B]
    norm_num
  · show 0 ≤ 1 + 2 * mark.y 4 * V3.norm Real.sqrt (fieldOf mark) / (mark.mass * (units.c * units.c)) +
      mark.y 3 * mark.y 3 / (mark.mass * mark.mass * (units.c * units.c))
    rw [mark_B, hmu, hm]
    have := mul_self_nonneg (mark.y 3)
    have : (0 : ℝ) < units.c * units.c := by norm_num [units]
    positivity
  · show 0 ≤ 2 * mark.y 4 * V3.norm Real.sqrt (fieldOf mark) / (mark.mass * (units.c * units.c)) +
      pparFlow units vflow mark * pparFlow units vflow mark / (mark.mass * mark.mass * (units.c * units.c))
    rw [mark_B, hmu, hm]
    have := mul_self_nonneg (pparFlow units vflow mark)
    have : (0 : ℝ) < units.c * units.c := by norm_num [units]
    positivity

theorem units_c : (0 : ℝ) < units.c := by norm_num [units]

theorem bath_clog {n va : ℝ} (hn : 0 < n) : (n ≤ 1 → 0 < clog units.e0 units.hbar 1 1 va [⟨1, 1, n, 1⟩] ⟨1, 1, n, 1⟩) ∧
    (8 * (va * va + 2) ^ 2 * 16 < n → clog units.e0 units.hbar 1 1 va [⟨1, 1, n, 1⟩] ⟨1, 1, n, 1⟩ < 0) ∧
    0 < max (bcl units.e0 1 1 va ⟨1, 1, n, 1⟩) (bqm units.hbar 1 va ⟨1, 1, n, 1⟩) := by
  have hpi := Real.pi_gt_three
  have hpi4 := Real.pi_le_four
  have hva : 0 ≤ va * va := mul_self_nonneg va
  have hd : debye units.e0 [⟨1, 1, n, 1⟩] = Real.sqrt (1 / n) := by simp [debye, units]
  have hvb : vbar va ⟨1, 1, n, 1⟩ = va * va + 2 := by simp [vbar]
  have hmr : mred 1 ⟨1, 1, n, 1⟩ = 1 / 2 := by norm_num [mred]
  have hw : 2 ≤ va * va + 2 := by linarith
  have hs : 1 < Real.sqrt (va * va + 2) := by
    rw [Real.lt_sqrt (by norm_num)]
    linarith
  have hcl : bcl units.e0 1 1 va ⟨1, 1, n, 1⟩ = 1 / (2 * Real.pi * (va * va + 2)) := by
    unfold bcl
    rw [hvb, hmr]
    have : (4 * Real.pi * units.e0 * (1 / 2) * (va * va + 2)) = 2 * Real.pi * (va * va + 2) := by
      show 4 * Real.pi * 1 * (1 / 2) * (va * va + 2) = _
      ring
    rw [this, one_mul, abs_of_pos (by positivity)]
  have hqm : bqm units.hbar 1 va ⟨1, 1, n, 1⟩ = 1 / Real.sqrt (va * va + 2) := by
    unfold bqm
    rw [hvb, hmr, abs_of_pos (by simp only [units]; positivity)]
    simp [units]
  have c0 : 0 < bcl units.e0 1 1 va ⟨1, 1, n, 1⟩ := by rw [hcl]; positivity
  have q0 : 0 < bqm units.hbar 1 va ⟨1, 1, n, 1⟩ := by rw [hqm]; positivity
  have hc1 : bcl units.e0 1 1 va ⟨1, 1, n, 1⟩ < 1 := by
    rw [hcl, div_lt_one (by positivity)]
    nlinarith
  have hq1 : bqm units.hbar 1 va ⟨1, 1, n, 1⟩ < 1 := by
    rw [hqm, div_lt_one (by positivity)]
    exact hs
  refine ⟨fun h1 => ?_, fun h1 => ?_, lt_max_of_lt_left c0⟩
  · have hD : 1 ≤ debye units.e0 [⟨1, 1, n, 1⟩] := by
      rw [hd, Real.one_le_sqrt, le_div_iff₀ hn]
      linarith
    unfold clog
    split
    · exact Real.log_pos (by rw [lt_div_iff₀ c0]; linarith)
    · exact Real.log_pos (by rw [lt_div_iff₀ q0]; linarith)
  · have hD : debye units.e0 [⟨1, 1, n, 1⟩] < 1 / (8 * (va * va + 2)) := by
      rw [hd, Real.sqrt_lt' (by positivity), div_pow, one_pow]
      apply one_div_lt_one_div_of_lt (by positivity)
      nlinarith
    have hD0 : 0 < debye units.e0 [⟨1, 1, n, 1⟩] := by
      rw [hd]
      exact Real.sqrt_pos.2 (by positivity)
    have hDc : debye units.e0 [⟨1, 1, n, 1⟩] < bcl units.e0 1 1 va ⟨1, 1, n, 1⟩ := by
      refine lt_of_lt_of_le hD ?_
      rw [hcl]
      apply one_div_le_one_div_of_le (by positivity)
      nlinarith
    unfold clog
    split
    · exact Real.log_neg (by positivity) (by rw [div_lt_one c0]; exact hDc)
    · next hge =>
      have := not_lt.1 hge
      exact Real.log_neg (by positivity) (by rw [div_lt_one q0]; linarith)

theorem bath_ok {n va : ℝ} (hn : 0 < n) : PlasmaOk units 1 1 va [⟨1, 1, n, 1⟩] := by
  refine ⟨by simp, ?_, by simpa using hn, by norm_num [units], ?_, one_ne_zero⟩
  · intro b hb
    simp at hb
    subst hb
    norm_num
  · intro b hb
    simp at hb
    subst hb
    exact (bath_clog hn).2.2

theorem bath_physical (n : ℝ) : C90.Physical [⟨1, 1, n, 1⟩] := by
  intro b hb
  simp at hb
  subst hb
  norm_num

theorem mark_coefs (o : Options) (ht : o.tab = false) (vflow : ℝ) : ∃ k, coefs units o mark (inOf units vflow mark) [⟨1, 1, 1, 1⟩] = some k ∧
    0 < k.Dpara ∧ 0 < k.nu ∧ CoefOk (inOf units vflow mark).xi k := by
  obtain ⟨hok, hxi⟩ := mark_ok vflow
  have hv := (in_v units_c hok).1
  have hcl := (bath_clog (n := 1) (va := (inOf units vflow mark).v) one_pos).1 le_rfl
  obtain ⟨k, hk, h1, h2, h3, h4⟩ := coefficients_nonneg (C := units) (o := o) (s := mark) (i := inOf units vflow mark) (sp := [⟨1, 1, 1, 1⟩])
    ht (bath_physical 1) hv hxi (by
      intro b hb
      simp at hb
      subst hb
      exact ⟨by norm_num, hcl.le⟩)
  obtain ⟨k', hk', _, _, k3, _, k5, _⟩ := coefs_eq (C := units) (o := o) (s := mark) (i := inOf units vflow mark) (sp := [⟨1, 1, 1, 1⟩]) ht
    (bath_physical 1) hv
  rw [hk] at hk'
  simp only [Option.some.injEq] at hk'
  subst hk'
  have hD := C90.D_pos (e0 := units.e0) (ma := mark.mass) (qa := mark.charge)
    (cl := logs units mark.mass mark.charge (inOf units vflow mark).v [⟨1, 1, 1, 1⟩]) (b := ⟨1, 1, 1, 1⟩) (by norm_num) (by norm_num [mark])
    (by norm_num) (by norm_num) (by norm_num [mark]) (by norm_num [units]) hcl hv
  have t1 : ∀ g : Species → ℝ → ℝ, C90.total g [⟨1, 1, 1, 1⟩] (inOf units vflow mark).v = g ⟨1, 1, 1, 1⟩ (inOf units vflow mark).v := fun g => by
    simp [C90.total]
  refine ⟨k, hk, ?_, ?_, h4⟩
  · rw [k3, t1]
    exact hD.1
  · rw [k5, t1]
    have := hD.2
    positivity

/-- The step of the marker, once its new coordinates are below the speed of light. -/
theorem mark_step (o : Options) (ht : o.tab = false) (vflow h : ℝ) (hh : 0 ≤ h) :
    ∃ k, coefs units o mark (inOf units vflow mark) [⟨1, 1, 1, 1⟩] = some k ∧ 0 < k.Dpara ∧ 0 < k.nu ∧
    ∀ rnd, |(eulerOut o h rnd (inOf units vflow mark) k 0.1).v| < units.c →
      ∃ s', gcEuler units o (bath 1 vflow) calm h rnd mark = some s' ∧ s'.running = true ∧
        Stored units calm vflow h mark (inOf units vflow mark) (eulerOut o h rnd (inOf units vflow mark) k 0.1) s' := by
  obtain ⟨k, hk, h1, h2, h3⟩ := mark_coefs o ht vflow
  refine ⟨k, hk, h1, h2, fun rnd hv => ?_⟩
  have hcut : cutoff mark.mass [⟨1, 1, 1, 1⟩] = some 0.1 := by simp [cutoff, mark]
  have hst : ∃ s', store units calm vflow h mark (inOf units vflow mark) (eulerOut o h rnd (inOf units vflow mark) k 0.1) = some (s', 0) := by
    unfold store
    rw [if_neg (not_le.2 hv)]
    have hB : V3.norm Real.sqrt (⟨upward.a.v, upward.b.v, upward.c.v⟩ : V3 ℝ) ≠ 0 := by simp [V3.norm, upward]
    simp only [calm]
    rw [if_neg hB]
    exact ⟨_, rfl⟩
  obtain ⟨s', hs'⟩ := hst
  have hS : Stored units calm vflow h mark (inOf units vflow mark) (eulerOut o h rnd (inOf units vflow mark) k 0.1) s' := by
    rcases store_cases calm_honest hs' with ⟨h, _⟩ | ⟨h, _⟩
    · exact absurd rfl h
    · exact h
  refine ⟨s', ?_, ?_, hS⟩
  · have hr : mark.running = true := rfl
    unfold gcEuler
    rw [if_pos hr]
    have e1 : (bath 1 vflow).flow mark.rho (mark.y 0) (mark.y 1) (mark.y 2) mark.time = .ok vflow := rfl
    have e2 : (bath 1 vflow).species mark.rho (mark.y 0) (mark.y 1) (mark.y 2) mark.time = .ok [⟨1, 1, 1, 1⟩] := rfl
    rw [e1]
    simp only
    rw [e2]
    simp only
    rw [if_neg (not_not.2 ⟨(mark_ok vflow).1, bath_ok one_pos, hh⟩), hk, hcut]
    simp only
    rw [if_neg (not_not.2 h3)]
    unfold eulerOut at hs'
    rw [hs']
    simp [settleO, settle]
  · rw [hS.running]
    rfl

theorem mark_xi : (inOf units 0 mark).xi = 0 := by
  simp [inOf, gcXi, pparFlow, mark]

theorem mark_v_le : (0.1 : ℝ) < (inOf units 0 mark).v ∧ (inOf units 0 mark).v ≤ 1 := by
  have hp2 := (gcP_sq (c := units.c) (m := mark.mass) (mu := mark.y 4) (B := V3.norm Real.sqrt (fieldOf mark)) units_c (by norm_num [mark])
    (by rw [show mark.y 4 = 1 / 2 from rfl]; norm_num) (norm_nonneg _) (pparFlow units 0 mark))
  rw [mark_B] at hp2
  have e1 : pparFlow units 0 mark = 0 := by simp [pparFlow, mark]
  rw [e1] at hp2
  have e2 : (2 : ℝ) * mark.mass * mark.y 4 * 1 + 0 ^ 2 = 1 := by
    rw [show mark.y 4 = 1 / 2 from rfl, show mark.mass = 1 from rfl]
    norm_num
  rw [e2] at hp2
  have hp : (inOf units 0 mark).p = 1 := by
    have e3 : (inOf units 0 mark).p = gcP units.c mark.mass (mark.y 4) 0 1 := by
      simp only [inOf]
      rw [e1, mark_B]
    rw [e3]
    nlinarith [hp2.1, hp2.2]
  show 0.1 < vnormPnorm units.c mark.mass (inOf units 0 mark).p ∧ vnormPnorm units.c mark.mass (inOf units 0 mark).p ≤ 1
  rw [hp]
  have e4 : vnormPnorm units.c mark.mass 1 = 1 / Real.sqrt (1 + 1 / 100) := by
    unfold vnormPnorm
    norm_num [units, mark]
  have h0 : 0 < Real.sqrt (1 + 1 / 100) := Real.sqrt_pos.2 (by norm_num)
  rw [e4, lt_div_iff₀ h0, div_le_one h0]
  have : Real.sqrt (1 + 1 / 100) < 2 := by
    rw [Real.sqrt_lt' (by norm_num)]
    norm_num
  refine ⟨by linarith, ?_⟩
  rw [Real.one_le_sqrt]
  norm_num

theorem mark_v : (0.1 : ℝ) < (inOf units 0 mark).v ∧ (inOf units 0 mark).v < units.c := by
  refine ⟨mark_v_le.1, lt_of_le_of_lt mark_v_le.2 ?_⟩
  norm_num [units]

/-- All effects switched on. -/
def allOn : Options := Options.init true true true

/-- Random numbers that leave the speed of the marker as it is and change the pitch by `a`. -/
theorem mark_kick (a : ℝ) : ∃ rnd k s', gcEuler units allOn (bath 1 0) calm 1 rnd mark = some s' ∧ s'.running = true ∧
    coefs units allOn mark (inOf units 0 mark) [⟨1, 1, 1, 1⟩] = some k ∧
    eulerXi (inOf units 0 mark) k 1 (fun d => Real.sqrt 1 * rnd d) = a ∧
    Stored units calm 0 1 mark (inOf units 0 mark) (eulerOut allOn 1 rnd (inOf units 0 mark) k 0.1) s' ∧
    (eulerOut allOn 1 rnd (inOf units 0 mark) k 0.1).v = (inOf units 0 mark).v := by
  obtain ⟨k, hk, h1, h2, hst⟩ := mark_step allOn rfl 0 1 zero_le_one
  have hd : Real.sqrt (2 * k.Dpara) ≠ 0 := (Real.sqrt_pos.2 (by linarith)).ne'
  have hn : Real.sqrt k.nu ≠ 0 := (Real.sqrt_pos.2 h2).ne'
  let rnd : Fin 5 → ℝ := ![1, 0, 1, -k.K / Real.sqrt (2 * k.Dpara), a / Real.sqrt k.nu]
  have hv : (eulerOut allOn 1 rnd (inOf units 0 mark) k 0.1).v = (inOf units 0 mark).v := by
    have e : eulerV (inOf units 0 mark) k 1 (fun d => Real.sqrt 1 * rnd d) = (inOf units 0 mark).v := by
      have : rnd 3 = -k.K / Real.sqrt (2 * k.Dpara) := rfl
      simp only [eulerV, this, Real.sqrt_one]
      field_simp
      ring
    have he : allOn.energy = true := rfl
    simp only [eulerOut, outOf, e, he, if_true, reflectV]
    rw [if_neg (not_lt.2 mark_v.1.le)]
  have hxi : eulerXi (inOf units 0 mark) k 1 (fun d => Real.sqrt 1 * rnd d) = a := by
    have : rnd 4 = a / Real.sqrt k.nu := rfl
    simp only [eulerXi, this, mark_xi, Real.sqrt_one]
    simp only [mul_zero, zero_mul, sub_zero, one_mul, zero_add, neg_zero]
    field_simp
  obtain ⟨s', e1, e2, e3⟩ := hst rnd (by
    rw [hv, abs_of_pos (by linarith [mark_v.1])]
    exact mark_v.2)
  exact ⟨rnd, k, s', e1, e2, hk, hxi, e3, hv⟩

/-- The hypotheses of `euler_partial` are met by a case in which the pitch is reflected. -/
example : ∃ rnd s', gcEuler units allOn (bath 1 0) calm 1 rnd mark = some s' ∧ s'.running = true ∧
    (∀ vflow sp k, (bath 1 0).flow mark.rho (mark.y 0) (mark.y 1) (mark.y 2) mark.time = .ok vflow →
      (bath 1 0).species mark.rho (mark.y 0) (mark.y 1) (mark.y 2) mark.time = .ok sp →
      coefs units allOn mark (inOf units vflow mark) sp = some k →
      |eulerXi (inOf units vflow mark) k 1 fun d => Real.sqrt 1 * rnd d| ≤ 3) := by
  obtain ⟨rnd, k, s', h1, h2, hk, hx, _⟩ := mark_kick 1.5
  refine ⟨rnd, s', h1, h2, fun vflow sp k' e1 e2 e3 => ?_⟩
  have : vflow = 0 := by simpa [bath] using e1.symm
  subst this
  have : sp = [⟨1, 1, 1, 1⟩] := by simpa [bath] using e2.symm
  subst this
  rw [hk] at e3
  simp only [Option.some.injEq] at e3
  subst e3
  rw [hx]
  norm_num

/-- C51 is violated: for some random numbers the pitch lies outside its bounds after the reflection, and the marker is given a
negative magnetic moment without an error. -/
theorem pitch_escapes : ∃ rnd s', gcEuler units allOn (bath 1 0) calm 1 rnd mark = some s' ∧ s'.running = true ∧ s'.err = 0 ∧ s'.y 4 < 0 := by
  obtain ⟨rnd, k, s', h1, h2, hk, hx, hst, hv⟩ := mark_kick 4
  refine ⟨rnd, s', h1, h2, hst.err.trans rfl, ?_⟩
  have hxo : (eulerOut allOn 1 rnd (inOf units 0 mark) k 0.1).xi = -2 := by
    have he : allOn.pitch = true := rfl
    simp only [eulerOut, outOf, hx, he, if_true, reflectXi]
    norm_num [abs_of_pos]
  rw [hst.mu, hxo, hv, (in_v units_c (mark_ok 0).1).2.1]
  have hp := (mark_ok 0).1.2.2.1
  have hB := hst.bnorm
  unfold gcMu
  have hm : mark.mass = 1 := rfl
  rw [hm]
  have hp2 : 0 < (inOf units 0 mark).p * (inOf units 0 mark).p := mul_self_pos.2 hp
  apply div_neg_of_neg_of_pos
  · nlinarith
  · positivity

/-- A Milstein step that goes through, with all effects switched on: the hypotheses of `milstein_partial` and of the theorems on
the Milstein scheme in C92, C93 and C95. -/
theorem mark_milstein : ∃ (h : ℝ) (w w' : Wiener.Arr ℝ) (t : Nat) (m : MilOut), 0 < h ∧
    gcMilstein units allOn 20 (bath 1 0) calm h 1 1 w (fun _ => 0) (0, 0) mark = some m ∧ m.s.running = true ∧
    Wiener.generate Real.sqrt 20 w (w.time 0 + h * 1) (fun _ => 0) = some (w', some t) ∧ (∀ d, w'.val t d - w'.val 0 d = 0) := by
  obtain ⟨k, hk, hD, hnu, hko⟩ := mark_coefs allOn rfl 0
  obtain ⟨v1, v2⟩ := mark_v_le
  set v := (inOf units 0 mark).v with hv
  set g := k.K - 0.5 * k.dDpara with hg
  let h : ℝ := (v - 0.1) / (2 * (1 + |g|))
  have hh : 0 < h := div_pos (by linarith) (by positivity)
  have hgh : |g * h| ≤ (v - 0.1) / 2 := by
    rw [abs_mul, abs_of_pos hh]
    have e : h * (1 + |g|) = (v - 0.1) / 2 := by
      have : (1 + |g|) ≠ 0 := by positivity
      simp only [h]
      field_simp
    have := abs_nonneg g
    nlinarith
  let w0 : Wiener.Arr ℝ := ⟨fun _ => none, fun _ => 0, fun _ _ => 0⟩
  let w : Wiener.Arr ℝ := Wiener.init 20 w0 0
  have hne : (0 : ℝ) ≠ h := hh.ne
  have hscan : Wiener.scan w h 20 0 0 = some (.between 0 none) := by
    show (if w.time 0 = h then _ else _) = _
    have e1 : w.time 0 = 0 := rfl
    have e2 : w.next 0 = some 0 := rfl
    rw [e1, if_neg hne, e2]
    simp only [if_pos hh]
    rw [e1, if_neg (not_lt.2 hh.le), if_pos trivial]
  have hempty : Wiener.emptySlot 20 w = 1 := by decide
  let w' : Wiener.Arr ℝ := ⟨Wiener.upd (Wiener.upd w.next 1 (some 1)) 0 (some 1), Wiener.upd w.time 1 h,
    Wiener.upd w.val 1 (fun d => w.val 0 d + Real.sqrt (h - w.time 0) * 0)⟩
  have hgen : Wiener.generate Real.sqrt 20 w (w.time 0 + h * 1) (fun _ => 0) = some (w', some 1) := by
    have e : w.time 0 + h * 1 = h := by
      show (0 : ℝ) + h * 1 = h
      ring
    rw [e]
    unfold Wiener.generate
    rw [hscan]
    simp only [hempty]
    rw [if_neg (by decide)]
  have hdW : ∀ d, w'.val 1 d - w'.val 0 d = 0 := by
    intro d
    show (0 : ℝ) + Real.sqrt (h - 0) * 0 - 0 = 0
    ring
  have hcut : cutoff mark.mass [⟨1, 1, 1, 1⟩] = some 0.1 := by simp [cutoff, mark]
  have hvo : (outOf allOn (inOf units 0 mark) 0.1 (milsteinV (inOf units 0 mark) k (h * 1) fun d => w'.val 1 d - w'.val 0 d)
      (milsteinXi (inOf units 0 mark) k (h * 1) fun d => w'.val 1 d - w'.val 0 d)
      (diffuse (inOf units 0 mark) k.DX fun d => w'.val 1 d - w'.val 0 d)).v = v + g * h := by
    have e : (milsteinV (inOf units 0 mark) k (h * 1) fun d => w'.val 1 d - w'.val 0 d) = v + g * h := by
      simp only [milsteinV, hdW]
      rw [hg]
      ring
    have he : allOn.energy = true := rfl
    simp only [outOf, e, he, if_true, reflectV]
    rw [if_neg]
    have := abs_le.1 hgh
    linarith
  have hst : ∃ s', store units calm 0 (h * 1) mark (inOf units 0 mark) (outOf allOn (inOf units 0 mark) 0.1
      (milsteinV (inOf units 0 mark) k (h * 1) fun d => w'.val 1 d - w'.val 0 d)
      (milsteinXi (inOf units 0 mark) k (h * 1) fun d => w'.val 1 d - w'.val 0 d)
      (diffuse (inOf units 0 mark) k.DX fun d => w'.val 1 d - w'.val 0 d)) = some (s', 0) := by
    unfold store
    have hlt : |v + g * h| < units.c := by
      have := abs_le.1 hgh
      rw [abs_lt]
      have hc : units.c = 10 := rfl
      rw [hc]
      constructor <;> linarith
    rw [hvo, if_neg (not_le.2 hlt)]
    have hB : V3.norm Real.sqrt (⟨upward.a.v, upward.b.v, upward.c.v⟩ : V3 ℝ) ≠ 0 := by simp [V3.norm, upward]
    simp only [calm]
    rw [if_neg hB]
    exact ⟨_, rfl⟩
  obtain ⟨s', hs'⟩ := hst
  have hrun : s'.running = true := by
    rcases store_cases calm_honest hs' with ⟨h, _⟩ | ⟨h, _⟩
    · exact absurd rfl h
    · rw [h.running]
      rfl
  have hso : settleO (some (s', 0)) = some s' := by simp [settleO, settle]
  have hres : ∃ m : MilOut, gcMilstein units allOn 20 (bath 1 0) calm h 1 1 w (fun _ => 0) (0, 0) mark = some m ∧ m.s.running = true := by
    unfold gcMilstein
    rw [if_pos (show mark.running = true from rfl)]
    have e1 : (bath 1 0).flow mark.rho (mark.y 0) (mark.y 1) (mark.y 2) mark.time = .ok 0 := rfl
    have e2 : (bath 1 0).species mark.rho (mark.y 0) (mark.y 1) (mark.y 2) mark.time = .ok [⟨1, 1, 1, 1⟩] := rfl
    rw [e1]
    simp only
    rw [e2]
    simp only
    rw [if_neg (not_not.2 ⟨(mark_ok 0).1, bath_ok one_pos, by linarith, one_pos, le_rfl⟩), hk, hcut]
    simp only
    rw [if_neg (not_not.2 ⟨hko, hD, hnu.le, by rw [mark_xi]; norm_num⟩), hgen]
    simp only
    rw [hs', hso]
    exact ⟨_, rfl, hrun⟩
  obtain ⟨m, hm1, hm2⟩ := hres
  exact ⟨h, w, w', 1, m, hh, hm1, hm2, hgen, hdW⟩

/-- The same marker with all effects switched off and a plasma flow: its parallel momentum changes. -/
theorem flow_violation : ∃ rnd s', gcEuler units (Options.init false false false) (bath 1 1) calm 1 rnd mark = some s' ∧
    s'.running = true ∧ s'.y 3 ≠ mark.y 3 := by
  obtain ⟨k, hk, _, _, hst⟩ := mark_step (Options.init false false false) rfl 1 1 zero_le_one
  obtain ⟨s', h1, h2, _⟩ := hst (fun _ => 0) (by
    have : (eulerOut (Options.init false false false) 1 (fun _ => 0) (inOf units 1 mark) k 0.1).v = (inOf units 1 mark).v := by
      simp [eulerOut, outOf, Options.init]
    rw [this]
    exact (in_v units_c (mark_ok 1).1).2.2)
  refine ⟨fun _ => 0, s', h1, h2, ?_⟩
  have := flow_changes_momentum (bath_honest 1 1) calm_honest units_c (s := mark) rfl (vflow := 1) rfl rfl rfl h1 h2
  rw [this, mark_B]
  have e0 : mark.y 3 = 0 := rfl
  have e4 : mark.y 4 = 1 / 2 := rfl
  have em : mark.mass = 1 := rfl
  have hpf : pparFlow units 1 mark = -gammaPpar units.c 1 (1 / 2) 0 1 := by
    unfold pparFlow
    rw [mark_B, e0, e4, em]
    ring
  have hg1 : (1 : ℝ) ≤ gammaPpar units.c 1 (1 / 2) 0 1 := gammaPpar_ge one_pos (by norm_num) zero_le_one 0
  rw [hpf, e0, e4, em]
  have hsq := gammaPpar_sq (c := units.c) (m := 1) (mu := 1 / 2) (B := 1) one_pos (by norm_num) zero_le_one (-gammaPpar units.c 1 (1 / 2) 0 1)
  have hsq0 := gammaPpar_sq (c := units.c) (m := 1) (mu := 1 / 2) (B := 1) one_pos (by norm_num) zero_le_one 0
  generalize gammaPpar units.c 1 (1 / 2) 0 1 = g at *
  intro h0
  have : gammaPpar units.c 1 (1 / 2) (-g) 1 = g := by linarith
  rw [this, hsq0] at hsq
  have e10 : units.c = 10 := rfl
  rw [e10] at hsq
  norm_num at hsq
  linarith

/-- C91 needs Coulomb logarithms that are not negative: in a dense enough plasma the logarithm is negative, and the step takes
the square root of a negative number, whatever the random numbers. -/
theorem negative_logarithm : ∃ n : ℝ, 0 < n ∧ logs units mark.mass mark.charge (inOf units 0 mark).v [⟨1, 1, n, 1⟩] ⟨1, 1, n, 1⟩ < 0 ∧
    ∀ rnd, gcEuler units allOn (bath n 0) calm 1 rnd mark = none := by
  obtain ⟨hok, hxi⟩ := mark_ok 0
  have hv := (in_v units_c hok).1
  set va := (inOf units 0 mark).v with hva
  have hn : 0 < 8 * (va * va + 2) ^ 2 * 16 + 1 := by positivity
  have hcl := (bath_clog (va := va) hn).2.1 (by linarith)
  refine ⟨_, hn, hcl, fun rnd => ?_⟩
  generalize 8 * (va * va + 2) ^ 2 * 16 + 1 = n at *
  obtain ⟨k, hk, _, _, k3, _, _, _⟩ := coefs_eq (C := units) (o := allOn) (s := mark) (i := inOf units 0 mark) (sp := [⟨1, 1, n, 1⟩]) rfl
    (bath_physical n) hv
  have hneg : k.Dpara < 0 := by
    rw [k3]
    simp only [C90.total, List.map_cons, List.map_nil, List.sum_cons, List.sum_nil, add_zero]
    unfold C90.Dpara coefDpara
    rw [if_pos hv]
    have hmu := mu0_pos (x := va / thermal ⟨1, 1, n, 1⟩) (div_pos hv (thermal_pos (by norm_num) (by norm_num)))
    have hcl' : logs units mark.mass mark.charge va [⟨1, 1, n, 1⟩] ⟨1, 1, n, 1⟩ < 0 := hcl
    have hcab : cab units.e0 mark.charge 1 n (logs units mark.mass mark.charge va [⟨1, 1, n, 1⟩] ⟨1, 1, n, 1⟩) < 0 := by
      generalize logs units mark.mass mark.charge va [⟨1, 1, n, 1⟩] ⟨1, 1, n, 1⟩ = l at hcl'
      show n * 1 * 1 * 1 * 1 * l / (4 * Real.pi * 1 * 1) < 0
      have := Real.pi_pos
      apply div_neg_of_neg_of_pos
      · nlinarith
      · positivity
    have hm : mark.mass = 1 := rfl
    apply div_neg_of_neg_of_pos
    · exact mul_neg_of_neg_of_pos hcab hmu
    · rw [hm]
      simpa using hv
  unfold gcEuler
  rw [if_pos (show mark.running = true from rfl)]
  have e1 : (bath n 0).flow mark.rho (mark.y 0) (mark.y 1) (mark.y 2) mark.time = .ok 0 := rfl
  have e2 : (bath n 0).species mark.rho (mark.y 0) (mark.y 1) (mark.y 2) mark.time = .ok [⟨1, 1, n, 1⟩] := rfl
  have hcut : cutoff mark.mass [⟨1, 1, n, 1⟩] = some 0.1 := by simp [cutoff, mark]
  rw [e1]
  simp only
  rw [e2]
  simp only
  rw [if_neg (not_not.2 ⟨hok, bath_ok hn, zero_le_one⟩), hk, hcut]
  simp only
  rw [if_pos]
  intro hc
  have := hc.2.1
  linarith

/-- The hypotheses of C92 and C93: a step without flow in which the marker is displaced. -/
example : ∃ rnd s', gcEuler units allOn (bath 1 0) calm 1 rnd mark = some s' ∧ mark.running = true ∧ 0 < mark.y 0 ∧
    s'.running = true ∧ (bath 1 0).flow mark.rho (mark.y 0) (mark.y 1) (mark.y 2) mark.time = .ok 0 := by
  obtain ⟨rnd, k, s', h1, h2, _⟩ := mark_kick 0.5
  exact ⟨rnd, s', h1, rfl, one_pos, h2, rfl⟩

end Ascot.C51
