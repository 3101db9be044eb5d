import Verif.Props.C51_Witness

set_option linter.unusedSectionVars false
set_option linter.unusedSimpArgs false

/-!
# C94: collisions of guiding centers

The speed relative to the plasma and the pitch take one step of their stochastic differential equations and are mirrored
at the bounds.
-/
namespace Ascot.C94
open Ascot.Coord Ascot.Physlib Ascot.GcStep Ascot.Mccc Ascot.C90 Ascot.Fokker Ascot.C51

variable {C : MConsts} {o : Options} {pl : Plasma} {f : GcStep.Fields} {h : ℝ} {rnd : Fin 5 → ℝ} {s s' : Gc}

/-- Mirror at the lower limit of the speed. -/
noncomputable def mirrorSpeed (lo v : ℝ) : ℝ := if v < lo then 2 * lo - v else v
/-- Mirror at the limits of the pitch. -/
noncomputable def mirrorPitch (x : ℝ) : ℝ := if 1 < x then 2 - x else if x < -1 then -2 - x else x

theorem reflectXi_eq (x : ℝ) : reflectXi x = mirrorPitch x := by
  unfold reflectXi mirrorPitch
  by_cases h1 : 1 < x
  · have h2 : |x| > 1 := lt_of_lt_of_le h1 (le_abs_self x)
    rw [if_pos h1, if_pos h2, if_pos (by linarith), if_neg (by linarith), abs_of_pos (by linarith)]
    ring
  · rw [if_neg h1]
    by_cases h3 : x < -1
    · have h2 : |x| > 1 := by rw [abs_of_neg (by linarith)]; linarith
      rw [if_pos h3, if_pos h2, if_neg (by linarith), if_pos (by linarith), abs_of_neg (by linarith)]
      ring
    · rw [if_neg h3, if_neg (not_lt.2 (abs_le.2 ⟨not_lt.1 h3, not_lt.1 h1⟩))]

/-- Parallel momentum relative to the plasma, with the Lorentz factor of the marker in the laboratory. -/
noncomputable def pparRel (c vflow : ℝ) (s : Gc) : ℝ :=
  s.y 3 - Real.sqrt (1 + 2 * s.y 4 * V3.norm Real.sqrt (fieldOf s) / (s.mass * c ^ 2) + (s.y 3 / (s.mass * c)) ^ 2) * s.mass * vflow

/-- What one collision step does to speed and pitch: `step` is the numerical scheme, `dW` are the Wiener increments. -/
def Kicked (C : MConsts) (pl : Plasma) (s s' : Gc) (h : ℝ) (dW : Fin 5 → ℝ) (step : (ℝ → ℝ) → (ℝ → ℝ) → ℝ → ℝ → ℝ → ℝ) : Prop :=
  ∃ vflow sp cut v xi, pl.flow s.rho (s.y 0) (s.y 1) (s.y 2) s.time = .ok vflow ∧
    pl.species s.rho (s.y 0) (s.y 1) (s.y 2) s.time = .ok sp ∧ Physical sp ∧ IsCutoff s.mass sp cut ∧ 0 < v ∧
    HasSpeedPitch C.c 0 s.mass (V3.norm Real.sqrt (fieldOf s)) (s.y 4) (pparRel C.c vflow s) v xi ∧
    let cl := logs C s.mass s.charge v sp
    let nu := 2 * total (Dperp C.e0 s.mass s.charge cl) sp v / v ^ 2
    HasSpeedPitch C.c vflow s'.mass (V3.norm Real.sqrt (fieldOf s')) (s'.y 4) (s'.y 3)
      (mirrorSpeed cut (step (total (K C.e0 s.mass s.charge cl) sp) (fun v => 2 * total (Dpara C.e0 s.mass s.charge cl) sp v) v h (dW 3)))
      (mirrorPitch (step (fun x => -(x * nu)) (fun x => (1 - x ^ 2) * nu) xi h (dW 4)))

theorem gammaPpar_eq {c : ℝ} (s : Gc) : gammaPpar c s.mass (s.y 4) (s.y 3) (V3.norm Real.sqrt (fieldOf s)) =
    Real.sqrt (1 + 2 * s.y 4 * V3.norm Real.sqrt (fieldOf s) / (s.mass * c ^ 2) + (s.y 3 / (s.mass * c)) ^ 2) := by
  unfold gammaPpar
  congr 1
  rw [div_pow]
  ring

theorem initial {vflow : ℝ} (hc : 0 < C.c) (hok : InOk C vflow s) :
    HasSpeedPitch C.c 0 s.mass (V3.norm Real.sqrt (fieldOf s)) (s.y 4) (pparRel C.c vflow s) (inOf C vflow s).v (inOf C vflow s).xi := by
  have hm := hok.1
  obtain ⟨hv0, hp, hv⟩ := C92.in_v hc hok
  have hg := gammaVnorm_eq hc hv
  have e1 : s.mass * (inOf C vflow s).v / Real.sqrt (1 - (inOf C vflow s).v ^ 2 / C.c ^ 2) = (inOf C vflow s).p := by
    rw [← hp]
    unfold pnormVnorm
    rw [hg]
    ring
  have e2 : pparRel C.c vflow s = pparFlow C vflow s := by
    unfold pparRel pparFlow
    rw [gammaPpar_eq]
    ring
  have hp0 := hok.2.2.1
  have hpsq : (inOf C vflow s).p ^ 2 = 2 * s.mass * V3.norm Real.sqrt (fieldOf s) * s.y 4 + pparFlow C vflow s ^ 2 := by
    have h5 := hok.2.2.2.2
    have e : (inOf C vflow s).Bnorm = V3.norm Real.sqrt (fieldOf s) := rfl
    rw [e] at h5
    show gcP C.c s.mass (s.y 4) (pparFlow C vflow s) (V3.norm Real.sqrt (fieldOf s)) ^ 2 = _
    have hsum : (0 : ℝ) ≤ 1 + 2 * s.y 4 * V3.norm Real.sqrt (fieldOf s) / (s.mass * (C.c * C.c)) +
        pparFlow C vflow s * pparFlow C vflow s / (s.mass * s.mass * (C.c * C.c)) := by linarith
    unfold gcP gammaPpar
    rw [Real.sq_sqrt hsum, mul_pow, Real.sq_sqrt (by linarith)]
    field_simp
    ring
  have hxi : (inOf C vflow s).xi * (inOf C vflow s).p = pparFlow C vflow s := by
    show pparFlow C vflow s / (inOf C vflow s).p * (inOf C vflow s).p = _
    field_simp
  refine ⟨hv, ?_, ?_⟩
  · rw [e1, e2]
    linarith
  · rw [e1]
    have : (inOf C vflow s).p ^ 2 * (1 - (inOf C vflow s).xi ^ 2) = (inOf C vflow s).p ^ 2 - ((inOf C vflow s).xi * (inOf C vflow s).p) ^ 2 := by ring
    rw [this, hxi, hpsq]
    ring

/-- The Euler scheme. -/
theorem gc_euler_step (hp : PlasmaHonest pl) (hf : FieldHonest f) (hc : 0 < C.c) (ht : o.tab = false) (he : o.energy = true)
    (hpi : o.pitch = true) (hr : s.running = true) (hs : gcEuler C o pl f h rnd s = some s') (hr' : s'.running = true) :
    Kicked C pl s s' h (fun d => Real.sqrt h * rnd d) eulerStep := by
  obtain ⟨⟨vflow, sp, k', cut, hflow, hsp, hin', hpl, hh, hk', hcut, hko, stored⟩⟩ := gcEuler_cases hp hf hr hs hr'
  obtain ⟨k, hk, k1, _, k3, _, k5, _⟩ := coefs_eq (C := C) (o := o) (s := s) (i := inOf C vflow s) ht hpl.2.1 (C92.in_v hc hin').1
  have hqk : k' = k := by
    have := hk'
    rw [hk] at this
    exact (Option.some.inj this).symm
  refine ⟨vflow, sp, cut, _, _, hflow, hsp, hpl.2.1, isCutoff_of hcut, (C92.in_v hc hin').1, initial hc hin', ?_⟩
  have hst := stored_speed hc hin'.1 stored
  have ev : (eulerOut o h rnd (inOf C vflow s) k' cut).v = mirrorSpeed cut (eulerStep
      (total (K C.e0 s.mass s.charge (logs C s.mass s.charge (inOf C vflow s).v sp)) sp)
      (fun v => 2 * total (Dpara C.e0 s.mass s.charge (logs C s.mass s.charge (inOf C vflow s).v sp)) sp v) (inOf C vflow s).v h
      (Real.sqrt h * rnd 3)) := by
    unfold eulerOut outOf eulerV eulerStep
    rw [he, hqk, k1, k3]
    rfl
  have ex : (eulerOut o h rnd (inOf C vflow s) k' cut).xi = mirrorPitch (eulerStep
      (fun x => -(x * (2 * total (Dperp C.e0 s.mass s.charge (logs C s.mass s.charge (inOf C vflow s).v sp)) sp (inOf C vflow s).v / (inOf C vflow s).v ^ 2)))
      (fun x => (1 - x ^ 2) * (2 * total (Dperp C.e0 s.mass s.charge (logs C s.mass s.charge (inOf C vflow s).v sp)) sp (inOf C vflow s).v / (inOf C vflow s).v ^ 2))
      (inOf C vflow s).xi h (Real.sqrt h * rnd 4)) := by
    unfold eulerOut outOf eulerXi
    rw [hpi, hqk, k5, ← reflectXi_eq]
    simp only [if_true]
    congr 1
    unfold eulerStep
    simp only [pow_two (inOf C vflow s).xi]
    ring
  rw [ev, ex] at hst
  exact hst

/-- The Milstein scheme. -/
theorem gc_milstein_step {n : Nat} {hin acc tol : ℝ} {w : Wiener.Arr ℝ} {junk : ℝ × ℝ} {m : MilOut} (hp : PlasmaHonest pl)
    (hf : FieldHonest f) (hc : 0 < C.c) (ht : o.tab = false) (he : o.energy = true) (hpi : o.pitch = true) (hr : s.running = true)
    (hs : gcMilstein C o n pl f hin acc tol w rnd junk s = some m) (hr' : m.s.running = true) :
    ∃ t w', Wiener.generate Real.sqrt n w (w.time 0 + hin * acc) rnd = some (w', some t) ∧ m.w = w' ∧
      Kicked C pl s m.s (hin * acc) (fun d => w'.val t d - w'.val 0 d) milsteinStep := by
  obtain ⟨t, w', hw, hmw, ⟨vflow, sp, k', cut, hflow, hsp, hin', hpl, hh, hk', hcut, hko, stored⟩, _⟩ := gcMilstein_cases hp hf hr hs hr'
  refine ⟨t, w', hw, hmw, ?_⟩
  obtain ⟨k, hk, k1, _, k3, k4, k5, _⟩ := coefs_eq (C := C) (o := o) (s := s) (i := inOf C vflow s) ht hpl.2.1 (C92.in_v hc hin').1
  have hqk : k' = k := by
    have := hk'
    rw [hk] at this
    exact (Option.some.inj this).symm
  refine ⟨vflow, sp, cut, _, _, hflow, hsp, hpl.2.1, isCutoff_of hcut, (C92.in_v hc hin').1, initial hc hin', ?_⟩
  have hst := stored_speed hc hin'.1 stored
  have hdv := ((derivatives (e0 := C.e0) (ma := s.mass) (qa := s.charge) (cl := logs C s.mass s.charge (inOf C vflow s).v sp)
    hpl.2.1 hin'.1.ne' (C92.in_v hc hin').1).1.const_mul 2).deriv
  have hdx : ∀ nu xi : ℝ, deriv (fun x : ℝ => (1 - x ^ 2) * nu) xi = -(2 * xi * nu) := by
    intro nu xi
    have := (((hasDerivAt_pow 2 xi).const_sub 1).mul_const nu).deriv
    rw [this]
    norm_num
  have ev : (milsteinOut o (hin * acc) (fun d => w'.val t d - w'.val 0 d) (inOf C vflow s) k' cut).v = mirrorSpeed cut (milsteinStep
      (total (K C.e0 s.mass s.charge (logs C s.mass s.charge (inOf C vflow s).v sp)) sp)
      (fun v => 2 * total (Dpara C.e0 s.mass s.charge (logs C s.mass s.charge (inOf C vflow s).v sp)) sp v) (inOf C vflow s).v (hin * acc)
      (w'.val t 3 - w'.val 0 3)) := by
    unfold milsteinOut outOf milsteinV milsteinStep
    rw [hdv, he, hqk, k1, k3, k4]
    simp only [if_true]
    show mirrorSpeed _ _ = _
    congr 1
    unfold eulerStep
    ring
  have ex : (milsteinOut o (hin * acc) (fun d => w'.val t d - w'.val 0 d) (inOf C vflow s) k' cut).xi = mirrorPitch (milsteinStep
      (fun x => -(x * (2 * total (Dperp C.e0 s.mass s.charge (logs C s.mass s.charge (inOf C vflow s).v sp)) sp (inOf C vflow s).v / (inOf C vflow s).v ^ 2)))
      (fun x => (1 - x ^ 2) * (2 * total (Dperp C.e0 s.mass s.charge (logs C s.mass s.charge (inOf C vflow s).v sp)) sp (inOf C vflow s).v / (inOf C vflow s).v ^ 2))
      (inOf C vflow s).xi (hin * acc) (w'.val t 4 - w'.val 0 4)) := by
    unfold milsteinOut outOf milsteinXi milsteinStep
    rw [hdx, hpi, hqk, k5, ← reflectXi_eq]
    simp only [if_true]
    congr 1
    unfold eulerStep
    simp only [pow_two (inOf C vflow s).xi]
    ring
  rw [ev, ex] at hst
  exact hst

/-- The hypotheses are met. -/
example : ∃ rnd s', gcEuler units allOn (bath 1 0) calm 1 rnd mark = some s' ∧ mark.running = true ∧ s'.running = true ∧
    allOn.tab = false ∧ allOn.energy = true ∧ allOn.pitch = true := by
  obtain ⟨rnd, k, s', h1, h2, _⟩ := mark_kick 0.5
  exact ⟨rnd, s', h1, rfl, h2, rfl, rfl, rfl⟩

end Ascot.C94
