import Verif.Props.C51_Mccc

set_option linter.unusedSectionVars false
set_option linter.unusedSimpArgs false

/-!
# C92, C93: spatial diffusion and the switches of the guiding-center collision operator
-/
namespace Ascot.C92
open Ascot.Coord Ascot.Physlib Ascot.GcStep Ascot.Mccc Ascot.C51

variable {C : MConsts} {o : Options} {pl : Plasma} {f : Fields} {h : ℝ} {rnd : Fin 5 → ℝ} {s s' : Gc}

/-- Cartesian position of a marker. -/
noncomputable def position (s : Gc) : V3 ℝ := rpz2xyz ⟨s.y 0, s.y 1, s.y 2⟩

/-- Cartesian components of the magnetic field of a marker. -/
noncomputable def field (s : Gc) : V3 ℝ := vecRpz2xyz (fieldOf s) (s.y 1)

theorem inOf_X (vflow : ℝ) : (inOf C vflow s).X = position s := rfl
theorem inOf_B (vflow : ℝ) : (inOf C vflow s).Bxyz = field s := rfl

theorem position_new {vflow : ℝ} {u : Out} (hr : 0 < s.y 0) (hs : Stored C f vflow h s (inOf C vflow s) u s') : position s' = u.X := by
  have hc := cumulative (s.y 0) (s.y 1) u.X.x u.X.y hr
  unfold position rpz2xyz
  rw [hs.r, hs.phi, hs.z]
  ext
  · exact hc.1
  · exact hc.2
  · rfl

theorem norm_field : V3.norm Real.sqrt (field s) = V3.norm Real.sqrt (fieldOf s) := by
  unfold field vecRpz2xyz V3.norm
  congr 1
  have := sc (s.y 1)
  linear_combination ((fieldOf s).x ^ 2 + (fieldOf s).y ^ 2) * this

/-- The displacement that spatial diffusion adds. -/
theorem diffuse_dot {i : In} (hB : V3.norm Real.sqrt i.Bxyz ≠ 0) (DX : ℝ) (dW : Fin 5 → ℝ) :
    V3.dot i.Bxyz (V3.sub (diffuse i DX dW) i.X) = 0 := by
  have hs : V3.norm Real.sqrt i.Bxyz * V3.norm Real.sqrt i.Bxyz = i.Bxyz.x * i.Bxyz.x + i.Bxyz.y * i.Bxyz.y + i.Bxyz.z * i.Bxyz.z :=
    Real.mul_self_sqrt (by nlinarith [mul_self_nonneg i.Bxyz.x, mul_self_nonneg i.Bxyz.y, mul_self_nonneg i.Bxyz.z])
  unfold diffuse bhat V3.unit V3.dot V3.sub dW3
  simp only
  generalize V3.norm Real.sqrt i.Bxyz = n at *
  generalize Real.sqrt (2 * DX) = g
  field_simp
  linear_combination g * (dW 0 * i.Bxyz.x + dW 1 * i.Bxyz.y + dW 2 * i.Bxyz.z) * hs

theorem diffuse_sq {i : In} (hB : V3.norm Real.sqrt i.Bxyz ≠ 0) {DX : ℝ} (hD : 0 ≤ 2 * DX) (dW : Fin 5 → ℝ) :
    V3.dot (V3.sub (diffuse i DX dW) i.X) (V3.sub (diffuse i DX dW) i.X) =
      2 * DX * (dW 0 ^ 2 + dW 1 ^ 2 + dW 2 ^ 2 - (V3.dot i.Bxyz ⟨dW 0, dW 1, dW 2⟩ / V3.norm Real.sqrt i.Bxyz) ^ 2) := by
  have hs : V3.norm Real.sqrt i.Bxyz * V3.norm Real.sqrt i.Bxyz = i.Bxyz.x * i.Bxyz.x + i.Bxyz.y * i.Bxyz.y + i.Bxyz.z * i.Bxyz.z :=
    Real.mul_self_sqrt (by nlinarith [mul_self_nonneg i.Bxyz.x, mul_self_nonneg i.Bxyz.y, mul_self_nonneg i.Bxyz.z])
  have hg : Real.sqrt (2 * DX) ^ 2 = 2 * DX := Real.sq_sqrt hD
  rw [← hg]
  unfold diffuse bhat V3.unit V3.dot V3.sub dW3
  simp only
  generalize V3.norm Real.sqrt i.Bxyz = n at *
  generalize Real.sqrt (2 * DX) = g
  field_simp
  linear_combination -g ^ 2 * (dW 0 * i.Bxyz.x + dW 1 * i.Bxyz.y + dW 2 * i.Bxyz.z) ^ 2 * hs

/-- A step moves the marker perpendicularly to the magnetic field; the square of the distance is `2 DX` times that of the
perpendicular part of the random displacement, `DX` being the sum over species of the spatial diffusion coefficient. -/
structure Perpendicular (C : MConsts) (o : Options) (pl : Plasma) (s s' : Gc) (dW : Fin 5 → ℝ) : Prop where
  dot : V3.dot (field s) (V3.sub (position s') (position s)) = 0
  turn : |s'.y 1 - s.y 1| ≤ Real.pi
  sq : o.gcdiff = true → ∀ vflow sp k, pl.flow s.rho (s.y 0) (s.y 1) (s.y 2) s.time = .ok vflow →
    pl.species s.rho (s.y 0) (s.y 1) (s.y 2) s.time = .ok sp → coefs C o s (inOf C vflow s) sp = some k →
    V3.dot (V3.sub (position s') (position s)) (V3.sub (position s') (position s)) =
      2 * k.DX * (dW 0 ^ 2 + dW 1 ^ 2 + dW 2 ^ 2 -
        (V3.dot (field s) ⟨dW 0, dW 1, dW 2⟩ / V3.norm Real.sqrt (field s)) ^ 2)

theorem perpendicular_of {out : In → Coef → ℝ → Out} {dW : Fin 5 → ℝ}
    (hout : ∀ i k cut, ∃ v xi, out i k cut = outOf o i cut v xi (diffuse i k.DX dW)) (hr : 0 < s.y 0)
    (q : Collided C o pl f h s out s') : Perpendicular C o pl s s' dW := by
  obtain ⟨v, xi, hv⟩ := hout (inOf C q.vflow s) q.k q.cut
  have hst := q.stored
  rw [hv] at hst
  have hpos := position_new hr hst
  have hB : V3.norm Real.sqrt (inOf C q.vflow s).Bxyz ≠ 0 := by
    rw [inOf_B, norm_field]
    exact q.hin.2.1
  have hX : (outOf o (inOf C q.vflow s) q.cut v xi (diffuse (inOf C q.vflow s) q.k.DX dW)).X =
    if o.gcdiff then diffuse (inOf C q.vflow s) q.k.DX dW else (inOf C q.vflow s).X := rfl
  refine ⟨?_, ?_, ?_⟩
  · rw [hpos, hX]
    split
    · exact diffuse_dot hB _ _
    · rw [← inOf_X (C := C) q.vflow]
      unfold V3.dot V3.sub
      ring
  · rw [hst.phi, add_sub_cancel_left]
    exact Complex.abs_arg_le_pi _
  · intro hg vflow sp k h1 h2 h3
    have e1 : vflow = q.vflow := by have := q.hflow; rw [h1] at this; simpa using this
    subst e1
    have e2 : sp = q.sp := by have := q.hsp; rw [h2] at this; simpa using this
    subst e2
    have e3 : k = q.k := by have := q.hk; rw [h3] at this; simpa using this
    subst e3
    rw [hpos, hX, hg, if_pos rfl]
    exact diffuse_sq hB q.hko.1 dW

/-- C92 for the Euler scheme. -/
theorem euler_perpendicular (hp : PlasmaHonest pl) (hf : FieldHonest f) (hr : s.running = true) (hR : 0 < s.y 0)
    (hs : gcEuler C o pl f h rnd s = some s') (hr' : s'.running = true) :
    Perpendicular C o pl s s' fun d => Real.sqrt h * rnd d := by
  obtain ⟨q⟩ := gcEuler_cases hp hf hr hs hr'
  exact perpendicular_of (fun i k cut => ⟨_, _, rfl⟩) hR q

/-- C92 for the Milstein scheme: the random displacement is the increment of the Wiener process over the step. -/
theorem milstein_perpendicular {n : Nat} {hin acc tol : ℝ} {w : Wiener.Arr ℝ} {junk : ℝ × ℝ} {m : MilOut} (hp : PlasmaHonest pl)
    (hf : FieldHonest f) (hr : s.running = true) (hR : 0 < s.y 0)
    (hs : gcMilstein C o n pl f hin acc tol w rnd junk s = some m) (hr' : m.s.running = true) :
    ∃ t w', Wiener.generate Real.sqrt n w (w.time 0 + hin * acc) rnd = some (w', some t) ∧ m.w = w' ∧
      Perpendicular C o pl s m.s fun d => w'.val t d - w'.val 0 d := by
  obtain ⟨t, w', hw, he, q, _⟩ := gcMilstein_cases hp hf hr hs hr'
  exact ⟨t, w', hw, he, perpendicular_of (fun i k cut => ⟨_, _, rfl⟩) hR q⟩

/-! ### C93: switches -/

theorem gamma_of_store {m p xi B : ℝ} (hm : 0 < m) (hB : 0 < B) (c : ℝ) :
    gammaPpar c m (gcMu m p xi B) (gcPpar p xi) B = gammaPnorm c m p := by
  unfold gammaPpar gammaPnorm gcMu gcPpar
  congr 1
  by_cases hc : c = 0
  · simp [hc]
  · field_simp
    ring

theorem gcP_of_gamma {c m p : ℝ} (hc : 0 < c) (hm : 0 < m) (hp : 0 ≤ p) : m * c * Real.sqrt (gammaPnorm c m p ^ 2 - 1) = p := by
  rw [gammaPnorm_sq]
  have : 1 + p * p / (m * m * (c * c)) - 1 = (p / (m * c)) ^ 2 := by
    field_simp
    ring
  rw [this, Real.sqrt_sq (by positivity)]
  field_simp

theorem in_p_nonneg {vflow : ℝ} (hc : 0 < C.c) (hm : 0 < s.mass) : 0 ≤ (inOf C vflow s).p := by
  simp only [inOf, gcP]
  positivity

/-- Lorentz factor of the momentum relative to the flow. -/
theorem gamma_in {vflow : ℝ} (hc : 0 < C.c) (hok : InOk C vflow s) :
    gammaPnorm C.c s.mass (inOf C vflow s).p =
      gammaPpar C.c s.mass (s.y 4) (pparFlow C vflow s) (V3.norm Real.sqrt (fieldOf s)) := by
  obtain ⟨hm, _, _, _, h2⟩ := hok
  have h2' : 0 ≤ 2 * s.y 4 * V3.norm Real.sqrt (fieldOf s) / (s.mass * (C.c * C.c)) +
    pparFlow C vflow s * pparFlow C vflow s / (s.mass * s.mass * (C.c * C.c)) := h2
  have hg : gammaPpar C.c s.mass (s.y 4) (pparFlow C vflow s) (V3.norm Real.sqrt (fieldOf s)) ^ 2 = 1 + (
      2 * s.y 4 * V3.norm Real.sqrt (fieldOf s) / (s.mass * (C.c * C.c)) +
    pparFlow C vflow s * pparFlow C vflow s / (s.mass * s.mass * (C.c * C.c))) := by
    unfold gammaPpar
    rw [Real.sq_sqrt (by linarith)]
    ring
  have hg0 : 0 ≤ gammaPpar C.c s.mass (s.y 4) (pparFlow C vflow s) (V3.norm Real.sqrt (fieldOf s)) := Real.sqrt_nonneg _
  refine (pow_left_inj₀ (gammaPnorm_pos hm _).le hg0 two_ne_zero).1 ?_
  rw [gammaPnorm_sq, hg]
  simp only [inOf, gcP]
  rw [hg]
  generalize 2 * s.y 4 * V3.norm Real.sqrt (fieldOf s) / (s.mass * (C.c * C.c)) +
    pparFlow C vflow s * pparFlow C vflow s / (s.mass * s.mass * (C.c * C.c)) = a at *
  have hs : Real.sqrt (1 + a - 1) * Real.sqrt (1 + a - 1) = a := by
    rw [Real.mul_self_sqrt (by linarith)]
    ring
  generalize Real.sqrt (1 + a - 1) = r at *
  rw [← hs]
  field_simp

theorem in_v {vflow : ℝ} (hc : 0 < C.c) (hok : InOk C vflow s) :
    0 < (inOf C vflow s).v ∧ pnormVnorm C.c s.mass (inOf C vflow s).v = (inOf C vflow s).p ∧ |(inOf C vflow s).v| < C.c := by
  have hp : 0 < (inOf C vflow s).p := lt_of_le_of_ne (in_p_nonneg hc hok.1) (Ne.symm hok.2.2.1)
  have := ((C46.momentum_velocity hc hok.1).2.1 (inOf C vflow s).p)
  refine ⟨?_, this.1, this.2⟩
  show 0 < vnormPnorm C.c s.mass (inOf C vflow s).p
  unfold vnormPnorm
  have hm := hok.1
  have : 0 < Real.sqrt (s.mass * s.mass + (inOf C vflow s).p * (inOf C vflow s).p / (C.c * C.c)) := Real.sqrt_pos.2 (by positivity)
  positivity

/-- What the switches promise of a step without plasma flow. -/
structure Switched (C : MConsts) (o : Options) (s s' : Gc) : Prop where
  energy : o.energy = false → ekinPpar C.c s'.mass (s'.y 4) (s'.y 3) (V3.norm Real.sqrt (fieldOf s')) =
    ekinPpar C.c s.mass (s.y 4) (s.y 3) (V3.norm Real.sqrt (fieldOf s))
  pitch : o.pitch = false → gcXi C.c s'.mass (s'.y 4) (s'.y 3) (V3.norm Real.sqrt (fieldOf s')) =
    gcXi C.c s.mass (s.y 4) (s.y 3) (V3.norm Real.sqrt (fieldOf s))
  gcdiff : o.gcdiff = false → s'.y 0 = s.y 0 ∧ s'.y 1 = s.y 1 ∧ s'.y 2 = s.y 2
  rest : s'.y 5 = s.y 5 ∧ s'.time = s.time ∧ s'.mass = s.mass ∧ s'.charge = s.charge

theorem stay {u : Out} {vflow : ℝ} (hr : 0 ≤ s.y 0) (hst : Stored C f vflow h s (inOf C vflow s) u s') (hX : u.X = (inOf C vflow s).X) :
    s'.y 0 = s.y 0 ∧ s'.y 1 = s.y 1 ∧ s'.y 2 = s.y 2 := by
  have hs := sc (s.y 1)
  refine ⟨?_, ?_, ?_⟩
  · rw [hst.r, hX]
    simp only [inOf, xyz2rpz]
    have : s.y 0 * Real.cos (s.y 1) * (s.y 0 * Real.cos (s.y 1)) + s.y 0 * Real.sin (s.y 1) * (s.y 0 * Real.sin (s.y 1)) = s.y 0 * s.y 0 := by
      linear_combination s.y 0 * s.y 0 * hs
    rw [this, Real.sqrt_mul_self hr]
  · rw [hst.phi, hX]
    have : turn (inOf C vflow s).X (inOf C vflow s).X = 0 := by
      unfold turn atan2
      have e : (⟨(inOf C vflow s).X.x * (inOf C vflow s).X.x + (inOf C vflow s).X.y * (inOf C vflow s).X.y,
          (inOf C vflow s).X.x * (inOf C vflow s).X.y - (inOf C vflow s).X.y * (inOf C vflow s).X.x⟩ : ℂ) =
        (((inOf C vflow s).X.x * (inOf C vflow s).X.x + (inOf C vflow s).X.y * (inOf C vflow s).X.y : ℝ) : ℂ) := by
        apply Complex.ext
        · rfl
        · show _ - _ = (0 : ℝ)
          ring
      rw [e]
      exact Complex.arg_ofReal_of_nonneg (by nlinarith [mul_self_nonneg (inOf C vflow s).X.x, mul_self_nonneg (inOf C vflow s).X.y])
    rw [this, add_zero]
  · rw [hst.z, hX]
    rfl

theorem cutoff_pos {m cut : ℝ} {sp : List Species} (hm : 0 < m) (hT : ∀ b ∈ sp, 0 < b.T ∧ 0 < b.m) (hc : cutoff m sp = some cut) : 0 < cut := by
  obtain ⟨b, hb, rfl⟩ := isCutoff_of hc
  have : 0 < b.T := (hT b (List.mem_of_mem_head? hb)).1
  have : 0 < Real.sqrt (b.T / m) := Real.sqrt_pos.2 (by positivity)
  linarith

theorem switched_of {out : In → Coef → ℝ → Out} (hc : 0 < C.c) (hout : ∀ i k cut, ∃ v xi X, out i k cut = outOf o i cut v xi X)
    (hR : 0 ≤ s.y 0) (q : Collided C o pl f h s out s') (h0 : q.vflow = 0) : Switched C o s s' := by
  obtain ⟨vr, xr, X, hv⟩ := hout (inOf C q.vflow s) q.k q.cut
  have hst := q.stored
  have hin := q.hin
  have hcut := cutoff_pos hin.1 q.hpl.2.1 q.hcut
  rw [hv] at hst
  rw [h0] at hst hin
  set u := outOf o (inOf C 0 s) q.cut vr xr X with hu
  obtain ⟨v0, vp, _⟩ := in_v hc hin
  have hm := hin.1
  have hpf : pparFlow C 0 s = s.y 3 := by simp [pparFlow]
  have hgi := gamma_in hc hin
  rw [hpf] at hgi
  have hB := hst.bnorm
  have hg : gammaPpar C.c s'.mass (s'.y 4) (s'.y 3) (V3.norm Real.sqrt (fieldOf s')) =
      gammaPnorm C.c s.mass (pnormVnorm C.c s.mass u.v) := by
    rw [hst.mu, hst.ppar, mul_zero, add_zero, hst.mass]
    exact gamma_of_store hm hB _
  refine ⟨fun he => ?_, fun hpi => ?_, fun hd => ?_, hst.zeta, hst.time, hst.mass, hst.charge⟩
  · have : u.v = (inOf C 0 s).v := by rw [hu]; simp [outOf, he]
    unfold ekinPpar
    rw [hg, this, vp, hgi, hst.mass]
  · have hx : u.xi = (inOf C 0 s).xi := by rw [hu]; simp [outOf, hpi]
    have hv0 : 0 < u.v := by
      rw [hu]
      simp only [outOf]
      split
      · exact lt_of_lt_of_le hcut (reflectV_ge _ _)
      · exact v0
    have hp0 : 0 < pnormVnorm C.c s.mass u.v := by
      unfold pnormVnorm
      have := gammaVnorm_pos hc hst.slow
      positivity
    have hgc : gcP C.c s'.mass (s'.y 4) (s'.y 3) (V3.norm Real.sqrt (fieldOf s')) = pnormVnorm C.c s.mass u.v := by
      unfold gcP
      rw [hg, hst.mass]
      exact gcP_of_gamma hc hm hp0.le
    unfold gcXi
    rw [hgc, hst.ppar, mul_zero, add_zero, hx]
    unfold gcPpar
    rw [mul_comm, mul_div_assoc, div_self hp0.ne', mul_one]
    simp only [inOf, gcXi]
    rw [hpf]
  · exact stay hR hst (by rw [hu]; simp [outOf, hd])

/-- C93 for the Euler scheme: without plasma flow, the switches do what they say. -/
theorem euler_switches_partial (hp : PlasmaHonest pl) (hf : FieldHonest f) (hc : 0 < C.c) (hr : s.running = true) (hR : 0 ≤ s.y 0)
    (hflow : pl.flow s.rho (s.y 0) (s.y 1) (s.y 2) s.time = .ok 0)
    (hs : gcEuler C o pl f h rnd s = some s') (hr' : s'.running = true) : Switched C o s s' := by
  obtain ⟨q⟩ := gcEuler_cases hp hf hr hs hr'
  refine switched_of hc (fun i k cut => ⟨_, _, _, rfl⟩) hR q ?_
  have := q.hflow
  rw [hflow] at this
  simpa using this.symm

/-- C93 for the Milstein scheme. -/
theorem milstein_switches_partial {n : Nat} {hin acc tol : ℝ} {w : Wiener.Arr ℝ} {junk : ℝ × ℝ} {m : MilOut} (hp : PlasmaHonest pl)
    (hf : FieldHonest f) (hc : 0 < C.c) (hr : s.running = true) (hR : 0 ≤ s.y 0)
    (hflow : pl.flow s.rho (s.y 0) (s.y 1) (s.y 2) s.time = .ok 0)
    (hs : gcMilstein C o n pl f hin acc tol w rnd junk s = some m) (hr' : m.s.running = true) : Switched C o s m.s := by
  obtain ⟨t, w', hw, _, q, _⟩ := gcMilstein_cases hp hf hr hs hr'
  refine switched_of hc (fun i k cut => ⟨_, _, _, rfl⟩) hR q ?_
  have := q.hflow
  rw [hflow] at this
  simpa using this.symm

/-- With all effects switched off, a plasma flow `vflow` still changes the parallel momentum: by the difference of the Lorentz
factors relative to the plasma and in the laboratory, times `m vflow`. -/
theorem flow_changes_momentum (hp : PlasmaHonest pl) (hf : FieldHonest f) (hc : 0 < C.c) (hr : s.running = true) {vflow : ℝ}
    (hflow : pl.flow s.rho (s.y 0) (s.y 1) (s.y 2) s.time = .ok vflow)
    (he : o.energy = false) (hpi : o.pitch = false)
    (hs : gcEuler C o pl f h rnd s = some s') (hr' : s'.running = true) :
    s'.y 3 = s.y 3 + (gammaPpar C.c s.mass (s.y 4) (pparFlow C vflow s) (V3.norm Real.sqrt (fieldOf s)) -
      gammaPpar C.c s.mass (s.y 4) (s.y 3) (V3.norm Real.sqrt (fieldOf s))) * s.mass * vflow := by
  obtain ⟨q⟩ := gcEuler_cases hp hf hr hs hr'
  have hv : q.vflow = vflow := by have := q.hflow; rw [hflow] at this; simpa using this.symm
  have hst := q.stored
  have hin := q.hin
  have hk := q.hk
  rw [hv] at hst hin
  obtain ⟨v0, vp, _⟩ := in_v hc hin
  have e1 : (eulerOut o h rnd (inOf C vflow s) q.k q.cut).v = (inOf C vflow s).v := by simp [eulerOut, outOf, he]
  have e2 : (eulerOut o h rnd (inOf C vflow s) q.k q.cut).xi = (inOf C vflow s).xi := by simp [eulerOut, outOf, hpi]
  rw [hst.ppar, e1, e2, vp, gamma_in hc hin]
  have hp0 := hin.2.2.1
  have : gcPpar (inOf C vflow s).p (inOf C vflow s).xi = pparFlow C vflow s := by
    have hx : (inOf C vflow s).xi = pparFlow C vflow s / (inOf C vflow s).p := rfl
    unfold gcPpar
    rw [hx, mul_div_cancel₀ _ hp0]
  rw [this]
  unfold pparFlow
  ring

end Ascot.C92
