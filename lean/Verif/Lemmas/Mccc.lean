import Mathlib.Tactic.NormNum
import Verif.Model.Mccc
import Verif.Lemmas.McccCoefs
import Verif.Lemmas.Physlib
import Verif.Lemmas.Coord

set_option linter.unusedSectionVars false
set_option linter.unusedSimpArgs false

namespace Ascot.Mccc
open Ascot.Coord Ascot.Physlib Ascot.GcStep

/-- Evaluations of the plasma report failures with nonzero codes. -/
structure PlasmaHonest (pl : Plasma) : Prop where
  flow : ∀ a b c d e x, pl.flow a b c d e = .error x → x ≠ 0
  species : ∀ a b c d e x, pl.species a b c d e = .error x → x ≠ 0

/-- Evaluations of the magnetic field report failures with nonzero codes. -/
structure FieldHonest (f : Fields) : Prop where
  BdB : ∀ r p z t e, f.BdB r p z t = .error e → e ≠ 0
  psi : ∀ r p z t e, f.psi r p z t = .error e → e ≠ 0
  rho : ∀ x e, f.rho x = .error e → e ≠ 0

variable {C : MConsts} {o : Options} {pl : Plasma} {f : Fields} {h : ℝ} {rnd : Fin 5 → ℝ} {s s' : Gc}

/-- What a completed update of the marker means. -/
structure Stored (C : MConsts) (f : Fields) (vflow h : ℝ) (s : Gc) (i : In) (u : Out) (s' : Gc) : Prop where
  slow : |u.v| < C.c
  field : f.BdB (xyz2rpz u.X).x (xyz2rpz u.X).y (xyz2rpz u.X).z (s.time + h) = .ok s'.jac
  rho : ∃ psi, f.psi (xyz2rpz u.X).x (xyz2rpz u.X).y (xyz2rpz u.X).z (s.time + h) = .ok psi ∧ f.rho psi = .ok s'.rho
  bnorm : 0 < V3.norm Real.sqrt (fieldOf s')
  r : s'.y 0 = (xyz2rpz u.X).x
  phi : s'.y 1 = s.y 1 + turn i.X u.X
  z : s'.y 2 = u.X.z
  ppar : s'.y 3 = gcPpar (pnormVnorm C.c s.mass u.v) u.xi + gammaPnorm C.c s.mass (pnormVnorm C.c s.mass u.v) * s.mass * vflow
  mu : s'.y 4 = gcMu s.mass (pnormVnorm C.c s.mass u.v) u.xi (V3.norm Real.sqrt (fieldOf s'))
  zeta : s'.y 5 = s.y 5
  theta : s'.theta = s.theta + atan2 ((s.y 0 - (f.axis (s.y 1)).1.1) * (s'.y 2 - (f.axis (s.y 1)).1.2) -
      (s.y 2 - (f.axis (s.y 1)).1.2) * (s'.y 0 - (f.axis (s.y 1)).1.1))
    ((s.y 0 - (f.axis (s.y 1)).1.1) * (s'.y 0 - (f.axis (s.y 1)).1.1) + (s.y 2 - (f.axis (s.y 1)).1.2) * (s'.y 2 - (f.axis (s.y 1)).1.2))
  time : s'.time = s.time
  mass : s'.mass = s.mass
  charge : s'.charge = s.charge
  err : s'.err = s.err
  running : s'.running = s.running

theorem norm_nonneg (v : V3 ℝ) : 0 ≤ V3.norm Real.sqrt v := Real.sqrt_nonneg _

theorem store_cases {vflow : ℝ} {i : In} {u : Out} {e : Nat} (hf : FieldHonest f) (hs : store C f vflow h s i u = some (s', e)) :
    (e ≠ 0 ∧ s' = s) ∨ (Stored C f vflow h s i u s' ∧ e = (f.axis (s.y 1)).2) := by
  unfold store at hs
  split at hs
  · simp at hs
  next hv =>
  simp only at hs
  split at hs
  · next e' he =>
    simp only [Option.some.injEq, Prod.mk.injEq] at hs
    exact .inl ⟨hs.2 ▸ hf.BdB _ _ _ _ _ he, hs.1.symm⟩
  next j hj =>
  split at hs
  · next e' he =>
    simp only [Option.some.injEq, Prod.mk.injEq] at hs
    exact .inl ⟨hs.2 ▸ hf.psi _ _ _ _ _ he, hs.1.symm⟩
  next psi hp =>
  split at hs
  · next e' he =>
    simp only [Option.some.injEq, Prod.mk.injEq] at hs
    exact .inl ⟨hs.2 ▸ hf.rho _ _ he, hs.1.symm⟩
  next rho hr =>
  split at hs
  · simp at hs
  next hB =>
  simp only [Option.some.injEq, Prod.mk.injEq] at hs
  obtain ⟨rfl, rfl⟩ := hs
  refine .inr ⟨⟨not_le.1 hv, hj, ⟨psi, hp, hr⟩, ?_, rfl, rfl, rfl, rfl, rfl, rfl, rfl, rfl, rfl, rfl, rfl, rfl⟩, rfl⟩
  exact lt_of_le_of_ne (norm_nonneg _) (Ne.symm hB)

/-- What a collision step that goes through has computed. -/
structure Collided (C : MConsts) (o : Options) (pl : Plasma) (f : Fields) (h : ℝ) (s : Gc) (out : In → Coef → ℝ → Out) (s' : Gc) where
  vflow : ℝ
  sp : List Species
  k : Coef
  cut : ℝ
  hflow : pl.flow s.rho (s.y 0) (s.y 1) (s.y 2) s.time = .ok vflow
  hsp : pl.species s.rho (s.y 0) (s.y 1) (s.y 2) s.time = .ok sp
  hin : InOk C vflow s
  hpl : PlasmaOk C s.mass s.charge (inOf C vflow s).v sp
  hh : 0 ≤ h
  hk : coefs C o s (inOf C vflow s) sp = some k
  hcut : cutoff s.mass sp = some cut
  hko : CoefOk (inOf C vflow s).xi k
  stored : Stored C f vflow h s (inOf C vflow s) (out (inOf C vflow s) k cut) s'

/-- Coordinates after an Euler step. -/
noncomputable def eulerOut (o : Options) (h : ℝ) (rnd : Fin 5 → ℝ) (i : In) (k : Coef) (cut : ℝ) : Out :=
  outOf o i cut (eulerV i k h fun d => Real.sqrt h * rnd d) (eulerXi i k h fun d => Real.sqrt h * rnd d)
    (diffuse i k.DX fun d => Real.sqrt h * rnd d)

/-- Coordinates after a Milstein step. -/
noncomputable def milsteinOut (o : Options) (h : ℝ) (dW : Fin 5 → ℝ) (i : In) (k : Coef) (cut : ℝ) : Out :=
  outOf o i cut (milsteinV i k h dW) (milsteinXi i k h dW) (diffuse i k.DX dW)

theorem settle_running {s : Gc} {e : Nat} (hr : (settle s e).running = true) : e = 0 ∧ settle s e = s := by
  unfold settle at *
  by_cases he : e ≠ 0
  · rw [if_pos he] at hr
    simp at hr
  · rw [if_neg he]
    exact ⟨not_not.1 he, rfl⟩

/-- A marker that is still running after the step has been updated completely. -/
theorem gcEuler_cases (hp : PlasmaHonest pl) (hf : FieldHonest f) (hr : s.running = true)
    (hs : gcEuler C o pl f h rnd s = some s') (hr' : s'.running = true) :
    Nonempty (Collided C o pl f h s (eulerOut o h rnd) s') := by
  unfold gcEuler at hs
  rw [if_pos hr] at hs
  split at hs
  · next e he =>
    simp only [Option.some.injEq] at hs
    subst hs
    exact absurd (settle_running hr').1 (hp.flow _ _ _ _ _ _ he)
  next vflow hflow =>
  split at hs
  · next e he =>
    simp only [Option.some.injEq] at hs
    subst hs
    exact absurd (settle_running hr').1 (hp.species _ _ _ _ _ _ he)
  next sp hsp =>
  simp only at hs
  split at hs
  · simp at hs
  next hok =>
  have hok := not_not.1 hok
  split at hs
  · next k cut hk hcut =>
    split at hs
    · simp at hs
    next hko =>
    have hko := not_not.1 hko
    unfold settleO at hs
    split at hs
    · simp at hs
    next s1 e h1 =>
    simp only [Option.some.injEq] at hs
    subst hs
    obtain ⟨he, hse⟩ := settle_running hr'
    rcases store_cases hf h1 with ⟨h2, _⟩ | ⟨h2, _⟩
    · exact absurd he h2
    · rw [hse]
      exact ⟨⟨vflow, sp, k, cut, hflow, hsp, hok.1, hok.2.1, hok.2.2, hk, hcut, hko, h2⟩⟩
  · simp at hs

theorem gcMilstein_cases {n : Nat} {hin acc tol : ℝ} {w : Wiener.Arr ℝ} {junk : ℝ × ℝ} {m : MilOut} (hp : PlasmaHonest pl)
    (hf : FieldHonest f) (hr : s.running = true)
    (hs : gcMilstein C o n pl f hin acc tol w rnd junk s = some m) (hr' : m.s.running = true) :
    ∃ t w', Wiener.generate Real.sqrt n w (w.time 0 + hin * acc) rnd = some (w', some t) ∧ m.w = w' ∧
    ∃ q : Collided C o pl f (hin * acc) s (milsteinOut o (hin * acc) fun d => w'.val t d - w'.val 0 d) m.s,
      0 < tol ∧ 0 ≤ C.eps ∧ 0 < q.k.Dpara ∧ 0 ≤ q.k.nu ∧ (inOf C q.vflow s).xi * (inOf C q.vflow s).xi ≤ 1 ∧
      m.hout = suggest hin (kappaK C (inOf C q.vflow s) q.k tol (hin * acc))
        (kappaD0 C (inOf C q.vflow s) q.k tol (hin * acc) fun d => w'.val t d - w'.val 0 d)
        (kappaD1 (inOf C q.vflow s) q.k tol (hin * acc) fun d => w'.val t d - w'.val 0 d) ∧ m.collfreq = q.k.nu := by
  unfold gcMilstein at hs
  rw [if_pos hr] at hs
  split at hs
  · next e he =>
    simp only [Option.some.injEq] at hs
    subst hs
    exact absurd (settle_running hr').1 (hp.flow _ _ _ _ _ _ he)
  next vflow hflow =>
  split at hs
  · next e he =>
    simp only [Option.some.injEq] at hs
    subst hs
    exact absurd (settle_running hr').1 (hp.species _ _ _ _ _ _ he)
  next sp hsp =>
  simp only at hs
  split at hs
  · simp at hs
  next hok =>
  have hok := not_not.1 hok
  split at hs
  · next k cut hk hcut =>
    split at hs
    · simp at hs
    next hko =>
    have hko := not_not.1 hko
    split at hs
    · simp at hs
    · simp only [Option.some.injEq] at hs
      subst hs
      exact absurd (settle_running hr').1 (by decide)
    next w' t hw =>
    split at hs
    · simp at hs
    next s1 h1 =>
    simp only [Option.some.injEq] at hs
    subst hs
    unfold settleO at h1
    split at h1
    · simp at h1
    next s2 e h2 =>
    simp only [Option.some.injEq] at h1
    subst h1
    obtain ⟨he, hse⟩ := settle_running hr'
    rcases store_cases hf h2 with ⟨h3, _⟩ | ⟨h3, _⟩
    · exact absurd he h3
    · refine ⟨t, w', hw, rfl, ?_⟩
      dsimp only
      rw [hse]
      exact ⟨⟨vflow, sp, k, cut, hflow, hsp, hok.1, hok.2.1, hok.2.2.1, hk, hcut, hko.1, h3⟩, hok.2.2.2.1, hok.2.2.2.2, hko.2.1,
        hko.2.2.1, hko.2.2.2, rfl, rfl⟩
  · simp at hs

end Ascot.Mccc
