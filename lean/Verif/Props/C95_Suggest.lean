import Verif.Props.C51_Witness

set_option linter.unusedSectionVars false
set_option linter.unusedSimpArgs false

/-!
# C95: step-size control of the Milstein scheme
-/
namespace Ascot.C95
open Ascot.Coord Ascot.Physlib Ascot.GcStep Ascot.Mccc

/-- The control rule: the suggestion `hout` after a step of length `hin` with the error estimates `errs` (in units of the
tolerance).  A negative suggestion means that the step is rejected. -/
structure Controlled (hin hout : ℝ) (errs : List ℝ) : Prop where
  reject : hout < 0 ↔ ∃ e ∈ errs, 1 < e
  shrink : hout < 0 → |hout| < 0.9 * hin
  accept : ¬ hout < 0 → 0.8 * hin ≤ hout ∧ hout ≤ 1.5 * hin

theorem pow_small {k : ℝ} (hk : 1 < k) : k ^ (-2 / 3 : ℝ) < 1 ∧ 0 < k ^ (-2 / 3 : ℝ) :=
  ⟨Real.rpow_lt_one_of_one_lt_of_neg hk (by norm_num), Real.rpow_pos_of_pos (by linarith) _⟩

theorem pow_large {k : ℝ} (h0 : 0 < k) (hk : k ≤ 1) : 1 ≤ k ^ (-2 / 3 : ℝ) :=
  Real.one_le_rpow_of_pos_of_le_one_of_nonpos h0 hk (by norm_num)

theorem sqrt_small {k : ℝ} (hk : 1 < k) : 1 < Real.sqrt k := by
  rw [Real.lt_sqrt (by norm_num)]
  linarith

/-- The rule, for all step lengths and estimates. -/
theorem suggest_controlled {hin kk k0 k1 : ℝ} (hh : 0 < hin) (h0 : 0 ≤ kk) (h1 : 0 ≤ k0) (h2 : 0 ≤ k1) :
    Controlled hin (suggest hin kk k0 k1) [kk, k0, k1] := by
  have hex : (∃ e ∈ [kk, k0, k1], 1 < e) ↔ (kk > 1 ∨ k0 > 1 ∨ k1 > 1) := by simp
  by_cases hrej : kk > 1 ∨ k0 > 1 ∨ k1 > 1
  · have key : ∃ r, suggest hin kk k0 k1 = -r ∧ 0 < r ∧ r < 0.9 * hin := by
      unfold suggest
      by_cases c1 : kk ≥ k0 ∧ kk ≥ k1
      · have hk : 1 < kk := by rcases hrej with h | h | h <;> linarith [c1.1, c1.2]
        have hs := sqrt_small hk
        simp only [if_pos c1, if_neg (by linarith : ¬ kk = 0), if_pos hrej]
        refine ⟨_, rfl, by positivity, ?_⟩
        rw [div_lt_iff₀ (by linarith)]
        nlinarith
      · simp only [if_neg c1]
        by_cases c2 : k0 ≥ kk ∧ k0 ≥ k1
        · have hk : 1 < k0 := by rcases hrej with h | h | h <;> linarith [c2.1, c2.2]
          have hs := pow_small hk
          simp only [if_pos c2, if_neg (by linarith : ¬ k0 = 0), if_pos hrej]
          have := hs.2
          exact ⟨_, rfl, by positivity, by nlinarith [hs.1]⟩
        · have hk : 1 < k1 := by
            by_contra hcon
            rcases not_and_or.1 c1 with h | h <;> rcases not_and_or.1 c2 with h' | h' <;> rcases hrej with g | g | g <;> linarith [not_le.1 h, not_le.1 h']
          have hs := pow_small hk
          simp only [if_neg c2, if_neg (by linarith : ¬ k1 = 0), if_pos hrej]
          have := hs.2
          exact ⟨_, rfl, by positivity, by nlinarith [hs.1]⟩
    obtain ⟨r, hr, r0, r1⟩ := key
    rw [hr]
    exact ⟨⟨fun _ => hex.2 hrej, fun _ => by linarith⟩, fun _ => by rwa [abs_neg, abs_of_pos r0], fun h => absurd (by linarith) h⟩
  · have hrej' := hrej
    simp only [not_or, not_lt, gt_iff_lt] at hrej'
    obtain ⟨g0, g1, g2⟩ := hrej'
    have key : 0.8 * hin ≤ suggest hin kk k0 k1 ∧ suggest hin kk k0 k1 ≤ 1.5 * hin := by
      have fin : ∀ r, 0.8 * hin ≤ r → 0.8 * hin ≤ (if r > 1.5 * hin then 1.5 * hin else r) ∧ (if r > 1.5 * hin then 1.5 * hin else r) ≤ 1.5 * hin := by
        intro r hr
        split
        · exact ⟨by linarith, le_rfl⟩
        · next h => exact ⟨hr, not_lt.1 h⟩
      have top : 0.8 * hin ≤ 1.5 * hin ∧ 1.5 * hin ≤ 1.5 * hin := ⟨by linarith, le_rfl⟩
      unfold suggest
      by_cases c1 : kk ≥ k0 ∧ kk ≥ k1
      · simp only [if_pos c1]
        by_cases z : kk = 0
        · simpa only [if_pos z] using top
        · have hk : 0 < kk := lt_of_le_of_ne h0 (Ne.symm z)
          simp only [if_neg z, if_neg hrej]
          apply fin
          rw [le_div_iff₀ (Real.sqrt_pos.2 hk)]
          have : Real.sqrt kk ≤ 1 := Real.sqrt_le_one.2 g0
          nlinarith
      · simp only [if_neg c1]
        by_cases c2 : k0 ≥ kk ∧ k0 ≥ k1
        · simp only [if_pos c2]
          by_cases z : k0 = 0
          · simpa only [if_pos z] using top
          · have := pow_large (lt_of_le_of_ne h1 (Ne.symm z)) g1
            simp only [if_neg z, if_neg hrej]
            apply fin
            nlinarith
        · simp only [if_neg c2]
          by_cases z : k1 = 0
          · simpa only [if_pos z] using top
          · have := pow_large (lt_of_le_of_ne h2 (Ne.symm z)) g2
            simp only [if_neg z, if_neg hrej]
            apply fin
            nlinarith
    have hpos : 0 ≤ suggest hin kk k0 k1 := by linarith [key.1]
    exact ⟨⟨fun h => absurd h (not_lt.2 hpos), fun h => absurd (hex.1 h) hrej⟩, fun h => absurd h (not_lt.2 hpos), fun _ => key⟩

variable {C : MConsts} {o : Options} {pl : Plasma} {f : Fields} {rnd : Fin 5 → ℝ} {s : Gc}

/-- A Milstein step is controlled by its three error estimates: of the drift, of the diffusion in speed and of the diffusion
in pitch. -/
theorem milstein_controlled {n : Nat} {hin acc tol : ℝ} {w : Wiener.Arr ℝ} {junk : ℝ × ℝ} {m : MilOut} (hp : PlasmaHonest pl)
    (hf : FieldHonest f) (hc : 0 < C.c) (hh : 0 < hin) (hr : s.running = true)
    (hs : gcMilstein C o n pl f hin acc tol w rnd junk s = some m) (hr' : m.s.running = true) :
    ∃ t w' vflow sp k, Wiener.generate Real.sqrt n w (w.time 0 + hin * acc) rnd = some (w', some t) ∧
      pl.flow s.rho (s.y 0) (s.y 1) (s.y 2) s.time = .ok vflow ∧ pl.species s.rho (s.y 0) (s.y 1) (s.y 2) s.time = .ok sp ∧
      coefs C o s (inOf C vflow s) sp = some k ∧
      let dW := fun d => w'.val t d - w'.val 0 d
      let i := inOf C vflow s
      Controlled hin m.hout [kappaK C i k tol (hin * acc), kappaD0 C i k tol (hin * acc) dW, kappaD1 i k tol (hin * acc) dW] := by
  obtain ⟨t, w', hw, _, q, htol, heps, hD, hnu, hxi, hout, _⟩ := gcMilstein_cases hp hf hr hs hr'
  refine ⟨t, w', q.vflow, q.sp, q.k, hw, q.hflow, q.hsp, q.hk, ?_⟩
  have hh' := q.hh
  have hv := (C92.in_v hc q.hin).1
  have href : 0 ≤ refSpeed C (inOf C q.vflow s) q.k (hin * acc) := by
    unfold refSpeed
    have := Real.sqrt_nonneg (2 * q.k.Dpara * (hin * acc))
    have := mul_nonneg (abs_nonneg q.k.K) hh'
    linarith
  simp only
  rw [hout]
  refine suggest_controlled hh ?_ ?_ ?_
  · unfold kappaK
    simp only
    split <;> positivity
  · unfold kappaD0
    positivity
  · unfold kappaD1
    positivity

/-- All estimates are inversely proportional to the tolerance: they are errors in units of the tolerance. -/
theorem estimates_scale {tol h : ℝ} (ht : 0 < tol) (i : In) (k : Coef) (dW : Fin 5 → ℝ) :
    kappaK C i k tol h = kappaK C i k 1 h / tol ∧ kappaD0 C i k tol h dW = kappaD0 C i k 1 h dW / tol ∧
    kappaD1 i k tol h dW = kappaD1 i k 1 h dW / tol := by
  refine ⟨?_, ?_, ?_⟩
  · have e1 : |k.K * k.dQ| / (2 * tol * refSpeed C i k h) = |k.K * k.dQ| / (2 * 1 * refSpeed C i k h) / tol := by
      rw [div_div]
      congr 1
      ring
    have e2 : |i.xi * k.nu * k.nu| / (2 * tol) = |i.xi * k.nu * k.nu| / (2 * 1) / tol := by
      rw [div_div]
      congr 1
      ring
    unfold kappaK
    simp only
    rw [e1, e2]
    have e3 : ∀ a b : ℝ, (a / tol > b / tol) = (a > b) := fun a b => propext (div_lt_div_iff_of_pos_right ht)
    simp only [e3]
    split <;> ring
  · unfold kappaD0
    rw [div_div]
    congr 1
    ring
  · unfold kappaD1
    rw [div_div]
    congr 1
    ring

/-- The hypotheses are met. -/
example : ∃ (h : ℝ) (w : Wiener.Arr ℝ) (m : MilOut), 0 < h ∧
    gcMilstein C51.units C51.allOn 20 (C51.bath 1 0) C51.calm h 1 1 w (fun _ => 0) (0, 0) C51.mark = some m ∧ m.s.running = true := by
  obtain ⟨h, w, _, _, m, h1, h2, h3, _⟩ := C51.mark_milstein
  exact ⟨h, w, m, h1, h2, h3⟩

/-- A rejected step and an accepted one. -/
example : suggest 1 4 0 0 < 0 ∧ 0 < suggest 1 0 0 0 := by
  have h1 := (suggest_controlled (hin := 1) (kk := 4) (k0 := 0) (k1 := 0) one_pos (by norm_num) le_rfl le_rfl).reject.2 ⟨4, by simp, by norm_num⟩
  have h2 := suggest_controlled (hin := 1) (kk := 0) (k0 := 0) (k1 := 0) one_pos le_rfl le_rfl le_rfl
  have h3 : ¬ suggest 1 0 0 0 < 0 := fun h => by
    obtain ⟨e, he, h1⟩ := h2.reject.1 h
    simp at he
    subst he
    linarith
  exact ⟨h1, by linarith [(h2.accept h3).1]⟩

end Ascot.C95
