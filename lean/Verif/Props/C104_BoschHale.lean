import Verif.Model.BoschHale
import Verif.Props.C61_Fusion
import Mathlib.Tactic.NormNum.NatSqrt

/-!
# C104: fusion cross sections are never negative, and the tables conserve charge
-/
set_option linter.unusedSectionVars false
set_option linter.unusedSimpArgs false

namespace Ascot.C104
open Ascot.BoschHale

/-! ## Specification -/

/-- Energy in keV above which a reaction takes place. -/
noncomputable def threshold : Channel → ℝ
  | .DHe3_He4p => 0.3
  | _ => 0.5

/-- The tabulated species as data of a reaction. -/
noncomputable def reaction (s : Species) : Afsi.Reaction := ⟨s.m1, s.m2, s.mprod1, s.mprod2, s.Q⟩

/-! ## Proofs -/

/-- **Charge** is conserved by every reaction. -/
theorem charge (e : ℝ) (c : Channel) : (species e c).q1 + (species e c).q2 = (species e c).qprod1 + (species e c).qprod2 := by
  cases c <;> simp [species] <;> ring

/-- The masses are positive and energy is released, so that the conservation laws of C61 apply. -/
theorem valid {e : ℝ} (he : 0 < e) (c : Channel) : C61.Valid (reaction (species e c)) := by
  cases c <;> constructor <;> simp only [reaction, species] <;> first | positivity | norm_num

theorem emin (c : Channel) (E : ℝ) : (fit c E).Emin = threshold c ∧ 4700 ≤ (fit c E).Emax ∧ (fit c E).Emax ≤ 5000 ∧ 0 < (fit c E).BG ∧ (fit c E).BG < 69 := by
  cases c <;> simp only [fit] <;> (try split_ifs) <;> simp only [fitLow, fitHigh, threshold] <;> norm_num

/-- The S factor is positive in the range where it is evaluated. -/
theorem sfactor (c : Channel) (E x : ℝ) (hx0 : threshold c < x) (hx : x = E ∨ (x < E ∧ x = (fit c E).Emax)) (hxm : x ≤ (fit c E).Emax) :
    denom (fit c E) x ≠ 0 ∧ 0 < numer (fit c E) x / denom (fit c E) x := by
  have key : (0 < denom (fit c E) x ∧ 0 < numer (fit c E) x) ∨ (denom (fit c E) x < 0 ∧ numer (fit c E) x < 0) → 
      denom (fit c E) x ≠ 0 ∧ 0 < numer (fit c E) x / denom (fit c E) x := by
    rintro (⟨h1, h2⟩ | ⟨h1, h2⟩)
    · exact ⟨h1.ne', div_pos h2 h1⟩
    · exact ⟨h1.ne, div_pos_of_neg_of_neg h2 h1⟩
  apply key
  cases c
  · simp only [fit] at *
    split_ifs at * with h
    · left
      simp only [fitLow, threshold, numer, denom] at *
      have hx1 : x ≤ 530 := by rcases hx with rfl | ⟨h1, h2⟩ <;> linarith
      have h0 : 0 < x := by linarith
      constructor
      · have : 0 ≤ (x - 44) ^ 2 * (x + 88) := by positivity
        have h2 : 0 ≤ x * ((x - 44) ^ 2 * (x + 88)) := by positivity
        have h3 : 0 < x ^ 3 := by positivity
        nlinarith
      · positivity
    · right
      simp only [fitHigh, threshold, numer, denom] at *
      have hx1 : 530 ≤ x := by rcases hx with rfl | ⟨h1, h2⟩ <;> linarith
      have a0 : 0 ≤ x - 530 := by linarith
      have b0 : 0 ≤ 4700 - x := by linarith
      constructor
      · linarith [pow_nonneg b0 4, mul_nonneg a0 (pow_nonneg b0 3), mul_nonneg (pow_nonneg a0 2) (pow_nonneg b0 2),
          mul_nonneg (pow_nonneg a0 3) b0, pow_nonneg a0 4]
      · norm_num
  · simp only [fit] at *
    split_ifs at * with h
    · left
      simp only [fitLow, threshold, numer, denom] at *
      have hx1 : x ≤ 900 := by rcases hx with rfl | ⟨h1, h2⟩ <;> linarith
      have h0 : 0 < x := by linarith
      constructor
      · have h2 : 0 ≤ x * (x - 191) ^ 2 := by positivity
        have h3 : 0 ≤ (x - 191) ^ 2 := by positivity
        nlinarith
      · positivity
    · right
      simp only [fitHigh, threshold, numer, denom] at *
      have hx1 : 900 ≤ x := by rcases hx with rfl | ⟨h1, h2⟩ <;> linarith
      have a0 : 0 ≤ x - 900 := by linarith
      have b0 : 0 ≤ 4800 - x := by linarith
      constructor
      · linarith [pow_nonneg b0 4, mul_nonneg a0 (pow_nonneg b0 3), mul_nonneg (pow_nonneg a0 2) (pow_nonneg b0 2),
          mul_nonneg (pow_nonneg a0 3) b0, pow_nonneg a0 4]
      · norm_num
  · left
    simp only [fit, fitLow, threshold, numer, denom] at *
    have a0 : 0 ≤ x - 0.5 := by linarith
    have b0 : 0 ≤ 5000 - x := by linarith
    constructor
    · norm_num
    · linarith [pow_nonneg b0 4, mul_nonneg a0 (pow_nonneg b0 3), mul_nonneg (pow_nonneg a0 2) (pow_nonneg b0 2),
          mul_nonneg (pow_nonneg a0 3) b0, pow_nonneg a0 4]
  · left
    simp only [fit, fitLow, threshold, numer, denom] at *
    have a0 : 0 ≤ x - 0.5 := by linarith
    have b0 : 0 ≤ 4900 - x := by linarith
    constructor
    · norm_num
    · linarith [pow_nonneg b0 4, mul_nonneg a0 (pow_nonneg b0 3), mul_nonneg (pow_nonneg a0 2) (pow_nonneg b0 2),
          mul_nonneg (pow_nonneg a0 3) b0, pow_nonneg a0 4]

/-- **Cross section**: for each reaction it is defined for every energy, never negative, and positive exactly above the threshold. -/
theorem cross_section {e : ℝ} (he : 0 < e) {r : Int} {c : Channel} (hr : channel r = some c) (E : ℝ) :
    ∃ s, sigma e r E = some s ∧ 0 ≤ s ∧ (0 < s ↔ threshold c * (1e3 * e) < E) := by
  unfold sigma
  rw [hr]
  have hke : 0 < 1e3 * e := by positivity
  have ht : threshold c * (1e3 * e) < E ↔ threshold c < E / (1e3 * e) := (lt_div_iff₀ hke).symm
  rw [ht]
  simp only
  generalize E / (1e3 * e) = x
  obtain ⟨h1, h2, h3, h4, h5⟩ := emin c x
  have htp : (0.3 : ℝ) ≤ threshold c := by cases c <;> simp only [threshold] <;> norm_num
  have htl : threshold c ≤ 0.5 := by cases c <;> simp only [threshold] <;> norm_num
  unfold sigmaFit
  by_cases hx : x ≤ (fit c x).Emin
  · rw [if_pos hx]
    rw [h1] at hx
    refine ⟨0, rfl, le_refl _, ?_⟩
    constructor
    · intro h; exact absurd h (lt_irrefl _)
    · intro h; linarith
  rw [if_neg hx]
  · rw [h1] at hx
    push Not at hx
    obtain ⟨x2, hx2, hx2p, hx2e, hx2m⟩ : ∃ x2, (if x > (fit c x).Emax then (fit c x).Emax else x) = x2 ∧ threshold c < x2 ∧
        (x2 = x ∨ (x2 < x ∧ x2 = (fit c x).Emax)) ∧ x2 ≤ (fit c x).Emax := by
      by_cases h : x > (fit c x).Emax
      · exact ⟨_, if_pos h, by linarith, Or.inr ⟨h, rfl⟩, le_refl _⟩
      · exact ⟨_, if_neg h, hx, Or.inl rfl, not_lt.1 h⟩
    simp only [hx2]
    obtain ⟨n1, n2⟩ := sfactor c x x2 hx2p hx2e hx2m
    have hlow : ¬ (fit c x).BG / Real.sqrt x2 > 700 := by
      have hs : 0.5 ≤ Real.sqrt x2 := by
        apply Real.le_sqrt_of_sq_le; nlinarith
      rw [not_lt, div_le_iff₀ (by linarith)]
      nlinarith
    rw [if_neg n1, if_neg hlow]
    have hx0 : 0 < x := by linarith
    have hp : 0 < numer (fit c x) x2 / denom (fit c x) x2 / (x * Real.exp ((fit c x).BG / Real.sqrt x)) * 1e-31 := by positivity
    exact ⟨_, rfl, hp.le, fun _ => hx, fun _ => hp⟩

/-- Other numbers than those of the four reactions give the value -1, as cross section and as reactivity. -/
theorem unknown {e : ℝ} {r : Int} (hr : channel r = none) (E : ℝ) : sigma e r E = some (-1) ∧ sigmav r E = some (-1) := by
  unfold sigma sigmav
  rw [hr]
  exact ⟨rfl, rfl⟩

/-- **The two fits agree where they meet**: the S factors differ by less than 0.1 % at 530 keV for the D-T reaction and by less than
3.5 % at 900 keV for the D-He3 reaction. -/
theorem joined :
    |numer (fitLow .DT_He4n) 530 / denom (fitLow .DT_He4n) 530 - numer (fitHigh .DT_He4n) 530 / denom (fitHigh .DT_He4n) 530| <
      0.001 * (numer (fitHigh .DT_He4n) 530 / denom (fitHigh .DT_He4n) 530) ∧
    |numer (fitLow .DHe3_He4p) 900 / denom (fitLow .DHe3_He4p) 900 - numer (fitHigh .DHe3_He4p) 900 / denom (fitHigh .DHe3_He4p) 900| <
      0.035 * (numer (fitHigh .DHe3_He4p) 900 / denom (fitHigh .DHe3_He4p) 900) := by
  constructor <;> (simp only [numer, denom, fitLow, fitHigh]; rw [abs_lt]; constructor <;> norm_num)

/-- **Reactivity**: positive for every positive temperature; for the reaction of two deuterons to helium, up to 900 keV. -/
theorem reactivity {r : Int} {c : Channel} (hr : channel r = some c) {T : ℝ} (hT : 0 < T) (hHe : c = .DD_He3n → T ≤ 900) :
    ∃ s, sigmav r T = some s ∧ 0 < s := by
  have hd : 0 < 1 + T * ((rfit c).C3 + T * ((rfit c).C5 + T * (rfit c).C7)) ∧
      T * ((rfit c).C2 + T * ((rfit c).C4 + T * (rfit c).C6)) < 1 + T * ((rfit c).C3 + T * ((rfit c).C5 + T * (rfit c).C7)) := by
    cases c
    · simp only [rfit]
      constructor
      · positivity
      · have h2 : 0 < T ^ 2 := by positivity
        have h3 : 0 < T ^ 3 := by positivity
        nlinarith
    · simp only [rfit]
      constructor <;> nlinarith [sq_nonneg (T - 27), sq_nonneg (T - 7)]
    · simp only [rfit]
      constructor <;> nlinarith [sq_nonneg (T - 67)]
    · have h := hHe rfl
      simp only [rfit]
      constructor <;> nlinarith [mul_nonneg hT.le (sub_nonneg.2 h)]
  have hpos : 0 < (rfit c).BG ∧ 0 < (rfit c).MRC2 ∧ 0 < (rfit c).C1 := by cases c <;> simp only [rfit] <;> norm_num
  obtain ⟨hd1, hd2⟩ := hd
  obtain ⟨p1, p2, p3⟩ := hpos
  unfold sigmav
  rw [hr]
  simp only
  generalize rfit c = f at *
  generalize 1 + T * (f.C3 + T * (f.C5 + T * f.C7)) = d1 at *
  have hd3 : 0 < 1 - T * (f.C2 + T * (f.C4 + T * f.C6)) / d1 := by
    rw [sub_pos, div_lt_one hd1]; exact hd2
  rw [if_neg hd1.ne']
  generalize 1 - T * (f.C2 + T * (f.C4 + T * f.C6)) / d1 = d2 at *
  have ht : 0 < T / d2 := by positivity
  rw [if_neg hd3.ne', if_neg (by push Not; exact ⟨ht, hT⟩)]
  exact ⟨_, rfl, by positivity⟩

/-- **Limit of the reactivity**: at 1000 keV the one for the reaction of two deuterons to helium is not a number. -/
theorem reactivity_fails : sigmav 4 1000 = none := by
  simp only [sigmav, channel, rfit]
  norm_num

/-- The hypotheses can be met for each of the reactions. -/
example : channel 1 = some .DT_He4n ∧ channel 2 = some .DHe3_He4p ∧ channel 3 = some .DD_Tp ∧ channel 4 = some .DD_He3n ∧
    channel 5 = none := ⟨rfl, rfl, rfl, rfl, rfl⟩

/-- The released energy is that of the mass defect, within 1 MeV. -/
theorem mass_defect {e : ℝ} (he : e = 1.602176565e-19) (c : Channel) :
    |((species e c).m1 + (species e c).m2 - (species e c).mprod1 - (species e c).mprod2) * 299792458 ^ 2 - (species e c).Q| < 1e6 * e := by
  subst he
  cases c <;> simp only [species] <;> rw [abs_lt] <;> constructor <;> norm_num

end Ascot.C104
