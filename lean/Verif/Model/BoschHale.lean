import Mathlib.Analysis.SpecialFunctions.Exp
import Mathlib.Analysis.SpecialFunctions.Pow.Real
import Verif.Model.Afsi

/-!
# Fusion cross sections and reactivities (`src/boschhale.c`)

The elementary charge `e` (`CONST_E`) is a parameter.
-/
namespace Ascot.BoschHale

/-- `enum Reaction`, src/boschhale.h:11-16. -/
inductive Channel
  | DT_He4n
  | DHe3_He4p
  | DD_Tp
  | DD_He3n
  deriving DecidableEq

/-- The enumeration has the values 1 to 4, src/boschhale.h:11-16; other values are not reactions. -/
def channel : Int → Option Channel
  | 1 => some .DT_He4n
  | 2 => some .DHe3_He4p
  | 3 => some .DD_Tp
  | 4 => some .DD_He3n
  | _ => none

/-- Masses and charges of reactants and products, and the released energy. -/
structure Species where
  m1 : ℝ
  q1 : ℝ
  m2 : ℝ
  q2 : ℝ
  mprod1 : ℝ
  qprod1 : ℝ
  mprod2 : ℝ
  qprod2 : ℝ
  Q : ℝ

/-- `boschhale_reaction`, src/boschhale.c:28-76. -/
noncomputable def species (e : ℝ) : Channel → Species
  | .DT_He4n => ⟨3.344e-27, e, 5.008e-27, e, 6.645e-27, 2 * e, 1.675e-27, 0, 17.6e6 * e⟩
  | .DHe3_He4p => ⟨3.344e-27, e, 5.008e-27, 2 * e, 6.645e-27, 2 * e, 1.673e-27, e, 18.3e6 * e⟩
  | .DD_Tp => ⟨3.344e-27, e, 3.344e-27, e, 5.008e-27, e, 1.673e-27, e, 4.03e6 * e⟩
  | .DD_He3n => ⟨3.344e-27, e, 3.344e-27, e, 5.008e-27, 2 * e, 1.675e-27, 0, 3.27e6 * e⟩

/-- The parameters of the fit that is used for an energy in keV. -/
structure Fit where
  BG : ℝ
  A0 : ℝ
  A1 : ℝ
  A2 : ℝ
  A3 : ℝ
  A4 : ℝ
  B0 : ℝ
  B1 : ℝ
  B2 : ℝ
  B3 : ℝ
  Emin : ℝ
  Emax : ℝ

/-- Tables of `boschhale_sigma`, src/boschhale.c:93-181, first range of energies. -/
noncomputable def fitLow : Channel → Fit
  | .DT_He4n => ⟨34.3827, 6.927e4, 7.454e8, 2.050e6, 5.2002e4, 0.0, 6.38e1, -9.95e-1, 6.981e-5, 1.728e-4, 0.5, 4700⟩
  | .DHe3_He4p => ⟨68.7508, 5.7501e6, 2.5226e3, 4.5566e1, 0.0, 0.0, -3.1995e-3, -8.5530e-6, 5.9014e-8, 0.0, 0.3, 4800⟩
  | .DD_Tp => ⟨31.3970, 5.5576e4, 2.1054e2, -3.2638e-2, 1.4987e-6, 1.8181e-10, 0, 0, 0, 0, 0.5, 5000⟩
  | .DD_He3n => ⟨31.3970, 5.3701e4, 3.3027e2, -1.2706e-1, 2.9327e-5, -2.5151e-9, 0, 0, 0, 0, 0.5, 4900⟩

/-- Tables of `boschhale_sigma`, src/boschhale.c:93-181, second range of energies. -/
noncomputable def fitHigh : Channel → Fit
  | .DT_He4n => ⟨34.3827, -1.4714e6, 0, 0, 0, 0, -8.4127e-3, 4.7983e-6, -1.0748e-9, 8.5184e-14, 0.5, 4700⟩
  | .DHe3_He4p => ⟨68.7508, -8.3993e5, 0, 0, 0, 0, -2.6830e-3, 1.1633e-6, -2.1332e-10, 1.4250e-14, 0.3, 4800⟩
  | .DD_Tp => fitLow .DD_Tp
  | .DD_He3n => fitLow .DD_He3n

open Classical in
/-- Choice of the fit, src/boschhale.c:96,122. -/
noncomputable def fit (c : Channel) (E : ℝ) : Fit :=
  match c with
  | .DT_He4n => if E ≤ 530 then fitLow .DT_He4n else fitHigh .DT_He4n
  | .DHe3_He4p => if E ≤ 900 then fitLow .DHe3_He4p else fitHigh .DHe3_He4p
  | .DD_Tp => fitLow .DD_Tp
  | .DD_He3n => fitLow .DD_He3n

/-- Numerator of the S factor, src/boschhale.c:193. -/
noncomputable def numer (f : Fit) (E2 : ℝ) : ℝ := f.A0 + E2 * (f.A1 + E2 * (f.A2 + E2 * (f.A3 + E2 * f.A4)))

/-- Denominator of the S factor, src/boschhale.c:194. -/
noncomputable def denom (f : Fit) (E2 : ℝ) : ℝ := 1 + E2 * (f.B0 + E2 * (f.B1 + E2 * (f.B2 + E2 * f.B3)))

open Classical in
/-- Rest of `boschhale_sigma` for an energy in keV, src/boschhale.c:182-204.  `none`: division by zero. -/
noncomputable def sigmaFit (f : Fit) (E : ℝ) : Option ℝ :=
  if E ≤ f.Emin then some 0
  else
    let E2 := if E > f.Emax then f.Emax else E
    if denom f E2 = 0 then none
    else
      let S := numer f E2 / denom f E2
      if f.BG / Real.sqrt E2 > 700 then some 0
      else some (S / (E * Real.exp (f.BG / Real.sqrt E)) * 1e-31)

/-- `boschhale_sigma`, src/boschhale.c:87-205; `E` in joule. -/
noncomputable def sigma (e : ℝ) (r : Int) (E : ℝ) : Option ℝ :=
  match channel r with
  | none => some (-1)
  | some c => sigmaFit (fit c (E / (1e3 * e))) (E / (1e3 * e))

/-- Parameters of the reactivity. -/
structure RFit where
  BG : ℝ
  MRC2 : ℝ
  C1 : ℝ
  C2 : ℝ
  C3 : ℝ
  C4 : ℝ
  C5 : ℝ
  C6 : ℝ
  C7 : ℝ

/-- Tables of `boschhale_sigmav`, src/boschhale.c:222-273. -/
noncomputable def rfit : Channel → RFit
  | .DT_He4n => ⟨34.3827, 1124656, 1.17302E-9, 1.51361E-2, 7.51886E-2, 4.60643E-3, 1.35000E-2, -1.06750E-4, 1.36600E-5⟩
  | .DHe3_He4p => ⟨68.7508, 1124572, 5.51036E-10, 6.41918E-3, -2.02896E-3, -1.91080E-5, 1.35776E-4, 0, 0⟩
  | .DD_Tp => ⟨31.3970, 937814, 5.65718E-12, 3.41267E-3, 1.99167E-3, 0, 1.05060E-5, 0, 0⟩
  | .DD_He3n => ⟨31.3970, 937814, 5.43360E-12, 5.85778E-3, 7.68222E-3, 0, -2.96400E-6, 0, 0⟩

open Classical in
/-- `boschhale_sigmav`, src/boschhale.c:218-285.  `none` if there is a division by zero, or the root of a number that is not positive. -/
noncomputable def sigmav (r : Int) (T : ℝ) : Option ℝ :=
  match channel r with
  | none => some (-1)
  | some c =>
    let f := rfit c
    let d1 := 1 + T * (f.C3 + T * (f.C5 + T * f.C7))
    if d1 = 0 then none
    else
      let d2 := 1 - T * (f.C2 + T * (f.C4 + T * f.C6)) / d1
      if d2 = 0 then none
      else
        let theta := T / d2
        if theta ≤ 0 ∨ T ≤ 0 then none
        else
          let xi := (f.BG * f.BG / (4 * theta)) ^ (1 / 3 : ℝ)
          some (f.C1 * theta * Real.sqrt (xi / (f.MRC2 * T * T * T)) * Real.exp (-3 * xi) * 1e-6)

end Ascot.BoschHale
