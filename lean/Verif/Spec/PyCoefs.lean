import Verif.Model.McccCoefs

/-! # The coefficients that the documentation of `input_eval_collcoefs` and `input_eval_atomiccoefs` names -/
namespace Ascot.PyCoefs.Spec
open Ascot.Mccc

/-- Special functions at a speed in units of the thermal speed of a species; their limits at rest. -/
noncomputable def special (va : ℝ) (b : Species) : ℝ × ℝ × ℝ :=
  (mufun false (va / Real.sqrt (2 * b.T / b.m))).getD (0, 0, 0)

/-- The documented meaning of each name (a5py/ascotpy/libascot.py:563-576) for a marker of mass `ma`, charge `qa` and
speed `va` that collides with the species `b` of the plasma `sp`. -/
noncomputable def meaning (e0 hbar ma qa va : ℝ) (sp : List Species) (b : Species) : List (String × ℝ) :=
  let vb := Real.sqrt (2 * b.T / b.m)
  let cl := clog e0 hbar ma qa va sp b
  let mu := special va b
  let Q := coefQ e0 ma qa b.m b.q b.n vb cl mu.1
  let Dpara := coefDpara e0 ma qa va b.q b.n vb cl mu.1
  let dDpara := coefdDpara e0 ma qa va b.q b.n vb cl mu.1 mu.2.2
  let Dperp := coefDperp e0 ma qa va b.q b.n vb cl mu.2.1
  [("clog", cl), ("f", coefF e0 ma qa b.m b.q b.n vb cl mu.1), ("k", coefK va Dpara dDpara Q), ("nu", coefNu va Dperp),
    ("dpara", Dpara), ("dperp", Dperp), ("ddpara", dDpara), ("q", Q), ("dq", coefdQ e0 ma qa b.m b.q b.n vb cl mu.2.2),
    ("mu0", mu.1), ("mu1", mu.2.1), ("dmu0", mu.2.2)]

/-- The reactions that can be asked for and the numbers of their rate coefficients, src/asigma.h:34-45. -/
def reactionNumber : List (String × ℕ) :=
  [("ionization", 4), ("recombination", 5), ("charge-exchange", 6), ("beamstopping", 7)]

end Ascot.PyCoefs.Spec
