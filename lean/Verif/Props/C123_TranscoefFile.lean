import Verif.Lemmas.Output

/-!
# C123: transport coefficients in the output file
-/

set_option linter.unusedSectionVars false
set_option linter.unusedSimpArgs false

namespace Ascot.C123
open Ascot.Output Ascot.OutputDoc

/-- The coefficients of markers that have any. -/
def rows (cs : List Coef) : List Coef := cs.filter fun c => decide (1 ≤ c.id)

theorem writeTranscoef_eq (recordrho : Bool) (cs : List Coef) (h : rows cs ≠ []) (name : String) :
    writeTranscoef recordrho cs name =
      if name = "ids" then some ⟨.int ((rows cs).map Coef.id), some "1"⟩
      else if name = "k" then
        some ⟨.real ((rows cs).map Coef.K), some (if recordrho then "1/s" else "m/s")⟩
      else if name = "d" then
        some ⟨.real ((rows cs).map Coef.D), some (if recordrho then "1/s" else "m^2/s")⟩
      else none := by
  have hr : cs.filter (fun c => decide (c.id > 0)) = rows cs := by
    unfold rows
    exact List.filter_congr fun c _ => by rw [decide_eq_decide]; omega
  have hl : (rows cs).length ≠ 0 := fun e => h (List.length_eq_zero_iff.mp e)
  unfold writeTranscoef
  rw [hr]
  cases recordrho <;>
    by_cases h1 : name = "ids" <;> by_cases h2 : name = "k" <;> by_cases h3 : name = "d" <;>
    simp_all [create, setUnit, newGroup, Col.length]

/-- Identifiers, drift and diffusion coefficients are stored row by row.  With distances measured
in metres the coefficients are in m/s and m²/s; measured in the dimensionless radial coordinate
they are both in 1/s. -/
theorem coefficients (recordrho : Bool) (cs : List Coef) (h : rows cs ≠ []) :
    Stored (writeTranscoef recordrho cs) "ids" .one ((rows cs).map fun c => (c.id : ℝ)) ∧
    Stored (writeTranscoef recordrho cs) "k" (if recordrho then .rate else .speed)
      ((rows cs).map Coef.K) ∧
    Stored (writeTranscoef recordrho cs) "d" (if recordrho then .rate else .diffusion)
      ((rows cs).map Coef.D) ∧
    ∀ name, writeTranscoef recordrho cs name ≠ none → name ∈ ["ids", "k", "d"] := by
  have e := writeTranscoef_eq recordrho cs h
  refine ⟨⟨_, _, 1, e _, rfl, ?_, ?_⟩, ⟨_, _, 1, e _, rfl, ?_, ?_⟩, ⟨_, _, 1, e _, rfl, ?_, ?_⟩, ?_⟩
  case refine_7 =>
    intro name hn
    rw [e] at hn
    by_contra hc
    simp only [List.mem_cons, List.not_mem_nil, or_false, not_or] at hc
    simp [hc] at hn
  all_goals cases recordrho <;> simp [unitOf, List.lookup, values]

/-- Without coefficients there are no data sets. -/
theorem nothing (recordrho : Bool) (cs : List Coef) (h : rows cs = []) :
    writeTranscoef recordrho cs = newGroup := by
  have hr : cs.filter (fun c => decide (c.id > 0)) = rows cs := by
    unfold rows
    exact List.filter_congr fun c _ => by rw [decide_eq_decide]; omega
  unfold writeTranscoef
  rw [hr, h]
  cases recordrho <;> simp [create, setUnit, newGroup, Col.length]

/-! ## The hypotheses can be met -/

example : rows [⟨0, 0, 0⟩, ⟨3, 1, 2⟩] ≠ [] := by simp [rows]

end Ascot.C123
