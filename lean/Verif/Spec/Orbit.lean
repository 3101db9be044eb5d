import Verif.Model.Orbit

/-!
# Specification of the orbit records
-/
namespace Ascot.Orbit

variable {K : Type} [Field K] [LinearOrder K] [FloorRing K]

/-- A stored point shows the marker: all quantities that the mode records agree. -/
def Shows : Mode → Pt K → Mrk K → Prop
  | .fo, o, p => o.id = p.id ∧ o.mileage = p.mileage ∧ o.simmode = 1 ∧ o.r = p.r ∧ o.phi = p.phi ∧ o.z = p.z ∧ o.p_r = p.p_r ∧ o.p_phi = p.p_phi ∧ o.p_z = p.p_z ∧ o.weight = p.weight ∧ o.charge = p.charge ∧ o.rho = p.rho ∧ o.theta = p.theta ∧ o.B_r = p.B_r ∧ o.B_phi = p.B_phi ∧ o.B_z = p.B_z
  | .gc, o, p => o.id = p.id ∧ o.mileage = p.mileage ∧ o.simmode = 2 ∧ o.r = p.r ∧ o.phi = p.phi ∧ o.z = p.z ∧ o.ppar = p.ppar ∧ o.mu = p.mu ∧ o.zeta = p.zeta ∧ o.weight = p.weight ∧ o.charge = p.charge ∧ o.rho = p.rho ∧ o.theta = p.theta ∧ o.B_r = p.B_r ∧ o.B_phi = p.B_phi ∧ o.B_z = p.B_z
  | .ml, o, p => o.id = p.id ∧ o.mileage = p.mileage ∧ o.simmode = 3 ∧ o.r = p.r ∧ o.phi = p.phi ∧ o.z = p.z ∧ o.rho = p.rho ∧ o.theta = p.theta ∧ o.B_r = p.B_r ∧ o.B_phi = p.B_phi ∧ o.B_z = p.B_z

/-- One more step: the beginning of the first step is recorded, and the end of a step at which
the marker ends or at which at least the interval has passed since the last recorded point. -/
def keepStep (wI : K) (l : List (Mode × Mrk K)) (s : Mode × Mrk K × Mrk K) : List (Mode × Mrk K) :=
  let l := if l.isEmpty then [(s.1, s.2.2)] else l
  let due : Bool := match l.getLast? with
    | some q => decide (q.2.mileage + wI ≤ s.2.1.mileage)
    | none => true
  if due = true ∨ s.2.1.endcond > 0 then l ++ [(s.1, s.2.1)] else l

/-- The points of one marker that should be recorded during its steps, in order. -/
def kept (wI : K) (steps : List (Mode × Mrk K × Mrk K)) : List (Mode × Mrk K) :=
  steps.foldl (keepStep wI) []

end Ascot.Orbit
