import Verif.Model.OrbitQnt

/-!
# Points of orbits with their markers
-/
namespace Ascot.OrbitPoints

open OrbitQnt (Point Ini)

variable {D : Type}

/-- A list of all points, each with its own marker's initial state, ordered by the marker and then by the mileage. -/
structure Listed (ini : List Ini) (pts : List (Point D)) (l : List (Ini × Point D)) : Prop where
  all : (l.map (·.2)).Perm pts
  own : ∀ x ∈ l, x.1 ∈ ini ∧ x.1.id = x.2.id
  markers : l.Pairwise fun x y => x.2.id ≤ y.2.id
  mileages : l.Pairwise fun x y => x.2.id = y.2.id → x.2.mileage ≤ y.2.mileage

/-- Every marker has a different number. -/
def Distinct (ini : List Ini) : Prop := (ini.map (·.id)).Nodup

/-- All points are of markers in `ini`, and each of these has at least one point. -/
def Recorded (ini : List Ini) (pts : List (Point D)) : Prop :=
  (∀ p ∈ pts, ∃ s ∈ ini, s.id = p.id) ∧ ∀ s ∈ ini, ∃ p ∈ pts, p.id = s.id

/-- A point is wanted: it belongs to one of the markers and planes asked for, if any are asked for. -/
def Wanted (idsE pncr idsW : Option (List ℝ)) (p : Point D) : Prop :=
  (∀ e, idsE = some e → (p.id : ℝ) ∈ e) ∧ (∀ e, pncr = some e → (p.pncrid : ℝ) ∈ e) ∧
    ∀ e, idsW = some e → (p.id : ℝ) ∈ e

open Classical in
/-- The values of `v` at the wanted points, in the order of the list. -/
noncomputable def values (idsE pncr idsW : Option (List ℝ)) (v : Ini × Point D → ℝ) (l : List (Ini × Point D)) :
    List ℝ :=
  (l.filter fun x => Wanted idsE pncr idsW x.2).map v

end Ascot.OrbitPoints
