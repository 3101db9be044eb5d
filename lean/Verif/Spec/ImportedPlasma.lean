import Verif.Model.PlasmaImport

/-!
# Profiles given by tables, and quasi-neutral plasmas
-/
namespace Ascot.ImportedPlasma

/-- The value at `x` of the profile with the values `val` at the positions `rad`: linear between them, and
that of the nearest position elsewhere. -/
inductive At (rad val : List ℝ) (x : ℝ) : ℝ → Prop
  | between (k : ℕ) (a b u v : ℝ) : rad[k]? = some a → rad[k + 1]? = some b → val[k]? = some u →
      val[k + 1]? = some v → a ≤ x → x ≤ b → At rad val x (u + (x - a) / (b - a) * (v - u))
  | left (a u : ℝ) : rad.head? = some a → val.head? = some u → x ≤ a → At rad val x u
  | right (b v : ℝ) : rad.getLast? = some b → val.getLast? = some v → b ≤ x → At rad val x v

/-- A table of values at increasing positions. -/
structure Good (rad val : List ℝ) : Prop where
  ne : rad ≠ []
  length : val.length = rad.length
  increasing : rad.Pairwise (· < ·)
  nonneg : ∀ r ∈ rad, 0 ≤ r

/-- The positions as square root of the normalised flux. -/
noncomputable def positions (squared : Bool) (rad : List ℝ) : List ℝ :=
  if squared then rad.map fun r => Real.sqrt r else rad

/-- The `i`-th of `n` positions between zero and `x`. -/
noncomputable def node (x : ℝ) (n i : ℕ) : ℝ := i * (x / (n - 1))

/-- A table at `n` positions up to 1, or up to `x ≥ 1`: there, the profile decays exponentially from its
value at the first position that is not below 1, but not below the limit. -/
def IsProfile (squared : Bool) (n : ℕ) (x : Option ℝ) (len lim : ℝ) (rad val out : List ℝ) : Prop :=
  out.length = n ∧ match x with
    | none => ∀ i < n, ∃ y, out[i]? = some y ∧ At (positions squared rad) val (node 1 n i) y
    | some x => ∃ m < n, 1 ≤ node x n m ∧ (∀ j < m, node x n j < 1) ∧ ∀ i < n,
      (node x n i < 1 → ∃ y, out[i]? = some y ∧ At (positions squared rad) val (node x n i) y) ∧
      (1 ≤ node x n i → ∃ y, At (positions squared rad) val (node x n m) y ∧
        out[i]? = some (max (y * Real.exp (-(node x n i - 1) / len)) lim))

/-- The charge density of ions with the charges `q` and the densities `n` at the `k`-th position. -/
noncomputable def charge : List ℝ → List (List ℝ) → ℕ → Option ℝ
  | [], [], _ => some 0
  | q :: qs, n :: ns, k => n[k]?.bind fun x => (charge qs ns k).map fun y => q * x + y
  | _, _, _ => none

/-- At each position the ions have the charge of the electrons. -/
def QuasiNeutral (q ne : List ℝ) (ni : List (List ℝ)) : Prop :=
  ∀ k x, ne[k]? = some x → charge q ni k = some x

end Ascot.ImportedPlasma
