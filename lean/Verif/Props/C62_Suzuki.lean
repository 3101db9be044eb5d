import Verif.Lemmas.Suzuki

/-!
# C62 and C88: the beam-stopping evaluation stays inside its tables and sees only the composition

Full statement of C62: for every plasma composition the evaluation reads only elements of its tables, writes only inside its local
arrays, and reports an error for unsupported compositions.  The code does not satisfy it: an impurity without tabulated data, a
fourth hydrogen species or a hydrogen species heavier than tritium lead to accesses outside the arrays (`defined_iff` and the
witnesses).  For the compositions that fit, all accesses are inside, and errors are reported exactly when there is no hydrogen or
the energy is too high.
-/
set_option linter.unusedSectionVars false
set_option linter.unusedSimpArgs false

namespace Ascot.C62

open Suzuki

/-- The evaluation has defined behaviour exactly for the compositions that fit. -/
theorem defined_iff (cE e v ne te : ℝ) (ions : List Ion) :
    (sigmav cE e v ne te ions).isSome ↔ Fits ions := by
  have hz : effCharge ions = (ions.map fun i => i.dens * (i.znum : ℝ) ^ 2).sum / (ions.map fun i => i.dens * (i.znum : ℝ)).sum := rfl
  unfold sigmav
  rw [sortIons_init]
  by_cases hl : (ions.filter fun i => i.znum = 1).length ≤ 3 ∧ (ions.filter fun i => ¬ i.znum = 1).length ≤ 16
  · rw [if_pos hl]
    simp only [Option.bind_some, ← hz]
    generalize e / (1e3 * cE) = e'
    obtain ⟨tA, tB⟩ := tables_length e'
    have hH := sumH_isSome (tables e').1 tA e' (ne * 1.0e-19) (Real.log e') (Real.log (te / cE * 1.0e-3))
      (ions.filter fun i => i.znum = 1)
    have hZ := sumZ_isSome (tables e').2.1 tB (effCharge ions) ne (Real.log e') (Real.log (ne * 1.0e-19))
      (Real.log (te / cE * 1.0e-3)) (ions.filter fun i => ¬ i.znum = 1)
    have : Fits ions ↔ (∀ i ∈ (ions.filter fun i => i.znum = 1), i.anum = 1 ∨ i.anum = 2 ∨ i.anum = 3) ∧
        (∀ i ∈ (ions.filter fun i => ¬ i.znum = 1), Tabulated (effCharge ions) i.znum) := by
      simp only [List.mem_filter, decide_eq_true_eq, and_imp]
      constructor
      · intro h; exact ⟨h.mass, h.tab⟩
      · intro h
        exact ⟨by rw [nHyd_eq]; exact hl.1, by rw [nImp_eq]; exact hl.2, h.1, h.2⟩
    rw [this, ← hH, ← hZ]
    generalize sumH _ _ _ _ _ _ = x
    generalize sumZ _ _ _ _ _ _ _ = y
    cases x <;> cases y <;> simp
  · rw [if_neg hl]
    simp only [Option.bind_none, Option.isSome_none, Bool.false_eq_true, false_iff]
    intro h
    exact hl ⟨by rw [← nHyd_eq]; exact h.hyd, by rw [← nImp_eq]; exact h.imp⟩

private theorem undefined_of {cE e v ne te : ℝ} {ions : List Ion} (h : ¬ Fits ions) : sigmav cE e v ne te ions = none := by
  have := mt (defined_iff cE e v ne te ions).1 h
  simpa using this

/-- For compositions that fit, the outcome is defined and an error is reported exactly when the plasma has no hydrogen or the
energy is at least 10 MeV per nucleon; the value is then zero. -/
theorem error_iff_partial (cE e v ne te : ℝ) (ions : List Ion) (h : Fits ions) :
    ∃ err val, sigmav cE e v ne te ions = some (err, val) ∧
      (err ≠ 0 ↔ (∀ i ∈ ions, ¬ IsHydrogen i) ∨ 10000 ≤ e / (1e3 * cE)) ∧ (err ≠ 0 → val = some 0) := by
  have hd := (defined_iff cE e v ne te ions).2 h
  obtain ⟨⟨err, val⟩, he⟩ := Option.isSome_iff_exists.1 hd
  refine ⟨err, val, he, ?_⟩
  have hz : effCharge ions = (ions.map fun i => i.dens * (i.znum : ℝ) ^ 2).sum / (ions.map fun i => i.dens * (i.znum : ℝ)).sum := rfl
  unfold sigmav at he
  rw [sortIons_init, if_pos ⟨by rw [← nHyd_eq]; exact h.hyd, by rw [← nImp_eq]; exact h.imp⟩] at he
  simp only [Option.bind_some, ← hz, Option.bind_eq_some_iff, Option.map_eq_some_iff] at he
  obtain ⟨sH, _, sZ, hsZ, hv⟩ := he
  have hb := sumZ_tab _ _ _ _ _ _ _ (fun i hi => by
    simp only [List.mem_filter, decide_eq_true_eq] at hi
    exact h.tab i hi.1 hi.2) hsZ
  rw [hb] at hv
  simp only [Bool.false_eq_true, false_and, if_false] at hv
  have hn : (ions.filter fun i => i.znum = 1).length = 0 ↔ ∀ i ∈ ions, ¬ IsHydrogen i := by
    rw [List.length_eq_zero_iff, List.filter_eq_nil_iff]
    simp [IsHydrogen]
  have ht := tables_err (e / (1e3 * cE))
  have e1 : Error.raise 1 189 28 ≠ 0 := by decide
  have e2 : Error.raise 1 173 28 ≠ 0 := by decide
  rw [← hn, ← ht]
  by_cases h1 : (tables (e / (1e3 * cE))).2.2 = true
  · simp only [h1, if_true] at hv
    rw [if_pos e1] at hv
    simp only [Prod.mk.injEq] at hv
    refine ⟨⟨fun _ => Or.inr h1, fun _ => by rw [← hv.1]; exact e1⟩, fun _ => hv.2.symm⟩
  · by_cases h2 : (ions.filter fun i => i.znum = 1).length = 0
    · simp only [h1, h2, if_true] at hv
      simp only [Bool.false_eq_true, if_false] at hv
      rw [if_pos e2] at hv
      simp only [Prod.mk.injEq] at hv
      refine ⟨⟨fun _ => Or.inl h2, fun _ => by rw [← hv.1]; exact e2⟩, fun _ => hv.2.symm⟩
    · simp only [h1, h2, if_false] at hv
      simp only [Bool.false_eq_true, if_false, ne_eq, not_true_eq_false] at hv
      simp only [Prod.mk.injEq] at hv
      refine ⟨⟨fun h => absurd hv.1.symm h, ?_⟩, fun h => absurd hv.1.symm h⟩
      rintro (h | h)
      · exact absurd h h2
      · exact absurd h h1

/-- A deuterium plasma with carbon at effective charge 2 fits. -/
example : Fits [⟨4, 2, 1⟩, ⟨1/6, 12, 6⟩] := by
  have hz : effCharge [⟨4, 2, 1⟩, ⟨1/6, 12, 6⟩] = 2 := by norm_num [effCharge]
  refine ⟨by simp [nHydrogen, List.countP, List.countP.go], by simp [nHydrogen, List.countP, List.countP.go], ?_, ?_⟩
  · intro i hi; simp at hi; rcases hi with rfl | rfl <;> simp
  · intro i hi; simp at hi; rcases hi with rfl | rfl
    · simp
    · intro _; rw [hz]; norm_num [Tabulated]

/-- The code violates C62: a deuterium plasma with neon reads outside the coefficient table. -/
theorem neon_undefined (cE e v ne te n m : ℝ) : sigmav cE e v ne te [⟨n, 2, 1⟩, ⟨m, 20, 10⟩] = none := by
  apply undefined_of
  intro h
  have := h.tab ⟨m, 20, 10⟩ (by simp) (by simp)
  simp [Tabulated] at this

/-- Also for supported elements: where the impurity density vanishes the effective charge is exactly one, which is outside the open
range of every row. -/
theorem vanishing_impurity_undefined (cE e v ne te n : ℝ) (a z : ℤ) (hz : z ≠ 1) :
    sigmav cE e v ne te [⟨n, 2, 1⟩, ⟨0, a, z⟩] = none := by
  apply undefined_of
  intro h
  have ht := h.tab ⟨0, a, z⟩ (by simp) hz
  have hle : effCharge [⟨n, 2, 1⟩, ⟨0, a, z⟩] ≤ 1 := by
    simp [effCharge]
    exact div_self_le_one n
  unfold Tabulated at ht
  rcases ht with h | h | h | h | h | h | h | h <;> linarith [h.2.1]

/-- The two rows for carbon leave out effective charge five. -/
theorem carbon_five_undefined (cE e v ne te : ℝ) : sigmav cE e v ne te [⟨6, 2, 1⟩, ⟨4, 12, 6⟩] = none := by
  apply undefined_of
  intro h
  have hz : effCharge [⟨6, 2, 1⟩, ⟨4, 12, 6⟩] = 5 := by norm_num [effCharge]
  have ht := h.tab ⟨4, 12, 6⟩ (by simp) (by simp)
  rw [hz] at ht
  norm_num [Tabulated] at ht

/-- Four hydrogen species overflow the local array. -/
theorem four_hydrogen_undefined (cE e v ne te n1 n2 n3 n4 : ℝ) (a1 a2 a3 a4 : ℤ) :
    sigmav cE e v ne te [⟨n1, a1, 1⟩, ⟨n2, a2, 1⟩, ⟨n3, a3, 1⟩, ⟨n4, a4, 1⟩] = none := by
  apply undefined_of
  intro h
  have := h.hyd
  simp [nHydrogen, List.countP, List.countP.go] at this

end Ascot.C62

namespace Ascot.C88

open Suzuki

/-- The result does not depend on the order in which the species are listed. -/
theorem order_irrelevant (cE e v ne te : ℝ) {ions ions' : List Ion} (h : ions.Perm ions') :
    sigmav cE e v ne te ions = sigmav cE e v ne te ions' := by
  unfold sigmav
  have hh := h.filter fun i => decide (i.znum = 1)
  have hi := h.filter fun i => decide (¬ i.znum = 1)
  rw [sortIons_init, sortIons_init]
  have e1 := hh.length_eq
  have e2 := hi.length_eq
  have e3 := (hh.map (·.dens)).sum_eq
  have e4 := (h.map fun i => i.dens * (i.znum : ℝ) ^ 2).sum_eq
  have e5 := (h.map fun i => i.dens * (i.znum : ℝ)).sum_eq
  rw [e1, e2]
  by_cases hl : (ions'.filter fun i => i.znum = 1).length ≤ 3 ∧ (ions'.filter fun i => ¬ i.znum = 1).length ≤ 16
  · rw [if_pos hl, if_pos hl]
    simp only [Option.bind_some]
    rw [e3, e4, e5, e1, sumH_perm _ _ _ _ _ hh]
    simp only [sumZ_perm _ _ _ _ _ _ hi]
  · rw [if_neg hl, if_neg hl]

/-- Listing one ion species twice with the density shared gives the same result as listing it once, as long as the longer list
fits in the local arrays. -/
theorem split_irrelevant (cE e v ne te n1 n2 : ℝ) (a z : ℤ) (ions : List Ion)
    (hh : nHydrogen ions ≤ 1) (hi : ions.length ≤ 14) :
    sigmav cE e v ne te (⟨n1, a, z⟩ :: ⟨n2, a, z⟩ :: ions) = sigmav cE e v ne te (⟨n1 + n2, a, z⟩ :: ions) := by
  have hl1 : (ions.filter fun i => i.znum = 1).length ≤ 1 := by rw [← nHyd_eq]; exact hh
  have hl2 : (ions.filter fun i => ¬ i.znum = 1).length ≤ 14 := le_trans (List.length_filter_le _ _) hi
  have hs1 : ∀ r : ℝ, n1 * (z : ℝ) ^ 2 + (n2 * (z : ℝ) ^ 2 + r) = (n1 + n2) * (z : ℝ) ^ 2 + r := by intro r; ring
  have hs2 : ∀ r : ℝ, n1 * (z : ℝ) + (n2 * (z : ℝ) + r) = (n1 + n2) * (z : ℝ) + r := by intro r; ring
  have hd : (((⟨n1, a, z⟩ :: ⟨n2, a, z⟩ :: ions).filter fun i : Ion => i.znum = 1).map (·.dens)).sum =
      (((⟨n1 + n2, a, z⟩ :: ions).filter fun i : Ion => i.znum = 1).map (·.dens)).sum := by
    by_cases hz : z = 1 <;> simp [hz, List.filter_cons, add_assoc]
  unfold sigmav
  rw [sortIons_init, sortIons_init]
  rw [hd]
  by_cases hz : z = 1
  · rw [if_pos (by simp [hz]; simp at hl1 hl2; omega), if_pos (by simp [hz]; simp at hl1 hl2; omega)]
    simp only [Option.bind_some, List.map_cons, List.sum_cons, hs1, hs2]
    simp only [hz, List.filter_cons, decide_true, not_true_eq_false, decide_false, if_true, Bool.false_eq_true, if_false,
      List.map_cons, List.sum_cons, List.length_cons, ← add_assoc]
    have : ∀ (t : List (List ℝ)) (e n logE u : ℝ) (L : List Ion),
        sumH t e n logE u (⟨n1, a, 1⟩ :: ⟨n2, a, 1⟩ :: L) = sumH t e n logE u (⟨n1 + n2, a, 1⟩ :: L) := by
      intro t e n logE u L
      simp only [sumH]
      cases row t (a - 1) <;> cases sumH t e n logE u L <;> simp [hTerm]
      ring
    simp only [this, Nat.add_eq_zero_iff, one_ne_zero, and_false, if_false]
  · rw [if_pos (by simp [hz]; simp at hl1 hl2; omega), if_pos (by simp [hz]; simp at hl1 hl2; omega)]
    simp only [Option.bind_some, List.map_cons, List.sum_cons, hs1, hs2]
    simp only [hz, List.filter_cons, decide_true, not_false_eq_true, decide_false, if_true, Bool.false_eq_true, if_false,
      List.map_cons, List.sum_cons, List.length_cons, ← add_assoc]
    have : ∀ (t : List (List ℝ)) (zeff ne logE logN u : ℝ) (L : List Ion),
        sumZ t zeff ne logE logN u (⟨n1, a, z⟩ :: ⟨n2, a, z⟩ :: L) = sumZ t zeff ne logE logN u (⟨n1 + n2, a, z⟩ :: L) := by
      intro t zeff ne logE logN u L
      simp only [sumZ]
      cases row t (indB zeff z) <;> cases sumZ t zeff ne logE logN u L <;> simp [zTerm]
      · ring
    simp only [this]

/-- A plasma of deuterium listed in two parts and carbon. -/
example : nHydrogen [⟨1/6, 12, 6⟩] ≤ 1 ∧ [(⟨1/6, 12, 6⟩ : Ion)].length ≤ 14 := by
  simp [nHydrogen, List.countP, List.countP.go]

end Ascot.C88
