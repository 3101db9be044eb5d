import Verif.Spec.Suzuki
import Mathlib.Tactic.NormNum
import Mathlib.Tactic.Ring
import Mathlib.Tactic.Linarith
import Mathlib.Tactic.FieldSimp
import Mathlib.Tactic.IntervalCases

set_option linter.unusedSectionVars false
set_option linter.unusedSimpArgs false

namespace Ascot.Suzuki

theorem indB_of_tab {zeff : ℝ} {z : ℤ} (h : Tabulated zeff z) : 0 ≤ indB zeff z ∧ indB zeff z < 9 := by
  rcases h with ⟨rfl, h1, h2⟩ | ⟨rfl, h1, h2⟩ | ⟨rfl, h1, h2⟩ | ⟨rfl, h1, h2⟩ | ⟨rfl, h1, h2, h3⟩ | ⟨rfl, h1, h2⟩ |
    ⟨rfl, h1, h2⟩ | ⟨rfl, h1, h2⟩
  all_goals simp [indB, List.range, List.range.loop, zImp, zeffMin, zeffMax]
  all_goals norm_num at *
  all_goals try simp [h1, h2]
  rcases lt_or_gt_of_ne h3 with h | h
  · simp [h, not_lt.2 h.le]
  · simp [h, not_lt.2 h.le, h2]

theorem indB_of_not_tab {zeff : ℝ} {z : ℤ} (h : ¬ Tabulated zeff z) : indB zeff z = -1 := by
  have key : ∀ j, j < 9 → ¬ (zImp.getD j 0 = z ∧ zeff > zeffMin.getD j 0 ∧ zeff < zeffMax.getD j 0) := by
    intro j hj hc
    apply h
    unfold Tabulated
    interval_cases j <;> simp [zImp, zeffMin, zeffMax] at hc <;> obtain ⟨rfl, h1, h2⟩ := hc <;> norm_num at * <;>
      first
        | exact ⟨h1, h2⟩
        | exact ⟨h1, by linarith, by linarith⟩
        | exact ⟨by linarith, h2, fun h => by linarith⟩
        | exact ⟨h1, by linarith, fun h => by linarith⟩
  have e : ∀ l : List Nat, (∀ j ∈ l, j < 9) → l.foldl (fun acc j =>
    if zImp.getD j 0 = z ∧ zeff > zeffMin.getD j 0 ∧ zeff < zeffMax.getD j 0 then (j : ℤ) else acc) (-1) = -1 := by
    intro l
    induction l with
    | nil => intro _; rfl
    | cons a l ih =>
      intro hl
      rw [List.foldl_cons, if_neg (key a (hl a (by simp)))]
      exact ih fun j hj => hl j (by simp [hj])
  exact e _ fun j hj => by simpa using hj

/-- Shape of the sorting loop. -/
theorem sortIons_eq (ions : List Ion) (s : Sorted) :
    sortIons ions s =
      if (s.hyd.length + (ions.filter fun i => i.znum = 1).length ≤ 3 ∨ (ions.filter fun i => i.znum = 1) = []) ∧
        (s.imp.length + (ions.filter fun i => ¬ i.znum = 1).length ≤ 16 ∨ (ions.filter fun i => ¬ i.znum = 1) = []) then
        some ⟨s.hyd ++ ions.filter fun i => i.znum = 1, s.imp ++ ions.filter fun i => ¬ i.znum = 1,
          s.densH + ((ions.filter fun i => i.znum = 1).map (·.dens)).sum,
          s.sum1 + (ions.map fun i => i.dens * (i.znum : ℝ) ^ 2).sum, s.sum2 + (ions.map fun i => i.dens * (i.znum : ℝ)).sum⟩
      else none := by
  induction ions generalizing s with
  | nil => simp [sortIons]
  | cons i is ih =>
    unfold sortIons sortStep
    by_cases hz : i.znum = 1
    · by_cases hl : s.hyd.length < 3
      · simp only [hz, if_true, hl, Option.bind_some, ih]
        simp only [hz, List.filter_cons, List.map_cons, List.sum_cons, List.length_append, List.length_cons, List.length_nil,
          decide_true, decide_false, not_true_eq_false, if_true, Bool.false_eq_true, if_false, reduceCtorEq, or_false,
          List.append_assoc, List.singleton_append, add_assoc]
        have : ∀ L : List Ion, (s.hyd.length + (0 + (1 + L.length)) ≤ 3 ∨ L = []) ↔ s.hyd.length + (L.length + 1) ≤ 3 := by
          intro L
          constructor
          · rintro (h | h)
            · omega
            · subst h; simp; omega
          · intro h; left; omega
        simp only [this, sq, mul_assoc]
      · simp only [hz, if_true, hl, if_false, Option.bind_none]
        rw [if_neg]
        simp only [hz, List.filter_cons, decide_true, if_true, List.length_cons, reduceCtorEq, or_false]
        omega
    · by_cases hl : s.imp.length < maxSpecies
      · simp only [hz, if_false, hl, if_true, Option.bind_some, ih]
        simp only [hz, List.filter_cons, List.map_cons, List.sum_cons, List.length_append, List.length_cons, List.length_nil,
          decide_true, decide_false, not_false_eq_true, if_true, Bool.false_eq_true, if_false, reduceCtorEq, or_false,
          List.append_assoc, List.singleton_append, add_assoc]
        unfold maxSpecies at hl
        have : ∀ L : List Ion, (s.imp.length + (0 + (1 + L.length)) ≤ 16 ∨ L = []) ↔ s.imp.length + (L.length + 1) ≤ 16 := by
          intro L
          constructor
          · rintro (h | h)
            · omega
            · subst h; simp; omega
          · intro h; left; omega
        simp only [this, sq, mul_assoc]
      · simp only [hz, if_false, hl, Option.bind_none]
        unfold maxSpecies at hl
        rw [if_neg]
        simp only [hz, List.filter_cons, decide_true, not_false_eq_true, if_true, List.length_cons, reduceCtorEq, or_false]
        omega

theorem sortIons_init (ions : List Ion) :
    sortIons ions ⟨[], [], 0, 0, 0⟩ =
      if (ions.filter fun i => i.znum = 1).length ≤ 3 ∧ (ions.filter fun i => ¬ i.znum = 1).length ≤ 16 then
        some ⟨ions.filter fun i => i.znum = 1, ions.filter fun i => ¬ i.znum = 1,
          ((ions.filter fun i => i.znum = 1).map (·.dens)).sum,
          (ions.map fun i => i.dens * (i.znum : ℝ) ^ 2).sum, (ions.map fun i => i.dens * (i.znum : ℝ)).sum⟩
      else none := by
  rw [sortIons_eq]
  simp only [List.length_nil, zero_add, List.nil_append]
  have : ∀ (L : List Ion) (k : Nat), (L.length ≤ k ∨ L = []) ↔ L.length ≤ k := by
    intro L k
    constructor
    · rintro (h | h)
      · exact h
      · subst h; simp
    · exact Or.inl
  simp only [this]

theorem row_isSome (t : List (List ℝ)) (k : ℤ) : (row t k).isSome ↔ 0 ≤ k ∧ k < t.length := by
  unfold row
  split
  · rename_i h
    rw [Option.isSome_iff_ne_none, Ne, List.getElem?_eq_none_iff]
    omega
  · rename_i h; simp [h]

theorem sumH_isSome (t : List (List ℝ)) (ht : t.length = 3) (e n logE u : ℝ) (is : List Ion) :
    (sumH t e n logE u is).isSome ↔ ∀ i ∈ is, i.anum = 1 ∨ i.anum = 2 ∨ i.anum = 3 := by
  induction is with
  | nil => simp [sumH]
  | cons i is ih =>
    have hr := row_isSome t (i.anum - 1)
    have hi : (i.anum = 1 ∨ i.anum = 2 ∨ i.anum = 3) ↔ (row t (i.anum - 1)).isSome := by
      rw [hr, ht]; omega
    simp only [List.mem_cons, forall_eq_or_imp, sumH, hi, ← ih]
    cases row t (i.anum - 1) <;> simp

theorem sumZ_isSome (t : List (List ℝ)) (ht : t.length = 9) (zeff ne logE logN u : ℝ) (is : List Ion) :
    (sumZ t zeff ne logE logN u is).isSome ↔ ∀ i ∈ is, Tabulated zeff i.znum := by
  induction is with
  | nil => simp [sumZ]
  | cons i is ih =>
    have hi : Tabulated zeff i.znum ↔ (row t (indB zeff i.znum)).isSome := by
      rw [row_isSome, ht]
      constructor
      · intro h; have := indB_of_tab h; omega
      · intro h
        by_contra hn
        rw [indB_of_not_tab hn] at h; omega
    simp only [List.mem_cons, forall_eq_or_imp, sumZ, hi, ← ih]
    cases row t (indB zeff i.znum) <;> simp

theorem sumZ_tab (t : List (List ℝ)) (zeff ne logE logN u : ℝ) (is : List Ion) (h : ∀ i ∈ is, Tabulated zeff i.znum) {r}
    (hr : sumZ t zeff ne logE logN u is = some r) : r.2 = false := by
  induction is generalizing r with
  | nil => simp [sumZ] at hr; subst hr; rfl
  | cons i is ih =>
    simp only [sumZ, Option.bind_eq_some_iff, Option.map_eq_some_iff] at hr
    obtain ⟨b, _, s, hs, rfl⟩ := hr
    have := indB_of_tab (h i (by simp))
    simp [ih (fun j hj => h j (by simp [hj])) hs, this.1]

theorem tables_length (e : ℝ) : (tables e).1.length = 3 ∧ (tables e).2.1.length = 9 := by
  unfold tables
  split
  · exact ⟨rfl, rfl⟩
  · split <;> exact ⟨rfl, rfl⟩

theorem tables_err (e : ℝ) : (tables e).2.2 = true ↔ 10000 ≤ e := by
  unfold tables
  split
  · rename_i h; constructor
    · intro h'; simp at h'
    · intro h'; linarith [h.2]
  · split
    · rename_i h; constructor
      · intro h'; simp at h'
      · intro h'; linarith
    · rename_i h; simpa using h

theorem sumH_perm (t : List (List ℝ)) (e n logE u : ℝ) {l l' : List Ion} (h : l.Perm l') :
    sumH t e n logE u l = sumH t e n logE u l' := by
  induction h with
  | nil => rfl
  | cons x _ ih => simp only [sumH, ih]
  | swap x y l =>
    simp only [sumH]
    cases row t (x.anum - 1) <;> cases row t (y.anum - 1) <;> cases sumH t e n logE u l <;> simp
    ring
  | trans _ _ h1 h2 => rw [h1, h2]

theorem sumZ_perm (t : List (List ℝ)) (zeff ne logE logN u : ℝ) {l l' : List Ion} (h : l.Perm l') :
    sumZ t zeff ne logE logN u l = sumZ t zeff ne logE logN u l' := by
  induction h with
  | nil => rfl
  | cons x _ ih => simp only [sumZ, ih]
  | swap x y l =>
    simp only [sumZ]
    cases row t (indB zeff x.znum) <;> cases row t (indB zeff y.znum) <;> cases sumZ t zeff ne logE logN u l <;> simp
    refine ⟨by ring, ?_⟩
    rw [← Bool.or_assoc, ← Bool.or_assoc, Bool.or_comm (decide _)]
  | trans _ _ h1 h2 => rw [h1, h2]

theorem nHyd_eq (ions : List Ion) : nHydrogen ions = (ions.filter fun i => i.znum = 1).length := by
  rw [nHydrogen, List.countP_eq_length_filter]

theorem nImp_eq (ions : List Ion) : ions.length - nHydrogen ions = (ions.filter fun i => ¬ i.znum = 1).length := by
  rw [nHyd_eq]
  have : ions.length = (ions.filter fun i => i.znum = 1).length + (ions.filter fun i => ¬ i.znum = 1).length := by
    induction ions with
    | nil => rfl
    | cons i is ih =>
      simp only [List.filter_cons, List.length_cons]
      by_cases h : i.znum = 1 <;> simp [h] <;> simp at ih <;> omega
  omega

end Ascot.Suzuki
