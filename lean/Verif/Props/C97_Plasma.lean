import Verif.Props.C52_Plasma

/-!
# C97 and C98: spline profiles and the plasma interface
-/
set_option linter.unusedSectionVars false
set_option linter.unusedSimpArgs false

namespace Ascot.C97
open Ascot.Plasma Ascot.Profile Ascot.Interp Ascot.Spline
open Ascot.Linint (Axis)

/-- On the axis from `min` to `max` with `n` points, `F` is the natural cubic spline through the values `f`. -/
def SplineOf (n : Nat) (min max : ℝ) (f : Nat → ℝ) (F : ℝ → ℝ) : Prop :=
  ∃ q, NaturalSpline n f q ∧ ∀ x i d, Interp.On (Axis.init n .natural min max) x i d → F x = (q i).val d

theorem setup_spec {n : Nat} {min max : ℝ} (hn : 2 ≤ n) (hm : min < max) (f : Nat → ℝ) :
    ∃ s F, Spl.setup f n min max = some s ∧ SplineOf n min max f F ∧ (∀ x, min ≤ x → x ≤ max → s.eval x = some (some (F x))) ∧
      ∀ x, x < min ∨ max < x → s.eval x = some none := by
  obtain ⟨c, q, hc, hq, he⟩ := C36.natural_spline hn hm f
  classical
  have hF : ∀ x, ∃ y, ∀ i d, Interp.On (Axis.init n .natural min max) x i d →
      eval1f (Axis.init n .natural min max) c x = some (some y) ∧ y = (q i).val d := by
    intro x
    by_cases h : ∃ i d, Interp.On (Axis.init n .natural min max) x i d
    · obtain ⟨i, d, h⟩ := h
      have h1 := (he x i d h).1
      refine ⟨(q i).val d, fun i' d' h' => ⟨h1, ?_⟩⟩
      have h2 := (he x i' d' h').1
      rw [h1] at h2
      exact Option.some.inj (Option.some.inj h2)
    · exact ⟨0, fun i d h' => absurd ⟨i, d, h'⟩ h⟩
  choose F hF using hF
  refine ⟨⟨Axis.init n .natural min max, c⟩, F, ?_, ⟨q, hq, fun x i d h => (hF x i d h).2⟩, fun x h0 h1 => ?_, fun x hx => ?_⟩
  · simp [Spl.setup, hc]
  · obtain ⟨i, d, h⟩ := C36.on_axis hn hm ⟨h0, h1⟩
    exact (hF x i d h).1
  · simp [Spl.eval, eval1f, Interp.locate_outside hx]

/-- The value at a grid point is the tabulated one. -/
theorem SplineOf.tabulated {n : Nat} {min max : ℝ} (hn : 2 ≤ n) {f : Nat → ℝ} {F : ℝ → ℝ} (hm : min < max) (h : SplineOf n min max f F) {i : Nat} (hi : i < n) :
    F (min + i * ((max - min) / (n - 1))) = f i := by
  obtain ⟨q, hq, h⟩ := h
  obtain ⟨c, q', hc, hq', he⟩ := C36.natural_spline hn hm f
  obtain ⟨c', hc', ht⟩ := C36.tabulated hn hm f hi
  have hcc : c' = c := by rw [hc] at hc'; exact (Option.some.inj hc').symm
  subst hcc
  have hn1 : (0 : ℝ) < n - 1 := by
    have : (2 : ℝ) ≤ n := by exact_mod_cast hn
    linarith
  have hi' : (i : ℝ) ≤ n - 1 := by
    have : ((i + 1 : Nat) : ℝ) ≤ n := by exact_mod_cast hi
    push_cast at this; linarith
  have hx : min ≤ min + i * ((max - min) / (n - 1)) ∧ min + i * ((max - min) / (n - 1)) ≤ max := by
    have hd : 0 ≤ (max - min) / (n - 1) := div_nonneg (by linarith) hn1.le
    constructor
    · have := mul_nonneg (Nat.cast_nonneg (α := ℝ) i) hd; linarith
    · have h1 : (i : ℝ) * ((max - min) / (n - 1)) ≤ (n - 1) * ((max - min) / (n - 1)) := mul_le_mul_of_nonneg_right hi' hd
      rw [mul_div_cancel₀ _ hn1.ne'] at h1
      linarith
  obtain ⟨k, d, hk⟩ := C36.on_axis hn hm hx
  rw [h _ k d hk, C36.unique hn hq hq' k (hk.last rfl)]
  have := (he _ k d hk).1
  rw [ht] at this
  exact (Option.some.inj (Option.some.inj this)).symm

theorem log_species {nrho : Nat} (ne ni : Nat → ℝ) (s : Nat) :
    (fun i => Real.log (species nrho ne ni s i)) = if s = 0 then fun i => Real.log (ne i) else fun i => Real.log (ni ((s - 1) * nrho + i)) := by
  funext i; unfold species; split <;> rfl

/-- Spline profiles: density and temperature are the exponentials of the natural splines through the logarithms of the tabulated
values, whether they are asked for one by one or together; outside of the grid there is an error. -/
theorem spline_profiles {nrho nion : Nat} {rhomin rhomax : ℝ} {Te Ti ne ni : Nat → ℝ} (vtor : Nat → ℝ) (hn : 2 ≤ nrho) (hm : rhomin < rhomax)
    (hT : ∀ i < nrho, 0 < Te i ∧ 0 < Ti i ∧ 0 < ne i) (hi : ∀ i < nion * nrho, 0 < ni i) :
    ∃ (p : P1DS) (D T : Nat → ℝ → ℝ), init1DS nrho rhomin rhomax nion Te Ti ne ni vtor = some p ∧ p.nSpecies = nion + 1 ∧
      (∀ s ≤ nion, SplineOf nrho rhomin rhomax (fun i => Real.log (species nrho ne ni s i)) (D s) ∧
        SplineOf nrho rhomin rhomax (fun i => Real.log (temperature Te Ti s i)) (T s)) ∧
      (∀ v, rhomin ≤ v → v ≤ rhomax →
        (∀ s ≤ nion, dens1DS p v s = some (.ok (Real.exp (D s v))) ∧ temp1DS p v s = some (.ok (Real.exp (T s v)))) ∧
        densandtemp1DS p v = some (.ok ((List.range (nion + 1)).map fun s => (Real.exp (D s v), Real.exp (T s v))))) ∧
      (∀ v, v < rhomin ∨ rhomax < v → ∃ e1 e2 e3, e1 ≠ 0 ∧ e2 ≠ 0 ∧ e3 ≠ 0 ∧
        (∀ s ≤ nion, dens1DS p v s = some (.error e1) ∧ temp1DS p v s = some (.error e2)) ∧ densandtemp1DS p v = some (.error e3)) ∧
      ∃ V, SplineOf nrho rhomin rhomax vtor V ∧ (∀ v r old, rhomin ≤ v → v ≤ rhomax → flow1DS p v r old = some (.ok (V v * r))) ∧
        ∀ v r old, v < rhomin ∨ rhomax < v → flow1DS p v r old = some (.ok (old * r)) := by
  obtain ⟨t0, T0, e1, s1, i1, o1⟩ := setup_spec hn hm (fun i => Real.log (Te i))
  obtain ⟨t1, T1, e2, s2, i2, o2⟩ := setup_spec hn hm (fun i => Real.log (Ti i))
  obtain ⟨d0, D0, e3, s3, i3, o3⟩ := setup_spec hn hm (fun i => Real.log (ne i))
  have hk := fun k => setup_spec hn hm (fun i => Real.log (ni (k * nrho + i)))
  choose ds Ds e4 s4 i4 o4 using hk
  obtain ⟨sv, V, e5, s5, i5, o5⟩ := setup_spec hn hm vtor
  have hlt : ∀ y : ℝ, ¬ Real.exp y < 0 := fun y => not_lt.2 (Real.exp_pos y).le
  have hdens : ∀ s ≤ nion, (d0 :: (List.range nion).map ds)[s]? = some (if s = 0 then d0 else ds (s - 1)) := by
    intro s hs
    cases s with
    | zero => rfl
    | succ s => simp [List.getElem?_range (show s < nion by omega)]
  refine ⟨⟨nion + 1, [t0, t1], d0 :: (List.range nion).map ds, sv⟩, fun s => if s = 0 then D0 else Ds (s - 1), fun s => if s = 0 then T0 else T1,
    ?_, rfl, ?_, ?_, ?_, V, s5, ?_, ?_⟩
  · unfold init1DS
    rw [if_neg (not_not.2 ⟨hT, hi⟩), e1, e2, e3, mapM_some (fun k _ => e4 k), e5]
    rfl
  · intro s hs
    rw [log_species]
    unfold temperature
    by_cases h0 : s = 0
    · simp only [h0, if_true]; exact ⟨s3, s1⟩
    · simp only [if_neg h0]; exact ⟨s4 (s - 1), s2⟩
  · intro v h0 h1
    refine ⟨fun s hs => ⟨?_, ?_⟩, ?_⟩
    · unfold dens1DS
      simp only [hdens s hs, Option.bind_some]
      by_cases hs0 : s = 0
      · simp only [hs0, if_true, i3 v h0 h1, Option.map_some, if_neg (hlt _)]
      · simp only [if_neg hs0, i4 _ v h0 h1, Option.map_some, if_neg (hlt _)]
    · unfold temp1DS
      by_cases hs0 : s = 0
      · subst hs0
        simp [i1 v h0 h1, hlt]
      · have : s > 0 := by omega
        simp [i2 v h0 h1, hlt, this, hs0]
    · have hd : ∀ k ∈ List.range nion, (((List.range nion).map ds)[k]?).bind (fun s => s.eval v) = some (some (Ds k v)) := by
        intro k hk
        have hk := List.mem_range.1 hk
        have hdk := hdens (k + 1) (by omega)
        rw [List.getElem?_cons_succ, if_neg (by omega)] at hdk
        rw [hdk, Option.bind_some]
        exact i4 k v h0 h1
      simp only [densandtemp1DS, List.getElem?_cons_zero, List.getElem?_cons_succ, Option.bind_some, i1 v h0 h1, i2 v h0 h1, i3 v h0 h1,
        Nat.add_sub_cancel]
      rw [mapM_some hd, Option.bind_some]
      have hid : ((List.range nion).map fun k => some (Ds k v)).mapM id = some ((List.range nion).map fun k => Ds k v) := by
        rw [List.mapM_map]
        exact mapM_some fun _ _ => rfl
      simp only [hid]
      rw [if_neg]
      · rw [List.range_succ_eq_map, List.map_cons, List.map_map, List.map_map]
        rfl
      · rw [Bool.not_eq_true, List.any_eq_false]
        intro w hw
        rcases List.mem_cons.1 hw with rfl | hw
        · simpa using ⟨(Real.exp_pos _).le, (Real.exp_pos _).le⟩
        · obtain ⟨d, -, rfl⟩ := List.mem_map.1 hw
          simpa using ⟨(Real.exp_pos _).le, (Real.exp_pos _).le⟩
  · intro v hv
    refine ⟨Error.raise 1 275 16, Error.raise 1 243 16, Error.raise 1 319 16, by decide, by decide, by decide, fun s hs => ⟨?_, ?_⟩, ?_⟩
    · unfold dens1DS
      simp only [hdens s hs, Option.bind_some]
      by_cases hs0 : s = 0
      · simp only [hs0, if_true, o3 v hv, Option.map_some]
      · simp only [if_neg hs0, o4 _ v hv, Option.map_some]
    · unfold temp1DS
      by_cases hs0 : s > 0
      · simp [o2 v hv, hs0]
      · simp [o1 v hv, hs0]
    · have hd : ∀ k ∈ List.range nion, (((List.range nion).map ds)[k]?).bind (fun s => s.eval v) = some none := by
        intro k hk
        have hk := List.mem_range.1 hk
        have hdk := hdens (k + 1) (by omega)
        rw [List.getElem?_cons_succ, if_neg (by omega)] at hdk
        rw [hdk, Option.bind_some]
        exact o4 k v hv
      simp only [densandtemp1DS, List.getElem?_cons_zero, List.getElem?_cons_succ, Option.bind_some, o1 v hv, o2 v hv, o3 v hv,
        Nat.add_sub_cancel]
      rw [mapM_some hd, Option.bind_some]
  · intro v r old h0 h1
    simp [flow1DS, i5 v h0 h1]
  · intro v r old hv
    simp [flow1DS, o5 v hv]

/-- Densities and temperatures are positive and reproduce the table at every grid point, the last one too. -/
theorem positive_and_tabulated {nrho nion : Nat} {rhomin rhomax : ℝ} {Te Ti ne ni : Nat → ℝ} (vtor : Nat → ℝ) (hn : 2 ≤ nrho) (hm : rhomin < rhomax)
    (hT : ∀ i < nrho, 0 < Te i ∧ 0 < Ti i ∧ 0 < ne i) (hi : ∀ i < nion * nrho, 0 < ni i) :
    ∃ p, init1DS nrho rhomin rhomax nion Te Ti ne ni vtor = some p ∧
      (∀ v, rhomin ≤ v → v ≤ rhomax → ∀ s ≤ nion, ∃ d t, 0 < d ∧ 0 < t ∧ dens1DS p v s = some (.ok d) ∧ temp1DS p v s = some (.ok t)) ∧
      ∀ k < nrho, ∀ s ≤ nion, dens1DS p (rhomin + k * ((rhomax - rhomin) / (nrho - 1))) s = some (.ok (species nrho ne ni s k)) ∧
        temp1DS p (rhomin + k * ((rhomax - rhomin) / (nrho - 1))) s = some (.ok (temperature Te Ti s k)) := by
  obtain ⟨p, D, T, hp, -, hs, hv, -⟩ := spline_profiles vtor hn hm hT hi
  refine ⟨p, hp, fun v h0 h1 s hs' => ⟨_, _, Real.exp_pos _, Real.exp_pos _, ((hv v h0 h1).1 s hs').1, ((hv v h0 h1).1 s hs').2⟩, ?_⟩
  intro k hk s hs'
  have hn1 : (0 : ℝ) < nrho - 1 := by
    have : (2 : ℝ) ≤ nrho := by exact_mod_cast hn
    linarith
  have hk' : (k : ℝ) ≤ nrho - 1 := by
    have : ((k + 1 : Nat) : ℝ) ≤ nrho := by exact_mod_cast hk
    push_cast at this; linarith
  have hd : 0 ≤ (rhomax - rhomin) / ((nrho : ℝ) - 1) := div_nonneg (by linarith) hn1.le
  have h0 : rhomin ≤ rhomin + k * ((rhomax - rhomin) / (nrho - 1)) := by
    have := mul_nonneg (Nat.cast_nonneg (α := ℝ) k) hd; linarith
  have h1 : rhomin + k * ((rhomax - rhomin) / (nrho - 1)) ≤ rhomax := by
    have h1 : (k : ℝ) * ((rhomax - rhomin) / (nrho - 1)) ≤ (nrho - 1) * ((rhomax - rhomin) / (nrho - 1)) := mul_le_mul_of_nonneg_right hk' hd
    rw [mul_div_cancel₀ _ hn1.ne'] at h1
    linarith
  obtain ⟨a, b⟩ := (hv _ h0 h1).1 s hs'
  rw [a, b, (hs s hs').1.tabulated hn hm hk, (hs s hs').2.tabulated hn hm hk, Real.exp_log, Real.exp_log]
  · exact ⟨rfl, rfl⟩
  · unfold temperature; split
    · exact (hT k hk).1
    · exact (hT k hk).2.1
  · unfold species; split
    · exact (hT k hk).2.2
    · exact hi _ (lt_mul_of (by omega) hk)

/-- Finding: for the flow the error of the evaluation outside of the grid is lost; what the caller's variable held before is
multiplied by the radius and returned without error. -/
theorem flow_error_lost {nrho nion : Nat} {rhomin rhomax : ℝ} {Te Ti ne ni : Nat → ℝ} (vtor : Nat → ℝ) (hn : 2 ≤ nrho) (hm : rhomin < rhomax)
    (hT : ∀ i < nrho, 0 < Te i ∧ 0 < Ti i ∧ 0 < ne i) (hi : ∀ i < nion * nrho, 0 < ni i) :
    ∃ p, init1DS nrho rhomin rhomax nion Te Ti ne ni vtor = some p ∧
      ∀ v t r old, v < rhomin ∨ rhomax < v → evalFlow (.p1DS p) v t r old = some (old * r, 0) := by
  obtain ⟨p, D, T, hp, -, -, -, -, V, -, -, h⟩ := spline_profiles vtor hn hm hT hi
  refine ⟨p, hp, fun v t r old hv => ?_⟩
  simp [evalFlow, h v r old hv, store]

/-- Two grid points, one ion. -/
example : (2 : Nat) ≤ 2 ∧ (0 : ℝ) < 1 ∧ (∀ i < 2, 0 < (fun _ : Nat => (1 : ℝ)) i ∧ 0 < (fun _ : Nat => (2 : ℝ)) i ∧ 0 < (fun i : Nat => (i : ℝ) + 1) i) ∧
    ∀ i < 1 * 2, 0 < (fun i : Nat => (i : ℝ) + 3) i := by
  refine ⟨le_rfl, one_pos, fun i _ => ⟨one_pos, two_pos, ?_⟩, fun i _ => ?_⟩ <;> positivity

end Ascot.C97

namespace Ascot.C98
open Ascot.Plasma Ascot.Profile

/-- Plasma data that has been set up from tables. -/
inductive SetUp : Data → Prop
  | p1D {nrho nion rho Te Ti ne ni vtor p} : 0 < nrho → Increasing nrho rho → init1D nrho nion rho Te Ti ne ni vtor = some p → SetUp (.p1D p)
  | p1Dt {nrho ntime nion rho time Te Ti ne ni vtor p} : 0 < nrho → 2 ≤ ntime → Increasing nrho rho → Increasing ntime time →
      init1Dt nrho ntime nion rho time Te Ti ne ni vtor = some p → SetUp (.p1Dt p)
  | p1DS {nrho rhomin rhomax nion Te Ti ne ni vtor p} : 2 ≤ nrho → rhomin < rhomax → (∀ i < nrho, 0 < Te i ∧ 0 < Ti i ∧ 0 < ne i) →
      (∀ i < nion * nrho, 0 < ni i) → init1DS nrho rhomin rhomax nion Te Ti ne ni vtor = some p → SetUp (.p1DS p)

/-- The values stored and the error of the evaluation of all species, in terms of the evaluation of single species: both succeed
with the same values, or both fail and the documented values are stored. -/
def Agree (d : Data) (v t : ℝ) : Prop :=
  (∃ l : List (ℝ × ℝ), l.length = nSpecies d ∧ evalDensandtemp d v t = some (l, 0) ∧
    ∀ s a b, l[s]? = some (a, b) → ∀ old, evalDens d v t s old = some (a, 0) ∧ evalTemp d v t s old = some (b, 0)) ∨
  (∃ e, e ≠ 0 ∧ evalDensandtemp d v t = some (List.replicate 16 (10 ^ 20, 10 ^ 3), e) ∧
    ∀ s < nSpecies d, ∀ old, (∃ e', e' ≠ 0 ∧ evalDens d v t s old = some (10 ^ 20, e')) ∧ ∃ e', e' ≠ 0 ∧ evalTemp d v t s old = some (10 ^ 20, e'))

theorem range_map_get {α : Type} {n s : Nat} {f : Nat → α} {x : α} (h : ((List.range n).map f)[s]? = some x) : s < n ∧ x = f s := by
  rw [List.getElem?_map] at h
  by_cases hs : s < n
  · rw [List.getElem?_range hs] at h; exact ⟨hs, (Option.some.inj h).symm⟩
  · rw [List.getElem?_eq_none (by simpa using hs)] at h; simp at h

/-- For every plasma and every radius (and for time-dependent profiles every time not before the first), evaluating all species
together and one by one agrees. -/
theorem agree {d : Data} (h : SetUp d) (v t : ℝ) (hd : ∀ p, d = .p1Dt p → densandtemp1Dt p v t ≠ none) : Agree d v t := by
  cases h with
  | @p1D nrho nion rho Te Ti ne ni vtor p hn hr hp =>
    obtain ⟨p', hp', h1, h2⟩ := C52.linear_partial nrho nion Te Ti ne ni vtor hn hr
    obtain ⟨p'', hp'', hg⟩ := init1D_good nrho nion rho Te Ti ne ni vtor
    obtain rfl : p = p' := Option.some.inj (hp.symm.trans hp')
    obtain rfl : p = p'' := Option.some.inj (hp.symm.trans hp'')
    have hns : p.nSpecies = nion + 1 := hg.ns
    rcases C52.cases hr v with ⟨ho, -⟩ | ⟨⟨i, hi, -⟩, -⟩
    · right
      obtain ⟨e1, e2, e3, z1, z2, z3, g1, g2, g3⟩ := h2 v ho
      refine ⟨e3, z3, by simp [evalDensandtemp, g3, store], fun s hs old => ⟨⟨e1, z1, ?_⟩, e2, z2, ?_⟩⟩
      · simp [evalDens, g1, store]
      · simp [evalTemp, g2, store]
    · left
      obtain ⟨g1, g2, g3⟩ := h1 v i hi
      refine ⟨_, ?_, by simp only [evalDensandtemp, g3, store, Option.map_some]; rfl, fun s a b hab old => ?_⟩
      · simp [nSpecies, hns]
      · obtain ⟨hs, e⟩ := range_map_get hab
        rw [Prod.mk.injEq] at e
        simp [evalDens, evalTemp, g1 s (by omega), g2 s (by omega), store, e.1, e.2]
  | @p1Dt nrho ntime nion rho time Te Ti ne ni vtor p hn h2 hr ht hp =>
    obtain ⟨p', hp', ho⟩ := C96.outside nrho ntime nion (rho := rho) (time := time) Te Ti ne ni vtor hn
    obtain ⟨p'', hp'', hg⟩ := init1Dt_good nrho ntime nion rho time Te Ti ne ni vtor
    obtain rfl : p = p' := Option.some.inj (hp.symm.trans hp')
    obtain rfl : p = p'' := Option.some.inj (hp.symm.trans hp'')
    have hns : p.nSpecies = nion + 1 := hg.ns
    have hd := hd p rfl
    rcases hx : densandtemp1Dt p v t with _ | x
    · exact absurd hx hd
    rcases C52.cases hr v with ⟨hv, -⟩ | ⟨⟨i, hi, -⟩, -⟩
    · right
      obtain ⟨e, z, g1, g2, g3, -⟩ := ho v t hv
      refine ⟨e, z, by simp [evalDensandtemp, g1, store], fun s hs old => ⟨⟨e, z, ?_⟩, e, z, ?_⟩⟩
      · simp [evalDens, g3, store]
      · simp [evalTemp, g2, store]
    · left
      have hw : ∃ (j : Nat) (c : ℝ), timeWeight p t = some ((j : Int), c) ∧ j + 1 < ntime := by
        by_cases h0 : t < time 0
        · exfalso
          apply hd
          unfold densandtemp1Dt
          rw [hg.n, onGrid_in hg.rho hr hi, weight_between hg.rho hr hi, Option.bind_some, timeWeight_early hg h2 h0]; rfl
        · by_cases hl : time (ntime - 2) ≤ t
          · exact ⟨ntime - 2, 1, timeWeight_late hg ht h2 hl, by omega⟩
          · obtain ⟨j, hj, hb1, hb2⟩ := between_of (n := ntime - 1) (not_lt.1 h0) (not_le.1 hl)
            exact ⟨j, _, timeWeight_between hg ht ⟨by omega, hb1, hb2⟩ (by omega), by omega⟩
      obtain ⟨j, c, hw, hj⟩ := hw
      have g := densandtemp_eq hg hr hi hw hj
      refine ⟨_, ?_, by simp only [evalDensandtemp, g, store, Option.map_some]; rfl, fun s a b hab old => ?_⟩
      · simp [nSpecies, hns]
      · simp only [evalDens, evalTemp, dens1Dt, temp1Dt, g, Option.bind_some, hab, Option.map_some, store, and_self]
  | @p1DS nrho rhomin rhomax nion Te Ti ne ni vtor p hn hm hT hi hp =>
    obtain ⟨p', D, T, hp', hns, -, h1, h2, -⟩ := C97.spline_profiles vtor hn hm hT hi
    obtain rfl : p = p' := Option.some.inj (hp.symm.trans hp')
    by_cases hv : v < rhomin ∨ rhomax < v
    · right
      obtain ⟨e1, e2, e3, z1, z2, z3, g1, g3⟩ := h2 v hv
      refine ⟨e3, z3, by simp [evalDensandtemp, g3, store], fun s hs old => ?_⟩
      have hs : s < p.nSpecies := hs
      refine ⟨⟨e1, z1, ?_⟩, e2, z2, ?_⟩
      · simp [evalDens, (g1 s (by omega)).1, store]
      · simp [evalTemp, (g1 s (by omega)).2, store]
    · left
      have hv := not_or.1 hv
      obtain ⟨g1, g3⟩ := h1 v (not_lt.1 hv.1) (not_lt.1 hv.2)
      refine ⟨_, ?_, by simp only [evalDensandtemp, g3, store, Option.map_some]; rfl, fun s a b hab old => ?_⟩
      · simp [nSpecies, hns]
      · obtain ⟨hs, e⟩ := range_map_get hab
        rw [Prod.mk.injEq] at e
        simp [evalDens, evalTemp, (g1 s (by omega)).1, (g1 s (by omega)).2, store, e.1, e.2]

/-- The hypothesis about the time holds from the first time on. -/
theorem defined_from_first_time {nrho ntime nion : Nat} {rho time : Nat → ℝ} (Te Ti ne ni vtor : Nat → ℝ) (hn : 0 < nrho) (h2 : 2 ≤ ntime)
    (hr : Increasing nrho rho) (ht : Increasing ntime time) :
    ∃ p, init1Dt nrho ntime nion rho time Te Ti ne ni vtor = some p ∧ ∀ v t, time 0 ≤ t → densandtemp1Dt p v t ≠ none := by
  obtain ⟨p, hp, ho⟩ := C96.outside nrho ntime nion (rho := rho) (time := time) Te Ti ne ni vtor hn
  obtain ⟨p'', hp'', hg⟩ := init1Dt_good nrho ntime nion rho time Te Ti ne ni vtor
  obtain rfl : p = p'' := Option.some.inj (hp.symm.trans hp'')
  refine ⟨p, hp, fun v t h0 => ?_⟩
  rcases C52.cases hr v with ⟨hv, -⟩ | ⟨⟨i, hi, -⟩, -⟩
  · obtain ⟨e, -, g, -⟩ := ho v t hv
    rw [g]; simp
  · by_cases hl : time (ntime - 2) ≤ t
    · rw [densandtemp_eq hg hr hi (timeWeight_late hg ht h2 hl) (by omega)]; simp
    · obtain ⟨j, hj, hb1, hb2⟩ := between_of (n := ntime - 1) h0 (not_le.1 hl)
      rw [densandtemp_eq hg hr hi (timeWeight_between hg ht ⟨by omega, hb1, hb2⟩ (by omega)) (by omega)]; simp

/-- Finding: for an unknown type of plasma data the evaluation of a single species reports no error and stores nothing, while the
evaluation of all species and of the flow fail. -/
theorem unknown_type (v t r old : ℝ) (s : Nat) : evalDens .unknown v t s old = some (old, 0) ∧ evalTemp .unknown v t s old = some (old, 0) ∧
    (∃ l e, e ≠ 0 ∧ evalDensandtemp .unknown v t = some (l, e)) ∧ ∃ e, e ≠ 0 ∧ evalFlow .unknown v t r old = some (0, e) :=
  ⟨rfl, rfl, ⟨_, Error.raise 2 209 17, by decide, rfl⟩, Error.raise 2 259 17, by decide, rfl⟩

end Ascot.C98
