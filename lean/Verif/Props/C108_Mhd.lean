import Verif.Model.Mhd
import Verif.Props.C107_Boozer

/-!
# C108: MHD modes

The modes define two functions of position and time, alpha and the potential Phi, each the sum over the modes of amplitude times
radial profile times cos(n zeta - m theta - omega t + phase).  The values, gradients and time derivatives that are returned
belong to these functions.  The magnetic perturbation is the curl of alpha B and the electric one follows from the potentials Phi
and alpha B.  Outside of the data there is no perturbation.
-/
set_option linter.unusedSectionVars false
set_option linter.unusedSimpArgs false

namespace Ascot.C108
open Ascot.Coord Ascot.Bfield Ascot.Mhd
open Ascot.C106 (HasGrad IsMinusGradient)

/-! ### Specification -/

/-- The modes selected by `includemode`: all for -1, otherwise the one with this index. -/
def selected {P : Type} (includemode : Int) (modes : List (Mode P)) : List (Mode P) :=
  if includemode = -1 then modes else if includemode < 0 then [] else (modes[includemode.toNat]?).toList

/-- Sum over modes of amplitude, profile and oscillation; `a` gives the profile of a mode as function of rho and time, `Rho` is
rho as function of psi, and psi, theta, zeta are functions of the position. -/
noncomputable def modeSum {P : Type} (l : List (Mode P)) (a : Mode P → ℝ → ℝ → ℝ) (Rho : ℝ → ℝ) (Psi Theta Zeta : ℝ → ℝ → ℝ → ℝ)
    (r phi z t : ℝ) : ℝ :=
  (l.map fun k => k.amplitude * a k (Rho (Psi r phi z)) t *
    Real.cos (k.n * Zeta r phi z - k.m * Theta r phi z - k.omega * t + k.phase)).sum

/-- The curl of a vector field in cylindrical coordinates. -/
def IsCurl (A : ℝ → ℝ → ℝ → V3 ℝ) (r phi z : ℝ) (C : V3 ℝ) : Prop :=
  ∃ zp pz rz zr pr rp, HasDerivAt (fun q => (A r q z).z) zp phi ∧ HasDerivAt (fun y => (A r phi y).y) pz z ∧
    HasDerivAt (fun y => (A r phi y).x) rz z ∧ HasDerivAt (fun x => (A x phi z).z) zr r ∧
    HasDerivAt (fun x => x * (A x phi z).y) pr r ∧ HasDerivAt (fun q => (A r q z).x) rp phi ∧
    C = ⟨zp / r - pz, rz - zr, (pr - rp) / r⟩

/-- Value, gradient and time derivative of a function of position and time. -/
structure IsPart (f : ℝ → ℝ → ℝ → ℝ → ℝ) (r phi z t : ℝ) (p : Part) : Prop where
  value : f r phi z t = p.v
  time : HasDerivAt (fun s => f r phi z s) p.t t
  radial : HasDerivAt (fun x => f x phi z t) p.r r
  toroidal : HasDerivAt (fun q => f r q z t) (r * p.phi) phi
  vertical : HasDerivAt (fun y => f r phi y t) p.z z

/-! ### Lemmas -/

section lemmas
variable {P : Type}

/-- The modes that the loop takes into account. -/
def taken (includemode : Int) (modes : List (Mode P)) : List (Mode P) :=
  (modes.zipIdx.filter fun ki => included includemode ki.2).map Prod.fst

theorem filter_one (modes : List (Mode P)) (i : Nat) : ∀ s, ((modes.zipIdx s).filter fun ki => decide (ki.2 = i)).map Prod.fst =
    if s ≤ i then (modes[i - s]?).toList else [] := by
  induction modes with
  | nil => intro s; simp
  | cons k l ih =>
    intro s
    rw [List.zipIdx_cons, List.filter_cons]
    by_cases h : s = i
    · subst h
      simp [ih]
    · have e : (if (decide ((k, s).2 = i)) = true then (k, s) :: List.filter (fun ki => decide (ki.2 = i)) (l.zipIdx (s + 1)) else
        List.filter (fun ki => decide (ki.2 = i)) (l.zipIdx (s + 1))) = List.filter (fun ki => decide (ki.2 = i)) (l.zipIdx (s + 1)) :=
        if_neg (by simpa using h)
      rw [e, ih]
      by_cases hs : s ≤ i
      · rw [if_pos (by omega), if_pos hs]
        obtain ⟨j, rfl⟩ : ∃ j, i = s + 1 + j := ⟨i - s - 1, by omega⟩
        rw [show s + 1 + j - (s + 1) = j by omega, show s + 1 + j - s = j + 1 by omega, List.getElem?_cons_succ]
      · rw [if_neg (by omega), if_neg hs]

theorem taken_eq (includemode : Int) (modes : List (Mode P)) : taken includemode modes = selected includemode modes := by
  unfold taken selected
  split_ifs with h1 h2
  · have : (modes.zipIdx.filter fun ki => included includemode ki.2) = modes.zipIdx := by
      rw [List.filter_eq_self]; intro ki _; simp [included, h1]
    rw [this, List.zipIdx_map_fst]
  · have : (modes.zipIdx.filter fun ki => included includemode ki.2) = [] := by
      rw [List.filter_eq_nil_iff]; intro ki _
      simp [included, h1]; omega
    rw [this]; rfl
  · obtain ⟨i, rfl⟩ : ∃ i : Nat, includemode = i := ⟨includemode.toNat, by omega⟩
    have : (fun ki : Mode P × Nat => included (i : Int) ki.2) = fun ki => decide (ki.2 = i) := by
      funext ki
      simp only [included, h1]
      by_cases e : ki.2 = i
      · simp [e]
      · have : (i : Int) ≠ (ki.2 : Int) := by omega
        simp [e, this]
    rw [this, filter_one]
    simp

/-- Component-wise sum. -/
noncomputable def psum (l : List Part) : Part :=
  ⟨(l.map Part.v).sum, (l.map Part.t).sum, (l.map Part.r).sum, (l.map Part.phi).sum, (l.map Part.z).sum⟩

/-- What the loop does with one mode. -/
noncomputable def body (ev : P → Option Prof) (p : Boozer.Ptz) (r t drho : ℝ) (acc : Nat × Dmhd) (k : Mode P) : Nat × Dmhd :=
  match ev k.alpha, ev k.phi with
  | some a, some f => (acc.1, acc.2.add ⟨part k p r t drho a, part k p r t drho f⟩)
  | _, _ => (acc.1 + 1, acc.2)

theorem loop_eq (ev : P → Option Prof) (includemode : Int) (p : Boozer.Ptz) (r t drho : ℝ) (modes : List (Mode P)) :
    loop ev includemode p r t drho modes = (selected includemode modes).foldl (body ev p r t drho) (0, .zero) := by
  rw [← taken_eq, taken, List.foldl_map, List.foldl_filter]
  rfl

theorem fold_ok {ev : P → Option Prof} {p : Boozer.Ptz} {r t drho : ℝ} {av fv : Mode P → Prof} : ∀ (l : List (Mode P)),
    (∀ k ∈ l, ev k.alpha = some (av k) ∧ ev k.phi = some (fv k)) → ∀ acc : Nat × Dmhd, l.foldl (body ev p r t drho) acc =
      (acc.1, acc.2.add ⟨psum (l.map fun k => part k p r t drho (av k)), psum (l.map fun k => part k p r t drho (fv k))⟩) := by
  intro l
  induction l with
  | nil =>
    intro _ acc
    obtain ⟨n, ⟨a1, a2, a3, a4, a5⟩, b1, b2, b3, b4, b5⟩ := acc
    simp [psum, Dmhd.add, Part.add]
  | cons k l ih =>
    intro h acc
    have hk := h k (by simp)
    rw [List.foldl_cons, ih fun k' hk' => h k' (by simp [hk'])]
    simp [body, hk.1, hk.2, psum, Dmhd.add, Part.add, add_assoc]

theorem fold_err {ev : P → Option Prof} {p : Boozer.Ptz} {r t drho : ℝ} : ∀ (l : List (Mode P)) (acc : Nat × Dmhd),
    (acc.1 ≠ 0 ∨ ∃ k ∈ l, ev k.alpha = none ∨ ev k.phi = none) → (l.foldl (body ev p r t drho) acc).1 ≠ 0 := by
  intro l
  induction l with
  | nil => intro acc h; simpa using h
  | cons k l ih =>
    intro acc h
    rw [List.foldl_cons]
    apply ih
    by_cases hk : ev k.alpha = none ∨ ev k.phi = none
    · left
      rcases hk with hk | hk
      · simp [body, hk]
      · cases ha : ev k.alpha <;> simp [body, hk, ha]
    · rcases h with h | ⟨k', hk', e⟩
      · left
        cases ha : ev k.alpha <;> cases hf : ev k.phi <;> simp [body, ha, hf, h]
      · right
        rcases List.mem_cons.1 hk' with rfl | hk'
        · exact absurd e hk
        · exact ⟨k', hk', e⟩

/-- One mode along a curve. -/
theorem mode_deriv {a : ℝ → ℝ} {a' A n m c u' x' y' s : ℝ} {u x y : ℝ → ℝ} (ha : HasDerivAt a a' (u s)) (hu : HasDerivAt u u' s)
    (hx : HasDerivAt x x' s) (hy : HasDerivAt y y' s) (w : ℝ) :
    HasDerivAt (fun s => A * a (u s) * Real.cos (n * x s - m * y s - w + c))
      (A * (a' * u' * Real.cos (n * x s - m * y s - w + c) + a (u s) * m * y' * Real.sin (n * x s - m * y s - w + c)
        - a (u s) * n * x' * Real.sin (n * x s - m * y s - w + c))) s := by
  have h1 : HasDerivAt (fun s => a (u s)) (a' * u') s := ha.comp s hu
  have h2 : HasDerivAt (fun s => n * x s - m * y s - w + c) (n * x' - m * y') s :=
    (((hx.const_mul n).sub (hy.const_mul m)).sub_const w).add_const c
  refine ((h1.const_mul A).mul h2.cos).congr_deriv ?_
  ring

theorem sum_deriv {l : List (Mode P)} {f : Mode P → ℝ → ℝ} {f' : Mode P → ℝ} {s : ℝ} (h : ∀ k ∈ l, HasDerivAt (f k) (f' k) s) :
    HasDerivAt (fun s => (l.map fun k => f k s).sum) (l.map f').sum s := by
  induction l with
  | nil => simpa using hasDerivAt_const s (0 : ℝ)
  | cons k l ih =>
    simp only [List.map_cons, List.sum_cons]
    exact (h k (by simp)).add (ih fun k' hk' => h k' (by simp [hk']))

end lemmas

/-! ### The property -/

section property
variable {P : Type} {ev : P → ℝ → ℝ → Option Prof} {modes : List (Mode P)} {includemode : Int} {bz : Boozer.Data}
  {b : Bfield.Data} {r phi z t : ℝ} {p : Boozer.Ptz} {rho drho : ℝ}

/-- The profiles of a mode have values and derivatives. -/
structure HasProfile (ev : P → ℝ → ℝ → Option Prof) (get : Mode P → P) (a : Mode P → ℝ → ℝ → ℝ) (rho t : ℝ) (k : Mode P) : Prop where
  ok : ∃ x, ev (get k) rho t = some x ∧ a k rho t = x.v ∧ HasDerivAt (fun y => a k y t) x.rho rho ∧ HasDerivAt (fun s => a k rho s) x.t t

theorem isPart_sum {l : List (Mode P)} {a : Mode P → ℝ → ℝ → ℝ} {av : Mode P → Prof} {Rho : ℝ → ℝ} {Psi Theta Zeta : ℝ → ℝ → ℝ → ℝ}
    (hr : r ≠ 0) (hRho : Rho p.psi.v = rho) (hRho' : HasDerivAt Rho drho p.psi.v) (hP : HasGrad Psi r phi z p.psi)
    (hT : HasGrad Theta r phi z p.theta) (hZ : HasGrad Zeta r phi z p.zeta)
    (h : ∀ k ∈ l, a k rho t = (av k).v ∧ HasDerivAt (fun y => a k y t) (av k).rho rho ∧ HasDerivAt (fun s => a k rho s) (av k).t t) :
    IsPart (modeSum l a Rho Psi Theta Zeta) r phi z t (psum (l.map fun k => part k p r t drho (av k))) := by
  have hv : Rho (Psi r phi z) = rho := by rw [hP.1, hRho]
  have hR' : HasDerivAt Rho drho (Psi r phi z) := by rw [hP.1]; exact hRho'
  constructor
  · simp only [modeSum, psum, List.map_map]
    congr 1
    refine List.map_congr_left fun k hk => ?_
    simp only [Function.comp, part, arg, hv, (h k hk).1, hT.1, hZ.1]
    ring
  · simp only [psum, List.map_map]
    refine sum_deriv fun k hk => ?_
    have h1 : HasDerivAt (fun s => k.n * Zeta r phi z - k.m * Theta r phi z - k.omega * s + k.phase) (-k.omega) t :=
      (((hasDerivAt_id t).const_mul k.omega).const_sub _).add_const _ |>.congr_deriv (by simp)
    refine ((((h k hk).2.2.const_mul k.amplitude).mul h1.cos).congr_of_eventuallyEq
      (Filter.Eventually.of_forall fun s => ?_)).congr_deriv ?_
    · simp only [hv, Pi.mul_apply]
    · simp only [Function.comp, part, arg, (h k hk).1, hT.1, hZ.1]
      ring
  · simp only [psum, List.map_map]
    refine sum_deriv fun k hk => ?_
    refine (mode_deriv (a := fun y => a k y t) (u := fun x => Rho (Psi x phi z)) (by simpa only [hv] using (h k hk).2.1)
      (HasDerivAt.comp r hR' hP.2.1) hZ.2.1 hT.2.1 (k.omega * t)).congr_deriv ?_
    simp only [Function.comp, part, arg, hv, (h k hk).1, hT.1, hZ.1]
    ring
  · have e : r * (psum (l.map fun k => part k p r t drho (av k))).phi =
        (l.map fun k => r * (part k p r t drho (av k)).phi).sum := by
      rw [List.sum_map_mul_left]; simp [psum, Function.comp_def]
    rw [e]
    refine sum_deriv fun k hk => ?_
    refine (mode_deriv (a := fun y => a k y t) (u := fun q => Rho (Psi r q z)) (by simpa only [hv] using (h k hk).2.1)
      (HasDerivAt.comp phi hR' hP.2.2.1) hZ.2.2.1 hT.2.2.1 (k.omega * t)).congr_deriv ?_
    simp only [Function.comp, part, arg, hv, (h k hk).1, hT.1, hZ.1]
    field_simp
  · simp only [psum, List.map_map]
    refine sum_deriv fun k hk => ?_
    refine (mode_deriv (a := fun y => a k y t) (u := fun y => Rho (Psi r phi y)) (by simpa only [hv] using (h k hk).2.1)
      (HasDerivAt.comp z hR' hP.2.2.2) hZ.2.2.2 hT.2.2.2 (k.omega * t)).congr_deriv ?_
    simp only [Function.comp, part, arg, hv, (h k hk).1, hT.1, hZ.1]
    ring

theorem evalWith_ok {av fv : Mode P → Prof} (hr : r ≠ 0) (hb : Boozer.eval bz b r phi z = some (.ok (some p)))
    (he : evalRho b p.psi.v = (some rho, some drho, 0))
    (h : ∀ k ∈ selected includemode modes, ev k.alpha rho t = some (av k) ∧ ev k.phi rho t = some (fv k)) :
    evalWith ev modes includemode bz b r phi z t =
      some (.ok ⟨psum ((selected includemode modes).map fun k => part k p r t drho (av k)),
        psum ((selected includemode modes).map fun k => part k p r t drho (fv k))⟩) := by
  unfold evalWith
  rw [hb]
  dsimp only
  rw [he]
  dsimp only
  rw [if_neg (by simp), if_neg hr, loop_eq, fold_ok _ h]
  rw [if_neg (by simp)]
  simp [Dmhd.add, Dmhd.zero, Part.add, Part.zero]

/-- Inside, the evaluation returns the two functions with their derivatives.  The functions psi, theta and zeta of the position
are any with the values and derivatives that the Boozer coordinates have returned. -/
theorem functions {a f : Mode P → ℝ → ℝ → ℝ} {Rho : ℝ → ℝ} {Psi Theta Zeta : ℝ → ℝ → ℝ → ℝ} (hr : r ≠ 0)
    (hb : Boozer.eval bz b r phi z = some (.ok (some p))) (he : evalRho b p.psi.v = (some rho, some drho, 0))
    (ha : ∀ k ∈ selected includemode modes, HasProfile ev Mode.alpha a rho t k)
    (hf : ∀ k ∈ selected includemode modes, HasProfile ev Mode.phi f rho t k)
    (hRho : Rho p.psi.v = rho) (hRho' : HasDerivAt Rho drho p.psi.v) (hP : HasGrad Psi r phi z p.psi)
    (hT : HasGrad Theta r phi z p.theta) (hZ : HasGrad Zeta r phi z p.zeta) :
    ∃ m, evalWith ev modes includemode bz b r phi z t = some (.ok m) ∧
      IsPart (modeSum (selected includemode modes) a Rho Psi Theta Zeta) r phi z t m.alpha ∧
      IsPart (modeSum (selected includemode modes) f Rho Psi Theta Zeta) r phi z t m.phi := by
  have ha' : ∀ k, ∃ x, k ∈ selected includemode modes → (ev k.alpha rho t = some x ∧ a k rho t = x.v ∧
      HasDerivAt (fun y => a k y t) x.rho rho ∧ HasDerivAt (fun s => a k rho s) x.t t) := fun k => by
    by_cases hk : k ∈ selected includemode modes
    · obtain ⟨x, hx⟩ := (ha k hk).ok
      exact ⟨x, fun _ => hx⟩
    · exact ⟨⟨0, 0, 0⟩, fun h => absurd h hk⟩
  have hf' : ∀ k, ∃ x, k ∈ selected includemode modes → (ev k.phi rho t = some x ∧ f k rho t = x.v ∧
      HasDerivAt (fun y => f k y t) x.rho rho ∧ HasDerivAt (fun s => f k rho s) x.t t) := fun k => by
    by_cases hk : k ∈ selected includemode modes
    · obtain ⟨x, hx⟩ := (hf k hk).ok
      exact ⟨x, fun _ => hx⟩
    · exact ⟨⟨0, 0, 0⟩, fun h => absurd h hk⟩
  choose av hav using ha'
  choose fv hfv using hf'
  refine ⟨_, evalWith_ok hr hb he fun k hk => ⟨(hav k hk).1, (hfv k hk).1⟩, ?_, ?_⟩
  · exact isPart_sum hr hRho hRho' hP hT hZ fun k hk => (hav k hk).2
  · exact isPart_sum hr hRho hRho' hP hT hZ fun k hk => (hfv k hk).2

/-- All modes together are the sum of the modes one by one. -/
theorem superposition {av fv : Mode P → Prof} (hr : r ≠ 0) (hb : Boozer.eval bz b r phi z = some (.ok (some p)))
    (he : evalRho b p.psi.v = (some rho, some drho, 0))
    (h : ∀ k ∈ modes, ev k.alpha rho t = some (av k) ∧ ev k.phi rho t = some (fv k)) :
    ∃ (m : Dmhd) (one : Nat → Dmhd), evalWith ev modes (-1) bz b r phi z t = some (.ok m) ∧
      (∀ i < modes.length, evalWith ev modes i bz b r phi z t = some (.ok (one i))) ∧
      m.alpha = psum ((List.range modes.length).map fun i => (one i).alpha) ∧
      m.phi = psum ((List.range modes.length).map fun i => (one i).phi) := by
  have hall := evalWith_ok (includemode := -1) (modes := modes) hr hb he (fun k hk => h k (by simpa [selected] using hk))
  have hsel : ∀ i (hi : i < modes.length), selected (i : Int) modes = [modes[i]] := fun i hi => by
    have h1 : (i : Int) ≠ -1 := by omega
    have h2 : ¬ (i : Int) < 0 := by omega
    simp [selected, h1, h2, hi]
  have hone : ∀ i (hi : i < modes.length), evalWith ev modes i bz b r phi z t =
      some (.ok ⟨part modes[i] p r t drho (av modes[i]), part modes[i] p r t drho (fv modes[i])⟩) := fun i hi => by
    rw [evalWith_ok (av := av) (fv := fv) hr hb he (fun k hk => ?_), hsel i hi]
    · simp [psum]
    · rw [hsel i hi] at hk
      obtain rfl := List.mem_singleton.1 hk
      exact h _ (List.getElem_mem hi)
  refine ⟨_, fun i => if hi : i < modes.length then
      ⟨part modes[i] p r t drho (av modes[i]), part modes[i] p r t drho (fv modes[i])⟩ else .zero, hall,
    fun i hi => by rw [hone i hi]; simp only [dif_pos hi], ?_, ?_⟩
  · have : (List.range modes.length).map (fun i => (if hi : i < modes.length then
        (⟨part modes[i] p r t drho (av modes[i]), part modes[i] p r t drho (fv modes[i])⟩ : Dmhd) else .zero).alpha) =
        modes.map fun k => part k p r t drho (av k) := by
      refine List.ext_getElem (by simp) fun i h1 h2 => ?_
      have hi : i < modes.length := by simpa using h1
      simp [hi]
    rw [this]; simp [selected]
  · have : (List.range modes.length).map (fun i => (if hi : i < modes.length then
        (⟨part modes[i] p r t drho (av modes[i]), part modes[i] p r t drho (fv modes[i])⟩ : Dmhd) else .zero).phi) =
        modes.map fun k => part k p r t drho (fv k) := by
      refine List.ext_getElem (by simp) fun i h1 h2 => ?_
      have hi : i < modes.length := by simpa using h1
      simp [hi]
    rw [this]; simp [selected]

/-- Outside of the Boozer coordinates, or of the grid of the profiles, all results are zero and there is no error. -/
theorem outside :
    (Boozer.eval bz b r phi z = some (.ok none) → evalWith ev modes includemode bz b r phi z t = some (.ok .zero)) ∧
    (Boozer.eval bz b r phi z = some (.ok (some p)) → evalRho b p.psi.v = (some rho, some drho, 0) → r ≠ 0 →
      (∃ k ∈ selected includemode modes, ev k.alpha rho t = none ∨ ev k.phi rho t = none) →
      evalWith ev modes includemode bz b r phi z t = some (.ok .zero)) := by
  constructor
  · intro h
    unfold evalWith
    rw [h]
  · intro hb he hr hk
    unfold evalWith
    rw [hb]
    dsimp only
    rw [he]
    dsimp only
    rw [if_neg (by simp), if_neg hr, loop_eq, if_pos (fold_err _ _ (Or.inr hk))]

end property

/-- Stationary modes: the profiles are functions of rho alone. -/
theorem stationary {l : List (Mode Spline1)} {includemode : Int} {bz : Boozer.Data} {b : Bfield.Data} {r phi z t : ℝ} {p : Boozer.Ptz}
    {rho drho : ℝ} {a f : Mode Spline1 → ℝ → ℝ} {Rho : ℝ → ℝ} {Psi Theta Zeta : ℝ → ℝ → ℝ → ℝ} (hr : r ≠ 0)
    (hb : Boozer.eval bz b r phi z = some (.ok (some p))) (he : evalRho b p.psi.v = (some rho, some drho, 0))
    (ha : ∀ k ∈ selected includemode l, ∃ x, k.alpha rho = some (a k rho, x) ∧ HasDerivAt (a k) x rho)
    (hf : ∀ k ∈ selected includemode l, ∃ x, k.phi rho = some (f k rho, x) ∧ HasDerivAt (f k) x rho)
    (hRho : Rho p.psi.v = rho) (hRho' : HasDerivAt Rho drho p.psi.v) (hP : HasGrad Psi r phi z p.psi)
    (hT : HasGrad Theta r phi z p.theta) (hZ : HasGrad Zeta r phi z p.zeta) :
    ∃ m, Mhd.eval (.stat l) includemode bz b r phi z t = some (.ok m) ∧
      IsPart (modeSum (selected includemode l) (fun k y _ => a k y) Rho Psi Theta Zeta) r phi z t m.alpha ∧
      IsPart (modeSum (selected includemode l) (fun k y _ => f k y) Rho Psi Theta Zeta) r phi z t m.phi :=
  functions hr hb he
    (fun k hk => by
      obtain ⟨x, h1, h2⟩ := ha k hk
      exact ⟨_, by simp only [statProf, h1, Option.map_some]; rfl, rfl, h2, hasDerivAt_const _ _⟩)
    (fun k hk => by
      obtain ⟨x, h1, h2⟩ := hf k hk
      exact ⟨_, by simp only [statProf, h1, Option.map_some]; rfl, rfl, h2, hasDerivAt_const _ _⟩) hRho hRho' hP hT hZ

/-- Time-dependent modes: the profiles are functions of rho and time. -/
theorem time_dependent {l : List (Mode SplineT)} {includemode : Int} {bz : Boozer.Data} {b : Bfield.Data} {r phi z t : ℝ} {p : Boozer.Ptz}
    {rho drho : ℝ} {a f : Mode SplineT → ℝ → ℝ → ℝ} {Rho : ℝ → ℝ} {Psi Theta Zeta : ℝ → ℝ → ℝ → ℝ} (hr : r ≠ 0)
    (hb : Boozer.eval bz b r phi z = some (.ok (some p))) (he : evalRho b p.psi.v = (some rho, some drho, 0))
    (ha : ∀ k ∈ selected includemode l, ∃ x y, k.alpha rho t = some ⟨a k rho t, x, y⟩ ∧ HasDerivAt (fun q => a k q t) x rho ∧
      HasDerivAt (fun s => a k rho s) y t)
    (hf : ∀ k ∈ selected includemode l, ∃ x y, k.phi rho t = some ⟨f k rho t, x, y⟩ ∧ HasDerivAt (fun q => f k q t) x rho ∧
      HasDerivAt (fun s => f k rho s) y t)
    (hRho : Rho p.psi.v = rho) (hRho' : HasDerivAt Rho drho p.psi.v) (hP : HasGrad Psi r phi z p.psi)
    (hT : HasGrad Theta r phi z p.theta) (hZ : HasGrad Zeta r phi z p.zeta) :
    ∃ m, Mhd.eval (.nonstat l) includemode bz b r phi z t = some (.ok m) ∧
      IsPart (modeSum (selected includemode l) a Rho Psi Theta Zeta) r phi z t m.alpha ∧
      IsPart (modeSum (selected includemode l) f Rho Psi Theta Zeta) r phi z t m.phi :=
  functions hr hb he
    (fun k hk => by
      obtain ⟨x, y, h1, h2, h3⟩ := ha k hk
      exact ⟨_, h1, rfl, h2, h3⟩)
    (fun k hk => by
      obtain ⟨x, y, h1, h2, h3⟩ := hf k hk
      exact ⟨_, h1, rfl, h2, h3⟩) hRho hRho' hP hT hZ

/-- The product of a function and a vector field. -/
def scaled (f : ℝ → ℝ → ℝ → ℝ) (B : ℝ → ℝ → ℝ → V3 ℝ) (r phi z : ℝ) : V3 ℝ :=
  ⟨f r phi z * (B r phi z).x, f r phi z * (B r phi z).y, f r phi z * (B r phi z).z⟩

/-- The perturbation: the magnetic field is the curl of alpha B (plus B unless only the perturbation is asked for), the electric
field is minus the gradient of the potential and minus the time derivative of alpha B, and the potential is returned. -/
theorem fields {d : Mhd.Data} {includemode : Int} {bz : Boozer.Data} {b : Bfield.Data} {r phi z t : ℝ} {m : Dmhd} {j : Jac}
    {alpha Phi : ℝ → ℝ → ℝ → ℝ → ℝ} {B : ℝ → ℝ → ℝ → V3 ℝ} (hr : r ≠ 0)
    (hm : Mhd.eval d includemode bz b r phi z t = some (.ok m)) (hj : evalBdB b r phi z = some (j, 0))
    (ha : IsPart alpha r phi z t m.alpha) (hp : IsPart Phi r phi z t m.phi)
    (h1 : HasGrad (fun r phi z => (B r phi z).x) r phi z j.a) (h2 : HasGrad (fun r phi z => (B r phi z).y) r phi z j.b)
    (h3 : HasGrad (fun r phi z => (B r phi z).z) r phi z j.c) (pertonly : Bool) :
    ∃ q, perturbations d pertonly includemode bz b r phi z t = some (.ok q) ∧ q.Phi = Phi r phi z t ∧
      (∃ C, IsCurl (scaled (fun r phi z => alpha r phi z t) B) r phi z C ∧
        q.B = if pertonly then C else ⟨(B r phi z).x + C.x, (B r phi z).y + C.y, (B r phi z).z + C.z⟩) ∧
      ∃ w : V3 ℝ, HasDerivAt (fun s => (scaled (fun r phi z => alpha r phi z s) B r phi z).x) w.x t ∧
        HasDerivAt (fun s => (scaled (fun r phi z => alpha r phi z s) B r phi z).y) w.y t ∧
        HasDerivAt (fun s => (scaled (fun r phi z => alpha r phi z s) B r phi z).z) w.z t ∧
        IsMinusGradient (fun r phi z => Phi r phi z t) r phi z ⟨q.E.x + w.x, q.E.y + w.y, q.E.z + w.z⟩ := by
  have hq : perturbations d pertonly includemode bz b r phi z t = some (.ok (combine m j r pertonly)) := by
    cases d with
    | unknown => exact absurd hm (by simp [Mhd.eval])
    | stat l => simp [perturbations, hm, hj, hr]
    | nonstat l => simp [perturbations, hm, hj, hr]
  refine ⟨_, hq, hp.value.symm, ⟨_, ⟨_, _, _, _, _, _, ha.toroidal.mul h3.2.2.1, ha.vertical.mul h2.2.2.2, ha.vertical.mul h1.2.2.2, ha.radial.mul h3.2.1,
    (hasDerivAt_id r).mul (ha.radial.mul h2.2.1), ha.toroidal.mul h1.2.2.1, rfl⟩, ?_⟩, ?_⟩
  · have e1 := h1.1
    have e2 := h2.1
    have e3 := h3.1
    have e4 := ha.value
    dsimp only at e1 e2 e3
    cases pertonly
    · simp only [combine, V3.cross, Bool.false_eq_true, if_false, id, Pi.mul_apply, scaled]
      rw [e1, e2, e3, e4]
      ext
      · simp only []; field_simp; ring
      · simp only []; ring
      · simp only []; field_simp; ring
    · simp only [combine, V3.cross, if_true, id, Pi.mul_apply, scaled]
      rw [e1, e2, e3, e4]
      ext
      · simp only []; field_simp; ring
      · simp only []; ring
      · simp only []; field_simp; ring
  · refine ⟨⟨m.alpha.t * (B r phi z).x, m.alpha.t * (B r phi z).y, m.alpha.t * (B r phi z).z⟩, ha.time.mul_const _, ha.time.mul_const _,
      ha.time.mul_const _, ?_, ?_, ?_⟩
    · exact hp.radial.congr_deriv (by simp only [combine, h1.1.symm]; ring)
    · exact hp.toroidal.congr_deriv (by simp only [combine, h2.1.symm]; ring)
    · exact hp.vertical.congr_deriv (by simp only [combine, h3.1.symm]; ring)

/-- Where the mode functions are zero there is no perturbation. -/
theorem no_perturbation {d : Mhd.Data} {includemode : Int} {bz : Boozer.Data} {b : Bfield.Data} {r phi z t : ℝ} {j : Jac} (hr : r ≠ 0)
    (hm : Mhd.eval d includemode bz b r phi z t = some (.ok .zero)) (hj : evalBdB b r phi z = some (j, 0)) :
    perturbations d true includemode bz b r phi z t = some (.ok ⟨⟨0, 0, 0⟩, ⟨0, 0, 0⟩, 0⟩) ∧
    perturbations d false includemode bz b r phi z t = some (.ok ⟨⟨j.a.v, j.b.v, j.c.v⟩, ⟨0, 0, 0⟩, 0⟩) := by
  cases d with
  | unknown => exact absurd hm (by simp [Mhd.eval])
  | stat l => simp [perturbations, hm, hj, hr, combine, Dmhd.zero, Part.zero, V3.cross]
  | nonstat l => simp [perturbations, hm, hj, hr, combine, Dmhd.zero, Part.zero, V3.cross]

/-- Errors of the Boozer coordinates and of the magnetic field are passed on, and input of unknown type is an error. -/
theorem errors {d : Mhd.Data} {includemode : Int} {bz : Boozer.Data} {b : Bfield.Data} {r phi z t : ℝ} {pertonly : Bool} :
    (∀ e, Boozer.eval bz b r phi z = some (.error e) → d ≠ .unknown → Mhd.eval d includemode bz b r phi z t = some (.error e) ∧
      perturbations d pertonly includemode bz b r phi z t = some (.error e)) ∧
    (∀ m j e, Mhd.eval d includemode bz b r phi z t = some (.ok m) → evalBdB b r phi z = some (j, e) → e ≠ 0 →
      perturbations d pertonly includemode bz b r phi z t = some (.error e)) ∧
    ∃ e e', Mhd.eval .unknown includemode bz b r phi z t = some (.error e) ∧
      perturbations .unknown pertonly includemode bz b r phi z t = some (.error e') ∧ e ≠ 0 ∧ e' ≠ 0 := by
  refine ⟨fun e h hd => ?_, fun m j e h1 h2 h3 => ?_, _, _, rfl, rfl, by decide, by decide⟩
  · cases d with
    | unknown => exact absurd rfl hd
    | stat l => simp [perturbations, Mhd.eval, evalWith, h]
    | nonstat l => simp [perturbations, Mhd.eval, evalWith, h]
  · cases d with
    | unknown => exact absurd h1 (by simp [Mhd.eval])
    | stat l => simp [perturbations, h1, h2, h3]
    | nonstat l => simp [perturbations, h1, h2, h3]

/-! ### The hypotheses can be met -/

example : ∃ p, Boozer.eval C107.plain C106.wedge (1 / 4) 0 (1 / 2) = some (.ok (some p)) ∧
    evalRho C106.wedge p.psi.v = (some (1 / 2), some 1, 0) := by
  refine ⟨_, (C107.inside _ _ _ _ _ _).2 ⟨_, _, _, _, _, C107.plain_defined, rfl⟩, ?_⟩
  have hs : Real.sqrt (1 / 4) = 1 / 2 := by
    rw [show (1 / 4 : ℝ) = (1 / 2) ^ 2 by norm_num, Real.sqrt_sq (by norm_num)]
  show evalRho C106.wedge (1 / 4) = _
  unfold evalRho
  simp only [limits, C106.wedge]
  norm_num [hs]

example : HasProfile statProf Mode.alpha (fun _ y _ => y) (1 / 2) 0 ⟨1, 2, 1, 1, 0, fun x => some (x, 1), fun x => some (x, 1)⟩ :=
  ⟨_, rfl, rfl, hasDerivAt_id _, hasDerivAt_const _ _⟩

end Ascot.C108
