import Verif.Model.MhdPotentials
import Mathlib.Tactic.Ring
import Mathlib.Tactic.FieldSimp
import Mathlib.Tactic.Linarith
import Mathlib.Tactic.NormNum

/-!
# C180: the potentials of MHD modes can be made consistent with a vanishing parallel electric field

The documented relation is `alpha * omega = Phi * sign * (n*q - m) / (I + g*q)`, at every radius and for every mode.
-/
set_option linter.unusedSectionVars false
set_option linter.unusedSimpArgs false

namespace Ascot.C180
open Ascot.MhdPotentials

/-- The radii: equally spaced, the ends included. -/
noncomputable def radius (d : Data) (j : ℕ) : ℝ := d.rhomin + (d.rhomax - d.rhomin) * j / ((d.nrho : ℝ) - 1)

/-- The documented relation holds, between numbers, at radius `j` for mode `i`. -/
def RelationAt (sign : ℝ) (p : Profiles) (d : Data) (j i : ℕ) : Prop :=
  ∃ a f : ℝ, d.alpha j i = some a ∧ d.phi j i = some f ∧
    a * d.omega i = f * sign * (d.nmodes i * p.q (radius d j) - d.mmodes i) /
      (p.I (radius d j) + p.g (radius d j) * p.q (radius d j))

theorem node_eq (d : Data) (j : ℕ) : node d j = radius d j := by
  unfold node radius; ring

theorem rows_get (n : ℕ) (f : ℕ → ℕ → Option ℝ) (i j : ℕ) : rows n f i j = if i < n then f i j else some 0 := by
  induction n with
  | zero => simp [rows]
  | succ m ih =>
    unfold rows at ih ⊢
    rw [List.range_succ, List.foldl_append, List.foldl_cons, List.foldl_nil]
    by_cases h : i = m
    · subst h; simp
    · rw [if_neg h, ih]
      by_cases h2 : i < m
      · rw [if_pos h2, if_pos (by omega)]
      · rw [if_neg h2, if_neg (by omega)]

/-! ## Which of the two is changed -/

/-- Only the two names are taken. -/
theorem refused (w : String) (p : Profiles) (d : Data) : consistent w p d = none ↔ w ≠ "Phi" ∧ w ≠ "alpha" := by
  unfold consistent
  by_cases h : w = "Phi"
  · subst h; simp
  · by_cases h2 : w = "alpha"
    · subst h2; simp
    · simp [h, h2]

example : ∃ w : String, w ≠ "Phi" ∧ w ≠ "alpha" := ⟨"phi", by decide, by decide⟩

/-- With "Phi" all but the electric potential is kept. -/
theorem phi_keeps (p : Profiles) (d : Data) :
    ∃ d', consistent "Phi" p d = some ("MHD_STAT", d') ∧ { d' with phi := d.phi } = d := by
  refine ⟨{ d with phi := fun j i => rows d.nmode (phiOf p d) i j }, ?_, rfl⟩
  simp [consistent]

/-- With "alpha" all but the magnetic potential is kept. -/
theorem alpha_keeps (p : Profiles) (d : Data) :
    ∃ d', consistent "alpha" p d = some ("MHD_STAT", d') ∧ { d' with alpha := d.alpha } = d := by
  refine ⟨{ d with alpha := fun j i => rows d.nmode (alphaOf p d) i j }, ?_, rfl⟩
  simp [consistent]

theorem phi_get (p : Profiles) (d d' : Data) (t : String) (h : consistent "Phi" p d = some (t, d')) :
    d' = { d with phi := d'.phi } ∧ ∀ j i, i < d.nmode → d'.phi j i = phiOf p d i j := by
  simp only [consistent, List.mem_cons, true_or, not_true, if_false, if_true, Option.some.injEq, Prod.mk.injEq] at h
  obtain ⟨-, rfl⟩ := h
  refine ⟨rfl, fun j i hi => ?_⟩
  simp only [rows_get, if_pos hi]

theorem alpha_get (p : Profiles) (d d' : Data) (t : String) (h : consistent "alpha" p d = some (t, d')) :
    d' = { d with alpha := d'.alpha } ∧ ∀ j i, i < d.nmode → d'.alpha j i = alphaOf p d i j := by
  have e : ¬ ("alpha" = "Phi") := by decide
  simp only [consistent, List.mem_cons, true_or, or_true, not_true, if_false, if_neg e, Option.some.injEq,
    Prod.mk.injEq] at h
  obtain ⟨-, rfl⟩ := h
  refine ⟨rfl, fun j i hi => ?_⟩
  simp only [rows_get, if_pos hi]

/-! ## The relation -/

/-- With "Phi" the relation with sign one holds afterwards wherever the mode is not resonant.  Missing: resonant radii
(`resonant_violation`) and the other sign (`sign_violation`). -/
theorem phi_partial (p : Profiles) (d d' : Data) (t : String) (h : consistent "Phi" p d = some (t, d')) (j i : ℕ)
    (hi : i < d.nmode) (a : ℝ) (ha : d.alpha j i = some a)
    (hr : (d.nmodes i : ℝ) * p.q (radius d j) ≠ d.mmodes i)
    (hj : p.I (radius d j) + p.g (radius d j) * p.q (radius d j) ≠ 0) : RelationAt 1 p d' j i := by
  obtain ⟨e, hf⟩ := phi_get p d d' t h
  have hf := hf j i hi
  have hr' : (d.nmodes i : ℝ) * p.q (radius d j) - d.mmodes i ≠ 0 := sub_ne_zero.mpr hr
  simp only [phiOf, div, node_eq, if_neg hr', ha, Option.bind_some, Option.map_some] at hf
  refine ⟨a, _, ?_, hf, ?_⟩
  · rw [e]; exact ha
  · rw [e]
    show a * d.omega i = _ * 1 * (d.nmodes i * p.q (radius d j) - d.mmodes i) /
      (p.I (radius d j) + p.g (radius d j) * p.q (radius d j))
    rw [show p.g (radius d j) * p.q (radius d j) + p.I (radius d j) =
      p.I (radius d j) + p.g (radius d j) * p.q (radius d j) by ring]
    generalize (d.nmodes i : ℝ) * p.q (radius d j) - d.mmodes i = u at *
    generalize p.I (radius d j) + p.g (radius d j) * p.q (radius d j) = v at *
    field_simp

/-- With "alpha" the relation with sign one holds afterwards for modes with a frequency, resonant or not.  Missing: modes at
rest (`rest_violation`) and the other sign. -/
theorem alpha_partial (p : Profiles) (d d' : Data) (t : String) (h : consistent "alpha" p d = some (t, d')) (j i : ℕ)
    (hi : i < d.nmode) (f : ℝ) (hp : d.phi j i = some f) (ho : d.omega i ≠ 0)
    (hj : p.I (radius d j) + p.g (radius d j) * p.q (radius d j) ≠ 0) : RelationAt 1 p d' j i := by
  obtain ⟨e, hf⟩ := alpha_get p d d' t h
  have hf := hf j i hi
  have hj' : p.g (radius d j) * p.q (radius d j) + p.I (radius d j) ≠ 0 := by rwa [add_comm]
  simp only [alphaOf, div, node_eq, if_neg hj', if_neg ho, hp, Option.bind_some] at hf
  refine ⟨_, f, hf, ?_, ?_⟩
  · rw [e]; exact hp
  · rw [e]
    show _ * d.omega i = f * 1 * (d.nmodes i * p.q (radius d j) - d.mmodes i) /
      (p.I (radius d j) + p.g (radius d j) * p.q (radius d j))
    rw [show p.g (radius d j) * p.q (radius d j) + p.I (radius d j) =
      p.I (radius d j) + p.g (radius d j) * p.q (radius d j) by ring]
    generalize (d.nmodes i : ℝ) * p.q (radius d j) - d.mmodes i = u at *
    generalize p.I (radius d j) + p.g (radius d j) * p.q (radius d j) = v at *
    field_simp

/-- One mode with numbers 2 and 3 and frequency 5 at three radii; q goes from 1 to 2. -/
noncomputable def exP : Profiles := ⟨fun r => 1 + r, fun _ => 0, fun _ => 4⟩
noncomputable def exD : Data := ⟨1, 3, 0, 1, fun _ => 2, fun _ => 3, fun _ => 1, fun _ => 5, fun _ => 0, fun _ _ => some 7,
  fun _ _ => some 6⟩

example : ∃ d', consistent "Phi" exP exD = some ("MHD_STAT", d') ∧ RelationAt 1 exP d' 2 0 := by
  obtain ⟨d', h, -⟩ := phi_keeps exP exD
  refine ⟨d', h, phi_partial exP exD d' _ h 2 0 (by simp [exD]) 7 rfl ?_ ?_⟩ <;> norm_num [exP, exD, radius]

example : ∃ d', consistent "alpha" exP exD = some ("MHD_STAT", d') ∧ RelationAt 1 exP d' 1 0 := by
  obtain ⟨d', h, -⟩ := alpha_keeps exP exD
  refine ⟨d', h, alpha_partial exP exD d' _ h 1 0 (by simp [exD]) 6 rfl ?_ ?_⟩ <;> norm_num [exP, exD, radius]

/-- Adjusting the magnetic potential to the electric potential that was adjusted to it gives back what it was. -/
theorem round_trip (p : Profiles) (d d1 d2 : Data) (t1 t2 : String) (h1 : consistent "Phi" p d = some (t1, d1))
    (h2 : consistent "alpha" p d1 = some (t2, d2)) (j i : ℕ) (hi : i < d.nmode) (a : ℝ) (ha : d.alpha j i = some a)
    (hr : (d.nmodes i : ℝ) * p.q (radius d j) ≠ d.mmodes i) (ho : d.omega i ≠ 0)
    (hj : p.I (radius d j) + p.g (radius d j) * p.q (radius d j) ≠ 0) : d2.alpha j i = some a := by
  obtain ⟨e, hf⟩ := phi_get p d d1 t1 h1
  have hf := hf j i hi
  have hr' : (d.nmodes i : ℝ) * p.q (radius d j) - d.mmodes i ≠ 0 := sub_ne_zero.mpr hr
  have hj' : p.g (radius d j) * p.q (radius d j) + p.I (radius d j) ≠ 0 := by rwa [add_comm]
  simp only [phiOf, div, node_eq, if_neg hr', ha, Option.bind_some, Option.map_some] at hf
  obtain ⟨-, hg⟩ := alpha_get p d1 d2 t2 h2
  have en : d1.nmode = d.nmode := by rw [e]
  have hg := hg j i (by rw [en]; exact hi)
  have e1 : d1.nmodes = d.nmodes := by rw [e]
  have e2 : d1.mmodes = d.mmodes := by rw [e]
  have e3 : d1.omega = d.omega := by rw [e]
  have e4 : radius d1 j = radius d j := by rw [e]; rfl
  simp only [alphaOf, div, node_eq, e1, e2, e3, e4, if_neg hj', if_neg ho, hf, Option.bind_some] at hg
  rw [hg]
  congr 1
  generalize (d.nmodes i : ℝ) * p.q (radius d j) - d.mmodes i = u at *
  generalize p.g (radius d j) * p.q (radius d j) + p.I (radius d j) = v at *
  field_simp

example : ∃ d1 d2, consistent "Phi" exP exD = some ("MHD_STAT", d1) ∧ consistent "alpha" exP d1 = some ("MHD_STAT", d2) ∧
    d2.alpha 2 0 = some 7 := by
  obtain ⟨d1, h1, -⟩ := phi_keeps exP exD
  obtain ⟨d2, h2, -⟩ := alpha_keeps exP d1
  refine ⟨d1, d2, h1, h2, round_trip exP exD d1 d2 _ _ h1 h2 2 0 (by simp [exD]) 7 rfl ?_ ?_ ?_⟩ <;>
    norm_num [exP, exD, radius]

/-! ## Findings -/

/-- At a radius where the mode is resonant the electric potential is not a number, whatever the magnetic potential is. -/
theorem resonant (p : Profiles) (d d' : Data) (t : String) (h : consistent "Phi" p d = some (t, d')) (j i : ℕ)
    (hi : i < d.nmode) (hr : (d.nmodes i : ℝ) * p.q (radius d j) = d.mmodes i) : d'.phi j i = none := by
  rw [(phi_get p d d' t h).2 j i hi]
  simp [phiOf, div, node_eq, hr]

/-- So the relation fails there, also for a magnetic potential of zero, which every electric potential would suit. -/
theorem resonant_violation : ∃ (p : Profiles) (d d' : Data), consistent "Phi" p d = some ("MHD_STAT", d') ∧
    (∀ f, RelationAt 1 p { d with phi := fun _ _ => some f } 1 0) ∧ ¬ RelationAt 1 p d' 1 0 := by
  obtain ⟨d', h, -⟩ := phi_keeps exP { exD with alpha := fun _ _ => some 0 }
  refine ⟨exP, { exD with alpha := fun _ _ => some 0 }, d', h, fun f => ⟨0, f, rfl, rfl, ?_⟩, ?_⟩
  · norm_num [exP, exD, radius]
  · rintro ⟨_, f, -, hf, -⟩
    rw [resonant exP _ d' _ h 1 0 (by simp [exD]) (by norm_num [exP, exD, radius])] at hf
    cases hf

/-- A mode at rest gets a magnetic potential that is not a number, also where the electric potential is zero. -/
theorem rest (p : Profiles) (d d' : Data) (t : String) (h : consistent "alpha" p d = some (t, d')) (j i : ℕ)
    (hi : i < d.nmode) (ho : d.omega i = 0) : d'.alpha j i = none := by
  rw [(alpha_get p d d' t h).2 j i hi]
  simp only [alphaOf, div, ho, if_true]
  split_ifs
  · rfl
  · cases d.phi j i <;> rfl

theorem rest_violation : ∃ (p : Profiles) (d d' : Data), consistent "alpha" p d = some ("MHD_STAT", d') ∧
    RelationAt 1 p d 2 0 ∧ ¬ RelationAt 1 p d' 2 0 := by
  obtain ⟨d', h, -⟩ := alpha_keeps exP { exD with omega := fun _ => 0, phi := fun _ _ => some 0 }
  refine ⟨exP, _, d', h, ⟨7, 0, rfl, rfl, ?_⟩, ?_⟩
  · norm_num
  · rintro ⟨a, _, ha, -, -⟩
    rw [rest exP _ d' _ h 2 0 (by simp [exD]) rfl] at ha
    cases ha

/-- The sign of the documented relation is left out: where the coordinates ask for the other sign, no potential but zero
fulfils the relation afterwards. -/
theorem sign_violation (p : Profiles) (d d' : Data) (t : String) (h : consistent "Phi" p d = some (t, d')) (j i : ℕ)
    (hi : i < d.nmode) (a : ℝ) (ha : d.alpha j i = some a) (hn : a * d.omega i ≠ 0)
    (hr : (d.nmodes i : ℝ) * p.q (radius d j) ≠ d.mmodes i)
    (hj : p.I (radius d j) + p.g (radius d j) * p.q (radius d j) ≠ 0) : ¬ RelationAt (-1) p d' j i := by
  rintro ⟨a2, f2, ha2, hf2, h2⟩
  obtain ⟨a1, f1, ha1, hf1, h1⟩ := phi_partial p d d' t h j i hi a ha hr hj
  obtain ⟨e, -⟩ := phi_get p d d' t h
  rw [ha1] at ha2
  rw [hf1] at hf2
  cases ha2
  cases hf2
  have e3 : d'.omega = d.omega := by rw [e]
  have e4 : d'.alpha = d.alpha := by rw [e]
  rw [e4, ha] at ha1
  cases ha1
  rw [e3] at h1 h2
  apply hn
  have : f2 * (-1) * (d'.nmodes i * p.q (radius d' j) - d'.mmodes i) /
      (p.I (radius d' j) + p.g (radius d' j) * p.q (radius d' j)) = -(a * d.omega i) := by rw [h1]; ring
  linarith

example : ∃ d', consistent "Phi" exP exD = some ("MHD_STAT", d') ∧ ¬ RelationAt (-1) exP d' 2 0 := by
  obtain ⟨d', h, -⟩ := phi_keeps exP exD
  refine ⟨d', h, sign_violation exP exD d' _ h 2 0 (by simp [exD]) 7 rfl ?_ ?_ ?_⟩ <;> norm_num [exP, exD, radius]

end Ascot.C180
