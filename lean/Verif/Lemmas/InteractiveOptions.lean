import Verif.Model.InteractiveOptions
import Verif.Lemmas.Options
import Verif.Props.C119_Planes

/-! Helper lemmas about the options of interactive runs. -/

set_option linter.unusedSectionVars false
set_option linter.unusedSimpArgs false

namespace Ascot.InteractiveOptions
open Ascot.Options

theorem get_ok {d : Dict} {n : String} {v : Val} : get d n = .ok v ↔ d n = some v := by
  unfold get
  cases d n with
  | none => simp
  | some w => simp

/-- A number that is stored is the number of the data set. -/
theorem real_ok {d : Dict} {n : String} {x : ℝ} (h : real d n = .ok x) : written d n = some [x] := by
  unfold real at h
  rw [bind_ok] at h
  obtain ⟨v, hv, h⟩ := h
  rw [get_ok] at hv
  unfold written
  rw [hv]
  match v, h with
  | .int k, h => rw [pure_ok] at h; subst h; rfl
  | .float y, h => rw [pure_ok] at h; subst h; rfl
  | .array [y], h => rw [pure_ok] at h; subst h; rfl
  | .list _, h => cases h
  | .array [], h => cases h
  | .array (_ :: _ :: _), h => cases h

theorem real_eq {d : Dict} {n : String} {x y : ℝ} (h : real d n = .ok x) (h' : scalar (written d) n = .ok y) : x = y := by
  rw [scalar_ok, real_ok h] at h'
  simpa using h'

theorem wrap_id {k : ℤ} (h1 : -2147483648 ≤ k) (h2 : k ≤ 2147483647) : wrap k = k := by
  unfold wrap
  rw [Int.bmod_eq_of_le] <;> norm_num <;> omega

theorem int_eq {d : Dict} {n : String} {a b : ℤ} (h : int d n = .ok a) (h' : Options.int (written d) n = .ok b) : a = b := by
  unfold int at h
  rw [bind_ok] at h
  obtain ⟨x, hx, h⟩ := h
  rw [pure_ok] at h
  obtain ⟨y, hy, hb⟩ := int_ok.mp h'
  rw [real_ok hx] at hy
  injection hy with hy
  injection hy with hy
  subst hy
  obtain ⟨e, r1, r2⟩ := toInt_ok hb
  rw [← h]
  have : trunc x = b := e.symm
  rw [this]
  exact wrap_id r1 r2

theorem bare_eq {d : Dict} {n : String} {a b : ℤ} (h : bare d n = .ok a) (h' : Options.int (written d) n = .ok b) : a = b := by
  unfold bare at h
  rw [bind_ok] at h
  obtain ⟨v, hv, h⟩ := h
  rw [get_ok] at hv
  match v, h with
  | .int k, h =>
    rw [pure_ok] at h
    have hw : written d n = some [(k : ℝ)] := by unfold written; rw [hv]; rfl
    have hb := (int_from h').2 k hw
    obtain ⟨x, -, hx⟩ := int_ok.mp h'
    obtain ⟨-, r1, r2⟩ := toInt_ok hx
    subst hb
    rw [← h]
    exact wrap_id r1 r2
  | .float _, h => cases h
  | .list _, h => cases h
  | .array _, h => cases h

/-- A switch that holds a count is on in both readers or in neither. -/
theorem truth_eq {d : Dict} {n : String} {b : Bool} {e : ℤ} {k : ℕ} (hk : d n = some (.int k)) (h : truth d n = .ok b)
    (h' : Options.int (written d) n = .ok e) (flag a : ℕ) : on flag b a = a ||| bit flag e := by
  unfold truth at h
  rw [bind_ok] at h
  obtain ⟨v, hv, h⟩ := h
  rw [get_ok, hk] at hv
  injection hv with hv
  subst hv
  rw [pure_ok] at h
  have hw : written d n = some [((k : ℤ) : ℝ)] := by unfold written; rw [hk]; rfl
  have hb := (int_from h').2 k hw
  subst hb h
  unfold on bit
  rcases Nat.eq_zero_or_pos k with h0 | h0
  · subst h0; simp
  · have : (k : ℤ) > 0 := by exact_mod_cast h0
    have h1 : (k : ℤ) ≠ 0 := by omega
    simp [this, h1]
    rw [if_neg (by omega), if_pos h0]

theorem axis_eq {d : Dict} {s : String} {a b : Axis} (h : axis d s = .ok a) (h' : Options.axis (written d) s = .ok b) : a = b := by
  simp only [axis, Options.axis, bind_ok, pure_ok] at h h'
  obtain ⟨_, h1, _, h2, _, h3, rfl⟩ := h
  obtain ⟨_, g1, _, g2, _, g3, rfl⟩ := h'
  rw [real_eq h1 g1, real_eq h2 g2, bare_eq h3 g3]

theorem axisDeg_eq {d : Dict} {s : String} {a b : Axis} (h : axisDeg d s = .ok a)
    (h' : Options.axisDeg (written d) s = .ok b) : a = b := by
  simp only [axisDeg, Options.axisDeg, bind_ok, pure_ok] at h h'
  obtain ⟨_, h1, rfl⟩ := h
  obtain ⟨_, g1, rfl⟩ := h'
  rw [axis_eq h1 g1]
  simp only [deg2rad, mul_div_assoc]

theorem planeList_ok {d : Dict} {n : String} {xs ys : List ℝ} (hd : d n = some (.list xs)) (h : planeList d n = .ok ys) : ys = xs := by
  unfold planeList at h
  rw [bind_ok] at h
  obtain ⟨v, hv, h⟩ := h
  rw [get_ok, hd] at hv
  injection hv with hv
  subst hv
  dsimp only at h
  split at h
  · rw [pure_ok] at h; exact h.symm
  · cases h

/-- The blocks of a successful call. -/
theorem blocks {eV : ℝ} {d : Dict} {s : Stored} (h : initOptions eV d = .ok s) :
    mode d = .ok s.mode ∧ steps d = .ok s.steps ∧ physics d = .ok s.physics ∧ active d = .ok s.active ∧
    limits eV d = .ok s.limits ∧ collect d = .ok s.collect ∧ orb d (orbRecord s.mode) = .ok s.orb ∧ dist5 d = .ok s.dist5 := by
  unfold initOptions at h
  simp only [bind_ok, pure_ok] at h
  obtain ⟨a, ha, b, hb, c, hc, e, he, g, hg, i, hi, j, hj, k, hk, rfl⟩ := h
  exact ⟨ha, hb, hc, he, hg, hi, hj, hk⟩

end Ascot.InteractiveOptions
