import Verif.Model.MarkerFile
import Verif.Lemmas.Options

/-! Helper lemmas about reading marker files. -/

set_option linter.unusedSectionVars false
set_option linter.unusedSimpArgs false

namespace Ascot.MarkerFile
open Ascot.Options

theorem column {α : Type} {n : ℕ} {xs : List α} {f : Fin n → α} :
    (if h : xs.length = n then Res.ok (fun i : Fin n => xs.get (i.cast h.symm)) else .ub) = .ok f ↔
      xs = List.ofFn f := by
  constructor
  · intro h
    split at h
    · rename_i hn
      subst hn
      injection h with h
      rw [← h]
      simp
    · cases h
  · rintro rfl
    rw [dif_pos (List.length_ofFn)]
    congr 1
    funext i
    simp

theorem readReals_ok {g : Group} {name : String} {n : ℕ} {f : Fin n → ℝ} :
    readReals g name n = .ok f ↔ g.reals name = some (List.ofFn f) := by
  unfold readReals
  split
  · rename_i h; simp [h]
  · rename_i xs h; rw [column, h, Option.some_inj]

theorem readInts_ok {g : Group} {name : String} {n : ℕ} {f : Fin n → ℤ} :
    readInts g name n = .ok f ↔ g.ints name = some (List.ofFn f) := by
  unfold readInts
  split
  · rename_i h; simp [h]
  · rename_i xs h; rw [column, h, Option.some_inj]

theorem readN_ok {g : Group} {n : ℕ} :
    readN g = .ok n ↔ g.ints "n" = some [(n : ℤ)] ∧ n ≤ 2147483647 := by
  unfold readN
  split
  · rename_i h; simp [h]
  · rename_i k h
    rw [h]
    by_cases hk : 0 ≤ k ∧ k ≤ 2147483647
    · rw [if_pos hk]
      constructor
      · intro h; injection h with h; subst h
        constructor
        · rw [Int.toNat_of_nonneg hk.1]
        · omega
      · rintro ⟨h, -⟩
        injection h with h
        injection h with h
        congr 1
        omega
    · rw [if_neg hk]
      constructor
      · intro h; cases h
      · rintro ⟨h, h2⟩
        injection h with h
        injection h with h
        omega
  · rename_i xs hne h
    rw [h]
    constructor
    · intro h; cases h
    · rintro ⟨h, -⟩
      injection h with h
      exact absurd h (hne _)

theorem c_pos : 0 < cLight := by unfold cLight; norm_num
theorem e_pos : 0 < eCharge := by unfold eCharge; norm_num
theorem u_pos : 0 < amu := by unfold amu; norm_num

theorem cRound_int (k : ℤ) : cRound (k : ℝ) = k := by
  unfold cRound
  split
  · rw [Int.floor_eq_iff]; constructor <;> linarith
  · rw [Int.ceil_eq_iff]; constructor <;> linarith

end Ascot.MarkerFile
