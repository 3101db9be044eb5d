import Verif.Spec.OutputDoc
import Verif.Lemmas.MarkerFile
import Mathlib.Tactic.Positivity
import Mathlib.Tactic.FieldSimp
import Mathlib.Tactic.Ring

/-!
# Lemmas about writing data sets
-/

set_option linter.unusedSectionVars false
set_option linter.unusedSimpArgs false

namespace Ascot.Output
open Ascot.Options (Res)

theorem put_other (g : Group) (n u : String) (c : Col) (x : String) (h : x ≠ n) :
    put g n u c x = g x := by
  unfold put
  have h1 : create g n c x = g x := by
    unfold create; split_ifs
    · rfl
    · simp [h]
  unfold setUnit
  cases create g n c n with
  | none => exact h1
  | some d => simp [h, h1]

theorem put_new (g : Group) (n u : String) (c : Col) (h : g n = none) (hc : c.length ≠ 0) :
    put g n u c n = some ⟨c, some u⟩ := by
  unfold put
  have h1 : create g n c n = some ⟨c, none⟩ := by
    unfold create; rw [if_neg (by simp [h, hc])]; simp
  unfold setUnit
  rw [h1]; simp

theorem put_empty (g : Group) (n u : String) (c : Col) (h : g n = none) (hc : c.length = 0) :
    put g n u c = g := by
  unfold put
  have h1 : create g n c = g := by unfold create; rw [if_pos (Or.inl hc)]
  unfold setUnit
  rw [h1, h]

/-- Data sets written one after another. -/
def puts (l : List (String × String × Col)) (g : Group) : Group :=
  l.foldl (fun g s => put g s.1 s.2.1 s.2.2) g

theorem puts_other (l : List (String × String × Col)) (g : Group) (x : String)
    (h : x ∉ l.map Prod.fst) : puts l g x = g x := by
  induction l generalizing g with
  | nil => rfl
  | cons s l ih =>
    simp only [List.map_cons, List.mem_cons, not_or] at h
    show puts l (put g s.1 s.2.1 s.2.2) x = g x
    rw [ih _ h.2, put_other _ _ _ _ _ h.1]

theorem puts_mem (l : List (String × String × Col)) (g : Group) (hn : (l.map Prod.fst).Nodup)
    (hg : ∀ s ∈ l, g s.1 = none) (hc : ∀ s ∈ l, s.2.2.length ≠ 0) (s : String × String × Col)
    (hs : s ∈ l) : puts l g s.1 = some ⟨s.2.2, some s.2.1⟩ := by
  induction l generalizing g with
  | nil => cases hs
  | cons t l ih =>
    simp only [List.map_cons, List.nodup_cons] at hn
    show puts l (put g t.1 t.2.1 t.2.2) s.1 = _
    rcases List.mem_cons.mp hs with rfl | hs'
    · rw [puts_other _ _ _ hn.1, put_new _ _ _ _ (hg _ (by simp)) (hc _ (by simp))]
    · refine ih _ hn.2 ?_ (fun x hx => hc x (by simp [hx])) hs'
      intro x hx
      rw [put_other _ _ _ _ _ ?_]
      · exact hg x (by simp [hx])
      · intro e
        exact hn.1 (e ▸ List.mem_map_of_mem hx)

theorem puts_empty (l : List (String × String × Col)) (g : Group)
    (hg : ∀ s ∈ l, g s.1 = none) (hc : ∀ s ∈ l, s.2.2.length = 0) : puts l g = g := by
  induction l generalizing g with
  | nil => rfl
  | cons t l ih =>
    show puts l (put g t.1 t.2.1 t.2.2) = _
    rw [put_empty _ _ _ _ (hg _ (by simp)) (hc _ (by simp))]
    exact ih _ (fun x hx => hg x (by simp [hx])) (fun x hx => hc x (by simp [hx]))

theorem mapRes_ok {α β : Type} (f : α → Res β) (l : List α) (h : α → β)
    (hf : ∀ a ∈ l, f a = .ok (h a)) : mapRes f l = .ok (l.map h) := by
  induction l with
  | nil => rfl
  | cons a l ih =>
    unfold mapRes
    rw [hf a (by simp), ih fun b hb => hf b (by simp [hb])]
    rfl

theorem toInt32_int (k : ℤ) (h : |k| ≤ 2147483647) : toInt32 (k : ℝ) = .ok k := by
  unfold toInt32
  have : (if (0 : ℝ) ≤ (k : ℝ) then ⌊(k : ℝ)⌋ else ⌈(k : ℝ)⌉) = k := by simp
  simp only [this]
  rw [abs_le] at h
  rw [if_pos ⟨by omega, h.2⟩]

theorem toInt64_int (k : ℤ) (h : |k| ≤ 2147483647) : toInt64 (k : ℝ) = .ok k := by
  unfold toInt64
  have : (if (0 : ℝ) ≤ (k : ℝ) then ⌊(k : ℝ)⌋ else ⌈(k : ℝ)⌉) = k := by simp
  simp only [this]
  rw [abs_le] at h
  rw [if_pos ⟨by omega, by omega⟩]

end Ascot.Output
