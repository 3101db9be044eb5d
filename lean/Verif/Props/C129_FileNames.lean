import Verif.Model.RunFile
import Mathlib.Data.List.Basic
import Mathlib.Tactic.Tauto

/-!
# C129: names of the input and the output file

The names may be given with or without the extension `.h5`, and need not be given at all.
-/
namespace Ascot.C129
open Ascot.RunFile

/-- A name that has the extension already. -/
def HasExt (s : List Char) : Prop := ∃ x, x ≠ [] ∧ s = x ++ ".h5".toList

/-- The file an argument stands for. -/
def Names (s f : List Char) : Prop :=
  (HasExt s ∧ f = s) ∨ (¬ HasExt s ∧ f = s ++ ".h5".toList)

theorem strip_ext (x : List Char) (hx : x ≠ []) : strip (x ++ ".h5".toList) = x := by
  have hl : 0 < x.length := List.length_pos_iff.mpr hx
  have he : ".h5".toList = ['.', 'h', '5'] := rfl
  have h3 : (x ++ ['.', 'h', '5']).length - 3 = x.length := by simp
  unfold strip
  rw [he, h3, if_pos ⟨by simp; omega, by simp⟩]
  simp

theorem strip_plain (s : List Char) (h : ¬ HasExt s) : strip s = s := by
  unfold strip
  split_ifs with hc
  · exfalso
    refine h ⟨s.take (s.length - 3), ?_, ?_⟩
    · intro e
      have := congrArg List.length e
      simp only [List.length_take, List.length_nil] at this
      omega
    · conv_lhs => rw [← List.take_append_drop (s.length - 3) s]
      rw [hc.2]; rfl
  · rfl

theorem names_strip (s : List Char) : Names s (strip s ++ ext) := by
  by_cases h : HasExt s
  · obtain ⟨x, hx, rfl⟩ := h
    left
    exact ⟨⟨x, hx, rfl⟩, by rw [strip_ext x hx]; rfl⟩
  · right
    exact ⟨h, by rw [strip_plain s h]; rfl⟩

theorem strip_ne (s : List Char) (h : s ≠ []) : strip s ≠ [] := by
  by_cases hs : HasExt s
  · obtain ⟨x, hx, rfl⟩ := hs
    rw [strip_ext x hx]; exact hx
  · rw [strip_plain s hs]; exact h

theorem names_unique {s f f' : List Char} (h : Names s f) (h' : Names s f') : f = f' := by
  rcases h with ⟨h1, rfl⟩ | ⟨h1, rfl⟩ <;> rcases h' with ⟨h2, rfl⟩ | ⟨h2, rfl⟩ <;> tauto

/-- Each file that is named is the one used; if no input file is named it is `ascot.h5`, and if no
output file is named it is the input file.  An empty name counts as none. -/
theorem files (i o : Option (List Char)) :
    (∀ s, i = some s → s ≠ [] → Names s (fileNames i o).1) ∧
    (i = none ∨ i = some [] → (fileNames i o).1 = "ascot.h5".toList) ∧
    (∀ s, o = some s → s ≠ [] → Names s (fileNames i o).2) ∧
    (o = none ∨ o = some [] → (fileNames i o).2 = (fileNames i o).1) := by
  have h0 : strip [] = [] := rfl
  have hempty : ∀ a : Option (List Char), (a = none ∨ a = some []) → (a.map strip).getD [] = [] := by
    rintro a (rfl | rfl) <;> simp [h0]
  have hi : ∀ a : Option (List Char), (a = none ∨ a = some []) ∨ ∃ s, a = some s ∧ s ≠ [] := by
    intro a
    cases a with
    | none => simp
    | some s =>
      by_cases h : s = []
      · subst h; simp
      · right; exact ⟨s, rfl, h⟩
  have hfull : ∀ s : List Char, ((some s).map strip).getD [] = strip s := fun s => rfl
  rcases hi i with h1 | ⟨s, rfl, hs⟩ <;> rcases hi o with h2 | ⟨t, rfl, ht⟩
  · have e : fileNames i o = ("ascot.h5".toList, "ascot.h5".toList) := by
      simp [fileNames, hempty i h1, hempty o h2]
    rw [e]
    refine ⟨?_, fun _ => rfl, ?_, fun _ => rfl⟩
    · rintro s rfl hs; simp [hs] at h1
    · rintro s rfl hs; simp [hs] at h2
  · have e : fileNames i (some t) = ("ascot.h5".toList, strip t ++ ext) := by
      simp [fileNames, hempty i h1, strip_ne t ht]
    rw [e]
    refine ⟨?_, fun _ => rfl, ?_, ?_⟩
    · rintro s rfl hs; simp [hs] at h1
    · rintro s hs -; cases hs; exact names_strip t
    · rintro (h | h) <;> simp [ht] at h
  · have e : fileNames (some s) o = (strip s ++ ext, strip s ++ ext) := by
      simp [fileNames, hempty o h2, strip_ne s hs]
    rw [e]
    refine ⟨?_, ?_, ?_, fun _ => rfl⟩
    · rintro s' hs' -; cases hs'; exact names_strip s
    · rintro (h | h) <;> simp [hs] at h
    · rintro s rfl hs; simp [hs] at h2
  · have e : fileNames (some s) (some t) = (strip s ++ ext, strip t ++ ext) := by
      simp [fileNames, strip_ne s hs, strip_ne t ht]
    rw [e]
    refine ⟨?_, ?_, ?_, ?_⟩
    · rintro s' hs' -; cases hs'; exact names_strip s
    · rintro (h | h) <;> simp [hs] at h
    · rintro s' hs' -; cases hs'; exact names_strip t
    · rintro (h | h) <;> simp [ht] at h

/-- With or without the extension, it is the same file. -/
theorem same (x : List Char) (hx : x ≠ []) (hn : ¬ HasExt x) (o : Option (List Char)) :
    fileNames (some x) o = fileNames (some (x ++ ".h5".toList)) o ∧
    ∀ i, fileNames i (some x) = fileNames i (some (x ++ ".h5".toList)) := by
  have h : strip x = strip (x ++ ".h5".toList) := by rw [strip_ext x hx, strip_plain x hn]
  constructor
  · simp only [fileNames, Option.map_some, h]
  · intro i; simp only [fileNames, Option.map_some, h]

example : fileNames (some "a".toList) (some "b.h5".toList) = ("a.h5".toList, "b.h5".toList) ∧
    ¬ HasExt "a".toList := by
  refine ⟨by decide, ?_⟩
  rintro ⟨x, hx, h⟩
  have := congrArg List.length h
  simp at this

end Ascot.C129
