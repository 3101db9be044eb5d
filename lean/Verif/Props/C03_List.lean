import Verif.Lemmas.ListInt

/-!
# C03: the integer list is a sequence and is freed exactly once

`h0` is the memory before the list is created, `a0` the address of the first
node, `ops` the inserted values together with the addresses returned by
`malloc`.  The only hypotheses are that `malloc` returned distinct free
addresses and that the loops get enough fuel.
-/
namespace Ascot.C03
open Ascot.ListInt

/-- No operation of the history is undefined, the size is the number of
insertions, position `k` holds the `k`-th inserted value, memory outside the
list is not touched, and freeing gives back exactly the memory before creation
(every node released once, nothing else released) and nulls the handle. -/
theorem list_is_sequence (h0 : Heap) (a0 : Addr) (ops : List (Int × Addr)) (fuel : Nat)
    (hdistinct : (a0 :: ops.map (·.2)).Nodup)
    (hfree : ∀ b ∈ a0 :: ops.map (·.2), h0 b = none)
    (hfuel : ops.length < fuel) :
    ∃ h1 h2, create h0 a0 = some h1 ∧ addAll fuel a0 h1 ops = some h2 ∧
      size fuel h2 a0 = some ops.length ∧
      (∀ k (hk : k < ops.length), get h2 k a0 = some ops[k].1) ∧
      (∀ b, b ∉ a0 :: ops.map (·.2) → h2 b = h0 b) ∧
      freeList fuel h2 a0 = some (h0, none) := by
  have hc : create h0 a0 = some ((h0.set a0 (some ⟨none, none⟩)).set a0 (some ⟨some 0, none⟩)) := by
    simp [create, malloc, hfree a0 (by simp)]
  set h1 := (h0.set a0 (some ⟨none, none⟩)).set a0 (some ⟨some 0, none⟩) with hh1
  have hne : ∀ b, b ≠ a0 → h1 b = h0 b := by intro b hb; simp [hh1, Heap.set, hb]
  have c1 : Chain h1 a0 [] [a0] := .nil (d := some 0) (by simp [hh1, Heap.set])
  rw [List.nodup_cons] at hdistinct
  obtain ⟨h2, e2, c2, f2⟩ := addAll_chain a0 fuel ops h1 [] [a0] c1 (by
      intro p hp
      have hpm := List.mem_map_of_mem (f := fun p : Int × Addr => p.2) hp
      rw [hne _ (fun q => hdistinct.1 (q ▸ hpm))]
      exact hfree _ (List.mem_cons_of_mem _ hpm)) hdistinct.2 (by simp; omega)
  simp only [List.nil_append, List.singleton_append] at c2 f2
  have hout : ∀ b, b ∉ a0 :: ops.map (·.2) → h2 b = h0 b := by
    intro b hb
    rw [f2 b hb, hne b (fun q => hb (by simp [q]))]
  refine ⟨h1, h2, hc, e2, ?_, ?_, hout, ?_⟩
  · unfold size; rw [walk_chain c2 fuel 0 (by simpa using hfuel)]; simp
  · intro k hk
    rw [get_chain c2 k (by simpa using hk)]; simp
  · rw [freeList_chain c2 fuel (by simpa using hfuel)]
    simp only [Option.some.injEq, Prod.mk.injEq, and_true]
    funext b
    by_cases hb : b ∈ a0 :: ops.map (·.2)
    · rw [if_pos hb, hfree b hb]
    · rw [if_neg hb, hout b hb]

/-- The hypotheses are met, for instance, with an empty memory and three insertions. -/
example : ∃ h1 h2, create (fun _ => none) 10 = some h1 ∧
    addAll 9 10 h1 [(5, 3), (-7, 4), (5, 8)] = some h2 ∧ size 9 h2 10 = some 3 ∧
    get h2 1 10 = some (-7) := by
  obtain ⟨h1, h2, a, b, c, d, _⟩ := list_is_sequence (fun _ => none) 10
    [(5, 3), (-7, 4), (5, 8)] 9 (by decide) (by intros; rfl) (by decide)
  exact ⟨h1, h2, a, b, c, d 1 (by decide)⟩

end Ascot.C03
