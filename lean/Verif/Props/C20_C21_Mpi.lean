import Verif.Lemmas.Mpi

/-!
# C20, C21, C68: division of markers among processes and gathering
-/
namespace Ascot.C20
open Ascot.Mpi

/-- Process `rank` simulates the marker `k`. -/
def Owns (nTot size rank k : Nat) : Prop :=
  (myParticles nTot rank size).1 ≤ k ∧
    k < (myParticles nTot rank size).1 + (myParticles nTot rank size).2

/-- Every marker is simulated by exactly one process. -/
theorem partition (nTot size : Nat) (hs : 0 < size) (k : Nat) (hk : k < nTot) :
    ∃ rank < size, Owns nTot size rank k ∧ ∀ r < size, Owns nTot size r k → r = rank := by
  obtain ⟨rank, h1, h2, h3⟩ := myParticles_cover nTot size hs k hk
  exact ⟨rank, h1, ⟨h2, h3⟩, fun r hr h =>
    myParticles_unique nTot size k r rank hr h1 h.1 h.2 h2 h3⟩

/-- The blocks are consecutive: the first begins at 0, each begins where the previous one
ends, the last ends at the number of markers. -/
theorem consecutive (nTot size : Nat) (hs : 0 < size) :
    (myParticles nTot 0 size).1 = 0 ∧
    (∀ r, r + 1 < size → (myParticles nTot r size).1 + (myParticles nTot r size).2 =
      (myParticles nTot (r + 1) size).1) ∧
    (myParticles nTot (size - 1) size).1 + (myParticles nTot (size - 1) size).2 = nTot := by
  refine ⟨by simp [myParticles], ?_, ?_⟩
  · intro r hr
    rw [myParticles_end nTot size r (by omega), if_neg (by omega)]; rfl
  · rw [myParticles_end nTot size _ (by omega), if_pos rfl]

/-- The blocks differ in size by less than the number of processes, and none but the last
is larger than the others. -/
theorem balance (nTot size rank : Nat) (hr : rank < size) :
    nTot / size ≤ (myParticles nTot rank size).2 ∧
      (myParticles nTot rank size).2 < nTot / size + size := by
  have hs : 0 < size := by omega
  have h1 := Nat.div_add_mod nTot size
  have h2 := Nat.mod_lt nTot hs
  unfold myParticles
  dsimp only
  split
  · rename_i h
    obtain rfl : size = rank + 1 := by omega
    rw [Nat.add_mul] at h1
    generalize nTot / (rank + 1) = q at *
    generalize nTot % (rank + 1) = m at *
    omega
  · omega

example : (myParticles 10 0 3, myParticles 10 1 3, myParticles 10 2 3) = ((0, 3), (3, 3), (6, 4)) := by
  decide

end Ascot.C20

namespace Ascot.C21
open Ascot.Mpi

variable {R Z E : Type}

/-- If process `rank` holds the markers of its block of `all` in order, the gathered array is
`all`, every field of every marker. -/
theorem gather_all (nTot size : Nat) (hs : 0 < size) (all : Nat → PState R Z E)
    (ps : Nat → Nat → PState R Z E)
    (hps : ∀ rank < size, ∀ j < (myParticles nTot rank size).2,
      ps rank j = all ((myParticles nTot rank size).1 + j)) (k : Nat) (hk : k < nTot) :
    gather nTot size ps k = some (all k) := by
  obtain ⟨rank, h1, h2, h3⟩ := C20.partition nTot size hs k hk
  unfold gather
  rw [fold_blocks (fun r k => (myParticles nTot r size).1 ≤ k ∧
      k < (myParticles nTot r size).1 + (myParticles nTot r size).2)
    (fun r k => unpackOne (myParticles nTot r size).2 (k - (myParticles nTot r size).1)
      (send nTot r size (ps r)).realdata (send nTot r size (ps r)).intdata
      (send nTot r size (ps r)).errdata) _ _
    (fun a i k => receive_spec nTot (i + 1) size _ a k) size k rank h1 h2 h3]
  · have hj : k - (myParticles nTot rank size).1 < (myParticles nTot rank size).2 := by
      have := h2.1; have := h2.2; omega
    show unpackOne _ _ (pack realSlots _ _) (pack intSlots _ _) (pack _ _ _) = _
    rw [unpack_pack _ _ _ hj, hps rank h1 _ hj]
    congr 2; have := h2.1; omega
  · rintro rfl
    have h0 : (myParticles nTot 0 size).1 = 0 := (C20.consecutive nTot size hs).1
    have hk2 : k < (myParticles nTot 0 size).2 := by have := h2.2; omega
    rw [own_spec, if_pos hk2]
    show _ = unpackOne _ _ (pack realSlots _ _) (pack intSlots _ _) (pack _ _ _)
    rw [h0, Nat.sub_zero, unpack_pack _ _ _ hk2]

/-- States that meet the hypothesis, for any markers. -/
example (all : Nat → PState R Z E) : ∃ ps : Nat → Nat → PState R Z E,
    ∀ rank < 3, ∀ j < (myParticles 10 rank 3).2, ps rank j = all ((myParticles 10 rank 3).1 + j) :=
  ⟨fun rank j => all ((myParticles 10 rank 3).1 + j), fun _ _ _ _ => rfl⟩

end Ascot.C21

namespace Ascot.C68
open Ascot.Mpi

/-- Point `i` of the marker that has index `j` in process `rank` is found after gathering at
the position that belongs to the global index of the marker. -/
theorem gather_orbits {A : Type} (nTot size npnt : Nat) (hs : 0 < size) (loc : Nat → Nat → A)
    (rank : Nat) (hr : rank < size) (j : Nat) (hj : j < (myParticles nTot rank size).2) (i : Nat)
    (hi : i < npnt) :
    gatherOrb nTot size npnt loc (((myParticles nTot rank size).1 + j) * npnt + i) =
      some (loc rank (j * npnt + i)) := by
  have hmul : ∀ a b : Nat, a * npnt ≤ b * npnt + i ↔ a ≤ b := by
    intro a b
    constructor
    · intro h
      by_contra hc
      have : (b + 1) * npnt ≤ a * npnt := Nat.mul_le_mul_right _ (by omega)
      rw [Nat.add_mul] at this; omega
    · intro h
      have := Nat.mul_le_mul_right npnt h; omega
  have hown : ∀ r, ((myParticles nTot r size).1 * npnt ≤
        ((myParticles nTot rank size).1 + j) * npnt + i ∧
      ((myParticles nTot rank size).1 + j) * npnt + i <
        (myParticles nTot r size).1 * npnt + (myParticles nTot r size).2 * npnt) ↔
      C20.Owns nTot size r ((myParticles nTot rank size).1 + j) := by
    intro r
    unfold C20.Owns
    rw [hmul, ← Nat.add_mul, ← not_le, ← not_le, hmul]
  have hme : C20.Owns nTot size rank ((myParticles nTot rank size).1 + j) :=
    ⟨by omega, by omega⟩
  unfold gatherOrb
  dsimp only
  rw [fold_blocks (fun r k => (myParticles nTot r size).1 * npnt ≤ k ∧
      k < (myParticles nTot r size).1 * npnt + (myParticles nTot r size).2 * npnt)
    (fun r k => some (loc r (k - (myParticles nTot r size).1 * npnt))) _ _
    (fun a i k => rfl) size _ rank hr ((hown rank).2 hme)]
  · congr 2; rw [Nat.add_mul]; omega
  · intro r hr' h
    have h := (hown r).1 h
    exact myParticles_unique nTot size _ r rank hr' hr h.1 h.2 hme.1 hme.2
  · rintro rfl
    have h0 : (myParticles nTot 0 size).1 = 0 := (C20.consecutive nTot size hs).1
    simp only [h0]
    rw [if_pos]
    · simp
    · have := (hmul (myParticles nTot 0 size).2 j).not.2 (by omega)
      simpa using this

example : gatherOrb 5 2 3 (fun rank k => (rank, k)) ((2 + 1) * 3 + 2) = some (1, 1 * 3 + 2) := by
  decide

end Ascot.C68
