import Verif.Lemmas.Random

/-!
# C40, C41, C72: random numbers
-/
set_option linter.unusedSectionVars false
set_option linter.unusedSimpArgs false

namespace Ascot.C40
open Ascot.Random

/-- The state returns to the seed after 2^64 calls and not before. -/
theorem full_period (seed : UInt64) (n : Nat) : next^[n] seed = seed ↔ 2 ^ 64 ∣ n := iter_fixed seed n

/-- All states are visited within one period from any seed. -/
theorem visits_all (seed state : UInt64) : ∃ n < 2 ^ 64, next^[n] seed = state := reaches seed state

/-- The first 2^64 states are different. -/
theorem no_repetition (seed : UInt64) {m n : Nat} (hm : m < 2 ^ 64) (hn : n < 2 ^ 64) (h : next^[m] seed = next^[n] seed) : m = n := by
  rcases Nat.le_total m n with hle | hle
  · have := Nat.eq_zero_of_dvd_of_lt (iter_inj hle h) (by omega)
    omega
  · have := Nat.eq_zero_of_dvd_of_lt (iter_inj hle h.symm) (by omega)
    omega

example : next 0 = 3037000493 ∧ next 1 = 2862933558814942250 := by decide

/-- Uniform numbers are between zero and one; finding: both ends occur, from every seed
(`nbi.c` uses `floor(u * n)` as an index). -/
theorem uniform_range (s : UInt64) : 0 ≤ uniform s ∧ uniform s ≤ 1 := uniform_bounds s

theorem uniform_ends_occur (seed : UInt64) : (∃ n < 2 ^ 64, uniform (next^[n] seed) = 1) ∧ (∃ n < 2 ^ 64, uniform (next^[n] seed) = 0) := by
  obtain ⟨n, hn, h⟩ := reaches seed 18446744073709551615
  obtain ⟨m, hm, h'⟩ := reaches seed 0
  refine ⟨⟨n, hn, ?_⟩, ⟨m, hm, ?_⟩⟩
  · rw [h]
    unfold uniform
    have : UInt64.toNat 18446744073709551615 = 18446744073709551615 := by decide
    rw [this]
    norm_num
  · rw [h']
    unfold uniform
    norm_num

end Ascot.C40

namespace Ascot.C72
open Ascot.Random

/-- The rejection loop ends from every state. -/
theorem rejection_ends (s : UInt64) : ∃ F, ∀ fuel ≥ F, ∃ o, draw fuel s = some o := by
  obtain ⟨f, o, h⟩ := draw_ends s
  exact ⟨f, fun fuel hf => ⟨o, draw_mono hf h⟩⟩

/-- The number passed to the logarithm and used as divisor is positive and less than one. -/
theorem argument_range {fuel : Nat} {s s' : UInt64} {x1 x2 w : ℚ} (h : draw fuel s = some (x1, x2, w, s')) :
    0 < w ∧ w < 1 ∧ w = x1 ^ 2 + x2 ^ 2 := by
  obtain ⟨k, e, hlt, -⟩ := draw_spec h
  have e1 : x1 = 2 * uniform (next (next^[2 * k] s)) - 1 := congrArg (·.1) e
  have e2 : x2 = 2 * uniform (next (next (next^[2 * k] s))) - 1 := congrArg (·.2.1) e
  have e3 : w = x1 * x1 + x2 * x2 := by
    rw [e1, e2]
    exact congrArg (·.2.2.1) e
  refine ⟨?_, hlt, by rw [e3]; ring⟩
  rw [e3]
  have h1 : x1 ≠ 0 := by rw [e1]; exact uniform_ne_half _
  have : 0 < x1 * x1 := by
    rcases lt_or_gt_of_ne h1 with h | h
    · exact mul_pos_of_neg_of_neg h h
    · exact mul_pos h h
  have : 0 ≤ x2 * x2 := mul_self_nonneg _
  linarith

example : (draw 1 1).isSome = true ∧ (draw 1 0).isSome = false ∧ (draw 2 0).isSome = true := by decide +kernel

end Ascot.C72

namespace Ascot.C41
open Ascot.Random

/-- Filling an array ends; nothing is written from element `n` on; each of the first `n` elements is written, with the
numbers of `(n+1)/2` consecutive accepted rounds. -/
theorem fills {V : Type} (g : ℚ → ℚ → V) (n : Nat) (r : Nat → V) (s : UInt64) :
    ∃ F, ∀ fuel ≥ F, ∃ r' s', normalSimd g fuel n r s = some (r', s') ∧ (∀ i, n ≤ i → r' i = r i) ∧
      (0 < n → ∃ m, Accepted s ((n + 1) / 2) m ∧ s' = next^[2 * m ((n + 1) / 2 - 1) + 2] s ∧
        ∀ j, (2 * j < n → r' (2 * j) = g (round (next^[2 * m j] s)).1 (round (next^[2 * m j] s)).2.2.1) ∧
          (2 * j + 1 < n → r' (2 * j + 1) = g (round (next^[2 * m j] s)).2.1 (round (next^[2 * m j] s)).2.2.1)) := by
  obtain ⟨F, hF⟩ := loop_ends g n ((n + 1) / 2) 0 r s
  refine ⟨F, fun fuel hf => ?_⟩
  obtain ⟨⟨r', s'⟩, h⟩ := hF fuel hf
  refine ⟨r', s', h, fun i hi => loop_frame g fuel n _ 0 r s r' s' (by omega) rfl h i (.inr hi), fun hn => ?_⟩
  obtain ⟨m, hm, hs, hv⟩ := loop_values g fuel n _ 0 r s r' s' (by omega) (by omega) rfl (by omega) h
  refine ⟨m, hm, hs, fun j => ⟨fun hj => ?_, fun hj => ?_⟩⟩
  · have := (hv j (by omega)).1
    rwa [Nat.zero_add] at this
  · have := (hv j (by omega)).2
    rw [Nat.zero_add] at this
    exact this hj

/-- The previous contents of the array do not matter. -/
theorem overwrites {V : Type} (g : ℚ → ℚ → V) {fuel n : Nat} {r1 r2 r1' r2' : Nat → V} {s s1 s2 : UInt64}
    (h1 : normalSimd g fuel n r1 s = some (r1', s1)) (h2 : normalSimd g fuel n r2 s = some (r2', s2)) : ∀ i < n, r1' i = r2' i := by
  have key : ∀ (k i : Nat) (r1 r2 : Nat → V) (s : UInt64), n ≤ i + 2 * k → i + 2 * k ≤ n + 1 → i % 2 = 0 →
      normalLoop g fuel n k i r1 s = some (r1', s1) → normalLoop g fuel n k i r2 s = some (r2', s2) → (∀ j < i, r1 j = r2 j) →
      ∀ j < n, r1' j = r2' j := by
    intro k
    induction k with
    | zero =>
      intro i r1 r2 s hn _ _ h1 h2 he j hj
      simp only [normalLoop, Option.some.injEq, Prod.mk.injEq] at h1 h2
      rw [← h1.1, ← h2.1]
      exact he j (by omega)
    | succ k ih =>
      intro i r1 r2 s hn hn' hi h1 h2 he
      unfold normalLoop at h1 h2
      split at h1
      · exact absurd h1 (by simp)
      rename_i x1 x2 w s' hd
      rw [hd] at h2
      dsimp only at h1 h2
      by_cases hl : i + 1 < n
      · refine ih (i + 2) _ _ s' (by omega) (by omega) (by omega) h1 h2 fun j hj => ?_
        rw [if_pos (by omega), if_pos (by omega)]
        unfold write
        by_cases e1 : j = i + 1
        · rw [if_pos e1, if_pos e1]
        · rw [if_neg e1, if_neg e1]
          by_cases e2 : j = i
          · rw [if_pos e2, if_pos e2]
          · rw [if_neg e2, if_neg e2]
            exact he j (by omega)
      · have hk : k = 0 := by omega
        subst hk
        simp only [normalLoop, Option.some.injEq, Prod.mk.injEq] at h1 h2
        intro j hj
        rw [← h1.1, ← h2.1, if_neg (by omega), if_neg (by omega)]
        unfold write
        by_cases e2 : j = i
        · rw [if_pos e2, if_pos e2]
        · rw [if_neg e2, if_neg e2]
          exact he j (by omega)
  exact key _ 0 r1 r2 s (by omega) (by omega) rfl h1 h2 fun j hj => by omega

/-- Three numbers (an odd count) are written to an array of four. -/
example : ((normalSimd (fun x w => decide (x < w)) 9 3 (fun _ => false) 1).map fun o => (List.range 4).map o.1) =
    some [true, true, true, false] := by decide +kernel

end Ascot.C41
