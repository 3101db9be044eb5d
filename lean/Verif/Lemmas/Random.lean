import Verif.Model.Random
import Mathlib.Logic.Function.Iterate
import Mathlib.Data.Fintype.Card
import Mathlib.Data.Fintype.EquivFin
import Mathlib.Tactic.Ring
import Mathlib.Tactic.FieldSimp
import Mathlib.Data.Nat.ModEq
import Mathlib.Data.Nat.GCD.Basic
import Mathlib.Algebra.Group.Nat.Even
import Mathlib.Data.Nat.Prime.Basic
import Mathlib.Tactic.Linarith
import Mathlib.Tactic.Positivity

set_option linter.unusedSectionVars false
set_option linter.unusedSimpArgs false

namespace Ascot.Random

/-- `1 + a + ... + a^(n-1)`. -/
def geo (a : Nat) : Nat → Nat
  | 0 => 0
  | n + 1 => a * geo a n + 1

theorem geo_mod2 {a : Nat} (ha : a % 4 = 1) : ∀ n, geo a n % 2 = n % 2
  | 0 => rfl
  | n + 1 => by
    have := geo_mod2 ha n
    show (a * geo a n + 1) % 2 = _
    rw [Nat.add_mod, Nat.mul_mod, this, show a % 2 = 1 by omega]
    omega

theorem geo_pow (a : Nat) : ∀ n, (a - 1) * geo a n + 1 = a ^ n ∨ a = 0
  | 0 => by left; simp [geo]
  | n + 1 => by
    rcases geo_pow a n with h | h
    · by_cases h0 : a = 0
      · exact .inr h0
      left
      obtain ⟨b, rfl⟩ : ∃ b, a = b + 1 := ⟨a - 1, by omega⟩
      simp only [Nat.add_sub_cancel] at *
      rw [pow_succ, ← h]
      show b * ((b + 1) * geo (b + 1) n + 1) + 1 = _
      ring
    · exact .inr h

theorem geo_add (a m : Nat) : ∀ n, geo a (n + m) = a ^ n * geo a m + geo a n
  | 0 => by simp [geo]
  | n + 1 => by
    rw [show n + 1 + m = (n + m) + 1 by ring]
    show a * geo a (n + m) + 1 = _
    rw [geo_add a m n]
    show _ = a ^ (n + 1) * geo a m + (a * geo a n + 1)
    ring

theorem pow_mod4 {a : Nat} (ha : a % 4 = 1) (n : Nat) : a ^ n % 4 = 1 := by
  rw [Nat.pow_mod, ha, one_pow]; rfl

/-- The power of two in the geometric sum is that in the number of terms. -/
theorem geo_dvd {a : Nat} (ha : a % 4 = 1) : ∀ (k n : Nat), 2 ^ k ∣ geo a n ↔ 2 ^ k ∣ n
  | 0, n => by simp
  | k + 1, n => by
    by_cases hn : n % 2 = 0
    · obtain ⟨m, rfl⟩ : ∃ m, n = m + m := ⟨n / 2, by omega⟩
      rw [geo_add]
      have e : a ^ m * geo a m + geo a m = (a ^ m + 1) * geo a m := by ring
      obtain ⟨q, hq⟩ : ∃ q, a ^ m + 1 = 2 * (2 * q + 1) := ⟨(a ^ m) / 4, by have := pow_mod4 ha m; omega⟩
      have hc : Nat.Coprime (2 ^ k) (2 * q + 1) := by
        apply Nat.Coprime.pow_left
        rw [Nat.coprime_two_left]
        exact ⟨q, rfl⟩
      rw [e, hq, mul_assoc, pow_succ', Nat.mul_dvd_mul_iff_left (by norm_num), hc.dvd_mul_left, geo_dvd ha k m, ← two_mul,
        Nat.mul_dvd_mul_iff_left (by norm_num)]
    · have h1 : ¬ 2 ^ (k + 1) ∣ n := fun h => by
        have := (Dvd.intro_left _ (pow_succ 2 k).symm : 2 ∣ 2 ^ (k + 1)).trans h
        omega
      have h2 : ¬ 2 ^ (k + 1) ∣ geo a n := fun h => by
        have := (Dvd.intro_left _ (pow_succ 2 k).symm : 2 ∣ 2 ^ (k + 1)).trans h
        have := geo_mod2 ha n
        omega
      simp [h1, h2]

def A : Nat := 2862933555777941757
def B : Nat := 3037000493

theorem next_toNat (r : UInt64) : (next r).toNat = (A * r.toNat + B) % 2 ^ 64 := by
  unfold next
  rw [UInt64.toNat_add, UInt64.toNat_mul]
  simp only [UInt64.reduceToNat]
  rw [Nat.mod_add_mod]
  rfl

theorem iter_toNat (r : UInt64) : ∀ n, (next^[n] r).toNat = (A ^ n * r.toNat + B * geo A n) % 2 ^ 64
  | 0 => by
    have := r.toNat_lt
    simp only [Function.iterate_zero, id, pow_zero, one_mul, geo, mul_zero, add_zero]
    exact (Nat.mod_eq_of_lt this).symm
  | n + 1 => by
    rw [Function.iterate_succ', Function.comp, next_toNat, iter_toNat r n]
    rw [Nat.add_mod, Nat.mul_mod, Nat.mod_mod, ← Nat.mul_mod, ← Nat.add_mod]
    have e : A * (A ^ n * r.toNat + B * geo A n) + B = A ^ (n + 1) * r.toNat + B * geo A (n + 1) := by
      rw [show geo A (n + 1) = A * geo A n + 1 from rfl]
      generalize A = a
      generalize B = b
      ring
    rw [e]

theorem next_injective : Function.Injective next := by
  intro r s h
  have h1 : (next r).toNat = (next s).toNat := by rw [h]
  rw [next_toNat, next_toNat] at h1
  have h2 : A * r.toNat + B ≡ A * s.toNat + B [MOD 2 ^ 64] := h1
  have h3 := Nat.ModEq.add_right_cancel' B h2
  have h4 : r.toNat ≡ s.toNat [MOD 2 ^ 64] := Nat.ModEq.cancel_left_of_coprime (by decide) h3
  have := Nat.ModEq.eq_of_lt_of_lt h4 r.toNat_lt s.toNat_lt
  exact UInt64.toNat_inj.1 this

theorem iter_fixed (r : UInt64) (n : Nat) : next^[n] r = r ↔ 2 ^ 64 ∣ n := by
  rw [← UInt64.toNat_inj, iter_toNat]
  rcases geo_pow A n with h | h
  swap
  · exact absurd h (by decide)
  have e : A ^ n * r.toNat + B * geo A n = r.toNat + (A - 1) * geo A n * r.toNat + B * geo A n := by
    rw [← h]
    ring
  have e' : A ^ n * r.toNat + B * geo A n = r.toNat + geo A n * ((A - 1) * r.toNat + B) := by
    rw [e]; ring
  rw [e']
  have hc : Nat.Coprime (2 ^ 64) ((A - 1) * r.toNat + B) := by
    apply Nat.Coprime.pow_left
    rw [Nat.coprime_two_left, Nat.odd_iff]
    unfold A B
    omega
  rw [← geo_dvd (a := A) (by decide) 64 n, ← hc.dvd_mul_right]
  have hr := r.toNat_lt
  constructor
  · intro h1
    have h2 : r.toNat + geo A n * ((A - 1) * r.toNat + B) ≡ r.toNat + 0 [MOD 2 ^ 64] := by
      unfold Nat.ModEq
      rw [h1, add_zero, Nat.mod_eq_of_lt hr]
    exact (Nat.modEq_zero_iff_dvd).1 (Nat.ModEq.add_left_cancel' _ h2)
  · intro h1
    rw [Nat.add_mod, Nat.mod_eq_zero_of_dvd h1, add_zero, Nat.mod_mod, Nat.mod_eq_of_lt hr]

theorem iter_inj {r : UInt64} {m n : Nat} (hmn : m ≤ n) (h : next^[m] r = next^[n] r) : 2 ^ 64 ∣ n - m := by
  obtain ⟨d, rfl⟩ : ∃ d, n = m + d := ⟨n - m, by omega⟩
  rw [Function.iterate_add] at h
  have := next_injective.iterate m h
  rw [Nat.add_sub_cancel_left]
  exact (iter_fixed r d).1 this.symm

/-- Every state is reached from every other. -/
theorem reaches (r t : UInt64) : ∃ n < 2 ^ 64, next^[n] r = t := by
  let f : Fin (2 ^ 64) → Fin (2 ^ 64) := fun i => ⟨(next^[i.1] r).toNat, (next^[i.1] r).toNat_lt⟩
  have hf : Function.Injective f := by
    intro i j h
    have h1 : next^[i.1] r = next^[j.1] r := UInt64.toNat_inj.1 (Fin.mk.inj h)
    have hi := i.2
    have hj := j.2
    rcases Nat.le_total i.1 j.1 with hle | hle
    · have := Nat.eq_zero_of_dvd_of_lt (iter_inj hle h1) (by omega)
      exact Fin.ext (by omega)
    · have := Nat.eq_zero_of_dvd_of_lt (iter_inj hle h1.symm) (by omega)
      exact Fin.ext (by omega)
  have hs := Finite.injective_iff_surjective.1 hf
  obtain ⟨i, hi⟩ := hs ⟨t.toNat, t.toNat_lt⟩
  exact ⟨i.1, i.2, UInt64.toNat_inj.1 (Fin.mk.inj hi)⟩

/-! ### Rejection -/

theorem parity (r : UInt64) : ∀ n, (next^[n] r).toNat % 2 = (r.toNat + n) % 2
  | 0 => rfl
  | n + 1 => by
    rw [Function.iterate_succ', Function.comp, next_toNat]
    have := parity r n
    unfold A B
    omega

theorem round_state (s : UInt64) : (round s).2.2.2 = next^[2] s := rfl

theorem draw_mono {s : UInt64} {o : ℚ × ℚ × ℚ × UInt64} : ∀ {f f' : Nat}, f ≤ f' → draw f s = some o → draw f' s = some o := by
  intro f
  induction f generalizing s with
  | zero => intro f' _ h; simp [draw] at h
  | succ f ih =>
    intro f' hf h
    obtain ⟨f', rfl⟩ : ∃ g, f' = g + 1 := ⟨f' - 1, by omega⟩
    unfold draw at h ⊢
    dsimp only at h ⊢
    split
    · rename_i hw
      rw [if_pos hw] at h
      exact ih (by omega) h
    · rename_i hw
      rw [if_neg hw] at h
      exact h

theorem draw_of_round (k : Nat) : ∀ (s : UInt64), (round (next^[2 * k] s)).2.2.1 < 1 → ∃ o, draw (k + 1) s = some o := by
  induction k with
  | zero =>
    intro s h
    refine ⟨round s, ?_⟩
    unfold draw
    dsimp only
    exact if_neg (not_le.2 h)
  | succ k ih =>
    intro s h
    unfold draw
    dsimp only
    split
    · rw [round_state]
      apply ih
      rw [← Function.iterate_add_apply]
      rw [show 2 * k + 2 = 2 * (k + 1) by ring]
      exact h
    · exact ⟨_, rfl⟩

/-- The rejection loop ends for every state. -/
theorem draw_ends (s : UInt64) : ∃ f o, draw f s = some o := by
  have h1 : (round 1).2.2.1 < 1 := by decide +kernel
  have h2 : (round 2).2.2.1 < 1 := by decide +kernel
  have key : ∀ t : UInt64, t.toNat % 2 = s.toNat % 2 → (round t).2.2.1 < 1 → ∃ f o, draw f s = some o := by
    intro t ht hw
    obtain ⟨n, -, hn⟩ := reaches s t
    have hp := parity s n
    rw [hn] at hp
    obtain ⟨k, rfl⟩ : ∃ k, n = 2 * k := ⟨n / 2, by omega⟩
    exact ⟨k + 1, draw_of_round k s (by rw [hn]; exact hw)⟩
  rcases Nat.mod_two_eq_zero_or_one s.toNat with h | h
  · exact key 2 (by rw [h]; rfl) h2
  · exact key 1 (by rw [h]; rfl) h1

theorem draw_spec : ∀ {f : Nat} {s : UInt64} {o : ℚ × ℚ × ℚ × UInt64}, draw f s = some o →
    ∃ k, o = round (next^[2 * k] s) ∧ o.2.2.1 < 1 ∧ ∀ j < k, 1 ≤ (round (next^[2 * j] s)).2.2.1
  | 0, _, _, h => by simp [draw] at h
  | f + 1, s, o, h => by
    unfold draw at h
    dsimp only at h
    split at h
    · rename_i hw
      obtain ⟨k, e, hlt, hj⟩ := draw_spec h
      rw [round_state, ← Function.iterate_add_apply] at e
      refine ⟨k + 1, by rw [e, show 2 * k + 2 = 2 * (k + 1) by ring], hlt, fun j hj' => ?_⟩
      obtain _ | j := j
      · exact hw
      · have := hj j (by omega)
        rw [round_state, ← Function.iterate_add_apply, show 2 * j + 2 = 2 * (j + 1) by ring] at this
        exact this
    · rename_i hw
      cases h
      exact ⟨0, rfl, not_le.1 hw, fun j hj => by omega⟩

theorem uniform_bounds (s : UInt64) : 0 ≤ uniform s ∧ uniform s ≤ 1 := by
  unfold uniform
  have h := s.toNat_lt
  have h' : ((s.toNat : Nat) : ℚ) ≤ 18446744073709551615 := by exact_mod_cast (show s.toNat ≤ 18446744073709551615 by omega)
  refine ⟨by positivity, ?_⟩
  rw [div_le_one (by norm_num)]
  exact h'

theorem uniform_ne_half (s : UInt64) : 2 * uniform s - 1 ≠ 0 := by
  intro h
  unfold uniform at h
  have h1 : (2 * s.toNat : ℚ) = 18446744073709551615 := by
    have : (18446744073709551615 : ℚ) ≠ 0 := by norm_num
    field_simp at h
    linarith
  have h2 : 2 * s.toNat = 18446744073709551615 := by exact_mod_cast h1
  omega

/-! ### Filling an array -/

theorem loop_frame {V : Type} (g : ℚ → ℚ → V) (fuel n : Nat) : ∀ (k i : Nat) (r : Nat → V) (s : UInt64) (r' : Nat → V) (s' : UInt64),
    i + 2 * k ≤ n + 1 → i % 2 = 0 → normalLoop g fuel n k i r s = some (r', s') → ∀ j, (j < i ∨ n ≤ j) → r' j = r j
  | 0, i, r, s, r', s', _, _, h, j, _ => by
    simp only [normalLoop, Option.some.injEq, Prod.mk.injEq] at h
    rw [h.1]
  | k + 1, i, r, s, r', s', hk, hi, h, j, hj => by
    unfold normalLoop at h
    split at h
    · exact absurd h (by simp)
    · rename_i x1 x2 w s1 hd
      dsimp only at h
      have := loop_frame g fuel n k (i + 2) _ s1 r' s' (by omega) (by omega) h j (by omega)
      rw [this]
      split
      · rename_i hc
        unfold write
        rw [if_neg (by omega), if_neg (by omega)]
      · unfold write
        rw [if_neg (by omega)]

theorem loop_ends {V : Type} (g : ℚ → ℚ → V) (n : Nat) : ∀ (k i : Nat) (r : Nat → V) (s : UInt64),
    ∃ F, ∀ fuel ≥ F, ∃ o, normalLoop g fuel n k i r s = some o
  | 0, i, r, s => ⟨0, fun _ _ => ⟨(r, s), rfl⟩⟩
  | k + 1, i, r, s => by
    obtain ⟨f, ⟨x1, x2, w, s'⟩, hd⟩ := draw_ends s
    obtain ⟨F, hF⟩ := loop_ends g n k (i + 2) (if (i : Int) < (n : Int) - 2 ∨ (n + 1) % 2 > 0 then write (write r i (g x1 w)) (i + 1) (g x2 w)
      else write r i (g x1 w)) s'
    refine ⟨max f F, fun fuel hf => ?_⟩
    obtain ⟨o, ho⟩ := hF fuel (by omega)
    refine ⟨o, ?_⟩
    unfold normalLoop
    rw [draw_mono (show f ≤ fuel by omega) hd]
    exact ho

/-- The accepted rounds: the `j`-th is the round number `m j` from the state `s`, those between are rejected. -/
structure Accepted (s : UInt64) (k : Nat) (m : Nat → Nat) : Prop where
  lt : ∀ j, j + 1 < k → m j < m (j + 1)
  ok : ∀ j < k, (round (next^[2 * m j] s)).2.2.1 < 1
  first : ∀ l < m 0, 1 ≤ (round (next^[2 * l] s)).2.2.1
  between : ∀ j, j + 1 < k → ∀ l, m j < l → l < m (j + 1) → 1 ≤ (round (next^[2 * l] s)).2.2.1

theorem loop_values {V : Type} (g : ℚ → ℚ → V) (fuel n : Nat) : ∀ (k i : Nat) (r : Nat → V) (s : UInt64) (r' : Nat → V) (s' : UInt64),
    n ≤ i + 2 * k → i + 2 * k ≤ n + 1 → i % 2 = 0 → 0 < k → normalLoop g fuel n k i r s = some (r', s') →
    ∃ m, Accepted s k m ∧ s' = next^[2 * m (k - 1) + 2] s ∧ ∀ j < k,
      r' (i + 2 * j) = g (round (next^[2 * m j] s)).1 (round (next^[2 * m j] s)).2.2.1 ∧
      (i + 2 * j + 1 < n → r' (i + 2 * j + 1) = g (round (next^[2 * m j] s)).2.1 (round (next^[2 * m j] s)).2.2.1)
  | 0, i, r, s, r', s', _, _, _, hk, _ => by omega
  | k + 1, i, r, s, r', s', hn, hn', hi, _, h => by
    unfold normalLoop at h
    split at h
    · exact absurd h (by simp)
    rename_i x1 x2 w s1 hd
    obtain ⟨k0, ek, hlt, hrej⟩ := draw_spec hd
    have e1 : x1 = (round (next^[2 * k0] s)).1 := congrArg (·.1) ek
    have e2 : x2 = (round (next^[2 * k0] s)).2.1 := congrArg (·.2.1) ek
    have e3 : w = (round (next^[2 * k0] s)).2.2.1 := congrArg (·.2.2.1) ek
    have e4 : s1 = next^[2 * k0 + 2] s := by
      have : s1 = (round (next^[2 * k0] s)).2.2.2 := congrArg (·.2.2.2) ek
      rw [this, round_state, ← Function.iterate_add_apply, Nat.add_comm]
    dsimp only at h hlt
    have hfr := loop_frame g fuel n k (i + 2) _ s1 r' s' (by omega) (by omega) h
    have v0 : r' i = g x1 w := by
      rw [hfr i (by omega)]
      split
      · unfold write
        rw [if_neg (by omega), if_pos rfl]
      · unfold write
        rw [if_pos rfl]
    have v1 : i + 1 < n → r' (i + 1) = g x2 w := by
      intro hlt
      rw [hfr (i + 1) (by omega), if_pos (by omega)]
      unfold write
      rw [if_pos rfl]
    by_cases hk : k = 0
    · subst hk
      unfold normalLoop at h
      simp only [Option.some.injEq, Prod.mk.injEq] at h
      refine ⟨fun _ => k0, ⟨fun j hj => by omega, fun j hj => ?_, hrej, fun j hj => by omega⟩, ?_, fun j hj => ?_⟩
      · rw [← e3]; exact hlt
      · rw [← h.2, e4]
      · obtain rfl : j = 0 := by omega
        refine ⟨?_, fun hlt => ?_⟩
        · rw [← e1, ← e3]; exact v0
        · rw [← e2, ← e3]; exact v1 hlt
    obtain ⟨m, hm, hs, hv⟩ := loop_values g fuel n k (i + 2) _ s1 r' s' (by omega) (by omega) (by omega) (by omega) h
    have it : ∀ j, next^[2 * j] s1 = next^[2 * (k0 + 1 + j)] s := by
      intro j
      rw [e4, ← Function.iterate_add_apply, show 2 * j + (2 * k0 + 2) = 2 * (k0 + 1 + j) by ring]
    refine ⟨fun j => match j with | 0 => k0 | j + 1 => k0 + 1 + m j, ⟨?_, ?_, hrej, ?_⟩, ?_, ?_⟩
    · intro j hj
      obtain _ | j := j
      · show k0 < k0 + 1 + m 0
        omega
      · show k0 + 1 + m j < k0 + 1 + m (j + 1)
        have := hm.lt j (by omega)
        omega
    · intro j hj
      obtain _ | j := j
      · show (round (next^[2 * k0] s)).2.2.1 < 1
        rw [← e3]; exact hlt
      · show (round (next^[2 * (k0 + 1 + m j)] s)).2.2.1 < 1
        rw [← it]
        exact hm.ok j (by omega)
    · intro j hj l hl hl'
      obtain ⟨l', rfl⟩ : ∃ l', l = k0 + 1 + l' := ⟨l - (k0 + 1), by
        obtain _ | j := j
        · have : k0 < l := hl
          omega
        · have : k0 + 1 + m j < l := hl
          omega⟩
      rw [← it]
      obtain _ | j := j
      · have : k0 + 1 + l' < k0 + 1 + m 0 := hl'
        exact hm.first l' (by omega)
      · have h1 : k0 + 1 + m j < k0 + 1 + l' := hl
        have h2 : k0 + 1 + l' < k0 + 1 + m (j + 1) := hl'
        exact hm.between j (by omega) l' (by omega) (by omega)
    · obtain ⟨k', rfl⟩ : ∃ k', k = k' + 1 := ⟨k - 1, by omega⟩
      show s' = next^[2 * (k0 + 1 + m k') + 2] s
      rw [hs, e4, ← Function.iterate_add_apply]
      have : 2 * m (k' + 1 - 1) + 2 + (2 * k0 + 2) = 2 * (k0 + 1 + m k') + 2 := by
        rw [Nat.add_sub_cancel]
        ring
      rw [this]
    · intro j hj
      obtain _ | j := j
      · show r' (i + 2 * 0) = g (round (next^[2 * k0] s)).1 (round (next^[2 * k0] s)).2.2.1 ∧ (i + 2 * 0 + 1 < n → r' (i + 2 * 0 + 1) = g (round (next^[2 * k0] s)).2.1 (round (next^[2 * k0] s)).2.2.1)
        rw [← e1, ← e2, ← e3]
        exact ⟨v0, v1⟩
      · show r' (i + 2 * (j + 1)) = g (round (next^[2 * (k0 + 1 + m j)] s)).1 (round (next^[2 * (k0 + 1 + m j)] s)).2.2.1 ∧
          (i + 2 * (j + 1) + 1 < n → r' (i + 2 * (j + 1) + 1) = g (round (next^[2 * (k0 + 1 + m j)] s)).2.1 (round (next^[2 * (k0 + 1 + m j)] s)).2.2.1)
        rw [← it, show i + 2 * (j + 1) = i + 2 + 2 * j by ring]
        exact hv j (by omega)

end Ascot.Random
