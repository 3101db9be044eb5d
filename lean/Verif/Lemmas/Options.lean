import Verif.Model.Options

/-! Helper lemmas about the option reader. -/

set_option linter.unusedSectionVars false
set_option linter.unusedSimpArgs false

namespace Ascot.Options

theorem bind_ok {α β : Type} {r : Res α} {g : α → Res β} {b : β} :
    (r >>= g) = .ok b ↔ ∃ a, r = .ok a ∧ g a = .ok b := by
  cases r with
  | ok a =>
    constructor
    · intro h; exact ⟨a, rfl, h⟩
    · rintro ⟨a', h, h'⟩
      injection h with h
      subst h
      exact h'
  | fail =>
    constructor
    · intro h; exact absurd h (by intro h; cases h)
    · rintro ⟨_, h, _⟩; cases h
  | ub =>
    constructor
    · intro h; exact absurd h (by intro h; cases h)
    · rintro ⟨_, h, _⟩; cases h

theorem pure_ok {α : Type} {a b : α} : (pure a : Res α) = .ok b ↔ a = b :=
  ⟨fun h => by injection h, fun h => by rw [h]; rfl⟩

theorem scalar_ok {f : File} {n : String} {x : ℝ} : scalar f n = .ok x ↔ f n = some [x] := by
  unfold scalar
  split
  · simp_all
  · rename_i y h
    rw [h]
    constructor
    · intro h; injection h with h; rw [h]
    · intro h; injection h with h; injection h with h; rw [h]
  · rename_i xs h1 h2
    constructor
    · intro h; cases h
    · intro h
      rw [h2] at h
      injection h with h
      exact absurd h (h1 x)

theorem toInt_ok {x : ℝ} {k : ℤ} (h : toInt x = .ok k) :
    k = (if 0 ≤ x then ⌊x⌋ else ⌈x⌉) ∧ -2147483648 ≤ k ∧ k ≤ 2147483647 := by
  unfold toInt at h
  dsimp only at h
  by_cases hr : (-2147483648 : ℤ) ≤ (if 0 ≤ x then ⌊x⌋ else ⌈x⌉) ∧
      (if 0 ≤ x then ⌊x⌋ else ⌈x⌉) ≤ 2147483647
  · rw [if_pos hr] at h
    injection h with h
    rw [← h]
    exact ⟨rfl, hr⟩
  · rw [if_neg hr] at h
    cases h

theorem toInt_cast (k : ℤ) (h1 : -2147483648 ≤ k) (h2 : k ≤ 2147483647) :
    toInt (k : ℝ) = .ok k := by
  unfold toInt
  have : (if (0 : ℝ) ≤ (k : ℝ) then ⌊(k : ℝ)⌋ else ⌈(k : ℝ)⌉) = k := by
    split <;> simp
  rw [this, if_pos ⟨h1, h2⟩]

theorem int_ok {f : File} {n : String} {k : ℤ} :
    int f n = .ok k ↔ ∃ x, f n = some [x] ∧ toInt x = .ok k := by
  unfold int
  rw [bind_ok]
  simp only [scalar_ok]

theorem whenOn_ok {α : Type} {flag : ℤ} {r : Res α} {o : Option α} :
    whenOn flag r = .ok o ↔
      (flag ≠ 0 ∧ ∃ a, r = .ok a ∧ o = some a) ∨ (flag = 0 ∧ o = none) := by
  unfold whenOn
  by_cases h : flag = 0
  · simp [h, pure_ok, eq_comm]
  · simp only [ne_eq, h, not_false_eq_true, if_true, true_and, false_and, or_false, bind_ok, pure_ok]
    constructor
    · rintro ⟨a, h1, h2⟩; exact ⟨a, h1, h2.symm⟩
    · rintro ⟨a, h1, h2⟩; exact ⟨a, h1, h2.symm⟩

theorem countFrom_some (first filler : ℝ) : ∀ (xs : List ℝ) (i : ℕ), filler ∈ xs →
    ∃ n, countFrom first filler xs i = some n
  | [], _, h => by simp at h
  | x :: xs, i, h => by
    unfold countFrom
    by_cases h0 : first < 0
    · exact ⟨0, if_pos h0⟩
    · rw [if_neg h0]
      by_cases hx : x = filler
      · exact ⟨i, if_pos hx⟩
      · rw [if_neg hx]
        refine countFrom_some first filler xs (i + 1) ?_
        rcases List.mem_cons.mp h with h | h
        · exact absurd h.symm hx
        · exact h

/-- Without a filler value the count is set only when the first entry is negative. -/
theorem countFrom_none (first filler : ℝ) (h0 : ¬ first < 0) : ∀ (xs : List ℝ) (i : ℕ),
    filler ∉ xs → countFrom first filler xs i = none
  | [], _, _ => rfl
  | x :: xs, i, h => by
    have h1 : x ≠ filler := fun e => h (by simp [e])
    have h2 : filler ∉ xs := fun e => h (List.mem_cons_of_mem _ e)
    unfold countFrom
    rw [if_neg h0, if_neg h1]
    exact countFrom_none first filler h0 xs (i + 1) h2

theorem countFrom_append (first filler : ℝ) (h0 : ¬ first < 0) (ys : List ℝ) :
    ∀ (xs : List ℝ) (i : ℕ), filler ∉ xs →
    countFrom first filler (xs ++ filler :: ys) i = some (i + xs.length)
  | [], i, _ => by
    simp only [List.nil_append, List.length_nil, Nat.add_zero]
    unfold countFrom
    rw [if_neg h0, if_pos rfl]
  | x :: xs, i, h => by
    have h1 : x ≠ filler := fun e => h (by simp [e])
    have h2 : filler ∉ xs := fun e => h (List.mem_cons_of_mem _ e)
    simp only [List.cons_append]
    unfold countFrom
    rw [if_neg h0, if_neg h1, countFrom_append first filler h0 ys xs (i + 1) h2]
    simp only [List.length_cons]
    congr 1
    omega

/-- What an option that holds an integer may be relied on for. -/
theorem int_from {f : File} {n : String} {k : ℤ} (h : int f n = .ok k) :
    (∃ x, f n = some [x]) ∧ ∀ j : ℤ, f n = some [(j : ℝ)] → k = j := by
  obtain ⟨x, h1, h2⟩ := int_ok.mp h
  refine ⟨⟨x, h1⟩, fun j hj => ?_⟩
  rw [h1] at hj
  injection hj with hj
  injection hj with hj
  have := (toInt_ok h2).1
  rw [hj] at this
  rw [this]
  split <;> simp

end Ascot.Options
