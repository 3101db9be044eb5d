import Mathlib.Algebra.BigOperators.Group.Finset.Basic
import Mathlib.Algebra.BigOperators.Intervals
import Mathlib.Algebra.Order.Ring.Int
import Mathlib.Tactic.Ring
import Mathlib.Tactic.Linarith
import Mathlib.Tactic.NormNum
import Mathlib.Tactic.FieldSimp
import Mathlib.Tactic.IntervalCases
import Mathlib.Tactic.LinearCombination
import Verif.Model.MathC

set_option linter.unusedSectionVars false
set_option linter.unusedSimpArgs false

namespace Ascot.MathC

theorem write_loop {V : Type} (g : Nat → V) (v : Nat → V) (n : Nat) :
    (List.range n).foldl (fun v i => write v i (g i)) v = fun j => if j < n then g j else v j := by
  induction n with
  | zero => funext j; simp
  | succ n ih =>
    rw [List.range_succ, List.foldl_append, ih]
    funext j
    simp only [List.foldl_cons, List.foldl_nil, write]
    by_cases h : j = n
    · subst h; simp
    · rw [if_neg h]
      by_cases h' : j < n
      · rw [if_pos h', if_pos (by omega)]
      · rw [if_neg h', if_neg (by omega)]

section field
variable {K : Type} [Field K]

theorem matSum_eq (a b : Nat → K) (d1 d2 i j : Nat) : matSum a b d1 d2 i j = ∑ k ∈ Finset.range d2, a (k * d1 + i) * b (j * d2 + k) := by
  unfold matSum
  induction d2 generalizing b with
  | zero => simp
  | succ n ih =>
    have : ∀ m : Nat, ∀ s : Nat, (List.range m).foldl (fun sum k => sum + a (k * d1 + i) * b (j * s + k)) 0 =
        ∑ k ∈ Finset.range m, a (k * d1 + i) * b (j * s + k) := by
      intro m s
      induction m with
      | zero => simp
      | succ m ih => rw [List.range_succ, List.foldl_append, ih, Finset.sum_range_succ]; rfl
    exact this _ _

theorem row_loop (g : Nat → K) (c : Nat → K) (o n : Nat) :
    (List.range n).foldl (fun c j => write c (o + j) (g j)) c = fun x => if o ≤ x ∧ x < o + n then g (x - o) else c x := by
  induction n with
  | zero =>
    funext x
    rw [if_neg (by omega)]
    rfl
  | succ n ih =>
    rw [List.range_succ, List.foldl_append, ih]
    funext x
    simp only [List.foldl_cons, List.foldl_nil, write]
    by_cases h : x = o + n
    · subst h
      rw [if_pos rfl, if_pos (by omega)]
      congr 1
      omega
    · rw [if_neg h]
      by_cases h' : o ≤ x ∧ x < o + n
      · rw [if_pos h', if_pos (by omega)]
      · rw [if_neg h', if_neg (by omega)]

theorem matmul_rows (a b : Nat → K) (d1 d2 d3 m : Nat) (c : Nat → K) :
    let r := (List.range m).foldl (fun c i => (List.range d3).foldl (fun c j => write c (i * d3 + j) (matSum a b d1 d2 i j)) c) c
    (∀ i < m, ∀ j < d3, r (i * d3 + j) = matSum a b d1 d2 i j) ∧ ∀ x, m * d3 ≤ x → r x = c x := by
  induction m with
  | zero => exact ⟨fun i hi => by omega, fun x _ => rfl⟩
  | succ m ih =>
    rw [List.range_succ, List.foldl_append]
    simp only [row_loop] at ih ⊢
    simp only [List.foldl_cons, List.foldl_nil]
    refine ⟨fun i hi j hj => ?_, fun x hx => ?_⟩
    · by_cases h : i = m
      · subst h
        rw [if_pos (by omega)]
        congr 1
        omega
      · have hlt : i < m := by omega
        have hle : i * d3 + j < m * d3 := by
          have : (i + 1) * d3 ≤ m * d3 := Nat.mul_le_mul_right d3 hlt
          rw [Nat.add_mul, Nat.one_mul] at this
          omega
        rw [if_neg (by omega)]
        exact ih.1 i hlt j hj
    · rw [Nat.add_mul, Nat.one_mul] at hx
      rw [if_neg (by omega)]
      exact ih.2 x (by omega)

theorem linspace_eq (v : Nat → K) (a b : K) (n : Nat) (hn : n ≠ 1) :
    linspace v a b n = fun j => if j < n then a + j * ((b - a) / ((n : K) - 1)) else v j := by
  unfold linspace
  rw [if_neg hn]
  dsimp only
  exact write_loop (fun i => a + i * ((b - a) / ((n : K) - 1))) v n

variable [LinearOrder K] [IsStrictOrderedRing K]

/-- Polynomial of degree five. -/
def poly (p : Fin 6 → K) (x : K) : K := p 0 + p 1 * x + p 2 * x ^ 2 + p 3 * x ^ 3 + p 4 * x ^ 4 + p 5 * x ^ 5

/-- Its antiderivative. -/
def anti (p : Fin 6 → K) (x : K) : K :=
  p 0 * x + p 1 * x ^ 2 / 2 + p 2 * x ^ 3 / 3 + p 3 * x ^ 4 / 4 + p 4 * x ^ 5 / 5 + p 5 * x ^ 6 / 6

theorem boole (p : Fin 6 → K) (a b : K) :
    let c := (a + b) / 2
    let s := (b - a) / 6 * (poly p a + 4 * poly p c + poly p b)
    let s2 := (b - a) / 12 * (poly p a + 4 * poly p ((a + c) / 2) + poly p c) + (b - a) / 12 * (poly p c + 4 * poly p ((c + b) / 2) + poly p b)
    s2 + (s2 - s) / 15 = anti p b - anti p a := by
  dsimp only [poly, anti]
  field_simp
  ring

theorem helper_exact (p : Fin 6 → K) (eps : K) : ∀ (k : Nat) (a b : K),
    simpsonHelper (poly p) eps k a b ((b - a) / 6 * (poly p a + 4 * poly p ((a + b) / 2) + poly p b))
      (poly p a) (poly p b) (poly p ((a + b) / 2)) = anti p b - anti p a := by
  intro k
  induction k with
  | zero => exact fun a b => boole p a b
  | succ k ih =>
    intro a b
    unfold simpsonHelper
    dsimp only
    split_ifs
    · exact boole p a b
    · have e1 : (b - a) / 12 * (poly p a + 4 * poly p ((a + (a + b) / 2) / 2) + poly p ((a + b) / 2)) =
          ((a + b) / 2 - a) / 6 * (poly p a + 4 * poly p ((a + (a + b) / 2) / 2) + poly p ((a + b) / 2)) := by
        ring
      have e2 : (b - a) / 12 * (poly p ((a + b) / 2) + 4 * poly p (((a + b) / 2 + b) / 2) + poly p b) =
          (b - (a + b) / 2) / 6 * (poly p ((a + b) / 2) + 4 * poly p (((a + b) / 2 + b) / 2) + poly p b) := by
        ring
      rw [e1, e2, ih, ih]
      ring

end field

/-! ### Search -/

/-- What the C standard says about `bsearch`: if the elements that compare smaller than the key come first, then those
that compare equal, then the larger ones, an equal element is found if there is one. -/
def Conforms (bs : (Nat → Int) → Nat → Option Nat) : Prop :=
  ∀ (cmp : Nat → Int) (n : Nat), (∀ i j, i < j → j < n → 0 ≤ cmp j → 0 ≤ cmp i) → (∀ i j, i < j → j < n → 0 < cmp j → 0 < cmp i) →
    (∀ i, bs cmp n = some i → i < n ∧ cmp i = 0) ∧ (bs cmp n = none → ∀ i < n, cmp i ≠ 0)

theorem bsearchLoop_spec (cmp : Nat → Int) (n : Nat) (h1 : ∀ i j, i < j → j < n → 0 ≤ cmp j → 0 ≤ cmp i)
    (h2 : ∀ i j, i < j → j < n → 0 < cmp j → 0 < cmp i) : ∀ fuel l u, u ≤ n → u < l + fuel →
    (∀ i, bsearchLoop cmp fuel l u = some i → i < n ∧ cmp i = 0) ∧
    (bsearchLoop cmp fuel l u = none → ∀ i, l ≤ i → i < u → cmp i ≠ 0) := by
  intro fuel
  induction fuel with
  | zero =>
    intro l u hu hf
    exact ⟨fun i h => by simp [bsearchLoop] at h, fun _ i hl hi => by omega⟩
  | succ fuel ih =>
    intro l u hu hf
    unfold bsearchLoop
    by_cases hlu : l < u
    · rw [if_pos hlu]
      dsimp only
      by_cases hneg : cmp ((l + u) / 2) < 0
      · rw [if_pos hneg]
        obtain ⟨a, b⟩ := ih l ((l + u) / 2) (by omega) (by omega)
        refine ⟨a, fun h i hl hi he => ?_⟩
        by_cases hlt : i < (l + u) / 2
        · exact b h i hl hlt he
        · rcases Nat.eq_or_lt_of_le (Nat.le_of_not_lt hlt) with e | e
          · rw [e] at hneg; omega
          · have := h1 _ i e (by omega) (by omega)
            omega
      · rw [if_neg hneg]
        by_cases hpos : cmp ((l + u) / 2) > 0
        · rw [if_pos hpos]
          obtain ⟨a, b⟩ := ih ((l + u) / 2 + 1) u hu (by omega)
          refine ⟨a, fun h i hl hi he => ?_⟩
          by_cases hlt : (l + u) / 2 < i
          · exact b h i hlt hi he
          · rcases Nat.eq_or_lt_of_le (Nat.le_of_not_lt hlt) with e | e
            · rw [← e] at hpos; omega
            · have := h2 i _ e (by omega) hpos
              omega
        · rw [if_neg hpos]
          refine ⟨fun i h => ?_, fun h => by simp at h⟩
          rw [Option.some.injEq] at h
          subst h
          exact ⟨by omega, by omega⟩
    · rw [if_neg hlu]
      exact ⟨fun i h => by simp at h, fun _ i hl hi => by omega⟩

theorem bsearch_conforms : Conforms bsearch := by
  intro cmp n h1 h2
  obtain ⟨a, b⟩ := bsearchLoop_spec cmp n h1 h2 (n + 1) 0 n (Nat.le_refl n) (by omega)
  exact ⟨a, fun h i hi => b h i (Nat.zero_le i) hi⟩

/-! ### Unique values -/

theorem inner_loop (u c : Nat → Int) (t : Int) (n : Nat) :
    (List.range n).foldl (fun (o : Bool × (Nat → Int)) j => if t = u j then (false, write o.2 j (o.2 j + 1)) else o) (true, c) =
      (decide (∀ j < n, t ≠ u j), fun j => if j < n ∧ t = u j then c j + 1 else c j) := by
  induction n with
  | zero => simp
  | succ n ih =>
    rw [List.range_succ, List.foldl_append, ih]
    simp only [List.foldl_cons, List.foldl_nil]
    by_cases h : t = u n
    · rw [if_pos h]
      refine Prod.ext ?_ ?_
      · symm
        simp only [decide_eq_false_iff_not]
        exact fun hh => hh n (by omega) h
      · funext j
        simp only [write]
        by_cases hj : j = n
        · subst hj
          rw [if_pos rfl, if_neg (by omega), if_pos ⟨by omega, h⟩]
        · rw [if_neg hj]
          by_cases hc : j < n ∧ t = u j
          · rw [if_pos hc, if_pos ⟨by omega, hc.2⟩]
          · rw [if_neg hc, if_neg (fun hh => hc ⟨by omega, hh.2⟩)]
    · rw [if_neg h]
      refine Prod.ext ?_ ?_
      · simp only [decide_eq_decide]
        constructor
        · intro hh j hj
          by_cases e : j = n
          · rw [e]; exact h
          · exact hh j (by omega)
        · exact fun hh j hj => hh j (by omega)
      · funext j
        show (if j < n ∧ t = u j then c j + 1 else c j) = if j < n + 1 ∧ t = u j then c j + 1 else c j
        by_cases hc : j < n ∧ t = u j
        · rw [if_pos hc, if_pos ⟨by omega, hc.2⟩]
        · rw [if_neg hc, if_neg (fun hh => ?_)]
          by_cases e : j = n
          · rw [e] at hh; exact h hh.2
          · exact hc ⟨by omega, hh.2⟩

/-- The state after the elements `l` of an input of length `n`. -/
structure UInv (n : Nat) (l : List Int) (s : Unique) : Prop where
  le : s.n ≤ l.length
  inj : ∀ i < s.n, ∀ j < s.n, s.unique i = s.unique j → i = j
  mem : ∀ v, v ∈ l ↔ ∃ j < s.n, s.unique j = v
  cnt : ∀ j < s.n, s.count j = l.count (s.unique j)
  rest : ∀ j, s.n ≤ j → j < n → s.unique j = 0 ∧ s.count j = 0
  sum : ∑ j ∈ Finset.range s.n, s.count j = l.length

theorem uniqueStep_inv {n : Nat} {l : List Int} {s : Unique} {t : Int} (h : UInv n l s) (hn : l.length < n) :
    UInv n (l ++ [t]) (uniqueStep s t) := by
  unfold uniqueStep
  rw [inner_loop]
  dsimp only
  by_cases hnew : ∀ j < s.n, t ≠ s.unique j
  · rw [decide_eq_true hnew, if_pos rfl]
    have hc : ∀ j, (if j < s.n ∧ t = s.unique j then s.count j + 1 else s.count j) = s.count j := by
      intro j
      rw [if_neg (fun hh => hnew j hh.1 hh.2)]
    have hnot : t ∉ l := fun hm => by
      obtain ⟨j, hj, e⟩ := (h.mem t).1 hm
      exact hnew j hj e.symm
    refine ⟨?_, ?_, ?_, ?_, ?_, ?_⟩
    · rw [List.length_append]
      have := h.le
      simp only [List.length_cons, List.length_nil]
      omega
    · intro i hi j hj e
      simp only [write] at e hi hj
      by_cases ei : i = s.n
      · by_cases ej : j = s.n
        · omega
        · rw [if_pos ei, if_neg ej] at e
          exact absurd e (hnew j (by omega))
      · by_cases ej : j = s.n
        · rw [if_neg ei, if_pos ej] at e
          exact absurd e.symm (hnew i (by omega))
        · rw [if_neg ei, if_neg ej] at e
          exact h.inj i (by omega) j (by omega) e
    · intro v
      rw [List.mem_append, List.mem_singleton, h.mem v]
      simp only [write]
      constructor
      · rintro (⟨j, hj, e⟩ | e)
        · exact ⟨j, by omega, by rw [if_neg (by omega)]; exact e⟩
        · exact ⟨s.n, by omega, by rw [if_pos rfl]; exact e.symm⟩
      · rintro ⟨j, hj, e⟩
        by_cases ej : j = s.n
        · rw [if_pos ej] at e
          exact .inr e.symm
        · rw [if_neg ej] at e
          exact .inl ⟨j, by omega, e⟩
    · intro j hj
      have hj : j < s.n + 1 := hj
      simp only [write]
      by_cases ej : j = s.n
      · rw [if_pos ej, if_pos ej, List.count_append, List.count_singleton_self, List.count_eq_zero_of_not_mem hnot]
        rfl
      · have hlt : j < s.n := by omega
        rw [if_neg ej, if_neg ej, hc, h.cnt j hlt, List.count_append, List.count_singleton, if_neg (fun hh => hnew j hlt ?_)]
        · simp
        · simpa using hh
    · intro j hj hj'
      have hj : s.n + 1 ≤ j := hj
      simp only [write]
      have hne : j ≠ s.n := by omega
      rw [if_neg hne, if_neg hne, hc]
      exact h.rest j (by omega) hj'
    · rw [Finset.sum_range_succ, List.length_append]
      simp only [write]
      rw [if_pos trivial, Finset.sum_congr rfl (g := s.count) (fun j hj => ?_), h.sum]
      · simp
      · have : j < s.n := Finset.mem_range.1 hj
        rw [if_neg (by omega), hc]
  · rw [decide_eq_false hnew, if_neg (by simp)]
    push Not at hnew
    obtain ⟨k, hk, ek⟩ := hnew
    have huniq : ∀ j < s.n, (t = s.unique j ↔ j = k) := fun j hj =>
      ⟨fun e => h.inj j hj k hk (by rw [← e, ← ek]), fun e => by rw [e]; exact ek⟩
    refine ⟨?_, h.inj, ?_, ?_, ?_, ?_⟩
    · rw [List.length_append]
      have := h.le
      show s.n ≤ _
      omega
    · intro v
      rw [List.mem_append, List.mem_singleton, h.mem v]
      constructor
      · rintro (hh | e)
        · exact hh
        · exact ⟨k, hk, by rw [e]; exact ek.symm⟩
      · exact .inl
    · intro j hj
      have hj' : j < s.n := hj
      simp only [List.count_append, List.count_singleton]
      by_cases e : j = k
      · rw [if_pos ⟨hj', (huniq j hj').2 e⟩, h.cnt j hj', if_pos (by simpa using (huniq j hj').2 e)]
        push_cast
        ring
      · rw [if_neg (fun hh => e ((huniq j hj').1 hh.2)), h.cnt j hj', if_neg (fun hh => e ((huniq j hj').1 (by simpa using hh)))]
        simp
    · intro j hj hj'
      have hj2 : s.n ≤ j := hj
      show s.unique j = 0 ∧ (if j < s.n ∧ t = s.unique j then s.count j + 1 else s.count j) = 0
      rw [if_neg (by omega)]
      exact h.rest j hj2 hj'
    · show ∑ j ∈ Finset.range s.n, (if j < s.n ∧ t = s.unique j then s.count j + 1 else s.count j) = _
      have : ∀ j ∈ Finset.range s.n, (if j < s.n ∧ t = s.unique j then s.count j + 1 else s.count j) = s.count j + (if j = k then 1 else 0) := by
        intro j hj
        have hj' := Finset.mem_range.1 hj
        by_cases e : j = k
        · rw [if_pos ⟨hj', (huniq j hj').2 e⟩, if_pos e]
        · rw [if_neg (fun hh => e ((huniq j hj').1 hh.2)), if_neg e, add_zero]
      rw [Finset.sum_congr rfl this, Finset.sum_add_distrib, h.sum, Finset.sum_ite_eq' , if_pos (Finset.mem_range.2 hk), List.length_append]
      simp

theorem uniquecount_inv (inp : List Int) (u c : Nat → Int) : UInv inp.length inp (uniquecount inp u c) := by
  have key : ∀ (l l' : List Int) (s : Unique), UInv inp.length l s → inp = l ++ l' → UInv inp.length inp (l'.foldl uniqueStep s) := by
    intro l l'
    induction l' generalizing l with
    | nil =>
      intro s h e
      rw [List.append_nil] at e
      rw [← e] at h
      exact h
    | cons t l' ih =>
      intro s h e
      refine ih (l ++ [t]) _ (uniqueStep_inv h ?_) (by rw [e]; simp)
      rw [e, List.length_append, List.length_cons]
      omega
  refine key [] inp _ ⟨Nat.le_refl 0, fun i hi => by simp at hi, fun v => by simp, fun j hj => by simp at hj, fun j _ hj => ?_, by simp⟩ rfl
  dsimp only
  rw [write_loop (fun _ => (0 : Int)), write_loop (fun _ => (0 : Int))]
  dsimp only
  rw [if_pos hj, if_pos hj]
  exact ⟨rfl, rfl⟩

theorem count_pos_iff {inp : List Int} {s : Unique} (h : UInv inp.length inp s) {j : Nat} (hj : j < inp.length) :
    s.count j > 0 ↔ j < s.n := by
  by_cases hlt : j < s.n
  · rw [h.cnt j hlt]
    have : s.unique j ∈ inp := (h.mem _).2 ⟨j, hlt, rfl⟩
    have := List.count_pos_iff.2 this
    constructor
    · exact fun _ => hlt
    · exact fun _ => by exact_mod_cast this
  · rw [(h.rest j (by omega) hj).2]
    constructor
    · intro hh; omega
    · intro hh; omega

theorem visited_spec {inp : List Int} {s : Unique} (h : UInv inp.length inp s) (hz : s.count inp.length ≤ 0) :
    ∀ k i, i + k = s.n → ∀ fuel, k < fuel →
      visited s inp.length fuel i = some ((List.range k).map fun j => (s.unique (i + j), s.count (i + j))) := by
  intro k
  induction k with
  | zero =>
    intro i hi fuel hf
    obtain ⟨f, rfl⟩ : ∃ f, fuel = f + 1 := ⟨fuel - 1, by omega⟩
    have hle := h.le
    unfold visited
    rw [if_neg (by omega), if_neg]
    · rfl
    by_cases hin : i < inp.length
    · rw [count_pos_iff h hin]; omega
    · have : i = inp.length := by omega
      rw [this]; omega
  | succ k ih =>
    intro i hi fuel hf
    obtain ⟨f, rfl⟩ : ∃ f, fuel = f + 1 := ⟨fuel - 1, by omega⟩
    have hle := h.le
    unfold visited
    rw [if_neg (by omega), if_pos ((count_pos_iff h (by omega)).2 (by omega)), ih (i + 1) (by omega) f (by omega),
      List.range_succ_eq_map]
    simp only [Option.map_some, List.map_cons, List.map_map, Nat.add_zero]
    congr 2
    refine List.map_congr_left fun j _ => ?_
    simp only [Function.comp]
    rw [show i + 1 + j = i + (j + 1) by omega]

end Ascot.MathC
