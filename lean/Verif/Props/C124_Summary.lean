import Verif.Model.StatePy
import Verif.Spec.Query
import Verif.Model.Error
import Mathlib.Data.Nat.Bitwise
import Mathlib.Tactic.FinCases
import Mathlib.Tactic.IntervalCases

/-!
# C124: selecting and summarising markers by how they ended

Full statement: a query returns exactly the markers that satisfy it, and the summary lists every
end condition with the number of its markers and every error with its message, line and module.
This is false for markers with errors (`aborted_violation`, `summary_violation`); the theorems with
suffix `_partial` are about the others.
-/

set_option linter.unusedSectionVars false
set_option linter.unusedSimpArgs false

namespace Ascot.C124
open Ascot.StatePy Ascot.Query
open Ascot.Options (Res)

/-- The bit of an item in the numbers shown to users. -/
def pos : Item → ℕ
  | .none => 0
  | .aborted => 1
  | .cond i => i + 2

theorem flag_name (x : Item) : flag x.name = some (2 ^ pos x) := by
  cases x with
  | none => rfl
  | aborted => rfl
  | cond i => fin_cases i <;> rfl

theorem name_ne (x : Item) : x.name ≠ "NOT" := by
  cases x with
  | none => decide
  | aborted => decide
  | cond i => fin_cases i <;> decide

theorem and_yes (b y k : ℕ) : b &&& (y ||| 2 ^ k) = y ||| 2 ^ k ↔ b &&& y = y ∧ b.testBit k = true := by
  constructor
  · intro h
    have hb : ∀ i, (b.testBit i && (y.testBit i || decide (k = i))) = (y.testBit i || decide (k = i)) := by
      intro i
      have := congrArg (fun n => n.testBit i) h
      simpa [Nat.testBit_and, Nat.testBit_or, Nat.testBit_two_pow] using this
    refine ⟨Nat.eq_of_testBit_eq fun i => ?_, ?_⟩
    · have := hb i
      rw [Nat.testBit_and]
      revert this
      cases b.testBit i <;> cases y.testBit i <;> simp
    · have := hb k
      simpa using this
  · rintro ⟨h1, h2⟩
    refine Nat.eq_of_testBit_eq fun i => ?_
    have hb := congrArg (fun n => n.testBit i) h1
    simp only [Nat.testBit_and] at hb
    simp only [Nat.testBit_and, Nat.testBit_or, Nat.testBit_two_pow]
    by_cases hk : k = i
    · subst hk; simp [h2]
    · simpa [hk] using hb

theorem and_non (b n k : ℕ) : b &&& (n ||| 2 ^ k) = 0 ↔ b &&& n = 0 ∧ b.testBit k = false := by
  constructor
  · intro h
    have hb : ∀ i, (b.testBit i && (n.testBit i || decide (k = i))) = false := by
      intro i
      have := congrArg (fun n => n.testBit i) h
      simpa [Nat.testBit_and, Nat.testBit_or, Nat.testBit_two_pow] using this
    refine ⟨Nat.eq_of_testBit_eq fun i => ?_, ?_⟩
    · have := hb i
      rw [Nat.testBit_and, Nat.zero_testBit]
      revert this
      cases b.testBit i <;> cases n.testBit i <;> simp
    · have := hb k
      simpa using this
  · rintro ⟨h1, h2⟩
    refine Nat.eq_of_testBit_eq fun i => ?_
    have hb := congrArg (fun n => n.testBit i) h1
    simp only [Nat.testBit_and, Nat.zero_testBit] at hb
    simp only [Nat.testBit_and, Nat.testBit_or, Nat.testBit_two_pow, Nat.zero_testBit]
    by_cases hk : k = i
    · subst hk; simp [h2]
    · simpa [hk] using hb

/-- A query is read without error, and its flags decide. -/
theorem parse_words (q : Query) (y n : ℕ) : ∃ y' n', parseQuery (words q) y n = .ok (y', n') ∧
    ∀ b : ℕ, ((b &&& y' = y' ∧ b &&& n' = 0) ↔
      (b &&& y = y ∧ b &&& n = 0) ∧ ∀ x ∈ q, (b.testBit (pos x.2) = true ↔ x.1 = false)) := by
  induction q generalizing y n with
  | nil => exact ⟨y, n, rfl, fun b => by simp⟩
  | cons x q ih =>
    obtain ⟨neg, x⟩ := x
    cases neg with
    | true =>
      obtain ⟨y', n', h1, h2⟩ := ih y (n ||| 2 ^ pos x)
      refine ⟨y', n', ?_, fun b => ?_⟩
      · show parseQuery ("NOT" :: x.name :: words q) y n = _
        simp only [parseQuery, flag_name, if_true]
        exact h1
      · rw [h2, and_non]
        simp only [List.forall_mem_cons, Bool.true_eq_false, iff_false, Bool.not_eq_true]
        tauto
    | false =>
      obtain ⟨y', n', h1, h2⟩ := ih (y ||| 2 ^ pos x) n
      refine ⟨y', n', ?_, fun b => ?_⟩
      · show parseQuery (x.name :: words q) y n = _
        rw [parseQuery.eq_def]
        simp only [flag_name, name_ne x, if_false]
        exact h1
      · rw [h2, and_yes]
        simp only [List.forall_mem_cons, iff_true]
        tauto

/-- The numbers shown for markers without errors. -/
theorem endcond_bits (ec : ℕ) (x : Item) : (endcond ec 0).testBit (pos x) = true ↔ x.Holds ec 0 := by
  have h1 : endcond ec 0 = if ec = 0 then 1 else ec <<< 2 := by
    unfold endcond
    simp only [gt_iff_lt, lt_irrefl, if_false]
    by_cases h : ec = 0
    · subst h; rfl
    · have : ec <<< 2 ≠ 0 := by rw [Nat.shiftLeft_eq]; omega
      rw [if_neg this, if_neg h]
  rw [h1]
  cases x with
  | none =>
    simp only [pos, Item.Holds, and_true]
    by_cases h : ec = 0
    · simp [h]
    · rw [if_neg h]; simp [h, Nat.testBit_shiftLeft]
  | aborted =>
    simp only [pos, Item.Holds, ne_eq, not_true_eq_false, iff_false]
    by_cases h : ec = 0
    · rw [if_pos h]; decide
    · rw [if_neg h]; simp [Nat.testBit_shiftLeft]
  | cond i =>
    simp only [pos, Item.Holds]
    by_cases h : ec = 0
    · subst h
      simp [Nat.testBit_one_eq_true_iff_self_eq_zero]
    · rw [if_neg h]; simp [Nat.testBit_shiftLeft]

/-- A query accepts exactly the markers that satisfy it.  Missing: markers with errors, see
`aborted_violation`. -/
theorem query_partial (ec : ℕ) (q : Query) :
    ∃ b, check (endcond ec 0) (words q) = .ok b ∧ (b = true ↔ Sat ec 0 q) := by
  obtain ⟨y, n, h1, h2⟩ := parse_words q 0 0
  refine ⟨_, by unfold check; rw [h1]; rfl, ?_⟩
  rw [Bool.and_eq_true, decide_eq_true_eq, decide_eq_true_eq, h2]
  simp only [Nat.and_zero, and_self, true_and, Sat]
  exact forall₂_congr fun x _ => by rw [endcond_bits]

/-- With several queries the markers are returned that satisfy at least one. -/
theorem select_partial (ec : ℕ) (qs : List Query) :
    ∃ b, select (endcond ec 0) (qs.map words) = .ok b ∧ (b = true ↔ ∃ q ∈ qs, Sat ec 0 q) := by
  induction qs with
  | nil => exact ⟨false, rfl, by simp⟩
  | cons q qs ih =>
    obtain ⟨a, h1, h2⟩ := query_partial ec q
    obtain ⟨b, h3, h4⟩ := ih
    refine ⟨a || b, ?_, ?_⟩
    · rw [List.map_cons, select, h1, h3]; rfl
    · rw [Bool.or_eq_true, h2, h4]
      simp

/-- A word that is not the name of an end condition is refused. -/
theorem unknown (b : ℕ) (w : String) (h1 : w ≠ "NOT") (h2 : ∀ x : Item, w ≠ x.name) :
    check b [w] = .fail := by
  have hf : flag w = none := by
    have h3 := h2 .none
    have h4 := h2 .aborted
    have hc : ∀ i, w ≠ (Item.cond i).name := fun i => h2 (.cond i)
    simp only [Item.name] at h3 h4
    have e : ∀ l : List (String × ℕ), (∀ p ∈ l, w ≠ p.1) → l.lookup w = none := by
      intro l hl
      induction l with
      | nil => rfl
      | cons p l ih =>
        obtain ⟨a, k⟩ := p
        rw [List.lookup_cons]
        have : (w == a) = false := by
          have := hl (a, k) (by simp)
          simpa using this
        rw [this]
        exact ih fun p hp => hl p (by simp [hp])
    unfold flag
    apply e
    simp only [List.forall_mem_cons, List.not_mem_nil, false_imp_iff, implies_true, and_true]
    exact ⟨h3, h4, hc 0, hc 1, hc 2, hc 3, hc 4, hc 5, hc 6, hc 7, hc 8, hc 9, hc 10, hc 11⟩
  unfold check
  rw [parseQuery.eq_def]
  simp only [hf, h1, if_false]
  rfl

/-- Markers that were aborted are shown as `NONE` whatever ended them, so that a query for
`ABORTED` never returns any and one for `NONE` returns them all. -/
theorem aborted_violation (ec err : ℕ) (he : err > 0) :
    endcond ec err = 1 ∧ check (endcond ec err) ["ABORTED"] = .ok false ∧
    check (endcond ec err) ["NONE"] = .ok true ∧ summaryText (endcond ec err) = "NONE" := by
  have h : endcond ec err = 1 := by
    unfold endcond
    have h2 : (ec <<< 2) &&& 2 = 0 := by
      refine Nat.eq_of_testBit_eq fun i => ?_
      rw [Nat.testBit_and, Nat.zero_testBit, Nat.testBit_shiftLeft, show (2 : ℕ) = 2 ^ 1 from rfl,
        Nat.testBit_two_pow]
      by_cases hi : 1 = i
      · subst hi; simp
      · simp [hi]
    simp only [he, if_true, h2]
  rw [h]
  exact ⟨rfl, rfl, rfl, by decide⟩

/-! ## Summary -/

/-- A marker as it is in the file: end conditions, error message, line and module. -/
abbrev Mark := ℕ × ℕ × ℕ × ℕ

/-- Errors the Python interface has a message and a module for, or no error. -/
def Known (m : Mark) : Prop :=
  (m.2.1 = 0 ∧ m.2.2.1 = 0 ∧ m.2.2.2 = 0) ∨ (1 ≤ m.2.1 ∧ m.2.1 ≤ 7 ∧ 1 ≤ m.2.2.2 ∧ m.2.2.2 ≤ 27)

/-- What is to be listed for an error. -/
def Listed (m : Mark) (t : String × ℕ × String) : Prop :=
  m.2.1 ≠ 0 ∧ messages[m.2.1 - 1]? = some t.1 ∧ m.2.2.1 = t.2.1 ∧ modules[m.2.2.2 - 1]? = some t.2.2

theorem pick_ok (l : List String) (k : ℕ) (h1 : 1 ≤ k) (h2 : k ≤ l.length) :
    ∃ s, l[k - 1]? = some s ∧ pick l k = .ok s := by
  have h : k - 1 < l.length := by omega
  refine ⟨l[k - 1], List.getElem?_eq_getElem h, ?_⟩
  unfold pick
  rw [if_neg (by omega), List.getElem?_eq_getElem h]

theorem errorTexts_ok (l : List (ℕ × ℕ × ℕ)) (h : ∀ e ∈ l, Known (0, e)) :
    ∃ ts, errorTexts l = .ok ts ∧ ∀ t, t ∈ ts ↔ ∃ e ∈ l, Listed (0, e) t := by
  induction l with
  | nil => exact ⟨[], rfl, by simp⟩
  | cons e l ih =>
    obtain ⟨ts, h1, h2⟩ := ih fun e he => h e (by simp [he])
    obtain ⟨a, b, c⟩ := e
    rcases h (a, b, c) (by simp) with hk | hk
    · simp only at hk
      obtain ⟨rfl, rfl, rfl⟩ := hk
      refine ⟨ts, ?_, fun t => ?_⟩
      · rw [errorTexts, h1]; rfl
      · rw [h2]
        simp [Listed]
    · simp only at hk
      obtain ⟨m, hm, hm'⟩ := pick_ok messages a hk.1 hk.2.1
      obtain ⟨f, hf, hf'⟩ := pick_ok modules c hk.2.2.1 hk.2.2.2
      refine ⟨(m, b, f) :: ts, ?_, fun t => ?_⟩
      · rw [errorTexts, h1, errorText, if_pos (by simp only; omega)]
        simp only [hm', hf']
        rfl
      · rw [List.mem_cons, h2]
        have : Listed (0, a, b, c) t ↔ t = (m, b, f) := by
          obtain ⟨t1, t2, t3⟩ := t
          simp only [Listed, hm, hf, Option.some.injEq, Prod.mk.injEq]
          constructor
          · rintro ⟨-, rfl, rfl, rfl⟩; exact ⟨rfl, rfl, rfl⟩
          · rintro ⟨rfl, rfl, rfl⟩; exact ⟨by omega, rfl, rfl, rfl⟩
        rw [← this]
        simp

theorem errorTexts_fail (l : List (ℕ × ℕ × ℕ)) (e : ℕ × ℕ × ℕ) (he : e ∈ l)
    (h : 8 ≤ e.1 ∨ 28 ≤ e.2.2) : errorTexts l = .fail := by
  have hp : ∀ l : List String, ∀ k, (∃ s, pick l k = .ok s) ∨ pick l k = .fail := by
    intro l k
    unfold pick
    cases (if k = 0 then l.getLast? else l[k - 1]?) with
    | none => exact .inr rfl
    | some s => exact .inl ⟨s, rfl⟩
  have hx : ∀ e : ℕ × ℕ × ℕ, (∃ s, errorText e = .ok s) ∨ errorText e = .fail := by
    intro e
    unfold errorText
    split
    · rcases hp messages e.1 with ⟨s, hs⟩ | hs
      · rcases hp modules e.2.2 with ⟨s', hs'⟩ | hs'
        · exact .inl ⟨_, by rw [hs, hs']; rfl⟩
        · exact .inr (by rw [hs, hs']; rfl)
      · exact .inr (by rw [hs]; rfl)
    · exact .inl ⟨[], rfl⟩
  have hb : ∀ l : List String, ∀ k, l.length < k → pick l k = .fail := by
    intro l k hk
    unfold pick
    rw [if_neg (by omega), List.getElem?_eq_none (by omega)]
  have hf : errorText e = .fail := by
    unfold errorText
    rw [if_pos (by omega)]
    rcases h with h | h
    · rw [hb messages e.1 (by show 7 < _; omega)]; rfl
    · rcases hp messages e.1 with ⟨s, hs⟩ | hs
      · rw [hs, hb modules e.2.2 (by show 27 < _; omega)]; rfl
      · rw [hs]; rfl
  induction l with
  | nil => simp at he
  | cons a l ih =>
    rw [errorTexts]
    rcases hx a with ⟨s, hs⟩ | hs
    · rw [hs]
      rcases List.mem_cons.mp he with rfl | hl
      · rw [hf] at hs; cases hs
      · rw [ih hl]; rfl
    · rw [hs]; rfl

/-- The text of a set of end conditions names exactly those that hold. -/
theorem names_spec (ec : ℕ) (x : Item) : x.name ∈ names (endcond ec 0) ↔ x.Holds ec 0 := by
  have hm : x.name ∈ ["NONE", "ABORTED", "TLIM", "EMIN", "THERMAL", "WALL", "RHOMIN", "RHOMAX",
      "POLMAX", "TORMAX", "CPUMAX", "HYBRID", "NEUTRAL", "IONIZED"] := by
    cases x with
    | none => simp [Item.name]
    | aborted => simp [Item.name]
    | cond i => fin_cases i <;> simp [Item.name]
  unfold names
  rw [List.mem_filter]
  simp only [hm, true_and, flag_name]
  rw [← endcond_bits, decide_eq_true_eq]
  rw [Nat.and_two_pow]
  cases (endcond ec 0).testBit (pos x) <;> simp

theorem summaryText_names (b : ℕ) : summaryText b = " and ".intercalate (names b) := by
  unfold summaryText
  simp only
  refine if_neg fun h => ?_
  have hw : ∀ w ∈ names b, w.toList.head? ≠ some 'n' ∧ w.toList ≠ [] := by
    intro w hw
    have : ∀ w ∈ ["NONE", "ABORTED", "TLIM", "EMIN", "THERMAL", "WALL", "RHOMIN", "RHOMAX",
        "POLMAX", "TORMAX", "CPUMAX", "HYBRID", "NEUTRAL", "IONIZED"],
        w.toList.head? ≠ some 'n' ∧ w.toList ≠ [] := by decide
    exact this w (List.mem_filter.mp hw).1
  generalize names b = l at h hw
  match l with
  | [] => exact absurd h (by decide)
  | [w] =>
    have h1 := congrArg (fun s => s.toList.head?) h
    have h2 := hw w (by simp)
    rw [String.intercalate_singleton] at h1
    exact h2.1 (h1.trans (by decide))
  | w :: u :: l =>
    have h1 := congrArg (fun s => s.toList.head?) h
    have h2 := hw w (by simp)
    rw [String.intercalate_cons_cons] at h1
    simp only [String.toList_append, List.append_assoc] at h1
    rw [List.head?_append_of_ne_nil _ h2.2] at h1
    exact h2.1 (h1.trans (by decide))

/-- The summary counts every marker once, under a text that names its end conditions, and it lists
the errors of all markers and no others.  Missing: errors from the evaluation of atomic reactions
and from the beam-stopping coefficients (`summary_violation`), and the end conditions of markers
with errors (`aborted_violation`). -/
theorem summary_partial (ms : List Mark) (hk : ∀ m ∈ ms, Known m) :
    ∃ econds errs, summary ms = .ok (econds, errs) ∧
      (econds.map Prod.fst).sum = ms.length ∧
      (∀ m ∈ ms, m.2.1 = 0 → ∃ l, (∀ x : Item, x.name ∈ l ↔ x.Holds m.1 0) ∧
        (ms.countP (fun m' => endcond m'.1 m'.2.1 = endcond m.1 0), " and ".intercalate l) ∈ econds) ∧
      (∀ t, t ∈ errs ↔ ∃ m ∈ ms, Listed m t) := by
  obtain ⟨ts, h1, h2⟩ := errorTexts_ok (ms.map fun m => (m.2.1, m.2.2.1, m.2.2.2)).dedup (by
    intro e he
    obtain ⟨m, hm, rfl⟩ := List.mem_map.mp (List.mem_dedup.mp he)
    exact hk m hm)
  refine ⟨_, ts, by unfold summary; simp only [h1]; rfl, ?_, ?_, ?_⟩
  · rw [List.map_map]
    have := List.sum_map_count_dedup_eq_length (ms.map fun m => endcond m.1 m.2.1)
    rw [List.length_map] at this
    exact this
  · intro m hm h0
    refine ⟨names (endcond m.1 0), names_spec m.1, ?_⟩
    refine List.mem_map.mpr ⟨endcond m.1 0, List.mem_dedup.mpr (List.mem_map.mpr ⟨m, hm, by rw [h0]⟩), ?_⟩
    refine Prod.ext ?_ ?_
    · show List.count _ _ = _
      rw [List.count, List.countP_map]
      refine List.countP_congr fun x _ => ?_
      simp
    · exact summaryText_names _
  · intro t
    rw [h2]
    constructor
    · rintro ⟨e, he, hl⟩
      obtain ⟨m, hm, rfl⟩ := List.mem_map.mp (List.mem_dedup.mp he)
      exact ⟨m, hm, hl⟩
    · rintro ⟨m, hm, hl⟩
      exact ⟨_, List.mem_dedup.mpr (List.mem_map.mpr ⟨m, hm, rfl⟩), hl⟩

/-- The module shown for an error is the file that raised it, for all places in the code whose
module number the list has.  (`plasma_1Dt.c` uses the number of `plasma_1D.c`.) -/
theorem module_names : ∀ s ∈ Error.sites, s.file.val ≤ 27 → s.src ≠ "plasma_1Dt.c" →
    ∃ m, pick modules s.file.val = .ok m ∧ (m = s.src ∨ m ++ ".c" = s.src) := by
  have h : ∀ s ∈ Error.sites, (decide (s.file.val ≤ 27) && decide (s.src ≠ "plasma_1Dt.c")) = true →
      (match pick modules s.file.val with
        | .ok m => decide (m = s.src) || decide (m ++ ".c" = s.src)
        | _ => false) = true := by decide +kernel
  intro s hs h1 h2
  have h3 := h s hs (by simp [h1, h2])
  revert h3
  cases pick modules s.file.val <;> simp

/-- With one marker whose error came from the evaluation of atomic reactions (message 8) or from
the beam-stopping coefficients (module 28) there is no summary at all. -/
theorem summary_violation (ms : List Mark) (m : Mark) (hm : m ∈ ms)
    (h : 8 ≤ m.2.1 ∨ 28 ≤ m.2.2.2) : summary ms = .fail := by
  unfold summary
  simp only
  rw [errorTexts_fail _ (m.2.1, m.2.2.1, m.2.2.2)
    (List.mem_dedup.mpr (List.mem_map.mpr ⟨m, hm, rfl⟩)) h]
  rfl

/-- The code does raise such errors. -/
theorem summary_sites :
    (∃ s ∈ Error.sites, s.src = "atomic.c" ∧ s.type.val = 8) ∧
    (∃ s ∈ Error.sites, s.src = "suzuki.c" ∧ s.file.val = 28) := by
  decide +kernel

/-- Hypotheses of `summary_partial`: a marker at the wall, one that ran out of time, one with an
error, in a list without unknown errors. -/
example : ∀ m ∈ ([(8, 0, 0, 0), (1, 0, 0, 0), (0, 4, 302, 22)] : List Mark), Known m := by
  intro m hm
  simp only [List.mem_cons, List.not_mem_nil, or_false] at hm
  rcases hm with rfl | rfl | rfl <;> simp [Known]

/-- A query with and without `NOT`: reached the wall but not the minimum energy. -/
example : words [(false, .cond 3), (true, .cond 1)] = ["WALL", "NOT", "EMIN"] ∧
    Sat 8 0 [(false, .cond 3), (true, .cond 1)] ∧ ¬ Sat 10 0 [(false, .cond 3), (true, .cond 1)] := by
  refine ⟨by decide, ?_, ?_⟩
  · intro x hx
    simp only [List.mem_cons, List.not_mem_nil, or_false] at hx
    rcases hx with rfl | rfl <;> simp [Item.Holds] <;> decide
  · intro h
    have := h (true, .cond 1) (by simp)
    revert this
    simp [Item.Holds]
    decide

/-- Hypotheses of `unknown`: a misspelt name. -/
example : ("WAL" : String) ≠ "NOT" ∧ ∀ x : Item, ("WAL" : String) ≠ x.name := by
  refine ⟨by decide, fun x => ?_⟩
  cases x with
  | none => decide
  | aborted => decide
  | cond i => fin_cases i <;> decide

end Ascot.C124
