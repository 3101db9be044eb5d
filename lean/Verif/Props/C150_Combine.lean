import Mathlib.Algebra.Order.Ring.Int
import Mathlib.Data.List.Perm.Basic
import Mathlib.Algebra.BigOperators.Group.List.Lemmas
import Verif.Lemmas.Combine

set_option linter.unusedSectionVars false
set_option linter.unusedSimpArgs false

/-!
# C150: combining the outputs of several files

If a simulation has been split into several files, then the combined output is that of the whole
simulation: the states, the orbits and the transport coefficients of all markers, and the sums of the
distributions, whatever the number and the order of the files.

If a simulation has been continued, then the combined output has the markers of the first simulation,
with the end states of the second for those that have been continued, and the sums of the
distributions.

The second claim fails: times are counted twice (`time_wrong`), and nothing can be combined unless the
identifiers are in increasing order in both files (`unordered`).  Both fail without notice if the files
have not collected the same (`other_axes`, `orbits_dropped`, `distribution_dropped`).
-/
namespace Ascot.C150

open Combine Combined

variable {K : Type} [CommRing K] [LinearOrder K] [IsStrictOrderedRing K]

theorem total_pair (d e : Doc K) : total [d, e] = ⟨d.inistate ++ e.inistate, d.endstate ++ e.endstate,
    d.orbit ++ e.orbit, d.transcoef ++ e.transcoef, fun n i => d.dist n i + e.dist n i⟩ := by
  simp [total]

/-- Two files. -/
theorem added {lay : Layout K} {d e : Doc K} {t s : Run K} (ht : Holds lay d t) (hs : Holds lay e s) :
    ∃ r, combine true t s = .ok r ∧ Holds lay (total [d, e]) r := by
  obtain ⟨i, i1, i2⟩ := both_append ht.inistate hs.inistate
  obtain ⟨f, f1, f2⟩ := both_append ht.endstate hs.endstate
  obtain ⟨o, o1, o2⟩ := both_append ht.orbit hs.orbit
  obtain ⟨c, c1, c2⟩ := both_append ht.transcoef hs.transcoef
  obtain ⟨x, x1, x2⟩ := addDists_eq ht.dists (find_dist hs.once hs.dists)
  rw [total_pair]
  refine ⟨⟨i, f, x, o, c⟩, ?_, i2, f2, o2, c2, ht.once, x2⟩
  simp only [combine, if_true, i1, f1, x1, o1, c1]

theorem total_cons2 (d e : Doc K) (l : List (Doc K)) : total (total [d, e] :: l) = total (d :: e :: l) := by
  simp [total, List.append_assoc, add_assoc]

/-- Any number of files. -/
theorem all_files {lay : Layout K} : ∀ {l : List (Doc K)} {rs : List (Run K)} {d : Doc K} {t : Run K},
    Holds lay d t → List.Forall₂ (Holds lay) l rs →
    ∃ r, combineAll t rs = .ok r ∧ Holds lay (total (d :: l)) r
  | _, _, d, t, ht, .nil => ⟨t, rfl, by simpa [total] using ht⟩
  | _, _, d, t, ht, .cons (a := e) (b := s) (l₁ := l) (l₂ := rs) hs h => by
    obtain ⟨r, h1, h2⟩ := added ht hs
    obtain ⟨q, h3, h4⟩ := all_files h2 h
    rw [total_cons2] at h4
    exact ⟨q, by simp only [combineAll, h1]; exact h3, h4⟩

theorem dists_eq {as : List (Axes K)} {v : String → ℕ → K} : ∀ {x y : List (String × Dist K)},
    List.Forall₂ (fun a x => DistOf a (v a.name) x) as x →
    List.Forall₂ (fun a x => DistOf a (v a.name) x) as y → x = y := by
  induction as with
  | nil =>
    intro x y hx hy
    cases hx; cases hy; rfl
  | cons a as ih =>
    intro x y hx hy
    cases hx with
    | cons h1 h2 =>
      cases hy with
      | cons h3 h4 =>
        rename_i x xs y ys
        rw [ih h2 h4]
        obtain ⟨x, e, sh, o⟩ := x
        obtain ⟨y, e', sh', o'⟩ := y
        obtain ⟨a1, a2, a3, a4⟩ := h1
        obtain ⟨b1, b2, b3, b4⟩ := h3
        dsimp only at *
        subst a1 a2 a3 a4 b1 b2 b3 b4
        rfl

/-- The order of the files does not matter: the distributions are the same, and so are the rows up to their
order. -/
theorem any_order {lay : Layout K} {l l' : List (Doc K)} {d d' : Doc K} {t t' : Run K}
    {rs rs' : List (Run K)} (ht : Holds lay d t) (h : List.Forall₂ (Holds lay) l rs)
    (ht' : Holds lay d' t') (h' : List.Forall₂ (Holds lay) l' rs') (hp : (d :: l).Perm (d' :: l')) :
    ∃ r r' q q', combineAll t rs = .ok r ∧ combineAll t' rs' = .ok r' ∧ Holds lay q r ∧ Holds lay q' r' ∧
      r.dists = r'.dists ∧ q.inistate.Perm q'.inistate ∧ q.endstate.Perm q'.endstate ∧
      q.orbit.Perm q'.orbit ∧ q.transcoef.Perm q'.transcoef := by
  obtain ⟨r, h1, h2⟩ := all_files ht h
  obtain ⟨r', h3, h4⟩ := all_files ht' h'
  refine ⟨r, r', _, _, h1, h3, h2, h4, ?_, hp.flatMap_right _, hp.flatMap_right _, hp.flatMap_right _,
    hp.flatMap_right _⟩
  have e : (total (d :: l)).dist = (total (d' :: l')).dist := by
    funext n i
    exact (hp.map fun d => d.dist n i).sum_eq
  have := h4.dists
  rw [← e] at this
  exact dists_eq h2.dists this

/-- A continued simulation, if the identifiers are in increasing order in both files and the markers of the
second are among those of the first.  Times are added, see `time_wrong`. -/
theorem continued_partial {lay : Layout K} {d e : Doc K} {t s : Run K} (ht : Holds lay d t)
    (hs : Holds lay e s) (hi : ∀ ns, lay.endstate = some ns → "ids" ∈ ns)
    (hd : Ordered d.endstate) (he : Ordered e.endstate)
    (hsub : ∀ s ∈ e.endstate, ∃ r ∈ d.endstate, r "ids" = s "ids") :
    ∃ r, combine false t s = .ok r ∧ Holds lay ⟨d.inistate, renew d.endstate e.endstate,
      d.orbit ++ e.orbit, d.transcoef ++ e.transcoef, fun n i => d.dist n i + e.dist n i⟩ r := by
  obtain ⟨o, o1, o2⟩ := both_append ht.orbit hs.orbit
  obtain ⟨c, c1, c2⟩ := both_append ht.transcoef hs.transcoef
  obtain ⟨x, x1, x2⟩ := addDists_eq ht.dists (find_dist hs.once hs.dists)
  have hf : ∃ f, both continued t.endstate s.endstate = .ok f ∧
      Grp lay.endstate (renew d.endstate e.endstate) f := by
    have h1 := ht.endstate
    have h2 := hs.endstate
    revert h1 h2 hi
    cases lay.endstate <;> cases t.endstate <;> cases s.endstate <;> intro hi h1 h2 <;>
      simp only [Grp] at h1 h2
    · exact ⟨none, rfl, trivial⟩
    · obtain ⟨r, h3, h4⟩ := continued_eq hd he hsub h1.2 h2.2 (hi _ rfl)
      exact ⟨some r, by simp only [both, h3], h1.1, h4⟩
  obtain ⟨f, f1, f2⟩ := hf
  refine ⟨⟨t.inistate, f, x, o, c⟩, ?_, ht.inistate, f2, o2, c2, ht.once, x2⟩
  simp only [combine, Bool.false_eq_true, if_false, f1, x1, o1, c1]

theorem ordered_inj {l : List (Row K)} (h : Ordered l) {a b : Row K} (ha : a ∈ l) (hb : b ∈ l)
    (e : a "ids" = b "ids") : a = b := by
  induction l with
  | nil => cases ha
  | cons x l ih =>
    have h' := List.pairwise_cons.1 h
    rcases List.mem_cons.1 ha with rfl | ha' <;> rcases List.mem_cons.1 hb with rfl | hb'
    · rfl
    · exact absurd e (h'.1 b hb').ne
    · exact absurd e (h'.1 a ha').ne'
    · exact ih h'.2 ha' hb'

/-- The same for each marker. -/
theorem marker {l l' : List (Row K)} (hl' : Ordered l') :
    (renew l l').length = l.length ∧
    ∀ (i : ℕ) (r : Row K), l[i]? = some r →
      (∀ s ∈ l', s "ids" = r "ids" → (renew l l')[i]? = some (resumed r s)) ∧
      ((∀ s ∈ l', s "ids" ≠ r "ids") → (renew l l')[i]? = some r) := by
  refine ⟨by simp [renew], fun i r hr => ⟨fun s hs e => ?_, fun h => ?_⟩⟩
  · unfold renew
    rw [List.getElem?_map, hr, Option.map_some]
    cases hf : l'.find? fun s => s "ids" = r "ids" with
    | none =>
      rw [List.find?_eq_none] at hf
      exact absurd (by simpa using e) (hf s hs)
    | some q =>
      have e' : q "ids" = r "ids" := by simpa using List.find?_some hf
      rw [ordered_inj hl' (List.mem_of_find?_eq_some hf) hs (e'.trans e.symm)]
  · unfold renew
    rw [List.getElem?_map, hr, Option.map_some]
    have hf : (l'.find? fun s => s "ids" = r "ids") = none := by
      rw [List.find?_eq_none]
      intro q hq
      simpa using h q hq
    rw [hf]

/-- The times of the end states are those of the clock that the first simulation has used, since the markers
of the second start at the times at which those of the first have ended.  The combined end state has the
sum of the two times. -/
theorem time_wrong {lay : Layout K} {d e : Doc K} {t s : Run K} (ht : Holds lay d t)
    (hs : Holds lay e s) {ns : List String} (hn : lay.endstate = some ns) (hi : "ids" ∈ ns)
    (htm : "time" ∈ ns) (hd : Ordered d.endstate) (he : Ordered e.endstate)
    (hsub : ∀ s ∈ e.endstate, ∃ r ∈ d.endstate, r "ids" = s "ids") {i : ℕ} {a b : Row K}
    (ha : d.endstate[i]? = some a) (hb : b ∈ e.endstate) (hab : b "ids" = a "ids")
    (h0 : a "time" ≠ 0) :
    ∃ r st times v, combine false t s = .ok r ∧ r.endstate = some st ∧ st.get "time" = some times ∧
      times[i]? = some v ∧ v ≠ b "time" := by
  obtain ⟨r, h1, h2⟩ := continued_partial ht hs
    (fun ms h => by rw [hn] at h; cases h; exact hi) hd he hsub
  have h3 := h2.endstate
  rw [hn] at h3
  cases hr : r.endstate with
  | none => rw [hr] at h3; exact absurd h3 (by simp [Grp])
  | some st =>
    rw [hr] at h3
    simp only [Grp] at h3
    refine ⟨r, st, _, resumed a b "time", h1, hr, get_table h3.2 htm, ?_, ?_⟩
    · rw [List.getElem?_map, ((marker he).2 i a ha).1 b hb hab, Option.map_some]
    · simpa [resumed] using h0

/-- Nothing can be combined if the identifiers are not in increasing order in both files: there is an
exception, and nothing has been changed. -/
theorem unordered {lay : Layout K} {d e : Doc K} {t s : Run K} (ht : Holds lay d t) (hs : Holds lay e s)
    {ns : List String} (hn : lay.endstate = some ns) (hi : "ids" ∈ ns)
    (h : ¬ d.endstate.Pairwise (fun a b => a "ids" ≤ b "ids") ∨
      ¬ e.endstate.Pairwise (fun a b => a "ids" ≤ b "ids")) :
    combine false t s = .err .type t := by
  have h1 := ht.endstate
  have h2 := hs.endstate
  obtain ⟨ti, te, td, tb, tt⟩ := t
  dsimp only at h1
  rw [hn] at h1 h2
  cases te with
  | none => exact absurd h1 (by simp [Grp])
  | some te =>
    cases hse : s.endstate with
    | none => rw [hse] at h2; exact absurd h2 (by simp [Grp])
    | some se =>
      rw [hse] at h2
      simp only [Grp] at h1 h2
      have := continued_unsorted (get_table h1.2 hi) (get_table h2.2 hi)
        (by rw [List.pairwise_map, List.pairwise_map]; exact h)
      simp only [combine, Bool.false_eq_true, if_false, hse, both, this]

/-! ## Files that have not collected the same -/

/-- A run with only a distribution. -/
def onlyDist (e : List (List ℤ)) (v : List ℤ) : Run ℤ := ⟨none, none, [("5d", ⟨e, [2], v⟩)], none, none⟩

/-- Distributions with other axes are added bin by bin. -/
theorem other_axes : combine true (onlyDist [[0, 1, 2]] [1, 2]) (onlyDist [[0, 100, 200]] [10, 20]) =
    .ok (onlyDist [[0, 1, 2]] [11, 22]) := rfl

/-- A distribution that the second file does not have keeps its values, as if nothing had been in the
second run. -/
theorem distribution_dropped : combine true (onlyDist [[0, 1, 2]] [1, 2])
    ⟨none, none, [("rho5d", ⟨[[0, 1, 2]], [2], [5, 5]⟩)], none, none⟩ =
      .ok (onlyDist [[0, 1, 2]] [1, 2]) := rfl

/-- The orbits of the second file are dropped if the first does not have any. -/
theorem orbits_dropped : combine true (⟨none, some [("ids", [1])], [], none, none⟩ : Run ℤ)
    ⟨none, some [("ids", [2])], [], some [("ids", [2, 2])], none⟩ =
      .ok ⟨none, some [("ids", [1, 2])], [], none, none⟩ := rfl

/-- If the second file lacks a dataset, then there is an exception, and the datasets of the first file do not
have the same number of elements any more. -/
theorem half_way : combine true
    (⟨some [("ids", [1]), ("weight", [7]), ("znum", [1])], none, [], none, none⟩ : Run ℤ)
    ⟨some [("ids", [2]), ("znum", [1])], none, [], none, none⟩ =
      .err .key ⟨some [("ids", [1, 2]), ("weight", [7]), ("znum", [1])], none, [], none, none⟩ := rfl

/-- A marker that is not in the first file is dropped if it is the only one, and leads to an exception
otherwise. -/
theorem unknown_marker : combine false
    (⟨none, some [("ids", [1, 2])], [], none, none⟩ : Run ℤ) ⟨none, some [("ids", [5])], [], none, none⟩ =
      .ok ⟨none, some [("ids", [1, 2])], [], none, none⟩ ∧
    combine false
    (⟨none, some [("ids", [1, 2])], [], none, none⟩ : Run ℤ) ⟨none, some [("ids", [2, 5])], [], none, none⟩ =
      .err .value ⟨none, some [("ids", [1, 2])], [], none, none⟩ := ⟨rfl, rfl⟩

/-! ## Examples: the hypotheses can be met -/

/-- A marker with an identifier, a time and a weight. -/
def row (i t w : ℤ) : Row ℤ := fun n => if n = "ids" then i else if n = "time" then t else
  if n = "weight" then w else 0

theorem mem3 {α : Type} {x a b c : α} (h : x ∈ [a, b, c]) : x = a ∨ x = b ∨ x = c := by
  simpa using h

def lay : Layout ℤ := ⟨none, some ["ids", "time", "weight"], none, none, [⟨"5d", [[0, 1, 2]], [2]⟩]⟩

def d1 : Doc ℤ := ⟨[], [row 1 5 7, row 2 6 8, row 4 9 3], [], [], fun _ i => i⟩
def d2 : Doc ℤ := ⟨[], [row 2 10 8], [], [], fun _ _ => 3⟩

def r1 : Run ℤ := ⟨none, some [("ids", [1, 2, 4]), ("time", [5, 6, 9]), ("weight", [7, 8, 3])],
  [("5d", ⟨[[0, 1, 2]], [2], [0, 1]⟩)], none, none⟩
def r2 : Run ℤ := ⟨none, some [("ids", [2]), ("time", [10]), ("weight", [8])],
  [("5d", ⟨[[0, 1, 2]], [2], [3, 3]⟩)], none, none⟩

theorem holds1 : Holds lay d1 r1 where
  inistate := trivial
  endstate := ⟨by decide, rfl, by intro x hx; rcases mem3 hx with rfl | rfl | rfl <;> rfl⟩
  orbit := trivial
  transcoef := trivial
  once := by decide
  dists := .cons ⟨rfl, rfl, rfl, rfl⟩ .nil

theorem holds2 : Holds lay d2 r2 where
  inistate := trivial
  endstate := ⟨by decide, rfl, by intro x hx; rcases mem3 hx with rfl | rfl | rfl <;> rfl⟩
  orbit := trivial
  transcoef := trivial
  once := by decide
  dists := .cons ⟨rfl, rfl, rfl, rfl⟩ .nil

example : ∃ r, combineAll r1 [r2, r1] = .ok r ∧ Holds lay (total [d1, d2, d1]) r :=
  all_files holds1 (.cons holds2 (.cons holds1 .nil))

example : ∃ r r' q q', combineAll r1 [r2, r1] = .ok r ∧ combineAll r2 [r1, r1] = .ok r' ∧
    Holds lay q r ∧ Holds lay q' r' ∧ r.dists = r'.dists ∧ q.inistate.Perm q'.inistate ∧
    q.endstate.Perm q'.endstate ∧ q.orbit.Perm q'.orbit ∧ q.transcoef.Perm q'.transcoef :=
  any_order holds1 (.cons holds2 (.cons holds1 .nil)) holds2 (.cons holds1 (.cons holds1 .nil))
    (.swap _ _ _)

example : ∃ r, combine false r1 r2 = .ok r ∧ Holds lay ⟨[], renew d1.endstate d2.endstate, [], [],
    fun _ i => (i : ℤ) + 3⟩ r :=
  continued_partial holds1 holds2 (by simp [lay])
    (by simp [Ordered, d1, row]) (by simp [Ordered, d2])
    (by intro s hs; exact ⟨row 2 6 8, by simp [d1], by simp [d2] at hs; simp [hs, row]⟩)

/-- The marker that has been continued from time 6 until time 10 is said to have ended at time 16. -/
example : combine false r1 r2 = .ok ⟨none,
    some [("ids", [1, 2, 4]), ("time", [5, 16, 9]), ("weight", [7, 8, 3])],
    [("5d", ⟨[[0, 1, 2]], [2], [3, 4]⟩)], none, none⟩ := rfl

example : Ordered d2.endstate ∧ (∃ s ∈ d2.endstate, s "ids" = (row 2 6 8) "ids") ∧
    d1.endstate[1]? = some (row 2 6 8) :=
  ⟨by simp [Ordered, d2], ⟨_, List.mem_singleton.2 rfl, rfl⟩, rfl⟩

example : ∃ r st times v, combine false r1 r2 = .ok r ∧ r.endstate = some st ∧
    st.get "time" = some times ∧ times[1]? = some v ∧ v ≠ row 2 10 8 "time" :=
  time_wrong holds1 holds2 rfl (by decide) (by decide) (by simp [Ordered, d1, row])
    (by simp [Ordered, d2])
    (by intro s hs; exact ⟨row 2 6 8, by simp [d1], by simp [d2] at hs; simp [hs, row]⟩)
    (a := row 2 6 8) rfl (List.mem_singleton.2 rfl) rfl (by decide)

/-- A file in which the first two markers have been exchanged. -/
def d3 : Doc ℤ := ⟨[], [row 2 6 8, row 1 5 7], [], [], fun _ i => i⟩
def r3 : Run ℤ := ⟨none, some [("ids", [2, 1]), ("time", [6, 5]), ("weight", [8, 7])],
  [("5d", ⟨[[0, 1, 2]], [2], [0, 1]⟩)], none, none⟩

example : combine false r3 r2 = .err .type r3 :=
  unordered (lay := lay) (d := d3) (e := d2)
    ⟨trivial, ⟨by decide, rfl, by intro x hx; rcases mem3 hx with rfl | rfl | rfl <;> rfl⟩, trivial, trivial, by decide,
      .cons ⟨rfl, rfl, rfl, rfl⟩ .nil⟩ holds2 rfl (by decide)
    (Or.inl (by simp [d3, row]))

end Ascot.C150
