import Verif.Lemmas.InteractiveRun

/-!
# C172: a sequence of interactive runs keeps its results and releases its memory
-/

set_option linter.unusedSectionVars false
set_option linter.unusedSimpArgs false

namespace Ascot.C172
open Ascot.Session (Op Ans Sess)
open Ascot.InteractiveRun (St Tag Inv Live)

variable {α : Type}

/-- The blocks that are allocated. -/
def Allocated (s : St α) (k : ℕ) : Prop := s.heap k ≠ none

/-- For every sequence of calls in which beams are not simulated, all markers are well formed, and markers and options are not
changed while there are results: each call ends as documented, no memory is used or released that is not allocated, and looking
at a run shows the markers it began with and the states it ended in.
Missing: the other sequences, for which it is false, see below. -/
theorem session_partial (sim : α → α) (ops : List (Op α)) (S : Sess α) (as : List (Ans α))
    (h : Session.exec sim ops Session.begin = some (S, as)) :
    ∃ s, InteractiveRun.exec sim ops InteractiveRun.begin = some (s, as) := by
  obtain ⟨s, e, -⟩ := InteractiveRun.exec_inv sim ops InteractiveRun.inv_begin h
  exact ⟨s, e⟩

/-- If the user releases everything at the end of such a sequence, no memory remains allocated. -/
theorem released_partial (sim : α → α) (ops : List (Op α)) (S : Sess α) (as : List (Ans α))
    (h : Session.exec sim ops Session.begin = some (S, as)) :
    ∃ s, InteractiveRun.exec sim (ops ++ [.freeAll]) InteractiveRun.begin = some (s, as ++ [.done]) ∧ ∀ k, ¬ Allocated s k := by
  have h2 : ∀ (ops : List (Op α)) (S0 S : Sess α) (as : List (Ans α)), Session.exec sim ops S0 = some (S, as) →
      Session.exec sim (ops ++ [.freeAll]) S0 = some (Session.begin, as ++ [.done]) := by
    intro ops
    induction ops with
    | nil =>
      intro S0 S as h
      simp only [Session.exec, Option.some.injEq, Prod.mk.injEq] at h
      obtain ⟨rfl, rfl⟩ := h
      simp [Session.exec, Session.step]
    | cons o r ih =>
      intro S0 S as h
      simp only [Session.exec, Option.bind_eq_some_iff, Option.map_eq_some_iff, Prod.mk.injEq, Prod.exists] at h
      obtain ⟨S1, a, h1, S2, as', h2, rfl, rfl⟩ := h
      simp [Session.exec, h1, ih _ _ _ h2]
  obtain ⟨s, e, i⟩ := InteractiveRun.exec_inv sim _ InteractiveRun.inv_begin (h2 _ _ _ _ h)
  refine ⟨s, e, ?_⟩
  intro k hk
  obtain ⟨⟨t, l⟩, hx⟩ := Option.ne_none_iff_exists'.1 hk
  have := (i.heap _ _ _).1 hx
  simp [Live, Session.begin] at this

/-- While there are results, at most the markers, the final states, one distribution and one set of orbits are in memory, however
many runs were made before. -/
theorem bounded_partial (sim : α → α) (ops : List (Op α)) (S : Sess α) (as : List (Ans α))
    (h : Session.exec sim ops Session.begin = some (S, as)) :
    ∃ s, InteractiveRun.exec sim ops InteractiveRun.begin = some (s, as) ∧
      ∃ a b c d : ℕ, ∀ k, Allocated s k → k = a ∨ k = b ∨ k = c ∨ k = d := by
  obtain ⟨s, e, i⟩ := InteractiveRun.exec_inv sim ops InteractiveRun.inv_begin h
  refine ⟨s, e, s.ini.getD 0, s.fin.getD 0, s.dist.getD 0, s.orb.getD 0, ?_⟩
  intro k hk
  obtain ⟨⟨t, l⟩, hx⟩ := Option.ne_none_iff_exists'.1 hk
  rcases (i.heap _ _ _).1 hx with h | h | h | h
  · exact Or.inl (by simp [h.2.1])
  · exact Or.inr (Or.inl (by simp [h.2.1]))
  · exact Or.inr (Or.inr (Or.inl (by simp [h.2.1])))
  · exact Or.inr (Or.inr (Or.inr (by simp [h.2.1])))

/-! ## Failures -/

section
variable (sim : α → α) (x : α) (l : List α)

/-- All definitions of the model. -/
macro "compute" : tactic => `(tactic| simp [InteractiveRun.exec, InteractiveRun.step, InteractiveRun.begin, InteractiveRun.initMarkers,
  InteractiveRun.badMarkers, InteractiveRun.dropMarkers, InteractiveRun.prepare, InteractiveRun.alloc, InteractiveRun.release,
  InteractiveRun.free, InteractiveRun.freeInputs, InteractiveRun.freeMarkers, InteractiveRun.freeResults, InteractiveRun.diagFree,
  InteractiveRun.diagInit, InteractiveRun.initDist, InteractiveRun.initOrb, InteractiveRun.run, InteractiveRun.simulate,
  InteractiveRun.read, InteractiveRun.look, InteractiveRun.beam])

/-- Releasing the markers that a simulated beam left behind releases the previous markers for a second time. -/
theorem beam_double_free (m : α) (r : List α) :
    InteractiveRun.exec sim [.load, .markers (x :: l), .free false true false, .beam (m :: r), .freeAll] InteractiveRun.begin = none := by
  compute

/-- Also without previous markers a simulated beam leaves memory behind when everything is released. -/
theorem beam_leak (m : α) (r : List α) :
    ∃ s, InteractiveRun.exec sim [.load, .beam (m :: r), .freeAll] InteractiveRun.begin = some (s, [.done, .done, .done]) ∧
      ∃ k, Allocated s k := by
  compute
  exact ⟨1, by simp [Allocated]⟩

/-- A run after the results of a beam were released, without giving markers, is not refused in the documented way and leaves
memory behind: the check of the markers passes. -/
theorem beam_run (m : α) (r : List α) :
    ∃ s, InteractiveRun.exec sim [.load, .beam (m :: r), .free false false true, .run, .freeAll] InteractiveRun.begin
        = some (s, [.done, .done, .done, .raised, .done]) ∧ ∃ k, Allocated s k ∧ ∃ l, s.heap k = some (.copy, l) := by
  compute
  exact ⟨2, by simp [Allocated]⟩

/-- Giving new markers while the results of a run are kept changes these results: the initial states of the old run are those of
the new markers. -/
theorem old_run_changed (y : α) (l' : List α) (hl : l'.length = l.length) :
    ∃ s, InteractiveRun.exec sim [.load, .markers (x :: l), .run, .markers (y :: l'), .initial] InteractiveRun.begin
      = some (s, [.done, .done, .done, .done, .states (y :: l')]) := by
  compute
  simp [← hl]

/-- With fewer new markers, memory beyond the end of the array is read. -/
theorem old_run_unreadable (y : α) (l' : List α) (hl : l'.length < l.length) :
    InteractiveRun.exec sim [.load, .markers (x :: l), .run, .markers (y :: l'), .initial] InteractiveRun.begin = none := by
  compute
  omega

/-- Turning a diagnostic off before the results are released leaves its memory behind. -/
theorem options_leak :
    ∃ s, InteractiveRun.exec sim [.load, .options true false, .markers (x :: l), .run, .options false false, .freeAll]
        InteractiveRun.begin = some (s, [.done, .done, .done, .done, .done, .done]) ∧ ∃ k, Allocated s k := by
  compute
  exact ⟨4, by simp [Allocated]⟩

/-- Turning it on again before the results of a later run are released releases memory twice. -/
theorem options_double_free :
    InteractiveRun.exec sim [.load, .options true false, .markers (x :: l), .run, .free false false true, .options false false, .run,
      .options true false, .freeAll] InteractiveRun.begin = none := by
  compute

/-- Giving markers after everything was released, without making the inputs available again, uses the memory of the magnetic field
that was released. -/
theorem markers_without_field :
    InteractiveRun.exec sim [.load, .freeAll, .markers (x :: l)] InteractiveRun.begin = none := by
  compute

/-- Each attempt to give markers with a wrong column leaves memory behind. -/
theorem bad_markers_leak :
    ∃ s, InteractiveRun.exec sim [.badMarkers, .freeAll] InteractiveRun.begin = some (s, [.raised, .done]) ∧ ∃ k, Allocated s k := by
  compute
  exact ⟨0, by simp [Allocated]⟩

end

/-! ## Examples -/

/-- A session of three runs with two sets of markers, a call that is refused, and looks at the results. -/
example : Session.exec (fun n : ℕ => n + 100)
    [.load, .options true true, .markers [1, 2], .run, .run, .initial, .final, .free false false true, .run, .final, .free false true true,
     .options false true, .markers [5], .run, .final] Session.begin
    = some (⟨true, [5], some [105]⟩, [.done, .done, .done, .done, .raised, .states [1, 2], .states [101, 102], .done, .done,
      .states [101, 102], .done, .done, .done, .done, .states [105]]) := by
  simp [Session.exec, Session.step, Session.begin]

/-- Results kept after the inputs and the markers were released. -/
example : Session.exec (fun n : ℕ => n + 100) [.load, .markers [1], .run, .free true true false, .final, .run] Session.begin
    = some (⟨false, [], some [101]⟩, [.done, .done, .done, .done, .states [101], .raised]) := by
  simp [Session.exec, Session.step, Session.begin]

end Ascot.C172
