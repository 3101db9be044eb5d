import Mathlib.Data.List.Nodup
import Verif.Spec.InputDoc
set_option linter.unusedSectionVars false
set_option linter.unusedSimpArgs false

/-!
# C146: the interactive interface holds the inputs that were asked for, after any history of calls
-/
namespace Ascot.C146
open Ascot.InputState
open Ascot.InputDoc (Doc wanted Different ArgOk Good)

variable {D : Type}

/-! ### What the loops do -/

/-- Identifier and data come together, and memory was handled properly. -/
def Inv (s : St D) : Prop := s.bad = false ∧ ∀ i, s.qid i = none ↔ s.mem i = none

/-- Something else is initialised. -/
def clash (s : St D) (args : Inp → Arg D) (i : Inp) : Prop :=
  match args i with
  | .absent => False
  | .dict _ _ => s.qid i ≠ none
  | .group q => s.qid i ≠ none ∧ s.qid i ≠ some q

def isDict : Arg D → Bool
  | .dict _ _ => true
  | _ => false

def toRead (s : St D) (args : Inp → Arg D) (i : Inp) : Bool :=
  match args i with
  | .group q => !decide (s.qid i = some q)
  | _ => false

theorem freeOne_inv {s : St D} (h : Inv s) (i : Inp) :
    Inv (freeOne s i) ∧ (freeOne s i).file = s.file ∧ (freeOne s i).qid = Function.update s.qid i none ∧
      (freeOne s i).mem = Function.update s.mem i none := by
  obtain ⟨h1, h2⟩ := h
  unfold freeOne
  split_ifs with hq
  · refine ⟨⟨h1, h2⟩, rfl, ?_, ?_⟩
    · rw [← hq, Function.update_eq_self]
    · rw [← (h2 i).1 hq, Function.update_eq_self]
  · refine ⟨⟨?_, ?_⟩, rfl, rfl, rfl⟩
    · have : s.mem i ≠ none := fun e => hq ((h2 i).2 e)
      simp [h1, Option.isSome_iff_ne_none, this]
    · intro j
      by_cases hj : j = i
      · subst hj; simp
      · simpa [hj] using h2 j

/-- A clash without `switch` raises an exception before anything is changed. -/
theorem prepare_raises {args : Inp → Arg D} {s : St D} {L : List Inp} (h : ∃ i ∈ L, clash s args i) (rd pr : List Inp) :
    prepare args false L s rd pr = (none, s) := by
  induction L generalizing rd pr with
  | nil => simp at h
  | cons a L ih =>
    have key : ¬ clash s args a → ∃ i ∈ L, clash s args i := by
      intro hn
      obtain ⟨i, hi, hc⟩ := h
      rcases List.mem_cons.1 hi with rfl | hi
      · exact absurd hc hn
      · exact ⟨i, hi, hc⟩
    unfold clash at key
    unfold prepare
    cases ha : args a with
    | absent => simp only [ha] at key ⊢; exact ih (key id) _ _
    | dict d q =>
      simp only [ha] at key ⊢
      split_ifs with hq
      · exact ih (key (by simp [hq])) _ _
      · rfl
    | group q =>
      simp only [ha] at key ⊢
      split_ifs with hq hq'
      · exact ih (key (by simp [hq])) _ _
      · exact ih (key (by simp [hq'])) _ _
      · rfl

/-- Otherwise what is in the way is freed, and the inputs to be read and provided are listed. -/
theorem prepare_done {args : Inp → Arg D} {switch : Bool} {L : List Inp} (hL : L.Nodup) {s : St D} (hs : Inv s)
    (h : switch = true ∨ ∀ i ∈ L, ¬ clash s args i) (hn : .nbi ∈ L → ¬ clash s args .nbi) (rd pr : List Inp) :
    ∃ s', prepare args switch L s rd pr = (some (rd ++ L.filter (toRead s args), pr ++ L.filter fun i => isDict (args i)), s') ∧
      Inv s' ∧ s'.file = s.file ∧ ∀ i, (i ∈ L → clash s args i → s'.qid i = none ∧ s'.mem i = none) ∧
        ((i ∉ L ∨ ¬ clash s args i) → s'.qid i = s.qid i ∧ s'.mem i = s.mem i) := by
  induction L generalizing s rd pr with
  | nil => exact ⟨s, by simp [prepare], hs, rfl, by simp⟩
  | cons a L ih =>
    obtain ⟨haL, hL⟩ := List.nodup_cons.1 hL
    -- nothing is freed for this input
    have skip : ∀ rd' pr', (¬ clash s args a) →
        (rd' = rd ++ if toRead s args a then [a] else []) → (pr' = pr ++ if isDict (args a) then [a] else []) →
        ∃ s', prepare args switch L s rd' pr' = (some (rd ++ (a :: L).filter (toRead s args), pr ++ (a :: L).filter fun i => isDict (args i)), s') ∧
          Inv s' ∧ s'.file = s.file ∧ ∀ i, (i ∈ a :: L → clash s args i → s'.qid i = none ∧ s'.mem i = none) ∧
            ((i ∉ a :: L ∨ ¬ clash s args i) → s'.qid i = s.qid i ∧ s'.mem i = s.mem i) := by
      intro rd' pr' hc e1 e2
      obtain ⟨s', p1, p2, p3, p4⟩ := ih hL hs (h.imp_right fun h i hi => h i (List.mem_cons_of_mem _ hi)) (fun hi => hn (List.mem_cons_of_mem _ hi)) rd' pr'
      refine ⟨s', ?_, p2, p3, fun i => ⟨fun hi hci => ?_, fun hi => ?_⟩⟩
      · rw [p1, e1, e2]
        congr 3
        · by_cases ht : toRead s args a <;> simp [ht]
        · by_cases ht : isDict (args a) <;> simp [ht]
      · rcases List.mem_cons.1 hi with rfl | hi
        · exact absurd hci hc
        · exact (p4 i).1 hi hci
      · rcases hi with hi | hi
        · exact (p4 i).2 (Or.inl fun hm => hi (List.mem_cons_of_mem _ hm))
        · exact (p4 i).2 (Or.inr hi)
    -- this input is freed
    have freed : ∀ rd' pr', clash s args a →
        (rd' = rd ++ if toRead s args a then [a] else []) → (pr' = pr ++ if isDict (args a) then [a] else []) →
        ∃ s', prepare args switch L (freeOne s a) rd' pr' =
            (some (rd ++ (a :: L).filter (toRead s args), pr ++ (a :: L).filter fun i => isDict (args i)), s') ∧
          Inv s' ∧ s'.file = s.file ∧ ∀ i, (i ∈ a :: L → clash s args i → s'.qid i = none ∧ s'.mem i = none) ∧
            ((i ∉ a :: L ∨ ¬ clash s args i) → s'.qid i = s.qid i ∧ s'.mem i = s.mem i) := by
      intro rd' pr' hc e1 e2
      obtain ⟨f1, f2, f3, f4⟩ := freeOne_inv hs a
      have same : ∀ i ∈ L, (freeOne s a).qid i = s.qid i ∧ (freeOne s a).mem i = s.mem i := by
        intro i hi
        have : i ≠ a := fun e => haL (e ▸ hi)
        rw [f3, f4]; simp [this]
      have sameC : ∀ i ∈ L, (clash (freeOne s a) args i ↔ clash s args i) := fun i hi => by unfold clash; rw [(same i hi).1]
      have sameR : L.filter (toRead (freeOne s a) args) = L.filter (toRead s args) :=
        List.filter_congr fun i hi => by unfold toRead; rw [(same i hi).1]
      obtain ⟨s', p1, p2, p3, p4⟩ := ih hL f1 (h.imp_right fun h i hi hh => h i (List.mem_cons_of_mem _ hi) ((sameC i hi).1 hh))
        (fun hi hh => hn (List.mem_cons_of_mem _ hi) ((sameC _ hi).1 hh)) rd' pr'
      refine ⟨s', ?_, p2, p3.trans f2, fun i => ⟨fun hi hci => ?_, fun hi => ?_⟩⟩
      · rw [p1, e1, e2, sameR]
        congr 3
        · by_cases ht : toRead s args a <;> simp [ht]
        · by_cases ht : isDict (args a) <;> simp [ht]
      · rcases List.mem_cons.1 hi with rfl | hi
        · have := (p4 i).2 (Or.inl haL)
          rw [this.1, this.2, f3, f4]; simp
        · exact (p4 i).1 hi ((sameC i hi).2 hci)
      · have hia : i ≠ a := by
          rintro rfl
          rcases hi with hi | hi
          · exact hi (List.mem_cons_self ..)
          · exact hi hc
        have e : (freeOne s a).qid i = s.qid i ∧ (freeOne s a).mem i = s.mem i := by rw [f3, f4]; simp [hia]
        rw [← e.1, ← e.2]
        by_cases hiL : i ∈ L
        · rcases hi with hi | hi
          · exact absurd (List.mem_cons_of_mem _ hiL) hi
          · exact (p4 i).2 (Or.inr fun hh => hi ((sameC i hiL).1 hh))
        · exact (p4 i).2 (Or.inl hiL)
    have hsw : clash s args a → switch ≠ false := by
      rintro hc rfl
      rcases h with h | h
      · cases h
      · exact h a (List.mem_cons_self ..) hc
    have hnb : clash s args a → a ≠ .nbi := by
      rintro hc rfl
      exact hn (List.mem_cons_self ..) hc
    unfold prepare
    cases ha : args a with
    | absent =>
      simp only
      exact skip rd pr (by simp [clash, ha]) (by simp [toRead, ha]) (by simp [isDict, ha])
    | dict d q =>
      simp only
      split_ifs with hq h1 h2
      · exact skip _ _ (by simp [clash, ha, hq]) (by simp [toRead, ha]) (by simp [isDict, ha])
      · exact absurd h1 (hsw (by simp [clash, ha, hq]))
      · exact absurd h2 (hnb (by simp [clash, ha, hq]))
      · exact freed _ _ (by simp [clash, ha, hq]) (by simp [toRead, ha]) (by simp [isDict, ha])
    | group q =>
      simp only
      split_ifs with hq hq' h1 h2
      · exact skip _ _ (by simp [clash, ha, hq]) (by simp [toRead, ha, hq]) (by simp [isDict, ha])
      · exact skip _ _ (by simp [clash, ha, hq']) (by simp [toRead, ha, hq']) (by simp [isDict, ha])
      · exact absurd h1 (hsw (by simp [clash, ha, hq, hq']))
      · exact absurd h2 (hnb (by simp [clash, ha, hq, hq']))
      · exact freed _ _ (by simp [clash, ha, hq, hq']) (by simp [toRead, ha, hq]) (by simp [isDict, ha])

/-- Reading: everything listed is read if all can be read. -/
theorem readAll_done {rd L : List Inp} (hL : L.Nodup) {s : St D} (hb : s.bad = false)
    (h : ∀ i ∈ L, i ∈ rd → ∃ q d, s.qid i = some q ∧ s.file i q = some d ∧ s.mem i = none) :
    ∃ s', readAll rd L s = s' ∧ s'.bad = false ∧ s'.file = s.file ∧ s'.qid = s.qid ∧
      ∀ i, s'.mem i = if i ∈ L ∧ i ∈ rd then (s.qid i).bind (s.file i) else s.mem i := by
  induction L generalizing s with
  | nil => exact ⟨s, rfl, hb, rfl, rfl, by simp⟩
  | cons a L ih =>
    obtain ⟨haL, hL⟩ := List.nodup_cons.1 hL
    unfold readAll
    split_ifs with ha
    · obtain ⟨q, d, h1, h2, h3⟩ := h a (List.mem_cons_self ..) ha
      simp only [h1, h2]
      obtain ⟨s', e, p1, p2, p3, p4⟩ := ih hL (s := store s a d) (by simp [store, hb, h3]) (by
        intro i hi hir
        obtain ⟨q, d', g1, g2, g3⟩ := h i (List.mem_cons_of_mem _ hi) hir
        have : i ≠ a := fun e => haL (e ▸ hi)
        exact ⟨q, d', g1, g2, by simp [store, this, g3]⟩)
      refine ⟨s', e, p1, p2, p3, fun i => ?_⟩
      rw [p4]
      by_cases hia : i = a
      · subst hia
        simp [store, haL, ha, h1, h2]
      · simp [store, hia]
    · obtain ⟨s', e, p1, p2, p3, p4⟩ := ih hL hb (fun i hi => h i (List.mem_cons_of_mem _ hi))
      refine ⟨s', e, p1, p2, p3, fun i => ?_⟩
      rw [p4]
      by_cases hia : i = a
      · subst hia; simp [haL, ha]
      · simp [hia]

/-- Dictionaries: all are taken over unless one raises an exception; identifier and data always come together. -/
theorem provideAll_inv {args : Inp → Arg D} {L : List Inp} (hL : L.Nodup) {s : St D} (hs : Inv s) (h : ∀ i ∈ L, s.mem i = none) :
    Inv (provideAll args L s).st ∧ (provideAll args L s).st.file = s.file := by
  induction L generalizing s with
  | nil => exact ⟨hs, rfl⟩
  | cons a L ih =>
    obtain ⟨haL, hL⟩ := List.nodup_cons.1 hL
    have rest : ∀ i ∈ L, s.mem i = none := fun i hi => h i (List.mem_cons_of_mem _ hi)
    unfold provideAll
    cases args a with
    | absent => exact ih hL hs rest
    | group q => exact ih hL hs rest
    | dict d q =>
      cases d with
      | none => exact ⟨hs, rfl⟩
      | some d =>
        refine ih hL ⟨?_, fun i => ?_⟩ fun i hi => ?_
        · simp [store, hs.1, h a (List.mem_cons_self ..)]
        · by_cases hia : i = a
          · subst hia; simp [store]
          · simpa [store, hia] using hs.2 i
        · have : i ≠ a := fun e => haL (e ▸ hi)
          simp [store, this, rest i hi]

theorem provideAll_done {args : Inp → Arg D} {L : List Inp} (hL : L.Nodup) {s : St D} (h : ∀ i ∈ L, ∃ d q, args i = .dict (some d) q) :
    ∃ s', provideAll args L s = .done s' ∧
      ∀ i, (i ∈ L → ∀ d q, args i = .dict (some d) q → s'.qid i = some q ∧ s'.mem i = some d) ∧
        (i ∉ L → s'.qid i = s.qid i ∧ s'.mem i = s.mem i) := by
  induction L generalizing s with
  | nil => exact ⟨s, rfl, by simp⟩
  | cons a L ih =>
    obtain ⟨haL, hL⟩ := List.nodup_cons.1 hL
    obtain ⟨d, q, ha⟩ := h a (List.mem_cons_self ..)
    unfold provideAll
    simp only [ha]
    obtain ⟨s', e, p⟩ := ih hL (s := { store s a d with qid := Function.update s.qid a (some q) }) fun i hi => h i (List.mem_cons_of_mem _ hi)
    refine ⟨s', e, fun i => ⟨fun hi d' q' hd => ?_, fun hi => ?_⟩⟩
    · rcases List.mem_cons.1 hi with rfl | hi
      · rw [ha] at hd
        injection hd with e1 e2
        injection e1 with e1
        subst e1; subst e2
        rw [((p i).2 haL).1, ((p i).2 haL).2]
        simp [store]
      · exact (p i).1 hi d' q' hd
    · have h1 : i ≠ a := fun e => hi (e ▸ List.mem_cons_self ..)
      have h2 : i ∉ L := fun e => hi (List.mem_cons_of_mem _ e)
      rw [((p i).2 h2).1, ((p i).2 h2).2]
      simp [store, h1]

theorem mem_order (i : Inp) : i ∈ order := by cases i <;> decide
theorem mem_readOrder (i : Inp) : i ∈ readOrder := by cases i <;> decide
theorem mem_freeable (i : Inp) : i ∈ freeable ↔ i ≠ .nbi := by cases i <;> decide

theorem toRead_iff {s : St D} {args : Inp → Arg D} {i : Inp} : toRead s args i = true ↔ ∃ q, args i = .group q ∧ s.qid i ≠ some q := by
  unfold toRead
  cases args i <;> simp

theorem isDict_iff {a : Arg D} : isDict a = true ↔ ∃ d q, a = .dict d q := by cases a <;> simp [isDict]

/-- The state after the first two loops and the reading. -/
theorem reading {args : Inp → Arg D} {switch : Bool} {s : St D} (hs : Inv s) (hf : ∀ i q, args i = .group q → (s.file i q).isSome)
    (h : switch = true ∨ ∀ i, ¬ clash s args i) (hn : ¬ clash s args .nbi) :
    ∃ s', init s args switch = provideAll args (order.filter fun i => isDict (args i)) s' ∧ Inv s' ∧ s'.file = s.file ∧
      ∀ i, match args i with
        | .absent => s'.qid i = s.qid i ∧ s'.mem i = s.mem i
        | .group q => s'.qid i = some q ∧ s'.mem i = if s.qid i = some q then s.mem i else s.file i q
        | .dict _ _ => s'.qid i = none ∧ s'.mem i = none := by
  obtain ⟨s1, e1, i1, f1, v1⟩ := prepare_done (args := args) (switch := switch) (L := order) (by decide) hs (h.imp_right fun h i _ => h i) (fun _ => hn) [] []
  simp only [List.nil_append] at e1
  have rdIff : ∀ i, i ∈ order.filter (toRead s args) ↔ ∃ q, args i = .group q ∧ s.qid i ≠ some q := fun i => by
    rw [List.mem_filter, toRead_iff]; exact ⟨fun h => h.2, fun h => ⟨mem_order i, h⟩⟩
  -- after the first loop what is to be read is not initialised
  have empty1 : ∀ i q, args i = .group q → s.qid i ≠ some q → s1.qid i = none ∧ s1.mem i = none := by
    intro i q ha hq
    by_cases hc : clash s args i
    · exact (v1 i).1 (mem_order i) hc
    · have := (v1 i).2 (Or.inr hc)
      have hq0 : s.qid i = none := by
        by_contra h0
        exact hc (by unfold clash; rw [ha]; exact ⟨h0, hq⟩)
      rw [this.1, this.2]
      exact ⟨hq0, (hs.2 i).1 hq0⟩
  obtain ⟨s2, e2, b2, f2, q2, m2⟩ := readAll_done (rd := order.filter (toRead s args)) (L := readOrder) (by decide)
    (s := mark args (order.filter (toRead s args)) s1) i1.1 (by
      intro i _ hi
      obtain ⟨q, ha, hq⟩ := (rdIff i).1 hi
      obtain ⟨d, hd⟩ := Option.isSome_iff_exists.1 (hf i q ha)
      refine ⟨q, d, ?_, ?_, (empty1 i q ha hq).2⟩
      · simp only [mark, hi, if_true, ha]
      · show s1.file i q = some d
        rw [f1, hd])
  have val : ∀ i, match args i with
        | .absent => s2.qid i = s.qid i ∧ s2.mem i = s.mem i
        | .group q => s2.qid i = some q ∧ s2.mem i = if s.qid i = some q then s.mem i else s.file i q
        | .dict _ _ => s2.qid i = none ∧ s2.mem i = none := by
    intro i
    have hm := m2 i
    simp only [mem_readOrder, true_and] at hm
    rw [hm, q2]
    cases ha : args i with
    | absent =>
      have hr : i ∉ order.filter (toRead s args) := fun hh => by obtain ⟨q, hq, -⟩ := (rdIff i).1 hh; simp [ha] at hq
      simp only [mark, hr, if_false]
      exact (v1 i).2 (Or.inr (by simp [clash, ha]))
    | dict d q =>
      have hr : i ∉ order.filter (toRead s args) := fun hh => by obtain ⟨q, hq, -⟩ := (rdIff i).1 hh; simp [ha] at hq
      simp only [mark, hr, if_false]
      by_cases hc : clash s args i
      · exact (v1 i).1 (mem_order i) hc
      · have := (v1 i).2 (Or.inr hc)
        have hq0 : s.qid i = none := by
          by_contra h0
          exact hc (by unfold clash; rw [ha]; exact h0)
        rw [this.1, this.2]
        exact ⟨hq0, (hs.2 i).1 hq0⟩
    | group q =>
      simp only
      by_cases hq : s.qid i = some q
      · have hr : i ∉ order.filter (toRead s args) := fun hh => by
          obtain ⟨q', hq', hne⟩ := (rdIff i).1 hh
          rw [ha] at hq'
          injection hq' with e
          exact hne (e ▸ hq)
        have := (v1 i).2 (Or.inr (by simp [clash, ha, hq]))
        simp only [mark, hr, if_false, hq, if_true]
        exact ⟨this.1.trans hq, this.2⟩
      · have hr : i ∈ order.filter (toRead s args) := (rdIff i).2 ⟨q, ha, hq⟩
        rw [if_neg hq]
        simp only [mark, hr, if_true, ha, Option.bind_some, true_and]
        rw [f1]
  refine ⟨s2, ?_, ⟨b2, fun i => ?_⟩, f2.trans f1, val⟩
  · unfold init
    rw [e1]
    simp only
    rw [e2]
  · have := val i
    cases ha : args i with
    | absent => rw [ha] at this; rw [this.1, this.2]; exact hs.2 i
    | dict d q => rw [ha] at this; simp [this.1, this.2]
    | group q =>
      rw [ha] at this
      simp only at this
      rw [this.1, this.2]
      split_ifs with hq
      · have : s.mem i ≠ none := fun e => by rw [(hs.2 i).2 e] at hq; cases hq
        simp [this]
      · obtain ⟨d, hd⟩ := Option.isSome_iff_exists.1 (hf i q ha)
        simp [hd]

/-- If something else is initialised and `switch` is not set, an exception is raised and nothing has changed. -/
theorem conflict {args : Inp → Arg D} {s : St D} (h : ∃ i, clash s args i) : init s args false = .raised s := by
  unfold init
  obtain ⟨i, hi⟩ := h
  rw [prepare_raises ⟨i, mem_order i, hi⟩]

theorem dicts_nodup (args : Inp → Arg D) : (order.filter fun i => isDict (args i)).Nodup := List.Nodup.filter _ (by decide)

/-- Whatever is initialised, identifiers and data come together if groups can be read. -/
theorem init_inv {args : Inp → Arg D} {switch : Bool} {s : St D} (hs : Inv s) (hf : ∀ i q, args i = .group q → (s.file i q).isSome)
    (hn : switch = false ∨ args .nbi = .absent) :
    Inv (init s args switch).st ∧ (init s args switch).st.file = s.file := by
  by_cases hc : switch = false ∧ ∃ i, clash s args i
  · obtain ⟨rfl, hc⟩ := hc
    rw [conflict hc]
    exact ⟨hs, rfl⟩
  · have h1 : switch = true ∨ ∀ i, ¬ clash s args i := by
      cases switch
      · right; simpa using hc
      · left; rfl
    have h2 : ¬ clash s args .nbi := by
      rcases hn with hn | hn
      · intro h; exact hc ⟨hn, _, h⟩
      · simp [clash, hn]
    obtain ⟨s', e, i', f', v⟩ := reading hs hf h1 h2
    rw [e]
    have := provideAll_inv (args := args) (dicts_nodup args) i' (by
      intro i hi
      obtain ⟨d, q, ha⟩ := isDict_iff.1 (List.mem_filter.1 hi).2
      have := v i
      rw [ha] at this
      exact this.2)
    exact ⟨this.1, this.2.trans f'⟩

/-- The result of an initialisation in which nothing fails. -/
theorem init_done {args : Inp → Arg D} {switch : Bool} {s : St D} (hs : Inv s) (hf : ∀ i q, args i = .group q → (s.file i q).isSome)
    (hd : ∀ i d q, args i = .dict d q → d.isSome) (h : switch = true ∨ ∀ i, ¬ clash s args i) (hn : ¬ clash s args .nbi) :
    ∃ s', init s args switch = .done s' ∧
      ∀ i, match args i with
        | .absent => s'.qid i = s.qid i ∧ s'.mem i = s.mem i
        | .group q => s'.qid i = some q ∧ s'.mem i = if s.qid i = some q then s.mem i else s.file i q
        | .dict d q => s'.qid i = some q ∧ s'.mem i = d := by
  obtain ⟨s1, e, i1, f1, v⟩ := reading hs hf h hn
  obtain ⟨s2, e2, v2⟩ := provideAll_done (args := args) (dicts_nodup args) (s := s1) (by
    intro i hi
    obtain ⟨d, q, ha⟩ := isDict_iff.1 (List.mem_filter.1 hi).2
    obtain ⟨d', hd'⟩ := Option.isSome_iff_exists.1 (hd i d q ha)
    exact ⟨d', q, by rw [ha, hd']⟩)
  refine ⟨s2, e.trans e2, fun i => ?_⟩
  have vi := v i
  cases ha : args i with
  | absent =>
    rw [ha] at vi
    have := (v2 i).2 fun hi => by obtain ⟨d, q, hx⟩ := isDict_iff.1 (List.mem_filter.1 hi).2; simp [ha] at hx
    simp only at vi ⊢
    rw [this.1, this.2]; exact vi
  | group q =>
    rw [ha] at vi
    have := (v2 i).2 fun hi => by obtain ⟨d, q, hx⟩ := isDict_iff.1 (List.mem_filter.1 hi).2; simp [ha] at hx
    simp only at vi ⊢
    rw [this.1, this.2]; exact vi
  | dict d q =>
    obtain ⟨d', hd'⟩ := Option.isSome_iff_exists.1 (hd i d q ha)
    subst hd'
    exact (v2 i).1 (List.mem_filter.2 ⟨mem_order i, by simp [ha, isDict]⟩) d' q ha

theorem provideAll_raises {args : Inp → Arg D} {L : List Inp} {s : St D} (h : ∃ i ∈ L, ∃ q, args i = .dict none q) :
    ∃ s', provideAll args L s = .raised s' ∧ ∀ i, i ∉ L → s'.qid i = s.qid i ∧ s'.mem i = s.mem i := by
  induction L generalizing s with
  | nil => simp at h
  | cons a L ih =>
    have next : (∀ q, args a ≠ .dict none q) → ∃ i ∈ L, ∃ q, args i = .dict none q := by
      intro hn
      obtain ⟨i, hi, q, hq⟩ := h
      rcases List.mem_cons.1 hi with rfl | hi
      · exact absurd hq (hn q)
      · exact ⟨i, hi, q, hq⟩
    unfold provideAll
    cases ha : args a with
    | absent =>
      obtain ⟨s', e, p⟩ := ih (s := s) (next (by simp [ha]))
      exact ⟨s', e, fun i hi => p i fun hm => hi (List.mem_cons_of_mem _ hm)⟩
    | group q =>
      obtain ⟨s', e, p⟩ := ih (s := s) (next (by simp [ha]))
      exact ⟨s', e, fun i hi => p i fun hm => hi (List.mem_cons_of_mem _ hm)⟩
    | dict d q =>
      cases d with
      | none => exact ⟨s, rfl, fun i _ => ⟨rfl, rfl⟩⟩
      | some d =>
        obtain ⟨s', e, p⟩ := ih (s := { store s a d with qid := Function.update s.qid a (some q) }) (next (by simp [ha]))
        refine ⟨s', e, fun i hi => ?_⟩
        have := p i fun hm => hi (List.mem_cons_of_mem _ hm)
        have hne : i ≠ a := fun e => hi (e ▸ List.mem_cons_self ..)
        rw [this.1, this.2]
        simp [store, hne]

/-- A dictionary that cannot be taken over raises an exception; groups that were asked for in the same call have been read, and inputs that were not asked for are
unchanged. -/
theorem refused {args : Inp → Arg D} {switch : Bool} {s : St D} (hs : Inv s) (hf : ∀ i q, args i = .group q → (s.file i q).isSome)
    (h : switch = true ∨ ∀ i, ¬ clash s args i) (hn : ¬ clash s args .nbi) (hd : ∃ i q, args i = .dict none q) :
    ∃ s', init s args switch = .raised s' ∧
      ∀ i, match args i with
        | .absent => s'.qid i = s.qid i ∧ s'.mem i = s.mem i
        | .group q => s'.qid i = some q ∧ s'.mem i = if s.qid i = some q then s.mem i else s.file i q
        | .dict _ _ => True := by
  obtain ⟨s1, e, -, -, v⟩ := reading hs hf h hn
  obtain ⟨i, q, hi⟩ := hd
  obtain ⟨s2, e2, v2⟩ := provideAll_raises (args := args) (L := order.filter fun i => isDict (args i)) (s := s1)
    ⟨i, List.mem_filter.2 ⟨mem_order i, by simp [hi, isDict]⟩, q, hi⟩
  refine ⟨s2, e.trans e2, fun i => ?_⟩
  have vi := v i
  cases ha : args i with
  | absent =>
    rw [ha] at vi
    have := v2 i fun hi => by obtain ⟨d, q, hx⟩ := isDict_iff.1 (List.mem_filter.1 hi).2; simp [ha] at hx
    simp only at vi ⊢
    rw [this.1, this.2]; exact vi
  | group q =>
    rw [ha] at vi
    have := v2 i fun hi => by obtain ⟨d, q, hx⟩ := isDict_iff.1 (List.mem_filter.1 hi).2; simp [ha] at hx
    simp only at vi ⊢
    rw [this.1, this.2]; exact vi
  | dict d q => trivial

/-! ### Freeing -/

theorem fold_free {which : Inp → Bool} {L : List Inp} {s : St D} (hs : Inv s) :
    ∃ s', L.foldl (fun s i => if which i then freeOne s i else s) s = s' ∧ Inv s' ∧ s'.file = s.file ∧
      ∀ i, s'.qid i = (if i ∈ L ∧ which i = true then none else s.qid i) ∧ s'.mem i = if i ∈ L ∧ which i = true then none else s.mem i := by
  induction L generalizing s with
  | nil => exact ⟨s, rfl, hs, rfl, by simp⟩
  | cons a L ih =>
    rw [List.foldl_cons]
    by_cases ha : which a = true
    · obtain ⟨f1, f2, f3, f4⟩ := freeOne_inv hs a
      obtain ⟨s', e, p1, p2, p3⟩ := ih f1
      refine ⟨s', by simp only [ha, if_true]; exact e, p1, p2.trans f2, fun i => ?_⟩
      rw [(p3 i).1, (p3 i).2, f3, f4]
      by_cases hia : i = a
      · subst hia; simp [ha]
      · simp [hia]
    · obtain ⟨s', e, p1, p2, p3⟩ := ih hs
      refine ⟨s', by simp only [ha]; exact e, p1, p2, fun i => ?_⟩
      rw [(p3 i).1, (p3 i).2]
      by_cases hia : i = a
      · subst hia; simp [ha]
      · simp [hia]

theorem inputFree_spec {which : Inp → Bool} {s : St D} (hs : Inv s) :
    Inv (inputFree s which) ∧ (inputFree s which).file = s.file ∧
      ∀ i, ((i ≠ .nbi ∧ (which i = true ∨ ∀ j, j ≠ .nbi → which j = false)) → (inputFree s which).qid i = none ∧ (inputFree s which).mem i = none) ∧
        (¬ (i ≠ .nbi ∧ (which i = true ∨ ∀ j, j ≠ .nbi → which j = false)) →
          (inputFree s which).qid i = s.qid i ∧ (inputFree s which).mem i = s.mem i) := by
  unfold inputFree
  split_ifs with h
  · obtain ⟨s', e, p1, p2, p3⟩ := fold_free (which := which) (L := freeable) hs
    have e : free s which = s' := e
    rw [e]
    obtain ⟨j, hj, hw⟩ := List.any_eq_true.1 h
    have hno : ¬ ∀ j, j ≠ .nbi → which j = false := fun hh => by rw [hh j ((mem_freeable j).1 hj)] at hw; cases hw
    refine ⟨p1, p2, fun i => ⟨fun hi => ?_, fun hi => ?_⟩⟩
    · rw [(p3 i).1, (p3 i).2]
      have : i ∈ freeable ∧ which i = true := ⟨(mem_freeable i).2 hi.1, hi.2.resolve_right hno⟩
      simp [this]
    · rw [(p3 i).1, (p3 i).2]
      have : ¬ (i ∈ freeable ∧ which i = true) := fun hh => hi ⟨(mem_freeable i).1 hh.1, Or.inl hh.2⟩
      simp only [if_neg this, and_self]
  · obtain ⟨s', e, p1, p2, p3⟩ := fold_free (which := fun _ => true) (L := freeable) hs
    have e : free s (fun _ => true) = s' := e
    rw [e]
    have hno : ∀ j, j ≠ .nbi → which j = false := by
      intro j hj
      by_contra hw
      exact h (List.any_eq_true.2 ⟨j, (mem_freeable j).2 hj, by simpa using hw⟩)
    refine ⟨p1, p2, fun i => ⟨fun hi => ?_, fun hi => ?_⟩⟩
    · rw [(p3 i).1, (p3 i).2]
      simp [(mem_freeable i).2 hi.1]
    · rw [(p3 i).1, (p3 i).2]
      have : i ∉ freeable := fun hh => hi ⟨(mem_freeable i).1 hh, Or.inr hno⟩
      simp [this]

/-! ### The property -/

/-- The groups that are asked for can be read from the file that is open at that time. -/
def Reads (f : File D) : List (Op D) → Prop
  | [] => True
  | .load f' :: ops => Reads f' ops
  | .free _ :: ops => Reads f ops
  | .init args _ :: ops => (∀ i q, args i = .group q → (f i q).isSome) ∧ Reads f ops
  | .nbi a :: ops => (∀ q, a = .group q → (f .nbi q).isSome) ∧ Reads f ops

theorem safe_from {s : St D} (hs : Inv s) {ops : List (Op D)} (h : Reads s.file ops) : Inv (run s ops) := by
  induction ops generalizing s with
  | nil => exact hs
  | cons o ops ih =>
    rw [run, List.foldl_cons]
    cases o with
    | load f =>
      have := inputFree_spec (which := fun _ => false) hs
      exact ih (s := fileLoad s f) ⟨this.1.1, this.1.2⟩ h
    | free which =>
      have := inputFree_spec (which := which) hs
      exact ih (s := inputFree s which) this.1 (by rw [this.2.1]; exact h)
    | init args switch =>
      have := init_inv (args := fun i => if i ∈ freeable then args i else .absent) (switch := switch) hs (by
        intro i q hq
        split_ifs at hq
        exact h.1 i q hq) (Or.inr (by simp [freeable]))
      exact ih this.1 (this.2.symm ▸ h.2)
    | nbi a =>
      have := init_inv (args := fun i => if i = .nbi then a else .absent) (switch := false) hs (by
        intro i q hq
        split_ifs at hq with hi
        subst hi
        exact h.1 q hq) (Or.inl rfl)
      exact ih this.1 (this.2.symm ▸ h.2)

/-- After any history of calls, also if some raised exceptions: as long as the groups that were asked for could be read, what is marked as initialised has data and what is not has none, no
memory was freed that was not allocated, and none was lost. -/
theorem safe_partial (f : File D) (ops : List (Op D)) (h : Reads f ops) :
    (run (start f) ops).bad = false ∧ ∀ i, (run (start f) ops).qid i = none ↔ (run (start f) ops).mem i = none :=
  safe_from (s := start f) ⟨rfl, fun _ => by simp [start]⟩ h

/-- Whether a call raised an exception. -/
def raises : Out D → Bool
  | .done _ => false
  | .raised _ => true

/-- Which calls of a history raise exceptions. -/
def exceptions (s : St D) : List (Op D) → List Bool
  | [] => []
  | o :: ops => raises (step s o) :: exceptions (step s o).st ops

/-- What the user expects after a history. -/
noncomputable def expected (d : Doc D) : List (Op D) → Doc D
  | [] => d
  | o :: ops => expected (InputDoc.step d o).1 ops

noncomputable def expectedExceptions (d : Doc D) : List (Op D) → List Bool
  | [] => []
  | o :: ops => (InputDoc.step d o).2 :: expectedExceptions (InputDoc.step d o).1 ops

/-- The interface holds what the user expects. -/
def Holds (s : St D) (d : Doc D) : Prop :=
  s.file = d.file ∧ ∀ i, s.qid i = (d.shown i).map Prod.fst ∧ s.mem i = (d.shown i).map Prod.snd

/-- No injectors are initialised, and what is initialised under the identifier of a group is this group. -/
def Plain (d : Doc D) : Prop := d.shown .nbi = none ∧ ∀ i q x, d.shown i = some (q, x) → ∀ y, d.file i q = some y → y = x

theorem holds_inv {s : St D} {d : Doc D} (h : Holds s d) (hb : s.bad = false) : Inv s :=
  ⟨hb, fun i => by rw [(h.2 i).1, (h.2 i).2]; cases d.shown i <;> simp⟩

theorem clash_iff {s : St D} {d : Doc D} (h : Holds s d) (args : Inp → Arg D) (i : Inp) : clash s args i ↔ Different (d.shown i) (args i) := by
  unfold clash
  rw [(h.2 i).1]
  cases args i <;> rcases d.shown i with _ | ⟨q, x⟩ <;> simp [Different]

theorem init_holds {s : St D} {d : Doc D} (h : Holds s d) (hb : s.bad = false) (hp : Plain d) {args : Inp → Arg D} {switch : Bool}
    (ha : ∀ i, ArgOk d.file i (args i)) (hn : args .nbi = .absent) :
    Holds (init s args switch).st (InputDoc.init d args switch).1 ∧ (init s args switch).st.bad = false ∧ Plain (InputDoc.init d args switch).1 ∧
      raises (init s args switch) = (InputDoc.init d args switch).2 := by
  have hs := holds_inv h hb
  have hf : ∀ i q, args i = .group q → (s.file i q).isSome := fun i q hq => by
    have := ha i; rw [hq] at this; rw [h.1]; exact this
  have hd : ∀ i x q, args i = .dict x q → x.isSome := fun i x q hq => by
    have := ha i; rw [hq] at this; exact this.1
  unfold InputDoc.init
  split_ifs with hc
  · obtain ⟨rfl, i, hi⟩ := hc
    rw [conflict ⟨i, (clash_iff h args i).2 hi⟩]
    exact ⟨h, hb, hp, rfl⟩
  · have h1 : switch = true ∨ ∀ i, ¬ clash s args i := by
      cases switch
      · right; intro i hi; exact hc ⟨rfl, i, (clash_iff h args i).1 hi⟩
      · left; rfl
    have inv := init_inv (switch := switch) hs hf (Or.inr hn)
    obtain ⟨s', e, v⟩ := init_done hs hf hd h1 (by simp [clash, hn])
    rw [e] at inv ⊢
    refine ⟨⟨inv.2.trans h.1, fun i => ?_⟩, inv.1.1, ⟨?_, ?_⟩, rfl⟩
    · have vi := v i
      show s'.qid i = _ ∧ s'.mem i = _
      have ok := ha i
      cases hai : args i with
      | absent =>
        rw [hai] at vi
        simp only at vi
        rw [vi.1, vi.2]
        simpa [wanted, hai] using h.2 i
      | dict x q =>
        rw [hai] at vi
        simp only at vi
        rw [vi.1, vi.2]
        obtain ⟨y, rfl⟩ := Option.isSome_iff_exists.1 (hd i x q hai)
        simp [wanted, hai]
      | group q =>
        rw [hai] at vi ok
        simp only at vi
        rw [vi.1, vi.2]
        obtain ⟨y, hy⟩ := Option.isSome_iff_exists.1 (show (d.file i q).isSome from ok)
        simp only [wanted, hai, hy, Option.map_some, Option.some_or, true_and]
        split_ifs with hq
        · have hm := (h.2 i).2
          rw [(h.2 i).1] at hq
          obtain ⟨⟨q', x⟩, hx, rfl⟩ := Option.map_eq_some_iff.1 hq
          rw [hm, hx, hp.2 i q' x hx y hy]; rfl
        · rw [h.1, hy]
    · simp [hn, wanted, hp.1]
    · intro i q x hx y hy
      have ok := ha i
      cases hai : args i with
      | absent => simp only [hai, wanted, Option.none_or] at hx; exact hp.2 i q x hx y hy
      | dict x' q' =>
        rw [hai] at ok
        obtain ⟨z, rfl⟩ := Option.isSome_iff_exists.1 (hd i x' q' hai)
        simp only [hai, wanted, Option.map_some, Option.some_or, Option.some.injEq, Prod.mk.injEq] at hx
        rw [← hx.1] at hy
        have := ok.2
        simp only at hy
        rw [this] at hy
        cases hy
      | group q' =>
        rw [hai] at ok
        obtain ⟨z, hz⟩ := Option.isSome_iff_exists.1 (show (d.file i q').isSome from ok)
        simp only [hai, wanted, hz, Option.map_some, Option.some_or, Option.some.injEq, Prod.mk.injEq] at hx
        rw [← hx.1] at hy
        simp only at hy
        rw [hz] at hy
        injection hy with hy
        rw [← hy, hx.2]

theorem follows_from {s : St D} {d : Doc D} (h : Holds s d) (hb : s.bad = false) (hp : Plain d) {ops : List (Op D)} (hg : Good d.file ops) :
    Holds (run s ops) (expected d ops) ∧ exceptions s ops = expectedExceptions d ops := by
  classical
  induction ops generalizing s d with
  | nil => exact ⟨h, rfl⟩
  | cons o ops ih =>
    rw [run, List.foldl_cons, expected, exceptions, expectedExceptions]
    have close : ∀ {s' : St D} {d' : Doc D}, (step s o).st = s' → (InputDoc.step d o).1 = d' → Holds s' d' → s'.bad = false → Plain d' → Good d'.file ops →
        raises (step s o) = (InputDoc.step d o).2 →
        Holds (ops.foldl (fun s o => (step s o).st) (step s o).st) (expected (InputDoc.step d o).1 ops) ∧
          raises (step s o) :: exceptions (step s o).st ops = (InputDoc.step d o).2 :: expectedExceptions (InputDoc.step d o).1 ops := by
      rintro s' d' rfl rfl a1 a2 a3 a4 a5
      obtain ⟨b1, b2⟩ := ih a1 a2 a3 a4
      exact ⟨b1, by rw [a5, b2]⟩
    have hs := holds_inv h hb
    cases o with
    | load f =>
      have fr := inputFree_spec (which := fun _ => false) hs
      refine close (s' := fileLoad s f) (d' := ⟨f, fun _ => none⟩) rfl rfl ⟨rfl, fun i => ?_⟩ fr.1.1 ⟨rfl, by simp⟩ hg rfl
      by_cases hi : i = .nbi
      · subst hi
        have := (fr.2.2 .nbi).2 (by simp)
        have hx := h.2 .nbi
        rw [hp.1] at hx
        exact ⟨this.1.trans hx.1, this.2.trans hx.2⟩
      · exact (fr.2.2 i).1 ⟨hi, Or.inr fun _ _ => rfl⟩
    | free which =>
      have fr := inputFree_spec (which := which) hs
      refine close (s' := inputFree s which) rfl rfl ⟨fr.2.1.trans h.1, fun i => ?_⟩ fr.1.1 ⟨?_, ?_⟩ hg.2 rfl
      · have all : (∀ j, which j = false) ↔ ∀ j, j ≠ .nbi → which j = false := by
          constructor
          · intro hh j _; exact hh j
          · intro hh j
            by_cases hj : j = .nbi
            · subst hj; exact hg.1
            · exact hh j hj
        show _ = Option.map Prod.fst (if which i = true ∨ ∀ j, which j = false then none else d.shown i) ∧
          _ = Option.map Prod.snd (if which i = true ∨ ∀ j, which j = false then none else d.shown i)
        rw [all]
        by_cases hi : i = .nbi
        · subst hi
          have := (fr.2.2 .nbi).2 (by simp)
          have hx := h.2 .nbi
          rw [this.1, this.2, hx.1, hx.2, hp.1]
          simp
        · by_cases hc : which i = true ∨ ∀ j, j ≠ .nbi → which j = false
          · rw [if_pos hc]; exact (fr.2.2 i).1 ⟨hi, hc⟩
          · rw [if_neg hc]
            have := (fr.2.2 i).2 fun hh => hc hh.2
            rw [this.1, this.2]; exact h.2 i
      · show (if _ then none else d.shown .nbi) = none
        rw [hp.1]; simp
      · intro i q x hx y hy
        have hx : (if which i = true ∨ ∀ j, which j = false then none else d.shown i) = some (q, x) := hx
        split_ifs at hx
        exact hp.2 i q x hx y hy
    | init args switch =>
      have e : (fun i => if i ∈ freeable then args i else .absent) = args := by
        funext i
        split_ifs with hi
        · rfl
        · have : i = .nbi := by by_contra hh; exact hi ((mem_freeable i).2 hh)
          subst this; exact hg.2.1.symm
      obtain ⟨a1, a2, a3, a4⟩ := init_holds (switch := switch) h hb hp hg.1 hg.2.1
      have st : step s (.init args switch) = init s args switch := by show init s _ switch = _; rw [e]
      refine close (s' := (init s args switch).st) (by rw [st]) rfl a1 a2 a3 ?_ (by rw [st]; exact a4)
      have : (InputDoc.init d args switch).1.file = d.file := by unfold InputDoc.init; split_ifs <;> rfl
      exact this.symm ▸ hg.2.2
    | nbi a => exact absurd hg id

/-- The interface holds what the user expects after any history of loading files, initialising and freeing, and raises exceptions exactly where the user expects them. -/
theorem follows_partial (f : File D) (ops : List (Op D)) (h : Good f ops) :
    Holds (run (start f) ops) (expected ⟨f, fun _ => none⟩ ops) ∧ exceptions (start f) ops = expectedExceptions ⟨f, fun _ => none⟩ ops :=
  follows_from (s := start f) (d := ⟨f, fun _ => none⟩) ⟨rfl, fun _ => ⟨rfl, rfl⟩⟩ rfl ⟨rfl, by simp⟩ h

/-! ### The arguments of `input_init` -/

/-- A group, or an active group, that is not in the file is an error and nothing changes. -/
theorem missing (c : Catalog) (s : St D) (args : Inp → UArg D) (switch : Bool) (i : Inp) (hi : i ≠ .nbi) (q : Qid)
    (h : (args i = .yes ∧ c.active i = none) ∨ (args i = .group q ∧ (c.active i = none ∨ c.holds i q = false))) :
    inputInit c s args switch = .raised s := by
  unfold inputInit
  have ha : freeable.any (fun i => (args i).given) = true :=
    List.any_eq_true.2 ⟨i, (mem_freeable i).2 hi, by rcases h with ⟨h, -⟩ | ⟨h, -⟩ <;> rw [h] <;> rfl⟩
  simp only [ha, Bool.not_true]
  rw [if_pos]
  refine List.any_eq_true.2 ⟨i, (mem_freeable i).2 hi, ?_⟩
  rcases h with ⟨h, h'⟩ | ⟨h, h' | h'⟩
  · simp [resolveOne, h, h', UArg.given]
  · simp [resolveOne, h, h', UArg.given]
  · by_cases h0 : c.active i = none
    · simp [resolveOne, h, h0, UArg.given]
    · simp [resolveOne, h, h', h0, UArg.given]

/-- What each argument stands for when some are given: `True` is the active group, an identifier is itself. -/
theorem given (c : Catalog) (s : St D) (args : Inp → UArg D) (switch : Bool) (hg : ∃ i, i ≠ .nbi ∧ (args i).given = true)
    (h : ∀ i, i ≠ .nbi → match args i with
      | .yes => (c.active i).isSome
      | .group q => (c.active i).isSome ∧ c.holds i q = true
      | _ => True) :
    inputInit c s args switch = init s (fun i => if i = .nbi then .absent else match args i with
      | .no => .absent
      | .yes => (match c.active i with | some q => .group q | none => .absent)
      | .group q => .group q
      | .dict d q => .dict d q) switch := by
  unfold inputInit
  have ha : freeable.any (fun i => (args i).given) = true := by
    obtain ⟨i, hi, hx⟩ := hg
    exact List.any_eq_true.2 ⟨i, (mem_freeable i).2 hi, hx⟩
  simp only [ha, Bool.not_true]
  have key : ∀ i, i ≠ .nbi → resolveOne c false i (args i) = some (match args i with
      | .no => .absent
      | .yes => (match c.active i with | some q => .group q | none => .absent)
      | .group q => .group q
      | .dict d q => .dict d q) := by
    intro i hi
    have := h i hi
    cases hai : args i with
    | no => simp [resolveOne, UArg.given]
    | yes =>
      rw [hai] at this
      obtain ⟨q, hq⟩ := Option.isSome_iff_exists.1 this
      simp [resolveOne, UArg.given, hq]
    | group q =>
      rw [hai] at this
      obtain ⟨q', hq⟩ := Option.isSome_iff_exists.1 this.1
      simp [resolveOne, UArg.given, hq, this.2]
    | dict d q => rfl
  rw [if_neg]
  · congr 1
    funext i
    by_cases hi : i = .nbi
    · rw [if_pos hi, if_neg fun hm => (mem_freeable i).1 hm hi]
    · rw [if_neg hi, if_pos ((mem_freeable i).2 hi), key i hi]; rfl
  · intro hh
    obtain ⟨i, hi, hx⟩ := List.any_eq_true.1 hh
    rw [key i ((mem_freeable i).1 hi)] at hx
    cases hx

/-- Without arguments: the active group of every kind that is in the file. -/
theorem without_arguments (c : Catalog) (s : St D) (switch : Bool) :
    inputInit c s (fun _ => .no) switch =
      init s (fun i => if i = .nbi then .absent else match c.active i with | some q => .group q | none => .absent) switch := by
  unfold inputInit
  have ha : freeable.any (fun _ => (UArg.no : UArg D).given) = false := by simp [freeable, UArg.given]
  simp only [ha, Bool.not_false]
  have key : ∀ i, resolveOne c true i (UArg.no : UArg D) = some (match c.active i with | some q => .group q | none => .absent) := by
    intro i
    cases hq : c.active i <;> simp [resolveOne, UArg.given, hq]
  rw [if_neg]
  · congr 1
    funext i
    by_cases hi : i = .nbi
    · rw [if_pos hi, if_neg fun hm => (mem_freeable i).1 hm hi]
    · rw [if_neg hi, if_pos ((mem_freeable i).2 hi), key i]; rfl
  · intro hh
    obtain ⟨i, hi, hx⟩ := List.any_eq_true.1 hh
    rw [key i] at hx
    cases hx

/-! ### Violations -/

/-- A magnetic field that C cannot read (for example of the type B_3DST, which Python writes): no exception; it is marked as initialised but has no data, and so is the electric field that was
asked for in the same call and could have been read; freeing them frees memory that was never allocated. -/
theorem unreadable_violation (f : File D) (q q' : Qid) (h : f .bfield q = none) :
    ∃ s', step (start f) (.init (fun i => match i with | .bfield => .group q | .efield => .group q' | _ => .absent) false) = .done s' ∧
      s'.qid .bfield = some q ∧ s'.mem .bfield = none ∧ s'.qid .efield = some q' ∧ s'.mem .efield = none ∧
      (run s' [.free fun _ => false]).bad = true := by
  refine ⟨⟨f, fun i => match i with | .bfield => some q | .efield => some q' | _ => none, fun _ => none, false⟩, ?_, rfl, rfl, rfl, rfl, ?_⟩
  · have e : prepare (fun i => if i ∈ freeable then (match i with | .bfield => Arg.group q | .efield => .group q' | _ => .absent) else .absent) false order (start f) [] [] =
        (some ([.bfield, .efield], []), start f) := rfl
    unfold step
    dsimp only
    unfold init
    rw [e]
    simp only [readOrder]
    unfold readAll
    have hq : (mark (fun i => if i ∈ freeable then (match i with | .bfield => Arg.group q | .efield => .group q' | _ => .absent) else .absent)
        [.bfield, .efield] (start f)).qid .bfield = some q := rfl
    have hf : (mark (fun i => if i ∈ freeable then (match i with | .bfield => Arg.group q | .efield => .group q' | _ => .absent) else .absent)
        [.bfield, .efield] (start f)).file .bfield q = none := h
    rw [if_pos (List.mem_cons_self ..), hq]
    simp only [hf]
    unfold provideAll mark start
    congr 2
    funext i
    cases i <;> rfl
  · rfl

/-- What is initialised already is not read again. -/
theorem init_same {s : St D} {args : Inp → Arg D} (switch : Bool) (h : ∀ i, args i = .absent ∨ ∃ q, args i = .group q ∧ s.qid i = some q) :
    init s args switch = .done s := by
  have h1 : ∀ L : List Inp, prepare args switch L s [] [] = (some ([], []), s) := by
    intro L
    induction L with
    | nil => rfl
    | cons a L ih =>
      unfold prepare
      rcases h a with ha | ⟨q, ha, hq⟩
      · simp only [ha]; exact ih
      · simp only [ha, hq, if_true]; exact ih
  have h2 : ∀ (L : List Inp) (s : St D), readAll [] L s = s := by
    intro L
    induction L with
    | nil => intro s; rfl
    | cons a L ih => intro s; unfold readAll; rw [if_neg (by simp)]; exact ih s
  unfold init
  rw [h1]
  simp only
  rw [h2]
  simp [provideAll, mark]

/-- Injectors stay after another file was loaded: a group with the same identifier in the other file is not read. -/
theorem stale_injectors_violation (f f' : File D) (q : Qid) (x : D) (h : f .nbi q = some x) :
    (run (start f) [.nbi (.group q), .load f', .nbi (.group q)]).mem .nbi = some x := by
  have hs : Inv (start f) := ⟨rfl, fun _ => by simp [start]⟩
  obtain ⟨s1, e1, v1⟩ := init_done (args := fun i => if i = .nbi then .group q else .absent) (switch := false) hs
    (by
      intro i q' hq
      split_ifs at hq with hi
      subst hi
      injection hq with hq
      rw [← hq]
      show (f .nbi q).isSome = true
      rw [h]; rfl)
    (by intro i d q' hq; split_ifs at hq) (Or.inr fun i => by unfold clash; split <;> simp [start]) (by simp [clash, start])
  have i1 := init_inv (args := fun i => if i = .nbi then .group q else .absent) (switch := false) hs
    (by
      intro i q' hq
      split_ifs at hq with hi
      subst hi
      injection hq with hq
      rw [← hq]
      show (f .nbi q).isSome = true
      rw [h]; rfl) (Or.inl rfl)
  rw [e1] at i1
  have v := v1 .nbi
  simp only [if_true] at v
  have fr := (inputFree_spec (which := fun _ => false) i1.1).2.2 .nbi
  have fr := fr.2 (by simp)
  show ((init (fileLoad (init (start f) (fun i => if i = .nbi then .group q else .absent) false).st f') (fun i => if i = .nbi then .group q else .absent) false).st).mem .nbi = _
  rw [e1]
  rw [init_same]
  · show (inputFree s1 fun _ => false).mem .nbi = _
    refine fr.2.trans (v.2.trans ?_)
    rw [if_neg (by simp [start])]
    exact h
  · intro i
    by_cases hi : i = .nbi
    · subst hi
      exact Or.inr ⟨q, by simp, fr.1.trans v.1⟩
    · exact Or.inl (by simp [hi])

/-- Injectors are not freed and cannot be replaced, with `switch` or without. -/
theorem injectors_stay_violation (s : St D) (q : Qid) (h : s.qid .nbi = some q) (which : Inp → Bool) (a : Arg D) (ha : a ≠ .absent) (hq : a ≠ .group q) (switch : Bool) :
    (step s (.free which)).st.qid .nbi = some q ∧ init s (fun i => if i = .nbi then a else .absent) switch = .raised s := by
  constructor
  · have : ∀ (w : Inp → Bool) (L : List Inp) (s : St D), .nbi ∉ L → (L.foldl (fun s i => if w i then freeOne s i else s) s).qid .nbi = s.qid .nbi := by
      intro w L
      induction L with
      | nil => intro s _; rfl
      | cons b L ih =>
        intro s hb
        rw [List.foldl_cons, ih _ fun hm => hb (List.mem_cons_of_mem _ hm)]
        have hne : Inp.nbi ≠ b := fun e => hb (e ▸ List.mem_cons_self ..)
        split_ifs
        · unfold freeOne
          split_ifs
          · rfl
          · simp [Function.update, hne]
        · rfl
    show (inputFree s which).qid .nbi = some q
    unfold inputFree free
    split_ifs <;> rw [this _ _ _ (by decide), h]
  · cases a with
    | absent => exact absurd rfl ha
    | dict d q' => cases switch <;> simp [init, prepare, order, h]
    | group q' =>
      have : q ≠ q' := fun e => hq (by rw [e])
      cases switch <;> simp [init, prepare, order, h, this]

/-! ### The hypotheses can be met -/

/-- A file with two magnetic fields, 10 and 20, and an electric field 30; initialise the first magnetic field, try the second, switch to it, free it, take a dictionary. -/
example : Good (D := ℕ) (fun i q => match i with | .bfield => if q = "1" then some 10 else if q = "2" then some 20 else none | .efield => some 30 | _ => none)
    [.init (fun i => if i = .bfield then .group "1" else .absent) false, .init (fun i => if i = .bfield then .group "2" else .absent) false,
      .init (fun i => if i = .bfield then .group "2" else .absent) true, .free (fun i => i = .bfield),
      .init (fun i => if i = .bfield then .dict (some 40) "3" else .absent) true] := by
  refine ⟨?_, rfl, ?_, rfl, ?_, rfl, rfl, ?_, rfl, trivial⟩ <;> intro i <;> cases i <;> simp [ArgOk]

end Ascot.C146
