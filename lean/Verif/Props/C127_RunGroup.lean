import Verif.Spec.RunDoc
import Mathlib.Tactic.Tauto
import Mathlib.Data.List.Basic

/-!
# C127: the results of a run are in its group

Of every run that shares an output file with others, the group holds the attributes it was given
and the results the run has written, and nothing else; the groups that were in the file before are
as they were.  This holds for histories in which every run is the active one whenever it
writes, and in which no two runs (not even of different programs) have the same QID
(`groups_partial`).  Both conditions are needed: the programs look up the group by the attribute
`active` each time, so results end up in the group of another run if two programs overlap in time
(`overlap_violation`) or the user activates another run (`activate_violation`), and the group of an
`ascot5_main` run is taken for that of a `bbnbi5` run with the same QID (`qid_violation`).
-/
set_option linter.unusedSectionVars false
set_option linter.unusedSimpArgs false
namespace Ascot.C127
open Ascot.RunFile Ascot.RunDoc
variable {C : Type}

theorem exec_snoc (f : File C) (h : List (Op C)) (op : Op C) :
    exec f (h ++ [op]) = step (exec f h) op := by
  simp [exec, List.foldl_append]

theorem orderly_snoc {used : String → Prop} {h : List (Op C)} {op : Op C}
    (ho : Orderly used (h ++ [op])) : Orderly used h ∧ InOrder used h op := by
  refine ⟨fun pre o post e => ho pre o (post ++ [op]) (by simp [e]), ho h op [] rfl⟩

/-- The state of the file that the history asks for. -/
structure Inv (f0 : File C) (h : List (Op C)) (f : File C) : Prop where
  active : f.active = (lastActive h).or f0.active
  top : f.top = f0.top
  groups : ∀ k q, f.groups k q =
    match began h k q with
    | none => f0.groups k q
    | some a => some ⟨a, result h k q⟩
  fresh : ∀ k q, (began h k q).isSome → ∀ k', f0.groups k' q = none
  one : ∀ k k' q, (began h k q).isSome → (began h k' q).isSome → k = k'
  res : ∀ k q n, (result h k q n).isSome → (began h k q).isSome

theorem began_snoc (h : List (Op C)) (op : Op C) (k : Kind) (q : String) :
    began (h ++ [op]) k q = (began h k q).or
      (match op with
        | .init k' q' a => if k' = k ∧ q' = q then some a else none
        | _ => none) := by
  simp only [began, List.findSome?_append, List.findSome?_cons, List.findSome?_nil]
  congr 1
  cases op with
  | init k' q' a =>
    by_cases hc : k' = k ∧ q' = q
    · simp only [if_pos hc]
    · simp only [if_neg hc]
  | save => rfl
  | activate => rfl

theorem result_snoc (h : List (Op C)) (op : Op C) (k : Kind) (q n : String) :
    result (h ++ [op]) k q n = (result h k q n).or
      (match op with
        | .save k' q' n' c => if k' = k ∧ q' = q ∧ n' = n then some c else none
        | _ => none) := by
  simp only [result, List.findSome?_append, List.findSome?_cons, List.findSome?_nil]
  congr 1
  cases op with
  | save k' q' n' c =>
    by_cases hc : k' = k ∧ q' = q ∧ n' = n
    · simp only [if_pos hc]
    · simp only [if_neg hc]
  | init => rfl
  | activate => rfl

theorem last_snoc (h : List (Op C)) (op : Op C) :
    lastActive (h ++ [op]) =
      match op with
      | .init _ q _ => some q
      | .activate q => some q
      | _ => lastActive h := by
  simp only [lastActive, List.reverse_append, List.reverse_cons, List.reverse_nil,
    List.nil_append, List.singleton_append, List.findSome?_cons]
  cases op <;> rfl

/-- Writing into the group of a run that has begun. -/
theorem inv_write {f0 f : File C} {h : List (Op C)} {k : Kind} {q n : String} {c : C}
    (hi : Inv f0 h f) (hb : (began h k q).isSome) :
    Inv f0 (h ++ [.save k q n c]) ((writeIn f k q n c).getD f) := by
  obtain ⟨a, ha⟩ := Option.isSome_iff_exists.mp hb
  have hg := hi.groups k q
  simp only [ha] at hg
  have hbs : ∀ k' q', began (h ++ [.save k q n c]) k' q' = began h k' q' := by
    intro k' q'; rw [began_snoc]; simp
  have hls : lastActive (h ++ [.save k q n c]) = lastActive h := by rw [last_snoc]
  have hres : ∀ k' q' n', (result (h ++ [.save k q n c]) k' q' n').isSome →
      (began (h ++ [.save k q n c]) k' q').isSome := by
    intro k' q' n' hr
    rw [hbs]
    rw [result_snoc] at hr
    by_cases hc : k = k' ∧ q = q' ∧ n = n'
    · obtain ⟨rfl, rfl, rfl⟩ := hc; exact hb
    · simp only [if_neg hc, Option.or_none] at hr
      exact hi.res _ _ _ hr
  cases hr : result h k q n with
  | some d =>
    have e : (writeIn f k q n c).getD f = f := by
      simp [writeIn, hg, putItem, hr]
    rw [e]
    refine ⟨by rw [hls]; exact hi.active, hi.top, ?_, ?_, ?_, hres⟩
    · intro k' q'
      rw [hbs, hi.groups]
      cases hb' : began h k' q' with
      | none => rfl
      | some a' =>
        simp only [Option.some.injEq, Grp.mk.injEq, true_and]
        funext n'
        rw [result_snoc]
        by_cases hc : k = k' ∧ q = q' ∧ n = n'
        · obtain ⟨rfl, rfl, rfl⟩ := hc
          rw [hr]; rfl
        · simp only [if_neg hc, Option.or_none]
    · intro k' q'; rw [hbs]; exact hi.fresh k' q'
    · intro k1 k2 q'; rw [hbs, hbs]; exact hi.one k1 k2 q'
  | none =>
    have e : (writeIn f k q n c).getD f =
        f.setGrp k q ⟨a, fun x => if x = n then some c else result h k q x⟩ := by
      simp [writeIn, hg, putItem, hr]
    rw [e]
    refine ⟨by rw [hls]; exact hi.active, hi.top, ?_, ?_, ?_, hres⟩
    · intro k' q'
      rw [hbs]
      by_cases hk : k' = k ∧ q' = q
      · obtain ⟨rfl, rfl⟩ := hk
        simp only [File.setGrp, and_self, if_true, ha, Option.some.injEq, Grp.mk.injEq, true_and]
        funext n'
        rw [result_snoc]
        by_cases hn : n' = n
        · subst hn; simp [hr]
        · simp only [if_neg hn, true_and, if_neg (Ne.symm hn), Option.or_none]
      · simp only [File.setGrp, if_neg hk]
        rw [hi.groups]
        cases hb' : began h k' q' with
        | none => rfl
        | some a' =>
          simp only [Option.some.injEq, Grp.mk.injEq, true_and]
          funext n'
          rw [result_snoc]
          have : ¬ (k = k' ∧ q = q' ∧ n = n') := fun hc => hk ⟨hc.1.symm, hc.2.1.symm⟩
          simp only [if_neg this, Option.or_none]
    · intro k' q'; rw [hbs]; exact hi.fresh k' q'
    · intro k1 k2 q'; rw [hbs, hbs]; exact hi.one k1 k2 q'

/-- The active group is the one of the run that is active. -/
theorem locate_eq {f0 f : File C} {h : List (Op C)} {k : Kind} {q : String}
    (hi : Inv f0 h f) (hb : (began h k q).isSome) (hl : lastActive h = some q) :
    locate f = some (some (k, q)) := by
  have ha : f.active = some q := by rw [hi.active, hl]; rfl
  have hk : ∀ k', (f.groups k' q).isSome = true ↔ k' = k := by
    intro k'
    rw [hi.groups]
    cases hb' : began h k' q with
    | none =>
      simp only [hi.fresh k q hb k', Option.isSome_none, Bool.false_eq_true, false_iff]
      rintro rfl
      simp [hb'] at hb
    | some a' =>
      simp only [Option.isSome_some, true_iff]
      exact hi.one k' k q (by simp [hb']) hb
  simp only [locate, ha, hk]
  cases k <;> simp

theorem inv_step {f0 f : File C} {h : List (Op C)} {op : Op C}
    (hi : Inv f0 h f) (ho : InOrder (fun q => ∃ k, (f0.groups k q).isSome) h op) :
    Inv f0 (h ++ [op]) (step f op) := by
  cases op with
  | activate q =>
    refine ⟨by rw [last_snoc]; rfl, hi.top, ?_, ?_, ?_, ?_⟩
    · intro k' q'
      simp only [step]
      rw [began_snoc, hi.groups]
      simp only [Option.or_none]
      cases began h k' q' with
      | none => rfl
      | some a =>
        simp only [Option.some.injEq, Grp.mk.injEq, true_and]
        funext n; rw [result_snoc]; simp
    · intro k' q'; rw [began_snoc]; simp only [Option.or_none]; exact hi.fresh k' q'
    · intro k1 k2 q'; rw [began_snoc, began_snoc]; simp only [Option.or_none]
      exact hi.one k1 k2 q'
    · intro k' q' n'; rw [began_snoc, result_snoc]; simp only [Option.or_none]
      exact hi.res k' q' n'
  | save k q n c =>
    obtain ⟨hb, hl⟩ := ho
    have hw := inv_write (n := n) (c := c) hi hb
    cases k with
    | afsi => exact hw
    | run =>
      have := locate_eq hi hb (hl (by simp))
      simpa [step, writeActive, this] using hw
    | bbnbi =>
      have := locate_eq hi hb (hl (by simp))
      simpa [step, writeActive, this] using hw
  | init k q a =>
    obtain ⟨hu, hn⟩ := ho
    have hf0 : ∀ k', f0.groups k' q = none := by
      intro k'
      cases hh : f0.groups k' q with
      | none => rfl
      | some g => exact absurd ⟨k', by simp [hh]⟩ hu
    have hg : f.groups k q = none := by rw [hi.groups, hn, hf0]
    have hr0 : ∀ n', result h k q n' = none := by
      intro n'
      cases hh : result h k q n' with
      | none => rfl
      | some c =>
        have := hi.res k q n' (by simp [hh])
        simp [hn] at this
    have hrs : ∀ k' q' n', result (h ++ [.init k q a]) k' q' n' = result h k' q' n' := by
      intro k' q' n'; rw [result_snoc]; simp
    have e : step f (.init k q a) =
        { f.setGrp k q ⟨a, fun _ => none⟩ with active := some q } := by
      simp [step, initResults, hg]
    rw [e]
    refine ⟨by rw [last_snoc]; rfl, hi.top, ?_, ?_, ?_, ?_⟩
    · intro k' q'
      rw [began_snoc]
      by_cases hk : k' = k ∧ q' = q
      · obtain ⟨rfl, rfl⟩ := hk
        simp only [File.setGrp, and_self, if_true, hn, Option.none_or, Option.some.injEq,
          Grp.mk.injEq, true_and]
        funext n'; rw [hrs, hr0]
      · have hk' : ¬ (k = k' ∧ q = q') := fun hc => hk ⟨hc.1.symm, hc.2.symm⟩
        simp only [File.setGrp, if_neg hk, if_neg hk', Option.or_none]
        rw [hi.groups]
        cases began h k' q' with
        | none => rfl
        | some a' =>
          simp only [Option.some.injEq, Grp.mk.injEq, true_and]
          funext n'; rw [hrs]
    · intro k' q' hb
      rw [began_snoc] at hb
      by_cases hk' : k = k' ∧ q = q'
      · obtain ⟨rfl, rfl⟩ := hk'; exact hf0
      · simp only [if_neg hk', Option.or_none] at hb
        exact hi.fresh k' q' hb
    · intro k1 k2 q' h1 h2
      rw [began_snoc] at h1 h2
      by_cases hq : q = q'
      · subst hq
        simp only [hn, Option.none_or, and_true] at h1 h2
        split_ifs at h1 with c1
        · split_ifs at h2 with c2
          · exact c1.symm.trans c2
          · simp at h2
        · simp at h1
      · simp only [hq, and_false, if_false, Option.or_none] at h1 h2
        exact hi.one k1 k2 q' h1 h2
    · intro k' q' n' hr
      rw [hrs] at hr
      have := hi.res k' q' n' hr
      rw [began_snoc]
      obtain ⟨b, hb⟩ := Option.isSome_iff_exists.mp this
      simp [hb]

theorem inv_exec (f0 : File C) (h : List (Op C))
    (ho : Orderly (fun q => ∃ k, (f0.groups k q).isSome) h) : Inv f0 h (exec f0 h) := by
  induction h using List.reverseRecOn with
  | nil =>
    refine ⟨by simp [exec, lastActive], rfl, fun k q => by simp [exec, began], ?_, ?_, ?_⟩
    · intro k q hb; simp [began] at hb
    · intro k k' q hb; simp [began] at hb
    · intro k q n hb; simp [result] at hb
  | append_singleton l op ih =>
    obtain ⟨h1, h2⟩ := orderly_snoc ho
    rw [exec_snoc]
    exact inv_step (ih h1) h2

/-- Every run that has begun has a group with the attributes it was given and with the results it has
written, each under its name (and, if it has written two of the same name, the first); a group of
a run that has not begun is as it was, and so is the top of the file. -/
theorem groups_partial (f0 : File C) (h : List (Op C))
    (ho : Orderly (fun q => ∃ k, (f0.groups k q).isSome) h) :
    (∀ k q a, began h k q = some a →
      ∃ g, (exec f0 h).groups k q = some g ∧ g.attrs = a ∧ ∀ n, g.items n = result h k q n) ∧
    (∀ k q, began h k q = none → (exec f0 h).groups k q = f0.groups k q) ∧
    (exec f0 h).top = f0.top := by
  have hi := inv_exec f0 h ho
  refine ⟨fun k q a ha => ⟨⟨a, result h k q⟩, ?_, rfl, fun _ => rfl⟩, fun k q hn => ?_, hi.top⟩
  · rw [hi.groups, ha]
  · rw [hi.groups, hn]

/-- A run that begins is the active one, whatever the file held; one whose QID is taken by a run of the
same program does not begin, and the file stays as it is. -/
theorem begin_active (f : File C) (k : Kind) (q : String) (a : String → Option String) :
    (f.groups k q = none → (step f (.init k q a)).active = some q) ∧
    ((f.groups k q).isSome → step f (.init k q a) = f) := by
  constructor
  · intro h; simp [step, initResults, h]
  · intro h
    obtain ⟨g, hg⟩ := Option.isSome_iff_exists.mp h
    simp [step, initResults, hg]

/-- Two runs of `ascot5_main` that overlap in time: the final state of the first is stored as that of
the second, and the final state of the second is lost. -/
theorem overlap_violation :
    ∃ (h : List (Op ℕ)) (q q' : String), q ≠ q' ∧
      result h .run q "endstate" = some 1 ∧ result h .run q' "endstate" = some 2 ∧
      (∃ g, (exec File.empty h).groups .run q = some g ∧ g.items "endstate" = none) ∧
      (∃ g, (exec File.empty h).groups .run q' = some g ∧ g.items "endstate" = some 1) := by
  refine ⟨[.init .run "0000000001" fun _ => none, .init .run "0000000002" fun _ => none,
    .save .run "0000000001" "endstate" 1, .save .run "0000000002" "endstate" 2],
    "0000000001", "0000000002", by decide, by decide, by decide, ⟨_, rfl, by decide⟩,
    ⟨_, rfl, by decide⟩⟩

/-- The user activates an earlier run while another is running: the final state is stored in the
earlier one. -/
theorem activate_violation :
    ∃ (f0 : File ℕ) (h : List (Op ℕ)) (q q' : String), q ≠ q' ∧
      began h .run q' = none ∧ result h .run q "endstate" = some 1 ∧
      (∃ g, (exec f0 h).groups .run q = some g ∧ g.items "endstate" = none) ∧
      (∃ g, f0.groups .run q' = some g ∧ g.items "endstate" = none) ∧
      (∃ g, (exec f0 h).groups .run q' = some g ∧ g.items "endstate" = some 1) := by
  refine ⟨exec File.empty [.init .run "0000000002" fun _ => none],
    [.init .run "0000000001" fun _ => none, .activate "0000000002",
      .save .run "0000000001" "endstate" 1],
    "0000000001", "0000000002", by decide, ?_, by decide, ⟨_, rfl, by decide⟩,
    ⟨_, rfl, by decide⟩, ⟨_, rfl, by decide⟩⟩
  simp [began]

/-- A run of `bbnbi5` whose QID is that of an `ascot5_main` run is accepted, and its markers are stored
in the group of the latter. -/
theorem qid_violation :
    ∃ (f0 : File ℕ) (h : List (Op ℕ)) (q : String),
      (began h .bbnbi q).isSome ∧ result h .bbnbi q "state" = some 1 ∧
      (∃ g, (exec f0 h).groups .bbnbi q = some g ∧ g.items "state" = none) ∧
      (∃ g, f0.groups .run q = some g ∧ g.items "state" = none) ∧
      (∃ g, (exec f0 h).groups .run q = some g ∧ g.items "state" = some 1) := by
  refine ⟨exec File.empty [.init .run "0000000001" fun _ => none],
    [.init .bbnbi "0000000001" fun _ => none, .save .bbnbi "0000000001" "state" 1],
    "0000000001", by decide, by decide, ⟨_, rfl, by decide⟩,
    ⟨_, rfl, by decide⟩, ⟨_, rfl, by decide⟩⟩

/-- A history that meets the hypothesis: a run of `ascot5_main`, then one of `bbnbi5`, in a file with an
earlier run. -/
example : Orderly
    (fun q => ∃ k, ((exec (File.empty : File ℕ) [.init .run "0000000009" fun _ => none]).groups
      k q).isSome)
    [.init .run "0000000001" fun _ => none, .save .run "0000000001" "inistate" 1,
      .save .run "0000000001" "endstate" 2, .init .bbnbi "0000000002" fun _ => none,
      .save .bbnbi "0000000002" "state" 3] := by
  intro pre op post h
  have hu : ∀ q, q ≠ "0000000009" → ¬ ∃ k,
      ((exec (File.empty : File ℕ) [.init .run "0000000009" fun _ => none]).groups k q).isSome := by
    rintro q hq ⟨k, hk⟩
    simp [exec, step, initResults, File.empty, File.setGrp, hq] at hk
  rcases pre with _ | ⟨a1, _ | ⟨a2, _ | ⟨a3, _ | ⟨a4, _ | ⟨a5, pre⟩⟩⟩⟩⟩ <;>
    simp only [List.nil_append, List.cons_append, List.cons.injEq, List.nil_eq,
      List.append_eq_nil_iff, reduceCtorEq, and_false] at h
  · obtain ⟨rfl, -⟩ := h
    exact ⟨hu _ (by decide), fun k => rfl⟩
  · obtain ⟨rfl, rfl, -⟩ := h
    exact ⟨by simp [began], fun _ => by simp [lastActive]⟩
  · obtain ⟨rfl, rfl, rfl, -⟩ := h
    exact ⟨by simp [began], fun _ => by simp [lastActive]⟩
  · obtain ⟨rfl, rfl, rfl, rfl, -⟩ := h
    exact ⟨hu _ (by decide), fun k => by simp [began]⟩
  · obtain ⟨rfl, rfl, rfl, rfl, rfl, -⟩ := h
    exact ⟨by simp [began], fun _ => by simp [lastActive]⟩

end Ascot.C127
