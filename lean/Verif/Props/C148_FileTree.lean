import Verif.Lemmas.FileBuild

/-!
# C148: the groups of a file after any history
-/
set_option linter.unusedSectionVars false
set_option linter.unusedSimpArgs false
namespace Ascot.C148
open FileTree FileDoc

/-- Whatever has been created, simulated, activated, described, copied and removed, also in vain:
everything in the file refers to something that is there. -/
theorem history {f : File} (h : Reach f) : Consistent f := (wf_reach h).consistent

/-- A new input is in the file with its type, QID, date and description, everything else is as
before, and it is active if this was asked for or if it is the only one. -/
theorem created {f : File} (h : Reach f) {pn t q dt : Str} {act : Bool} {desc : Option Str}
    (a : Allowed f (.create pn t q dt act desc)) :
    ∃ f', (Op.create pn t q dt act desc).run f = .ok f' ∧
      (∀ e, Has f' e ↔ e = ⟨pn, t, q, desc.getD "TAG".toList, dt, []⟩ ∨ Has f e) ∧
      ∀ pn' q', Active f' pn' q' ↔
        (pn' = pn ∧ (act = true ∨ ¬ ∃ e, Has f e ∧ e.parent = pn) ∧ q' = q) ∨
        (¬ (pn' = pn ∧ (act = true ∨ ¬ ∃ e, Has f e ∧ e.parent = pn)) ∧ Active f pn' q') := by
  have w := wf_reach h
  obtain ⟨h1, h2, h3, h4, h5⟩ := a
  have n := newName_of w h3 h5 (Or.inr ⟨h1, h2⟩)
  refine ⟨_, createInput_eq w n dt act desc, fun e => has_put h3 e, ?_⟩
  intro pn' q'
  rw [active_put w.names]
  by_cases c : pn' = pn
  · rw [if_pos c]
    subst c
    constructor
    · rintro ⟨p, m, e, k⟩
      rcases mem_require.1 m with m | ⟨rfl, no⟩
      · have ne : p.groups ≠ [] := by
          obtain ⟨g, mg, _⟩ := w.act p m
          exact List.ne_nil_of_mem mg
        have ex : ∃ e, Has f e ∧ e.parent = pn' := (exists_parent w).1 ⟨p, m, e⟩
        by_cases d : act = true
        · rw [if_pos (Or.inl d)] at k
          exact Or.inl ⟨rfl, Or.inl d, (Option.some.inj k).symm⟩
        · rw [if_neg (by simp [d, ne])] at k
          exact Or.inr ⟨by simp [d, ex], p, m, e, k⟩
      · simp only [or_true, if_true] at k
        refine Or.inl ⟨rfl, Or.inr fun ex => ?_, (Option.some.inj k).symm⟩
        obtain ⟨p, m, e⟩ := (exists_parent w).2 ex
        exact no p m e
    · rintro (⟨_, k, rfl⟩ | ⟨k1, p, m, e, k2⟩)
      · rcases k with k | k
        · obtain ⟨p, m, e⟩ := exists_require f pn'
          exact ⟨p, m, e, if_pos (Or.inl k)⟩
        · refine ⟨⟨pn', none, []⟩, mem_require.2 (Or.inr ⟨rfl, ?_⟩), rfl, if_pos (Or.inr rfl)⟩
          intro p m e
          exact k ((exists_parent w).1 ⟨p, m, e⟩)
      · have ne : p.groups ≠ [] := by
          obtain ⟨g, mg, _⟩ := w.act p m
          exact List.ne_nil_of_mem mg
        refine ⟨p, mem_require.2 (Or.inl m), e, ?_⟩
        rw [if_neg, k2]
        rintro (d | d)
        · exact k1 ⟨rfl, Or.inl d⟩
        · exact ne d
  · rw [if_neg c]
    constructor
    · exact fun k => Or.inr ⟨fun d => c d.1, k⟩
    · rintro (⟨k, _⟩ | ⟨_, k⟩)
      · exact absurd k c
      · exact k

/-- The result of a simulation is in the file with the inputs that it has used, everything else is
as before, and it is the active result. -/
theorem simulated {f : File} (h : Reach f) {kind q desc dt : Str} {refs : List (Str × Str)}
    (a : Allowed f (.simulate kind q desc dt refs)) :
    ∃ f', (Op.simulate kind q desc dt refs).run f = .ok f' ∧
      (∀ e, Has f' e ↔ e = ⟨results, kind, q, desc, dt, refs⟩ ∨ Has f e) ∧
      ∀ pn' q', Active f' pn' q' ↔
        (pn' = results ∧ q' = q) ∨ (pn' ≠ results ∧ Active f pn' q') := by
  have w := wf_reach h
  obtain ⟨h1, h2, h3, h4, h5⟩ := a
  have n := newName_of w h2 h4 (Or.inl ⟨rfl, h1⟩)
  refine ⟨_, initResults_eq w n desc dt refs, fun e => has_put h2 e, ?_⟩
  intro pn' q'
  rw [active_put w.names]
  by_cases c : pn' = results
  · rw [if_pos c]
    constructor
    · rintro ⟨p, _, _, k⟩
      exact Or.inl ⟨c, (Option.some.inj k).symm⟩
    · rintro (⟨_, rfl⟩ | ⟨k, _⟩)
      · obtain ⟨p, m, e⟩ := exists_require f results
        exact ⟨p, m, e, rfl⟩
      · exact absurd c k
  · rw [if_neg c]
    constructor
    · exact fun k => Or.inr ⟨c, k⟩
    · rintro (⟨k, _⟩ | ⟨_, k⟩)
      · exact absurd k c
      · exact k

/-- Activating a group by its QID, its name, its path or anything that ends in its QID makes it the
active group of its parent and changes nothing else. -/
theorem activated {f : File} (h : Reach f) {e : Entry} (he : Has f e) (s : Str) :
    ∃ f', (Op.activate (s ++ e.qid)).run f = .ok f' ∧ (∀ e', Has f' e' ↔ Has f e') ∧
      ∀ pn' q', Active f' pn' q' ↔
        (pn' = e.parent ∧ q' = e.qid) ∨ (pn' ≠ e.parent ∧ Active f pn' q') := by
  have w := wf_reach h
  have he' := he
  rw [has_iff] at he
  refine ⟨_, setActive_eq w.toWfN he.2 (by rw [qidOf_grpOf he.1]; exact getQid_append he.1), ?_, ?_⟩
  · intro e'
    rw [has_iff, has_iff, all_setParent_groups (by intro _; rfl) (by intro _; rfl)]
  · intro pn' q'
    rw [active_setActive (by obtain ⟨_, p, m, k, _⟩ := he'; exact ⟨p, m, k⟩), qidOf_grpOf he.1,
      show (grpOf e).1 = e.parent from rfl]
    by_cases c : pn' = e.parent
    · rw [if_pos c]
      simp [c]
    · rw [if_neg c]
      simp [c]

/-- Describing a group changes its description and nothing else. -/
theorem described {f : File} (h : Reach f) {e : Entry} (he : Has f e) (s d : Str) :
    ∃ f', (Op.describe (s ++ e.qid) d).run f = .ok f' ∧
      (∀ e', Has f' e' ↔ e' = ⟨e.parent, e.type, e.qid, d, e.date, e.refs⟩ ∨ (Has f e' ∧ e' ≠ e)) ∧
      ∀ pn' q', Active f' pn' q' ↔ Active f pn' q' := by
  have w := wf_reach h
  have he' := he
  rw [has_iff] at he
  refine ⟨_, setDesc_eq w.toWfN he.2 (by rw [qidOf_grpOf he.1]; exact getQid_append he.1), ?_,
    fun _ _ => active_setGrp⟩
  have same : ∀ y ∈ all f, (y.1 = (grpOf e).1 ∧ y.2.name = (grpOf e).2.name) ↔ y = grpOf e := by
    intro y my
    constructor
    · intro k
      exact w.uniq y my _ he.2 (by rw [k.2])
    · rintro rfl
      exact ⟨rfl, rfl⟩
  intro e'
  rw [has_iff, all_setGrp, List.mem_map]
  constructor
  · rintro ⟨i, y, my, k⟩
    by_cases c : y = grpOf e
    · rw [if_pos ((same y my).2 c)] at k
      subst c
      exact Or.inl (grpOf_inj i he.1 k.symm)
    · rw [if_neg (fun a => c ((same y my).1 a))] at k
      subst k
      refine Or.inr ⟨(has_iff _).2 ⟨i, my⟩, ?_⟩
      rintro rfl
      exact c rfl
  · rintro (rfl | ⟨k, ne⟩)
    · exact ⟨he.1, grpOf e, he.2, by rw [if_pos ⟨rfl, rfl⟩]; rfl⟩
    · rw [has_iff] at k
      refine ⟨k.1, grpOf e', k.2, if_neg fun a => ne ?_⟩
      exact grpOf_inj k.1 he.1 ((same _ k.2).1 a)

/-- A group that is not there can be neither activated nor described nor removed: there is an
exception, and the file is as before. -/
theorem missing {f : File} (h : Reach f) {s : Str} (hs : ∀ e, Has f e → ¬ e.qid <:+ s)
    (hp : ∀ e, Has f e → e.parent ≠ s) {op : Op}
    (ho : op = .activate s ∨ (∃ d, op = .describe s d) ∨ op = .remove s ∨
      ∃ force, op = .removeTool s force) : ∃ x, op.run f = .err x f := by
  have w := wf_reach h
  have none : ∀ q, getQid s = some q → getGroup f q = none := by
    intro q hq
    obtain ⟨i, v, rfl⟩ := getQid_some hq
    refine getGroup_none w.toWfN i fun x m k => ?_
    obtain ⟨e, k1, k2, k3⟩ := w.entry m
    exact hs e k1 ⟨v, by rw [← k3, k]⟩
  have np : ¬ ∃ p ∈ f, p.name = s := by
    rw [exists_parent w]
    rintro ⟨e, k1, k2⟩
    exact hp e k1 k2
  have rem : removeGroup f s = .err .noData f := by
    unfold removeGroup
    rw [if_neg np]
    cases hq : getQid s with
    | none => rfl
    | some q => simp only [none q hq]
  rcases ho with rfl | ⟨d, rfl⟩ | rfl | ⟨force, rfl⟩
  · simp only [Op.run, setActive]
    cases hq : getQid s with
    | none => exact ⟨_, rfl⟩
    | some q => simp only [none q hq]; exact ⟨_, rfl⟩
  · simp only [Op.run, setDesc]
    cases hq : getQid s with
    | none => exact ⟨_, rfl⟩
    | some q => simp only [none q hq]; exact ⟨_, rfl⟩
  · exact ⟨_, rem⟩
  · simp only [Op.run, FileTree.removeTool]
    have t : removeTry f s force = .err .noData f ∨ removeTry f s force = .err .attr f := by
      unfold removeTry
      cases hq : getQid s with
      | none => exact Or.inl rfl
      | some q =>
        simp only [none q hq]
        cases force with
        | true => exact Or.inl rem
        | false => exact Or.inr rfl
    rcases t with t | t
    · rw [t]
      simp only
      rcases removeParent_cases f s force with k | k
      · rw [k, rem]
        exact ⟨_, rfl⟩
      · exact ⟨_, k⟩
    · rw [t]
      exact ⟨_, rfl⟩

/-- An input that a result has used is not removed. -/
theorem remove_used {f : File} (h : Reach f) {e : Entry} (he : Has f e) (u : Used f e.qid)
    (s : Str) {op : Op}
    (ho : op = .remove (s ++ e.qid) ∨ ∃ force, op = .removeTool (s ++ e.qid) force) :
    op.run f = .err .io f := by
  have w := wf_reach h
  rw [has_iff] at he
  have hq : getQid (s ++ e.qid) = some (qidOf (grpOf e).2.name) := by
    rw [qidOf_grpOf he.1]
    exact getQid_append he.1
  have : removeGroup f (s ++ e.qid) = .err .io f := by
    refine removeGroup_used w he.2 hq ?_
    rw [qidOf_grpOf he.1]
    exact (used_iff w).1 u
  rcases ho with rfl | ⟨force, rfl⟩
  · exact this
  · simp only [Op.run]
    rw [tool_same w (Or.inl ⟨_, he.2, hq⟩), this]

/-- Any other group is removed, and nothing else is.  The other parents keep their active groups.  If
the group was the only one, then its parent has no active group any more; otherwise the active group
stays, or, if it was the group that has been removed, a most recent one becomes active. -/
theorem removed {f : File} (h : Reach f) {e : Entry} (he : Has f e) (u : ¬ Used f e.qid)
    (s : Str) {op : Op}
    (ho : op = .remove (s ++ e.qid) ∨ ∃ force, op = .removeTool (s ++ e.qid) force) :
    ∃ f', op.run f = .ok f' ∧ (∀ e', Has f' e' ↔ Has f e' ∧ e' ≠ e) ∧
      (∀ pn q, pn ≠ e.parent → (Active f' pn q ↔ Active f pn q)) ∧
      (¬ Active f e.parent e.qid → ∀ q, Active f' e.parent q ↔ Active f e.parent q) ∧
      (Active f e.parent e.qid → ∀ e', Has f' e' → e'.parent = e.parent →
        ∃ a, Has f' a ∧ a.parent = e.parent ∧ (∀ q, Active f' e.parent q ↔ q = a.qid) ∧
          ∀ b, Has f' b → b.parent = e.parent → b.date ≤ a.date) := by
  have w := wf_reach h
  rw [has_iff] at he
  have hq : getQid (s ++ e.qid) = some (qidOf (grpOf e).2.name) := by
    rw [qidOf_grpOf he.1]
    exact getQid_append he.1
  have un : ∀ y ∈ all f, ∀ r ∈ y.2.refs, r.2 ≠ qidOf (grpOf e).2.name := by
    intro y my r mr k
    rw [qidOf_grpOf he.1] at k
    exact u ((used_iff w).2 ⟨y, my, r, mr, k⟩)
  obtain ⟨f', k1, wf', k2, k3⟩ := removeData_spec w he.2 un
  have run : op.run f = .ok f' := by
    rcases ho with rfl | ⟨force, rfl⟩
    · simp only [Op.run]
      rw [removeGroup_eq w he.2 hq un, k1]
    · simp only [Op.run]
      rw [tool_same w (Or.inl ⟨_, he.2, hq⟩), removeGroup_eq w he.2 hq un, k1]
  have hh : ∀ e', Has f' e' ↔ Has f e' ∧ e' ≠ e := by
    intro e'
    rw [has_iff, has_iff, k2]
    constructor
    · rintro ⟨a, b, c⟩
      exact ⟨⟨a, b⟩, fun k => c (by rw [k])⟩
    · rintro ⟨⟨a, b⟩, c⟩
      exact ⟨a, b, fun k => c (grpOf_inj a he.1 k)⟩
  rw [qidOf_grpOf he.1, show (grpOf e).1 = e.parent from rfl] at k3
  refine ⟨f', run, hh, ?_, ?_, ?_⟩
  · intro pn q ne
    rcases k3 with ⟨_, k⟩ | ⟨_, _, _, k⟩ | ⟨_, y, _, _, _, _, k⟩
    · exact k pn q
    · exact k pn ne q
    · exact k pn ne q
  · intro na q
    rcases k3 with ⟨_, k⟩ | ⟨k, _⟩ | ⟨k, _⟩
    · exact k e.parent q
    · exact absurd k na
    · exact absurd k na
  · intro a e' he' hp
    rcases k3 with ⟨k, _⟩ | ⟨_, k, _⟩ | ⟨_, y, my, ey, ka, kd, _⟩
    · exact absurd a k
    · rw [hh] at he'
      have m := ((has_iff e').1 he'.1).2
      have := k (grpOf e') m hp
      exact absurd (grpOf_inj he'.1.1 he.1 this) he'.2
    · obtain ⟨b, b1, b2, b3⟩ := wf'.entry my
      refine ⟨b, b1, by rw [← ey, b2]; rfl, ?_, ?_⟩
      · intro q
        rw [ka q, b3]
      · intro c c1 c2
        have mc := ((has_iff c).1 c1).2
        exact kd (grpOf c) mc c2 b.date c.date (by rw [b2]; rfl) rfl

/-- The last group of a parent takes the parent with it. -/
theorem removed_last {f : File} (h : Reach f) {e : Entry} (he : Has f e) (u : ¬ Used f e.qid)
    (s : Str) (only : ∀ e', Has f e' → e'.parent = e.parent → e' = e) :
    ∃ f', (Op.remove (s ++ e.qid)).run f = .ok f' ∧ ∀ p ∈ f', p.name ≠ e.parent := by
  obtain ⟨f', k1, k2, _⟩ := removed h he u s (Or.inl rfl)
  refine ⟨f', k1, ?_⟩
  have w' : Wf f' := by
    have := wf_reach (Reach.step (op := .remove (s ++ e.qid)) h trivial)
    rw [k1] at this
    exact this
  intro p m k
  obtain ⟨e', h1, h2⟩ := (exists_parent w').1 ⟨p, m, k⟩
  rw [k2] at h1
  exact h1.2 (only e' h1.1 h2)

/-- A parent with an input that a result has used is not removed.  Any other parent is removed with
all its groups, and nothing else is. -/
theorem removed_parent {f : File} (h : Reach f) {pn : Str} (hp : ∃ e, Has f e ∧ e.parent = pn)
    {op : Op} (ho : op = .remove pn ∨ ∃ force, op = .removeTool pn force) :
    ((∃ e, Has f e ∧ e.parent = pn ∧ Used f e.qid) → op.run f = .err .io f) ∧
    ((¬ ∃ e, Has f e ∧ e.parent = pn ∧ Used f e.qid) →
      ∃ f', op.run f = .ok f' ∧ (∀ e, Has f' e ↔ Has f e ∧ e.parent ≠ pn) ∧
        ∀ pn' q, Active f' pn' q ↔ pn' ≠ pn ∧ Active f pn' q) := by
  have w := wf_reach h
  have ex := (exists_parent w).2 hp
  have run : op.run f = removeGroup f pn := by
    rcases ho with rfl | ⟨force, rfl⟩
    · rfl
    · exact tool_same w (Or.inr ex) force
  have ref : (∃ g ∈ groupsOf f results, ∃ r ∈ g.refs, r.1 = pn) ↔
      ∃ e, Has f e ∧ e.parent = pn ∧ Used f e.qid := by
    constructor
    · rintro ⟨g, mg, r, mr, e1⟩
      rw [mem_groupsOf w.names] at mg
      obtain ⟨_, _, y, my, e2, e3⟩ := w.refs _ mg r mr
      obtain ⟨b, b1, b2, b3⟩ := w.entry my
      refine ⟨b, b1, by rw [← e1, ← e2, b2]; rfl, (used_iff w).2 ⟨_, mg, r, mr, ?_⟩⟩
      rw [← e3, b3]
    · rintro ⟨e, k1, k2, r, k3, k4, k, k5⟩
      rw [has_iff] at k3
      refine ⟨(grpOf r).2, (mem_groupsOf w.names).2 (by rw [← k4]; exact k3.2), (k, e.qid), k5, ?_⟩
      obtain ⟨_, _, y, my, e2, e3⟩ := w.refs _ k3.2 _ k5
      rw [has_iff] at k1
      have := w.uniq y my _ k1.2 (by rw [e3, qidOf_grpOf k1.1])
      rw [← e2, this]
      exact k2
  rw [run]
  unfold removeGroup
  rw [if_pos ex]
  constructor
  · intro k
    rw [if_pos (ref.2 k)]
  · intro k
    rw [if_neg (fun a => k (ref.1 a))]
    refine ⟨_, rfl, ?_, fun _ _ => active_delParent⟩
    intro e
    rw [has_iff, has_iff, all_delParent, and_assoc]
    rfl

/-- A copy from another file, with the old or with a new QID and date: the group is in this file with
the same type, description and inputs, everything else is as before, and the copy is active only if it
is the only one. -/
theorem copied {fs f : File} (hs : Reach fs) (h : Reach f) {e : Entry} {new : Option (Str × Str)}
    (c : Copyable fs f e new) (s : Str) :
    ∃ f', copyGroup fs f (s ++ e.qid) new = .ok f' ∧
      (∀ e', Has f' e' ↔ e' = ⟨e.parent, e.type, (new.map Prod.fst).getD e.qid, e.desc,
        (new.map Prod.snd).getD e.date, e.refs⟩ ∨ Has f e') ∧
      ((∃ e', Has f e' ∧ e'.parent = e.parent) → ∀ pn q, Active f' pn q ↔ Active f pn q) ∧
      ((¬ ∃ e', Has f e' ∧ e'.parent = e.parent) → ∀ pn q, Active f' pn q ↔
        (pn = e.parent ∧ q = (new.map Prod.fst).getD e.qid) ∨ Active f pn q) := by
  have ws := wf_reach hs
  have w := wf_reach h
  obtain ⟨n, e1⟩ := copyGroup_eq ws w c s
  refine ⟨_, e1, fun e' => has_put n.qid e', ?_, ?_⟩
  · intro ex pn q
    rw [active_put w.names]
    by_cases k : pn = e.parent
    · rw [if_pos k]
      subst k
      constructor
      · rintro ⟨p, m, a, b⟩
        rcases mem_require.1 m with m | ⟨rfl, no⟩
        · obtain ⟨g, mg, _⟩ := w.act p m
          rw [if_neg (List.ne_nil_of_mem mg)] at b
          exact ⟨p, m, a, b⟩
        · obtain ⟨p, m, e⟩ := (exists_parent w).2 ex
          exact absurd e (no p m)
      · rintro ⟨p, m, a, b⟩
        obtain ⟨g, mg, _⟩ := w.act p m
        exact ⟨p, mem_require.2 (Or.inl m), a, by rw [if_neg (List.ne_nil_of_mem mg), b]⟩
    · rw [if_neg k]
  · intro nex pn q
    have no : ∀ p ∈ f, p.name ≠ e.parent := fun p m k => nex ((exists_parent w).1 ⟨p, m, k⟩)
    rw [active_put w.names]
    by_cases k : pn = e.parent
    · rw [if_pos k]
      subst k
      constructor
      · rintro ⟨p, m, a, b⟩
        rcases mem_require.1 m with m | ⟨rfl, _⟩
        · exact absurd a (no p m)
        · simp only [if_true] at b
          exact Or.inl ⟨rfl, (Option.some.inj b).symm⟩
      · rintro (⟨_, rfl⟩ | ⟨p, m, a, _⟩)
        · exact ⟨⟨e.parent, none, []⟩, mem_require.2 (Or.inr ⟨rfl, no⟩), rfl, if_pos rfl⟩
        · exact absurd a (no p m)
    · rw [if_neg k]
      simp [k]

/-! ## A history

Two magnetic fields, a run with the first of them, and another file with a field of its own. -/

def b1 : Str := "0000000001".toList
def b2 : Str := "0000000002".toList
def r1 : Str := "0000000003".toList
def bf : Str := "bfield".toList
def tc : Str := "B_TC".toList
def d1 : Str := "2023-01-01 10:00:00".toList
def d2 : Str := "2023-01-02 10:00:00".toList
def run : Str := "run".toList
def text : Str := "Full field with ripple".toList

theorem date_of {c : Char} {cs : Str} (h : '0' < c) : IsDate (c :: cs) := ⟨c, cs, rfl, h⟩

theorem fresh_of {f : File} {q : Str} (h : ∀ x ∈ all f, qidOf x.2.name ≠ q) : Fresh f q := by
  intro e he k
  rw [has_iff] at he
  exact h _ he.2 (by rw [qidOf_grpOf he.1, k])

def op1 : Op := .create bf tc b1 d1 false (some text)
def f1 : File := [⟨bf, some b1, [⟨nameOf tc b1, some text, some d1, []⟩]⟩]

theorem allowed1 : Allowed [] op1 :=
  ⟨by decide, by decide, by unfold IsQid; decide, date_of (by decide), fun e he => by
    rw [has_iff] at he; simp [all] at he⟩

theorem run1 : op1.run [] = .ok f1 := by decide +kernel

theorem reach1 : Reach f1 := by
  have := Reach.step Reach.new allowed1
  rwa [run1] at this

def op2 : Op := .create bf tc b2 d2 true none
def f2 : File := [⟨bf, some b2, [⟨nameOf tc b1, some text, some d1, []⟩,
  ⟨nameOf tc b2, some "TAG".toList, some d2, []⟩]⟩]

theorem allowed2 : Allowed f1 op2 :=
  ⟨by decide, by decide, by unfold IsQid; decide, date_of (by decide),
    fresh_of (by decide +kernel)⟩

theorem run2 : op2.run f1 = .ok f2 := by decide +kernel

theorem reach2 : Reach f2 := by
  have := Reach.step reach1 allowed2
  rwa [run2] at this

def op3 : Op := .simulate run r1 text d2 [(bf, b1)]
def f3 : File := f2 ++ [⟨results, some r1, [⟨nameOf run r1, some text, some d2, [(bf, b1)]⟩]⟩]

theorem has1 : Has f2 ⟨bf, tc, b1, text, d1, []⟩ :=
  ⟨by unfold IsQid; decide, _, List.mem_cons_self, rfl, List.mem_cons_self⟩

theorem allowed3 : Allowed f2 op3 := by
  refine ⟨by decide, by unfold IsQid; decide, date_of (by decide), fresh_of (by decide +kernel), ?_⟩
  intro r mr
  obtain rfl := List.mem_singleton.1 mr
  exact ⟨by decide, _, has1, rfl, rfl⟩

theorem run3 : op3.run f2 = .ok f3 := by decide +kernel

theorem reach3 : Reach f3 := by
  have := Reach.step reach2 allowed3
  rwa [run3] at this

theorem has1' : Has f3 ⟨bf, tc, b1, text, d1, []⟩ :=
  ⟨by unfold IsQid; decide, _, List.mem_cons_self, rfl, List.mem_cons_self⟩

theorem has2' : Has f3 ⟨bf, tc, b2, "TAG".toList, d2, []⟩ :=
  ⟨by unfold IsQid; decide, _, List.mem_cons_self, rfl, List.mem_cons_of_mem _ List.mem_cons_self⟩

theorem used1 : Used f3 b1 :=
  ⟨⟨results, run, r1, text, d2, [(bf, b1)]⟩,
    ⟨by unfold IsQid; decide, _, List.mem_cons_of_mem _ List.mem_cons_self, rfl,
      List.mem_cons_self⟩, rfl, bf, List.mem_cons_self⟩

theorem unused2 : ¬ Used f3 b2 := by
  rw [used_iff (wf_reach reach3)]
  decide +kernel

/-- The hypotheses above are met: the field that the run has used stays, the other one can be removed
although it is the active one, and then the used one is active again. -/
example : (Op.remove b1).run f3 = .err .io f3 := remove_used reach3 has1' used1 [] (Or.inl rfl)

example : (Op.removeTool (nameOf tc b1) true).run f3 = .err .io f3 :=
  remove_used reach3 has1' used1 (tc ++ ['_']) (Or.inr ⟨true, rfl⟩)

example : (Op.remove b2).run f3 =
    .ok [⟨bf, some b1, [⟨nameOf tc b1, some text, some d1, []⟩]⟩,
      ⟨results, some r1, [⟨nameOf run r1, some text, some d2, [(bf, b1)]⟩]⟩] := by decide +kernel

example : ∃ f', (Op.remove b2).run f3 = .ok f' ∧ Has f' ⟨bf, tc, b1, text, d1, []⟩ := by
  obtain ⟨f', h1, h2, _⟩ := removed reach3 has2' unused2 [] (Or.inl rfl)
  exact ⟨f', h1, (h2 _).2 ⟨has1', fun k => absurd (congrArg Entry.qid k) (by decide)⟩⟩

example : Copyable f3 [] ⟨bf, tc, b2, "TAG".toList, d2, []⟩ (some (r1, d1)) :=
  ⟨has2', by simp, fun e he => by rw [has_iff] at he; simp [all] at he, by
    intro n hn
    obtain rfl := Option.some.inj hn
    exact ⟨by unfold IsQid; decide, fun e he => by rw [has_iff] at he; simp [all] at he,
      date_of (by decide)⟩⟩

example : ∀ e, Has f1 e → ¬ e.qid <:+ b2 := by
  intro e he
  rw [has_iff] at he
  have : ∀ x ∈ all f1, ¬ qidOf x.2.name <:+ b2 := by decide +kernel
  have := this _ he.2
  rwa [qidOf_grpOf he.1] at this

/-! ## What does not hold -/

/-- `removegroup` promises to remove an input that has been used when `force` is set.  It never does:
`remove_group` raises the exception in any case. -/
theorem force_not_honoured {f : File} (h : Reach f) {e : Entry} (he : Has f e)
    (u : Used f e.qid) (s : Str) : (Op.removeTool (s ++ e.qid) true).run f = .err .io f :=
  remove_used h he u s (Or.inr ⟨true, rfl⟩)

/-- Activating or describing a group that is not there promises an `AscotNoDataException` and ends in
an `AttributeError`. -/
theorem wrong_exception {f : File} (h : Reach f) {q : Str} (i : IsQid q) (n : Fresh f q) (d : Str) :
    (Op.activate q).run f = .err .attr f ∧ (Op.describe q d).run f = .err .attr f := by
  have w := wf_reach h
  have g : getGroup f q = none := by
    refine getGroup_none w.toWfN i fun x m k => ?_
    obtain ⟨e, k1, k2, k3⟩ := w.entry m
    exact n e k1 (by rw [← k3, k])
  have hq : getQid q = some q := getQid_append (w := []) i
  constructor
  · simp only [Op.run, setActive, hq, g]
  · simp only [Op.run, setDesc, hq, g]

example : IsQid b2 ∧ Fresh f1 b2 := ⟨by unfold IsQid; decide, fresh_of (by decide +kernel)⟩

/-- Nobody checks that the QID of a new group is new.  If it is that of another group, then the new
group may get neither a description nor a date, and the other group loses its own. -/
theorem collision_not_detected : ∃ f' : File,
    (Op.create "efield".toList "E_TC".toList b1 d2 false none).run f1 = .ok f' ∧
      ¬ Consistent f' ∧ ¬ Has f' ⟨bf, tc, b1, text, d1, []⟩ := by
  refine ⟨[⟨bf, some b1, [⟨nameOf tc b1, some "TAG".toList, some d2, []⟩]⟩,
    ⟨"efield".toList, none, [⟨nameOf "E_TC".toList b1, none, none, []⟩]⟩], by decide +kernel, ?_, ?_⟩
  · intro c
    obtain ⟨e, _, _, _, k, _⟩ := c.complete _ (List.mem_cons_of_mem _ List.mem_cons_self) _
      List.mem_cons_self
    cases k
  · intro k
    rw [has_iff] at k
    have := k.2
    revert this
    decide +kernel

/-- The comment on `copygroup` says that the copy is set as active.  It is not if the parent has other
groups. -/
theorem copy_not_active : ∃ f' : File, copyGroup f2 f1 b2 none = .ok f' ∧
    Has f' ⟨bf, tc, b2, "TAG".toList, d2, []⟩ ∧ ¬ Active f' bf b2 := by
  refine ⟨[⟨bf, some b1, [⟨nameOf tc b1, some text, some d1, []⟩,
    ⟨nameOf tc b2, some "TAG".toList, some d2, []⟩]⟩], by decide +kernel, ?_, ?_⟩
  · exact ⟨by unfold IsQid; decide, _, List.mem_cons_self, rfl,
      List.mem_cons_of_mem _ List.mem_cons_self⟩
  · rintro ⟨p, m, _, e⟩
    obtain rfl := List.mem_singleton.1 m
    revert e
    decide +kernel

end Ascot.C148
