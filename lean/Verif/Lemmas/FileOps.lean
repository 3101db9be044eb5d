import Verif.Lemmas.FileTree

/-!
# Lemmas on histories of a file
-/
set_option linter.unusedSectionVars false
set_option linter.unusedSimpArgs false
namespace Ascot.FileTree
open Ascot.FileDoc

theorem createInput_eq {f : File} (w : Wf f) {pn t q : Str} (n : NewName f pn t q)
    (dt : Str) (act : Bool) (desc : Option Str) :
    createInput f pn t q dt act desc = .ok (put f pn
      (fun p => if act = true ∨ p.groups = [] then some q else p.active)
      ⟨nameOf t q, some (desc.getD defaultDesc), some dt, []⟩) := by
  have fr : ∀ x ∈ all f, x.2.name ≠ nameOf t q := fun x m e =>
    n.fresh x m (by rw [e, qidOf_nameOf n.qid.1])
  unfold createInput
  rw [addGroup_eq w n]
  simp only [Res.andThen, Option.getD_none]
  have s1 : (if act = true then setActive (put f pn (fun p => if p.groups = [] then some q else p.active)
        ⟨nameOf t q, some defaultDesc, some dt, []⟩) (nameOf t q) else
        .ok (put f pn (fun p => if p.groups = [] then some q else p.active)
        ⟨nameOf t q, some defaultDesc, some dt, []⟩)) =
      .ok (put f pn (fun p => if act = true ∨ p.groups = [] then some q else p.active)
        ⟨nameOf t q, some defaultDesc, some dt, []⟩) := by
    cases act with
    | false => simp
    | true =>
      rw [if_pos rfl, setActive_eq (w.toWfN.put n rfl) (mem_all_put.2 (Or.inl rfl))
        (by simp only [qidOf_nameOf n.qid.1]; exact getQid_nameOf n.qid)]
      simp only [qidOf_nameOf n.qid.1, put]
      rw [setParent_setParent (by intro _; rfl)]
      simp
  rw [s1]
  cases desc with
  | none => rfl
  | some d =>
    simp only
    rw [setDesc_eq (w.toWfN.put n rfl) (mem_all_put.2 (Or.inl rfl))
        (by simp only [qidOf_nameOf n.qid.1]; exact getQid_path n.qid)]
    have := setGrp_put (f := f) (pn := pn)
      (act := fun p => if act = true ∨ p.groups = [] then some q else p.active)
      (g := ⟨nameOf t q, some defaultDesc, some dt, []⟩)
      (h := fun g => ⟨g.name, some d, g.date, g.refs⟩) (by intro _; rfl) fr
    simp only at this ⊢
    rw [this]
    rfl

theorem newName_of {f : File} (w : Wf f) {pn t q : Str} (h : IsQid q) (fr : Fresh f q)
    (k : (pn = results ∧ t ∈ kinds) ∨ (pn ∈ inputGroups ∧ t ∈ objTypes)) : NewName f pn t q := by
  refine ⟨h, k, ?_⟩
  intro x m e
  obtain ⟨en, h1, h2, h3⟩ := w.entry m
  exact fr en h1 (by rw [← h3, e])

theorem Wf.createInput {f : File} (w : Wf f) {pn t q dt : Str} (n : NewName f pn t q)
    (hd : IsDate dt) (act : Bool) (d : Str) :
    Wf (FileTree.put f pn (fun p => if act = true ∨ p.groups = [] then some q else p.active)
      ⟨nameOf t q, some d, some dt, []⟩) := by
  refine w.put n hd ?_ (by simp)
  intro p m e
  by_cases c : act = true ∨ p.groups = []
  · exact Or.inl (if_pos c)
  · exact Or.inr ⟨fun k => c (Or.inr k), if_neg c⟩

theorem refs_of {f : File} {refs : List (Str × Str)}
    (h : ∀ r ∈ refs, r.1 ∈ inputGroups ∧ ∃ i, Has f i ∧ i.parent = r.1 ∧ i.qid = r.2) :
    ∀ r ∈ refs, results = results ∧ r.1 ∈ inputGroups ∧
      ∃ y ∈ all f, y.1 = r.1 ∧ qidOf y.2.name = r.2 := by
  intro r mr
  obtain ⟨a, i, h1, h2, h3⟩ := h r mr
  rw [has_iff] at h1
  exact ⟨rfl, a, grpOf i, h1.2, h2, by rw [qidOf_grpOf h1.1, h3]⟩

/-- A string that names no group. -/
theorem setActive_other {f : File} {s : Str} : (∃ x ∈ all f, ∃ q, getQid s = some q ∧
    getGroup f q = some x) ∨ ((setActive f s).file = f ∧ ∀ f', setActive f s ≠ .ok f') := by
  unfold setActive
  cases h : getQid s with
  | none => exact Or.inr ⟨rfl, by simp⟩
  | some q =>
    simp only
    cases k : getGroup f q with
    | none => exact Or.inr ⟨rfl, by simp⟩
    | some x => exact Or.inl ⟨x, List.mem_of_find?_eq_some k, q, rfl, k⟩

theorem setDesc_other {f : File} {s d : Str} : (∃ x ∈ all f, ∃ q, getQid s = some q ∧
    getGroup f q = some x) ∨ ((setDesc f s d).file = f ∧ ∀ f', setDesc f s d ≠ .ok f') := by
  unfold setDesc
  cases h : getQid s with
  | none => exact Or.inr ⟨rfl, by simp⟩
  | some q =>
    simp only
    cases k : getGroup f q with
    | none => exact Or.inr ⟨rfl, by simp⟩
    | some x => exact Or.inl ⟨x, List.mem_of_find?_eq_some k, q, rfl, k⟩

theorem Wf.run {f : File} (w : Wf f) {op : Op} (h : Allowed f op) : Wf (op.run f).file := by
  cases op with
  | create pn t q dt act desc =>
    obtain ⟨h1, h2, h3, h4, h5⟩ := h
    have n := newName_of w h3 h5 (Or.inr ⟨h1, h2⟩)
    simp only [Op.run]
    rw [createInput_eq w n]
    exact w.createInput n h4 act _
  | remove s => exact w.removeGroup s
  | removeTool s force => exact w.removeTool s force
  | activate s =>
    simp only [Op.run]
    rcases setActive_other (f := f) (s := s) with ⟨x, m, q, h1, h2⟩ | h
    · have := (getGroup_some w.toWfN (getQid_some h1).1 h2).2
      rw [setActive_eq w.toWfN m (by rw [h1, this])]
      exact w.setActive m
    · rw [h.1]
      exact w
  | describe s d =>
    simp only [Op.run]
    rcases setDesc_other (f := f) (s := s) (d := d) with ⟨x, m, q, h1, h2⟩ | h
    · have := (getGroup_some w.toWfN (getQid_some h1).1 h2).2
      rw [setDesc_eq w.toWfN m (by rw [h1, this])]
      exact w.setDesc _ _ _
    · rw [h.1]
      exact w
  | simulate kind q d dt refs =>
    obtain ⟨h1, h2, h3, h4, h5⟩ := h
    have n := newName_of w h2 h4 (Or.inl ⟨rfl, h1⟩)
    simp only [Op.run]
    rw [initResults_eq w n]
    exact w.put n h3 (fun _ _ _ => Or.inl rfl) (refs_of h5)

/-- A group becomes active if it is the only one. -/
theorem alone_eq {f : File} (w : Wf f) {pn t q : Str} (n : NewName f pn t q) {g : Grp}
    (hg : g.name = nameOf t q) :
    (if (groupsOf (put f pn (·.active) g) pn).length = 1 then
      setActive (put f pn (·.active) g) (nameOf t q) else .ok (put f pn (·.active) g)) =
    .ok (put f pn (fun p => if p.groups = [] then some q else p.active) g) := by
  have w1 := w.toWfN.require n.parent
  have gq : getQid (nameOf t q) = some (qidOf g.name) := by
    rw [hg, qidOf_nameOf n.qid.1, getQid_nameOf n.qid]
  have m4 : (pn, g) ∈ all (put f pn (·.active) g) := mem_all_put.2 (Or.inl rfl)
  have w4 : WfN (put f pn (·.active) g) := w.toWfN.put n hg
  obtain ⟨p0, m0, e0⟩ := exists_require f pn
  have mp : (⟨p0.name, p0.active, insertGrp g p0.groups⟩ : Parent) ∈ put f pn (·.active) g := by
    refine mem_setParent.2 ⟨p0, m0, ?_⟩
    rw [if_pos e0]
  have len : (groupsOf (put f pn (·.active) g) pn).length = p0.groups.length + 1 := by
    have := groupsOf_eq w4.names mp
    simp only [e0] at this
    rw [this, (insertGrp_perm _ _).length_eq, List.length_cons]
  rw [len]
  by_cases c : p0.groups = []
  · rw [if_pos (by simp [c]), setActive_eq w4 m4 gq, hg, qidOf_nameOf n.qid.1]
    unfold put
    rw [setParent_setParent (by intro _; rfl)]
    congr 1
    refine setParent_congr fun p m e => ?_
    obtain rfl := parent_eq w1.names m m0 (e.trans e0.symm)
    simp [c]
  · rw [if_neg (by simpa using c)]
    unfold put
    congr 1
    refine setParent_congr fun p m e => ?_
    obtain rfl := parent_eq w1.names m m0 (e.trans e0.symm)
    simp [c]

/-- What `copy_group` does. -/
theorem copyGroup_eq {fs f : File} (ws : Wf fs) (w : Wf f) {e : Entry} {new : Option (Str × Str)}
    (h : Copyable fs f e new) (s : Str) :
    NewName f e.parent e.type ((new.map Prod.fst).getD e.qid) ∧
    copyGroup fs f (s ++ e.qid) new = .ok (put f e.parent
      (fun p => if p.groups = [] then some ((new.map Prod.fst).getD e.qid) else p.active)
      ⟨nameOf e.type ((new.map Prod.fst).getD e.qid), some e.desc,
        some ((new.map Prod.snd).getD e.date), e.refs⟩) := by
  have hs := h.source
  rw [has_iff] at hs
  have kind : (e.parent = results ∧ e.type ∈ kinds) ∨ (e.parent ∈ inputGroups ∧ e.type ∈ objTypes) := by
    obtain ⟨t, q, e1, i, k⟩ := ws.good _ hs.2
    obtain ⟨rfl, rfl⟩ := nameOf_inj hs.1.1 i.1 e1
    exact k
  have n0 : NewName f e.parent e.type e.qid := newName_of w hs.1 h.fresh kind
  have n : NewName f e.parent e.type ((new.map Prod.fst).getD e.qid) := by
    cases new with
    | none => exact n0
    | some m =>
      obtain ⟨a, b, _⟩ := h.new m rfl
      exact newName_of w a b kind
  refine ⟨n, ?_⟩
  have w1 := w.toWfN.require n.parent
  have no : ∀ q, NewName f e.parent e.type q →
      ¬ ∃ g ∈ groupsOf (require f e.parent) e.parent, g.name = nameOf e.type q := by
    rintro q nq ⟨g, mg, eg⟩
    refine nq.fresh (e.parent, g) (all_require.1 ((mem_groupsOf w1.names).1 mg)) ?_
    simp only [eg]
    exact qidOf_nameOf nq.qid.1
  unfold copyGroup
  rw [getQid_append hs.1]
  simp only
  rw [← qidOf_grpOf hs.1, getGroup_eq ws.toWfN hs.2, qidOf_grpOf hs.1]
  simp only
  rw [show (grpOf e).1 = e.parent from rfl,
    show (grpOf e).2 = ⟨nameOf e.type e.qid, some e.desc, some e.date, e.refs⟩ from rfl,
    if_neg (no _ n0)]
  cases new with
  | none =>
    simp only
    rw [if_neg (no _ n0)]
    simp only [Res.andThen, Option.map_none, Option.getD_none]
    exact alone_eq w n0 (g := ⟨nameOf e.type e.qid, some e.desc, some e.date, e.refs⟩) rfl
  | some m =>
    obtain ⟨a, b, _⟩ := h.new m rfl
    have tk : (nameOf e.type e.qid).take ((nameOf e.type e.qid).length - 11) ++ '_' :: m.1 =
        nameOf e.type m.1 := by
      have : (nameOf e.type e.qid).length - 11 = e.type.length := by simp [nameOf, hs.1.1]
      rw [this]
      simp [nameOf]
    have n1 : NewName f e.parent e.type m.1 := n
    simp only [tk, Option.map_some, Option.getD_some]
    rw [if_neg (no _ n1)]
    simp only [Res.andThen]
    have sd := setDate_eq (f := put f e.parent (·.active)
        ⟨nameOf e.type m.1, some e.desc, some e.date, e.refs⟩)
      (w.toWfN.put n1 rfl) (mem_all_put.2 (Or.inl rfl)) (s := nameOf e.type m.1) (d := m.2)
      (by simp only [qidOf_nameOf n1.qid.1]; exact getQid_nameOf n1.qid)
    have fr : ∀ x ∈ all f, x.2.name ≠ nameOf e.type m.1 := fun x mx ex =>
      n1.fresh x mx (by rw [ex, qidOf_nameOf n1.qid.1])
    have := setGrp_put (f := f) (pn := e.parent) (act := (·.active))
      (g := ⟨nameOf e.type m.1, some e.desc, some e.date, e.refs⟩)
      (h := fun g => ⟨g.name, g.desc, some m.2, g.refs⟩) (by intro _; rfl) fr
    simp only at this sd
    rw [this] at sd
    unfold put at sd
    rw [sd]
    exact alone_eq w n1 (g := ⟨nameOf e.type m.1, some e.desc, some m.2, e.refs⟩) rfl

theorem Wf.copyGroup {fs f : File} (ws : Wf fs) (w : Wf f) {e : Entry} {new : Option (Str × Str)}
    (h : Copyable fs f e new) (s : Str) : Wf (copyGroup fs f (s ++ e.qid) new).file := by
  obtain ⟨n, e1⟩ := copyGroup_eq ws w h s
  rw [e1]
  have hs := h.source
  rw [has_iff] at hs
  refine w.put n ?_ ?_ ?_
  · cases new with
    | none =>
      obtain ⟨_, dt, _, k, l⟩ := ws.info _ hs.2
      obtain rfl := Option.some.inj k
      exact l
    | some m => exact (h.new m rfl).2.2
  · intro p m e
    by_cases c : p.groups = []
    · left; simp [c]
    · right; simp [c]
  · intro r mr
    obtain ⟨a, b, _⟩ := ws.refs _ hs.2 r mr
    obtain ⟨i, h1, h2, h3⟩ := h.inputs r mr
    rw [has_iff] at h1
    exact ⟨a, b, grpOf i, h1.2, h2, by rw [qidOf_grpOf h1.1, h3]⟩

theorem wf_reach {f : File} (h : Reach f) : Wf f := by
  induction h with
  | new => exact wf_nil
  | step _ h ih => exact ih.run h
  | copy _ _ h ih1 ih2 => exact ih1.copyGroup ih2 h _

theorem Wf.consistent {f : File} (w : Wf f) : Consistent f := by
  refine ⟨?_, ?_, ?_, ?_⟩
  · intro e e' h h' k
    rw [has_iff] at h h'
    refine grpOf_inj h.1 h'.1 (w.uniq _ h.2 _ h'.2 ?_)
    rw [qidOf_grpOf h.1, qidOf_grpOf h'.1, k]
  · intro p m g mg
    obtain ⟨e, h1, h2, h3⟩ := w.entry (x := (p.name, g)) (mem_all.2 ⟨p, m, rfl, mg⟩)
    refine ⟨e, h1, ?_, ?_, ?_, ?_⟩
    · exact (congrArg Prod.fst h2).symm
    · exact congrArg (·.2.name) h2
    · exact congrArg (·.2.desc) h2
    · exact congrArg (·.2.date) h2
  · intro p m
    obtain ⟨g, mg, ea⟩ := w.act p m
    obtain ⟨e, h1, h2, h3⟩ := w.entry (x := (p.name, g)) (mem_all.2 ⟨p, m, rfl, mg⟩)
    refine ⟨e, h1, (congrArg Prod.fst h2).symm, p, m, rfl, ?_⟩
    rw [ea]
    exact congrArg some h3
  · intro e h r mr
    rw [has_iff] at h
    obtain ⟨_, _, y, my, e1, e2⟩ := w.refs _ h.2 r mr
    obtain ⟨i, h1, h2, h3⟩ := w.entry my
    exact ⟨i, h1, by rw [← e1, h2]; rfl, by rw [← h3, e2]⟩

/-! ## Effects -/

theorem active_setActive {f : File} {pn q pn' q' : Str} (h : ∃ p ∈ f, p.name = pn) :
    Active (setParent f pn fun p => ⟨p.name, some q, p.groups⟩) pn' q' ↔
      if pn' = pn then q' = q else Active f pn' q' := by
  unfold Active
  constructor
  · rintro ⟨p, m, e1, e2⟩
    obtain ⟨p0, m0, rfl⟩ := mem_setParent.1 m
    by_cases c : p0.name = pn
    · simp only [c, if_true] at e1 e2
      rw [if_pos e1.symm]
      exact (Option.some.inj e2).symm
    · simp only [c, if_false] at e1 e2
      rw [if_neg (by rw [← e1]; exact c)]
      exact ⟨p0, m0, e1, e2⟩
  · intro k
    by_cases c : pn' = pn
    · rw [if_pos c] at k
      obtain ⟨p, m, e⟩ := h
      exact ⟨_, mem_setParent.2 ⟨p, m, rfl⟩, by simp [e, c], by simp [e, k]⟩
    · rw [if_neg c] at k
      obtain ⟨p, m, e1, e2⟩ := k
      have : p.name ≠ pn := by rw [e1]; exact c
      exact ⟨_, mem_setParent.2 ⟨p, m, rfl⟩, by rw [if_neg this]; exact e1, by rw [if_neg this]; exact e2⟩

theorem active_setGrp {f : File} {pn gn pn' q' : Str} {h : Grp → Grp} :
    Active (setGrp f pn gn h) pn' q' ↔ Active f pn' q' := by
  unfold Active setGrp
  constructor
  · rintro ⟨p, m, e1, e2⟩
    obtain ⟨p0, m0, rfl⟩ := mem_setParent.1 m
    refine ⟨p0, m0, ?_, ?_⟩
    · rw [← e1]; split_ifs <;> rfl
    · rw [← e2]; split_ifs <;> rfl
  · rintro ⟨p, m, e1, e2⟩
    refine ⟨_, mem_setParent.2 ⟨p, m, rfl⟩, ?_, ?_⟩
    · rw [← e1]; split_ifs <;> rfl
    · rw [← e2]; split_ifs <;> rfl

theorem active_put {f : File} (nd : (f.map (·.name)).Nodup) {pn pn' q' : Str}
    {act : Parent → Option Str} {g : Grp} :
    Active (put f pn act g) pn' q' ↔
      if pn' = pn then ∃ p ∈ require f pn, p.name = pn ∧ act p = some q' else Active f pn' q' := by
  unfold Active put
  constructor
  · rintro ⟨p, m, e1, e2⟩
    obtain ⟨p0, m0, rfl⟩ := mem_setParent.1 m
    by_cases c : p0.name = pn
    · simp only [c, if_true] at e1 e2
      rw [if_pos e1.symm]
      exact ⟨p0, m0, c, e2⟩
    · simp only [c, if_false] at e1 e2
      rw [if_neg (by rw [← e1]; exact c)]
      rcases mem_require.1 m0 with m0 | ⟨rfl, _⟩
      · exact ⟨p0, m0, e1, e2⟩
      · simp at c
  · intro k
    by_cases c : pn' = pn
    · rw [if_pos c] at k
      obtain ⟨p, m, e1, e2⟩ := k
      exact ⟨_, mem_setParent.2 ⟨p, m, rfl⟩, by simp [e1, c], by simp [e1, e2]⟩
    · rw [if_neg c] at k
      obtain ⟨p, m, e1, e2⟩ := k
      have : p.name ≠ pn := by rw [e1]; exact c
      exact ⟨_, mem_setParent.2 ⟨p, mem_require.2 (Or.inl m), rfl⟩, by rw [if_neg this]; exact e1,
        by rw [if_neg this]; exact e2⟩

theorem active_delParent {f : File} {pn pn' q' : Str} :
    Active (delParent f pn) pn' q' ↔ pn' ≠ pn ∧ Active f pn' q' := by
  unfold Active delParent
  constructor
  · rintro ⟨p, m, e1, e2⟩
    obtain ⟨m, c⟩ := List.mem_filter.1 m
    simp only [decide_eq_true_eq] at c
    exact ⟨by rw [← e1]; exact c, p, m, e1, e2⟩
  · rintro ⟨c, p, m, e1, e2⟩
    exact ⟨p, List.mem_filter.2 ⟨m, by simp only [decide_eq_true_eq]; rw [e1]; exact c⟩, e1, e2⟩

theorem has_put {f : File} {pn t q d dt : Str} {act : Parent → Option Str}
    {refs : List (Str × Str)} (i : IsQid q) (e : Entry) :
    Has (put f pn act ⟨nameOf t q, some d, some dt, refs⟩) e ↔
      e = ⟨pn, t, q, d, dt, refs⟩ ∨ Has f e := by
  rw [has_iff, has_iff, mem_all_put]
  constructor
  · rintro ⟨h, k | k⟩
    · exact Or.inl (grpOf_inj h i k)
    · exact Or.inr ⟨h, k⟩
  · rintro (rfl | h)
    · exact ⟨i, Or.inl rfl⟩
    · exact ⟨h.1, Or.inr h.2⟩

theorem exists_parent {f : File} (w : Wf f) {pn : Str} :
    (∃ p ∈ f, p.name = pn) ↔ ∃ e, Has f e ∧ e.parent = pn := by
  constructor
  · rintro ⟨p, m, rfl⟩
    obtain ⟨e, h1, h2, _⟩ := w.consistent.active p m
    exact ⟨e, h1, h2⟩
  · rintro ⟨e, ⟨_, p, m, h, _⟩, rfl⟩
    exact ⟨p, m, h⟩

end Ascot.FileTree
