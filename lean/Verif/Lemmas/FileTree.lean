import Mathlib.Data.List.Nodup
import Verif.Spec.FileDoc

/-!
# Lemmas on the groups of a file
-/
set_option linter.unusedSectionVars false
set_option linter.unusedSimpArgs false
namespace Ascot.FileTree
open Ascot.FileDoc

/-! ## Names -/

/-- The last ten characters. -/
def qidOf (s : Str) : Str := s.drop (s.length - 10)

theorem qidOf_append {w q : Str} (h : q.length = 10) : qidOf (w ++ q) = q := by
  simp [qidOf, h]

theorem qidOf_nameOf {t q : Str} (h : q.length = 10) : qidOf (nameOf t q) = q := by
  have : nameOf t q = (t ++ ['_']) ++ q := by simp [nameOf]
  rw [this, qidOf_append h]

theorem getQid_append {w q : Str} (h : IsQid q) : getQid (w ++ q) = some q := by
  have e : (w ++ q).drop ((w ++ q).length - 10) = q := qidOf_append h.1
  unfold getQid
  rw [e, if_pos]
  refine ⟨by simp [h.1], ?_⟩
  simpa using h.2

theorem getQid_nameOf {t q : Str} (h : IsQid q) : getQid (nameOf t q) = some q := by
  have : nameOf t q = (t ++ ['_']) ++ q := by simp [nameOf]
  rw [this, getQid_append h]

theorem getQid_path {p t q : Str} (h : IsQid q) : getQid (path p (nameOf t q)) = some q := by
  have : path p (nameOf t q) = ('/' :: p ++ '/' :: t ++ ['_']) ++ q := by simp [nameOf, path]
  rw [this, getQid_append h]

theorem getQid_some {s q : Str} (h : getQid s = some q) : IsQid q ∧ ∃ w, s = w ++ q := by
  unfold getQid at h
  split at h
  · next c =>
    obtain rfl := Option.some.inj h
    refine ⟨⟨by simp; omega, ?_⟩, s.take (s.length - 10), (List.take_append_drop _ _).symm⟩
    simpa using c.2
  · simp at h

theorem infix_append {w a b : Str} (h : '_' ∉ w) (i : w <:+: a ++ '_' :: b) :
    w <:+: a ∨ w <:+: b := by
  obtain ⟨s, t, e⟩ := i
  rw [List.append_assoc] at e
  rcases List.append_eq_append_iff.1 e with ⟨c, e1, e2⟩ | ⟨c, e1, e2⟩
  · -- `a = s ++ c`, `w ++ t = c ++ '_' :: b`
    rcases List.append_eq_append_iff.1 e2 with ⟨d, e3, e4⟩ | ⟨d, e3, e4⟩
    · left
      exact ⟨s, d, by rw [e1, e3, List.append_assoc]⟩
    · -- `w = c ++ d`, `'_' :: b = d ++ t`
      cases d with
      | nil =>
        left
        exact ⟨s, [], by simp [e1, e3]⟩
      | cons x d =>
        simp only [List.cons_append, List.cons.injEq] at e4
        exact absurd (by rw [e3, e4.1]; simp) h
  · -- `s = a ++ c`, `'_' :: b = c ++ (w ++ t)`
    cases c with
    | nil =>
      simp only [List.nil_append] at e2
      cases w with
      | nil => left; exact List.nil_infix
      | cons x w =>
        simp only [List.cons_append, List.cons.injEq] at e2
        exact absurd (by rw [← e2.1]; simp) h
    | cons x c =>
      simp only [List.cons_append, List.cons.injEq] at e2
      right
      exact ⟨c, t, by rw [e2.2, List.append_assoc]⟩

/-- Types that do not look like a QID. -/
def okTypes : List Str := objTypes ++ kinds

theorem okTypes_digits : ∀ t ∈ okTypes, (t.filter Char.isDigit).length < 10 := by decide +kernel

theorem okTypes_getType :
    ∀ t ∈ okTypes, 2 ≤ t.length ∧ t.all Char.isDigit = false := by decide +kernel

theorem not_infix_type {t q : Str} (ht : t ∈ okTypes) (h : IsQid q) : ¬ q <:+: t := by
  intro i
  have l := (i.sublist.filter Char.isDigit).length_le
  have : q.filter Char.isDigit = q := List.filter_eq_self.2 h.2
  rw [this, h.1] at l
  exact absurd (okTypes_digits t ht) (by omega)

theorem infix_nameOf {t q q' : Str} (ht : t ∈ okTypes) (h : IsQid q) (h' : IsQid q') :
    q <:+: nameOf t q' ↔ q = q' := by
  constructor
  · intro i
    have : '_' ∉ q := fun m => absurd (h.2 _ m) (by decide)
    rcases infix_append this i with j | j
    · exact absurd j (not_infix_type ht h)
    · exact j.sublist.eq_of_length (by rw [h.1, h'.1])
  · rintro rfl
    exact ⟨t ++ ['_'], [], by simp [nameOf]⟩

theorem getType_nameOf {t q : Str} (ht : t ∈ okTypes) (h : q.length = 10) :
    getType (nameOf t q) = some t := by
  have l : (nameOf t q).length = t.length + 11 := by simp [nameOf, h]
  have := okTypes_getType t ht
  have e : (nameOf t q).take ((nameOf t q).length - 11) = t := by
    rw [l]
    simp [nameOf]
  unfold getType
  rw [e, if_pos]
  exact ⟨by omega, by simp [this.2]⟩

theorem nameOf_inj {t t' q q' : Str} (h : q.length = 10) (h' : q'.length = 10)
    (e : nameOf t q = nameOf t' q') : t = t' ∧ q = q' := by
  have eq : q = q' := by rw [← qidOf_nameOf (t := t) h, e, qidOf_nameOf h']
  subst eq
  exact ⟨List.append_cancel_right e, rfl⟩

/-! ## Lists of groups -/

theorem mem_all {f : File} {x : Str × Grp} :
    x ∈ all f ↔ ∃ p ∈ f, p.name = x.1 ∧ x.2 ∈ p.groups := by
  simp only [all, List.mem_flatMap, List.mem_map]
  constructor
  · rintro ⟨p, hp, g, hg, rfl⟩
    exact ⟨p, hp, rfl, hg⟩
  · rintro ⟨p, hp, h, hg⟩
    exact ⟨p, hp, x.2, hg, by rw [h]⟩

theorem insertGrp_perm (g : Grp) (l : List Grp) : (insertGrp g l).Perm (g :: l) := by
  induction l with
  | nil => exact List.Perm.refl _
  | cons x xs ih =>
    simp only [insertGrp]
    split_ifs
    · exact List.Perm.refl _
    · exact (ih.cons x).trans (List.Perm.swap g x xs)

theorem insertParent_perm (p : Parent) (l : File) : (insertParent p l).Perm (p :: l) := by
  induction l with
  | nil => exact List.Perm.refl _
  | cons x xs ih =>
    simp only [insertParent]
    split_ifs
    · exact List.Perm.refl _
    · exact (ih.cons x).trans (List.Perm.swap p x xs)

theorem mem_insertGrp {g x : Grp} {l : List Grp} : x ∈ insertGrp g l ↔ x = g ∨ x ∈ l := by
  rw [(insertGrp_perm g l).mem_iff, List.mem_cons]

theorem mem_insertParent {p x : Parent} {l : File} : x ∈ insertParent p l ↔ x = p ∨ x ∈ l := by
  rw [(insertParent_perm p l).mem_iff, List.mem_cons]

theorem insertGrp_map {g : Grp} {l : List Grp} {h : Grp → Grp} (hn : ∀ g, (h g).name = g.name)
    (fr : ∀ x ∈ l, x.name ≠ g.name) :
    (insertGrp g l).map (fun x => if x.name = g.name then h x else x) = insertGrp (h g) l := by
  induction l with
  | nil => simp [insertGrp]
  | cons x xs ih =>
    have hx := fr x (by simp)
    have hxs : ∀ y ∈ xs, y.name ≠ g.name := fun y m => fr y (by simp [m])
    have id : xs.map (fun x => if x.name = g.name then h x else x) = xs := by
      conv_rhs => rw [← List.map_id xs]
      exact List.map_congr_left fun y m => by simp [hxs y m]
    simp only [insertGrp, hn]
    split_ifs
    · simp [hx, id]
    · rw [List.map_cons, ih hxs, if_neg hx]

theorem setParent_setParent {f : File} {pn : Str} {h h' : Parent → Parent}
    (hn : ∀ p, (h p).name = p.name) :
    setParent (setParent f pn h) pn h' = setParent f pn fun p => h' (h p) := by
  simp only [setParent, List.map_map]
  refine List.map_congr_left fun p _ => ?_
  simp only [Function.comp]
  by_cases c : p.name = pn
  · simp [c, hn]
  · simp [c]

theorem setParent_congr {f : File} {pn : Str} {h h' : Parent → Parent}
    (e : ∀ p ∈ f, p.name = pn → h p = h' p) : setParent f pn h = setParent f pn h' := by
  refine List.map_congr_left fun p m => ?_
  by_cases c : p.name = pn
  · simp [c, e p m c]
  · simp [c]

theorem names_setParent {f : File} {pn : Str} {h : Parent → Parent}
    (hn : ∀ p, (h p).name = p.name) :
    (setParent f pn h).map (·.name) = f.map (·.name) := by
  simp only [setParent, List.map_map]
  refine List.map_congr_left fun p _ => ?_
  simp only [Function.comp]
  split_ifs
  · exact hn p
  · rfl

theorem mem_setParent {f : File} {pn : Str} {h : Parent → Parent} {p : Parent} :
    p ∈ setParent f pn h ↔ ∃ p0 ∈ f, (if p0.name = pn then h p0 else p0) = p := by
  simp [setParent]

theorem parent_eq {f : File} (nd : (f.map (·.name)).Nodup) {p p' : Parent} (h : p ∈ f) (h' : p' ∈ f)
    (e : p.name = p'.name) : p = p' := List.inj_on_of_nodup_map nd h h' e

theorem find_parent {f : File} (nd : (f.map (·.name)).Nodup) {p : Parent} (h : p ∈ f) :
    (f.find? fun x => x.name = p.name) = some p := by
  have i : (f.find? fun x => decide (x.name = p.name)).isSome := by
    rw [List.find?_isSome]
    exact ⟨p, h, by simp⟩
  obtain ⟨p', e⟩ := Option.isSome_iff_exists.1 i
  rw [e, parent_eq nd (List.mem_of_find?_eq_some e) h (by simpa using List.find?_some e)]

theorem groupsOf_eq {f : File} (nd : (f.map (·.name)).Nodup) {p : Parent} (h : p ∈ f) :
    groupsOf f p.name = p.groups := by
  unfold groupsOf
  rw [find_parent nd h]

theorem groupsOf_none {f : File} {pn : Str} (h : ∀ p ∈ f, p.name ≠ pn) : groupsOf f pn = [] := by
  unfold groupsOf
  rw [List.find?_eq_none.2]
  intro p m
  simp [h p m]

theorem mem_groupsOf {f : File} (nd : (f.map (·.name)).Nodup) {pn : Str} {g : Grp} :
    g ∈ groupsOf f pn ↔ (pn, g) ∈ all f := by
  rw [mem_all]
  constructor
  · intro h
    by_cases c : ∃ p ∈ f, p.name = pn
    · obtain ⟨p, m, rfl⟩ := c
      rw [groupsOf_eq nd m] at h
      exact ⟨p, m, rfl, h⟩
    · rw [groupsOf_none (fun p m e => c ⟨p, m, e⟩)] at h
      simp at h
  · rintro ⟨p, m, e, h⟩
    simp only at e
    subst e
    rw [groupsOf_eq nd m]
    exact h

theorem names_require {f : File} {pn : Str} (nd : (f.map (·.name)).Nodup) :
    ((require f pn).map (·.name)).Nodup := by
  unfold require
  split_ifs with c
  · exact nd
  · rw [((insertParent_perm _ f).map _).nodup_iff]
    simp only [List.map_cons, List.nodup_cons]
    refine ⟨?_, nd⟩
    simpa using c

theorem mem_require {f : File} {pn : Str} {p : Parent} :
    p ∈ require f pn ↔ p ∈ f ∨ (p = ⟨pn, none, []⟩ ∧ ∀ p ∈ f, p.name ≠ pn) := by
  unfold require
  split_ifs with c
  · constructor
    · exact Or.inl
    · rintro (h | ⟨_, h⟩)
      · exact h
      · obtain ⟨p', m, e⟩ := c
        exact absurd e (h p' m)
  · rw [mem_insertParent]
    have : ∀ p ∈ f, p.name ≠ pn := fun p m e => c ⟨p, m, e⟩
    tauto

theorem exists_require (f : File) (pn : Str) : ∃ p ∈ require f pn, p.name = pn := by
  by_cases c : ∃ p ∈ f, p.name = pn
  · obtain ⟨p, m, e⟩ := c
    exact ⟨p, mem_require.2 (Or.inl m), e⟩
  · exact ⟨⟨pn, none, []⟩, mem_require.2 (Or.inr ⟨rfl, fun p m e => c ⟨p, m, e⟩⟩), rfl⟩

theorem all_require {f : File} {pn : Str} {x : Str × Grp} : x ∈ all (require f pn) ↔ x ∈ all f := by
  simp only [mem_all, mem_require]
  constructor
  · rintro ⟨p, h | ⟨rfl, _⟩, e, m⟩
    · exact ⟨p, h, e, m⟩
    · simp at m
  · rintro ⟨p, h, e, m⟩
    exact ⟨p, Or.inl h, e, m⟩

/-! ## Well-formed files -/

/-- Well-formed names. -/
structure WfN (f : File) : Prop where
  names : (f.map (·.name)).Nodup
  gnames : ∀ p ∈ f, (p.groups.map (·.name)).Nodup
  good : ∀ x ∈ all f, ∃ t q, x.2.name = nameOf t q ∧ IsQid q ∧
    ((x.1 = results ∧ t ∈ kinds) ∨ (x.1 ∈ inputGroups ∧ t ∈ objTypes))
  uniq : ∀ x ∈ all f, ∀ y ∈ all f, qidOf x.2.name = qidOf y.2.name → x = y
  parents : ∀ p ∈ f, p.name = results ∨ p.name ∈ inputGroups

theorem results_not_input : results ∉ inputGroups := by decide

theorem WfN.isQid {f : File} (w : WfN f) {x : Str × Grp} (h : x ∈ all f) :
    IsQid (qidOf x.2.name) := by
  obtain ⟨t, q, e, i, _⟩ := w.good x h
  rw [e, qidOf_nameOf i.1]
  exact i

theorem WfN.infix {f : File} (w : WfN f) {x : Str × Grp} (h : x ∈ all f) {q : Str} (i : IsQid q) :
    q <:+: x.2.name ↔ qidOf x.2.name = q := by
  obtain ⟨t, q', e, j, k⟩ := w.good x h
  rw [e, qidOf_nameOf j.1, infix_nameOf _ i j]
  · exact eq_comm
  · rcases k with k | k
    · simp [okTypes, k.2]
    · simp [okTypes, k.2]

theorem getGroup_eq {f : File} (w : WfN f) {x : Str × Grp} (h : x ∈ all f) :
    getGroup f (qidOf x.2.name) = some x := by
  have i : (getGroup f (qidOf x.2.name)).isSome := by
    unfold getGroup
    rw [List.find?_isSome]
    exact ⟨x, h, by simpa using (w.infix h (w.isQid h)).2 rfl⟩
  obtain ⟨y, e⟩ := Option.isSome_iff_exists.1 i
  rw [e]
  have m := List.mem_of_find?_eq_some e
  have := List.find?_some e
  simp only [decide_eq_true_eq] at this
  rw [w.uniq y m x h ((w.infix m (w.isQid h)).1 this)]

theorem getGroup_some {f : File} (w : WfN f) {q : Str} (i : IsQid q) {x : Str × Grp}
    (h : getGroup f q = some x) : x ∈ all f ∧ qidOf x.2.name = q := by
  have m := List.mem_of_find?_eq_some h
  have := List.find?_some h
  simp only [decide_eq_true_eq] at this
  exact ⟨m, (w.infix m i).1 this⟩

theorem getGroup_none {f : File} (w : WfN f) {q : Str} (i : IsQid q)
    (h : ∀ x ∈ all f, qidOf x.2.name ≠ q) : getGroup f q = none := by
  unfold getGroup
  rw [List.find?_eq_none]
  intro x m
  simp only [decide_eq_true_eq]
  exact fun c => h x m ((w.infix m i).1 c)

/-- Well-formed files. -/
structure Wf (f : File) : Prop extends WfN f where
  info : ∀ x ∈ all f, ∃ d dt, x.2.desc = some d ∧ x.2.date = some dt ∧ IsDate dt
  act : ∀ p ∈ f, ∃ g ∈ p.groups, p.active = some (qidOf g.name)
  refs : ∀ x ∈ all f, ∀ r ∈ x.2.refs, x.1 = results ∧ r.1 ∈ inputGroups ∧
    ∃ y ∈ all f, y.1 = r.1 ∧ qidOf y.2.name = r.2

theorem wf_nil : Wf [] :=
  ⟨⟨by simp, by simp, by simp [all], by simp [all], by simp⟩, by simp [all], by simp,
    by simp [all]⟩


/-! ## Changes that keep the groups -/

theorem all_setParent_groups {f : File} {pn : Str} {h : Parent → Parent}
    (hn : ∀ p, (h p).name = p.name) (hg : ∀ p, (h p).groups = p.groups) :
    all (setParent f pn h) = all f := by
  simp only [all, setParent, List.flatMap_map]
  congr 1
  funext p
  split_ifs <;> simp [hn, hg]

theorem WfN.setParent_groups {f : File} (w : WfN f) {pn : Str} {h : Parent → Parent}
    (hn : ∀ p, (h p).name = p.name) (hg : ∀ p, (h p).groups = p.groups) :
    WfN (setParent f pn h) := by
  have e := all_setParent_groups (f := f) (pn := pn) hn hg
  refine ⟨?_, ?_, ?_, ?_, ?_⟩
  · rw [names_setParent hn]
    exact w.names
  · intro p m
    obtain ⟨p0, m0, rfl⟩ := mem_setParent.1 m
    split_ifs
    · rw [hg]
      exact w.gnames p0 m0
    · exact w.gnames p0 m0
  · rw [e]
    exact w.good
  · rw [e]
    exact w.uniq
  · intro p m
    obtain ⟨p0, m0, rfl⟩ := mem_setParent.1 m
    split_ifs
    · rw [hn]
      exact w.parents p0 m0
    · exact w.parents p0 m0

/-- What `set_active` does. -/
theorem setActive_eq {f : File} (w : WfN f) {x : Str × Grp} (h : x ∈ all f) {s : Str}
    (hs : getQid s = some (qidOf x.2.name)) :
    setActive f s = .ok (setParent f x.1 fun p => ⟨p.name, some (qidOf x.2.name), p.groups⟩) := by
  unfold setActive
  rw [hs]
  simp only
  rw [getGroup_eq w h]

theorem Wf.setActive {f : File} (w : Wf f) {x : Str × Grp} (h : x ∈ all f) :
    Wf (setParent f x.1 fun p => ⟨p.name, some (qidOf x.2.name), p.groups⟩) := by
  have e := all_setParent_groups (f := f) (pn := x.1)
    (h := fun p => ⟨p.name, some (qidOf x.2.name), p.groups⟩) (fun _ => rfl) (fun _ => rfl)
  refine ⟨w.toWfN.setParent_groups (fun _ => rfl) (fun _ => rfl), ?_, ?_, ?_⟩
  · rw [e]
    exact w.info
  · intro p m
    obtain ⟨p0, m0, rfl⟩ := mem_setParent.1 m
    split_ifs with c
    · obtain ⟨p1, m1, e1, g1⟩ := mem_all.1 h
      obtain rfl := parent_eq w.names m0 m1 (c.trans e1.symm)
      exact ⟨x.2, g1, rfl⟩
    · exact w.act p0 m0
  · rw [e]
    exact w.refs

/-! ## Changes of one group that keep the names -/

theorem all_setGrp {f : File} {pn gn : Str} {h : Grp → Grp} :
    all (setGrp f pn gn h) =
      (all f).map fun x => if x.1 = pn ∧ x.2.name = gn then (x.1, h x.2) else x := by
  simp only [all, setGrp, setParent, List.flatMap_map, List.map_flatMap]
  congr 1
  funext p
  split_ifs with c
  · simp only [List.map_map]
    refine List.map_congr_left fun g _ => ?_
    simp only [Function.comp]
    split_ifs <;> simp_all
  · simp only [List.map_map]
    refine List.map_congr_left fun g _ => ?_
    simp [c]

theorem WfN.setGrp {f : File} (w : WfN f) {pn gn : Str} {h : Grp → Grp}
    (hn : ∀ g, (h g).name = g.name) : WfN (setGrp f pn gn h) := by
  have key : ∀ x ∈ all (FileTree.setGrp f pn gn h), ∃ y ∈ all f, x.1 = y.1 ∧ x.2.name = y.2.name ∧
      x = if y.1 = pn ∧ y.2.name = gn then (y.1, h y.2) else y := by
    intro x m
    rw [all_setGrp, List.mem_map] at m
    obtain ⟨y, my, rfl⟩ := m
    refine ⟨y, my, ?_, ?_, rfl⟩ <;> split_ifs <;> simp [hn]
  refine ⟨?_, ?_, ?_, ?_, ?_⟩
  · unfold FileTree.setGrp
    rw [names_setParent (by simp)]
    exact w.names
  · intro p m
    obtain ⟨p0, m0, rfl⟩ := mem_setParent.1 m
    split_ifs
    · simp only [List.map_map]
      have : p0.groups.map ((·.name) ∘ fun g => if g.name = gn then h g else g) =
          p0.groups.map (·.name) := by
        refine List.map_congr_left fun g _ => ?_
        simp only [Function.comp]
        split_ifs <;> simp [hn]
      rw [this]
      exact w.gnames p0 m0
    · exact w.gnames p0 m0
  · intro x m
    obtain ⟨y, my, e1, e2, _⟩ := key x m
    rw [e1, e2]
    exact w.good y my
  · intro x m x' m' e
    obtain ⟨y, my, e1, e2, e3⟩ := key x m
    obtain ⟨y', my', e1', e2', e3'⟩ := key x' m'
    rw [e2, e2'] at e
    obtain rfl := w.uniq y my y' my' e
    rw [e3, e3']
  · intro p m
    obtain ⟨p0, m0, rfl⟩ := mem_setParent.1 m
    split_ifs
    · exact w.parents p0 m0
    · exact w.parents p0 m0

theorem setDesc_eq {f : File} (w : WfN f) {x : Str × Grp} (h : x ∈ all f) {s d : Str}
    (hs : getQid s = some (qidOf x.2.name)) :
    setDesc f s d =
      .ok (setGrp f x.1 x.2.name fun g => ⟨g.name, some d, g.date, g.refs⟩) := by
  unfold setDesc
  rw [hs]
  simp only
  rw [getGroup_eq w h]

theorem setDate_eq {f : File} (w : WfN f) {x : Str × Grp} (h : x ∈ all f) {s d : Str}
    (hs : getQid s = some (qidOf x.2.name)) :
    setDate f s d =
      .ok (setGrp f x.1 x.2.name fun g => ⟨g.name, g.desc, some d, g.refs⟩) := by
  unfold setDate
  rw [hs]
  simp only
  rw [getGroup_eq w h]

theorem mem_all_setGrp {f : File} {pn gn : Str} {h : Grp → Grp} (hn : ∀ g, (h g).name = g.name)
    {x : Str × Grp} : x ∈ all (setGrp f pn gn h) →
      ∃ y ∈ all f, x.1 = y.1 ∧ x.2.name = y.2.name ∧
        x = if y.1 = pn ∧ y.2.name = gn then (y.1, h y.2) else y := by
  intro m
  rw [all_setGrp, List.mem_map] at m
  obtain ⟨y, my, rfl⟩ := m
  refine ⟨y, my, ?_, ?_, rfl⟩ <;> split_ifs <;> simp [hn]

theorem mem_all_setGrp' {f : File} {pn gn : Str} {h : Grp → Grp} (hn : ∀ g, (h g).name = g.name)
    {y : Str × Grp} (m : y ∈ all f) :
    ∃ x ∈ all (setGrp f pn gn h), x.1 = y.1 ∧ x.2.name = y.2.name := by
  refine ⟨if y.1 = pn ∧ y.2.name = gn then (y.1, h y.2) else y, ?_, ?_⟩
  · rw [all_setGrp, List.mem_map]
    exact ⟨y, m, rfl⟩
  · split_ifs <;> simp [hn]

theorem Wf.setDesc {f : File} (w : Wf f) (pn gn d : Str) :
    Wf (setGrp f pn gn fun g => ⟨g.name, some d, g.date, g.refs⟩) := by
  refine ⟨w.toWfN.setGrp (fun _ => rfl), ?_, ?_, ?_⟩
  · intro x m
    obtain ⟨y, my, _, _, e⟩ := mem_all_setGrp (by intro _; rfl) m
    obtain ⟨d0, dt, h1, h2, h3⟩ := w.info y my
    rw [e]
    split_ifs
    · exact ⟨d, dt, rfl, h2, h3⟩
    · exact ⟨d0, dt, h1, h2, h3⟩
  · intro p m
    obtain ⟨p0, m0, rfl⟩ := mem_setParent.1 m
    obtain ⟨g, mg, e⟩ := w.act p0 m0
    split_ifs
    · refine ⟨_, List.mem_map.2 ⟨g, mg, rfl⟩, ?_⟩
      rw [e]
      split_ifs <;> rfl
    · exact ⟨g, mg, e⟩
  · intro x m r mr
    obtain ⟨y, my, e1, _, e⟩ := mem_all_setGrp (by intro _; rfl) m
    have : r ∈ y.2.refs := by
      rw [e] at mr
      split_ifs at mr <;> exact mr
    obtain ⟨a, b, z, mz, c1, c2⟩ := w.refs y my r this
    obtain ⟨z', mz', d1, d2⟩ := mem_all_setGrp' (pn := pn) (gn := gn)
      (h := fun g => ⟨g.name, some d, g.date, g.refs⟩) (fun _ => rfl) mz
    exact ⟨e1.trans a, b, z', mz', d1.trans c1, by rw [d2]; exact c2⟩

/-! ## A new group -/

/-- A new group in the parent `pn`. -/
def put (f : File) (pn : Str) (act : Parent → Option Str) (g : Grp) : File :=
  setParent (require f pn) pn fun p => ⟨p.name, act p, insertGrp g p.groups⟩

theorem mem_all_put {f : File} {pn : Str} {act : Parent → Option Str} {g : Grp}
    {x : Str × Grp} : x ∈ all (put f pn act g) ↔ x = (pn, g) ∨ x ∈ all f := by
  rw [← all_require (f := f) (pn := pn), mem_all, mem_all]
  constructor
  · rintro ⟨p, m, e, mx⟩
    obtain ⟨p0, m0, rfl⟩ := mem_setParent.1 m
    split_ifs at e mx with c
    · rcases mem_insertGrp.1 mx with rfl | h
      · left
        rw [← c, e]
      · exact Or.inr ⟨p0, m0, e, h⟩
    · exact Or.inr ⟨p0, m0, e, mx⟩
  · rintro (rfl | ⟨p0, m0, e, mx⟩)
    · obtain ⟨p0, m0, e⟩ := exists_require f pn
      refine ⟨_, mem_setParent.2 ⟨p0, m0, rfl⟩, ?_⟩
      rw [if_pos e]
      exact ⟨e, mem_insertGrp.2 (Or.inl rfl)⟩
    · refine ⟨_, mem_setParent.2 ⟨p0, m0, rfl⟩, ?_⟩
      split_ifs
      · exact ⟨e, mem_insertGrp.2 (Or.inr mx)⟩
      · exact ⟨e, mx⟩

/-- A new name. -/
structure NewName (f : File) (pn t q : Str) : Prop where
  qid : IsQid q
  kind : (pn = results ∧ t ∈ kinds) ∨ (pn ∈ inputGroups ∧ t ∈ objTypes)
  fresh : ∀ x ∈ all f, qidOf x.2.name ≠ q

theorem NewName.parent {f : File} {pn t q : Str} (n : NewName f pn t q) :
    pn = results ∨ pn ∈ inputGroups := by
  rcases n.kind with h | h
  · exact Or.inl h.1
  · exact Or.inr h.1

theorem WfN.require {f : File} (w : WfN f) {pn : Str} (h : pn = results ∨ pn ∈ inputGroups) :
    WfN (require f pn) := by
  refine ⟨names_require w.names, ?_, ?_, ?_, ?_⟩
  · intro p m
    rcases mem_require.1 m with m | ⟨rfl, _⟩
    · exact w.gnames p m
    · simp
  · intro x m
    exact w.good x (all_require.1 m)
  · intro x m y m'
    exact w.uniq x (all_require.1 m) y (all_require.1 m')
  · intro p m
    rcases mem_require.1 m with m | ⟨rfl, _⟩
    · exact w.parents p m
    · exact h

theorem WfN.put {f : File} (w : WfN f) {pn t q : Str} (n : NewName f pn t q)
    {act : Parent → Option Str} {g : Grp} (hg : g.name = nameOf t q) : WfN (put f pn act g) := by
  have fr : ∀ x ∈ all f, x.2.name ≠ g.name := fun x m e =>
    n.fresh x m (by rw [e, hg, qidOf_nameOf n.qid.1])
  refine ⟨?_, ?_, ?_, ?_, ?_⟩
  · unfold FileTree.put
    rw [names_setParent (by intro _; rfl)]
    exact names_require w.names
  · intro p m
    obtain ⟨p0, m0, rfl⟩ := mem_setParent.1 m
    have w0 := (w.require n.parent).gnames p0 m0
    split_ifs with c
    · rw [((insertGrp_perm g p0.groups).map _).nodup_iff]
      simp only [List.map_cons, List.nodup_cons]
      refine ⟨?_, w0⟩
      rw [List.mem_map]
      rintro ⟨g', mg, e⟩
      exact fr (p0.name, g') (all_require.1 (mem_all.2 ⟨p0, m0, rfl, mg⟩)) e
    · exact w0
  · intro x m
    rcases mem_all_put.1 m with rfl | m
    · exact ⟨t, q, hg, n.qid, n.kind⟩
    · exact w.good x m
  · intro x m y m' e
    rcases mem_all_put.1 m with rfl | m <;> rcases mem_all_put.1 m' with rfl | m'
    · rfl
    · exact absurd e.symm (by simp only [hg, qidOf_nameOf n.qid.1]; exact n.fresh y m')
    · exact absurd e (by simp only [hg, qidOf_nameOf n.qid.1]; exact n.fresh x m)
    · exact w.uniq x m y m' e
  · intro p m
    obtain ⟨p0, m0, rfl⟩ := mem_setParent.1 m
    have := (w.require n.parent).parents p0 m0
    split_ifs <;> exact this

theorem Wf.put {f : File} (w : Wf f) {pn t q d dt : Str} (n : NewName f pn t q)
    {act : Parent → Option Str} {refs : List (Str × Str)} (hd : IsDate dt)
    (ha : ∀ p ∈ require f pn, p.name = pn →
      act p = some q ∨ (p.groups ≠ [] ∧ act p = p.active))
    (hr : ∀ r ∈ refs, pn = results ∧ r.1 ∈ inputGroups ∧
      ∃ y ∈ all f, y.1 = r.1 ∧ qidOf y.2.name = r.2) :
    Wf (put f pn act ⟨nameOf t q, some d, some dt, refs⟩) := by
  refine ⟨w.toWfN.put n rfl, ?_, ?_, ?_⟩
  · intro x m
    rcases mem_all_put.1 m with rfl | m
    · exact ⟨d, dt, rfl, rfl, hd⟩
    · exact w.info x m
  · intro p m
    obtain ⟨p0, m0, rfl⟩ := mem_setParent.1 m
    split_ifs with c
    · rcases ha p0 m0 c with h | ⟨h1, h2⟩
      · refine ⟨_, mem_insertGrp.2 (Or.inl rfl), ?_⟩
        rw [h, qidOf_nameOf n.qid.1]
      · rcases mem_require.1 m0 with m0 | ⟨rfl, _⟩
        · obtain ⟨g, mg, e⟩ := w.act p0 m0
          exact ⟨g, mem_insertGrp.2 (Or.inr mg), h2.trans e⟩
        · simp at h1
    · rcases mem_require.1 m0 with m0 | ⟨rfl, _⟩
      · exact w.act p0 m0
      · simp at c
  · intro x m r mr
    rcases mem_all_put.1 m with rfl | m
    · obtain ⟨a, b, y, my, e⟩ := hr r mr
      exact ⟨a, b, y, mem_all_put.2 (Or.inr my), e⟩
    · obtain ⟨a, b, y, my, e⟩ := w.refs x m r mr
      exact ⟨a, b, y, mem_all_put.2 (Or.inr my), e⟩

theorem setGrp_put {f : File} {pn : Str} {act : Parent → Option Str} {g : Grp} {h : Grp → Grp}
    (hn : ∀ g, (h g).name = g.name) (fr : ∀ x ∈ all f, x.2.name ≠ g.name) :
    setGrp (put f pn act g) pn g.name h = put f pn act (h g) := by
  unfold setGrp put
  rw [setParent_setParent (by intro _; rfl)]
  refine setParent_congr fun p m e => ?_
  simp only [Parent.mk.injEq, true_and]
  exact insertGrp_map hn fun x mx =>
    fr (p.name, x) (all_require.1 (mem_all.2 ⟨p, m, rfl, mx⟩))

/-- What `add_group` does. -/
theorem addGroup_eq {f : File} (w : Wf f) {pn t q : Str} (n : NewName f pn t q)
    (desc : Option Str) (d : Str) :
    addGroup f pn t desc q d = .ok (put f pn
      (fun p => if p.groups = [] then some q else p.active)
      ⟨nameOf t q, some (desc.getD defaultDesc), some d, []⟩) := by
  have fr : ∀ x ∈ all f, x.2.name ≠ nameOf t q := fun x m e =>
    n.fresh x m (by rw [e, qidOf_nameOf n.qid.1])
  have w1 := w.toWfN.require n.parent
  have c1 : createGroup (require f pn) pn (nameOf t q) =
      .ok (put f pn (·.active) ⟨nameOf t q, none, none, []⟩) := by
    unfold createGroup
    rw [if_neg]
    · rfl
    · rintro ⟨g, mg, e⟩
      exact fr (pn, g) (all_require.1 ((mem_groupsOf w1.names).1 mg)) e
  have gq : getQid (nameOf t q) = some (qidOf (nameOf t q)) := by
    rw [qidOf_nameOf n.qid.1, getQid_nameOf n.qid]
  unfold addGroup
  rw [c1]
  simp only [Res.andThen]
  have m2 : ((pn, ⟨nameOf t q, none, none, []⟩) : Str × Grp) ∈
      all (put f pn (·.active) ⟨nameOf t q, none, none, []⟩) := mem_all_put.2 (Or.inl rfl)
  rw [setDesc_eq (w.toWfN.put n rfl) m2 gq]
  simp only [Res.andThen]
  rw [setGrp_put (g := ⟨nameOf t q, none, none, []⟩)
    (h := fun g => ⟨g.name, some (desc.getD defaultDesc), g.date, g.refs⟩) (fun _ => rfl) fr]
  have m3 : ((pn, ⟨nameOf t q, some (desc.getD defaultDesc), none, []⟩) : Str × Grp) ∈
      all (put f pn (·.active) ⟨nameOf t q, some (desc.getD defaultDesc), none, []⟩) :=
    mem_all_put.2 (Or.inl rfl)
  rw [setDate_eq (w.toWfN.put n rfl) m3 gq]
  simp only [Res.andThen]
  rw [setGrp_put (g := ⟨nameOf t q, some (desc.getD defaultDesc), none, []⟩)
    (h := fun g => ⟨g.name, g.desc, some d, g.refs⟩) (fun _ => rfl) fr]
  have m4 : ((pn, ⟨nameOf t q, some (desc.getD defaultDesc), some d, []⟩) : Str × Grp) ∈
      all (put f pn (·.active) ⟨nameOf t q, some (desc.getD defaultDesc), some d, []⟩) :=
    mem_all_put.2 (Or.inl rfl)
  have w4 : WfN (put f pn (·.active) ⟨nameOf t q, some (desc.getD defaultDesc), some d, []⟩) :=
    w.toWfN.put n rfl
  obtain ⟨p0, m0, e0⟩ := exists_require f pn
  have mp : (⟨p0.name, p0.active,
      insertGrp ⟨nameOf t q, some (desc.getD defaultDesc), some d, []⟩ p0.groups⟩ : Parent) ∈
      put f pn (·.active) ⟨nameOf t q, some (desc.getD defaultDesc), some d, []⟩ := by
    refine mem_setParent.2 ⟨p0, m0, ?_⟩
    rw [if_pos e0]
  have len : (groupsOf (put f pn (·.active)
      ⟨nameOf t q, some (desc.getD defaultDesc), some d, []⟩) pn).length = p0.groups.length + 1 := by
    have := groupsOf_eq w4.names mp
    simp only [e0] at this
    rw [this, (insertGrp_perm _ _).length_eq, List.length_cons]
  rw [len]
  by_cases c : p0.groups = []
  · rw [if_pos (by simp [c]), setActive_eq w4 m4 gq, qidOf_nameOf n.qid.1]
    unfold put
    rw [setParent_setParent (by intro _; rfl)]
    congr 1
    refine setParent_congr fun p m e => ?_
    obtain rfl := parent_eq w1.names m m0 (e.trans e0.symm)
    simp [c]
  · rw [if_neg (by simpa using c)]
    unfold put
    congr 1
    refine setParent_congr fun p m e => ?_
    obtain rfl := parent_eq w1.names m m0 (e.trans e0.symm)
    simp [c]

theorem Wf.addGroup {f : File} (w : Wf f) {pn t q d dt : Str} (n : NewName f pn t q)
    (hd : IsDate dt) :
    Wf (FileTree.put f pn (fun p => if p.groups = [] then some q else p.active)
      ⟨nameOf t q, some d, some dt, []⟩) := by
  refine w.put n hd ?_ (by simp)
  intro p m e
  by_cases c : p.groups = []
  · left; simp [c]
  · right; simp [c]

/-- What `hdf5_interface_init_results` does. -/
theorem initResults_eq {f : File} (w : Wf f) {t q : Str} (n : NewName f results t q)
    (d dt : Str) (refs : List (Str × Str)) :
    initResults f t q d dt refs =
      .ok (put f results (fun _ => some q) ⟨nameOf t q, some d, some dt, refs⟩) := by
  unfold initResults
  rw [if_neg]
  · rfl
  · rintro ⟨g, mg, e⟩
    have w1 := w.toWfN.require n.parent
    exact n.fresh (results, g) (all_require.1 ((mem_groupsOf w1.names).1 mg))
      (by simp only [e]; exact qidOf_nameOf n.qid.1)


/-! ## Removal -/

theorem all_delGrp {f : File} {pn gn : Str} {x : Str × Grp} :
    x ∈ all (delGrp f pn gn) ↔ x ∈ all f ∧ ¬ (x.1 = pn ∧ x.2.name = gn) := by
  rw [mem_all, mem_all]
  constructor
  · rintro ⟨p, m, e, mx⟩
    obtain ⟨p0, m0, rfl⟩ := mem_setParent.1 m
    split_ifs at e mx with c
    · rw [List.mem_filter] at mx
      refine ⟨⟨p0, m0, e, mx.1⟩, fun h => ?_⟩
      simpa [h.2] using mx.2
    · exact ⟨⟨p0, m0, e, mx⟩, fun h => c (e.trans h.1)⟩
  · rintro ⟨⟨p0, m0, e, mx⟩, h⟩
    refine ⟨_, mem_setParent.2 ⟨p0, m0, rfl⟩, ?_⟩
    split_ifs with c
    · refine ⟨e, List.mem_filter.2 ⟨mx, ?_⟩⟩
      have : x.2.name ≠ gn := fun h' => h ⟨e.symm.trans c, h'⟩
      simpa using this
    · exact ⟨e, mx⟩

theorem all_delParent {f : File} {pn : Str} {x : Str × Grp} :
    x ∈ all (delParent f pn) ↔ x ∈ all f ∧ x.1 ≠ pn := by
  rw [mem_all, mem_all]
  constructor
  · rintro ⟨p, m, e, mx⟩
    rw [delParent, List.mem_filter] at m
    refine ⟨⟨p, m.1, e, mx⟩, ?_⟩
    rw [← e]
    simpa using m.2
  · rintro ⟨⟨p0, m0, e, mx⟩, h⟩
    refine ⟨p0, List.mem_filter.2 ⟨m0, ?_⟩, e, mx⟩
    rw [e]
    simpa using h

theorem WfN.delGrp {f : File} (w : WfN f) (pn gn : Str) : WfN (delGrp f pn gn) := by
  refine ⟨?_, ?_, ?_, ?_, ?_⟩
  · unfold FileTree.delGrp
    rw [names_setParent (by intro _; rfl)]
    exact w.names
  · intro p m
    obtain ⟨p0, m0, rfl⟩ := mem_setParent.1 m
    split_ifs
    · exact (w.gnames p0 m0).sublist (List.filter_sublist.map _)
    · exact w.gnames p0 m0
  · intro x m
    exact w.good x (all_delGrp.1 m).1
  · intro x m y m'
    exact w.uniq x (all_delGrp.1 m).1 y (all_delGrp.1 m').1
  · intro p m
    obtain ⟨p0, m0, rfl⟩ := mem_setParent.1 m
    split_ifs <;> exact w.parents p0 m0

theorem WfN.delParent {f : File} (w : WfN f) (pn : Str) : WfN (delParent f pn) := by
  refine ⟨?_, ?_, ?_, ?_, ?_⟩
  · exact w.names.sublist (List.filter_sublist.map _)
  · intro p m
    exact w.gnames p (List.mem_filter.1 m).1
  · intro x m
    exact w.good x (all_delParent.1 m).1
  · intro x m y m'
    exact w.uniq x (all_delParent.1 m).1 y (all_delParent.1 m').1
  · intro p m
    exact w.parents p (List.mem_filter.1 m).1

theorem getActive_eq {f : File} (w : WfN f) {p : Parent} (m : p ∈ f) {g : Grp} (mg : g ∈ p.groups)
    (e : p.active = some (qidOf g.name)) : getActive f p.name = .ok (p.name, g) := by
  unfold getActive
  rw [find_parent w.names m]
  simp only [e]
  have := getGroup_eq w (x := (p.name, g)) (mem_all.2 ⟨p, m, rfl, mg⟩)
  simp only at this
  rw [this]

theorem getDate_eq {f : File} (w : WfN f) {x : Str × Grp} (m : x ∈ all f) {d : Str}
    (e : x.2.date = some d) {s : Str} (hs : getQid s = some (qidOf x.2.name)) :
    getDate f s = .ok d := by
  unfold getDate
  rw [hs]
  simp only
  rw [getGroup_eq w m]
  simp only [e]

theorem getDesc_eq {f : File} (w : WfN f) {x : Str × Grp} (m : x ∈ all f) {d : Str}
    (e : x.2.desc = some d) {s : Str} (hs : getQid s = some (qidOf x.2.name)) :
    getDesc f s = .ok d := by
  unfold getDesc
  rw [hs]
  simp only
  rw [getGroup_eq w m]
  simp only [e]

theorem getQid_name {f : File} (w : WfN f) {x : Str × Grp} (m : x ∈ all f) :
    getQid x.2.name = some (qidOf x.2.name) := by
  obtain ⟨t, q, e, i, _⟩ := w.good x m
  rw [e, getQid_nameOf i, qidOf_nameOf i.1]

theorem getQid_pathOf {f : File} (w : WfN f) {x : Str × Grp} (m : x ∈ all f) (pn : Str) :
    getQid (path pn x.2.name) = some (qidOf x.2.name) := by
  obtain ⟨t, q, e, i, _⟩ := w.good x m
  rw [e, getQid_path i, qidOf_nameOf i.1]

theorem isDate_lt {d : Str} (h : IsDate d) : (['0'] : Str) < d := by
  obtain ⟨c, cs, rfl, h⟩ := h
  exact List.Lex.rel h

/-- The search for the most recent group. -/
theorem newest_spec {f : File} : ∀ {l : List Grp} {date : Str} {best : Option Str},
    (∀ g ∈ l, ∃ d, g.date = some d ∧ getDate f g.name = .ok d) →
    (newest f l date best = .ok best ∧ ∀ g ∈ l, ∀ d, g.date = some d → d ≤ date) ∨
    ∃ g ∈ l, ∃ d, g.date = some d ∧ date < d ∧ newest f l date best = .ok (some g.name) ∧
      ∀ g' ∈ l, ∀ d', g'.date = some d' → d' ≤ d
  | [], date, best, _ => Or.inl ⟨rfl, by simp⟩
  | g :: gs, date, best, h => by
    obtain ⟨d, e1, e2⟩ := h g (by simp)
    have hs : ∀ g ∈ gs, ∃ d, g.date = some d ∧ getDate f g.name = .ok d :=
      fun g' m => h g' (by simp [m])
    have unf : ∀ best, newest f (g :: gs) date best =
        if date < d then newest f gs d (some g.name) else newest f gs date best := by
      intro best
      rw [newest, e2]
    rw [unf]
    by_cases c : date < d
    · rw [if_pos c]
      right
      rcases newest_spec (date := d) (best := some g.name) hs with ⟨k1, k2⟩ | ⟨g', m', d', k1, k2, k3, k4⟩
      · refine ⟨g, by simp, d, e1, c, k1, ?_⟩
        intro g' m' d' e'
        rcases List.mem_cons.1 m' with rfl | m'
        · rw [e1] at e'
          exact le_of_eq (Option.some.inj e').symm
        · exact k2 g' m' d' e'
      · refine ⟨g', by simp [m'], d', k1, c.trans k2, k3, ?_⟩
        intro g'' m'' d'' e''
        rcases List.mem_cons.1 m'' with rfl | m''
        · rw [e1] at e''
          rw [← Option.some.inj e'']
          exact k2.le
        · exact k4 g'' m'' d'' e''
    · rw [if_neg c]
      rcases newest_spec (date := date) (best := best) hs with ⟨k1, k2⟩ | ⟨g', m', d', k1, k2, k3, k4⟩
      · refine Or.inl ⟨k1, ?_⟩
        intro g' m' d' e'
        rcases List.mem_cons.1 m' with rfl | m'
        · rw [e1] at e'
          rw [← Option.some.inj e']
          exact not_lt.1 c
        · exact k2 g' m' d' e'
      · refine Or.inr ⟨g', by simp [m'], d', k1, k2, k3, ?_⟩
        intro g'' m'' d'' e''
        rcases List.mem_cons.1 m'' with rfl | m''
        · rw [e1] at e''
          rw [← Option.some.inj e'']
          exact (not_lt.1 c).trans k2.le
        · exact k4 g'' m'' d'' e''

theorem Wf.delParent {f : File} (w : Wf f) {pn : Str}
    (h : ∀ x ∈ all f, ∀ r ∈ x.2.refs, x.1 ≠ pn → r.1 ≠ pn) : Wf (delParent f pn) := by
  refine ⟨w.toWfN.delParent pn, ?_, ?_, ?_⟩
  · intro x m
    exact w.info x (all_delParent.1 m).1
  · intro p m
    exact w.act p (List.mem_filter.1 m).1
  · intro x m r mr
    obtain ⟨m, ne⟩ := all_delParent.1 m
    obtain ⟨a, b, y, my, e1, e2⟩ := w.refs x m r mr
    exact ⟨a, b, y, all_delParent.2 ⟨my, by rw [e1]; exact h x m r mr ne⟩, e1, e2⟩

/-- Everything but the active groups stays well-formed when an input that is not used is removed. -/
theorem Wf.delGrp' {f : File} (w : Wf f) {x : Str × Grp} (mx : x ∈ all f)
    (h : ∀ y ∈ all f, ∀ r ∈ y.2.refs, r.2 ≠ qidOf x.2.name)
    (a : ∀ p ∈ delGrp f x.1 x.2.name, ∃ g ∈ p.groups, p.active = some (qidOf g.name)) :
    Wf (delGrp f x.1 x.2.name) := by
  refine ⟨w.toWfN.delGrp _ _, ?_, a, ?_⟩
  · intro y m
    exact w.info y (all_delGrp.1 m).1
  · intro y m r mr
    obtain ⟨m, ne⟩ := all_delGrp.1 m
    obtain ⟨a, b, z, mz, e1, e2⟩ := w.refs y m r mr
    refine ⟨a, b, z, all_delGrp.2 ⟨mz, fun c => ?_⟩, e1, e2⟩
    exact h y m r mr (by rw [← e2, c.2])

theorem delParent_delGrp {f : File} {pn gn : Str} :
    delParent (delGrp f pn gn) pn = delParent f pn := by
  unfold delParent delGrp setParent
  induction f with
  | nil => rfl
  | cons p ps ih =>
    simp only [List.map_cons]
    by_cases c : p.name = pn
    · simp only [c, if_true]
      rw [List.filter_cons_of_neg (by simp), List.filter_cons_of_neg (by simp [c])]
      exact ih
    · simp only [c, if_false]
      rw [List.filter_cons_of_pos (by simp [c]), List.filter_cons_of_pos (by simp [c]), ih]

/-- The three ways in which a group is removed. -/
theorem removeData_spec {f : File} (w : Wf f) {x : Str × Grp} (mx : x ∈ all f)
    (h : ∀ y ∈ all f, ∀ r ∈ y.2.refs, r.2 ≠ qidOf x.2.name) :
    ∃ f', removeData f x.1 x.2.name = .ok f' ∧ Wf f' ∧
      (∀ y, y ∈ all f' ↔ y ∈ all f ∧ y ≠ x) ∧
      ((¬ Active f x.1 (qidOf x.2.name) ∧ ∀ pn q, Active f' pn q ↔ Active f pn q) ∨
       (Active f x.1 (qidOf x.2.name) ∧ (∀ y ∈ all f, y.1 = x.1 → y = x) ∧
          (∀ p ∈ f', p.name ≠ x.1) ∧
          ∀ pn, pn ≠ x.1 → ∀ q, Active f' pn q ↔ Active f pn q) ∨
       (Active f x.1 (qidOf x.2.name) ∧
          ∃ y ∈ all f', y.1 = x.1 ∧ (∀ q, Active f' x.1 q ↔ q = qidOf y.2.name) ∧
            (∀ z ∈ all f', z.1 = x.1 → ∀ d d', y.2.date = some d → z.2.date = some d' → d' ≤ d) ∧
            ∀ pn, pn ≠ x.1 → ∀ q, Active f' pn q ↔ Active f pn q)) := by
  obtain ⟨p, mp, en, mg⟩ := mem_all.1 mx
  obtain ⟨g, mg', ea⟩ := w.act p mp
  have ga := getActive_eq w.toWfN mp mg' ea
  have actx : Active f x.1 (qidOf x.2.name) ↔ g = x.2 := by
    constructor
    · rintro ⟨p', mp', en', ea'⟩
      obtain rfl := parent_eq w.names mp' mp (en'.trans en.symm)
      rw [ea] at ea'
      have := w.uniq (p'.name, g) (mem_all.2 ⟨p', mp, rfl, mg'⟩) x mx (Option.some.inj ea')
      rw [← this]
    · intro e
      exact ⟨p, mp, en, by rw [ea, e]⟩
  have memdel : ∀ y, y ∈ all (delGrp f x.1 x.2.name) ↔ y ∈ all f ∧ y ≠ x := by
    intro y
    rw [all_delGrp]
    constructor
    · rintro ⟨a, b⟩
      exact ⟨a, fun e => b ⟨by rw [e], by rw [e]⟩⟩
    · rintro ⟨a, b⟩
      exact ⟨a, fun c => b (w.uniq y a x mx (by rw [c.2]))⟩
  have activedel : ∀ pn q, Active (delGrp f x.1 x.2.name) pn q ↔ Active f pn q := by
    intro pn q
    constructor
    · rintro ⟨p', m', e1, e2⟩
      obtain ⟨p0, m0, rfl⟩ := mem_setParent.1 m'
      split_ifs at e1 e2
      · exact ⟨p0, m0, e1, e2⟩
      · exact ⟨p0, m0, e1, e2⟩
    · rintro ⟨p0, m0, e1, e2⟩
      refine ⟨_, mem_setParent.2 ⟨p0, m0, rfl⟩, ?_⟩
      split_ifs <;> exact ⟨e1, e2⟩
  unfold removeData
  rw [← en, ga]
  simp only [true_and]
  rw [en]
  have nameeq : g.name = x.2.name ↔ g = x.2 := by
    constructor
    · intro e
      have := w.uniq (p.name, g) (mem_all.2 ⟨p, mp, rfl, mg'⟩) x mx (by simp only [e])
      rw [← this]
    · intro e; rw [e]
  by_cases c : g = x.2
  · rw [if_pos (nameeq.2 c)]
    have wd := w.toWfN.delGrp x.1 x.2.name
    have mpd : (⟨p.name, p.active, p.groups.filter fun g => g.name ≠ x.2.name⟩ : Parent) ∈
        delGrp f x.1 x.2.name := mem_setParent.2 ⟨p, mp, by rw [if_pos en]⟩
    have gd : groupsOf (delGrp f x.1 x.2.name) x.1 = p.groups.filter fun g => g.name ≠ x.2.name := by
      have := groupsOf_eq wd.names mpd
      simp only [en] at this
      exact this
    rw [gd]
    by_cases e : (p.groups.filter fun g => g.name ≠ x.2.name).length = 0
    · rw [if_pos e, delParent_delGrp]
      have only : ∀ y ∈ all f, y.1 = x.1 → y = x := by
        intro y my ey
        obtain ⟨p', mp', en', my'⟩ := mem_all.1 my
        obtain rfl := parent_eq w.names mp' mp (by rw [en', ey, en])
        have hn : y.2.name = x.2.name := by
          by_contra hc
          have : y.2 ∈ p'.groups.filter fun g => g.name ≠ x.2.name :=
            List.mem_filter.2 ⟨my', by simpa using hc⟩
          rw [List.length_eq_zero_iff.1 e] at this
          simp at this
        exact w.uniq y my x mx (by rw [hn])
      refine ⟨_, rfl, ?_, ?_, ?_⟩
      · refine w.delParent fun y my r mr ne ec => ?_
        obtain ⟨_, _, z, mz, e1, e2⟩ := w.refs y my r mr
        have := only z mz (by rw [e1, ec])
        exact h y my r mr (by rw [← e2, this])
      · intro y
        rw [all_delParent]
        constructor
        · rintro ⟨a, b⟩
          exact ⟨a, fun e => b (by rw [e])⟩
        · rintro ⟨a, b⟩
          exact ⟨a, fun e => b (only y a e)⟩
      · refine Or.inr (Or.inl ⟨actx.2 c, only, ?_, ?_⟩)
        · intro p' m'
          simpa using (List.mem_filter.1 m').2
        · intro pn ne q
          constructor
          · rintro ⟨p', m', e1, e2⟩
            exact ⟨p', (List.mem_filter.1 m').1, e1, e2⟩
          · rintro ⟨p', m', e1, e2⟩
            exact ⟨p', List.mem_filter.2 ⟨m', by simpa [e1] using ne⟩, e1, e2⟩
    · rw [if_neg e]
      have infos : ∀ g' ∈ p.groups.filter (fun g => g.name ≠ x.2.name),
          ∃ d, g'.date = some d ∧ IsDate d ∧
            getDate (delGrp f x.1 x.2.name) g'.name = .ok d := by
        intro g' m'
        have ma : ((x.1, g') : Str × Grp) ∈ all (delGrp f x.1 x.2.name) := by
          rw [mem_all]
          refine ⟨_, mpd, en, m'⟩
        obtain ⟨_, dt, _, h2, h3⟩ := w.info _ (all_delGrp.1 ma).1
        exact ⟨dt, h2, h3, getDate_eq wd ma h2 (getQid_name wd ma)⟩
      rcases newest_spec (f := delGrp f x.1 x.2.name) (date := ['0']) (best := none)
          (fun g' m' => (infos g' m').imp fun d k => ⟨k.1, k.2.2⟩) with ⟨_, k2⟩ | ⟨g', m', d, k1, _, k3, k4⟩
      · exfalso
        obtain ⟨g', m'⟩ := List.exists_mem_of_length_pos (Nat.pos_of_ne_zero e)
        obtain ⟨d, h1, h2, _⟩ := infos g' m'
        exact absurd (k2 g' m' d h1) (not_le.2 (isDate_lt h2))
      · rw [k3]
        simp only
        have ma : ((x.1, g') : Str × Grp) ∈ all (delGrp f x.1 x.2.name) := by
          rw [mem_all]
          refine ⟨_, mpd, en, m'⟩
        rw [setActive_eq wd ma (getQid_name wd ma)]
        have eall := all_setParent_groups (f := delGrp f x.1 x.2.name) (pn := x.1)
          (h := fun p => ⟨p.name, some (qidOf g'.name), p.groups⟩) (fun _ => rfl) (fun _ => rfl)
        refine ⟨_, rfl, ?_, ?_, ?_⟩
        · -- well-formed
          refine ⟨wd.setParent_groups (fun _ => rfl) (fun _ => rfl), ?_, ?_, ?_⟩
          · rw [eall]
            intro y m
            exact w.info y (all_delGrp.1 m).1
          · intro p' mp'
            obtain ⟨p0, m0, rfl⟩ := mem_setParent.1 mp'
            split_ifs with c0
            · obtain rfl := parent_eq wd.names m0 mpd (c0.trans en.symm)
              exact ⟨g', m', rfl⟩
            · obtain ⟨p1, m1, rfl⟩ := mem_setParent.1 m0
              split_ifs at c0 ⊢ with c1
              · exact absurd c1 c0
              · exact w.act p1 m1
          · rw [eall]
            intro y m r mr
            obtain ⟨m, ne⟩ := all_delGrp.1 m
            obtain ⟨a, b, z, mz, e1, e2⟩ := w.refs y m r mr
            refine ⟨a, b, z, all_delGrp.2 ⟨mz, fun c => ?_⟩, e1, e2⟩
            exact h y m r mr (by rw [← e2, c.2])
        · rw [eall]
          exact memdel
        · refine Or.inr (Or.inr ⟨actx.2 c, (x.1, g'), ?_, rfl, ?_, ?_, ?_⟩)
          · rw [eall]
            exact ma
          · intro q
            constructor
            · rintro ⟨p', mp', e1, e2⟩
              obtain ⟨p0, m0, rfl⟩ := mem_setParent.1 mp'
              split_ifs at e1 e2 with c0
              · exact (Option.some.inj e2).symm
              · exact absurd e1 c0
            · rintro rfl
              refine ⟨_, mem_setParent.2 ⟨_, mpd, rfl⟩, ?_⟩
              rw [if_pos en]
              exact ⟨en, rfl⟩
          · rw [eall]
            intro z mz ez d1 d' hd hd'
            obtain ⟨p', mp', en', mz'⟩ := mem_all.1 mz
            obtain rfl := parent_eq wd.names mp' mpd (by rw [en', ez]; exact en.symm)
            rw [k1] at hd
            rw [← Option.some.inj hd]
            exact k4 z.2 mz' d' hd'
          · intro pn ne q
            rw [← activedel]
            constructor
            · rintro ⟨p', mp', e1, e2⟩
              obtain ⟨p0, m0, rfl⟩ := mem_setParent.1 mp'
              split_ifs at e1 e2 with c0
              · exact absurd (e1.symm.trans c0) ne
              · exact ⟨p0, m0, e1, e2⟩
            · rintro ⟨p0, m0, e1, e2⟩
              refine ⟨p0, mem_setParent.2 ⟨p0, m0, ?_⟩, e1, e2⟩
              rw [if_neg]
              rw [e1]
              exact ne
  · rw [if_neg (fun e => c (nameeq.1 e))]
    refine ⟨_, rfl, ?_, memdel, Or.inl ⟨fun k => c (actx.1 k), activedel⟩⟩
    refine w.delGrp' mx h fun p' mp' => ?_
    obtain ⟨p0, m0, rfl⟩ := mem_setParent.1 mp'
    obtain ⟨g0, mg0, e0⟩ := w.act p0 m0
    split_ifs with c0
    · obtain rfl := parent_eq w.names m0 mp (c0.trans en.symm)
      refine ⟨g, List.mem_filter.2 ⟨mg', ?_⟩, ea⟩
      simpa using fun e => c (nameeq.1 e)
    · exact ⟨g0, mg0, e0⟩

theorem parent_not_qid {f : File} (w : WfN f) {s q : Str} (h : getQid s = some q) :
    ¬ ∃ p ∈ f, p.name = s := by
  rintro ⟨p, m, rfl⟩
  have key : ∀ n, (n = results ∨ n ∈ inputGroups) → getQid n = none := by
    intro n hn
    rcases hn with rfl | hn
    · decide
    · revert n
      decide
  rw [key _ (w.parents p m)] at h
  simp at h

/-- Removing a group that has been used. -/
theorem removeGroup_used {f : File} (w : Wf f) {x : Str × Grp} (mx : x ∈ all f) {s : Str}
    (hs : getQid s = some (qidOf x.2.name))
    (h : ∃ y ∈ all f, ∃ r ∈ y.2.refs, r.2 = qidOf x.2.name) : removeGroup f s = .err .io f := by
  unfold removeGroup
  rw [if_neg (parent_not_qid w.toWfN hs), hs]
  simp only
  rw [getGroup_eq w.toWfN mx]
  simp only
  rw [if_pos]
  obtain ⟨y, my, r, mr, e⟩ := h
  refine ⟨y.2, (mem_groupsOf w.names).2 ?_, r, mr, ?_⟩
  · rw [← (w.refs y my r mr).1]
    exact my
  · rw [getQid_pathOf w.toWfN mx, e]

/-- Removing a group that has not been used. -/
theorem removeGroup_eq {f : File} (w : Wf f) {x : Str × Grp} (mx : x ∈ all f) {s : Str}
    (hs : getQid s = some (qidOf x.2.name))
    (h : ∀ y ∈ all f, ∀ r ∈ y.2.refs, r.2 ≠ qidOf x.2.name) :
    removeGroup f s = removeData f x.1 x.2.name := by
  unfold removeGroup
  rw [if_neg (parent_not_qid w.toWfN hs), hs]
  simp only
  rw [getGroup_eq w.toWfN mx]
  simp only
  rw [if_neg]
  rintro ⟨g, mg, r, mr, e⟩
  rw [getQid_pathOf w.toWfN mx] at e
  exact h (results, g) ((mem_groupsOf w.names).1 mg) r mr (Option.some.inj e)

theorem Wf.removeGroup {f : File} (w : Wf f) (s : Str) : Wf (removeGroup f s).file := by
  by_cases c : ∃ p ∈ f, p.name = s
  · unfold FileTree.removeGroup
    rw [if_pos c]
    split_ifs with d
    · exact w
    · refine w.delParent fun x m r mr ne e => d ?_
      refine ⟨x.2, (mem_groupsOf w.names).2 ?_, r, mr, e⟩
      rw [← (w.refs x m r mr).1]
      exact m
  · cases hq : getQid s with
    | none =>
      unfold FileTree.removeGroup
      rw [if_neg c, hq]
      exact w
    | some q =>
      cases hg : getGroup f q with
      | none =>
        unfold FileTree.removeGroup
        rw [if_neg c, hq]
        simp only [hg]
        exact w
      | some x =>
        obtain ⟨mx, e⟩ := getGroup_some w.toWfN (getQid_some hq).1 hg
        rw [← e] at hq
        by_cases u : ∃ y ∈ all f, ∃ r ∈ y.2.refs, r.2 = qidOf x.2.name
        · rw [removeGroup_used w mx hq u]
          exact w
        · have u' : ∀ y ∈ all f, ∀ r ∈ y.2.refs, r.2 ≠ qidOf x.2.name :=
            fun y my r mr e => u ⟨y, my, r, mr, e⟩
          rw [removeGroup_eq w mx hq u']
          obtain ⟨f', e1, e2, _⟩ := removeData_spec w mx u'
          rw [e1]
          exact e2

theorem removeTry_cases (f : File) (s : Str) (force : Bool) :
    removeTry f s force = removeGroup f s ∨ (removeTry f s force).file = f := by
  unfold removeTry
  cases getQid s with
  | none => exact Or.inr rfl
  | some q =>
    simp only
    by_cases c : force = true
    · rw [if_pos c]
      exact Or.inl rfl
    · rw [if_neg c]
      cases getGroup f q with
      | none => exact Or.inr rfl
      | some x =>
        simp only
        cases getType x.2.name with
        | none => exact Or.inr rfl
        | some t =>
          simp only
          split_ifs
          · exact Or.inl rfl
          · exact Or.inl rfl
          · exact Or.inr rfl

theorem removeParent_cases (f : File) (s : Str) (force : Bool) :
    removeParent f s force = removeGroup f s ∨ removeParent f s force = .err .noData f := by
  unfold removeParent
  split_ifs
  · exact Or.inl rfl
  · exact Or.inl rfl
  · exact Or.inr rfl
  · exact Or.inl rfl

theorem Wf.removeTool {f : File} (w : Wf f) (s : Str) (force : Bool) :
    Wf (removeTool f s force).file := by
  have w1 : Wf (removeTry f s force).file := by
    rcases removeTry_cases f s force with e | e
    · rw [e]
      exact w.removeGroup s
    · rw [e]
      exact w
  unfold FileTree.removeTool
  split
  · next f' e =>
    rw [e] at w1
    rcases removeParent_cases f' s force with e | e
    · rw [e]
      exact Wf.removeGroup w1 s
    · rw [e]
      exact w1
  · exact w1

/-! ## What a user sees -/

/-- The group of an entry. -/
def grpOf (e : Entry) : Str × Grp :=
  (e.parent, ⟨nameOf e.type e.qid, some e.desc, some e.date, e.refs⟩)

theorem has_iff {f : File} (e : Entry) : Has f e ↔ IsQid e.qid ∧ grpOf e ∈ all f := by
  rw [mem_all]
  rfl

theorem qidOf_grpOf {e : Entry} (h : IsQid e.qid) : qidOf (grpOf e).2.name = e.qid :=
  qidOf_nameOf h.1

theorem grpOf_inj {e e' : Entry} (h : IsQid e.qid) (h' : IsQid e'.qid) (k : grpOf e = grpOf e') :
    e = e' := by
  obtain ⟨a, b, c, d, g, i⟩ := e
  obtain ⟨a', b', c', d', g', i'⟩ := e'
  simp only [grpOf, Prod.mk.injEq, Grp.mk.injEq, Option.some.injEq] at k
  obtain ⟨k1, k2, k3, k4, k5⟩ := k
  obtain ⟨k6, k7⟩ := nameOf_inj h.1 h'.1 k2
  subst k1 k3 k4 k5 k6 k7
  rfl

theorem Wf.entry {f : File} (w : Wf f) {x : Str × Grp} (m : x ∈ all f) :
    ∃ e, Has f e ∧ x = grpOf e ∧ qidOf x.2.name = e.qid := by
  obtain ⟨t, q, e1, i, _⟩ := w.good x m
  obtain ⟨d, dt, e2, e3, _⟩ := w.info x m
  have : x = grpOf ⟨x.1, t, q, d, dt, x.2.refs⟩ := by
    obtain ⟨pn, g⟩ := x
    obtain ⟨n, a, b, c⟩ := g
    simp only [grpOf, Prod.mk.injEq, Grp.mk.injEq, true_and, and_true]
    exact ⟨e1, e2, e3⟩
  refine ⟨⟨x.1, t, q, d, dt, x.2.refs⟩, ?_, this, ?_⟩
  · rw [has_iff, ← this]
    exact ⟨i, m⟩
  · rw [e1, qidOf_nameOf i.1]

end Ascot.FileTree
