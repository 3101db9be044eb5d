import Verif.Props.C148_FileTree

/-!
# C149: the view of a file, its tags, and the inputs of its results
-/
set_option linter.unusedSectionVars false
set_option linter.unusedSimpArgs false
namespace Ascot.C149
open FileTree FileDoc C148

/-- Whatever has been done to a file, it can be opened, and the tree shows all groups from the most
recent to the oldest, the active ones, the groups under their names, QIDs and tags, and the inputs of
the results. -/
theorem view_partial {f : File} (h : Reach f) : ∃ t, build f = .ok t ∧ TreeOf f t := build_eq (wf_reach h)

/-- A result finds each of its inputs in the tree. -/
theorem inputs_found {f : File} (h : Reach f) {t : Tree} (ht : build f = .ok t) {e : Entry}
    (he : Has f e) {r : Str × Str} (mr : r ∈ e.refs) :
    ∃ n, (r.1, n) ∈ t.inputs ∧ r.2 ∈ n.qids ∧ n.attrs ('q' :: r.2) = some r.2 := by
  obtain ⟨t', e1, k⟩ := view_partial h
  rw [ht] at e1
  obtain rfl := Except.ok.inj e1
  have w := wf_reach h
  obtain ⟨i, h1, h2, h3⟩ := w.consistent.inputs e he r mr
  rw [has_iff] at he
  have ne : i.parent ≠ results := by
    rw [h2]
    intro k
    exact results_not_input (k ▸ (w.refs _ he.2 r mr).2.1)
  obtain ⟨n, mn⟩ := k.inputs i h1 ne
  have node := k.input _ mn
  refine ⟨n, by rw [← h2]; exact mn, (node.groups _).2 ⟨i, h1, rfl, h3⟩, ?_⟩
  rw [← h3]
  exact (node.names i h1 rfl).2

/-- A tag that only one group of a parent has refers to this group, also after everything that has
happened in between. -/
theorem tag_alone {f : File} (h : Reach f) {t : Tree} (ht : build f = .ok t) {pn : Str} {n : Node}
    (hn : (pn, n) ∈ t.inputs ∨ (pn = results ∧ t.root = some n)) {e : Entry} (he : Has f e)
    (hp : e.parent = pn) {tag : Str} (hg : TagOf e.desc tag)
    (alone : ∀ e', Has f e' → e'.parent = pn → TagOf e'.desc tag → e' = e) :
    n.attrs tag = some e.qid := by
  obtain ⟨t', e1, k⟩ := view_partial h
  rw [ht] at e1
  obtain rfl := Except.ok.inj e1
  have node : NodeOf f pn n := by
    rcases hn with hn | ⟨rfl, hn⟩
    · exact k.input _ hn
    · exact k.result n hn
  obtain ⟨same, h1, h2, h3, _⟩ := node.tags tag ⟨e, he, hp, hg⟩
  have me : ∀ q, q ∈ same ↔ q = e.qid := by
    intro q
    rw [h2]
    constructor
    · rintro ⟨e', k1, k2, rfl, k3⟩
      rw [alone e' k1 k2 k3]
    · rintro rfl
      exact ⟨e, he, hp, rfl, hg⟩
  have nd := node.once.sublist h1
  cases same with
  | nil => exact absurd ((me e.qid).2 rfl) (by simp)
  | cons a l =>
    have ha := (me a).1 (by simp)
    cases l with
    | nil => rw [h3]; simp [ha]
    | cons b l =>
      have hb := (me b).1 (by simp)
      rw [ha, hb] at nd
      simp at nd

/-- Of several groups with the same tag, the tag with the number zero is a most recent one, and the
numbers go on to the older ones. -/
theorem tag_shared {f : File} (h : Reach f) {t : Tree} (ht : build f = .ok t) {pn : Str} {n : Node}
    (hn : (pn, n) ∈ t.inputs ∨ (pn = results ∧ t.root = some n)) {e e' : Entry} (he : Has f e)
    (he' : Has f e') (hp : e.parent = pn) (hp' : e'.parent = pn) (ne : e ≠ e') {tag : Str}
    (hg : TagOf e.desc tag) (hg' : TagOf e'.desc tag) :
    n.attrs tag = none ∧ (∃ i, n.attrs (numbered tag i) = some e.qid) ∧
      ∀ i j, n.attrs (numbered tag i) = some e.qid → n.attrs (numbered tag j) = some e'.qid →
        i < j → e'.date ≤ e.date := by
  obtain ⟨t', e1, k⟩ := view_partial h
  rw [ht] at e1
  obtain rfl := Except.ok.inj e1
  have w := wf_reach h
  have node : NodeOf f pn n := by
    rcases hn with hn | ⟨rfl, hn⟩
    · exact k.input _ hn
    · exact k.result n hn
  obtain ⟨same, h1, h2, h3, h4⟩ := node.tags tag ⟨e, he, hp, hg⟩
  have m := (h2 e.qid).2 ⟨e, he, hp, rfl, hg⟩
  have m' := (h2 e'.qid).2 ⟨e', he', hp', rfl, hg'⟩
  have nq : e.qid ≠ e'.qid := fun k => ne (w.consistent.unique e e' he he' k)
  have len : same.length ≠ 1 := by
    intro l
    obtain ⟨a, rfl⟩ := List.length_eq_one_iff.1 l
    rw [List.mem_singleton] at m m'
    exact nq (m.trans m'.symm)
  rw [if_neg len] at h3
  refine ⟨h3, ?_, ?_⟩
  · obtain ⟨i, hi⟩ := List.getElem?_of_mem m
    exact ⟨i, by rw [h4, if_neg len, hi]⟩
  · intro i j hi hj l
    rw [h4, if_neg len] at hi hj
    have ord := node.order.sublist h1
    obtain ⟨li, hi⟩ := List.getElem?_eq_some_iff.1 hi
    obtain ⟨lj, hj⟩ := List.getElem?_eq_some_iff.1 hj
    exact (List.pairwise_iff_getElem.1 ord) i j li lj l e e' he he' hi.symm hj.symm

/-- What is seen of the inputs of a file. -/
def seen : Except Exc Tree → List (List (Option Str))
  | .ok t => t.inputs.map fun x => [some x.1, x.2.attrs "FULL".toList, x.2.attrs "TAG".toList,
      some x.2.active] ++ x.2.qids.map some
  | .error _ => []

/-- The file with two fields and a run: the tags are `FULL` and `TAG`. -/
example : seen (build f3) = [[some bf, some b1, some b2, some b2, some b2, some b1]] := by
  decide +kernel

/-- With another field without a description the tag `TAG` is shared. -/
example : ∃ f', (Op.create bf tc "0000000009".toList d1 false none).run f3 = .ok f' ∧
    seen (build f') = [[some bf, some b1, none, some b2, some b2, some "0000000009".toList, some b1]] ∧
    Reach f' := by
  have a : Allowed f3 (.create bf tc "0000000009".toList d1 false none) :=
    ⟨by decide, by decide, by unfold IsQid; decide, date_of (by decide), fresh_of (by decide +kernel)⟩
  have r : (Op.create bf tc "0000000009".toList d1 false none).run f3 =
      .ok ((Op.create bf tc "0000000009".toList d1 false none).run f3).file := by decide +kernel
  exact ⟨_, r, by decide +kernel, Reach.step reach3 a⟩

example : TagOf text "FULL".toList := by rw [tagOf_spec]; decide +kernel

/-! ## What does not hold -/

/-- The error that a file gives when it is opened. -/
def fails (f : File) (e : Exc) : Prop := build f = .error e

/-- Of a tag at most ten characters are promised; there is no such limit. -/
theorem long_tag : TagOf "Axisymmetrisation".toList "AXISYMMETRISATION".toList ∧
    10 < "AXISYMMETRISATION".toList.length := by
  rw [tagOf_spec]
  decide +kernel

theorem fails_of {f : File} {e : Exc}
    (h : (match build f with | .ok _ => none | .error x => some x) = some e) : fails f e := by
  unfold fails
  cases k : build f with
  | ok t => rw [k] at h; cases h
  | error x => rw [k] at h; rw [Option.some.inj h]

/-- A run that is copied to a file without its inputs: `copy_group` does it without complaint, and the
file cannot be opened any more. -/
theorem copied_run_not_openable : ∃ f' : File, copyGroup f3 [] r1 none = .ok f' ∧ fails f' .attr := by
  refine ⟨[⟨results, some r1, [⟨nameOf run r1, some text, some d2, [(bf, b1)]⟩]⟩], by decide +kernel,
    fails_of (by decide +kernel)⟩

/-- The same holds for a simulation that reads its inputs from another file. -/
theorem other_file_not_openable : ∃ f' : File,
    (Op.simulate run r1 text d2 [(bf, b1)]).run [] = .ok f' ∧ fails f' .attr := by
  refine ⟨[⟨results, some r1, [⟨nameOf run r1, some text, some d2, [(bf, b1)]⟩]⟩], by decide +kernel,
    fails_of (by decide +kernel)⟩

/-- A new input whose writing ends after the group has been created and before it has got its date. -/
theorem crash_not_openable : ∃ f' : File,
    (createGroup (require f1 "efield".toList) "efield".toList (nameOf "E_TC".toList b2)).andThen
      (fun f => setDesc f (nameOf "E_TC".toList b2) defaultDesc) = .ok f' ∧ fails f' .key := by
  refine ⟨f1 ++ [⟨"efield".toList, none, [⟨nameOf "E_TC".toList b2, some defaultDesc, none, []⟩]⟩],
    by decide +kernel, fails_of (by decide +kernel)⟩

/-- The writers of the electric fields `E_3D`, `E_3DS` and `E_3DST` write groups that the tree does not
know: the file cannot be opened any more. -/
theorem e3d_not_openable : ∀ t ∈ ["E_3D".toList, "E_3DS".toList, "E_3DST".toList],
    ∃ f' : File, addGroup f1 "efield".toList t none b2 d2 = .ok f' ∧ fails f' .key := by
  intro t ht
  refine ⟨f1 ++ [⟨"efield".toList, some b2, [⟨nameOf t b2, some defaultDesc, some d2, []⟩]⟩], ?_,
    fails_of ?_⟩
  · revert t
    decide +kernel
  · revert t
    decide +kernel

end Ascot.C149
