import Mathlib.Data.List.TakeWhile
import Verif.Lemmas.FileOps
import Verif.Lemmas.FileTags

/-!
# Lemmas on the tree of a file
-/
set_option linter.unusedSectionVars false
set_option linter.unusedSimpArgs false
namespace Ascot.FileTree
open Ascot.FileDoc

theorem mapM_ok {α β ε : Type} {f : α → Except ε β} {g : α → β} :
    ∀ {l : List α}, (∀ x ∈ l, f x = .ok (g x)) → l.mapM f = .ok (l.map g)
  | [], _ => rfl
  | x :: xs, h => by
    rw [List.mapM_cons, h x (by simp), mapM_ok fun y m => h y (by simp [m])]
    rfl

/-! ## Tags -/

theorem tagOf_spec (d t : Str) : TagOf d t ↔ t = tagOf d := by
  have split : ∀ word rest : Str, d = word ++ rest → ' ' ∉ word →
      (∀ c cs, rest = c :: cs → c = ' ') → d.takeWhile (· ≠ ' ') = word := by
    intro word rest e h1 h2
    rw [e, List.takeWhile_append_of_pos (by
      intro c m
      simp only [ne_eq, decide_eq_true_eq]
      rintro rfl
      exact h1 m)]
    cases rest with
    | nil => simp
    | cons c cs => simp [h2 c cs rfl]
  constructor
  · rintro ⟨word, rest, e, h1, h2, h3⟩
    unfold tagOf
    rw [split word rest e h1 h2]
    rcases h3 with ⟨rfl, c, cs, h4, h5⟩ | ⟨rfl, h4⟩
    · rw [h4]
      simp [h5]
    · cases k : (word.filter Char.isAlphanum).map Char.toUpper with
      | nil => rfl
      | cons c cs =>
        rw [k] at h4
        have := h4 c (by simp)
        simp [this]
  · rintro rfl
    refine ⟨d.takeWhile (· ≠ ' '), d.dropWhile (· ≠ ' '),
      List.takeWhile_append_dropWhile.symm, ?_, ?_, ?_⟩
    · intro m
      have := List.mem_takeWhile_imp m
      simp at this
    · intro c cs e
      have := List.head?_dropWhile_not (fun c : Char => decide (c ≠ ' ')) d
      rw [e] at this
      simpa using this
    · unfold tagOf
      split
      · next e => exact Or.inr ⟨rfl, by rw [e]; simp⟩
      · next c cs e =>
        by_cases k : c.isDigit = true
        · rw [if_pos k]
          exact Or.inr ⟨rfl, by rw [e]; simpa using k⟩
        · rw [if_neg k]
          exact Or.inl ⟨e.symm, c, cs, rfl, by simpa using k⟩

/-! ## Attributes of the children -/

/-- The attributes set by `_add_child`. -/
def childAttrs (a : Attrs) (gs : List Grp) : Attrs :=
  gs.foldl (fun a g => (a.set g.name (qidOf g.name)).set ('q' :: qidOf g.name) (qidOf g.name)) a

theorem foldlM_addChild {step : List Str × Attrs → Grp → Except Exc (List Str × Attrs)} :
    ∀ {gs : List Grp} {s : List Str × Attrs},
    (∀ g ∈ gs, ∀ s, step s g = .ok (s.1 ++ [qidOf g.name],
      (s.2.set g.name (qidOf g.name)).set ('q' :: qidOf g.name) (qidOf g.name))) →
    gs.foldlM step s = .ok (s.1 ++ gs.map (fun g => qidOf g.name), childAttrs s.2 gs)
  | [], s, _ => by simp [childAttrs]; rfl
  | g :: gs, s, h => by
    rw [List.foldlM_cons, h g (by simp)]
    have := foldlM_addChild (step := step) (gs := gs) (s := (s.1 ++ [qidOf g.name],
      (s.2.set g.name (qidOf g.name)).set ('q' :: qidOf g.name) (qidOf g.name)))
      (fun g m => h g (by simp [m]))
    simp only [bind, Except.bind]
    rw [this]
    simp [childAttrs]

theorem childAttrs_spec : ∀ {gs : List Grp} {a : Attrs} {k : Str},
    (∀ g ∈ gs, (qidOf g.name).length = 10) →
    ((∃ g ∈ gs, k = g.name ∨ k = 'q' :: qidOf g.name) → childAttrs a gs k = some (qidOf k)) ∧
    ((¬ ∃ g ∈ gs, k = g.name ∨ k = 'q' :: qidOf g.name) → childAttrs a gs k = a k)
  | [], a, k, _ => by simp [childAttrs]
  | g :: gs, a, k, h => by
    have ih := childAttrs_spec (gs := gs) (a := (a.set g.name (qidOf g.name)).set
      ('q' :: qidOf g.name) (qidOf g.name)) (k := k) (fun g m => h g (by simp [m]))
    have unf : childAttrs a (g :: gs) k = childAttrs ((a.set g.name (qidOf g.name)).set
      ('q' :: qidOf g.name) (qidOf g.name)) gs k := rfl
    rw [unf]
    have hq : qidOf ('q' :: qidOf g.name) = qidOf g.name := by
      have := qidOf_append (w := ['q']) (h g (by simp))
      simpa using this
    by_cases c : ∃ g ∈ gs, k = g.name ∨ k = 'q' :: qidOf g.name
    · refine ⟨fun _ => ih.1 c, fun n => absurd ?_ n⟩
      obtain ⟨g', m, e⟩ := c
      exact ⟨g', by simp [m], e⟩
    · rw [ih.2 c]
      constructor
      · rintro ⟨g', m, e⟩
        rcases List.mem_cons.1 m with rfl | m
        · simp only [Attrs.set]
          by_cases c1 : k = 'q' :: qidOf g'.name
          · rw [if_pos c1, c1, hq]
          · rcases e with e | e
            · rw [if_neg c1, if_pos e, e]
            · exact absurd e c1
        · exact absurd ⟨g', m, e⟩ c
      · intro n
        have n1 : k ≠ 'q' :: qidOf g.name := fun e => n ⟨g, by simp, Or.inr e⟩
        have n2 : k ≠ g.name := fun e => n ⟨g, by simp, Or.inl e⟩
        simp only [Attrs.set]
        rw [if_neg n1, if_neg n2]

/-- The types are no tags. -/
theorem okTypes_tag : ∀ t ∈ okTypes, '_' ∈ t ∨ ∃ c ∈ t, c.isLower = true := by decide +kernel

theorem toDigits_underscore (i : ℕ) : '_' ∉ Nat.toDigits 10 i := by
  intro m
  have := Nat.isDigit_of_mem_toDigits (by decide) (by decide) m
  exact absurd this (by decide)

theorem nameOf_ne_tag {t q k : Str} (hk : IsTag k) : nameOf t q ≠ k := by
  intro e
  exact hk.not_mem (by rw [← e]; simp [nameOf])

theorem nameOf_ne_tagIdx {t q k : Str} (ht : t ∈ okTypes) (hk : IsTag k) (i : ℕ) :
    nameOf t q ≠ tagIdx k i := by
  intro e
  by_cases c : '_' ∈ t
  · have := congrArg (List.count '_') e
    unfold nameOf tagIdx at this
    rw [List.count_append, List.count_append, List.count_cons_self, List.count_cons_self,
      List.count_eq_zero_of_not_mem hk.not_mem, List.count_eq_zero_of_not_mem (toDigits_underscore i)]
      at this
    have := List.count_pos_iff.2 c
    omega
  · obtain ⟨rfl, _⟩ := split_underscore c hk.not_mem e
    obtain ⟨x, m, l⟩ := (okTypes_tag t ht).resolve_left c
    have := (hk.2 x m).2
    rw [l] at this
    cases this

theorem q_ne_tag {q k : Str} (hk : IsTag k) : 'q' :: q ≠ k := by
  rintro rfl
  exact absurd (hk.2 'q' (by simp)).2 (by decide)

theorem q_ne_tagIdx {q k : Str} (hk : IsTag k) (i : ℕ) : 'q' :: q ≠ tagIdx k i := by
  intro e
  cases k with
  | nil => exact hk.1 rfl
  | cons c k =>
    simp only [tagIdx, List.cons_append, List.cons.injEq] at e
    have := (hk.2 c (by simp)).2
    rw [← e.1] at this
    exact absurd this (by decide)

theorem okTypes_of {f : File} (w : WfN f) {x : Str × Grp} (m : x ∈ all f) :
    ∃ t ∈ okTypes, ∃ q, IsQid q ∧ x.2.name = nameOf t q := by
  obtain ⟨t, q, e, i, k⟩ := w.good x m
  refine ⟨t, ?_, q, i, e⟩
  rcases k with k | k
  · exact List.mem_append_right _ k.2
  · exact List.mem_append_left _ k.2

/-! ## The node of a parent -/

theorem pairLe_trans (a b c : Str × Str) : pairLe a b = true → pairLe b c = true →
    pairLe a c = true := by
  simp only [pairLe, decide_eq_true_eq]
  rintro (h | ⟨h1, h2⟩) (k | ⟨k1, k2⟩)
  · exact Or.inl (h.trans k)
  · exact Or.inl (k1 ▸ h)
  · exact Or.inl (h1 ▸ k)
  · exact Or.inr ⟨h1.trans k1, h2.trans k2⟩

theorem pairLe_total (a b : Str × Str) : (pairLe a b || pairLe b a) = true := by
  simp only [pairLe, Bool.or_eq_true, decide_eq_true_eq]
  rcases lt_trichotomy a.1 b.1 with h | h | h
  · exact Or.inl (Or.inl h)
  · rcases le_total a.2 b.2 with k | k
    · exact Or.inl (Or.inr ⟨h, k⟩)
    · exact Or.inr (Or.inr ⟨h.symm, k⟩)
  · exact Or.inr (Or.inl h)

/-- The date and the description of the group with a QID. -/
def infoD (f : File) (q : Str) : Str := ((getGroup f q).bind (·.2.date)).getD []
def infoT (f : File) (q : Str) : Str := tagOf (((getGroup f q).bind (·.2.desc)).getD [])

theorem infoD_eq {f : File} (w : WfN f) {x : Str × Grp} (m : x ∈ all f) {d : Str}
    (h : x.2.date = some d) : infoD f (qidOf x.2.name) = d := by
  unfold infoD
  rw [getGroup_eq w m]
  simp [h]

theorem infoT_eq {f : File} (w : WfN f) {x : Str × Grp} (m : x ∈ all f) {d : Str}
    (h : x.2.desc = some d) : infoT f (qidOf x.2.name) = tagOf d := by
  unfold infoT
  rw [getGroup_eq w m]
  simp [h]

theorem finalize_eq {f : File} (w : Wf f) {p : Parent} (mp : p ∈ f) :
    ∃ n, finalize f p.name (p.groups.map (fun g => qidOf g.name),
      childAttrs (fun _ => none) p.groups) = .ok n ∧ NodeOf f p.name n := by
  have mem : ∀ g ∈ p.groups, (p.name, g) ∈ all f := fun g m => mem_all.2 ⟨p, mp, rfl, m⟩
  have len : ∀ g ∈ p.groups, (qidOf g.name).length = 10 := fun g m =>
    (w.toWfN.isQid (mem g m)).1
  obtain ⟨ga, mga, ea⟩ := w.act p mp
  have cq : ∀ g ∈ p.groups, childAttrs (fun _ => none) p.groups ('q' :: qidOf g.name) =
      some (qidOf g.name) := by
    intro g m
    rw [(childAttrs_spec len).1 ⟨g, m, Or.inr rfl⟩]
    have := qidOf_append (w := ['q']) (len g m)
    simpa using this
  have h1 : getActiveQid f p.name = .ok (qidOf ga.name) := by
    unfold getActiveQid
    rw [getActive_eq w.toWfN mp mga ea]
    simp only [bind, Except.bind]
    rw [find_parent w.names mp]
    simp only [ea]
    rfl
  have h2 : (p.groups.map fun g => qidOf g.name).mapM (dateOf f) =
      .ok ((p.groups.map fun g => qidOf g.name).map (infoD f)) := by
    refine mapM_ok ?_
    intro q m
    obtain ⟨g, mg, rfl⟩ := List.mem_map.1 m
    obtain ⟨_, dt, _, e, _⟩ := w.info _ (mem g mg)
    unfold dateOf
    rw [getGroup_eq w.toWfN (mem g mg)]
    simp only
    rw [getDate_eq w.toWfN (mem g mg) e (getQid_pathOf w.toWfN (mem g mg) _),
      infoD_eq w.toWfN (mem g mg) e]
  generalize hqs : (p.groups.map fun g => qidOf g.name) = qs at h2
  have zip : (qs.map (infoD f)).zip qs = qs.map fun q => (infoD f q, q) := by
    rw [List.zip_map_left, List.zip_eq_zipWith]
    clear hqs h2
    induction qs with
    | nil => rfl
    | cons q qs ih => simp_all
  generalize hso : (((((qs.map (infoD f)).zip qs).insertionSort fun a b => pairLe a b = true).map Prod.snd).reverse) = so
  have perm : so.Perm qs := by
    rw [← hso, zip]
    refine (List.reverse_perm _).trans ?_
    have := (List.perm_insertionSort (fun a b => pairLe a b = true)
      (qs.map fun q => (infoD f q, q))).map Prod.snd
    rw [List.map_map] at this
    simpa [Function.comp_def] using this
  have memso : ∀ q, q ∈ so ↔ ∃ g ∈ p.groups, qidOf g.name = q := by
    intro q
    rw [perm.mem_iff, ← hqs, List.mem_map]
  have nodup : so.Nodup := by
    rw [perm.nodup_iff, ← hqs]
    have := w.gnames p mp
    refine List.Nodup.map_on ?_ (List.Nodup.of_map _ this)
    intro g m g' m' e
    exact congrArg Prod.snd (w.uniq _ (mem g m) _ (mem g' m') e)
  have sorted : so.Pairwise fun a b => infoD f b ≤ infoD f a := by
    rw [← hso, List.pairwise_reverse, zip]
    haveI : Std.Total (fun a b : Str × Str => pairLe a b = true) :=
      ⟨fun a b => by simpa using pairLe_total a b⟩
    haveI : IsTrans (Str × Str) (fun a b => pairLe a b = true) := ⟨pairLe_trans⟩
    have s := List.pairwise_insertionSort (fun a b => pairLe a b = true)
      (qs.map fun q => (infoD f q, q))
    rw [List.pairwise_map]
    refine s.imp_of_mem ?_
    intro a b ma mb h
    rw [List.mem_insertionSort, List.mem_map] at ma mb
    obtain ⟨qa, _, rfl⟩ := ma
    obtain ⟨qb, _, rfl⟩ := mb
    simp only [pairLe, decide_eq_true_eq] at h
    rcases h with h | ⟨h, _⟩
    · exact h.le
    · exact h.le
  have h3 : so.mapM (fun q => (getDesc f q).map tagOf) = .ok (so.map (infoT f)) := by
    refine mapM_ok ?_
    intro q m
    obtain ⟨g, mg, rfl⟩ := (memso q).1 m
    obtain ⟨d, _, e, _, _⟩ := w.info _ (mem g mg)
    have := getQid_append (w := []) (w.toWfN.isQid (mem g mg))
    rw [List.nil_append] at this
    rw [getDesc_eq w.toWfN (mem g mg) e this, infoT_eq w.toWfN (mem g mg) e]
    rfl
  have zip2 : so.zip (so.map (infoT f)) = so.map fun q => (q, infoT f q) := by
    rw [List.zip_map_right, List.zip_eq_zipWith]
    clear hso perm memso nodup sorted h3
    induction so with
    | nil => rfl
    | cons q qs ih => simp_all
  have a0 : ∀ k, (∀ g ∈ p.groups, k ≠ g.name ∧ k ≠ 'q' :: qidOf g.name) →
      childAttrs (fun _ => none) p.groups k = none := by
    intro k h
    refine (childAttrs_spec len).2 ?_
    rintro ⟨g, m, e | e⟩
    · exact (h g m).1 e
    · exact (h g m).2 e
  have a1 : ∀ t, IsTag t → childAttrs (fun _ => none) p.groups t = none := by
    intro t ht
    refine a0 t fun g m => ?_
    obtain ⟨t', mt, q, _, e⟩ := okTypes_of w.toWfN (mem g m)
    simp only at e
    rw [e]
    exact ⟨(nameOf_ne_tag ht).symm, (q_ne_tag ht).symm⟩
  have a2 : ∀ t i, IsTag t → childAttrs (fun _ => none) p.groups (tagIdx t i) = none := by
    intro t i ht
    refine a0 _ fun g m => ?_
    obtain ⟨t', mt, q, _, e⟩ := okTypes_of w.toWfN (mem g m)
    simp only at e
    rw [e]
    exact ⟨(nameOf_ne_tagIdx mt ht i).symm, (q_ne_tagIdx ht i).symm⟩
  obtain ⟨r, r1, r2, r3, r4⟩ := tags_spec (a0 := childAttrs (fun _ => none) p.groups)
    (l := so.map fun q => (q, infoT f q)) (by
      intro x m
      obtain ⟨q, _, rfl⟩ := List.mem_map.1 m
      exact tagOf_isTag _) a1 a2
  have hocc : ∀ t, occ (so.map fun q => (q, infoT f q)) t = so.filter fun q => infoT f q = t := by
    intro t
    unfold occ
    rw [List.filter_map, List.map_map]
    simp [Function.comp_def]
  refine ⟨⟨so, qidOf ga.name, r.2.foldl Attrs.del r.1⟩, ?_, ?_⟩
  · unfold finalize
    rw [h1]
    simp only [bind, Except.bind]
    rw [cq ga mga]
    simp only [h2, hso, h3, zip2]
    rw [List.length_map] at r1
    rw [r1]
    rfl
  · -- entries and groups
    have he : ∀ q, (∃ g ∈ p.groups, qidOf g.name = q) ↔ ∃ e, Has f e ∧ e.parent = p.name ∧ e.qid = q := by
      intro q
      constructor
      · rintro ⟨g, m, rfl⟩
        obtain ⟨e, k1, k2, k3⟩ := w.entry (mem g m)
        exact ⟨e, k1, (congrArg Prod.fst k2).symm, k3.symm⟩
      · rintro ⟨e, k1, k2, rfl⟩
        obtain ⟨i, p', mp', k3, k4⟩ := k1
        obtain rfl := parent_eq w.names mp' mp (k3.trans k2)
        exact ⟨_, k4, qidOf_nameOf i.1⟩
    have hD : ∀ e, Has f e → infoD f e.qid = e.date := by
      intro e k
      rw [has_iff] at k
      rw [← qidOf_grpOf k.1]
      exact infoD_eq w.toWfN k.2 rfl
    have hT : ∀ e, Has f e → infoT f e.qid = tagOf e.desc := by
      intro e k
      rw [has_iff] at k
      rw [← qidOf_grpOf k.1]
      exact infoT_eq w.toWfN k.2 rfl
    have hg : ∀ e, Has f e → e.parent = p.name → (grpOf e).2 ∈ p.groups := by
      intro e k1 k2
      obtain ⟨i, p', mp', k3, k4⟩ := k1
      obtain rfl := parent_eq w.names mp' mp (k3.trans k2)
      exact k4
    refine ⟨?_, nodup, ?_, ⟨p, mp, rfl, ea⟩, ?_, ?_, ?_⟩
    · intro q
      rw [memso, he]
    · refine sorted.imp ?_
      rintro a b h e e' k k' rfl rfl
      rwa [hD e k, hD e' k'] at h
    · intro e k1 k2
      have m := hg e k1 k2
      obtain ⟨t, mt, q, _, en⟩ := okTypes_of w.toWfN (mem _ m)
      have eq : qidOf (grpOf e).2.name = e.qid := qidOf_grpOf k1.1
      constructor
      · have : (r.2.foldl Attrs.del r.1) (grpOf e).2.name = some (qidOf (grpOf e).2.name) := by
          rw [r4, (childAttrs_spec len).1 ⟨_, m, Or.inl rfl⟩]
          · intro h
            exact nameOf_ne_tag h en.symm
          · intro t' i h e'
            exact nameOf_ne_tagIdx mt h i (en.symm.trans e')
        rw [eq] at this
        exact this
      · have : (r.2.foldl Attrs.del r.1) ('q' :: qidOf (grpOf e).2.name) =
            some (qidOf (grpOf e).2.name) := by
          rw [r4, cq _ m]
          · intro h
            exact q_ne_tag h rfl
          · intro t' i h e'
            exact q_ne_tagIdx h i e'
        rw [eq] at this
        exact this
    · rintro tag ⟨e, k1, k2, k3⟩
      rw [tagOf_spec] at k3
      have ht : IsTag tag := k3 ▸ tagOf_isTag _
      have smem : ∀ q, q ∈ so.filter (fun q => infoT f q = tag) ↔
          ∃ e, Has f e ∧ e.parent = p.name ∧ e.qid = q ∧ TagOf e.desc tag := by
        intro q
        rw [List.mem_filter, memso, he, decide_eq_true_eq]
        constructor
        · rintro ⟨⟨e, l1, l2, rfl⟩, l3⟩
          exact ⟨e, l1, l2, rfl, (tagOf_spec _ _).2 (by rw [← l3, hT e l1])⟩
        · rintro ⟨e, l1, l2, rfl, l3⟩
          exact ⟨⟨e, l1, l2, rfl⟩, by rw [hT e l1, ← (tagOf_spec _ _).1 l3]⟩
      refine ⟨so.filter fun q => infoT f q = tag, List.filter_sublist, smem, ?_, ?_⟩
      · rw [← hocc]
        exact r2 tag ht
      · intro i
        have := r3 tag ht i
        rw [hocc] at this
        refine this.trans ?_
        have pos : 0 < (so.filter fun q => infoT f q = tag).length :=
          List.length_pos_of_mem ((smem e.qid).2 ⟨e, k1, k2, rfl, (tagOf_spec _ _).2 k3⟩)
        by_cases c : (so.filter fun q => infoT f q = tag).length = 1
        · rw [if_pos c, if_neg (by omega)]
        · rw [if_neg c, if_pos (by omega)]
    · intro k q e
      refine (he q).1 ?_
      by_cases c : IsTag k
      · have := r2 k c
        simp only at e
        rw [e, hocc] at this
        split_ifs at this
        have m := List.mem_of_head? this.symm
        exact (memso q).1 (List.mem_filter.1 m).1
      · by_cases d : ∃ t i, IsTag t ∧ k = tagIdx t i
        · obtain ⟨t, i, ht, rfl⟩ := d
          have := r3 t ht i
          simp only at e
          rw [e, hocc] at this
          split_ifs at this
          have m := List.mem_of_getElem? this.symm
          exact (memso q).1 (List.mem_filter.1 m).1
        · have := r4 k c fun t i h e => d ⟨t, i, h, e⟩
          simp only at e
          rw [e] at this
          by_cases b : ∃ g ∈ p.groups, k = g.name ∨ k = 'q' :: qidOf g.name
          · rw [(childAttrs_spec len).1 b] at this
            obtain ⟨g, m, rfl | rfl⟩ := b
            · exact ⟨g, m, (Option.some.inj this).symm⟩
            · refine ⟨g, m, (Option.some.inj this).symm ▸ ?_⟩
              have := qidOf_append (w := ['q']) (len g m)
              simpa using this.symm
          · rw [(childAttrs_spec len).2 b] at this
            cases this

/-! ## The tree -/

theorem inputNode_eq {f : File} (w : Wf f) {p : Parent} (mp : p ∈ f) (hp : p.name ∈ inputGroups) :
    ∃ n, inputNode f p = .ok n ∧ NodeOf f p.name n := by
  obtain ⟨n, h1, h2⟩ := finalize_eq w mp
  refine ⟨n, ?_, h2⟩
  unfold inputNode
  rw [foldlM_addChild]
  · simp only [List.nil_append]
    exact h1
  · intro g m s
    have mg : (p.name, g) ∈ all f := mem_all.2 ⟨p, mp, rfl, m⟩
    obtain ⟨t, q, e, i, k⟩ := w.good _ mg
    simp only at e k
    rcases k with k | k
    · exact absurd (k.1 ▸ hp) results_not_input
    · have gt : getType g.name = some t := by
        rw [e, getType_nameOf (List.mem_append_left _ k.2) i.1]
      simp only [gt]
      rw [if_pos k.2]
      unfold addChild
      rw [getQid_name w.toWfN mg]

theorem runNode_eq {f : File} (w : Wf f) {inputs : List (Str × Node)}
    (hi : ∀ x ∈ inputs, NodeOf f x.1 x.2)
    (ha : ∀ p ∈ f, p.name ∈ inputGroups → ∃ n, (p.name, n) ∈ inputs)
    {g : Grp} (m : (results, g) ∈ all f) : runNode inputs g = .ok (g.name, g.refs) := by
  have key : ∀ t ∈ kinds, ∀ q, firstWord (nameOf t q) = t := by
    have : ∀ t ∈ kinds, '_' ∉ t := by decide
    intro t ht q
    unfold firstWord nameOf
    rw [List.takeWhile_append_of_pos (by
      intro c m
      simp only [ne_eq, decide_eq_true_eq]
      rintro rfl
      exact this t ht m)]
    simp
  have hk : firstWord g.name = "run".toList ∨ firstWord g.name = "afsi".toList ∨
      firstWord g.name = "bbnbi".toList := by
    obtain ⟨t, q, e, i, k⟩ := w.good _ m
    simp only at e k
    rcases k with k | k
    · rw [e, key t k.2 q]
      have := k.2
      simp only [kinds, List.mem_cons, List.not_mem_nil, or_false] at this
      exact this
    · exact absurd k.1 results_not_input
  unfold runNode
  rw [if_pos hk]
  have all_in : g.refs.filter (fun r => decide (r.1 ∈ inputGroups)) = g.refs := by
    rw [List.filter_eq_self]
    intro r mr
    have := (w.refs _ m r mr).2.1
    simpa using this
  rw [all_in, mapM_ok (g := fun r => r)]
  · simp only [bind, Except.bind, List.map_id']
    rfl
  · intro r mr
    obtain ⟨_, k, y, my, e1, e2⟩ := w.refs _ m r mr
    obtain ⟨p, mp, e3, _⟩ := mem_all.1 my
    obtain ⟨n, mn⟩ := ha p mp (by rw [e3, e1]; exact k)
    cases hf : inputs.find? (fun x => decide (x.1 = r.1)) with
    | none =>
      have := List.find?_eq_none.1 hf _ mn
      simp [e3, e1] at this
    | some x =>
      have mx := List.mem_of_find?_eq_some hf
      have ex := List.find?_some hf
      simp only [decide_eq_true_eq] at ex
      obtain ⟨e, k1, k2, k3⟩ := w.entry my
      have := ((hi x mx).names e k1 (by rw [ex, ← e1, k2]; rfl)).2
      rw [← k3, e2] at this
      simp only [this]

theorem build_eq {f : File} (w : Wf f) : ∃ t, build f = .ok t ∧ TreeOf f t := by
  classical
  have ex : ∀ p : Parent, ∃ n, p ∈ f → p.name ∈ inputGroups →
      inputNode f p = .ok n ∧ NodeOf f p.name n := by
    intro p
    by_cases c : p ∈ f ∧ p.name ∈ inputGroups
    · obtain ⟨n, h⟩ := inputNode_eq w c.1 c.2
      exact ⟨n, fun _ _ => h⟩
    · exact ⟨⟨[], [], fun _ => none⟩, fun a b => absurd ⟨a, b⟩ c⟩
  choose node hnode using ex
  have h1 : ((f.filter fun p => p.name ∈ inputGroups).mapM fun p => (do
      let n ← inputNode f p
      return (p.name, n) : Except Exc (Str × Node))) =
      .ok ((f.filter fun p => p.name ∈ inputGroups).map fun p => (p.name, node p)) := by
    refine mapM_ok ?_
    intro p m
    obtain ⟨m, k⟩ := List.mem_filter.1 m
    simp only [decide_eq_true_eq] at k
    rw [(hnode p m k).1]
    rfl
  generalize hin : ((f.filter fun p => p.name ∈ inputGroups).map fun p => (p.name, node p)) = inputs
    at h1
  have i1 : ∀ x ∈ inputs, NodeOf f x.1 x.2 := by
    intro x m
    rw [← hin] at m
    obtain ⟨p, m1, rfl⟩ := List.mem_map.1 m
    obtain ⟨m2, k⟩ := List.mem_filter.1 m1
    simp only [decide_eq_true_eq] at k
    exact (hnode p m2 k).2
  have i2 : ∀ p ∈ f, p.name ∈ inputGroups → ∃ n, (p.name, n) ∈ inputs := by
    intro p m k
    rw [← hin]
    exact ⟨node p, List.mem_map.2 ⟨p, List.mem_filter.2 ⟨m, by simpa using k⟩, rfl⟩⟩
  have i3 : (inputs.map Prod.fst).Nodup := by
    rw [← hin, List.map_map]
    exact w.names.sublist (List.filter_sublist.map _)
  have i4 : ∀ e, Has f e → e.parent ≠ results → ∃ n, (e.parent, n) ∈ inputs := by
    rintro e ⟨_, p, m, k, _⟩ ne
    rw [← k]
    refine i2 p m ?_
    rcases w.parents p m with h | h
    · exact absurd (k.symm.trans h) ne
    · exact h
  unfold build
  rw [h1]
  simp only [bind, Except.bind]
  cases hr : f.find? (fun p => decide (p.name = results)) with
  | none =>
    have no : ¬ ∃ e, Has f e ∧ e.parent = results := by
      rintro ⟨e, ⟨_, p, m, k, _⟩, k2⟩
      have := List.find?_eq_none.1 hr p m
      simp [k, k2] at this
    refine ⟨_, rfl, i4, i1, i3, ?_, ?_, ?_⟩
    · simp [no]
    · intro n e
      cases e
    · intro x
      simp only [List.not_mem_nil, false_iff]
      rintro ⟨e, a, b, _⟩
      exact no ⟨e, a, b⟩
  | some p =>
    have mp := List.mem_of_find?_eq_some hr
    have np := List.find?_some hr
    simp only [decide_eq_true_eq] at np
    have mem : ∀ g ∈ p.groups, (results, g) ∈ all f := fun g m => mem_all.2 ⟨p, mp, np, m⟩
    have h2 : p.groups.mapM (runNode inputs) = .ok (p.groups.map fun g => (g.name, g.refs)) :=
      mapM_ok fun g m => runNode_eq w i1 i2 (mem g m)
    have h3 : p.groups.foldlM (init := (([], fun _ => none) : List Str × Attrs)) addChild =
        .ok ([] ++ p.groups.map (fun g => qidOf g.name), childAttrs (fun _ => none) p.groups) := by
      refine foldlM_addChild ?_
      intro g m s
      unfold addChild
      rw [show getQid g.name = some (qidOf g.name) from getQid_name w.toWfN (mem g m)]
    obtain ⟨n, h4, h5⟩ := finalize_eq w mp
    rw [np] at h4 h5
    simp only [h2]
    rw [h3]
    simp only [List.nil_append, h4]
    refine ⟨_, rfl, i4, i1, i3, ?_, ?_, ?_⟩
    · simp only [ne_eq, reduceCtorEq, not_false_iff, iff_true]
      exact (exists_parent w).1 ⟨p, mp, np⟩
    · intro n' e
      obtain rfl := Option.some.inj e
      exact h5
    · intro x
      simp only [List.mem_map]
      constructor
      · rintro ⟨g, m, rfl⟩
        obtain ⟨e, k1, k2, _⟩ := w.entry (mem g m)
        refine ⟨e, k1, (congrArg Prod.fst k2).symm, ?_⟩
        have e1 := congrArg (·.2.name) k2
        have e2 := congrArg (·.2.refs) k2
        exact Prod.ext e1 e2
      · rintro ⟨e, ⟨_, p', mp', k1, k2⟩, k3, rfl⟩
        obtain rfl := parent_eq w.names mp' mp (by rw [k1, k3, np])
        exact ⟨_, k2, rfl⟩

/-! ## Removal -/

/-- The command line tool does the same as the interactive interface. -/
theorem tool_same {f : File} (w : Wf f) {s : Str}
    (hs : (∃ x ∈ all f, getQid s = some (qidOf x.2.name)) ∨ ∃ p ∈ f, p.name = s) (force : Bool) :
    FileTree.removeTool f s force = removeGroup f s := by
  have qok : ∀ pn, qidsOk f pn := by
    intro pn g mg
    rw [mem_groupsOf w.names] at mg
    rw [show getQid g.name = some (qidOf g.name) from getQid_name w.toWfN mg]
    rfl
  have par : removeParent f s force = removeGroup f s ∨
      (force = false ∧ s ≠ results ∧ (∃ p ∈ f, p.name = results) ∧ ¬ ∃ p ∈ f, p.name = s) := by
    unfold removeParent
    by_cases c1 : force = true ∨ s = results
    · rw [if_pos c1]
      exact Or.inl rfl
    · rw [if_neg c1]
      by_cases c2 : (∃ p ∈ f, p.name = results) ∧ qidsOk f results
      · rw [if_pos c2]
        by_cases c3 : (∃ p ∈ f, p.name = s) ∧ qidsOk f s
        · rw [if_pos c3]
          exact Or.inl rfl
        · right
          exact ⟨by simpa using fun k => c1 (Or.inl k), fun k => c1 (Or.inr k), c2.1,
            fun k => c3 ⟨k, qok s⟩⟩
      · rw [if_neg c2]
        exact Or.inl rfl
  unfold FileTree.removeTool
  rcases hs with ⟨x, mx, hq⟩ | hp
  · obtain ⟨t, mt, q, i, en⟩ := okTypes_of w.toWfN mx
    have key : removeTry f s force = removeGroup f s ∨
        (removeTry f s force = .err .noData f ∧ ¬ ∃ p ∈ f, p.name = results) := by
      unfold removeTry
      rw [hq]
      simp only
      by_cases c : force = true
      · rw [if_pos c]
        exact Or.inl rfl
      · rw [if_neg c, getGroup_eq w.toWfN mx]
        simp only
        rw [en, getType_nameOf mt i.1]
        simp only
        by_cases d : t = "run".toList
        · rw [if_pos d]
          exact Or.inl rfl
        · rw [if_neg d]
          by_cases r : ∃ p ∈ f, p.name = results
          · rw [if_pos ⟨r, qok _⟩]
            exact Or.inl rfl
          · rw [if_neg (fun k => r k.1)]
            exact Or.inr ⟨rfl, r⟩
    have notNoData : ∀ f', removeGroup f s ≠ .err .noData f' := by
      intro f' k
      by_cases u : ∃ y ∈ all f, ∃ r ∈ y.2.refs, r.2 = qidOf x.2.name
      · rw [removeGroup_used w mx hq u] at k
        injection k with k _
        cases k
      · have u' : ∀ y ∈ all f, ∀ r ∈ y.2.refs, r.2 ≠ qidOf x.2.name :=
          fun y my r mr e => u ⟨y, my, r, mr, e⟩
        obtain ⟨f2, k2, _⟩ := removeData_spec w mx u'
        rw [removeGroup_eq w mx hq u', k2] at k
        cases k
    rcases key with k | ⟨k, nr⟩
    · rw [k]
      cases hr : removeGroup f s with
      | ok f' => rfl
      | err e f' =>
        cases e with
        | noData => exact absurd hr (notNoData f')
        | _ => rfl
    · rw [k]
      simp only
      rcases par with p | ⟨_, _, p, _⟩
      · exact p
      · exact absurd p nr
  · have hn : getQid s = none := by
      cases hq : getQid s with
      | none => rfl
      | some q => exact absurd hp (parent_not_qid w.toWfN hq)
    have : removeTry f s force = .err .noData f := by
      unfold removeTry
      rw [hn]
    rw [this]
    simp only
    rcases par with p | ⟨_, _, _, p⟩
    · exact p
    · exact absurd hp p

theorem used_iff {f : File} (w : Wf f) {q : Str} :
    Used f q ↔ ∃ y ∈ all f, ∃ r ∈ y.2.refs, r.2 = q := by
  constructor
  · rintro ⟨e, h1, _, k, h3⟩
    rw [has_iff] at h1
    exact ⟨grpOf e, h1.2, (k, q), h3, rfl⟩
  · rintro ⟨y, my, r, mr, rfl⟩
    obtain ⟨e, k1, k2, _⟩ := w.entry my
    have p := (w.refs y my r mr).1
    refine ⟨e, k1, by rw [← p, k2]; rfl, r.1, ?_⟩
    have := congrArg (·.2.refs) k2
    rw [this] at mr
    exact mr

end Ascot.FileTree
