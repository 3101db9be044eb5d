import Mathlib.Data.List.Induction
import Mathlib.Tactic.Ring
import Verif.Spec.Combined

set_option linter.unusedSectionVars false
set_option linter.unusedSimpArgs false

/-! # Lemmas on combining outputs -/
namespace Ascot.Combine

open Combined

variable {K : Type} [CommRing K] [LinearOrder K] [IsStrictOrderedRing K]

theorem get_table {ns : List String} {l : List (Row K)} {g : Fields K} (h : Table ns l g) {n : String}
    (hn : n ∈ ns) : g.get n = some (l.map fun r => r n) := by
  obtain ⟨h1, h2⟩ := h
  subst h1
  obtain ⟨x, hx, rfl⟩ := List.mem_map.1 hn
  unfold Fields.get
  cases hf : g.find? fun y => y.1 = x.1 with
  | none =>
    rw [List.find?_eq_none] at hf
    exact absurd (by simp) (hf x hx)
  | some y =>
    have e : y.1 = x.1 := by simpa using List.find?_some hf
    rw [Option.map_some, h2 y (List.mem_of_find?_eq_some hf), e]

theorem get_none {g : Fields K} {n : String} (hn : n ∉ g.map (·.1)) : g.get n = none := by
  unfold Fields.get
  rw [Option.map_eq_none_iff, List.find?_eq_none]
  intro x hx
  simp only [decide_eq_true_eq]
  intro h
  exact hn (h ▸ List.mem_map_of_mem hx)

/-- Tables with the same columns are put one below the other. -/
theorem append_table : ∀ {t s : Fields K} {ns ns' : List String} {l l' : List (Row K)},
    Table ns l t → Table ns' l' s → (∀ n ∈ ns, n ∈ ns') →
    ∃ r, append t s = .ok r ∧ Table ns (l ++ l') r
  | [], s, ns, ns', l, l', ht, _, _ => by
    refine ⟨[], rfl, ht.1, by simp⟩
  | x :: t, s, ns, ns', l, l', ht, hs, hn => by
    obtain ⟨h1, h2⟩ := ht
    cases ns with
    | nil => simp at h1
    | cons n ns =>
      simp only [List.map_cons, List.cons.injEq] at h1
      obtain ⟨r, hr, hr1, hr2⟩ := append_table (t := t) (s := s) (ns := ns) (l := l)
        ⟨h1.2, fun y hy => h2 y (List.mem_cons_of_mem _ hy)⟩ hs
        fun m hm => hn m (List.mem_cons_of_mem _ hm)
      have hg : s.get x.1 = some (l'.map fun r => r x.1) :=
        get_table hs (hn _ (h1.1 ▸ List.mem_cons_self))
      refine ⟨(x.1, x.2 ++ l'.map fun r => r x.1) :: r, ?_, ?_, ?_⟩
      · rw [append, hg]
        simp only [hr]
      · simp [h1.1, hr1]
      · intro y hy
        rcases List.mem_cons.1 hy with rfl | hy
        · simp only [List.map_append]
          rw [h2 x List.mem_cons_self]
        · exact hr2 y hy

theorem both_append {ns : Option (List String)} {l l' : List (Row K)} {t s : Option (Fields K)}
    (ht : Grp ns l t) (hs : Grp ns l' s) :
    ∃ r, both append t s = .ok r ∧ Grp ns (l ++ l') r := by
  cases ns <;> cases t <;> cases s <;> simp only [Grp] at ht hs
  · exact ⟨none, rfl, trivial⟩
  · obtain ⟨r, h1, h2⟩ := append_table ht.2 hs.2 fun n h => h
    exact ⟨some r, by simp only [both, h1], ht.1, h2⟩

theorem addDists_eq : ∀ {as : List (Axes K)} {v w : String → ℕ → K} {t s : List (String × Dist K)},
    List.Forall₂ (fun a x => DistOf a (v a.name) x) as t →
    (∀ a ∈ as, ∃ y, s.find? (fun y => y.1 = a.name) = some y ∧ DistOf a (w a.name) y) →
    ∃ r, addDists t s = .ok r ∧
      List.Forall₂ (fun a x => DistOf a (fun i => v a.name i + w a.name i) x) as r
  | _, v, w, _, s, .nil, _ => ⟨[], rfl, .nil⟩
  | _, v, w, _, s, .cons (a := a) (b := x) (l₁ := as) (l₂ := t) hx ht, hs => by
    obtain ⟨r, hr, hf⟩ := addDists_eq (w := w) (s := s) ht
      fun b hb => hs b (List.mem_cons_of_mem _ hb)
    obtain ⟨y, hy, hd⟩ := hs a List.mem_cons_self
    obtain ⟨x1, x2, x3, x4⟩ := hx
    obtain ⟨y1, y2, y3, y4⟩ := hd
    refine ⟨(x.1, ⟨x.2.edges, x.2.shape, List.zipWith (· + ·) x.2.ordinate y.2.ordinate⟩) :: r,
      ?_, .cons ⟨x1, x2, x3, ?_⟩ hf⟩
    · rw [addDists, x1, hy]
      simp only [x3, y3, if_pos, hr]
    · dsimp only
      rw [x4, y4, List.zipWith_map, List.zipWith_self]

theorem find_dist {as : List (Axes K)} {w : String → ℕ → K} : ∀ {s : List (String × Dist K)},
    (as.map Axes.name).Nodup → List.Forall₂ (fun a x => DistOf a (w a.name) x) as s →
    ∀ a ∈ as, ∃ y, s.find? (fun y => y.1 = a.name) = some y ∧ DistOf a (w a.name) y := by
  induction as with
  | nil => intro s _ _ a ha; cases ha
  | cons b as ih =>
    intro s hd hs a ha
    cases hs with
    | cons hx hs =>
      rename_i x s
      rw [List.map_cons, List.nodup_cons] at hd
      rcases List.mem_cons.1 ha with rfl | ha
      · exact ⟨x, by simp [List.find?_cons, hx.1], hx⟩
      · obtain ⟨y, h1, h2⟩ := ih hd.2 hs a ha
        refine ⟨y, ?_, h2⟩
        have : ¬ x.1 = a.name := by
          rw [hx.1]
          intro h
          exact hd.1 (h ▸ List.mem_map_of_mem ha)
        rw [List.find?_cons, decide_eq_false this]
        exact h1

/-! ## Continued simulations -/

theorem increasing_range (n : ℕ) : increasing (List.range n) = true := by
  unfold increasing
  rw [List.all_eq_true]
  intro x hx
  rw [List.mem_iff_getElem] at hx
  obtain ⟨i, hi, rfl⟩ := hx
  simp

theorem pairwise_of_increasing : ∀ {l : List ℕ}, increasing l = true → l.Pairwise (· < ·)
  | [], _ => .nil
  | [_], _ => List.pairwise_singleton _ _
  | a :: b :: l, h => by
    have h' : (decide (a < b) && increasing (b :: l)) = true := by
      simpa [increasing] using h
    rw [Bool.and_eq_true, decide_eq_true_eq] at h'
    have ih := pairwise_of_increasing h'.2
    refine List.pairwise_cons.2 ⟨fun c hc => ?_, ih⟩
    rcases List.mem_cons.1 hc with rfl | hc
    · exact h'.1
    · exact lt_trans h'.1 ((List.pairwise_cons.1 ih).1 c hc)

theorem fst_zip (ids : List K) : (ids.zip (List.range ids.length)).map Prod.fst = ids :=
  List.map_fst_zip (by simp)

theorem snd_zip (ids : List K) : (ids.zip (List.range ids.length)).map Prod.snd =
    List.range ids.length :=
  List.map_snd_zip (by simp)

theorem argsort_sorted {ids : List K} (h : ids.Pairwise (· ≤ ·)) : argsort ids = List.range ids.length := by
  have hp : (ids.zip (List.range ids.length)).Pairwise fun a b => a.1 ≤ b.1 := by
    rw [← fst_zip ids, List.pairwise_map] at h
    exact h
  unfold argsort
  rw [hp.insertionSort_eq]
  exact snd_zip ids

theorem sorted_of_argsort {ids : List K} (h : increasing (argsort ids) = true) :
    ids.Pairwise (· ≤ ·) := by
  have h1 := pairwise_of_increasing h
  unfold argsort at h1
  rw [List.pairwise_map] at h1
  have h2 : (ids.zip (List.range ids.length)).Pairwise fun a b => a.2 < b.2 := by
    rw [← List.pairwise_map (f := Prod.snd) (R := (· < ·)), snd_zip]
    exact List.pairwise_lt_range
  have e := List.Perm.eq_of_pairwise
    (fun a b _ _ hab hba => absurd hab (not_lt_of_gt hba)) h1 h2
    (List.perm_insertionSort (fun a b : K × ℕ => a.1 ≤ b.1) (ids.zip (List.range ids.length)))
  have h3 : ((ids.zip (List.range ids.length)).insertionSort fun a b => a.1 ≤ b.1).Pairwise
      fun a b => a.1 ≤ b.1 := by
    haveI : Std.Total (fun a b : K × ℕ => a.1 ≤ b.1) := ⟨fun a b => le_total _ _⟩
    haveI : IsTrans (K × ℕ) (fun a b : K × ℕ => a.1 ≤ b.1) := ⟨fun a b c => le_trans⟩
    exact List.pairwise_insertionSort (fun a b : K × ℕ => a.1 ≤ b.1) _
  rw [e] at h3
  rw [← fst_zip ids, List.pairwise_map]
  exact h3

theorem mapM_congr {α β : Type} {f g : α → Option β} : ∀ {l : List α}, (∀ x ∈ l, f x = g x) →
    l.mapM f = l.mapM g
  | [], _ => rfl
  | a :: l, h => by
    rw [List.mapM_cons, List.mapM_cons, h a List.mem_cons_self,
      mapM_congr fun x hx => h x (List.mem_cons_of_mem _ hx)]

theorem gather_range (d : List K) : gather d (List.range d.length) = some d := by
  unfold gather
  induction d using List.reverseRecOn with
  | nil => rfl
  | append_singleton d x ih =>
    rw [List.length_append, List.length_singleton, List.range_succ, List.mapM_append]
    have : (List.range d.length).mapM (fun i => (d ++ [x])[i]?) =
        (List.range d.length).mapM (fun i => d[i]?) := by
      apply mapM_congr
      intro i hi
      rw [List.getElem?_append_left (List.mem_range.1 hi)]
    rw [this, ih]
    simp

theorem scatter_rows (op : K → K → K) (n : String) : ∀ {l l' : List (Row K)},
    l.Pairwise (fun a b => a "ids" < b "ids") → l'.Pairwise (fun a b => a "ids" < b "ids") →
    (∀ s ∈ l', ∃ r ∈ l, r "ids" = s "ids") →
    scatter op (l.map fun r => r n)
        (l.map fun r => decide (r "ids" ∈ l'.map fun s => s "ids")) (l'.map fun r => r n) =
      (l.map fun r => match l'.find? fun s => s "ids" = r "ids" with
        | none => r n
        | some s => op (r n) (s n)) ∧
    ((l.map fun r => decide (r "ids" ∈ l'.map fun s => s "ids")).filter id).length = l'.length
  | [], l', _, _, hs => by
    cases l' with
    | nil => exact ⟨rfl, rfl⟩
    | cons s l' =>
      obtain ⟨r, hr, -⟩ := hs s List.mem_cons_self
      cases hr
  | r :: l, l', hl, hl', hs => by
    rw [List.pairwise_cons] at hl
    by_cases hr : r "ids" ∈ l'.map fun s => s "ids"
    · cases l' with
      | nil => simp at hr
      | cons s l' =>
        rw [List.pairwise_cons] at hl'
        have hge : r "ids" ≤ s "ids" := by
          obtain ⟨q, hq, e⟩ := hs s List.mem_cons_self
          rw [← e]
          rcases List.mem_cons.1 hq with rfl | hq
          · exact le_rfl
          · exact (hl.1 q hq).le
        have hle : s "ids" ≤ r "ids" := by
          obtain ⟨q, hq, e⟩ := List.mem_map.1 hr
          rw [← e]
          rcases List.mem_cons.1 hq with rfl | hq
          · exact le_rfl
          · exact (hl'.1 q hq).le
        have e : s "ids" = r "ids" := le_antisymm hle hge
        have hne : ∀ q ∈ l, s "ids" ≠ q "ids" := fun q hq => by
          rw [e]; exact (hl.1 q hq).ne
        obtain ⟨h1, h2⟩ := scatter_rows op n (l := l) (l' := l') hl.2 hl'.2 (by
          intro q hq
          obtain ⟨p, hp, ep⟩ := hs q (List.mem_cons_of_mem _ hq)
          rcases List.mem_cons.1 hp with rfl | hp
          · exact absurd (ep.symm.trans e.symm).symm (hl'.1 q hq).ne
          · exact ⟨p, hp, ep⟩)
        have em : (l.map fun r => decide (r "ids" ∈ (s :: l').map fun s => s "ids")) =
            l.map fun r => decide (r "ids" ∈ l'.map fun s => s "ids") := by
          apply List.map_congr_left
          intro q hq
          have := (hne q hq).symm
          rw [decide_eq_decide, List.map_cons, List.mem_cons]
          exact ⟨fun h => h.resolve_left this, Or.inr⟩
        have ef : (l.map fun r => match (s :: l').find? fun s => s "ids" = r "ids" with
              | none => r n
              | some s => op (r n) (s n)) =
            l.map fun r => match l'.find? fun s => s "ids" = r "ids" with
              | none => r n
              | some s => op (r n) (s n) := by
          apply List.map_congr_left
          intro q hq
          rw [List.find?_cons, decide_eq_false (hne q hq)]
        constructor
        · rw [List.map_cons, List.map_cons, decide_eq_true hr, em, List.map_cons, List.map_cons,
            scatter, h1, ef, List.find?_cons, decide_eq_true e]
        · rw [List.map_cons, decide_eq_true hr, em]
          simpa using h2
    · obtain ⟨h1, h2⟩ := scatter_rows op n (l := l) (l' := l') hl.2 hl' (by
        intro q hq
        obtain ⟨p, hp, ep⟩ := hs q hq
        rcases List.mem_cons.1 hp with rfl | hp
        · exact absurd (List.mem_map.2 ⟨q, hq, ep.symm⟩) hr
        · exact ⟨p, hp, ep⟩)
      constructor
      · have hf : (l'.find? fun s => s "ids" = r "ids") = none := by
          rw [List.find?_eq_none]
          intro q hq
          simp only [decide_eq_true_eq]
          intro h
          exact hr (List.mem_map.2 ⟨q, hq, h⟩)
        rw [List.map_cons, List.map_cons, decide_eq_false hr, List.map_cons, hf]
        simp only [scatter, h1]
      · rw [List.map_cons, decide_eq_false hr]
        simpa using h2

theorem contFields_eq {l l' : List (Row K)}
    (hl : l.Pairwise (fun a b => a "ids" < b "ids")) (hl' : l'.Pairwise (fun a b => a "ids" < b "ids"))
    (hsub : ∀ s ∈ l', ∃ r ∈ l, r "ids" = s "ids") {ns' : List String} {s : Fields K}
    (hs : Table ns' l' s) : ∀ {t : Fields K} {ns : List String}, Table ns l t →
    (∀ n ∈ ns, n ∈ ns') →
    ∃ r, contFields (List.range l.length) (List.range l'.length)
        (l.map fun r => decide (r "ids" ∈ l'.map fun s => s "ids")) t s = .ok r ∧
      Table ns (renew l l') r
  | [], ns, ht, _ => ⟨[], rfl, ht.1, by simp⟩
  | x :: t, ns, ht, hn => by
    obtain ⟨h1, h2⟩ := ht
    cases ns with
    | nil => simp at h1
    | cons n ns =>
      simp only [List.map_cons, List.cons.injEq] at h1
      obtain ⟨r, hr, hr1, hr2⟩ := contFields_eq hl hl' hsub hs (t := t) (ns := ns)
        ⟨h1.2, fun y hy => h2 y (List.mem_cons_of_mem _ hy)⟩
        fun m hm => hn m (List.mem_cons_of_mem _ hm)
      have hg : s.get x.1 = some (l'.map fun r => r x.1) :=
        get_table hs (hn _ (h1.1 ▸ List.mem_cons_self))
      have hx := h2 x List.mem_cons_self
      have g1 : gather x.2 (List.range l.length) = some (l.map fun r => r x.1) := by
        have := gather_range (l.map fun r => r x.1)
        rw [List.length_map] at this
        rw [hx, this]
      have g2 : gather (l'.map fun r => r x.1) (List.range l'.length) =
          some (l'.map fun r => r x.1) := by
        have := gather_range (l'.map fun r => r x.1)
        rw [List.length_map] at this
        rw [this]
      obtain ⟨a1, a2⟩ := scatter_rows (fun a b => if x.1 ∈ summed then a + b else b) x.1 hl hl' hsub
      have ha : assign (fun a b => if x.1 ∈ summed then a + b else b) (l.map fun r => r x.1)
          (l.map fun r => decide (r "ids" ∈ l'.map fun s => s "ids")) (l'.map fun r => r x.1) =
          some ((renew l l').map fun r => r x.1) := by
        unfold assign
        rw [if_pos (by rw [a2, List.length_map]), a1]
        unfold renew
        rw [List.map_map]
        congr 1
        apply List.map_congr_left
        intro q _
        simp only [Function.comp_apply]
        cases l'.find? fun s => decide (s "ids" = q "ids") with
        | none => rfl
        | some p => simp [resumed, summed]
      refine ⟨(x.1, (renew l l').map fun r => r x.1) :: r, ?_, ?_, ?_⟩
      · rw [contFields, g1]
        simp only [hg, g2, ha, hr]
      · simp [h1.1, hr1]
      · intro y hy
        rcases List.mem_cons.1 hy with rfl | hy
        · rfl
        · exact hr2 y hy

theorem continued_eq {l l' : List (Row K)}
    (hl : l.Pairwise (fun a b => a "ids" < b "ids")) (hl' : l'.Pairwise (fun a b => a "ids" < b "ids"))
    (hsub : ∀ s ∈ l', ∃ r ∈ l, r "ids" = s "ids") {ns : List String} {t s : Fields K}
    (ht : Table ns l t) (hs : Table ns l' s) (hi : "ids" ∈ ns) :
    ∃ r, continued t s = .ok r ∧ Table ns (renew l l') r := by
  obtain ⟨r, h1, h2⟩ := contFields_eq hl hl' hsub hs ht fun _ h => h
  refine ⟨r, ?_, h2⟩
  have a1 : argsort (l.map fun r => r "ids") = List.range l.length := by
    have := argsort_sorted (ids := l.map fun r => r "ids")
      (by rw [List.pairwise_map]; exact hl.imp le_of_lt)
    rw [this, List.length_map]
  have a2 : argsort (l'.map fun r => r "ids") = List.range l'.length := by
    have := argsort_sorted (ids := l'.map fun r => r "ids")
      (by rw [List.pairwise_map]; exact hl'.imp le_of_lt)
    rw [this, List.length_map]
  have g1 := gather_range (l.map fun r => r "ids")
  have g2 := gather_range (l'.map fun r => r "ids")
  rw [List.length_map] at g1 g2
  unfold continued
  simp only [get_table ht hi, get_table hs hi, a1, a2, increasing_range, Bool.and_self, if_true, g1, g2,
    List.map_map]
  exact h1

theorem continued_unsorted {t s : Fields K} {it is : List K} (ht : t.get "ids" = some it)
    (hs : s.get "ids" = some is) (h : ¬ it.Pairwise (· ≤ ·) ∨ ¬ is.Pairwise (· ≤ ·)) :
    continued t s = .err .type t := by
  have : (increasing (argsort it) && increasing (argsort is)) = false := by
    rw [Bool.eq_false_iff, Ne, Bool.and_eq_true]
    rintro ⟨h1, h2⟩
    rcases h with h | h
    · exact h (sorted_of_argsort h1)
    · exact h (sorted_of_argsort h2)
  unfold continued
  simp only [ht, hs, this, Bool.false_eq_true, if_false]

end Ascot.Combine
