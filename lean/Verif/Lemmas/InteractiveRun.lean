import Verif.Model.InteractiveRun
import Mathlib.Tactic.Tauto
import Mathlib.Tactic.SplitIfs
import Mathlib.Tactic.Push
import Mathlib.Tactic.Set

/-!
# Lemmas on the memory of interactive runs
-/

set_option linter.unusedSectionVars false
set_option linter.unusedSimpArgs false

namespace Ascot.InteractiveRun
open Ascot.Session (Op Ans Sess)

variable {α : Type}

/-- No block from `next` on. -/
def Fresh (s : St α) : Prop := ∀ k, s.next ≤ k → s.heap k = none

theorem alloc_fresh {s : St α} (h : Fresh s) (t : Tag) (l : List α) : Fresh (alloc s t l) := by
  intro k hk
  simp only [alloc] at hk ⊢
  rw [if_neg (by omega)]
  exact h k (by omega)

theorem alloc_heap {s : St α} (h : Fresh s) (t : Tag) (l : List α) (k : ℕ) (t' : Tag) (l' : List α) :
    (alloc s t l).heap k = some (t', l') ↔ s.heap k = some (t', l') ∨ (k = s.next ∧ t' = t ∧ l' = l) := by
  simp only [alloc]
  by_cases e : k = s.next
  · subst e
    have := h s.next (Nat.le_refl _)
    simp [this]
    constructor
    · rintro ⟨rfl, rfl⟩
      exact ⟨rfl, rfl⟩
    · rintro ⟨rfl, rfl⟩
      exact ⟨rfl, rfl⟩
  · simp [e]

/-- Releasing the only block of its kind. -/
theorem release_tag {s : St α} (p : Option ℕ) (t0 : Tag) (hA : ∀ b, p = some b → ∃ l, s.heap b = some (t0, l))
    (hB : ∀ k l, s.heap k = some (t0, l) → p = some k) :
    ∃ h', release s p = some { s with heap := h' } ∧ ∀ k t l, h' k = some (t, l) ↔ s.heap k = some (t, l) ∧ t ≠ t0 := by
  cases p with
  | none =>
    refine ⟨s.heap, rfl, ?_⟩
    intro k t l
    constructor
    · intro h
      refine ⟨h, ?_⟩
      rintro rfl
      exact absurd (hB k l h) (by simp)
    · exact fun h => h.1
  | some b =>
    obtain ⟨l0, h0⟩ := hA b rfl
    refine ⟨fun k => if k = b then none else s.heap k, ?_, ?_⟩
    · simp [release, h0]
    · intro k t l
      by_cases e : k = b
      · subst e
        simp [h0]
        intro h1 h2
        exact h1.symm
      · simp [e]
        intro h
        rintro rfl
        exact e (by simpa using (hB k l h).symm)

theorem heap_fresh {s : St α} (h : Fresh s) {h' : ℕ → Option (Tag × List α)} {t0 : Tag}
    (hh : ∀ k t l, h' k = some (t, l) ↔ s.heap k = some (t, l) ∧ t ≠ t0) (k : ℕ) (hk : s.next ≤ k) : h' k = none := by
  cases e : h' k with
  | none => rfl
  | some x =>
    obtain ⟨t, l⟩ := x
    have := ((hh k t l).1 e).1
    rw [h k hk] at this
    cases this

theorem initDist_heap {s : St α} (h : Fresh s) (k : ℕ) (t : Tag) (l : List α) :
    (initDist s).heap k = some (t, l) ↔ s.heap k = some (t, l) ∨
      (t = .dist ∧ (initDist s).dist = some k ∧ s.cDist = true ∧ l = []) := by
  unfold initDist
  cases hd : s.cDist
  · simp
  · simp only [if_true]
    rw [alloc_heap h]
    simp only [Option.some.injEq, true_and]
    constructor
    · rintro (h | ⟨h1, h2, h3⟩)
      exacts [Or.inl h, Or.inr ⟨h2, h1.symm, h3⟩]
    · rintro (h | ⟨h1, h2, h3⟩)
      exacts [Or.inl h, Or.inr ⟨h2.symm, h1, h3⟩]

theorem initOrb_heap {s : St α} (h : Fresh s) (k : ℕ) (t : Tag) (l : List α) :
    (initOrb s).heap k = some (t, l) ↔ s.heap k = some (t, l) ∨
      (t = .orb ∧ (initOrb s).orb = some k ∧ s.cOrb = true ∧ l = []) := by
  unfold initOrb
  cases hd : s.cOrb
  · simp
  · simp only [if_true]
    rw [alloc_heap h]
    simp only [Option.some.injEq, true_and]
    constructor
    · rintro (h | ⟨h1, h2, h3⟩)
      exacts [Or.inl h, Or.inr ⟨h2, h1.symm, h3⟩]
    · rintro (h | ⟨h1, h2, h3⟩)
      exacts [Or.inl h, Or.inr ⟨h2.symm, h1, h3⟩]

theorem initDist_fresh {s : St α} (h : Fresh s) : Fresh (initDist s) := by
  unfold initDist
  split_ifs
  · exact alloc_fresh h _ _
  · exact h

theorem initOrb_fresh {s : St α} (h : Fresh s) : Fresh (initOrb s) := by
  unfold initOrb
  split_ifs
  · exact alloc_fresh h _ _
  · exact h

theorem initDist_fields (s : St α) : (initDist s).nmrk = s.nmrk ∧ (initDist s).ini = s.ini ∧ (initDist s).cDist = s.cDist ∧
    (initDist s).cOrb = s.cOrb ∧ (initDist s).inputs = s.inputs := by
  unfold initDist
  split_ifs <;> exact ⟨rfl, rfl, rfl, rfl, rfl⟩

theorem initOrb_fields (s : St α) : (initOrb s).nmrk = s.nmrk ∧ (initOrb s).ini = s.ini ∧ (initOrb s).cDist = s.cDist ∧
    (initOrb s).cOrb = s.cOrb ∧ (initOrb s).inputs = s.inputs ∧ (initOrb s).dist = s.dist := by
  unfold initOrb
  split_ifs <;> exact ⟨rfl, rfl, rfl, rfl, rfl, rfl⟩

theorem diagInit_heap {s : St α} (h : Fresh s) (k : ℕ) (t : Tag) (l : List α) :
    (diagInit s).heap k = some (t, l) ↔ s.heap k = some (t, l) ∨
      (t = .dist ∧ (diagInit s).dist = some k ∧ s.cDist = true ∧ l = []) ∨
      (t = .orb ∧ (diagInit s).orb = some k ∧ s.cOrb = true ∧ l = []) := by
  unfold diagInit
  rw [initOrb_heap (initDist_fresh h), initDist_heap h, (initOrb_fields _).2.2.2.2.2, (initDist_fields s).2.2.2.1, or_assoc]

theorem diagInit_fresh {s : St α} (h : Fresh s) : Fresh (diagInit s) := initOrb_fresh (initDist_fresh h)

theorem diagInit_fields (s : St α) : (diagInit s).nmrk = s.nmrk ∧ (diagInit s).ini = s.ini ∧ (diagInit s).cDist = s.cDist ∧
    (diagInit s).cOrb = s.cOrb ∧ (diagInit s).inputs = s.inputs := by
  obtain ⟨a, b, c, d, e, -⟩ := initOrb_fields (initDist s)
  obtain ⟨a', b', c', d', e'⟩ := initDist_fields s
  exact ⟨a.trans a', b.trans b', c.trans c', d.trans d', e.trans e'⟩

/-- The blocks that should be in memory. -/
def Live (s : St α) (S : Sess α) (k : ℕ) (t : Tag) (l : List α) : Prop :=
  (t = .ini ∧ s.ini = some k ∧ S.markers ≠ [] ∧ l = S.markers) ∨
  (t = .fin ∧ s.fin = some k ∧ S.results = some l) ∨
  (t = .dist ∧ s.dist = some k ∧ s.cDist = true ∧ S.results ≠ none ∧ l = []) ∨
  (t = .orb ∧ s.orb = some k ∧ s.cOrb = true ∧ S.results ≠ none ∧ l = [])

/-- The state of the program fits to what the user sees, and no other memory is allocated. -/
structure Inv (s : St α) (S : Sess α) : Prop where
  inputs : S.ready = true ↔ s.inputs = .loaded
  nmrk : s.nmrk = S.markers.length
  occ : s.occ = true ↔ S.results ≠ none
  res : ∀ e, S.results = some e → s.res = some (e.length, s.fin) ∧ (S.markers ≠ [] → e.length = S.markers.length) ∧ s.fin ≠ none
  ini : S.markers ≠ [] → s.ini ≠ none
  heap : ∀ k t l, s.heap k = some (t, l) ↔ Live s S k t l
  fresh : Fresh s

theorem inv_begin : Inv (begin : St α) Session.begin := by
  constructor <;> simp [begin, Session.begin, Live, Fresh]

theorem freeInputs_inv {s : St α} {S : Sess α} (h : Inv s S) (i : Bool) :
    Inv (freeInputs s i) { S with ready := S.ready && !i } := by
  unfold freeInputs
  split_ifs with hc
  · refine ⟨?_, h.nmrk, h.occ, h.res, h.ini, h.heap, h.fresh⟩
    simp [hc.1]
  · refine ⟨?_, h.nmrk, h.occ, h.res, h.ini, h.heap, h.fresh⟩
    have := h.inputs
    cases i <;> simp_all

theorem pos_iff {s : St α} {S : Sess α} (h : Inv s S) : 0 < s.nmrk ↔ S.markers ≠ [] := by
  rw [h.nmrk, List.length_pos_iff]

/-- Releasing the initial states. -/
theorem release_ini {s : St α} {S : Sess α} (h : Inv s S) (hm : S.markers ≠ []) :
    ∃ h', release s s.ini = some { s with heap := h' } ∧ ∀ k t l, h' k = some (t, l) ↔ s.heap k = some (t, l) ∧ t ≠ .ini := by
  refine release_tag _ _ ?_ ?_
  · intro b hb
    exact ⟨S.markers, (h.heap _ _ _).2 (Or.inl ⟨rfl, hb, hm, rfl⟩)⟩
  · intro k l hk
    have := (h.heap _ _ _).1 hk
    simp only [Live] at this
    simp at this
    exact this.1

theorem freeMarkers_inv {s : St α} {S : Sess α} (h : Inv s S) (m : Bool) :
    ∃ s', freeMarkers s m = some s' ∧ Inv s' { S with markers := if m then [] else S.markers } := by
  unfold freeMarkers
  by_cases hc : m = true ∧ 0 < s.nmrk
  · rw [if_pos hc]
    have hm := (pos_iff h).1 hc.2
    obtain ⟨h', hr, hh⟩ := release_ini h hm
    have hr' : release { s with nmrk := 0 } s.ini = some { s with nmrk := 0, heap := h' } := by
      cases e : s.ini with
      | none => exact absurd e (h.ini hm)
      | some b =>
        rw [e] at hr
        simp only [release] at hr ⊢
        split_ifs at hr ⊢ with hq
        simp only [Option.some.injEq] at hr ⊢
        have := congrArg St.heap hr
        simp only at this
        rw [this]
    refine ⟨_, hr', ⟨h.inputs, ?_, h.occ, ?_, ?_, ?_, ?_⟩⟩
    · simp [hc.1]
    · intro e he
      exact ⟨(h.res e he).1, by simp [hc.1], (h.res e he).2.2⟩
    · simp [hc.1]
    · intro k t l
      show h' k = _ ↔ _
      rw [hh, h.heap]
      simp only [Live, hc.1, if_true]
      constructor
      · rintro ⟨h1 | h1 | h1 | h1, h2⟩
        · exact absurd h1.1 h2
        · exact Or.inr (Or.inl h1)
        · exact Or.inr (Or.inr (Or.inl h1))
        · exact Or.inr (Or.inr (Or.inr h1))
      · rintro (h1 | h1 | h1 | h1)
        · exact absurd rfl h1.2.2.1
        · exact ⟨Or.inr (Or.inl h1), by rw [h1.1]; simp⟩
        · exact ⟨Or.inr (Or.inr (Or.inl h1)), by rw [h1.1]; simp⟩
        · exact ⟨Or.inr (Or.inr (Or.inr h1)), by rw [h1.1]; simp⟩
    · exact heap_fresh h.fresh hh
  · rw [if_neg hc]
    refine ⟨s, rfl, ?_⟩
    by_cases hm : m = true
    · have h0 : S.markers = [] := by
        by_contra hne
        exact hc ⟨hm, (pos_iff h).2 hne⟩
      rw [if_pos hm, ← h0]
      exact h
    · rw [if_neg hm]
      exact h

theorem diagFree_heap {s : St α} {S : Sess α} (h : Inv s S) (hr : S.results ≠ none) :
    ∃ h', diagFree { s with occ := false } = some { s with occ := false, heap := h' } ∧
      ∀ k t l, h' k = some (t, l) ↔ s.heap k = some (t, l) ∧ t ≠ .dist ∧ t ≠ .orb := by
  have nd : s.cDist = false → ∀ k l, s.heap k ≠ some (.dist, l) := by
    intro hd k l hk
    have := (h.heap _ _ _).1 hk
    simp [Live, hd] at this
  have no : s.cOrb = false → ∀ k l, s.heap k ≠ some (.orb, l) := by
    intro hd k l hk
    have := (h.heap _ _ _).1 hk
    simp [Live, hd] at this
  have first : ∃ h1, (if s.cDist then release { s with occ := false } s.dist else some { s with occ := false })
      = some { s with occ := false, heap := h1 } ∧ ∀ k t l, h1 k = some (t, l) ↔ s.heap k = some (t, l) ∧ t ≠ .dist := by
    by_cases hd : s.cDist = true
    swap
    · rw [if_neg hd]
      replace hd : s.cDist = false := by simpa using hd
      refine ⟨s.heap, rfl, ?_⟩
      intro k t l
      refine ⟨fun hk => ⟨hk, ?_⟩, fun hk => hk.1⟩
      rintro rfl
      exact nd hd k l hk
    · rw [if_pos hd]
      refine release_tag (s := { s with occ := false }) s.dist .dist ?_ ?_
      · intro b hb
        exact ⟨[], (h.heap _ _ _).2 (Or.inr (Or.inr (Or.inl ⟨rfl, hb, hd, hr, rfl⟩)))⟩
      · intro k l hk
        have := (h.heap _ _ _).1 hk
        simp [Live] at this
        exact this.1
  obtain ⟨h1, e1, hh1⟩ := first
  have second : ∃ h2, (if s.cOrb then release { s with occ := false, heap := h1 } s.orb else some { s with occ := false, heap := h1 })
      = some { s with occ := false, heap := h2 } ∧ ∀ k t l, h2 k = some (t, l) ↔ h1 k = some (t, l) ∧ t ≠ .orb := by
    by_cases hd : s.cOrb = true
    swap
    · rw [if_neg hd]
      replace hd : s.cOrb = false := by simpa using hd
      refine ⟨h1, rfl, ?_⟩
      intro k t l
      refine ⟨fun hk => ⟨hk, ?_⟩, fun hk => hk.1⟩
      rintro rfl
      exact no hd k l ((hh1 _ _ _).1 hk).1
    · rw [if_pos hd]
      refine release_tag (s := { s with occ := false, heap := h1 }) s.orb .orb ?_ ?_
      · intro b hb
        exact ⟨[], (hh1 _ _ _).2 ⟨(h.heap _ _ _).2 (Or.inr (Or.inr (Or.inr ⟨rfl, hb, hd, hr, rfl⟩))), by simp⟩⟩
      · intro k l hk
        have := (h.heap _ _ _).1 ((hh1 _ _ _).1 hk).1
        simp [Live] at this
        exact this.1
  obtain ⟨h2, e2, hh2⟩ := second
  refine ⟨h2, ?_, ?_⟩
  · simp only [diagFree]
    rw [e1]
    exact e2
  · intro k t l
    rw [hh2, hh1]
    tauto

theorem freeResults_inv {s : St α} {S : Sess α} (h : Inv s S) (r : Bool) :
    ∃ s', freeResults s r = some s' ∧ Inv s' { S with results := if r then none else S.results } := by
  unfold freeResults
  by_cases hc : r = true ∧ s.occ = true
  · rw [if_pos hc]
    have hr := h.occ.1 hc.2
    obtain ⟨h1, e1, hh1⟩ := diagFree_heap h hr
    obtain ⟨e, he⟩ := Option.ne_none_iff_exists'.1 hr
    obtain ⟨h2, e2, hh2⟩ := release_tag (s := { s with occ := false, heap := h1 }) s.fin .fin
      (fun b hb => ⟨e, (hh1 _ _ _).2 ⟨(h.heap _ _ _).2 (Or.inr (Or.inl ⟨rfl, hb, he⟩)), by simp, by simp⟩⟩)
      (fun k l hk => by
        have := (h.heap _ _ _).1 ((hh1 _ _ _).1 hk).1
        simp [Live] at this
        exact this.1)
    rw [e1]
    refine ⟨_, e2, ⟨h.inputs, h.nmrk, ?_, ?_, h.ini, ?_, ?_⟩⟩
    · simp [hc.1]
    · simp [hc.1]
    · intro k t l
      show h2 k = _ ↔ _
      rw [hh2]
      show (h1 k = _ ∧ _) ↔ _
      rw [hh1, h.heap]
      simp only [Live, hc.1, if_true]
      constructor
      · rintro ⟨⟨h1 | h1 | h1 | h1, h2, h3⟩, h4⟩
        · exact Or.inl h1
        · exact absurd h1.1 h4
        · exact absurd h1.1 h2
        · exact absurd h1.1 h3
      · rintro (h1 | h1 | h1 | h1)
        · exact ⟨⟨Or.inl h1, by rw [h1.1]; simp, by rw [h1.1]; simp⟩, by rw [h1.1]; simp⟩
        · exact absurd h1.2.2 (by simp)
        · exact absurd rfl h1.2.2.2.1
        · exact absurd rfl h1.2.2.2.1
    · intro k hk
      cases e3 : h2 k with
      | none => exact e3
      | some x =>
        obtain ⟨t, l⟩ := x
        have := ((hh1 _ _ _).1 ((hh2 _ _ _).1 e3).1).1
        rw [h.fresh k hk] at this
        cases this
  · rw [if_neg hc]
    refine ⟨s, rfl, ?_⟩
    by_cases hm : r = true
    · have h0 : S.results = none := by
        by_contra hne
        exact hc ⟨hm, h.occ.2 hne⟩
      rw [if_pos hm, ← h0]
      exact h
    · rw [if_neg hm]
      exact h

theorem free_inv {sim : α → α} {s : St α} {S S' : Sess α} {a : Ans α} (h : Inv s S) (i m r : Bool)
    (hs : Session.step sim S (.free i m r) = some (S', a)) :
    a = .done ∧ ∃ s', free s i m r = some s' ∧ Inv s' S' := by
  unfold free
  dsimp only
  obtain ⟨s1, e1, h1⟩ := freeMarkers_inv (freeInputs_inv h (i || (!i && !m && !r))) (m || (!i && !m && !r))
  obtain ⟨s2, e2, h2⟩ := freeResults_inv h1 (r || (!i && !m && !r))
  rw [e1]
  cases i <;> cases m <;> cases r <;> simp [Session.step, Session.begin] at hs h2 e2 ⊢ <;> obtain ⟨rfl, rfl⟩ := hs <;>
    exact ⟨rfl, s2, e2, h2⟩

theorem dropMarkers_inv {s : St α} {S : Sess α} (h : Inv s S) :
    ∃ s', dropMarkers s = some s' ∧ Inv s' { S with markers := [] } ∧ s'.inputs = s.inputs := by
  obtain ⟨s', e, h'⟩ := freeMarkers_inv h true
  unfold freeMarkers at e
  unfold dropMarkers
  by_cases hc : 0 < s.nmrk
  · rw [if_pos ⟨rfl, hc⟩] at e
    rw [if_pos hc]
    refine ⟨s', ?_, by simpa using h', ?_⟩
    · cases hp : s.ini with
      | none => exact absurd hp (h.ini ((pos_iff h).1 hc))
      | some b =>
        rw [hp] at e
        simp only [release] at e ⊢
        split_ifs at e ⊢ with hq
        simpa [hp] using e
    · cases hp : s.ini with
      | none => exact absurd hp (h.ini ((pos_iff h).1 hc))
      | some b =>
        rw [hp] at e
        simp only [release] at e
        split_ifs at e with hq
        simp only [Option.some.injEq] at e
        rw [← e]
  · rw [if_neg (fun x => hc x.2)] at e
    rw [if_neg hc]
    simp only [Option.some.injEq] at e
    subst e
    exact ⟨s, rfl, by simpa using h', rfl⟩

theorem initMarkers_inv {s : St α} {S : Sess α} (h : Inv s S) (l : List α) (hl : l ≠ []) (hr : S.ready = true)
    (hn : S.results = none) : ∃ s', initMarkers s l = some s' ∧ Inv s' { S with markers := l } := by
  obtain ⟨s1, e1, h1, hi⟩ := dropMarkers_inv h
  have hload : s1.inputs = .loaded := h1.inputs.1 hr
  have hempty : ∀ k t l, s1.heap k ≠ some (t, l) := by
    intro k t l hk
    have := (h1.heap _ _ _).1 hk
    simp [Live, hn] at this
  unfold initMarkers
  rw [e1]
  simp only [Option.bind_some]
  unfold prepare
  rw [if_neg (by simp [alloc, hload])]
  have f1 := alloc_fresh h1.fresh .input []
  have f2 := alloc_fresh f1 .prep l
  obtain ⟨g1, r1, q1⟩ := release_tag (s := alloc (alloc s1 .input []) .prep l) (some s1.next) .input
    (by
      intro b hb
      simp only [Option.some.injEq] at hb
      refine ⟨[], ?_⟩
      rw [alloc_heap f1, alloc_heap h1.fresh]
      exact Or.inl (Or.inr ⟨hb.symm, rfl, rfl⟩))
    (by
      intro k l' hk
      rw [alloc_heap f1, alloc_heap h1.fresh] at hk
      rcases hk with (hk | hk) | hk
      · exact absurd hk (hempty _ _ _)
      · rw [hk.1]
      · exact absurd hk.2.1 (by simp))
  dsimp only
  rw [r1]
  simp only [Option.bind_some]
  set s2 : St α := { alloc (alloc s1 .input []) .prep l with heap := g1 } with hs2
  have f3 : Fresh s2 := heap_fresh f2 q1
  obtain ⟨g2, r2, q2⟩ := release_tag (s := alloc s2 .ini l) (some (alloc s1 .input []).next) .prep
    (by
      intro b hb
      simp only [Option.some.injEq] at hb
      refine ⟨l, ?_⟩
      rw [alloc_heap f3]
      refine Or.inl ((q1 _ _ _).2 ⟨?_, by simp⟩)
      rw [alloc_heap f1]
      exact Or.inr ⟨hb.symm, rfl, rfl⟩)
    (by
      intro k l' hk
      rw [alloc_heap f3] at hk
      rcases hk with hk | hk
      · have hk := ((q1 _ _ _).1 hk).1
        rw [alloc_heap f1, alloc_heap h1.fresh] at hk
        rcases hk with (hk | hk) | hk
        · exact absurd hk (hempty _ _ _)
        · exact absurd hk.2.1 (by simp)
        · rw [hk.1]
      · exact absurd hk.2.1 (by simp))
  rw [r2]
  refine ⟨_, rfl, ⟨h1.inputs, rfl, h1.occ, ?_, ?_, ?_, ?_⟩⟩
  · intro e he
    rw [hn] at he
    cases he
  · simp
  · intro k t l'
    show g2 k = _ ↔ _
    rw [q2, alloc_heap f3]
    simp only [Live, hn]
    constructor
    · rintro ⟨hk | hk, ht⟩
      · have hk2 := (q1 _ _ _).1 hk
        have hk := hk2.1
        rw [alloc_heap f1, alloc_heap h1.fresh] at hk
        rcases hk with (hk | hk) | hk
        · exact absurd hk (hempty _ _ _)
        · exact absurd hk.2.1 hk2.2
        · exact absurd hk.2.1 ht
      · exact Or.inl ⟨hk.2.1, by rw [hk.1], hl, hk.2.2⟩
    · rintro (hk | hk | hk | hk)
      · refine ⟨Or.inr ⟨?_, hk.1, hk.2.2.2⟩, by rw [hk.1]; simp⟩
        have := hk.2.1
        simpa using this.symm
      · exact absurd hk.2.2 (by simp)
      · exact absurd rfl hk.2.2.2.1
      · exact absurd rfl hk.2.2.2.1
  · exact heap_fresh (alloc_fresh f3 _ _) q2

theorem read_whole {s : St α} {b : ℕ} {t : Tag} {l : List α} (h : s.heap b = some (t, l)) : read s b l.length = some l := by
  simp [read, h]

theorem run_inv (sim : α → α) {s : St α} {S S' : Sess α} {a : Ans α} (h : Inv s S)
    (hs : Session.step sim S .run = some (S', a)) : ∃ s', run sim s = some (s', a) ∧ Inv s' S' := by
  unfold run
  simp only [Session.step] at hs
  by_cases hc : S.ready = true ∧ S.markers ≠ [] ∧ S.results = none
  swap
  · rw [if_neg hc] at hs
    simp only [Option.some.injEq, Prod.mk.injEq] at hs
    obtain ⟨rfl, rfl⟩ := hs
    refine ⟨s, ?_, h⟩
    rw [if_pos]
    by_contra hx
    push Not at hx
    refine hc ⟨h.inputs.2 hx.1, ?_, ?_⟩
    · exact (pos_iff h).1 (by omega)
    · by_contra hy
      exact hx.2.2 (h.occ.2 hy)
  · rw [if_pos hc] at hs
    simp only [Option.some.injEq, Prod.mk.injEq] at hs
    obtain ⟨rfl, rfl⟩ := hs
    obtain ⟨hr, hm, hn⟩ := hc
    have hocc : s.occ ≠ true := fun e => h.occ.1 e hn
    have hpos := (pos_iff h).2 hm
    rw [if_neg (by
      push Not
      exact ⟨h.inputs.1 hr, by omega, hocc⟩)]
    obtain ⟨b, hb⟩ := Option.ne_none_iff_exists'.1 (h.ini hm)
    have hbl : s.heap b = some (.ini, S.markers) := (h.heap _ _ _).2 (Or.inl ⟨rfl, hb, hm, rfl⟩)
    simp only [hb]
    rw [h.nmrk, read_whole hbl]
    simp only [Option.bind_some]
    unfold simulate
    dsimp only
    have f1 := alloc_fresh h.fresh .copy S.markers
    have f2 : Fresh { diagInit (alloc s .copy S.markers) with occ := true } := diagInit_fresh f1
    have q0 : ∀ k t l, ({ diagInit (alloc s .copy S.markers) with occ := true } : St α).heap k = some (t, l) ↔ _ :=
      fun k t l => diagInit_heap f1 k t l
    have hfld := diagInit_fields (alloc s .copy S.markers)
    have hold : ∀ k t l, s.heap k = some (t, l) ↔ (t = .ini ∧ s.ini = some k ∧ l = S.markers) := by
      intro k t l
      rw [h.heap]
      simp only [Live, hn]
      simp [hm]
    obtain ⟨g, r, q⟩ := release_tag (s := alloc { diagInit (alloc s .copy S.markers) with occ := true } .fin (S.markers.map sim))
      (some s.next) .copy
      (by
        intro b hb
        simp only [Option.some.injEq] at hb
        refine ⟨S.markers, ?_⟩
        rw [alloc_heap f2, q0, alloc_heap h.fresh]
        exact Or.inl (Or.inl (Or.inr ⟨hb.symm, rfl, rfl⟩)))
      (by
        intro k l' hk
        rw [alloc_heap f2, q0, alloc_heap h.fresh, hold] at hk
        rcases hk with ((hk | hk) | hk | hk) | hk
        · exact absurd hk.1 (by simp)
        · rw [hk.1]
        · exact absurd hk.1 (by simp)
        · exact absurd hk.1 (by simp)
        · exact absurd hk.2.1 (by simp))
    rw [r]
    refine ⟨_, rfl, ⟨?_, ?_, ?_, ?_, ?_, ?_, ?_⟩⟩
    · show S.ready = true ↔ (diagInit _).inputs = _
      rw [hfld.2.2.2.2]
      exact h.inputs
    · show (diagInit _).nmrk = _
      rw [hfld.1]
      exact h.nmrk
    · show true = true ↔ _
      simp
    · intro e he
      simp only [Option.some.injEq] at he
      subst he
      refine ⟨?_, by simp, by simp⟩
      show some ((diagInit _).nmrk, _) = _
      rw [hfld.1]
      simp only [List.length_map]
      rw [← h.nmrk]
      rfl
    · intro _
      show (diagInit _).ini ≠ none
      rw [hfld.2.1]
      exact h.ini hm
    · intro k t l
      show g k = _ ↔ _
      rw [q, alloc_heap f2, q0, alloc_heap h.fresh, hold]
      unfold Live
      show _ ↔ (_ ∧ (diagInit (alloc s .copy S.markers)).ini = _ ∧ _) ∨ _ ∨
        (_ ∧ (diagInit (alloc s .copy S.markers)).dist = _ ∧ (diagInit (alloc s .copy S.markers)).cDist = _ ∧ _) ∨
        (_ ∧ (diagInit (alloc s .copy S.markers)).orb = _ ∧ (diagInit (alloc s .copy S.markers)).cOrb = _ ∧ _)
      rw [hfld.2.1, hfld.2.2.1, hfld.2.2.2.1]
      have hi : (alloc s .copy S.markers).ini = s.ini := rfl
      rw [hi]
      constructor
      · rintro ⟨((hk | hk) | hk | hk) | hk, ht⟩
        · exact Or.inl ⟨hk.1, hk.2.1, hm, hk.2.2⟩
        · exact absurd hk.2.1 ht
        · exact Or.inr (Or.inr (Or.inl ⟨hk.1, hk.2.1, hk.2.2.1, by simp, hk.2.2.2⟩))
        · exact Or.inr (Or.inr (Or.inr ⟨hk.1, hk.2.1, hk.2.2.1, by simp, hk.2.2.2⟩))
        · exact Or.inr (Or.inl ⟨hk.2.1, by rw [hk.1], by rw [hk.2.2]⟩)
      · rintro (hk | hk | hk | hk)
        · exact ⟨Or.inl (Or.inl (Or.inl ⟨hk.1, hk.2.1, hk.2.2.2⟩)), by rw [hk.1]; simp⟩
        · refine ⟨Or.inr ⟨?_, hk.1, ?_⟩, by rw [hk.1]; simp⟩
          · have := hk.2.1
            simpa using this.symm
          · have := hk.2.2
            simpa using this.symm
        · exact ⟨Or.inl (Or.inr (Or.inl ⟨hk.1, hk.2.1, hk.2.2.1, hk.2.2.2.2⟩)), by rw [hk.1]; simp⟩
        · exact ⟨Or.inl (Or.inr (Or.inr ⟨hk.1, hk.2.1, hk.2.2.1, hk.2.2.2.2⟩)), by rw [hk.1]; simp⟩
    · exact heap_fresh (alloc_fresh f2 _ _) q

theorem options_inv {s : St α} {S : Sess α} (h : Inv s S) (hn : S.results = none) (d o : Bool) :
    Inv { s with cDist := d, cOrb := o } S := by
  refine ⟨h.inputs, h.nmrk, h.occ, h.res, h.ini, ?_, h.fresh⟩
  intro k t l
  show s.heap k = _ ↔ _
  rw [h.heap]
  simp [Live, hn]

/-- One call. -/
theorem step_inv (sim : α → α) {s : St α} {S S' : Sess α} {a : Ans α} (o : Op α) (h : Inv s S)
    (hs : Session.step sim S o = some (S', a)) : ∃ s', step sim s o = some (s', a) ∧ Inv s' S' := by
  cases o with
  | load =>
    simp only [Session.step, Option.some.injEq, Prod.mk.injEq] at hs
    obtain ⟨rfl, rfl⟩ := hs
    exact ⟨_, rfl, ⟨by simp, h.nmrk, h.occ, h.res, h.ini, h.heap, h.fresh⟩⟩
  | options d o =>
    simp only [Session.step] at hs
    split_ifs at hs with hn
    simp only [Option.some.injEq, Prod.mk.injEq] at hs
    obtain ⟨rfl, rfl⟩ := hs
    exact ⟨_, rfl, options_inv h hn d o⟩
  | markers l =>
    simp only [Session.step] at hs
    split_ifs at hs with hn
    simp only [Option.some.injEq, Prod.mk.injEq] at hs
    obtain ⟨rfl, rfl⟩ := hs
    obtain ⟨s', e, h'⟩ := initMarkers_inv h l hn.2.1 hn.1 hn.2.2
    exact ⟨s', by simp [step, e], h'⟩
  | badMarkers => simp [Session.step] at hs
  | run => exact run_inv sim h hs
  | beam l => simp [Session.step] at hs
  | free i m r =>
    obtain ⟨rfl, s', e, h'⟩ := free_inv h i m r hs
    exact ⟨s', by simp [step, e], h'⟩
  | freeAll =>
    simp only [Session.step, Option.some.injEq, Prod.mk.injEq] at hs
    obtain ⟨rfl, rfl⟩ := hs
    obtain ⟨-, s', e, h'⟩ := free_inv (sim := sim) (S' := Session.begin) (a := .done) h false false false (by simp [Session.step])
    exact ⟨s', by simp [step, e], h'⟩
  | initial =>
    simp only [Session.step] at hs
    split_ifs at hs with hn
    simp only [Option.some.injEq, Prod.mk.injEq] at hs
    obtain ⟨rfl, rfl⟩ := hs
    obtain ⟨e, he⟩ := Option.ne_none_iff_exists'.1 hn.1
    obtain ⟨b, hb⟩ := Option.ne_none_iff_exists'.1 (h.ini hn.2)
    have hr := h.res e he
    refine ⟨s, ?_, h⟩
    simp only [step, hr.1, hb, look, hr.2.1 hn.2]
    rw [read_whole ((h.heap _ _ _).2 (Or.inl ⟨rfl, hb, hn.2, rfl⟩))]
    rfl
  | final =>
    simp only [Session.step, Option.map_eq_some_iff, Prod.mk.injEq] at hs
    obtain ⟨e, he, rfl, rfl⟩ := hs
    have hr := h.res e he
    obtain ⟨b, hb⟩ := Option.ne_none_iff_exists'.1 hr.2.2
    refine ⟨s, ?_, h⟩
    simp only [step, hr.1, hb, look]
    rw [read_whole ((h.heap _ _ _).2 (Or.inr (Or.inl ⟨rfl, hb, he⟩)))]
    rfl

theorem exec_inv (sim : α → α) (ops : List (Op α)) {s : St α} {S S' : Sess α} {as : List (Ans α)} (h : Inv s S)
    (hs : Session.exec sim ops S = some (S', as)) : ∃ s', exec sim ops s = some (s', as) ∧ Inv s' S' := by
  induction ops generalizing s S as with
  | nil =>
    simp only [Session.exec, Option.some.injEq, Prod.mk.injEq] at hs
    obtain ⟨rfl, rfl⟩ := hs
    exact ⟨s, rfl, h⟩
  | cons o r ih =>
    simp only [Session.exec, Option.bind_eq_some_iff, Option.map_eq_some_iff, Prod.mk.injEq, Prod.exists] at hs
    obtain ⟨S1, a, h1, S2, as', h2, rfl, rfl⟩ := hs
    obtain ⟨s1, e1, i1⟩ := step_inv sim o h h1
    obtain ⟨s2, e2, i2⟩ := ih i1 h2
    exact ⟨s2, by simp [exec, e1, e2], i2⟩

end Ascot.InteractiveRun
