import Verif.Model.WallLoad
import Mathlib.Data.List.Perm.Basic
import Mathlib.Algebra.BigOperators.Group.Finset.Basic
import Mathlib.Data.List.TakeWhile
set_option linter.unusedSectionVars false
set_option linter.unusedSimpArgs false

/-! # Lemmas on wall loads -/
namespace Ascot.WallLoad

theorem unique_cons {w : ℕ} {xs ys : List ℕ} (h : ∀ x, x ∈ xs ↔ x = w ∨ x ∈ ys) (hy : ∀ y ∈ ys, w < y) :
    unique xs = w :: unique ys := by
  unfold unique
  have e : xs.toFinset = insert w ys.toFinset := by ext x; simp [h]
  rw [e, Finset.sort_insert]
  · intro b hb; exact (hy b (by simpa using hb)).le
  · intro hb; exact absurd (hy w (by simpa using hb)) (lt_irrefl w)

theorem mem_unique {x : ℕ} {xs : List ℕ} : x ∈ unique xs ↔ x ∈ xs := by simp [unique]

theorem unique_pairwise (xs : List ℕ) : (unique xs).Pairwise (· < ·) := by
  have := Finset.sortedLT_sort xs.toFinset
  exact this.pairwise

theorem range_split (a b : ℕ) (ha : 1 ≤ a) (hb : 1 ≤ b) :
    List.range (a + b - 1) = List.range (a - 1) ++ (a - 1) :: (List.range (b - 1)).map (· + a) := by
  have e : a + b - 1 = (a - 1) + (1 + (b - 1)) := by omega
  rw [e, List.range_add, List.range_add]
  simp only [List.map_append, List.map_map, List.range_one, List.map_cons, List.map_nil, List.singleton_append, add_zero]
  congr 2
  apply List.map_congr_left
  intro x _
  simp only [Function.comp]
  omega

theorem bounds_append {w : ℕ} {pre rest : List Rec} (hp : pre ≠ []) (hw : ∀ r ∈ pre, r.tile = w) (hr : rest ≠ [])
    (hn : ∀ r ∈ rest, r.tile ≠ w) : bounds (pre ++ rest) = (pre.length - 1) :: (bounds rest).map (· + pre.length) := by
  have ha : 1 ≤ pre.length := List.length_pos_iff.mpr hp
  have hb : 1 ≤ rest.length := List.length_pos_iff.mpr hr
  have gp : ∀ k < pre.length, ((pre ++ rest).map Rec.tile).getD k 0 = w := by
    intro k hk
    rw [List.getD_eq_getElem?_getD, List.getElem?_eq_getElem (by simp; omega)]
    simp only [List.getElem_map, Option.getD_some]
    rw [List.getElem_append_left hk]
    exact hw _ (List.getElem_mem hk)
  have gr : ∀ k, ((pre ++ rest).map Rec.tile).getD (k + pre.length) 0 = (rest.map Rec.tile).getD k 0 := by
    intro k
    simp only [List.getD_eq_getElem?_getD, List.getElem?_map]
    rw [List.getElem?_append_right (by omega)]
    simp
  have g0 : (rest.map Rec.tile).getD 0 0 ≠ w := by
    cases rest with
    | nil => simp at hr
    | cons r _ => simpa using hn r (by simp)
  unfold bounds
  rw [List.length_append, range_split _ _ ha hb, List.filter_append, List.filter_cons]
  have f1 : (List.range (pre.length - 1)).filter (fun k => decide (((pre ++ rest).map Rec.tile).getD (k + 1) 0 ≠ ((pre ++ rest).map Rec.tile).getD k 0)) = [] := by
    rw [List.filter_eq_nil_iff]
    intro k hk
    rw [List.mem_range] at hk
    rw [gp k (by omega), gp (k + 1) (by omega)]
    simp
  rw [f1]
  have f2 : ((pre ++ rest).map Rec.tile).getD (pre.length - 1 + 1) 0 ≠ ((pre ++ rest).map Rec.tile).getD (pre.length - 1) 0 := by
    rw [gp (pre.length - 1) (by omega)]
    have := gr 0
    rw [show pre.length - 1 + 1 = 0 + pre.length by omega, this]
    exact g0
  rw [if_pos (by simpa using f2), List.filter_map]
  simp only [List.nil_append, List.cons_append, List.map_append, List.map_cons, List.map_nil]
  congr 2
  · congr 1
    apply List.filter_congr
    intro k _
    simp only [Function.comp]
    rw [show k + pre.length + 1 = (k + 1) + pre.length by omega, ← List.map_append, gr, gr]
  · congr 1
    omega

theorem bounds_const {w : ℕ} {pre : List Rec} (hw : ∀ r ∈ pre, r.tile = w) : bounds pre = [pre.length - 1] := by
  have gp : ∀ k < pre.length, (pre.map Rec.tile).getD k 0 = w := by
    intro k hk
    rw [List.getD_eq_getElem?_getD, List.getElem?_eq_getElem (by simp; omega)]
    simp only [List.getElem_map, Option.getD_some]
    exact hw _ (List.getElem_mem hk)
  unfold bounds
  rw [List.filter_eq_nil_iff.mpr]
  · rfl
  · intro k hk
    rw [List.mem_range] at hk
    rw [gp k (by omega), gp (k + 1) (by omega)]
    simp

theorem slice (p pre rest : List Rec) : (List.take (p.length + pre.length) (p ++ (pre ++ rest))).drop p.length = pre := by
  rw [← List.append_assoc, ← List.length_append, List.take_left', List.drop_left']
  · rfl
  · rfl

/-- Sorted markers are taken in groups with the same tile. -/
theorem loop_groups (weights : Bool) (cells : List Cell) (c : ℕ → Cell) (n : ℕ) : ∀ (ms : List Rec), ms.length = n →
    ms.Pairwise (fun a b => a.tile ≤ b.tile) → (∀ r ∈ ms, cells[r.tile - 1]? = some (c r.tile)) → ∀ p : List Rec,
    loop weights cells (p ++ ms) (unique (ms.map Rec.tile)) ((bounds ms).map (· + p.length)) p.length =
      some ((unique (ms.map Rec.tile)).map fun w => row weights w (c w) (ms.filter fun r => r.tile = w)) := by
  induction n using Nat.strong_induction_on with
  | _ n ih =>
    intro ms hn hs hc p
    rcases ms with _ | ⟨m, t⟩
    · simp [unique, loop]
    obtain ⟨w, hw⟩ : ∃ w, w = m.tile := ⟨_, rfl⟩
    obtain ⟨pre, hpre⟩ : ∃ q, q = (m :: t).takeWhile fun r => r.tile = w := ⟨_, rfl⟩
    obtain ⟨rest, hrest⟩ : ∃ q, q = (m :: t).dropWhile fun r => r.tile = w := ⟨_, rfl⟩
    have happ : pre ++ rest = m :: t := by rw [hpre, hrest]; exact List.takeWhile_append_dropWhile
    have hp0 : pre ≠ [] := by rw [hpre]; simp [hw]
    have hpw : ∀ r ∈ pre, r.tile = w := by
      intro r hr
      rw [hpre] at hr
      simpa using List.mem_takeWhile_imp hr
    have hmin : ∀ r ∈ m :: t, w ≤ r.tile := by
      intro r hr
      rcases List.mem_cons.mp hr with rfl | hr
      · exact hw.le
      · rw [hw]; exact List.rel_of_pairwise_cons hs hr
    have hrs : rest.Pairwise fun a b => a.tile ≤ b.tile := hs.sublist (by rw [hrest]; exact List.dropWhile_sublist _)
    have hsub : ∀ r ∈ rest, r ∈ m :: t := by intro r hr; rw [← happ]; exact List.mem_append_right _ hr
    have hrw : ∀ r ∈ rest, w < r.tile := by
      intro r hr
      cases hrest' : rest with
      | nil => rw [hrest'] at hr; simp at hr
      | cons a l =>
        have ha : a.tile ≠ w := by
          have : (m :: t).dropWhile (fun r => decide (r.tile = w)) ≠ [] := by rw [← hrest, hrest']; simp
          have h2 := List.head_dropWhile_not (fun r : Rec => decide (r.tile = w)) this
          have h3 : ((m :: t).dropWhile (fun r => decide (r.tile = w))).head this = a := by
            simp only [← hrest, hrest', List.head_cons]
          rw [h3] at h2
          simpa using h2
        have haw : w < a.tile := lt_of_le_of_ne (hmin a (hsub a (by rw [hrest']; simp))) (Ne.symm ha)
        rw [hrest'] at hr hrs
        rcases List.mem_cons.mp hr with rfl | hr
        · exact haw
        · exact lt_of_lt_of_le haw (List.rel_of_pairwise_cons hrs hr)
    have hu : unique ((m :: t).map Rec.tile) = w :: unique (rest.map Rec.tile) := by
      apply unique_cons
      · intro x
        rw [← happ]
        simp only [List.map_append, List.mem_append, List.mem_map]
        constructor
        · rintro (⟨r, hr, rfl⟩ | h)
          · exact .inl (hpw r hr)
          · exact .inr h
        · rintro (rfl | h)
          · exact .inl ⟨pre.head hp0, List.head_mem hp0, hpw _ (List.head_mem hp0)⟩
          · exact .inr h
      · intro y hy
        obtain ⟨r, hr, rfl⟩ := List.mem_map.mp hy
        exact hrw r hr
    have hlen : 1 ≤ pre.length := List.length_pos_iff.mpr hp0
    have hfp : ∀ v, ((m :: t).filter fun r => r.tile = v) = (pre.filter fun r => r.tile = v) ++ rest.filter fun r => r.tile = v := by
      intro v; rw [← happ, List.filter_append]
    have hfw : ((m :: t).filter fun r => r.tile = w) = pre := by
      rw [hfp, List.filter_eq_self.mpr (by simpa using hpw), List.filter_eq_nil_iff.mpr, List.append_nil]
      intro r hr
      simpa using (hrw r hr).ne'
    have hfv : ∀ v ∈ unique (rest.map Rec.tile), ((m :: t).filter fun r => r.tile = v) = rest.filter fun r => r.tile = v := by
      intro v hv
      obtain ⟨r, hr, rfl⟩ := List.mem_map.mp (mem_unique.mp hv)
      rw [hfp, List.filter_eq_nil_iff.mpr, List.nil_append]
      intro q hq
      simp only [decide_eq_true_eq]
      rw [hpw q hq]
      exact (hrw r hr).ne
    have hcw : cells[w - 1]? = some (c w) := by rw [hw]; exact hc m (by simp)
    rw [hu]
    have hlast : loop weights cells (p ++ (m :: t)) (unique (rest.map Rec.tile)) ((bounds rest).map (· + (p.length + pre.length)))
        (p.length + pre.length) = some ((unique (rest.map Rec.tile)).map fun v => row weights v (c v) (rest.filter fun r => r.tile = v)) := by
      have hl : rest.length < n := by
        rw [← hn, ← happ, List.length_append]; omega
      have := ih rest.length hl rest rfl hrs (fun r hr => hc r (hsub r hr)) (p ++ pre)
      rw [List.append_assoc, happ, List.length_append] at this
      exact this
    have hb : ∃ l, (bounds (m :: t)).map (· + p.length) = (p.length + pre.length - 1) :: l ∧
        loop weights cells (p ++ (m :: t)) (unique (rest.map Rec.tile)) l (p.length + pre.length) =
          some ((unique (rest.map Rec.tile)).map fun v => row weights v (c v) (rest.filter fun r => r.tile = v)) := by
      rw [← happ]
      by_cases hr0 : rest = []
      · subst hr0
        refine ⟨[], ?_, ?_⟩
        · rw [List.append_nil, bounds_const hpw]
          simp only [List.map_cons, List.map_nil]
          congr 1
          omega
        · simp [unique, loop]
      · refine ⟨(bounds rest).map (· + (p.length + pre.length)), ?_, ?_⟩
        · rw [bounds_append hp0 hpw hr0 fun r hr => (hrw r hr).ne']
          simp only [List.map_cons, List.map_map]
          congr 1
          · omega
          · apply List.map_congr_left
            intro x _
            simp only [Function.comp]
            omega
        · rw [happ]; exact hlast
    obtain ⟨l, hl, hll⟩ := hb
    rw [hl]
    unfold loop
    rw [hcw, show p.length + pre.length - 1 + 1 = p.length + pre.length by omega, hll]
    simp only [Option.bind_eq_bind, Option.bind_some, Option.pure_def, List.map_cons, Option.some.injEq, List.cons.injEq]
    refine ⟨?_, ?_⟩
    · rw [hfw]
      congr 1
      have := slice p pre rest
      rw [happ] at this
      exact this
    · apply List.map_congr_left
      intro v hv
      rw [hfv v hv]

/-! ### Gathering -/

theorem gather_range {α : Type} (xs : List α) : gather xs (List.range xs.length) = xs := by
  unfold gather
  induction xs with
  | nil => rfl
  | cons x xs ih =>
    rw [List.length_cons, List.range_succ_eq_map, List.filterMap_cons]
    simp only [List.getElem?_cons_zero, List.filterMap_map]
    congr 1

theorem gather_perm {α : Type} {xs : List α} {idx : List ℕ} (h : idx.Perm (List.range xs.length)) : (gather xs idx).Perm xs := by
  have := h.filterMap fun i => xs[i]?
  have e := gather_range xs
  unfold gather at e ⊢
  rw [e] at this
  exact this

theorem gather_map {α β : Type} (f : α → β) (xs : List α) (idx : List ℕ) : (gather xs idx).map f = gather (xs.map f) idx := by
  unfold gather
  rw [List.map_filterMap]
  congr 1
  funext i
  simp

theorem gather_getD {xs idx : List ℕ} (h : ∀ i ∈ idx, i < xs.length) : gather xs idx = idx.map fun i => xs.getD i 0 := by
  unfold gather
  induction idx with
  | nil => rfl
  | cons i t ih =>
    have hi := h i (by simp)
    rw [List.filterMap_cons, List.getElem?_eq_getElem hi]
    simp only [List.map_cons]
    rw [ih fun j hj => h j (by simp [hj])]
    congr 1
    simp [List.getD_eq_getElem?_getD, List.getElem?_eq_getElem hi]

end Ascot.WallLoad
