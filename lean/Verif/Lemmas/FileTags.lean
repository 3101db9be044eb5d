import Mathlib.Tactic.IntervalCases
import Verif.Lemmas.FileTree

/-!
# Lemmas on tags
-/
set_option linter.unusedSectionVars false
set_option linter.unusedSimpArgs false
namespace Ascot.FileTree
open Ascot.FileDoc

/-- A tag: neither empty nor with underscores or lower case letters. -/
def IsTag (t : Str) : Prop := t ≠ [] ∧ ∀ c ∈ t, c ≠ '_' ∧ c.isLower = false

theorem upper_table : ∀ n : Fin 123, (Char.ofNat n).isAlphanum = true →
    (Char.ofNat n).toUpper ≠ '_' ∧ (Char.ofNat n).toUpper.isLower = false := by decide +kernel

theorem upper_spec {c : Char} (h : c.isAlphanum = true) :
    c.toUpper ≠ '_' ∧ c.toUpper.isLower = false := by
  have l : c.toNat < 123 := by
    simp only [Char.isAlphanum, Char.isAlpha, Char.isUpper, Char.isLower, Char.isDigit,
      Bool.or_eq_true, Bool.and_eq_true, decide_eq_true_eq, ge_iff_le, UInt32.le_iff_toNat_le] at h
    have : c.toNat = c.val.toNat := rfl
    rw [this]
    rcases h with (⟨_, h⟩ | ⟨_, h⟩) | ⟨_, h⟩ <;> exact Nat.lt_of_le_of_lt h (by decide)
  have := upper_table ⟨c.toNat, l⟩
  rw [show Char.ofNat (⟨c.toNat, l⟩ : Fin 123) = c from Char.ofNat_toNat c] at this
  exact this h

theorem tagOf_isTag (d : Str) : IsTag (tagOf d) := by
  have key : ∀ c ∈ ((d.takeWhile (· ≠ ' ')).filter Char.isAlphanum).map Char.toUpper,
      c ≠ '_' ∧ c.isLower = false := by
    intro c m
    obtain ⟨c0, m0, rfl⟩ := List.mem_map.1 m
    exact upper_spec (List.mem_filter.1 m0).2
  have tag : IsTag "TAG".toList := ⟨by decide, by decide⟩
  unfold tagOf
  split
  · exact tag
  · next c cs e =>
    split_ifs
    · exact tag
    · rw [e] at key
      exact ⟨by simp, key⟩

theorem toDigits_inj {i j : ℕ} (h : Nat.toDigits 10 i = Nat.toDigits 10 j) : i = j := by
  rw [← Nat.ofDigitChars_ten_toDigits (n := i), h, Nat.ofDigitChars_ten_toDigits]

theorem split_underscore {a b u v : Str} (ha : '_' ∉ a) (hb : '_' ∉ b)
    (h : a ++ '_' :: u = b ++ '_' :: v) : a = b ∧ u = v := by
  rcases List.append_eq_append_iff.1 h with ⟨c, h1, h2⟩ | ⟨c, h1, h2⟩
  · cases c with
    | nil => simp only [List.nil_append, List.cons.injEq, true_and] at h2; exact ⟨by simpa using h1.symm, h2⟩
    | cons x c =>
      simp only [List.cons_append, List.cons.injEq] at h2
      exact absurd (by rw [h1, ← h2.1]; simp) hb
  · cases c with
    | nil => simp only [List.nil_append, List.cons.injEq, true_and] at h2; exact ⟨by simpa using h1, h2.symm⟩
    | cons x c =>
      simp only [List.cons_append, List.cons.injEq] at h2
      exact absurd (by rw [h1, ← h2.1]; simp) ha

theorem IsTag.not_mem {t : Str} (h : IsTag t) : '_' ∉ t := fun m => (h.2 _ m).1 rfl

theorem tagIdx_inj {t t' : Str} (h : IsTag t) (h' : IsTag t') {i j : ℕ}
    (e : tagIdx t i = tagIdx t' j) : t = t' ∧ i = j := by
  obtain ⟨a, b⟩ := split_underscore h.not_mem h'.not_mem e
  exact ⟨a, toDigits_inj b⟩

theorem tagIdx_ne {t t' : Str} (h' : IsTag t') {i : ℕ} : tagIdx t i ≠ t' := by
  intro e
  exact h'.not_mem (by rw [← e]; simp [tagIdx])

/-- For a tag only the references count. -/
theorem has_tag {a : Attrs} {t : Str} (h : IsTag t) : a.has t = (a t).isSome := by
  unfold Attrs.has
  cases t with
  | nil => exact absurd rfl h.1
  | cons c t =>
    have := h.2 c (by simp)
    simp [this.1, this.2]

theorem has_tagIdx {a : Attrs} {t : Str} (h : IsTag t) (i : ℕ) :
    a.has (tagIdx t i) = (a (tagIdx t i)).isSome := by
  unfold Attrs.has tagIdx
  cases t with
  | nil => exact absurd rfl h.1
  | cons c t =>
    have := h.2 c (by simp)
    simp [this.1, this.2]

theorem nextTag_spec {a : Attrs} {t : Str} (h : IsTag t) {k : ℕ}
    (ha : ∀ i, (a (tagIdx t i)).isSome ↔ i < k) :
    ∀ (n j : ℕ), j ≤ k → k - j + 1 ≤ n → nextTag a t n (tagIdx t j) (j + 1) = some (tagIdx t k)
  | 0, j, _, l => by omega
  | n + 1, j, hj, l => by
    rw [nextTag, has_tagIdx h]
    by_cases c : j < k
    · rw [if_pos ((ha j).2 c)]
      exact nextTag_spec h ha n (j + 1) c (by omega)
    · obtain rfl : j = k := by omega
      rw [if_neg (fun e => by have := (ha j).1 e; omega)]

/-- The groups with a tag, in order. -/
def occ (l : List (Str × Str)) (t : Str) : List Str := (l.filter fun x => x.2 = t).map Prod.fst

theorem occ_append (l : List (Str × Str)) (x : Str × Str) (t : Str) :
    occ (l ++ [x]) t = if x.2 = t then occ l t ++ [x.1] else occ l t := by
  unfold occ
  rw [List.filter_append, List.map_append]
  by_cases c : x.2 = t <;> simp [c]

theorem occ_length (l : List (Str × Str)) (t : Str) : (occ l t).length ≤ l.length := by
  unfold occ
  rw [List.length_map]
  exact List.length_filter_le _ _

/-- What has been done after the groups `l`. -/
structure Tagged (a0 : Attrs) (l : List (Str × Str)) (s : Attrs × List Str) : Prop where
  tag : ∀ t, IsTag t → s.1 t = (occ l t).head?
  idx : ∀ t, IsTag t → ∀ i, s.1 (tagIdx t i) = if 2 ≤ (occ l t).length then (occ l t)[i]? else none
  rep : ∀ t, t ∈ s.2 ↔ IsTag t ∧ 2 ≤ (occ l t).length
  other : ∀ k, ¬ IsTag k → (∀ t i, IsTag t → k ≠ tagIdx t i) → s.1 k = a0 k

theorem addTag_spec {a0 : Attrs} {l : List (Str × Str)} {s : Attrs × List Str}
    (h : Tagged a0 l s) {x : Str × Str} (hx : IsTag x.2) {n : ℕ} (hn : l.length + 2 ≤ n) :
    ∃ s', addTag n s x = some s' ∧ Tagged a0 (l ++ [x]) s' := by
  have hl := occ_length l x.2
  have notIdx : ∀ t i, IsTag t → ∀ j, tagIdx x.2 j = tagIdx t i → t = x.2 ∧ i = j := by
    intro t i ht j e
    obtain ⟨e1, e2⟩ := tagIdx_inj hx ht e
    exact ⟨e1.symm, e2.symm⟩
  unfold addTag
  rw [has_tag hx, h.tag _ hx]
  cases ho : occ l x.2 with
  | nil =>
    simp only [List.head?_nil, Option.isSome_none, if_false, Bool.false_eq_true]
    refine ⟨_, rfl, ?_, ?_, ?_, ?_⟩
    · intro t ht
      rw [occ_append]
      simp only [Attrs.set]
      by_cases c : t = x.2
      · simp [c, ho]
      · rw [if_neg c, if_neg (Ne.symm c), h.tag t ht]
    · intro t ht i
      rw [occ_append]
      simp only [Attrs.set]
      rw [if_neg (tagIdx_ne hx), h.idx t ht]
      by_cases c : x.2 = t
      · subst c
        simp [ho]
      · rw [if_neg c]
    · intro t
      rw [occ_append, h.rep]
      by_cases c : x.2 = t
      · subst c
        simp [ho]
      · rw [if_neg c]
    · intro k h1 h2
      simp only [Attrs.set]
      have ne : k ≠ x.2 := fun e => h1 (e ▸ hx)
      rw [if_neg ne, h.other k h1 h2]
  | cons q qs =>
    simp only [List.head?_cons, Option.isSome_some, if_true]
    -- the attributes with the index of the first
    have step : ∃ s', (if x.2 ∈ s.2 then s
        else ((match some q with
          | some v => s.1.set (tagIdx x.2 0) v
          | none => s.1), s.2 ++ [x.2])) = s' ∧
        (∀ t, IsTag t → s'.1 t = (occ l t).head?) ∧
        (∀ t, IsTag t → t ≠ x.2 → ∀ i, s'.1 (tagIdx t i) =
          if 2 ≤ (occ l t).length then (occ l t)[i]? else none) ∧
        (∀ i, s'.1 (tagIdx x.2 i) = (occ l x.2)[i]?) ∧
        (∀ t, t ∈ s'.2 ↔ IsTag t ∧ (t = x.2 ∨ 2 ≤ (occ l t).length)) ∧
        (∀ k, ¬ IsTag k → (∀ t i, IsTag t → k ≠ tagIdx t i) → s'.1 k = a0 k) := by
      by_cases c : x.2 ∈ s.2
      · rw [if_pos c]
        have := ((h.rep _).1 c).2
        refine ⟨s, rfl, h.tag, fun t ht _ i => h.idx t ht i, ?_, ?_, h.other⟩
        · intro i
          rw [h.idx _ hx, if_pos this]
        · intro t
          rw [h.rep]
          constructor
          · rintro ⟨a, b⟩
            exact ⟨a, Or.inr b⟩
          · rintro ⟨a, rfl | b⟩
            · exact ⟨a, this⟩
            · exact ⟨a, b⟩
      · rw [if_neg c]
        have one : ¬ 2 ≤ (occ l x.2).length := fun k => c ((h.rep _).2 ⟨hx, k⟩)
        have qs0 : qs = [] := by
          rw [ho] at one
          simp only [List.length_cons] at one
          exact List.length_eq_zero_iff.1 (by omega)
        refine ⟨_, rfl, ?_, ?_, ?_, ?_, ?_⟩
        · intro t ht
          simp only [Attrs.set]
          rw [if_neg (fun e => tagIdx_ne ht e.symm), h.tag t ht]
        · intro t ht ne i
          simp only [Attrs.set]
          rw [if_neg (fun e => ne (notIdx t i ht 0 e.symm).1), h.idx t ht]
        · intro i
          simp only [Attrs.set]
          rw [ho, qs0]
          by_cases ci : i = 0
          · rw [ci, if_pos rfl]
            rfl
          · rw [if_neg (fun e => ci (notIdx _ _ hx _ e).2.symm), h.idx _ hx, if_neg one]
            cases i with
            | zero => exact absurd rfl ci
            | succ i => simp
        · intro t
          simp only [List.mem_append, List.mem_singleton]
          rw [h.rep]
          constructor
          · rintro (⟨a, b⟩ | rfl)
            · exact ⟨a, Or.inr b⟩
            · exact ⟨hx, Or.inl rfl⟩
          · rintro ⟨a, rfl | b⟩
            · exact Or.inr rfl
            · exact Or.inl ⟨a, b⟩
        · intro k h1 h2
          simp only [Attrs.set]
          rw [if_neg (h2 _ _ hx), h.other k h1 h2]
    obtain ⟨s', es, k1, k2, k3, k4, k5⟩ := step
    simp only [es]
    have isSome : ∀ i, (s'.1 (tagIdx x.2 i)).isSome ↔ i < (occ l x.2).length := by
      intro i
      rw [k3]
      simp
    have nt : nextTag s'.1 x.2 n x.2 0 = some (tagIdx x.2 (occ l x.2).length) := by
      obtain ⟨n, rfl⟩ : ∃ m, n = m + 1 := ⟨n - 1, by omega⟩
      rw [nextTag, has_tag hx, k1 _ hx, ho]
      simp only [List.head?_cons, Option.isSome_some, if_true]
      rw [← ho]
      exact nextTag_spec hx isSome n 0 (by omega) (by omega)
    rw [nt]
    simp only
    refine ⟨_, rfl, ?_, ?_, ?_, ?_⟩
    · intro t ht
      simp only [Attrs.set]
      rw [if_neg (fun e => tagIdx_ne ht e.symm), k1 t ht, occ_append]
      by_cases c : x.2 = t
      · subst c
        rw [if_pos rfl, ho]
        rfl
      · rw [if_neg c]
    · intro t ht i
      simp only [Attrs.set]
      rw [occ_append]
      by_cases c : x.2 = t
      · subst c
        have two : 2 ≤ (occ l x.2 ++ [x.1]).length := by rw [ho]; simp
        rw [if_pos rfl, if_pos two]
        by_cases ci : i = (occ l x.2).length
        · rw [if_pos (by rw [ci]), ci]
          simp
        · rw [if_neg (fun e => ci (notIdx _ _ hx _ e.symm).2), k3]
          by_cases cl : i < (occ l x.2).length
          · rw [List.getElem?_append_left cl]
          · rw [List.getElem?_eq_none (by omega), List.getElem?_eq_none (by simp; omega)]
      · rw [if_neg (fun e => c (notIdx t i ht _ e.symm).1.symm), if_neg c, k2 t ht (Ne.symm c)]
    · intro t
      rw [k4, occ_append]
      by_cases c : x.2 = t
      · subst c
        rw [if_pos rfl, ho]
        simp
      · rw [if_neg c]
        simp [Ne.symm c]
    · intro k h1 h2
      simp only [Attrs.set]
      rw [if_neg (h2 _ _ hx), k5 k h1 h2]

theorem addTags_spec {a0 : Attrs} {n : ℕ} : ∀ (r l : List (Str × Str)) (s : Attrs × List Str),
    Tagged a0 l s → (∀ x ∈ r, IsTag x.2) → l.length + r.length + 1 ≤ n →
    ∃ s', addTags n r s = some s' ∧ Tagged a0 (l ++ r) s'
  | [], l, s, h, _, _ => ⟨s, rfl, by simpa using h⟩
  | x :: r, l, s, h, hx, hn => by
    obtain ⟨s1, e1, h1⟩ := addTag_spec h (x := x) (hx x (by simp)) (n := n)
      (by simp at hn; omega)
    obtain ⟨s2, e2, h2⟩ := addTags_spec (n := n) r (l ++ [x]) s1 h1 (fun y m => hx y (by simp [m]))
      (by simp at hn ⊢; omega)
    exact ⟨s2, by rw [addTags, e1]; exact e2, by simpa using h2⟩

theorem foldl_del {a : Attrs} : ∀ {r : List Str} {k : Str},
    (r.foldl Attrs.del a) k = if k ∈ r then none else a k := by
  intro r
  induction r generalizing a with
  | nil => simp
  | cons t r ih =>
    intro k
    rw [List.foldl_cons, ih]
    by_cases c : k ∈ r
    · simp [c]
    · by_cases e : k = t
      · simp [e, Attrs.del]
      · simp [c, e, Attrs.del]

/-- The attributes of a node after `_finalize`. -/
theorem tags_spec {a0 : Attrs} {l : List (Str × Str)} (hl : ∀ x ∈ l, IsTag x.2)
    (h0 : ∀ t, IsTag t → a0 t = none) (h1 : ∀ t i, IsTag t → a0 (tagIdx t i) = none) :
    ∃ r, addTags (l.length + 2) l (a0, []) = some r ∧
      (∀ t, IsTag t → (r.2.foldl Attrs.del r.1) t =
        if (occ l t).length = 1 then (occ l t).head? else none) ∧
      (∀ t, IsTag t → ∀ i, (r.2.foldl Attrs.del r.1) (tagIdx t i) =
        if 2 ≤ (occ l t).length then (occ l t)[i]? else none) ∧
      (∀ k, ¬ IsTag k → (∀ t i, IsTag t → k ≠ tagIdx t i) →
        (r.2.foldl Attrs.del r.1) k = a0 k) := by
  obtain ⟨r, e, h⟩ := addTags_spec (n := l.length + 2) l [] (a0, []) (a0 := a0)
    ⟨fun t ht => by simp [occ, h0 t ht], fun t ht i => by simp [occ, h1 t i ht],
      fun t => by simp [occ], fun _ _ _ => rfl⟩ hl (by simp)
  rw [List.nil_append] at h
  refine ⟨r, e, ?_, ?_, ?_⟩
  · intro t ht
    rw [foldl_del, h.tag t ht]
    by_cases c : 2 ≤ (occ l t).length
    · rw [if_pos ((h.rep t).2 ⟨ht, c⟩), if_neg (by omega)]
    · rw [if_neg (fun m => c ((h.rep t).1 m).2)]
      cases ho : occ l t with
      | nil => simp
      | cons q qs =>
        rw [ho] at c
        simp only [List.length_cons] at c
        have : qs = [] := List.length_eq_zero_iff.1 (by omega)
        simp [this]
  · intro t ht i
    rw [foldl_del, if_neg, h.idx t ht]
    intro m
    exact tagIdx_ne (h.rep _ |>.1 m).1 rfl
  · intro k k1 k2
    rw [foldl_del, if_neg (fun m => k1 ((h.rep k).1 m).1), h.other k k1 k2]

end Ascot.FileTree
