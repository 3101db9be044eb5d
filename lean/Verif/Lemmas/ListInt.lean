import Verif.Model.ListInt
import Mathlib.Tactic.Common
import Mathlib.Data.List.Basic

namespace Ascot.ListInt

/-- `Chain h a xs as`: from `a` the nodes at addresses `as` (all distinct) hold
the values `xs` in order, followed by one sentinel node. -/
inductive Chain (h : Heap) : Addr → List Int → List Addr → Prop
  | nil {a d} : h a = some ⟨d, none⟩ → Chain h a [] [a]
  | cons {a b x xs as} : h a = some ⟨some x, some b⟩ → Chain h b xs as → a ∉ as →
      Chain h a (x :: xs) (a :: as)

theorem Chain.head_mem {h a xs as} (c : Chain h a xs as) : a ∈ as := by
  cases c <;> simp

theorem Chain.alloc {h a xs as} (c : Chain h a xs as) : ∀ b ∈ as, h b ≠ none := by
  induction c with
  | nil h1 => intro b hb; simp at hb; subst hb; simp [h1]
  | cons h1 _ _ ih =>
    intro b hb
    simp at hb
    rcases hb with rfl | hb
    · simp [h1]
    · exact ih b hb

theorem Chain.congr {h h' : Heap} {a xs as} (c : Chain h a xs as)
    (he : ∀ b ∈ as, h' b = h b) : Chain h' a xs as := by
  induction c with
  | nil h1 => exact .nil ((he _ (by simp)).trans h1)
  | cons h1 _ h3 ih =>
    exact .cons ((he _ (by simp)).trans h1) (ih fun b hb => he b (by simp [hb])) h3

theorem walk_chain {h a xs as} (c : Chain h a xs as) :
    ∀ fuel i, xs.length < fuel →
      walk h fuel a i = some (as.getLast (List.ne_nil_of_mem c.head_mem), i + xs.length) := by
  induction c with
  | nil h1 =>
    intro fuel i hf
    obtain ⟨f, rfl⟩ : ∃ f, fuel = f + 1 := ⟨fuel - 1, by omega⟩
    simp [walk, h1]
  | @cons a b x xs as h1 c2 h3 ih =>
    intro fuel i hf
    obtain ⟨f, rfl⟩ : ∃ f, fuel = f + 1 := ⟨fuel - 1, by omega⟩
    simp only [walk, h1]
    rw [ih f (i + 1) (by simp at hf; omega)]
    simp only [List.length_cons, Option.some.injEq, Prod.mk.injEq]
    refine ⟨?_, by omega⟩
    rw [List.getLast_cons (List.ne_nil_of_mem c2.head_mem)]

theorem get_chain {h a xs as} (c : Chain h a xs as) :
    ∀ k (hk : k < xs.length), get h k a = some xs[k] := by
  induction c with
  | nil h1 => intro k hk; simp at hk
  | cons h1 c2 h3 ih =>
    intro k hk
    cases k with
    | zero => simp [get, h1]
    | succ k => simp only [get, h1, Option.bind_eq_bind, Option.bind_some]
                simpa using ih k (by simpa using hk)

/-- Appending a value: the sentinel receives the value and a fresh sentinel is linked. -/
theorem chain_append {h a xs as} (c : Chain h a xs as) (x : Int) (n : Addr) (hn : h n = none) :
    ∀ h' : Heap, (∀ b, b ≠ as.getLast (List.ne_nil_of_mem c.head_mem) → b ≠ n → h' b = h b) →
      h' (as.getLast (List.ne_nil_of_mem c.head_mem)) = some ⟨some x, some n⟩ →
      h' n = some ⟨none, none⟩ →
      Chain h' a (xs ++ [x]) (as ++ [n]) := by
  induction c with
  | @nil a d h1 =>
    intro h' _ h2 h3
    refine .cons h2 (.nil h3) ?_
    intro hm; simp at hm; subst hm; simp [hn] at h1
  | @cons a b y ys bs h1 c2 h3 ih =>
    intro h' he h2 h4
    have hne : bs ≠ [] := List.ne_nil_of_mem c2.head_mem
    have hl : (a :: bs).getLast (by simp) = bs.getLast hne := List.getLast_cons hne
    have han : a ≠ n := by rintro rfl; simp [hn] at h1
    have hal : a ≠ bs.getLast hne := fun e => h3 (e ▸ List.getLast_mem hne)
    refine .cons ((he a (by rw [hl]; exact hal) han).trans h1) (ih h' ?_ ?_ h4) ?_
    · intro b hb hbn; exact he b (by rw [hl]; exact hb) hbn
    · rw [← hl]; exact h2
    · simp [h3, han]

theorem add_chain {h a xs as} (c : Chain h a xs as) (x : Int) (n : Addr) (hn : h n = none)
    (fuel : Nat) (hf : xs.length < fuel) :
    ∃ h', add fuel h a x n = some h' ∧ Chain h' a (xs ++ [x]) (as ++ [n]) ∧
      ∀ b, b ∉ as ++ [n] → h' b = h b := by
  have hne : as ≠ [] := List.ne_nil_of_mem c.head_mem
  obtain ⟨l, hl⟩ : ∃ l, l = as.getLast hne := ⟨_, rfl⟩
  have hlm : l ∈ as := hl ▸ List.getLast_mem hne
  obtain ⟨nd, hnd⟩ : ∃ nd, h l = some nd := Option.ne_none_iff_exists'.1 (c.alloc l hlm)
  have hln : l ≠ n := by rintro rfl; simp [hn] at hnd
  refine ⟨((h.set n (some ⟨none, none⟩)).set n (some ⟨none, none⟩)).set l
    (some ⟨some x, some n⟩), ?_, ?_, ?_⟩
  rotate_left
  · exact chain_append c x n hn _
      (by intro b hb hbn; rw [← hl] at hb; simp [Heap.set, hb, hbn])
      (by rw [← hl]; simp [Heap.set])
      (by simp [Heap.set, hln.symm])
  · intro b hb
    have h1 : b ≠ l := fun e => hb (by simp [e, hlm])
    have h2 : b ≠ n := fun e => hb (by simp [e])
    simp [Heap.set, h1, h2]
  · unfold add
    rw [walk_chain c fuel 0 hf]
    simp only [Option.bind_eq_bind, Option.bind_some, malloc, hn, ← hl]
    simp only [Heap.set, hln, if_false, hnd, Option.bind_some, if_true]
    simp only [pure]
    congr 1
    funext b
    by_cases hb : b = l <;> simp [Heap.set, hb]

theorem addAll_chain (a : Addr) (fuel : Nat) :
    ∀ (ops : List (Int × Addr)) (h : Heap) (xs : List Int) (as : List Addr),
      Chain h a xs as → (∀ p ∈ ops, h p.2 = none) → (ops.map (·.2)).Nodup →
      xs.length + ops.length ≤ fuel →
      ∃ h', addAll fuel a h ops = some h' ∧
        Chain h' a (xs ++ ops.map (·.1)) (as ++ ops.map (·.2)) ∧
        ∀ b, b ∉ as ++ ops.map (·.2) → h' b = h b := by
  intro ops
  induction ops with
  | nil => intro h xs as c _ _ _; exact ⟨h, rfl, by simpa using c, fun _ _ => rfl⟩
  | cons p ops ih =>
    intro h xs as c hfree hnd hf
    obtain ⟨x, n⟩ := p
    simp only [List.length_cons] at hf
    obtain ⟨h1, e1, c1, f1⟩ := add_chain c x n (hfree (x, n) (by simp)) fuel (by omega)
    simp only [List.map_cons, List.nodup_cons] at hnd
    obtain ⟨h2, e2, c2, f2⟩ := ih h1 (xs ++ [x]) (as ++ [n]) c1 (by
        intro p hp
        rw [f1]
        · exact hfree p (by simp [hp])
        · intro hm
          simp only [List.mem_append, List.mem_singleton] at hm
          rcases hm with hm | hm
          · exact c.alloc _ hm (hfree p (by simp [hp]))
          · exact hnd.1 (hm ▸ List.mem_map_of_mem hp)) hnd.2 (by simp; omega)
    refine ⟨h2, ?_, by simpa using c2, ?_⟩
    · simp [addAll, e1, e2]
    · intro b hb
      rw [f2 b (by simpa using hb), f1 b (by simp at hb ⊢; tauto)]

theorem freeLoop_chain {h a xs as} (c : Chain h a xs as) :
    ∀ nx d, h a = some ⟨d, nx⟩ →
    freeLoop xs.length h a nx = some fun b => if b ∈ as then none else h b := by
  induction xs generalizing h a as with
  | nil =>
    intro nx d hd
    cases c with
    | nil h1 =>
      simp only [List.length_nil, freeLoop, free, h1, Option.some.injEq]
      funext b; simp [Heap.set]
  | cons x xs ih =>
    intro nx d hd
    cases c with
    | @cons _ b _ _ bs h1 c2 h3 =>
      have hnx : nx = some b := by rw [h1] at hd; simp at hd; exact hd.2.symm
      subst hnx
      have c2' : Chain (h.set a none) b xs bs := c2.congr fun e he => by
        have : e ≠ a := fun q => h3 (q ▸ he)
        simp [Heap.set, this]
      obtain ⟨nd, hnd⟩ := Option.ne_none_iff_exists'.1 (c2'.alloc b c2'.head_mem)
      simp only [List.length_cons, freeLoop, free, h1, Option.bind_eq_bind, Option.bind_some, hnd]
      rw [ih c2' nd.next nd.data (by rw [hnd])]
      simp only [Option.some.injEq]
      funext e
      by_cases he : e ∈ bs
      · simp [he]
      · by_cases hea : e = a <;> simp [he, hea, Heap.set]

theorem freeList_chain {h a xs as} (c : Chain h a xs as) (fuel : Nat) (hf : xs.length < fuel) :
    freeList fuel h a = some ((fun b => if b ∈ as then none else h b), none) := by
  obtain ⟨nd, hnd⟩ := Option.ne_none_iff_exists'.1 (c.alloc a c.head_mem)
  unfold freeList size
  rw [walk_chain c fuel 0 hf]
  simp only [Option.bind_eq_bind, Option.bind_some, pure, hnd, Nat.zero_add]
  rw [freeLoop_chain c nd.next nd.data (by rw [hnd])]
  rfl

end Ascot.ListInt
