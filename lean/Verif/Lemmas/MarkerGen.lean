import Verif.Spec.Sampled
import Mathlib.Algebra.Order.BigOperators.Group.List
import Mathlib.Data.List.Induction

set_option linter.unusedSectionVars false
set_option linter.unusedSimpArgs false

/-! # Lemmas on the generation of markers -/
namespace Ascot.MarkerGen

open Sampled

theorem scanl_ge {a x : ℝ} : ∀ {h : List ℝ}, (∀ v ∈ h, 0 ≤ v) → x ∈ h.scanl (· + ·) a → a ≤ x
  | [], _, hx => by simp at hx; exact hx.ge
  | b :: h, hh, hx => by
    rw [List.scanl_cons, List.mem_cons] at hx
    rcases hx with rfl | hx
    · exact le_rfl
    · have h1 := scanl_ge (fun v hv => hh v (List.mem_cons_of_mem _ hv)) hx
      have h2 := hh b List.mem_cons_self
      linarith

/-- The cell of a random number contains something. -/
theorem count_scanl {y : ℝ} : ∀ {h : List ℝ} {a : ℝ}, (∀ v ∈ h, 0 ≤ v) → a ≤ y → y < a + h.sum →
    ∃ v, h[(h.scanl (· + ·) a).countP (fun b => decide (b ≤ y)) - 1]? = some v ∧ 0 < v ∧
      1 ≤ (h.scanl (· + ·) a).countP (fun b => decide (b ≤ y))
  | [], a, _, h1, h2 => by simp at h2; linarith
  | b :: h, a, hh, h1, h2 => by
    have hh' : ∀ v ∈ h, 0 ≤ v := fun v hv => hh v (List.mem_cons_of_mem _ hv)
    rw [List.scanl_cons, List.countP_cons_of_pos (by simpa using h1)]
    rw [List.sum_cons, ← add_assoc] at h2
    rcases le_or_gt (a + b) y with hy | hy
    · obtain ⟨v, v1, v2, v3⟩ := count_scanl (h := h) hh' hy h2
      refine ⟨v, ?_, v2, by omega⟩
      rw [Nat.add_sub_cancel]
      obtain ⟨n, hn⟩ := Nat.exists_eq_add_of_le v3
      rw [hn] at v1 ⊢
      rw [show 1 + n - 1 = n by omega] at v1
      rw [show 1 + n = n + 1 by omega, List.getElem?_cons_succ]
      exact v1
    · have h0 : (h.scanl (· + ·) (a + b)).countP (fun b => decide (b ≤ y)) = 0 := by
        rw [List.countP_eq_zero]
        intro z hz
        have := scanl_ge hh' hz
        simp only [decide_eq_true_eq, not_le]
        linarith
      rw [h0]
      exact ⟨b, rfl, by linarith, by omega⟩

theorem foldl_eq_sum (h : List ℝ) : h.foldl (· + ·) 0 = h.sum := List.sum_eq_foldl.symm

theorem draw_spec {h thr : List ℝ} (hh : ∀ v ∈ h, 0 ≤ v) (ht : thresholds h = some thr) {x : ℝ} (h0 : 0 ≤ x)
    (h1 : x < 1) : ∃ v, h[draw thr x]? = some v ∧ 0 < v := by
  unfold thresholds at ht
  dsimp only at ht
  rw [foldl_eq_sum] at ht
  by_cases hs : h.sum = 0
  · rw [if_pos hs] at ht; cases ht
  rw [if_neg hs] at ht
  cases ht
  have hp : 0 < h.sum := lt_of_le_of_ne (List.sum_nonneg hh) (Ne.symm hs)
  obtain ⟨v, v1, v2, -⟩ := count_scanl (h := h) (a := 0) (y := x * h.sum) hh (by positivity)
    (by rw [zero_add]; nlinarith)
  refine ⟨v, ?_, v2⟩
  unfold draw digitize
  rw [List.countP_map]
  have : ((fun b => decide (b ≤ x)) ∘ fun x => x / h.sum) = fun b => decide (b ≤ x * h.sum) := by
    funext b
    simp only [Function.comp, decide_eq_decide]
    rw [div_le_iff₀ hp]
  rw [this]
  exact v1

theorem redraw_length (thr : List ℝ) (rnd : ℕ → ℝ) : ∀ (l : List (ℕ × Bool)) (k : ℕ),
    (redraw thr rnd l k).1.length = l.length
  | [], k => rfl
  | (c, false) :: l, k => by simp [redraw, redraw_length thr rnd l k]
  | (c, true) :: l, k => by simp [redraw, redraw_length thr rnd l (k + 1)]

theorem redraw_mem {thr : List ℝ} {rnd : ℕ → ℝ} {P : ℕ → Prop} (hd : ∀ k, P (draw thr (rnd k))) :
    ∀ (l : List (ℕ × Bool)) (k : ℕ), (∀ x ∈ l, x.2 = false → P x.1) → ∀ c ∈ (redraw thr rnd l k).1, P c
  | [], k, _ => by simp [redraw]
  | (c, false) :: l, k, h => by
    intro x hx
    simp only [redraw, List.mem_cons] at hx
    rcases hx with rfl | hx
    · exact h _ List.mem_cons_self rfl
    · exact redraw_mem hd l k (fun y hy => h y (List.mem_cons_of_mem _ hy)) x hx
  | (c, true) :: l, k, h => by
    intro x hx
    simp only [redraw, List.mem_cons] at hx
    rcases hx with rfl | hx
    · exact hd k
    · exact redraw_mem hd l (k + 1) (fun y hy => h y (List.mem_cons_of_mem _ hy)) x hx

theorem mapM_zip {α β : Type} {f : α → Option β} : ∀ {l : List α} {r : List β}, l.mapM f = some r →
    r.length = l.length ∧ ∀ p ∈ l.zip r, f p.1 = some p.2
  | [], r, h => by simp at h; subst h; simp
  | a :: l, r, h => by
    rw [List.mapM_cons] at h
    simp only [Option.bind_eq_bind, Option.bind_eq_some_iff, Option.pure_def, Option.some.injEq] at h
    obtain ⟨y, h1, ys, h2, rfl⟩ := h
    obtain ⟨i1, i2⟩ := mapM_zip h2
    refine ⟨by simp [i1], ?_⟩
    intro p hp
    rw [List.zip_cons_cons, List.mem_cons] at hp
    rcases hp with rfl | hp
    · exact h1
    · exact i2 p hp

theorem mapM_exists {α β : Type} {f : α → Option β} : ∀ {l : List α}, (∀ x ∈ l, ∃ y, f x = some y) →
    ∃ r, l.mapM f = some r
  | [], _ => ⟨[], rfl⟩
  | a :: l, h => by
    obtain ⟨y, hy⟩ := h a List.mem_cons_self
    obtain ⟨r, hr⟩ := mapM_exists (l := l) fun x hx => h x (List.mem_cons_of_mem _ hx)
    exact ⟨y :: r, by simp [List.mapM_cons, hy, hr]⟩

/-- What is true when the loop has ended. -/
theorem loop_spec {prt thr : List ℝ} {minw : ℝ} {rnd : ℕ → ℝ} {P : ℕ → Prop}
    (hd : ∀ k, P (draw thr (rnd k))) : ∀ (fuel : ℕ) (l : List (ℕ × Bool)) (k : ℕ) (out : List (ℕ × ℝ)),
    (∀ x ∈ l, x.2 = false → P x.1) → loop prt thr minw rnd fuel l k = some out →
    ∃ icell w, out = icell.zip w ∧ weights prt icell = some w ∧ icell.length = l.length ∧
      (∀ c ∈ icell, P c) ∧ ∀ x ∈ w, minw ≤ x
  | 0, l, k, out, _, h => by cases h
  | fuel + 1, l, k, out, hl, h => by
    rw [loop] at h
    dsimp only at h
    cases hw : weights prt (redraw thr rnd l k).1 with
    | none => rw [hw] at h; cases h
    | some w =>
      rw [hw] at h
      dsimp only at h
      by_cases ha : ((w.map fun x => decide (x < minw)).any id) = true
      · rw [if_pos ha] at h
        obtain ⟨icell, w', h1, h2, h3, h4, h5⟩ := loop_spec hd fuel _ _ out (by
          intro x hx _
          exact redraw_mem hd l k hl x.1 (List.of_mem_zip (a := x.1) (b := x.2) hx).1) h
        refine ⟨icell, w', h1, h2, ?_, h4, h5⟩
        rw [h3, List.length_zip, List.length_map, (mapM_zip hw).1, min_self, redraw_length]
      · rw [if_neg ha] at h
        cases h
        refine ⟨_, w, rfl, hw, redraw_length _ _ _ _, redraw_mem hd l k hl, ?_⟩
        intro x hx
        by_contra hlt
        apply ha
        rw [List.any_eq_true]
        exact ⟨true, List.mem_map.2 ⟨x, hx, by simpa using hlt⟩, rfl⟩

/-- The markers of a cell have its particles. -/
theorem inside_weights {prt : List ℝ} {icell : List ℕ} {w : List ℝ} (hw : weights prt icell = some w) {c : ℕ}
    (hc : c ∈ icell) : prt[c]? = some (inside (icell.zip w) c) := by
  obtain ⟨hl, hz⟩ := mapM_zip hw
  have hn : ((icell.zip w).filter fun x => x.1 = c).length = icell.count c := by
    rw [← List.countP_eq_length_filter]
    have : List.countP (fun x : ℕ × ℝ => decide (x.1 = c)) (icell.zip w) =
        List.countP (fun n => decide (n = c)) ((icell.zip w).map Prod.fst) := by
      rw [List.countP_map]; rfl
    rw [this, List.map_fst_zip (by omega)]
    rfl
  have hpos : 0 < icell.count c := List.count_pos_iff.2 hc
  obtain ⟨i, hi, hic⟩ := List.mem_iff_getElem.1 hc
  have hmem : (icell[i], w[i]'(hl ▸ hi)) ∈ icell.zip w := by
    rw [List.mem_iff_getElem]
    exact ⟨i, by rw [List.length_zip, hl, min_self]; exact hi, by simp⟩
  have h0 := hz _ hmem
  dsimp only at h0
  rw [hic] at h0
  cases hp : prt[c]? with
  | none => rw [hp] at h0; cases h0
  | some v =>
    congr 1
    have all : ∀ y ∈ ((icell.zip w).filter fun x => x.1 = c).map (·.2), y = v / icell.count c := by
      intro y hy
      obtain ⟨x, hx, rfl⟩ := List.mem_map.1 hy
      obtain ⟨x1, x2⟩ := List.mem_filter.1 hx
      have := hz x x1
      rw [of_decide_eq_true x2, hp, Option.map_some, Option.some.injEq] at this
      exact this.symm
    unfold inside
    rw [List.sum_eq_card_nsmul _ _ all, List.length_map, hn, nsmul_eq_mul]
    have : (icell.count c : ℝ) ≠ 0 := by exact_mod_cast hpos.ne'
    field_simp

theorem shuffle_perm {α : Type} {l : List α} {s : List ℕ} (hs : s.Perm (List.range l.length)) :
    (s.filterMap (l[·]?)).Perm l := by
  have h1 := hs.filterMap (l[·]?)
  have h2 : (List.range l.length).filterMap (l[·]?) = l := by
    have : ∀ (l : List α), (List.range l.length).filterMap (l[·]?) = l := by
      intro l
      induction l using List.reverseRecOn with
      | nil => rfl
      | append_singleton l a ih =>
        rw [List.length_append, List.length_singleton, List.range_succ, List.filterMap_append]
        have e1 : (List.range l.length).filterMap ((l ++ [a])[·]?) = (List.range l.length).filterMap (l[·]?) := by
          apply List.filterMap_congr
          intro i hi
          rw [List.getElem?_append_left (List.mem_range.1 hi)]
        rw [e1, ih]
        simp
    exact this l
  exact h1.trans (List.Perm.of_eq h2)

theorem inside_perm {l l' : List (ℕ × ℝ)} (h : l.Perm l') (c : ℕ) : inside l c = inside l' c := by
  unfold inside
  exact ((h.filter _).map _).sum_eq

/-! ## Cells -/

theorem size_cons (e : List ℝ) (es : List (List ℝ)) : size (e :: es) = (e.length - 1) * size es := by
  simp [size]

theorem randomize_spec {e : List ℝ} (he : e.Pairwise (· < ·)) {i : ℕ} (hi : i < e.length - 1) {u : ℝ}
    (h0 : 0 ≤ u) (h1 : u < 1) : ∃ x a b, randomize e i u = some x ∧ e[i]? = some a ∧ e[i + 1]? = some b ∧
      a ≤ x ∧ x < b ∧ (0 < u → a < x) := by
  have i1 : i < e.length := by omega
  have i2 : i + 1 < e.length := by omega
  have hab := List.pairwise_iff_getElem.1 he i (i + 1) i1 i2 (by omega)
  refine ⟨e[i] + (e[i + 1] - e[i]) * u, e[i], e[i + 1], ?_, List.getElem?_eq_getElem i1,
    List.getElem?_eq_getElem i2, ?_, ?_, ?_⟩
  · unfold randomize
    rw [List.getElem?_eq_getElem i1, List.getElem?_eq_getElem i2]
  · nlinarith
  · nlinarith
  · intro hu; nlinarith [mul_pos (sub_pos.2 hab) hu]

/-- One axis more. -/
theorem inCell_cons {e : List ℝ} {es : List (List ℝ)} {c : ℕ} (hc : c < size (e :: es)) :
    c / size es < e.length - 1 ∧ c % size es < size es ∧ c = c / size es * size es + c % size es := by
  rw [size_cons] at hc
  have hs : 0 < size es := by
    rcases Nat.eq_zero_or_pos (size es) with h | h
    · rw [h, mul_zero] at hc; omega
    · exact h
  refine ⟨(Nat.div_lt_iff_lt_mul hs).2 hc, Nat.mod_lt _ hs, ?_⟩
  rw [mul_comm]
  exact (Nat.div_add_mod c _).symm

end Ascot.MarkerGen
