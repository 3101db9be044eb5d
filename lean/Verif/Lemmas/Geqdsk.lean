import Mathlib.Algebra.Order.Floor.Semiring
import Verif.Lemmas.Cocos
import Verif.Spec.EqField

set_option linter.unusedSectionVars false
set_option linter.unusedSimpArgs false

/-! # Lemmas on the import of equilibria -/
namespace Ascot.Geqdsk

open Equilibrium EqField
open Cocos (Eqd)

theorem mapM_spec {α β : Type} {f : α → Option β} : ∀ {l : List α}, (∀ x ∈ l, ∃ y, f x = some y) →
    ∃ r, l.mapM f = some r ∧ r.length = l.length ∧
      ∀ (i : ℕ) x, l[i]? = some x → ∃ y, r[i]? = some y ∧ f x = some y
  | [], _ => ⟨[], rfl, rfl, by simp⟩
  | a :: l, h => by
    obtain ⟨y, hy⟩ := h a List.mem_cons_self
    obtain ⟨r, h1, h2, h3⟩ := mapM_spec (l := l) fun x hx => h x (List.mem_cons_of_mem _ hx)
    refine ⟨y :: r, by simp [hy, h1], by simp [h2], ?_⟩
    intro i x hx
    cases i with
    | zero => exact ⟨y, rfl, by simp at hx; rw [← hx]; exact hy⟩
    | succ i => exact h3 i x (by simpa using hx)

theorem length_linspace (a b : ℝ) (n : ℕ) : (linspace a b n).length = n := by simp [linspace]

theorem getElem?_linspace {a b : ℝ} {n i : ℕ} (h : i < n) :
    (linspace a b n)[i]? = some (a + i * ((b - a) / (n - 1 : ℕ))) := by
  simp [linspace, h]

theorem reverse_linspace {a b : ℝ} {n : ℕ} (h : 2 ≤ n) : (linspace a b n).reverse = linspace b a n := by
  apply List.ext_getElem?
  intro i
  by_cases hi : i < n
  · rw [List.getElem?_reverse (by rw [length_linspace]; exact hi), length_linspace,
      getElem?_linspace (by omega), getElem?_linspace hi]
    congr 1
    have h1 : ((n - 1 : ℕ) : ℝ) ≠ 0 := by
      have : 0 < n - 1 := by omega
      positivity
    have h2 : ((n - 1 - i : ℕ) : ℝ) = ((n - 1 : ℕ) : ℝ) - i := by
      rw [Nat.cast_sub (by omega)]
    rw [h2]
    field_simp
    ring
  · rw [List.getElem?_eq_none (by simp [length_linspace]; omega),
      List.getElem?_eq_none (by simp [length_linspace]; omega)]

theorem seg_at {x right : ℝ} : ∀ {p : ℝ × ℝ} {l : List (ℝ × ℝ)}, p.1 = x →
    (p :: l).Pairwise (fun a b => a.1 < b.1) → seg x right p l = p.2
  | p, [], h, _ => by rw [seg, if_neg (by rw [h]; exact lt_irrefl _)]
  | p, q :: l, h, hp => by
    have : x < q.1 := h ▸ (List.pairwise_cons.1 hp).1 q List.mem_cons_self
    rw [seg, if_pos this, h, sub_self, mul_zero, zero_add]

theorem seg_between {x right : ℝ} {a b : ℝ × ℝ} : ∀ {l : List (ℝ × ℝ)} {p : ℝ × ℝ} {k : ℕ},
    (p :: l).Pairwise (fun a b => a.1 < b.1) → (p :: l)[k]? = some a → (p :: l)[k + 1]? = some b →
    a.1 ≤ x → x ≤ b.1 → seg x right p l = a.2 + (x - a.1) / (b.1 - a.1) * (b.2 - a.2)
  | [], p, k, _, _, hb, _, _ => by simp at hb
  | q :: l, p, 0, hp, ha, hb, h1, h2 => by
    simp only [List.getElem?_cons_zero, Option.some.injEq, zero_add, List.getElem?_cons_succ] at ha hb
    subst ha hb
    have hlt : p.1 < q.1 := (List.pairwise_cons.1 hp).1 q List.mem_cons_self
    have hne : q.1 - p.1 ≠ 0 := (sub_pos.2 hlt).ne'
    rw [seg]
    by_cases h : x < q.1
    · rw [if_pos h]; field_simp; ring
    · have e : q.1 = x := le_antisymm (not_lt.1 h) h2
      rw [if_neg h, seg_at e (List.pairwise_cons.1 hp).2, ← e, div_self hne]; ring
  | q :: l, p, k + 1, hp, ha, hb, h1, h2 => by
    rw [List.getElem?_cons_succ] at ha hb
    have hp' := (List.pairwise_cons.1 hp).2
    have hq : q.1 ≤ a.1 := by
      cases k with
      | zero => simp at ha; rw [ha]
      | succ k =>
        rw [List.getElem?_cons_succ] at ha
        exact ((List.pairwise_cons.1 hp').1 a (List.mem_of_getElem? ha)).le
    rw [seg, if_neg (not_lt.2 (hq.trans h1))]
    exact seg_between hp' ha hb h1 h2

theorem seg_right {x right : ℝ} {b : ℝ × ℝ} : ∀ {l : List (ℝ × ℝ)} {p : ℝ × ℝ},
    (p :: l).Pairwise (fun a b => a.1 < b.1) → (p :: l).getLast? = some b → b.1 < x →
    seg x right p l = right
  | [], p, _, hb, h => by simp at hb; subst hb; rw [seg, if_pos h]
  | q :: l, p, hp, hb, h => by
    have hp' := (List.pairwise_cons.1 hp).2
    rw [List.getLast?_cons_cons] at hb
    have hq : q.1 ≤ b.1 := by
      rcases List.mem_cons.1 (List.mem_of_getLast? hb) with rfl | hm
      · exact le_rfl
      · exact ((List.pairwise_cons.1 hp').1 b hm).le
    rw [seg, if_neg (not_lt.2 (hq.trans h.le))]
    exact seg_right hp' hb h

theorem zip_getElem? {a b : ℝ} {n k : ℕ} {f : List ℝ} {u : ℝ} (hl : f.length = n) (h : f[k]? = some u) :
    ((linspace a b n).zip f)[k]? = some (a + k * ((b - a) / (n - 1 : ℕ)), u) := by
  have hk : k < n := by
    rw [← hl]; exact (List.getElem?_eq_some_iff.1 h).1
  rw [List.getElem?_zip_eq_some]
  exact ⟨getElem?_linspace hk, h⟩

theorem pairwise_zip {a b : ℝ} {n : ℕ} (hn : 2 ≤ n) (hab : a < b) (f : List ℝ) :
    ((linspace a b n).zip f).Pairwise fun x y => x.1 < y.1 := by
  rw [List.pairwise_iff_getElem]
  intro i j hi hj hij
  rw [List.getElem_zip, List.getElem_zip]
  have h : 0 < (b - a) / (n - 1 : ℕ) := by
    have : 0 < n - 1 := by omega
    have : (0 : ℝ) < (n - 1 : ℕ) := by exact_mod_cast this
    exact div_pos (sub_pos.2 hab) this
  have : (i : ℝ) < j := by exact_mod_cast hij
  simp only [linspace, List.getElem_map, List.getElem_range]
  nlinarith

/-- Linear interpolation on a uniform grid in increasing order. -/
theorem interp_between {a b x left right u v : ℝ} {n k : ℕ} {f : List ℝ} (hn : 2 ≤ n) (hab : a < b)
    (hl : f.length = n) (hu : f[k]? = some u) (hv : f[k + 1]? = some v)
    (h1 : (k : ℝ) ≤ (x - a) / (b - a) * (n - 1)) (h2 : (x - a) / (b - a) * (n - 1) ≤ k + 1) :
    interp x ((linspace a b n).zip f) left right = some (u + ((x - a) / (b - a) * (n - 1) - k) * (v - u)) := by
  have hz1 := zip_getElem? (a := a) (b := b) hl hu
  have hz2 := zip_getElem? (a := a) (b := b) hl hv
  have hp := pairwise_zip hn hab f
  have hn1 : (0 : ℝ) < (n - 1 : ℕ) := by
    have : 0 < n - 1 := by omega
    exact_mod_cast this
  have hnn : ((n - 1 : ℕ) : ℝ) = n - 1 := by rw [Nat.cast_sub (by omega)]; simp
  have hba : 0 < b - a := sub_pos.2 hab
  rw [← hnn] at h1 h2 ⊢
  have hx1 : a + k * ((b - a) / (n - 1 : ℕ)) ≤ x := by
    rw [div_mul_eq_mul_div, le_div_iff₀ hba] at h1
    have : k * ((b - a) / (n - 1 : ℕ)) ≤ x - a := by
      rw [← mul_div_assoc, div_le_iff₀ hn1]; exact h1
    linarith
  have hx2 : x ≤ a + (k + 1 : ℕ) * ((b - a) / (n - 1 : ℕ)) := by
    rw [div_mul_eq_mul_div, div_le_iff₀ hba] at h2
    have : x - a ≤ (k + 1 : ℕ) * ((b - a) / (n - 1 : ℕ)) := by
      rw [← mul_div_assoc, le_div_iff₀ hn1]; push_cast; exact h2
    linarith
  cases hz : (linspace a b n).zip f with
  | nil => rw [hz] at hz1; simp at hz1
  | cons p l =>
    rw [hz] at hz1 hz2 hp
    unfold interp
    dsimp only
    have hpx : ¬ x < p.1 := by
      rw [not_lt]
      refine le_trans ?_ hx1
      cases k with
      | zero => simp at hz1; rw [hz1]; simp
      | succ k =>
        rw [List.getElem?_cons_succ] at hz1
        exact ((List.pairwise_cons.1 hp).1 _ (List.mem_of_getElem? hz1)).le
    rw [if_neg hpx, seg_between hp hz1 hz2 hx1 hx2]
    congr 1
    push_cast
    have hd : a + (k + 1) * ((b - a) / ((n - 1 : ℕ) : ℝ)) - (a + k * ((b - a) / ((n - 1 : ℕ) : ℝ))) =
        (b - a) / ((n - 1 : ℕ) : ℝ) := by ring
    rw [hd]
    have : (x - (a + k * ((b - a) / ((n - 1 : ℕ) : ℝ)))) / ((b - a) / ((n - 1 : ℕ) : ℝ)) =
        (x - a) / (b - a) * ((n - 1 : ℕ) : ℝ) - k := by field_simp; ring
    rw [this]

theorem interp_left {a b x left right : ℝ} {n : ℕ} {f : List ℝ} (hn : 2 ≤ n) (hl : f.length = n)
    (h : x < a) : interp x ((linspace a b n).zip f) left right = some left := by
  have h0 : 0 < f.length := by omega
  have hz1 := zip_getElem? (a := a) (b := b) hl (List.getElem?_eq_getElem h0)
  cases hz : (linspace a b n).zip f with
  | nil => rw [hz] at hz1; simp at hz1
  | cons p l =>
    rw [hz] at hz1
    simp at hz1
    unfold interp
    dsimp only
    rw [if_pos (by rw [hz1]; exact h)]

theorem interp_right {a b x left right : ℝ} {n : ℕ} {f : List ℝ} (hn : 2 ≤ n) (hab : a < b)
    (hl : f.length = n) (h : b < x) : interp x ((linspace a b n).zip f) left right = some right := by
  have h0 : n - 1 < f.length := by omega
  have hz1 := zip_getElem? (a := a) (b := b) hl (List.getElem?_eq_getElem h0)
  have hp := pairwise_zip hn hab f
  have hlen : ((linspace a b n).zip f).length = n := by simp [length_linspace, hl]
  have hn1 : ((n - 1 : ℕ) : ℝ) ≠ 0 := by
    have : n - 1 ≠ 0 := by omega
    exact_mod_cast this
  have e : a + ((n - 1 : ℕ) : ℝ) * ((b - a) / ((n - 1 : ℕ) : ℝ)) = b := by field_simp; ring
  rw [e] at hz1
  have hlast : ((linspace a b n).zip f).getLast? = some (b, f[n - 1]) := by
    rw [List.getLast?_eq_getElem?, hlen]; exact hz1
  have h0' : 0 < f.length := by omega
  have hz0 := zip_getElem? (a := a) (b := b) hl (List.getElem?_eq_getElem h0')
  cases hz : (linspace a b n).zip f with
  | nil => rw [hz] at hz1; simp at hz1
  | cons p l =>
    rw [hz] at hlast hp hz0
    simp at hz0
    unfold interp
    dsimp only
    rw [if_neg (by rw [hz0]; exact not_lt.2 (hab.trans h).le), seg_right hp hlast h]

theorem pos_swap {a b x m : ℝ} (h : a ≠ b) : (x - b) / (a - b) * m = m - (x - a) / (b - a) * m := by
  have h1 : a - b ≠ 0 := sub_ne_zero.2 h
  have h2 : b - a ≠ 0 := sub_ne_zero.2 h.symm
  rw [show a - b = -(b - a) by ring]
  field_simp
  ring

/-- The toroidal field function that is used, except beyond the axis if ψ decreases from the axis on. -/
theorem fpolAt_spec {e : Eqd} (hn : 2 ≤ e.nx) (hne : e.simagx ≠ e.sibdry) (hf : e.fpol.length = e.nx)
    {x : ℝ} (hx : e.simagx < e.sibdry ∨ 0 ≤ pos e x) : ∃ v, fpolAt e x = some v ∧ FOf e x v := by
  have hd : e.sibdry - e.simagx ≠ 0 := sub_ne_zero.2 hne.symm
  have h0 : 0 < e.fpol.length := by omega
  have hlast : e.fpol.getLast? = some (e.fpol[e.nx - 1]) := by
    rw [List.getLast?_eq_getElem?, show e.fpol.length - 1 = e.nx - 1 by omega, List.getElem?_eq_getElem]
  have hhead : e.fpol.head? = some e.fpol[0] := by
    rw [List.head?_eq_getElem?, List.getElem?_eq_getElem]
  have hnr : (1 : ℝ) < e.nx := by exact_mod_cast (by omega : 1 < e.nx)
  unfold fpolAt
  dsimp only
  rw [if_neg (by rw [length_linspace, hf]; simp)]
  simp only [hlast, hhead]
  -- the interval
  have hk : ∀ s : ℝ, 0 ≤ s → s ≤ e.nx - 1 → ∃ k : ℕ, k + 1 < e.nx ∧ (k : ℝ) ≤ s ∧ s ≤ k + 1 := by
    intro s h1 h2
    by_cases h3 : s = e.nx - 1
    · refine ⟨e.nx - 2, by omega, ?_, ?_⟩
      · rw [Nat.cast_sub (by omega), h3]; push_cast; linarith
      · rw [Nat.cast_sub (by omega), h3]; push_cast; linarith
    · refine ⟨⌊s⌋₊, ?_, Nat.floor_le h1, (Nat.lt_floor_add_one s).le⟩
      have h4 : s < e.nx - 1 := lt_of_le_of_ne h2 h3
      have : (⌊s⌋₊ : ℝ) < e.nx - 1 := (Nat.floor_le h1).trans_lt h4
      have : ((⌊s⌋₊ + 1 : ℕ) : ℝ) < e.nx := by push_cast; linarith
      exact_mod_cast this
  by_cases hab : e.simagx < e.sibdry
  · rw [if_pos hab]
    have hpd : 0 < e.sibdry - e.simagx := sub_pos.2 hab
    by_cases h1 : x < e.simagx
    · refine ⟨_, interp_left hn hf h1, .axis _ hhead ?_⟩
      unfold pos
      exact mul_nonpos_of_nonpos_of_nonneg (div_nonpos_of_nonpos_of_nonneg (by linarith) hpd.le) (by linarith)
    · by_cases h2 : e.sibdry < x
      · refine ⟨_, interp_right hn hab hf h2, .outside _ hlast ?_⟩
        unfold pos
        have : 1 ≤ (x - e.simagx) / (e.sibdry - e.simagx) := by rw [le_div_iff₀ hpd]; linarith
        nlinarith
      · have hp0 : 0 ≤ pos e x := by
          unfold pos
          exact mul_nonneg (div_nonneg (by linarith) hpd.le) (by linarith)
        have hp1 : pos e x ≤ e.nx - 1 := by
          unfold pos
          have : (x - e.simagx) / (e.sibdry - e.simagx) ≤ 1 := by rw [div_le_iff₀ hpd]; linarith
          nlinarith
        obtain ⟨k, k1, k2, k3⟩ := hk _ hp0 hp1
        have hu : e.fpol[k]? = some (e.fpol[k]'(by omega)) := List.getElem?_eq_getElem _
        have hv : e.fpol[k + 1]? = some (e.fpol[k + 1]'(by omega)) := List.getElem?_eq_getElem _
        exact ⟨_, interp_between hn hab hf hu hv k2 k3, .inside k _ _ hu hv k2 k3⟩
  · rw [if_neg hab]
    have hba : e.sibdry < e.simagx := lt_of_le_of_ne (not_lt.1 hab) hne.symm
    have hp0 : 0 ≤ pos e x := hx.resolve_left hab
    have hnd : e.sibdry - e.simagx < 0 := sub_neg.2 hba
    have hfr : e.fpol.reverse.length = e.nx := by rw [List.length_reverse, hf]
    rw [reverse_linspace hn]
    by_cases h2 : x < e.sibdry
    · refine ⟨_, interp_left hn hfr h2, .outside _ hlast ?_⟩
      unfold pos
      have : 1 ≤ (x - e.simagx) / (e.sibdry - e.simagx) := by rw [le_div_iff_of_neg hnd]; linarith
      nlinarith
    · have hp1 : pos e x ≤ e.nx - 1 := by
        unfold pos
        have : (x - e.simagx) / (e.sibdry - e.simagx) ≤ 1 := by rw [div_le_iff_of_neg hnd]; linarith
        nlinarith
      obtain ⟨k, k1, k2, k3⟩ := hk _ hp0 hp1
      have hu : e.fpol[k]? = some (e.fpol[k]'(by omega)) := List.getElem?_eq_getElem _
      have hv : e.fpol[k + 1]? = some (e.fpol[k + 1]'(by omega)) := List.getElem?_eq_getElem _
      have hu' : e.fpol.reverse[e.nx - 2 - k]? = some (e.fpol[k + 1]'(by omega)) := by
        rw [List.getElem?_reverse (by omega), show e.fpol.length - 1 - (e.nx - 2 - k) = k + 1 by omega, hv]
      have hv' : e.fpol.reverse[e.nx - 2 - k + 1]? = some (e.fpol[k]'(by omega)) := by
        rw [List.getElem?_reverse (by omega), show e.fpol.length - 1 - (e.nx - 2 - k + 1) = k by omega, hu]
      have hc : ((e.nx - 2 - k : ℕ) : ℝ) = e.nx - 2 - k := by
        rw [Nat.cast_sub (by omega), Nat.cast_sub (by omega)]; simp
      have hs := pos_swap (x := x) (m := (e.nx : ℝ) - 1) hne
      have hs' : (x - e.sibdry) / (e.simagx - e.sibdry) * ((e.nx : ℝ) - 1) = e.nx - 1 - pos e x := hs
      refine ⟨_, interp_between hn hba hfr hu' hv' ?_ ?_, ?_⟩
      · rw [hs', hc]; linarith
      · rw [hs', hc]; linarith
      · rw [hs', hc]
        have := FOf.inside (e := e) (psi := x) k _ _ hu hv k2 k3
        convert this using 1
        ring

/-- Beyond the axis, if ψ decreases from the axis on, the value at the boundary is used. -/
theorem fpolAt_beyond {e : Eqd} (hn : 2 ≤ e.nx) (hf : e.fpol.length = e.nx)
    (hba : e.sibdry < e.simagx) {x : ℝ} (hx : e.simagx < x) : fpolAt e x = e.fpol.getLast? := by
  have hlast : e.fpol.getLast? = some (e.fpol[e.nx - 1]) := by
    rw [List.getLast?_eq_getElem?, show e.fpol.length - 1 = e.nx - 1 by omega, List.getElem?_eq_getElem]
  have hhead : e.fpol.head? = some (e.fpol[0]'(by omega)) := by
    rw [List.head?_eq_getElem?, List.getElem?_eq_getElem]
  have hfr : e.fpol.reverse.length = e.nx := by rw [List.length_reverse, hf]
  unfold fpolAt
  dsimp only
  rw [if_neg (by rw [length_linspace, hf]; simp)]
  simp only [hlast, hhead]
  rw [if_neg (not_lt.2 hba.le), reverse_linspace hn, interp_right hn hba hfr hx]

theorem at2_some {m : List (List ℝ)} {i j : ℕ} {x : ℝ} :
    at2 m i j = some x ↔ ∃ row, m[i]? = some row ∧ row[j]? = some x := by
  unfold at2; rw [Option.bind_eq_some_iff]

theorem at2_dropRow {m : List (List ℝ)} {b : Bool} {i j : ℕ} :
    at2 (dropRow b m) i j = at2 m (i + if b then 1 else 0) j := by
  unfold at2 dropRow
  cases b
  · rfl
  · simp [List.getElem?_drop, Nat.add_comm]

theorem at2_map {m : List (List ℝ)} {f : ℝ → ℝ} {i j : ℕ} :
    at2 (m.map (List.map f)) i j = (at2 m i j).map f := by
  unfold at2
  rw [List.getElem?_map]
  cases m[i]? <;> simp

/-- What the input has, for a file in the convention of the code. -/
theorem toB2d_spec {e : Eqd} (h : Valid e)
    (hx : ∀ i j x, at2 e.psi i j = some x → e.simagx < e.sibdry ∨ 0 ≤ pos e x) :
    ∃ b, toB2d e = some b ∧ b.nr = (if e.rleft = 0 then e.nx - 1 else e.nx) ∧
      b.rmax = e.rleft + e.rdim ∧
      b.rmin = (if e.rleft = 0 then (e.rleft + e.rdim) / (e.nx : ℝ) else e.rleft) ∧
      b.nz = e.ny ∧ b.zmin = e.zmid - 1 / 2 * e.zdim ∧ b.zmax = e.zmid + 1 / 2 * e.zdim ∧
      b.axisr = e.rmagx ∧ b.axisz = e.zmagx ∧ b.psi0 = e.simagx ∧ b.psi1 = e.sibdry ∧
      ∀ i j x, at2 e.psi (i + if e.rleft = 0 then 1 else 0) j = some x →
        at2 b.psi i j = some x ∧ at2 b.br i j = some 0 ∧ at2 b.bz i j = some 0 ∧
        ∃ v, FOf e x v ∧ at2 b.bphi i j = some (v / rOf b i) := by
  have hrow : ∀ row ∈ e.psi, ∃ y, row.mapM (fpolAt e) = some y := by
    intro row hr
    obtain ⟨i, hi⟩ := List.getElem?_of_mem hr
    obtain ⟨r, h1, -⟩ := mapM_spec (f := fpolAt e) (l := row) (by
      intro x hxr
      obtain ⟨j, hj⟩ := List.getElem?_of_mem hxr
      obtain ⟨v, hv, -⟩ := fpolAt_spec h.nx h.flux h.fpol (hx i j x (at2_some.2 ⟨row, hi, hj⟩))
      exact ⟨v, hv⟩)
    exact ⟨r, h1⟩
  obtain ⟨f, hf, hlen, hf2⟩ := mapM_spec hrow
  have hfat : ∀ i j x, at2 e.psi i j = some x → ∃ v, FOf e x v ∧ at2 f i j = some v := by
    intro i j x hij
    obtain ⟨row, h1, h2⟩ := at2_some.1 hij
    obtain ⟨y, y1, y2⟩ := hf2 i row h1
    obtain ⟨r, r1, -, r3⟩ := mapM_spec (f := fpolAt e) (l := row) (by
      intro x hxr
      obtain ⟨j, hj⟩ := List.getElem?_of_mem hxr
      obtain ⟨v, hv, -⟩ := fpolAt_spec h.nx h.flux h.fpol (hx i j x (at2_some.2 ⟨row, h1, hj⟩))
      exact ⟨v, hv⟩)
    rw [r1] at y2
    cases y2
    obtain ⟨v, v1, v2⟩ := r3 j x h2
    obtain ⟨w, w1, w2⟩ := fpolAt_spec h.nx h.flux h.fpol (hx i j x hij)
    rw [w1] at v2
    cases v2
    exact ⟨v, w2, at2_some.2 ⟨y, y1, v1⟩⟩
  have hnx := h.nx
  unfold toB2d
  dsimp only
  rw [hf]
  refine ⟨_, rfl, rfl, rfl, ?_, rfl, rfl, rfl, rfl, rfl, rfl, rfl, ?_⟩
  · dsimp only
    split_ifs with h0
    · rw [show e.nx - 1 + 1 = e.nx by omega]
    · rfl
  · intro i j x hij
    dsimp only
    have hd : decide (e.nx ≠ if e.rleft = 0 then e.nx - 1 else e.nx) = decide (e.rleft = 0) := by
      rw [decide_eq_decide]
      split_ifs with h0
      · exact ⟨fun _ => h0, fun _ => by omega⟩
      · exact ⟨fun h => absurd rfl h, fun h => absurd h h0⟩
    rw [hd, at2_dropRow, at2_dropRow, at2_map]
    simp only [decide_eq_true_eq]
    rw [hij]
    refine ⟨rfl, by simp, by simp, ?_⟩
    obtain ⟨v, v1, v2⟩ := hfat _ _ _ hij
    refine ⟨v, v1, ?_⟩
    have hv3 : at2 (dropRow (decide (e.rleft = 0)) f) i j = some v := by
      rw [at2_dropRow]; simpa only [decide_eq_true_eq] using v2
    obtain ⟨row, w1, w2⟩ := at2_some.1 hv3
    obtain ⟨row', u1, -⟩ := at2_some.1 hij
    have hi : i < (if e.rleft = 0 then e.nx - 1 else e.nx) := by
      have := (List.getElem?_eq_some_iff.1 u1).1
      rw [h.psi.1] at this
      split_ifs at this ⊢ <;> omega
    have hr : at2 (List.zipWith (fun row r => row.map (· / r)) (dropRow (decide (e.rleft = 0)) f)
        (linspace (if e.rleft = 0 then (e.rleft + e.rdim) /
          ((if e.rleft = 0 then e.nx - 1 else e.nx) + 1 : ℕ) else e.rleft) (e.rleft + e.rdim)
          (if e.rleft = 0 then e.nx - 1 else e.nx))) i j = (row.map (· / ((if e.rleft = 0 then
            (e.rleft + e.rdim) / ((if e.rleft = 0 then e.nx - 1 else e.nx) + 1 : ℕ) else e.rleft) +
            (i : ℝ) * ((e.rleft + e.rdim - (if e.rleft = 0 then (e.rleft + e.rdim) /
          ((if e.rleft = 0 then e.nx - 1 else e.nx) + 1 : ℕ) else e.rleft)) /
            ((if e.rleft = 0 then e.nx - 1 else e.nx) - 1 : ℕ)))))[j]? := by
      unfold at2
      rw [List.getElem?_zipWith, w1, getElem?_linspace hi]
      rfl
    refine hr.trans ?_
    · rw [List.getElem?_map, w2, Option.map_some]
      congr 2
      unfold rOf
      dsimp only
      congr 3
      have : 1 ≤ if e.rleft = 0 then e.nx - 1 else e.nx := by split_ifs <;> omega
      rw [Nat.cast_sub this, Nat.cast_one]

end Ascot.Geqdsk
