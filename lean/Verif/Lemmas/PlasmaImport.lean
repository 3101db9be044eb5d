import Verif.Lemmas.Geqdsk
import Verif.Spec.ImportedPlasma

set_option linter.unusedSectionVars false
set_option linter.unusedSimpArgs false

/-! # Lemmas on the import of plasma profiles -/
namespace Ascot.PlasmaImport

open Geqdsk ImportedPlasma

/-- Where a position is in a table. -/
theorem loc (x : ℝ) : ∀ {rad : List ℝ}, rad ≠ [] → (∃ a, rad.head? = some a ∧ x ≤ a) ∨
    (∃ b, rad.getLast? = some b ∧ b ≤ x) ∨
    ∃ (k : ℕ) (a b : ℝ), rad[k]? = some a ∧ rad[k + 1]? = some b ∧ a ≤ x ∧ x ≤ b
  | [], h => absurd rfl h
  | [a], _ => by
    rcases le_total x a with h | h
    · exact Or.inl ⟨a, rfl, h⟩
    · exact Or.inr (Or.inl ⟨a, rfl, h⟩)
  | a :: b :: l, _ => by
    rcases le_total x a with h | h
    · exact Or.inl ⟨a, rfl, h⟩
    · right
      rcases loc x (rad := b :: l) (by simp) with ⟨c, h1, h2⟩ | ⟨c, h1, h2⟩ | ⟨k, c, d, h1, h2, h3, h4⟩
      · simp at h1
        subst h1
        exact Or.inr ⟨0, a, b, rfl, rfl, h, h2⟩
      · exact Or.inl ⟨c, by rw [List.getLast?_cons_cons]; exact h1, h2⟩
      · exact Or.inr ⟨k + 1, c, d, h1, h2, h3, h4⟩

theorem zip_pairwise : ∀ {rad : List ℝ}, rad.Pairwise (· < ·) → ∀ val : List ℝ,
    (rad.zip val).Pairwise fun x y => x.1 < y.1
  | [], _, val => by simp
  | a :: l, h, [] => by simp
  | a :: l, h, v :: val => by
    rw [List.zip_cons_cons, List.pairwise_cons]
    refine ⟨fun p hp => ?_, zip_pairwise (List.pairwise_cons.1 h).2 val⟩
    exact (List.pairwise_cons.1 h).1 _ (List.of_mem_zip (a := p.1) (b := p.2) hp).1

/-- The interpolation gives the value of the profile. -/
theorem interp_at {rad val : List ℝ} (hr : rad.Pairwise (· < ·)) (hl : val.length = rad.length)
    {x v f0 fn : ℝ} (h0 : val.head? = some f0) (hn : val.getLast? = some fn) (h : At rad val x v) :
    interp x (rad.zip val) f0 fn = some v := by
  have hp := zip_pairwise hr val
  cases rad with
  | nil =>
    rw [List.length_nil, List.length_eq_zero_iff] at hl
    subst hl; simp at h0
  | cons r rs =>
    cases val with
    | nil => simp at h0
    | cons w ws =>
      simp only [List.head?_cons, Option.some.injEq] at h0
      subst h0
      rw [List.zip_cons_cons] at hp ⊢
      unfold interp
      dsimp only
      cases h with
      | between k a b u v h1 h2 h3 h4 h5 h6 =>
        have z1 : ((r, w) :: rs.zip ws)[k]? = some (a, u) := by
          rw [← List.zip_cons_cons, List.getElem?_zip_eq_some]; exact ⟨h1, h3⟩
        have z2 : ((r, w) :: rs.zip ws)[k + 1]? = some (b, v) := by
          rw [← List.zip_cons_cons, List.getElem?_zip_eq_some]; exact ⟨h2, h4⟩
        have hra : r ≤ a := by
          cases k with
          | zero => simp at h1; rw [h1]
          | succ k => exact ((List.pairwise_cons.1 hr).1 _ (List.mem_of_getElem? (by simpa using h1))).le
        rw [if_neg (not_lt.2 (hra.trans h5)), seg_between hp z1 z2 h5 h6]
      | left a v h1 h2 h3 =>
        simp only [List.head?_cons, Option.some.injEq] at h1 h2
        subst h1 h2
        rcases h3.lt_or_eq with h | h
        · rw [if_pos h]
        · rw [if_neg (by rw [h]; exact lt_irrefl _), seg_at h.symm hp]
      | right b v h1 h2 h3 =>
        rw [hn] at h2
        have hfn : fn = v := Option.some.inj h2
        subst hfn
        have hrb : r ≤ b := by
          rcases List.mem_cons.1 (List.mem_of_getLast? h1) with h | h
          · exact h.ge
          · exact ((List.pairwise_cons.1 hr).1 _ h).le
        rw [if_neg (not_lt.2 (hrb.trans h3))]
        have z : ((r, w) :: rs.zip ws).getLast? = some (b, fn) := by
          rw [← List.zip_cons_cons, List.getLast?_eq_getElem?, List.getElem?_zip_eq_some]
          rw [List.getLast?_eq_getElem?] at h1 hn
          have e : ((r :: rs).zip (w :: ws)).length = (r :: rs).length := by
            rw [List.length_zip, hl, min_self]
          rw [e]
          exact ⟨h1, by rw [← hl]; exact hn⟩
        rcases h3.lt_or_eq with h | h
        · rw [seg_right hp z h]
        · subst h
          cases rs with
          | nil =>
            simp only [List.length_cons, List.length_nil, zero_add] at hl
            have hws : ws = [] := by
              rw [← List.length_eq_zero_iff]; omega
            subst hws
            simp at h1 hn
            subst h1 hn
            simp [seg]
          | cons r' rs =>
            have hlen : 2 ≤ (w :: ws).length := by rw [hl]; simp
            set n := (w :: ws).length - 2 with hndef
            have i1 : n < ((r, w) :: (r' :: rs).zip ws).length := by
              rw [← List.zip_cons_cons, List.length_zip, ← hl, min_self]; omega
            rw [List.getLast?_eq_getElem?] at z
            have e : ((r, w) :: (r' :: rs).zip ws).length - 1 = n + 1 := by
              rw [← List.zip_cons_cons, List.length_zip, ← hl, min_self]; omega
            rw [e] at z
            have hlt : (((r, w) :: (r' :: rs).zip ws)[n]'i1).1 < b := by
              have := (List.pairwise_iff_getElem.1 hp) n (n + 1) i1
                (List.getElem?_eq_some_iff.1 z).1 (by omega)
              rw [(List.getElem?_eq_some_iff.1 z).2] at this
              exact this
            rw [seg_between hp (List.getElem?_eq_getElem i1) z hlt.le le_rfl]
            dsimp only
            rw [div_self (sub_pos.2 hlt).ne']
            congr 1
            ring

theorem at_exists {rad val : List ℝ} (hr : rad ≠ []) (hl : val.length = rad.length) (x : ℝ) :
    ∃ v, At rad val x v := by
  have get : ∀ {k : ℕ} {a : ℝ}, rad[k]? = some a → ∃ u, val[k]? = some u := by
    intro k a h
    have hk : k < val.length := by rw [hl]; exact (List.getElem?_eq_some_iff.1 h).1
    exact ⟨_, List.getElem?_eq_getElem hk⟩
  rcases loc x hr with ⟨a, h1, h2⟩ | ⟨b, h1, h2⟩ | ⟨k, a, b, h1, h2, h3, h4⟩
  · have h1' := h1
    rw [List.head?_eq_getElem?] at h1'
    obtain ⟨u, hu⟩ := get h1'
    exact ⟨u, .left a u h1 (by rw [List.head?_eq_getElem?]; exact hu) h2⟩
  · have h1' := h1
    rw [List.getLast?_eq_getElem?] at h1'
    obtain ⟨u, hu⟩ := get h1'
    exact ⟨u, .right b u h1 (by rw [List.getLast?_eq_getElem?, hl]; exact hu) h2⟩
  · obtain ⟨u, hu⟩ := get h1
    obtain ⟨v, hv⟩ := get h2
    exact ⟨_, .between k a b u v h1 h2 hu hv h3 h4⟩

/-- The value is a mean of two values of the table, and which ones depends on the positions only. -/
theorem at_mean {rad : List ℝ} (hr : rad ≠ []) (hp : rad.Pairwise (· < ·)) (x : ℝ) :
    ∃ (i j : ℕ) (t : ℝ), 0 ≤ t ∧ t ≤ 1 ∧ i < rad.length ∧ j < rad.length ∧
      ∀ val u v, val.length = rad.length → val[i]? = some u → val[j]? = some v →
        At rad val x ((1 - t) * u + t * v) := by
  have hlen : 0 < rad.length := List.length_pos_of_ne_nil hr
  rcases loc x hr with ⟨a, h1, h2⟩ | ⟨b, h1, h2⟩ | ⟨k, a, b, h1, h2, h3, h4⟩
  · refine ⟨0, 0, 0, le_rfl, zero_le_one, hlen, hlen, ?_⟩
    intro val u v hl hu hv
    rw [show (1 - 0) * u + 0 * v = u by ring]
    exact .left a u h1 (by rw [List.head?_eq_getElem?]; exact hu) h2
  · refine ⟨rad.length - 1, rad.length - 1, 0, le_rfl, zero_le_one, by omega, by omega, ?_⟩
    intro val u v hl hu hv
    rw [show (1 - 0) * u + 0 * v = u by ring]
    exact .right b u h1 (by rw [List.getLast?_eq_getElem?, hl]; exact hu) h2
  · have k1 := (List.getElem?_eq_some_iff.1 h1).1
    have k2 := (List.getElem?_eq_some_iff.1 h2).1
    have hab : a < b := by
      have := List.pairwise_iff_getElem.1 hp k (k + 1) k1 k2 (by omega)
      rw [(List.getElem?_eq_some_iff.1 h1).2, (List.getElem?_eq_some_iff.1 h2).2] at this
      exact this
    have hd := sub_pos.2 hab
    refine ⟨k, k + 1, (x - a) / (b - a), div_nonneg (by linarith) hd.le,
      (div_le_one hd).2 (by linarith), k1, k2, ?_⟩
    intro val u v hl hu hv
    rw [show (1 - (x - a) / (b - a)) * u + (x - a) / (b - a) * v = u + (x - a) / (b - a) * (v - u) by ring]
    exact .between k a b u v h1 h2 hu hv h3 h4

/-- The value is unique. -/
theorem at_unique {rad val : List ℝ} (hr : rad.Pairwise (· < ·)) (hl : val.length = rad.length)
    {x v w : ℝ} (hv : At rad val x v) (hw : At rad val x w) : v = w := by
  have hne : val ≠ [] := by
    rintro rfl
    cases hv with
    | between k a b u v h1 h2 h3 => simp at h3
    | left a u h1 h2 => simp at h2
    | right a u h1 h2 => simp at h2
  have h0 := List.head?_eq_some_head hne
  have hn := List.getLast?_eq_some_getLast hne
  exact Option.some.inj ((interp_at hr hl h0 hn hv).symm.trans (interp_at hr hl h0 hn hw))

theorem good_positions {s : Bool} {rad val : List ℝ} (h : Good rad val) : positions s rad ≠ [] ∧
    val.length = (positions s rad).length ∧ (positions s rad).Pairwise (· < ·) := by
  unfold positions
  cases s
  · exact ⟨h.ne, h.length, h.increasing⟩
  · refine ⟨by simpa using h.ne, by simpa using h.length, ?_⟩
    simp only [if_true]
    rw [List.pairwise_map]
    exact h.increasing.imp_of_mem fun ha _ hab => Real.sqrt_lt_sqrt (h.nonneg _ ha) hab

theorem radgrid_eq (a : Args) (rad : List ℝ) : radgrid a rad = positions a.squared rad := rfl

/-- The end of the grid. -/
noncomputable def ending (a : Args) : ℝ := a.extrapolate.getD 1

theorem rho_eq (a : Args) : rho a = linspace 0 (ending a) a.nrho := by
  unfold rho ending
  cases a.extrapolate <;> rfl

theorem length_rho (a : Args) : (rho a).length = a.nrho := by rw [rho_eq, length_linspace]

theorem rho_get {a : Args} {i : ℕ} (h : i < a.nrho) : (rho a)[i]? = some (node (ending a) a.nrho i) := by
  rw [rho_eq, getElem?_linspace h, node]
  have : ((a.nrho - 1 : ℕ) : ℝ) = a.nrho - 1 := by rw [Nat.cast_sub (by omega)]; simp
  rw [this]
  congr 1
  ring

theorem node_le {x : ℝ} (hx : 0 ≤ x) {n i : ℕ} (h : i < n) : node x n i ≤ x := by
  unfold node
  rcases Nat.lt_or_ge 1 n with hn | hn
  · have h1 : (0 : ℝ) < n - 1 := by
      have : (1 : ℝ) < n := by exact_mod_cast hn
      linarith
    have h2 : (i : ℝ) ≤ n - 1 := by
      have : i + 1 ≤ n := h
      have : (i : ℝ) + 1 ≤ n := by exact_mod_cast this
      linarith
    rw [← mul_div_assoc, div_le_iff₀ h1, mul_comm]
    exact mul_le_mul_of_nonneg_left h2 hx
  · have : i = 0 := by omega
    subst this
    simpa using hx

theorem node_last {x : ℝ} {n : ℕ} (hn : 2 ≤ n) : node x n (n - 1) = x := by
  unfold node
  have h1 : (n : ℝ) - 1 ≠ 0 := by
    have : (2 : ℝ) ≤ n := by exact_mod_cast hn
    intro h; linarith
  rw [Nat.cast_sub (by omega), Nat.cast_one]
  field_simp

/-- The values before the extrapolation. -/
theorem values {a : Args} {rad val : List ℝ} (h : Good rad val) {f0 fn : ℝ} (h0 : val.head? = some f0)
    (hn : val.getLast? = some fn) :
    ∃ v, ((rho a).mapM fun x => interp x ((radgrid a rad).zip val) f0 fn) = some v ∧ v.length = a.nrho ∧
      ∀ i < a.nrho, ∃ y, v[i]? = some y ∧
        At (positions a.squared rad) val (node (ending a) a.nrho i) y := by
  obtain ⟨g1, g2, g3⟩ := good_positions (s := a.squared) h
  obtain ⟨v, h1, h2, h3⟩ := mapM_spec (l := rho a)
    (f := fun x => interp x ((radgrid a rad).zip val) f0 fn) (by
      intro x _
      obtain ⟨y, hy⟩ := at_exists g1 g2 x
      exact ⟨y, interp_at g3 g2 h0 hn hy⟩)
  refine ⟨v, h1, by rw [h2, length_rho], ?_⟩
  intro i hi
  obtain ⟨y, y1, y2⟩ := h3 i _ (rho_get hi)
  refine ⟨y, y1, ?_⟩
  obtain ⟨w, hw⟩ := at_exists g1 g2 (node (ending a) a.nrho i)
  rw [radgrid_eq, interp_at g3 g2 h0 hn hw] at y2
  cases y2
  exact hw

theorem find_first {l : List (ℝ × ℝ)} {i : ℕ} {p : ℝ × ℝ} (h1 : l[i]? = some p) (hp : 1 ≤ p.1)
    (h2 : ∀ j < i, ∀ q, l[j]? = some q → q.1 < 1) : l.find? (fun p => decide (1 ≤ p.1)) = some p := by
  induction l generalizing i with
  | nil => simp at h1
  | cons q l ih =>
    cases i with
    | zero =>
      simp at h1
      subst h1
      rw [List.find?_cons_of_pos (by simpa using hp)]
    | succ i =>
      have hq : ¬ 1 ≤ q.1 := not_le.2 (h2 0 (by omega) q rfl)
      rw [List.find?_cons_of_neg (by simpa using hq)]
      exact ih (by simpa using h1) fun j hj r hr => h2 (j + 1) (by omega) r (by simpa using hr)

/-- No extrapolation. -/
theorem profile_inside {a : Args} {rad val : List ℝ} (h : Good rad val) (he : a.extrapolate = none)
    (lim : ℝ) : ∃ v, profile a rad val lim = some v ∧ v.length = a.nrho ∧
      ∀ i < a.nrho, ∃ y, v[i]? = some y ∧ At (positions a.squared rad) val (node 1 a.nrho i) y := by
  have hne : val ≠ [] := by
    have := h.ne
    intro hv
    have hl := h.length
    rw [hv] at hl
    exact this (List.length_eq_zero_iff.1 hl.symm)
  have h0 := List.head?_eq_some_head hne
  have hn := List.getLast?_eq_some_getLast hne
  obtain ⟨v, h1, h2, h3⟩ := values (a := a) h h0 hn
  refine ⟨v, ?_, h2, ?_⟩
  · unfold profile
    rw [h0, hn]
    dsimp only
    rw [h1]
    dsimp only
    rw [he]
  · intro i hi
    have := h3 i hi
    rw [show ending a = 1 by rw [ending, he]; rfl] at this
    exact this

/-- With extrapolation; `m` is the first position not below 1. -/
theorem profile_outside {a : Args} {x : ℝ} {rad val : List ℝ} (h : Good rad val)
    (he : a.extrapolate = some x) (lim : ℝ) {m : ℕ} (hm : m < a.nrho) (hm1 : 1 ≤ node x a.nrho m)
    (hm2 : ∀ j < m, node x a.nrho j < 1) :
    ∃ v, profile a rad val lim = some v ∧ v.length = a.nrho ∧
      ∀ i < a.nrho,
        (node x a.nrho i < 1 → ∃ y, v[i]? = some y ∧ At (positions a.squared rad) val (node x a.nrho i) y) ∧
        (1 ≤ node x a.nrho i → ∃ y, At (positions a.squared rad) val (node x a.nrho m) y ∧
          v[i]? = some (max (y * Real.exp (-(node x a.nrho i - 1) / a.len)) lim)) := by
  have hne : val ≠ [] := by
    have := h.ne
    intro hv
    have hl := h.length
    rw [hv] at hl
    exact this (List.length_eq_zero_iff.1 hl.symm)
  have h0 := List.head?_eq_some_head hne
  have hn := List.getLast?_eq_some_getLast hne
  obtain ⟨v, h1, h2, h3⟩ := values (a := a) h h0 hn
  have hx : ending a = x := by rw [ending, he]; rfl
  rw [hx] at h3
  have zg : ∀ i, i < a.nrho → ∃ y, v[i]? = some y ∧ ((rho a).zip v)[i]? = some (node x a.nrho i, y) ∧
      At (positions a.squared rad) val (node x a.nrho i) y := by
    intro i hi
    obtain ⟨y, y1, y2⟩ := h3 i hi
    refine ⟨y, y1, ?_, y2⟩
    rw [List.getElem?_zip_eq_some]
    exact ⟨hx ▸ rho_get hi, y1⟩
  obtain ⟨w, w1, w2, w3⟩ := zg m hm
  have hf : ((rho a).zip v).find? (fun p => decide (1 ≤ p.1)) = some (node x a.nrho m, w) := by
    apply find_first w2 hm1
    intro j hj q hq
    obtain ⟨y, -, y2, -⟩ := zg j (by omega)
    rw [y2] at hq
    cases hq
    exact hm2 j hj
  refine ⟨((rho a).zip v).map fun q =>
      if 1 ≤ q.1 then max (w * Real.exp (-(q.1 - 1) / a.len)) lim else q.2, ?_, ?_, ?_⟩
  · unfold profile
    rw [h0, hn]
    dsimp only
    rw [h1]
    dsimp only
    rw [he]
    dsimp only
    rw [hf]
  · rw [List.length_map, List.length_zip, length_rho, h2, min_self]
  · intro i hi
    obtain ⟨y, y1, y2, y3⟩ := zg i hi
    refine ⟨fun hlt => ⟨y, ?_, y3⟩, fun hge => ⟨w, w3, ?_⟩⟩
    · rw [List.getElem?_map, y2, Option.map_some, if_neg (not_le.2 hlt)]
    · rw [List.getElem?_map, y2, Option.map_some, if_pos hge]

/-- The first position not below 1. -/
theorem first_outside {x : ℝ} (hx : 1 ≤ x) {n : ℕ} (hn : 2 ≤ n) :
    ∃ m < n, 1 ≤ node x n m ∧ ∀ j < m, node x n j < 1 := by
  classical
  have hex : ∃ m, 1 ≤ node x n m := ⟨n - 1, by rw [node_last hn]; exact hx⟩
  refine ⟨Nat.find hex, ?_, Nat.find_spec hex, fun j hj => not_le.1 (Nat.find_min hex hj)⟩
  have := Nat.find_min' hex (m := n - 1) (by rw [node_last hn]; exact hx)
  omega

/-- Charge densities of combinations. -/
theorem charge_lin {i j m : ℕ} {al be : ℝ} : ∀ {q : List ℝ} {ns ns' : List (List ℝ)} {U V : ℝ},
    List.Forall₂ (fun n n' => ∀ u v, n[i]? = some u → n[j]? = some v → n'[m]? = some (al * u + be * v))
      ns ns' → charge q ns i = some U → charge q ns j = some V →
    charge q ns' m = some (al * U + be * V)
  | [], [], ns', U, V, h, hU, hV => by
    cases h
    simp [charge] at hU hV ⊢
    rw [← hU, ← hV]; ring
  | [], _ :: _, _, _, _, _, hU, _ => by simp [charge] at hU
  | _ :: _, [], _, _, _, _, hU, _ => by simp [charge] at hU
  | q :: qs, n :: ns, _, U, V, h, hU, hV => by
    cases h with
    | cons h1 h2 =>
      simp only [charge, Option.bind_eq_some_iff, Option.map_eq_some_iff] at hU hV
      obtain ⟨u, u1, U', U1, rfl⟩ := hU
      obtain ⟨v, v1, V', V1, rfl⟩ := hV
      simp only [charge, h1 u v u1 v1, charge_lin h2 U1 V1, Option.bind_some, Option.map_some,
        Option.some.injEq]
      ring

end Ascot.PlasmaImport
