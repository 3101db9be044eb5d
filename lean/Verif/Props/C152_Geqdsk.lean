import Verif.Lemmas.Geqdsk
import Verif.Props.C151_Cocos

set_option linter.unusedSectionVars false
set_option linter.unusedSimpArgs false

/-!
# C152: the magnetic field of an equilibrium file is imported as it is

For an equilibrium file in any convention the input has the values of the file at the positions of the
file: the flux, and the toroidal field `F(ψ) / R`, with `F` linear between its samples and constant
outside the plasma.

Proved if the grid does not begin at `R = 0`, and if no value of ψ is beyond that at the axis
(`imported_partial`).  Otherwise the values are at other positions than in the file (`left_zero`), and the
toroidal field near the axis is that of the boundary (`beyond_axis`).
-/
namespace Ascot.C152

open Cocos Equilibrium EqField Geqdsk

theorem flux_ascot (x : ℝ) : flux ascot x = -x := by simp [flux, ascot, sRpZ, sBp, turn]
theorem ccw_ascot (x : ℝ) : ccw ascot x = x := by simp [ccw, ascot, sRpZ]

theorem isCocos_ascot : IsCocos ascot := Or.inl ⟨by decide, by decide⟩

theorem pos_flux (n : ℤ) (e : Eqd) (x : ℝ) :
    pos e x = (flux n x - flux n e.simagx) / (flux n e.sibdry - flux n e.simagx) * (e.nx - 1) := by
  unfold pos flux
  rw [← mul_sub, ← mul_sub, mul_div_mul_left]
  exact div_ne_zero (mul_ne_zero (ne_of_sq (sq_sRpZ n)) (ne_of_sq (sq_sBp n))) (turn_pos n).ne'

theorem same_pos {n m : ℤ} {e b : Eqd} (h : Same n e m b) {x y : ℝ} (hxy : flux n x = flux m y) :
    pos e x = pos b y := by
  rw [pos_flux n, pos_flux m, hxy, h.simagx, h.sibdry, h.nx]

theorem map_get {f g : ℝ → ℝ} {l l' : List ℝ} (h : l.map f = l'.map g) {k : ℕ} {y : ℝ}
    (hy : l'[k]? = some y) : ∃ x, l[k]? = some x ∧ f x = g y := by
  have := congrArg (·[k]?) h
  simp only [List.getElem?_map, hy, Option.map_some] at this
  exact Option.map_eq_some_iff.1 this

theorem map_get2 {f g : ℝ → ℝ} {l l' : List (List ℝ)} (h : l.map (List.map f) = l'.map (List.map g))
    {i j : ℕ} {x : ℝ} (hx : at2 l i j = some x) : ∃ y, at2 l' i j = some y ∧ f x = g y := by
  have := congrArg (at2 · i j) h
  simp only [at2_map, hx, Option.map_some] at this
  obtain ⟨y, h1, h2⟩ := Option.map_eq_some_iff.1 this.symm
  exact ⟨y, h1, h2.symm⟩

/-- The profile in another convention. -/
theorem same_F {n : ℤ} {e b : Eqd} (h : Same n e ascot b) {x y v : ℝ} (hxy : flux n x = flux ascot y)
    (hv : FOf b y v) : ∃ w, FOf e x w ∧ v = ccw n w := by
  have hp := same_pos h hxy
  cases hv with
  | inside k u v h1 h2 h3 h4 =>
    obtain ⟨u', u1, u2⟩ := map_get h.fpol h1
    obtain ⟨v', v1, v2⟩ := map_get h.fpol h2
    rw [ccw_ascot] at u2 v2
    refine ⟨_, .inside k u' v' u1 v1 (hp ▸ h3) (hp ▸ h4), ?_⟩
    rw [← u2, ← v2, hp]
    unfold ccw
    ring
  | outside v h1 h2 =>
    rw [List.getLast?_eq_getElem?] at h1
    obtain ⟨u', u1, u2⟩ := map_get h.fpol h1
    rw [ccw_ascot] at u2
    have hl : e.fpol.length = b.fpol.length := by simpa using congrArg List.length h.fpol
    refine ⟨u', .outside u' (by rw [List.getLast?_eq_getElem?, hl]; exact u1) ?_, u2.symm⟩
    rw [hp, h.nx]; exact h2
  | axis v h1 h2 =>
    rw [List.head?_eq_getElem?] at h1
    obtain ⟨u', u1, u2⟩ := map_get h.fpol h1
    rw [ccw_ascot] at u2
    exact ⟨u', .axis u' (by rw [List.head?_eq_getElem?]; exact u1) (hp ▸ h2), u2.symm⟩

theorem shape_of_map {f g : ℝ → ℝ} : ∀ {l l' : List (List ℝ)} {n k : ℕ},
    l.map (List.map f) = l'.map (List.map g) → Shape l n k → Shape l' n k := by
  intro l l' n k h hs
  have hl : l.length = l'.length := by simpa using congrArg List.length h
  refine ⟨hl ▸ hs.1, fun row hr => ?_⟩
  obtain ⟨i, hi⟩ := List.getElem?_of_mem hr
  have := congrArg (·[i]?) h
  simp only [List.getElem?_map, hi, Option.map_some] at this
  obtain ⟨r, r1, r2⟩ := Option.map_eq_some_iff.1 this
  have e1 := congrArg List.length r2
  simp only [List.length_map] at e1
  rw [← e1]
  exact hs.2 r (List.mem_of_getElem? r1)

theorem valid_same {n m : ℤ} {e b : Eqd} (h : Same n e m b) (hv : Valid e) : Valid b where
  nx := h.nx ▸ hv.nx
  ny := h.ny ▸ hv.ny
  flux := by
    intro hb
    apply hv.flux
    apply flux_inj (n := n)
    rw [h.simagx, h.sibdry, hb]
  fpol := by
    have hl : e.fpol.length = b.fpol.length := by simpa using congrArg List.length h.fpol
    rw [← hl, hv.fpol, h.nx]
  psi := by
    rw [← h.nx, ← h.ny]
    exact shape_of_map h.psi hv.psi

/-- The file is converted first, whatever its convention. -/
theorem import_eq {n : ℤ} (hn : IsCocos n) (e : Eqd) (cw wb : Bool) :
    ∃ b, Same n e ascot b ∧ importField e (some n) cw wb = toB2d b := by
  obtain ⟨b, h1, h2⟩ := C151.converted hn isCocos_ascot e cw wb
  have h0 : n ≠ 0 := by unfold IsCocos at hn; omega
  refine ⟨b, h2, ?_⟩
  unfold importField
  by_cases h3 : n = ascot
  · subst h3
    rw [C151.unique h2 (C151.same_refl ascot e)]
    simp [h0]
  · simp only [if_neg h0, if_pos h3, ne_eq, not_false_eq_true, h1, h3, if_true]

/-- The convention need not be given. -/
theorem import_unknown {n : ℤ} (hn : IsCocos n) {e : Eqd} (h : Consistent n e) (cw wb : Bool)
    (hc : cw = decide (n % 2 = 0)) (hw : wb = decide (n ≤ 8)) :
    importField e none cw wb = importField e (some n) cw wb := by
  subst hc hw
  have h0 : n ≠ 0 := by unfold IsCocos at hn; omega
  unfold importField
  simp only [C151.recognised hn h, if_neg h0]

/-- A file whose grid does not begin at `R = 0`. -/
theorem imported_partial {n : ℤ} (hn : IsCocos n) {e : Eqd} (hv : Valid e) (h0 : e.rleft ≠ 0)
    (hx : ∀ i j x, at2 e.psi i j = some x → flux n e.sibdry < flux n e.simagx ∨ 0 ≤ pos e x)
    (cw wb : Bool) :
    ∃ b, importField e (some n) cw wb = some b ∧ b.nr = e.nx ∧ b.nz = e.ny ∧
      b.axisr = e.rmagx ∧ b.axisz = e.zmagx ∧
      flux ascot b.psi0 = flux n e.simagx ∧ flux ascot b.psi1 = flux n e.sibdry ∧
      ∀ i j x, at2 e.psi i j = some x →
        rOf b i = rAt e i ∧ zOf b j = zAt e j ∧ at2 b.br i j = some 0 ∧ at2 b.bz i j = some 0 ∧
        (∃ p, at2 b.psi i j = some p ∧ flux ascot p = flux n x) ∧
        ∃ v, FOf e x v ∧ at2 b.bphi i j = some (ccw n v / rAt e i) := by
  obtain ⟨d, hs, hi⟩ := import_eq hn e cw wb
  have hd := valid_same hs hv
  obtain ⟨b, b0, b1, b2, b3, b4, b5, b6, b7, b8, b9, b10, b11⟩ := toB2d_spec hd (by
    intro i j y hy
    obtain ⟨x, x1, x2⟩ := map_get2 hs.psi.symm hy
    rcases hx i j x x1 with h | h
    · left
      rw [hs.sibdry, hs.simagx, flux_ascot, flux_ascot] at h
      linarith
    · right; rw [← same_pos hs x2.symm]; exact h)
  have hr0 : d.rleft ≠ 0 := hs.rleft ▸ h0
  rw [if_neg hr0] at b1 b3
  have hny : e.ny ≠ 1 := by have := hv.ny; omega
  refine ⟨b, hi.trans b0, b1.trans hs.nx.symm, b4.trans hs.ny.symm, b7.trans hs.rmagx.symm,
    b8.trans hs.zmagx.symm, by rw [b9, hs.simagx], by rw [b10, hs.sibdry], ?_⟩
  intro i j x hij
  have hr : rOf b i = rAt e i := by
    unfold rOf rAt
    rw [b1, b2, b3, ← hs.rleft, ← hs.rdim, ← hs.nx]
    ring
  obtain ⟨y, y1, y2⟩ := map_get2 hs.psi hij
  have hij' : at2 d.psi (i + if d.rleft = 0 then 1 else 0) j = some y := by
    rw [if_neg hr0]; exact y1
  obtain ⟨p1, p2, p3, v, p4, p5⟩ := b11 i j y hij'
  obtain ⟨w, w1, w2⟩ := same_F hs y2 p4
  refine ⟨hr, ?_, p2, p3, ⟨y, p1, y2.symm⟩, w, w1, ?_⟩
  · unfold zOf zAt
    rw [b4, b5, b6, ← hs.zmid, ← hs.zdim, ← hs.ny]
    ring
  · rw [p5, w2, hr]

/-- A file whose grid begins at `R = 0`: the values of all columns but the last are put at positions at which
they are not in the file. -/
theorem left_zero {n : ℤ} (hn : IsCocos n) {e : Eqd} (hv : Valid e) (h0 : e.rleft = 0) (h3 : 3 ≤ e.nx)
    (hd : 0 < e.rdim)
    (hx : ∀ i j x, at2 e.psi i j = some x → flux n e.sibdry < flux n e.simagx ∨ 0 ≤ pos e x)
    (cw wb : Bool) :
    ∃ b, importField e (some n) cw wb = some b ∧ b.nr = e.nx - 1 ∧
      ∀ i j x, at2 e.psi (i + 1) j = some x → (∃ p, at2 b.psi i j = some p ∧ flux ascot p = flux n x) ∧
        (i + 2 < e.nx → rOf b i < rAt e (i + 1)) := by
  obtain ⟨d, hs, hi⟩ := import_eq hn e cw wb
  have hd' := valid_same hs hv
  obtain ⟨b, b0, b1, b2, b3, b4, b5, b6, b7, b8, b9, b10, b11⟩ := toB2d_spec hd' (by
    intro i j y hy
    obtain ⟨x, x1, x2⟩ := map_get2 hs.psi.symm hy
    rcases hx i j x x1 with h | h
    · left
      rw [hs.sibdry, hs.simagx, flux_ascot, flux_ascot] at h
      linarith
    · right; rw [← same_pos hs x2.symm]; exact h)
  have hr0 : d.rleft = 0 := hs.rleft ▸ h0
  rw [if_pos hr0] at b1 b3
  refine ⟨b, hi.trans b0, b1.trans (by rw [hs.nx]), ?_⟩
  intro i j x hij
  obtain ⟨y, y1, y2⟩ := map_get2 hs.psi hij
  have hij' : at2 d.psi (i + if d.rleft = 0 then 1 else 0) j = some y := by
    rw [if_pos hr0]; exact y1
  obtain ⟨p1, -⟩ := b11 i j y hij'
  refine ⟨⟨y, p1, y2.symm⟩, fun hi2 => ?_⟩
  unfold rOf rAt
  rw [b1, b2, b3, hr0, h0, ← hs.rdim, ← hs.nx, Nat.cast_sub (by omega)]
  push_cast
  have k1 : (3 : ℝ) ≤ e.nx := by exact_mod_cast h3
  have k2 : ((i : ℝ) + 2) < e.nx := by exact_mod_cast hi2
  have k3 : (0 : ℝ) < (e.nx : ℝ) - 1 := by linarith
  have k4 : (0 : ℝ) < (e.nx : ℝ) - 1 - 1 := by linarith
  have k5 : (0 : ℝ) < e.nx := by linarith
  have key : (0 + ((i : ℝ) + 1) * (e.rdim / (e.nx - 1))) - ((0 + e.rdim) / e.nx +
      i * ((0 + e.rdim - (0 + e.rdim) / e.nx) / (e.nx - 1 - 1))) =
      e.rdim * (e.nx - 2 - i) / (e.nx * (e.nx - 1) * (e.nx - 1 - 1)) := by
    field_simp
    ring
  have : 0 < e.rdim * (e.nx - 2 - i) / (e.nx * (e.nx - 1) * (e.nx - 1 - 1)) :=
    div_pos (mul_pos hd (by linarith)) (mul_pos (mul_pos k5 k3) k4)
  linarith

/-- If ψ decreases from the axis to the boundary, then the toroidal field function at a value above that at the
axis is that of the boundary. -/
theorem beyond_axis {e : Eqd} (hv : Valid e) (hba : e.sibdry < e.simagx) {x : ℝ} (hx : e.simagx < x) :
    fpolAt e x = e.fpol.getLast? ∧ (∀ v, FOf e x v → e.fpol.head? = some v) := by
  refine ⟨fpolAt_beyond hv.nx hv.fpol hba hx, ?_⟩
  have hnd : e.sibdry - e.simagx < 0 := sub_neg.2 hba
  have hnr : (1 : ℝ) < e.nx := by exact_mod_cast (by have := hv.nx; omega : 1 < e.nx)
  have hp : pos e x < 0 := by
    unfold pos
    exact mul_neg_of_neg_of_pos (div_neg_of_pos_of_neg (by linarith) hnd) (by linarith)
  intro v h
  cases h with
  | inside k u v h1 h2 h3 h4 =>
    have : (0 : ℝ) ≤ k := Nat.cast_nonneg k
    linarith
  | outside v h1 h2 => linarith
  | axis v h1 h2 => exact h1

/-- The wall: the points of the file but the last, which is the first again. -/
theorem wall {n : ℤ} (hn : IsCocos n) {e : Eqd} (h : Consistent n e) :
    importWall e (decide (n % 2 = 0)) (decide (n ≤ 8)) =
      some (e.rlim.length - 1, e.rlim.dropLast, e.zlim.dropLast) := by
  unfold importWall
  rw [C151.recognised hn h]
  dsimp only
  obtain ⟨i, hi, -⟩ := cocos_eq hn
  obtain ⟨o, ho, -⟩ := cocos_eq isCocos_ascot
  by_cases h3 : n = ascot
  · rw [if_neg (not_not.2 h3)]
  · rw [if_pos h3, hi, ho]
    dsimp only
    rw [transform_eq hn isCocos_ascot hi ho]
    simp only [scale_one]

/-! ## Examples: the hypotheses can be met -/

/-- A file in convention 12 with three columns. -/
noncomputable def file (left : ℝ) : Eqd :=
  { nx := 3, ny := 2, rdim := 2, zdim := 2, rcentr := 2, rleft := left, zmid := 0, rmagx := 2, zmagx := 0,
    simagx := 0, sibdry := -5, bcentr := 3, cpasma := -1, fpol := [6, 7, 8], pres := [1, 1, 0],
    ffprime := [0, 0, 0], pprime := [1, 1, 1], psi := [[-5, -5], [-1, -2], [-7, -5]],
    qpsi := [-1, -2, -3], rbdry := [], zbdry := [], rlim := [1, 2, 1], zlim := [0, 1, 0] }

theorem valid_file (l : ℝ) : Valid (file l) := by
  refine ⟨by simp [file], by simp [file], by simp [file], rfl, rfl, ?_⟩
  intro row hr
  simp [file] at hr
  rcases hr with rfl | rfl | rfl <;> rfl

theorem is12 : IsCocos 12 := Or.inr ⟨by decide, by decide⟩

theorem not_beyond (l : ℝ) : ∀ i j x, at2 (file l).psi i j = some x →
    flux 12 (file l).sibdry < flux 12 (file l).simagx ∨ 0 ≤ pos (file l) x := by
  intro i j x h
  right
  obtain ⟨row, h1, h2⟩ := at2_some.1 h
  have h3 := List.mem_of_getElem? h1
  have h4 := List.mem_of_getElem? h2
  simp [file] at h3
  have : x ≤ 0 := by
    rcases h3 with rfl | rfl | rfl <;> simp at h4 <;> (try rcases h4 with rfl | rfl) <;> (try subst h4) <;>
      norm_num
  unfold pos
  simp only [file]
  have : (0 : ℝ) ≤ (x - 0) / (-5 - 0) := by
    rw [le_div_iff_of_neg (by norm_num)]; linarith
  push_cast
  linarith

example : ∃ b, importField (file 1) (some 12) true false = some b ∧ b.nr = 3 ∧
    (∃ p, at2 b.psi 1 1 = some p ∧ flux ascot p = flux 12 (-2)) ∧
    ∃ v, FOf (file 1) (-2) v ∧ at2 b.bphi 1 1 = some (ccw 12 v / rAt (file 1) 1) := by
  obtain ⟨b, h1, h2, -, -, -, -, -, h3⟩ :=
    imported_partial is12 (valid_file 1) (by simp [file]) (not_beyond 1) true false
  obtain ⟨-, -, -, -, h4, h5⟩ := h3 1 1 (-2) rfl
  exact ⟨b, h1, h2, h4, h5⟩

example : ∃ b, importField (file 0) (some 12) true false = some b ∧ b.nr = 2 ∧ rOf b 0 < rAt (file 0) 1 := by
  obtain ⟨b, h1, h2, h3⟩ := left_zero is12 (valid_file 0) (by simp [file]) (by simp [file])
    (by simp [file]) (not_beyond 0) true false
  exact ⟨b, h1, h2, (h3 0 0 (-1) rfl).2 (by simp [file])⟩

example : (file 1).sibdry < (file 1).simagx ∧ (file 1).simagx < 1 ∧
    (file 1).fpol.getLast? ≠ (file 1).fpol.head? := by
  simp [file]

theorem consistent_file (l : ℝ) : Consistent 12 (file l) := by
  refine ⟨?_, -1, rfl, ?_⟩
  · have := Real.pi_pos
    simp [flux, ccw, file, sRpZ, sBp, turn]
    exact mul_neg_of_neg_of_pos (div_neg_of_neg_of_pos (by norm_num) (by positivity)) (by norm_num)
  · simp [safety, ccw, file, sRpZ, sRtp]

example : importWall (file 1) true false = some (2, [1, 2], [0, 1]) :=
  wall is12 (consistent_file 1)

example : importField (file 1) none true false = importField (file 1) (some 12) true false :=
  import_unknown is12 (consistent_file 1) _ _ (by decide) (by decide)

end Ascot.C152
