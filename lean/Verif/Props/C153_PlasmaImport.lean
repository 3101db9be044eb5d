import Verif.Lemmas.PlasmaImport

set_option linter.unusedSectionVars false
set_option linter.unusedSimpArgs false

/-!
# C153: imported plasma profiles are those of the data, and the plasma is quasi-neutral

Each profile is that of the data, linear between the given positions, and decays exponentially outside of
the plasma, but not below the limit (`imported`, `imported_dict`).  If the data are quasi-neutral, or if
fractions of ions are given, then the input is quasi-neutral.

For data from files this is proved if they end within the plasma or if nothing is extrapolated
(`neutral_partial`), and for fractions always (`neutral_fractions`).  It does not hold for data beyond
`rho = 1` (`beyond_one`), and for data in a dictionary it fails wherever the limit is reached
(`dict_not_neutral`).
-/
namespace Ascot.C153

open PlasmaImport ImportedPlasma

theorem mapM_forall {α β : Type} {f : α → Option β} : ∀ {l : List α} {r : List β}, l.mapM f = some r →
    List.Forall₂ (fun x y => f x = some y) l r
  | [], r, h => by simp at h; subst h; exact .nil
  | a :: l, r, h => by
    rw [List.mapM_cons] at h
    simp only [Option.bind_eq_bind, Option.bind_eq_some_iff, Option.pure_def, Option.some.injEq] at h
    obtain ⟨y, h1, ys, h2, rfl⟩ := h
    exact .cons h1 (mapM_forall h2)

theorem mapM_some {α β : Type} {f : α → Option β} {l : List α} (h : ∀ x ∈ l, ∃ y, f x = some y) :
    ∃ r, l.mapM f = some r := by
  obtain ⟨r, h, -⟩ := Geqdsk.mapM_spec h
  exact ⟨r, h⟩

/-- Nothing is extrapolated, or up to a position outside of the plasma. -/
def Covers (a : Args) : Prop := ∀ x, a.extrapolate = some x → 1 ≤ x ∧ 2 ≤ a.nrho

theorem isProfile {a : Args} (ha : Covers a) {rad val : List ℝ} (h : Good rad val) (lim : ℝ) :
    ∃ out, profile a rad val lim = some out ∧
      IsProfile a.squared a.nrho a.extrapolate a.len lim rad val out := by
  cases he : a.extrapolate with
  | none =>
    obtain ⟨v, h1, h2, h3⟩ := profile_inside h he lim
    exact ⟨v, h1, h2, h3⟩
  | some x =>
    obtain ⟨hx, hn⟩ := ha x he
    obtain ⟨m, m1, m2, m3⟩ := first_outside hx hn
    obtain ⟨v, h1, h2, h3⟩ := profile_outside h he lim m1 m2 m3
    exact ⟨v, h1, h2, m, m1, m2, m3, h3⟩

theorem good_last {rad val : List ℝ} (h : Good rad val) : ∃ l, val.getLast? = some l := by
  have hne : val ≠ [] := by
    intro hv
    have hl := h.length
    rw [hv] at hl
    exact h.ne (List.length_eq_zero_iff.1 hl.symm)
  exact ⟨_, List.getLast?_eq_some_getLast hne⟩

/-- Data from files. -/
theorem imported {a : Args} (ha : Covers a) {ne te ti : Table} {ni : List Table} (he : Good ne.1 ne.2)
    (het : Good te.1 te.2) (hit : Good ti.1 ti.2) (hi : ∀ t ∈ ni, Good t.1 t.2) {ne0 : ℝ}
    (h0 : ne.2.getLast? = some ne0) (h00 : ne0 ≠ 0) :
    ∃ p, importTables a ne te ti ni = some p ∧ p.rho = rho a ∧
      IsProfile a.squared a.nrho a.extrapolate a.len a.nmin ne.1 ne.2 p.edensity ∧
      IsProfile a.squared a.nrho a.extrapolate a.len a.Tmin te.1 te.2 p.etemperature ∧
      IsProfile a.squared a.nrho a.extrapolate a.len a.Tmin ti.1 ti.2 p.itemperature ∧
      List.Forall₂ (fun t out => ∃ l, t.2.getLast? = some l ∧
        IsProfile a.squared a.nrho a.extrapolate a.len (a.nmin * l / ne0) t.1 t.2 out) ni p.idensity := by
  obtain ⟨e, e1, e2⟩ := isProfile ha he a.nmin
  obtain ⟨et, f1, f2⟩ := isProfile ha het a.Tmin
  obtain ⟨it, g1, g2⟩ := isProfile ha hit a.Tmin
  obtain ⟨r, hr⟩ := mapM_some (l := ni) (f := ionProfile a ne0) (by
    intro t ht
    obtain ⟨l, hl⟩ := good_last (hi t ht)
    obtain ⟨v, hv, -⟩ := isProfile ha (hi t ht) (a.nmin * l / ne0)
    exact ⟨v, by unfold ionProfile; rw [hl]; exact hv⟩)
  refine ⟨⟨rho a, e, et, it, r⟩, ?_, rfl, e2, f2, g2, ?_⟩
  · unfold importTables
    rw [h0]
    dsimp only
    rw [if_neg h00, e1, f1, g1, hr]
  · have hf := mapM_forall hr
    rw [List.forall₂_iff_get] at hf ⊢
    refine ⟨hf.1, fun i h1 h2 => ?_⟩
    have hx := hf.2 i h1 h2
    have hg := hi _ (List.get_mem ni ⟨i, h1⟩)
    obtain ⟨l, hl⟩ := good_last hg
    obtain ⟨v, hv, hv'⟩ := isProfile ha hg (a.nmin * l / ne0)
    unfold ionProfile at hx
    rw [hl] at hx
    dsimp only at hx
    rw [hv] at hx
    cases hx
    exact ⟨l, hl, hv'⟩

/-- The grid of the input. -/
theorem grid (a : Args) {i : ℕ} (h : i < a.nrho) :
    (rho a).length = a.nrho ∧ (rho a)[i]? = some (node (a.extrapolate.getD 1) a.nrho i) :=
  ⟨length_rho a, rho_get h⟩

/-- Data in a dictionary. -/
theorem imported_dict {a : Args} (ha : Covers a) {rad ne te ti vtor : List ℝ} {ni : List (List ℝ)}
    (he : Good rad ne) (het : Good rad te) (hit : Good rad ti) (hv : Good rad vtor)
    (hi : ∀ n ∈ ni, Good rad n) {v0 : ℝ} (h0 : vtor.getLast? = some v0) :
    ∃ p v, importDict a rad ne te ti vtor ni = some (p, v) ∧ p.rho = rho a ∧
      IsProfile a.squared a.nrho a.extrapolate a.len a.nmin rad ne p.edensity ∧
      IsProfile a.squared a.nrho a.extrapolate a.len a.Tmin rad te p.etemperature ∧
      IsProfile a.squared a.nrho a.extrapolate a.len a.Tmin rad ti p.itemperature ∧
      List.Forall₂ (IsProfile a.squared a.nrho a.extrapolate a.len a.nmin rad) ni p.idensity ∧
      IsProfile a.squared a.nrho a.extrapolate a.len v0 rad vtor v := by
  obtain ⟨e, e1, e2⟩ := isProfile ha he a.nmin
  obtain ⟨et, f1, f2⟩ := isProfile ha het a.Tmin
  obtain ⟨it, g1, g2⟩ := isProfile ha hit a.Tmin
  obtain ⟨v, v1, v2⟩ := isProfile ha hv v0
  obtain ⟨r, hr⟩ := mapM_some (l := ni) (f := fun n => profile a rad n a.nmin) (by
    intro n hn
    obtain ⟨v, hv, -⟩ := isProfile ha (hi n hn) a.nmin
    exact ⟨v, hv⟩)
  refine ⟨⟨rho a, e, et, it, r⟩, v, ?_, rfl, e2, f2, g2, ?_, v2⟩
  · unfold importDict
    rw [h0]
    dsimp only
    rw [e1, f1, g1, hr, v1]
  · have hf := mapM_forall hr
    rw [List.forall₂_iff_get] at hf ⊢
    refine ⟨hf.1, fun i h1 h2 => ?_⟩
    have hx := hf.2 i h1 h2
    have hg := hi _ (List.get_mem ni ⟨i, h1⟩)
    obtain ⟨v, hv, hv'⟩ := isProfile ha hg a.nmin
    rw [hv] at hx
    cases hx
    exact hv'

/-- An extrapolation that ends within the plasma is refused. -/
theorem too_short {a : Args} {x : ℝ} (he : a.extrapolate = some x) (h0 : 0 ≤ x) (h1 : x < 1)
    (rad val : List ℝ) (lim : ℝ) : profile a rad val lim = none := by
  unfold profile
  split
  · split
    · rfl
    · rename_i v hv
      rw [he]
      dsimp only
      have : ((rho a).zip v).find? (fun p => decide (1 ≤ p.1)) = none := by
        rw [List.find?_eq_none]
        intro p hp
        have hm := (List.of_mem_zip (a := p.1) (b := p.2) hp).1
        obtain ⟨i, hi⟩ := List.getElem?_of_mem hm
        have hlt : i < a.nrho := by rw [← length_rho a]; exact (List.getElem?_eq_some_iff.1 hi).1
        rw [rho_get hlt, Option.some.injEq] at hi
        have : ending a = x := by rw [ending, he]; rfl
        rw [this] at hi
        have := node_le h0 hlt
        simp only [decide_eq_true_eq, not_le]
        rw [← hi]
        linarith
      rw [this]
  · rfl

/-! ## Values -/

theorem at_mem_bounds {rad val : List ℝ} (hp : rad.Pairwise (· < ·)) (hl : val.length = rad.length) {x y lo : ℝ}
    (h : At rad val x y) (hlo : ∀ v ∈ val, lo < v) : lo < y := by
  have hr : rad ≠ [] := by
    rintro rfl
    cases h with
    | between k a b u v h1 => simp at h1
    | left a u h1 => simp at h1
    | right a u h1 => simp at h1
  obtain ⟨i, j, t, t0, t1, hi, hj, ht⟩ := at_mean hr hp x
  have g1 := List.getElem?_eq_getElem (hl ▸ hi : i < val.length)
  have g2 := List.getElem?_eq_getElem (hl ▸ hj : j < val.length)
  rw [at_unique hp hl h (ht val _ _ hl g1 g2)]
  have b1 := hlo _ (List.getElem_mem (hl ▸ hi : i < val.length))
  have b2 := hlo _ (List.getElem_mem (hl ▸ hj : j < val.length))
  rcases t0.lt_or_eq with h' | h'
  · nlinarith [mul_pos h' (sub_pos.2 b2), mul_nonneg (sub_nonneg.2 t1) (sub_pos.2 b1).le]
  · rw [← h']; linarith

/-- If all values of the data are positive and the limit is positive, then all values of the input
are positive, and outside of the plasma they are not below the limit. -/
theorem positive {a : Args} (ha : Covers a) {rad val out : List ℝ} (h : Good rad val) {lim : ℝ}
    (hpos : ∀ v ∈ val, 0 < v) (ho : profile a rad val lim = some out) :
    (∀ v ∈ out, 0 < v) ∧
      ∀ x, a.extrapolate = some x → ∀ i, 1 ≤ node x a.nrho i → ∀ v, out[i]? = some v → lim ≤ v := by
  obtain ⟨out', h1, hl, h2⟩ := isProfile ha h lim
  rw [ho] at h1
  cases h1
  obtain ⟨g1, g2, g3⟩ := good_positions (s := a.squared) h
  cases he : a.extrapolate with
  | none =>
    rw [he] at h2
    refine ⟨fun v hv => ?_, by simp⟩
    obtain ⟨i, hi⟩ := List.getElem?_of_mem hv
    have hin : i < a.nrho := hl ▸ (List.getElem?_eq_some_iff.1 hi).1
    obtain ⟨y, y1, y2⟩ := h2 i hin
    rw [hi] at y1; cases y1
    exact at_mem_bounds g3 g2 y2 hpos
  | some x =>
    rw [he] at h2
    obtain ⟨m, m1, m2, m3, h3⟩ := h2
    refine ⟨fun v hv => ?_, fun x' hx' i hi v hv => ?_⟩
    · obtain ⟨i, hi⟩ := List.getElem?_of_mem hv
      have hin : i < a.nrho := hl ▸ (List.getElem?_eq_some_iff.1 hi).1
      rcases lt_or_ge (node x a.nrho i) 1 with hlt | hge
      · obtain ⟨y, y1, y2⟩ := (h3 i hin).1 hlt
        rw [hi] at y1; cases y1
        exact at_mem_bounds g3 g2 y2 hpos
      · obtain ⟨y, y1, y2⟩ := (h3 i hin).2 hge
        rw [hi] at y2; cases y2
        exact lt_max_of_lt_left (mul_pos (at_mem_bounds g3 g2 y1 hpos) (Real.exp_pos _))
    · cases hx'
      have hin : i < a.nrho := hl ▸ (List.getElem?_eq_some_iff.1 hv).1
      obtain ⟨y, -, y2⟩ := (h3 i hin).2 hi
      rw [hv] at y2; cases y2
      exact le_max_right _ _

/-! ## Quasi-neutrality -/

/-- The data do not go beyond the plasma. -/
def Within (a : Args) (rad : List ℝ) : Prop := ∀ r ∈ positions a.squared rad, r ≤ 1

theorem at_last {rad val : List ℝ} (hr : rad ≠ []) (hp : rad.Pairwise (· < ·)) (hl : val.length = rad.length)
    {x y l : ℝ} (hx : ∀ r ∈ rad, r ≤ x) (hv : val.getLast? = some l) (h : At rad val x y) : y = l := by
  have h1 := List.getLast?_eq_some_getLast hr
  exact at_unique hp hl h (.right _ l h1 hv (hx _ (List.getLast_mem hr)))

/-- Quasi-neutral data in one file that end within the plasma, or are not extrapolated. -/
theorem neutral_partial {a : Args} (ha : Covers a) {rad ne : List ℝ} {te ti : Table}
    {ni : List (List ℝ)} (he : Good rad ne) (het : Good te.1 te.2) (hit : Good ti.1 ti.2)
    (hi : ∀ n ∈ ni, Good rad n) {ne0 : ℝ} (h0 : ne.getLast? = some ne0) (h00 : 0 < ne0)
    (hn0 : ∀ n ∈ ni, ∀ l, n.getLast? = some l → 0 ≤ l)
    (hw : a.extrapolate ≠ none → Within a rad) {q : List ℝ} (hq : QuasiNeutral q ne ni) :
    ∃ p, importTables a (rad, ne) te ti (ni.map fun n => (rad, n)) = some p ∧
      QuasiNeutral q p.edensity p.idensity := by
  obtain ⟨p, p0, -, p1, -, -, p4⟩ := imported ha (ne := (rad, ne)) (ni := ni.map fun n => (rad, n)) he het hit
    (by simpa using hi) h0 h00.ne'
  refine ⟨p, p0, ?_⟩
  rw [List.forall₂_map_left_iff] at p4
  dsimp only at p1 p4
  obtain ⟨g1, g2, g3⟩ := good_positions (s := a.squared) he
  obtain ⟨hl, hp⟩ := p1
  -- positions within the plasma
  have inside : ∀ k x r, p.edensity[k]? = some x → At (positions a.squared rad) ne r x →
      List.Forall₂ (fun n out => n ∈ ni → ∃ y, out[k]? = some y ∧ At (positions a.squared rad) n r y) ni
        p.idensity → charge q p.idensity k = some x := by
    intro k x r hx hat hf
    obtain ⟨i, j, t, -, -, hi', hj', ht⟩ := at_mean g1 g3 r
    have gi := List.getElem?_eq_getElem (g2 ▸ hi' : i < ne.length)
    have gj := List.getElem?_eq_getElem (g2 ▸ hj' : j < ne.length)
    rw [at_unique g3 g2 hat (ht ne _ _ g2 gi gj)]
    refine charge_lin ?_ (hq _ _ gi) (hq _ _ gj)
    rw [List.forall₂_iff_get] at hf ⊢
    refine ⟨hf.1, fun c c1 c2 => ?_⟩
    intro u v hu hv
    have hmem := List.get_mem ni ⟨c, c1⟩
    obtain ⟨y, y1, y2⟩ := hf.2 c c1 c2 hmem
    obtain ⟨-, n2, -⟩ := good_positions (s := a.squared) (hi _ hmem)
    rw [y1, at_unique g3 n2 y2 (ht _ _ _ n2 hu hv)]
  intro k x hx
  have hk : k < a.nrho := hl ▸ (List.getElem?_eq_some_iff.1 hx).1
  cases hex : a.extrapolate with
  | none =>
    rw [hex] at hp p4
    obtain ⟨y, y1, y2⟩ := hp k hk
    rw [hx] at y1; cases y1
    refine inside k x _ hx y2 (p4.imp fun n out h _ => ?_)
    obtain ⟨l, -, -, h2⟩ := h
    exact h2 k hk
  | some z =>
    have hw' := hw (by rw [hex]; simp)
    rw [hex] at hp p4
    obtain ⟨m, m1, m2, m3, hp⟩ := hp
    rcases lt_or_ge (node z a.nrho k) 1 with hlt | hge
    · obtain ⟨y, y1, y2⟩ := (hp k hk).1 hlt
      rw [hx] at y1; cases y1
      refine inside k x _ hx y2 (p4.imp fun n out h _ => ?_)
      obtain ⟨l, -, -, m', -, -, -, h2⟩ := h
      exact (h2 k hk).1 hlt
    · obtain ⟨y, y1, y2⟩ := (hp k hk).2 hge
      have hy := at_last g1 g3 g2 (fun r hr => (hw' r hr).trans m2) h0 y1
      subst hy
      rw [hx] at y2
      set E := Real.exp (-(node z a.nrho k - 1) / a.len) with hE
      cases y2
      have hlast : ne[ne.length - 1]? = some y := by rw [← List.getLast?_eq_getElem?]; exact h0
      have hlast' := hq _ _ hlast
      have e1 : max (y * E) a.nmin = max (y * E) a.nmin / y * y + 0 * y := by field_simp; ring
      rw [e1]
      refine charge_lin (i := ne.length - 1) (j := ne.length - 1) ?_ hlast' hlast'
      rw [List.forall₂_iff_get] at p4 ⊢
      refine ⟨p4.1, fun c c1 c2 => ?_⟩
      intro u v hu _
      have hmem := List.get_mem ni ⟨c, c1⟩
      have hlen : (ni.get ⟨c, c1⟩).length = ne.length := (hi _ hmem).length.trans he.length.symm
      obtain ⟨l, l1, -, m', n1, n2, n3, h2⟩ := p4.2 c c1 c2
      have hul : u = l := by
        rw [List.getLast?_eq_getElem?, hlen, hu] at l1
        exact Option.some.inj l1
      subst hul
      obtain ⟨w, w1, w2⟩ := (h2 k hk).2 hge
      obtain ⟨-, gn, -⟩ := good_positions (s := a.squared) (hi _ hmem)
      have := at_last g1 g3 gn (fun r hr => (hw' r hr).trans n2) l1 w1
      subst this
      rw [w2]
      have hw0 := hn0 _ hmem w l1
      congr 1
      rw [zero_mul, add_zero]
      rw [show w * Real.exp (-(node z a.nrho k - 1) / a.len) = w / y * (y * E) by
          rw [hE]; field_simp,
        show a.nmin * w / y = w / y * a.nmin by ring, ← mul_max_of_nonneg _ _ (div_nonneg hw0 h00.le)]
      ring

/-! ### Fractions -/

theorem fold_get {k : ℕ} : ∀ {ns : List (List ℝ)} {qs : List ℝ} {s : List ℝ} {y C : ℝ},
    charge qs ns k = some C → s[k]? = some y →
    ((ns.zip qs).foldl (fun s x => List.zipWith (· + ·) s (x.1.map (· * x.2))) s)[k]? = some (y + C)
  | [], [], s, y, C, hC, hs => by
    simp [charge] at hC; subst hC; simpa using hs
  | [], _ :: _, _, _, _, hC, _ => by simp [charge] at hC
  | _ :: _, [], _, _, _, hC, _ => by simp [charge] at hC
  | n :: ns, q :: qs, s, y, C, hC, hs => by
    simp only [charge, Option.bind_eq_some_iff, Option.map_eq_some_iff] at hC
    obtain ⟨x, x1, C', c1, rfl⟩ := hC
    rw [List.zip_cons_cons, List.foldl_cons]
    have : (List.zipWith (· + ·) s (n.map (· * q)))[k]? = some (y + x * q) := by
      simp [List.getElem?_zipWith, hs, x1]
    rw [fold_get c1 this]
    congr 1
    ring

theorem charge_append {k : ℕ} {c x C : ℝ} {n : List ℝ} (hn : n[k]? = some x) :
    ∀ {qs : List ℝ} {ns : List (List ℝ)}, charge qs ns k = some C →
    charge (qs ++ [c]) (ns ++ [n]) k = some (C + c * x)
  | [], [], h => by simp [charge] at h; subst h; simp [charge, hn]
  | [], _ :: _, h => by simp [charge] at h
  | _ :: _, [], h => by simp [charge] at h
  | q :: qs, m :: ns, h => by
    simp only [charge, Option.bind_eq_some_iff, Option.map_eq_some_iff] at h
    obtain ⟨x', x1, C', c1, rfl⟩ := h
    simp only [List.cons_append, charge, x1, charge_append hn c1, Option.bind_some, Option.map_some,
      Option.some.injEq]
    ring

theorem charge_fractions {k : ℕ} {n : List ℝ} {x : ℝ} (hx : n[k]? = some x) :
    ∀ {frac qs : List ℝ}, frac.length = qs.length →
    ∃ C, charge qs (frac.map fun f => n.map (· * f)) k = some C
  | [], [], _ => ⟨0, rfl⟩
  | [], _ :: _, h => by simp at h
  | _ :: _, [], h => by simp at h
  | f :: fs, q :: qs, h => by
    obtain ⟨C, hC⟩ := charge_fractions hx (frac := fs) (qs := qs) (by simpa using h)
    exact ⟨q * (x * f) + C, by simp [charge, hx, hC]⟩

/-- If fractions are given then the plasma is quasi-neutral: the density of each species but the last is its
fraction of the given density, and that of the last, which is not negative, is what is needed. -/
theorem neutral_fractions {frac q : List ℝ} {p p' : Plasma} {n : List ℝ} (hf : frac ≠ [])
    (h : withFractions frac q p = some p') (hn : p.idensity = [n]) (h1 : p.edensity.length = p.rho.length)
    (h2 : n.length = p.rho.length) :
    QuasiNeutral q p'.edensity p'.idensity ∧ p'.edensity = p.edensity ∧
      p'.idensity.length = q.length ∧ p'.idensity.length = frac.length + 1 ∧
      (∀ (j : ℕ) (f : ℝ), frac[j]? = some f → p'.idensity[j]? = some (n.map (· * f))) ∧
      ∀ last c, p'.idensity.getLast? = some last → q.getLast? = some c → ∀ v ∈ last, 0 ≤ v * c := by
  unfold withFractions at h
  rw [if_neg hf, hn] at h
  dsimp only at h
  by_cases hlen : frac.length + 1 = q.length
  swap
  · rw [if_pos hlen] at h; cases h
  rw [if_neg (not_not.2 hlen)] at h
  cases hc : q.getLast? with
  | none => rw [hc] at h; cases h
  | some c =>
    rw [hc] at h
    dsimp only at h
    have hqne : q ≠ [] := by rintro rfl; simp at hc
    have hq : q = q.dropLast ++ [c] := by
      have := List.dropLast_append_getLast hqne
      rw [List.getLast?_eq_some_getLast hqne, Option.some.injEq] at hc
      rw [← hc]; exact this.symm
    have hdl : frac.length = q.dropLast.length := by rw [List.length_dropLast]; omega
    set new := frac.map fun f => n.map (· * f) with hnew
    have hz : new.zip q = new.zip q.dropLast := by
      conv_lhs => rw [hq, ← List.append_nil new]
      rw [List.zip_append (by simp [hnew, hdl]), List.zip_nil_left, List.append_nil]
    rw [hz] at h
    set Q := (new.zip q.dropLast).foldl (fun s x => List.zipWith (· + ·) s (x.1.map (· * x.2)))
      (p.rho.map fun _ => (0 : ℝ)) with hQ
    by_cases hany : (List.zipWith (· - ·) p.edensity Q).any (fun x => decide (x < 0)) = true
    · rw [if_pos hany] at h; cases h
    rw [if_neg hany] at h
    by_cases hc0 : c = 0
    · rw [if_pos hc0] at h; cases h
    rw [if_neg hc0] at h
    cases h
    refine ⟨?_, rfl, by simp [hnew, hlen], by simp [hnew], ?_, ?_⟩
    · intro k x hx
      dsimp only at hx ⊢
      have hk : k < p.rho.length := h1 ▸ (List.getElem?_eq_some_iff.1 hx).1
      have hnk := List.getElem?_eq_getElem (h2 ▸ hk : k < n.length)
      obtain ⟨C, hC⟩ := charge_fractions hnk hdl
      have hQk : Q[k]? = some C := by
        rw [hQ, fold_get hC (y := 0) (by simp [hk])]; simp
      have hr : ((List.zipWith (· - ·) p.edensity Q).map (· / c))[k]? = some ((x - C) / c) := by
        simp [List.getElem?_zipWith, hx, hQk]
      conv_lhs => rw [hq]
      rw [charge_append hr hC]
      congr 1
      field_simp
      ring
    · intro j f hj
      have : j < new.length := by
        rw [hnew, List.length_map]; exact (List.getElem?_eq_some_iff.1 hj).1
      rw [List.getElem?_append_left this, hnew, List.getElem?_map, hj, Option.map_some]
    · intro last c' hl hc' v hv
      cases hc'
      simp only [List.getLast?_append, List.getLast?_singleton, Option.some_or, Option.some.injEq] at hl
      subst hl
      rw [List.mem_map] at hv
      obtain ⟨w, hw, rfl⟩ := hv
      rw [div_mul_cancel₀ _ hc0]
      by_contra hneg
      apply hany
      rw [List.any_eq_true]
      exact ⟨w, hw, by simpa using hneg⟩

/-! ### Where it fails -/

theorem at_mem_le {rad val : List ℝ} (hp : rad.Pairwise (· < ·)) (hl : val.length = rad.length) {x y c : ℝ}
    (h : At rad val x y) (hc : ∀ v ∈ val, v ≤ c) : y ≤ c := by
  have hr : rad ≠ [] := by
    rintro rfl
    cases h with
    | between k a b u v h1 => simp at h1
    | left a u h1 => simp at h1
    | right a u h1 => simp at h1
  obtain ⟨i, j, t, t0, t1, hi, hj, ht⟩ := at_mean hr hp x
  have g1 := List.getElem?_eq_getElem (hl ▸ hi : i < val.length)
  have g2 := List.getElem?_eq_getElem (hl ▸ hj : j < val.length)
  rw [at_unique hp hl h (ht val _ _ hl g1 g2)]
  have b1 := hc _ (List.getElem_mem (hl ▸ hi : i < val.length))
  have b2 := hc _ (List.getElem_mem (hl ▸ hj : j < val.length))
  nlinarith [mul_nonneg t0 (sub_nonneg.2 b2), mul_nonneg (sub_nonneg.2 t1) (sub_nonneg.2 b1)]

theorem charge_const {k : ℕ} {c : ℝ} : ∀ {q : List ℝ} {ns : List (List ℝ)}, q.length = ns.length →
    (∀ n ∈ ns, n[k]? = some c) → charge q ns k = some (q.sum * c)
  | [], [], _, _ => by simp [charge]
  | [], _ :: _, h, _ => by simp at h
  | _ :: _, [], h, _ => by simp at h
  | q :: qs, n :: ns, h, hn => by
    simp only [charge, hn n List.mem_cons_self, charge_const (q := qs) (ns := ns) (by simpa using h)
      (fun m hm => hn m (List.mem_cons_of_mem _ hm)), Option.bind_some, Option.map_some, List.sum_cons,
      Option.some.injEq]
    ring

/-- Data in a dictionary: where all densities have decayed to the limit, the charge of the ions is that of the
electrons times the sum of the charge numbers. -/
theorem dict_not_neutral {a : Args} (ha : Covers a) {x : ℝ} (hx : a.extrapolate = some x)
    {rad ne te ti vtor : List ℝ} {ni : List (List ℝ)} (he : Good rad ne) (het : Good rad te) (hit : Good rad ti)
    (hv : Good rad vtor) (hi : ∀ n ∈ ni, Good rad n) {k : ℕ} (hk : k < a.nrho) (hk1 : 1 ≤ node x a.nrho k)
    (hs : ∀ n ∈ ne :: ni, ∀ v ∈ n, v ≤ a.nmin / Real.exp (-(node x a.nrho k - 1) / a.len))
    {q : List ℝ} (hq : q.length = ni.length) (hsum : q.sum ≠ 1) (hn : a.nmin ≠ 0) :
    ∃ p v, importDict a rad ne te ti vtor ni = some (p, v) ∧ p.edensity[k]? = some a.nmin ∧
      charge q p.idensity k = some (q.sum * a.nmin) ∧ ¬ QuasiNeutral q p.edensity p.idensity := by
  obtain ⟨v0, h0⟩ := good_last hv
  obtain ⟨p, v, p0, -, p1, -, -, p4, -⟩ := imported_dict ha he het hit hv hi h0
  obtain ⟨g1, g2, g3⟩ := good_positions (s := a.squared) he
  have key : ∀ n out, n ∈ ne :: ni → Good rad n →
      IsProfile a.squared a.nrho a.extrapolate a.len a.nmin rad n out → out[k]? = some a.nmin := by
    intro n out hn hg hp
    rw [hx] at hp
    obtain ⟨-, m, -, -, -, hp⟩ := hp
    obtain ⟨y, y1, y2⟩ := (hp k hk).2 hk1
    obtain ⟨-, n2, -⟩ := good_positions (s := a.squared) hg
    have := at_mem_le g3 n2 y1 (hs n hn)
    rw [y2, max_eq_right]
    rwa [le_div_iff₀ (Real.exp_pos _)] at this
  have e1 := key ne p.edensity List.mem_cons_self he p1
  have e2 : charge q p.idensity k = some (q.sum * a.nmin) := by
    refine charge_const (hq.trans p4.length_eq) fun out ho => ?_
    obtain ⟨i, hi', rfl⟩ := List.mem_iff_getElem.1 ho
    rw [List.forall₂_iff_get] at p4
    have i2 : i < ni.length := p4.1 ▸ hi'
    have hm := List.get_mem ni ⟨i, i2⟩
    exact key _ _ (List.mem_cons_of_mem _ hm) (hi _ hm) (p4.2 i i2 hi')
  refine ⟨p, v, p0, e1, e2, fun hqn => ?_⟩
  have := hqn k _ e1
  rw [e2, Option.some.injEq] at this
  exact hsum (mul_right_cancel₀ hn (this.trans (one_mul _).symm))

/-- The toroidal rotation decays outside of the plasma if it is negative, and not if it is
positive. -/
theorem rotation {a : Args} (ha : Covers a) {x : ℝ} (hx : a.extrapolate = some x) {rad vtor : List ℝ}
    (hv : Good rad vtor) (hw : Within a rad) {v0 : ℝ} (h0 : vtor.getLast? = some v0) (hpos : 0 < v0)
    (hlen : 0 < a.len) {k : ℕ} (hk : k < a.nrho) (hk1 : 1 < node x a.nrho k) :
    ∃ o o' E, profile a rad vtor v0 = some o ∧ profile a rad (vtor.map (- ·)) (-v0) = some o' ∧
      o[k]? = some v0 ∧ o'[k]? = some (-(v0 * E)) ∧ E < 1 := by
  have hv' : Good rad (vtor.map (- ·)) := ⟨hv.ne, by simp [hv.length], hv.increasing, hv.nonneg⟩
  have h0' : (vtor.map (- ·)).getLast? = some (-v0) := by rw [List.getLast?_map, h0]; rfl
  obtain ⟨o, o1, o2⟩ := isProfile ha hv v0
  obtain ⟨o', n1, n2⟩ := isProfile ha hv' (-v0)
  obtain ⟨g1, g2, g3⟩ := good_positions (s := a.squared) hv
  obtain ⟨-, g4, -⟩ := good_positions (s := a.squared) hv'
  rw [hx] at o2 n2
  obtain ⟨-, m, -, m2, -, o3⟩ := o2
  obtain ⟨-, m', -, m2', -, n3⟩ := n2
  obtain ⟨y, y1, y2⟩ := (o3 k hk).2 hk1.le
  obtain ⟨z, z1, z2⟩ := (n3 k hk).2 hk1.le
  rw [at_last g1 g3 g2 (fun r hr => (hw r hr).trans m2) h0 y1] at y2
  rw [at_last g1 g3 g4 (fun r hr => (hw r hr).trans m2') h0' z1] at z2
  set E := Real.exp (-(node x a.nrho k - 1) / a.len) with hE
  have hE1 : E < 1 := by
    rw [hE, Real.exp_lt_one_iff]
    exact div_neg_of_neg_of_pos (by linarith) hlen
  have hlt : v0 * E < v0 := by nlinarith
  refine ⟨o, o', E, o1, n1, ?_, ?_, hE1⟩
  · rw [y2, max_eq_right hlt.le]
  · rw [z2, neg_mul, max_eq_left (by linarith)]

/-- Extrapolation to 1 from two positions. -/
noncomputable def two : Args := ⟨2, some 1, 1, false, 1, 10⟩

theorem profile_two (u v lim : ℝ) : profile two [0, 2] [u, v] lim = some [u, max ((u + v) / 2) lim] := by
  have hr : rho two = [0, 1] := by
    simp [rho, two, Geqdsk.linspace, List.range_succ]
  have i0 : Geqdsk.interp 0 [(0, u), (2, v)] u v = some u := by simp [Geqdsk.interp, Geqdsk.seg]
  have i1 : Geqdsk.interp 1 [(0, u), (2, v)] u v = some ((u + v) / 2) := by
    have : ¬ (1 : ℝ) < 0 := by norm_num
    simp [Geqdsk.interp, Geqdsk.seg, this]; ring
  unfold profile
  simp only [List.head?_cons, List.getLast?_cons_cons, List.getLast?_singleton, hr]
  have hz : (radgrid two [0, 2]).zip [u, v] = [(0, u), (2, v)] := rfl
  rw [hz]
  simp [i0, i1, two]

/-- Data beyond `rho = 1`: quasi-neutral data from a file give an input that is not. -/
theorem beyond_one : ∃ (a : Args) (rad ne : List ℝ) (t : Table) (ni : List (List ℝ)) (q : List ℝ) (p : Plasma),
    Covers a ∧ Good rad ne ∧ Good t.1 t.2 ∧ (∀ n ∈ ni, Good rad n) ∧ QuasiNeutral q ne ni ∧
      importTables a (rad, ne) t t (ni.map fun n => (rad, n)) = some p ∧
      ¬ QuasiNeutral q p.edensity p.idensity := by
  have good : ∀ u v : ℝ, Good [0, 2] [u, v] := fun u v => ⟨by simp, rfl, by simp, by simp⟩
  refine ⟨two, [0, 2], [1, 1], ([0, 2], [1, 1]), [[1, 0], [0, 1]], [1, 1],
    ⟨rho two, [1, 10], [1, 1], [1, 1], [[1, 1 / 2], [0, 10]]⟩, ?_, good _ _, good _ _, ?_, ?_, ?_, ?_⟩
  · intro x hx
    simp [two] at hx
    subst hx
    exact ⟨le_rfl, by simp [two]⟩
  · intro n hn
    simp at hn
    rcases hn with rfl | rfl <;> exact good _ _
  · intro k x hk
    match k with
    | 0 => simp at hk; subst hk; simp [charge]
    | 1 => simp at hk; subst hk; simp [charge]
    | k + 2 => simp at hk
  · have e1 : max ((1 + 1) / 2 : ℝ) two.nmin = 10 := by norm_num [two]
    have e2 : max ((1 + 1) / 2 : ℝ) two.Tmin = 1 := by norm_num [two]
    have e3 : max ((1 + 0) / 2 : ℝ) (two.nmin * 0 / 1) = 1 / 2 := by norm_num [two]
    have e4 : max ((0 + 1) / 2 : ℝ) (two.nmin * 1 / 1) = 10 := by norm_num [two]
    simp only [importTables, ionProfile, List.getLast?_cons_cons, List.getLast?_singleton, one_ne_zero, if_false,
      profile_two, List.map_cons, List.map_nil, List.mapM_cons, List.mapM_nil, e1, e2, e3, e4,
      Option.pure_def, Option.bind_eq_bind, Option.bind_some]
  · intro h
    have := h 1 10 rfl
    simp [charge] at this

/-! ## Examples: the hypotheses can be met -/

theorem good_example (u v : ℝ) : Good [0, 1] [u, v] := ⟨by simp, rfl, by simp, by simp⟩

/-- A grid of three positions up to 2. -/
noncomputable def three (nmin : ℝ) : Args := ⟨3, some 2, 1 / 10, true, 10, nmin⟩

theorem covers_three (c : ℝ) : Covers (three c) := by
  intro x hx
  simp [three] at hx
  subst hx
  exact ⟨by norm_num, by simp [three]⟩

theorem within_three (c : ℝ) : Within (three c) [0, 1] := by
  intro r hr
  simp [positions, three] at hr
  rcases hr with rfl | rfl <;> norm_num

example : ∃ p, importTables (three 1) ([0, 1], [9, 8]) ([0, 1], [20, 15]) ([0, 1], [20, 15])
      ([[5, 4], [2, 2]].map fun n => ([0, 1], n)) = some p ∧ QuasiNeutral [1, 2] p.edensity p.idensity := by
  refine neutral_partial (covers_three 1) (good_example 9 8) (good_example 20 15) (good_example 20 15) ?_
    (ne0 := 8) rfl (by norm_num) ?_ (fun _ => within_three 1) ?_
  · intro n hn
    simp at hn
    rcases hn with rfl | rfl <;> exact good_example _ _
  · intro n hn l hl
    simp at hn
    rcases hn with rfl | rfl <;> simp at hl <;> subst hl <;> norm_num
  · intro k x hk
    match k with
    | 0 => simp at hk; subst hk; simp [charge]; norm_num
    | 1 => simp at hk; subst hk; simp [charge]; norm_num
    | k + 2 => simp at hk

example : ∃ p', withFractions [1 / 2] [1, 2] ⟨[0, 1], [4, 3], [], [], [[4, 2]]⟩ = some p' := by
  refine ⟨_, by simp [withFractions]; norm_num; rfl⟩

/-- Positions and data for `dict_not_neutral` and `rotation`. -/
example : 1 < node 2 (three 10).nrho 2 ∧
    ∀ n ∈ ([[4, 3], [2, 1], [2, 2]] : List (List ℝ)), ∀ v ∈ n,
      v ≤ (three 10).nmin / Real.exp (-(node 2 (three 10).nrho 2 - 1) / (three 10).len) := by
  have hn : node 2 (three 10).nrho 2 = 2 := by simp [node, three]; norm_num
  refine ⟨by rw [hn]; norm_num, fun n hn' v hv => ?_⟩
  rw [hn, le_div_iff₀ (Real.exp_pos _)]
  have h1 : Real.exp (-(2 - 1) / (three 10).len) ≤ 1 := by
    rw [Real.exp_le_one_iff]; simp [three]; norm_num
  have h2 : 0 < v ∧ v ≤ 4 := by
    simp at hn'
    rcases hn' with rfl | rfl | rfl <;> simp at hv <;> (try rcases hv with rfl | rfl) <;> (try subst hv) <;>
      norm_num
  have h3 : (three 10).nmin = 10 := rfl
  rw [h3]
  nlinarith [Real.exp_pos (-(2 - 1) / (three 10).len)]

end Ascot.C153
