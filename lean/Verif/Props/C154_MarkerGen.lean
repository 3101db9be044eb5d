import Verif.Lemmas.MarkerGen

set_option linter.unusedSectionVars false
set_option linter.unusedSimpArgs false

/-!
# C154: markers generated from a distribution represent its particles

The markers of a cell together have the particles of that cell as weight, no marker has less than
the minimum weight, none is in a cell that the marker distribution leaves empty, and each marker is inside of its
cell.

Proved for distributions in `(R, φ, z)` and guiding centres.  For distributions in `(ρ, θ, φ)`
markers are placed into other cells (`rho_wrong_cell`, `rho_refused`), velocities of particles are those of another
momentum (`velocity_wrong`), the generation need not end (`never_ends`), and the returned distribution of markers is
not a distribution (`marker_dist_wrong`).
-/
namespace Ascot.C154

open MarkerGen Sampled

/-- What is sampled: the number of markers is right, all cells are possible, all weights are large enough, and the
markers of each cell that has any have the particles of the cell, whatever the random numbers are and in whatever
order they are put. -/
theorem sampled {nmrk fuel : ℕ} {prt mrk : List ℝ} {minw : ℝ} {rnd : ℕ → ℝ} {shuffle : List ℕ}
    {out : List (ℕ × ℝ)} (hm : ∀ v ∈ mrk, 0 ≤ v) (hr : ∀ k, 0 ≤ rnd k ∧ rnd k < 1)
    (hs : shuffle.Perm (List.range nmrk)) (h : sample nmrk prt mrk minw rnd fuel shuffle = some out) :
    out.length = nmrk ∧ (∀ x ∈ out, ∃ v, mrk[x.1]? = some v ∧ 0 < v) ∧ (∀ x ∈ out, minw ≤ x.2) ∧
      ∀ c, (∃ x ∈ out, x.1 = c) → prt[c]? = some (inside out c) := by
  unfold sample at h
  by_cases h0 : nmrk = 0
  · rw [if_pos h0] at h; cases h
  rw [if_neg h0] at h
  cases ht : thresholds mrk with
  | none => rw [ht] at h; cases h
  | some thr =>
    rw [ht] at h
    dsimp only at h
    cases hl : loop prt thr minw rnd fuel (List.replicate nmrk (0, true)) 0 with
    | none => rw [hl] at h; cases h
    | some l =>
      rw [hl] at h
      cases h
      obtain ⟨icell, w, rfl, h2, h3, h4, h5⟩ := loop_spec
        (P := fun c => ∃ v, mrk[c]? = some v ∧ 0 < v)
        (fun k => draw_spec hm ht (hr k).1 (hr k).2) fuel _ _ l (by
          intro x hx hf
          rw [List.eq_of_mem_replicate hx] at hf
          cases hf) hl
      rw [List.length_replicate] at h3
      obtain ⟨w1, w2⟩ := mapM_zip h2
      have hlen : (icell.zip w).length = nmrk := by rw [List.length_zip, w1, min_self, h3]
      have hp := shuffle_perm (l := icell.zip w) (s := shuffle) (by rw [hlen]; exact hs)
      refine ⟨by rw [hp.length_eq, hlen], ?_, ?_, ?_⟩
      · intro x hx
        exact h4 _ (List.of_mem_zip (a := x.1) (b := x.2) (hp.mem_iff.1 hx)).1
      · intro x hx
        exact h5 _ (List.of_mem_zip (a := x.1) (b := x.2) (hp.mem_iff.1 hx)).2
      · rintro c ⟨x, hx, rfl⟩
        rw [inside_perm hp]
        exact inside_weights h2 (List.of_mem_zip (a := x.1) (b := x.2) (hp.mem_iff.1 hx)).1

/-- Sum over cells. -/
theorem sum_inside : ∀ (n : ℕ) (l : List (ℕ × ℝ)), (∀ x ∈ l, x.1 < n) →
    ((List.range n).map (inside l)).sum = (l.map (·.2)).sum := by
  intro n l
  induction l with
  | nil =>
    intro _
    apply List.sum_eq_zero
    intro x hx
    obtain ⟨c, -, rfl⟩ := List.mem_map.1 hx
    rfl
  | cons a l ih =>
    intro h
    have ih' := ih fun x hx => h x (List.mem_cons_of_mem _ hx)
    have e : ∀ c, inside (a :: l) c = (if a.1 = c then a.2 else 0) + inside l c := by
      intro c
      unfold inside
      by_cases hc : a.1 = c
      · rw [List.filter_cons_of_pos (by simpa using hc), if_pos hc]; simp
      · rw [List.filter_cons_of_neg (by simpa using hc), if_neg hc]; simp
    have e2 : (List.range n).map (inside (a :: l)) =
        (List.range n).map fun c => (if a.1 = c then a.2 else 0) + inside l c :=
      List.map_congr_left fun c _ => e c
    rw [e2, List.sum_map_add, ih', List.map_cons, List.sum_cons]
    congr 1
    have ha : a.1 < n := h a List.mem_cons_self
    clear ih ih' e e2 h
    induction n with
    | zero => omega
    | succ n ihn =>
      rw [List.range_succ, List.map_append, List.sum_append]
      rcases Nat.lt_succ_iff_lt_or_eq.1 ha with h | h
      · rw [ihn h]; simp [h.ne]
      · have : ((List.range n).map fun c => if a.1 = c then a.2 else 0).sum = 0 := by
          apply List.sum_eq_zero
          intro x hx
          obtain ⟨c, hc, rfl⟩ := List.mem_map.1 hx
          rw [if_neg]
          have := List.mem_range.1 hc
          omega
        rw [this]; simp [h]

/-- If each cell with particles has markers, then the weights of all markers are all particles. -/
theorem total {nmrk fuel : ℕ} {prt mrk : List ℝ} {minw : ℝ} {rnd : ℕ → ℝ} {shuffle : List ℕ}
    {out : List (ℕ × ℝ)} (hm : ∀ v ∈ mrk, 0 ≤ v) (hlen : prt.length = mrk.length)
    (hr : ∀ k, 0 ≤ rnd k ∧ rnd k < 1) (hs : shuffle.Perm (List.range nmrk))
    (h : sample nmrk prt mrk minw rnd fuel shuffle = some out)
    (hall : ∀ (c : ℕ) v, prt[c]? = some v → v ≠ 0 → ∃ x ∈ out, x.1 = c) :
    (out.map (·.2)).sum = prt.sum := by
  obtain ⟨-, h2, -, h4⟩ := sampled hm hr hs h
  rw [← sum_inside prt.length out]
  · congr 1
    apply List.ext_getElem?
    intro c
    by_cases hc : c < prt.length
    · rw [List.getElem?_map, List.getElem?_range hc, Option.map_some]
      by_cases ho : ∃ x ∈ out, x.1 = c
      · exact (h4 c ho).symm
      · have hv := List.getElem?_eq_getElem hc
        have h0 : prt[c] = 0 := by
          by_contra hne
          exact ho (hall c _ hv hne)
        rw [hv, h0]
        congr 1
        unfold inside
        rw [List.filter_eq_nil_iff.2]
        · rfl
        · intro x hx hxc
          exact ho ⟨x, hx, of_decide_eq_true hxc⟩
    · rw [List.getElem?_eq_none (by simp; omega), List.getElem?_eq_none (by omega)]
  · intro x hx
    obtain ⟨v, v1, -⟩ := h2 x hx
    rw [hlen]
    exact (List.getElem?_eq_some_iff.1 v1).1

/-- Without a minimum weight there is only one round. -/
theorem ends {nmrk : ℕ} (hn : 0 < nmrk) {prt mrk : List ℝ} {minw : ℝ} {rnd : ℕ → ℝ} {shuffle : List ℕ}
    (hm : ∀ v ∈ mrk, 0 ≤ v) (hpos : ∃ v ∈ mrk, 0 < v) (hp : ∀ v ∈ prt, 0 ≤ v)
    (hlen : prt.length = mrk.length) (hr : ∀ k, 0 ≤ rnd k ∧ rnd k < 1) (hw : minw ≤ 0) :
    ∃ out, sample nmrk prt mrk minw rnd 1 shuffle = some out := by
  unfold sample
  rw [if_neg hn.ne']
  have hsum : 0 < mrk.sum := by
    obtain ⟨v, hv, hv0⟩ := hpos
    exact lt_of_lt_of_le hv0 (List.single_le_sum hm v hv)
  have ht : thresholds mrk = some ((mrk.scanl (· + ·) 0).map (· / mrk.sum)) := by
    unfold thresholds
    dsimp only
    rw [foldl_eq_sum, if_neg hsum.ne']
  rw [ht]
  dsimp only
  rw [loop]
  dsimp only
  have hcell := redraw_mem (P := fun c => ∃ v, mrk[c]? = some v ∧ 0 < v)
    (fun k => draw_spec hm ht (hr k).1 (hr k).2) (List.replicate nmrk (0, true)) 0 (by
      intro x hx hf
      rw [List.eq_of_mem_replicate hx] at hf
      cases hf)
  obtain ⟨w, hw'⟩ := mapM_exists
    (f := fun c => prt[c]?.map (· / ((redraw ((mrk.scanl (· + ·) 0).map (· / mrk.sum)) rnd
      (List.replicate nmrk (0, true)) 0).1.count c : ℝ))) (fun c hc => by
      obtain ⟨v, v1, -⟩ := hcell c hc
      have : c < prt.length := hlen ▸ (List.getElem?_eq_some_iff.1 v1).1
      exact ⟨_, by rw [List.getElem?_eq_getElem this]; rfl⟩)
  have hw2 : weights prt (redraw ((mrk.scanl (· + ·) 0).map (· / mrk.sum)) rnd
      (List.replicate nmrk (0, true)) 0).1 = some w := hw'
  rw [hw2]
  dsimp only
  have hnn : ∀ x ∈ w, 0 ≤ x := by
    intro x hx
    obtain ⟨h1, h2⟩ := mapM_zip hw'
    obtain ⟨i, hi, rfl⟩ := List.mem_iff_getElem.1 hx
    have := h2 (_, w[i]) (List.mem_iff_getElem.2 ⟨i, by rw [List.length_zip, h1, min_self]; omega,
      List.getElem_zip⟩)
    obtain ⟨v, v1, v2⟩ := Option.map_eq_some_iff.1 this
    dsimp only at v2
    rw [← v2]
    exact div_nonneg (hp v (List.mem_of_getElem? v1)) (Nat.cast_nonneg _)
  rw [if_neg]
  · exact ⟨_, rfl⟩
  · intro ha
    obtain ⟨b, hb, hb'⟩ := List.any_eq_true.1 ha
    obtain ⟨x, hx, rfl⟩ := List.mem_map.1 hb
    have := of_decide_eq_true hb'
    linarith [hnn x hx]

theorem loop_none {prt thr : List ℝ} {minw : ℝ} {rnd : ℕ → ℝ} (hp : ∀ v ∈ prt, 0 ≤ v ∧ v < minw) :
    ∀ (fuel : ℕ) (l : List (ℕ × Bool)) (k : ℕ), l ≠ [] → loop prt thr minw rnd fuel l k = none
  | 0, _, _, _ => rfl
  | fuel + 1, l, k, hl => by
    rw [loop]
    dsimp only
    cases hw : weights prt (redraw thr rnd l k).1 with
    | none => rfl
    | some w =>
      dsimp only
      obtain ⟨h1, h2⟩ := mapM_zip hw
      have hlen : 0 < l.length := List.length_pos_of_ne_nil hl
      have hr := redraw_length thr rnd l k
      rw [if_pos]
      · apply loop_none hp fuel
        intro h
        have := congrArg List.length h
        rw [List.length_zip, List.length_map, h1, hr, min_self, List.length_nil] at this
        omega
      · have i0 : 0 < w.length := by omega
        have := h2 (_, w[0]) (List.mem_iff_getElem.2 ⟨0, by rw [List.length_zip, h1, min_self]; omega,
          List.getElem_zip⟩)
        obtain ⟨v, v1, v2⟩ := Option.map_eq_some_iff.1 this
        have hv := hp v (List.mem_of_getElem? v1)
        rw [List.any_eq_true]
        refine ⟨true, List.mem_map.2 ⟨w[0], List.getElem_mem i0, ?_⟩, rfl⟩
        dsimp only at v2
        rw [decide_eq_true_iff, ← v2]
        set n := (redraw thr rnd l k).1.count _ with hn
        have hn1 : 1 ≤ n := by
          rw [hn]
          exact List.count_pos_iff.2 (List.getElem_mem _)
        have : (1 : ℝ) ≤ n := by exact_mod_cast hn1
        exact lt_of_le_of_lt (div_le_self hv.1 this) hv.2

/-- If no cell has the minimum weight then the generation never ends. -/
theorem never_ends {prt mrk : List ℝ} {minw : ℝ} (hp : ∀ v ∈ prt, 0 ≤ v ∧ v < minw) (nmrk fuel : ℕ)
    (rnd : ℕ → ℝ) (shuffle : List ℕ) : sample nmrk prt mrk minw rnd fuel shuffle = none := by
  unfold sample
  by_cases h0 : nmrk = 0
  · rw [if_pos h0]
  rw [if_neg h0]
  cases thresholds mrk with
  | none => rfl
  | some thr =>
    dsimp only
    rw [loop_none hp fuel _ 0 (by simpa using h0)]

/-! ## Coordinates -/

/-- A distribution in cylindrical coordinates. -/
def cylindrical (m1 m2 : String) (r phi z e1 e2 : List ℝ) (v : List ℝ) : Dist :=
  ⟨[("r", r), ("phi", phi), ("z", z), (m1, e1), (m2, e2)], v⟩

/-- The indices of a cell. -/
theorem cell {edges : List (List ℝ)} {e1 e2 e3 e4 e5 : List ℝ} (he : edges = [e1, e2, e3, e4, e5])
    {c : ℕ} (hc : c < size edges) : ∃ i1 i2 i3 i4 i5,
      unravel (edges.map fun e => e.length - 1) c = [i1, i2, i3, i4, i5] ∧
      i1 < e1.length - 1 ∧ i2 < e2.length - 1 ∧ i3 < e3.length - 1 ∧ i4 < e4.length - 1 ∧
      i5 < e5.length - 1 ∧
      ∀ x1 x2 x3 x4 x5, (∃ a b, e1[i1]? = some a ∧ e1[i1 + 1]? = some b ∧ a ≤ x1 ∧ x1 < b) →
        (∃ a b, e2[i2]? = some a ∧ e2[i2 + 1]? = some b ∧ a ≤ x2 ∧ x2 < b) →
        (∃ a b, e3[i3]? = some a ∧ e3[i3 + 1]? = some b ∧ a ≤ x3 ∧ x3 < b) →
        (∃ a b, e4[i4]? = some a ∧ e4[i4 + 1]? = some b ∧ a ≤ x4 ∧ x4 < b) →
        (∃ a b, e5[i5]? = some a ∧ e5[i5 + 1]? = some b ∧ a ≤ x5 ∧ x5 < b) →
        InCell edges c [x1, x2, x3, x4, x5] := by
  subst he
  obtain ⟨a1, b1, c1⟩ := inCell_cons hc
  obtain ⟨a2, b2, c2⟩ := inCell_cons b1
  obtain ⟨a3, b3, c3⟩ := inCell_cons b2
  obtain ⟨a4, b4, c4⟩ := inCell_cons b3
  obtain ⟨a5, b5, c5⟩ := inCell_cons b4
  refine ⟨_, _, _, _, _, rfl, a1, a2, a3, a4, a5, ?_⟩
  rintro x1 x2 x3 x4 x5 ⟨p1, q1, r1, s1, t1, u1⟩ ⟨p2, q2, r2, s2, t2, u2⟩ ⟨p3, q3, r3, s3, t3, u3⟩
    ⟨p4, q4, r4, s4, t4, u4⟩ ⟨p5, q5, r5, s5, t5, u5⟩
  refine ⟨_, _, p1, q1, c1, b1, r1, s1, t1, u1, ?_⟩
  refine ⟨_, _, p2, q2, c2, b2, r2, s2, t2, u2, ?_⟩
  refine ⟨_, _, p3, q3, c3, b3, r3, s3, t3, u3, ?_⟩
  refine ⟨_, _, p4, q4, c4, b4, r4, s4, t4, u4, ?_⟩
  refine ⟨_, _, p5, q5, c5, b5, r5, s5, t5, u5, ?_⟩
  show _ % size [] = 0
  simp [size, Nat.mod_one]

/-- Energies of momenta. -/
theorem hasMomentum {c m p : ℝ} (hc : 0 < c) (hm : 0 < m) (hp : 0 ≤ p) :
    HasMomentum c m ((Real.sqrt (1 + p ^ 2 / (m * c) ^ 2) - 1) * m * c ^ 2) p := by
  have h0 : 0 ≤ p ^ 2 / (m * c) ^ 2 := by positivity
  refine ⟨hp, ?_, ?_⟩
  · have : 1 ≤ Real.sqrt (1 + p ^ 2 / (m * c) ^ 2) := by
      rw [Real.one_le_sqrt]; linarith
    have := mul_nonneg (mul_nonneg (sub_nonneg.2 this) hm.le) (sq_nonneg c)
    exact this
  · have e : (Real.sqrt (1 + p ^ 2 / (m * c) ^ 2) - 1) * m * c ^ 2 + m * c ^ 2 =
        Real.sqrt (1 + p ^ 2 / (m * c) ^ 2) * (m * c ^ 2) := by ring
    rw [e, mul_pow, Real.sq_sqrt (by linarith)]
    field_simp
    ring

/-- A guiding centre from a distribution over parallel and perpendicular momentum: the marker is inside of its
cell. -/
theorem gc_momentum {r phi z e1 e2 v : List ℝ} (hi : Increasing [r, phi, z, e1, e2]) (he : ∀ x ∈ e2, 0 ≤ x)
    {c : ℕ} {cl mass : ℝ} (hc : 0 < cl) (hm : 0 < mass) (toRz : ℝ → ℝ → ℝ → ℝ × ℝ) {u : ℕ → ℝ}
    (hu : ∀ k, 0 ≤ u k ∧ u k < 1) (hu4 : 0 < u 4) (hcell : c < size [r, phi, z, e1, e2]) :
    let d := cylindrical "ppar" "pperp" r phi z e1 e2 v
    ∃ i1 i2 i3 j1 j2 R P Z E xi ppa ppe, unravel d.shape c = [i1, i2, i3, j1, j2] ∧
      position d toRz i1 i2 i3 u = some (R, P, Z) ∧ gc d cl mass j1 j2 u = some (E, xi) ∧
      InCell d.edges c [R, P, Z, ppa, ppe] ∧
      HasMomentum cl mass E (Real.sqrt (ppa ^ 2 + ppe ^ 2)) ∧ xi * Real.sqrt (ppa ^ 2 + ppe ^ 2) = ppa := by
  intro d
  obtain ⟨i1, i2, i3, i4, i5, h0, h1, h2, h3, h4, h5, h6⟩ := C154.cell (edges := d.edges) rfl hcell
  obtain ⟨x1, a1, b1, r1, k1, l1, m1, n1, -⟩ := randomize_spec (hi r (by simp)) h1 (hu 0).1 (hu 0).2
  obtain ⟨x2, a2, b2, r2, k2, l2, m2, n2, -⟩ := randomize_spec (hi phi (by simp)) h2 (hu 1).1 (hu 1).2
  obtain ⟨x3, a3, b3, r3, k3, l3, m3, n3, -⟩ := randomize_spec (hi z (by simp)) h3 (hu 2).1 (hu 2).2
  obtain ⟨x4, a4, b4, r4, k4, l4, m4, n4, -⟩ := randomize_spec (hi e1 (by simp)) h4 (hu 3).1 (hu 3).2
  obtain ⟨x5, a5, b5, r5, k5, l5, m5, n5, o5⟩ := randomize_spec (hi e2 (by simp)) h5 (hu 4).1 (hu 4).2
  have hx5 : 0 < x5 := lt_of_le_of_lt (he a5 (List.mem_of_getElem? k5)) (o5 hu4)
  have hp : 0 < Real.sqrt (x4 ^ 2 + x5 ^ 2) := Real.sqrt_pos.2 (by positivity)
  refine ⟨i1, i2, i3, i4, i5, x1, x2, x3, _, _, x4, x5, h0, ?_, ?_, ?_, hasMomentum hc hm hp.le,
    div_mul_cancel₀ _ hp.ne'⟩
  · simp [position, d, cylindrical, Dist.axis, Dist.value, List.lookup, r1, r2, r3]
  · simp only [gc, d, cylindrical, Dist.axis, Dist.value, List.lookup]
    simp [r4, r5, hp.ne']
  · exact h6 _ _ _ _ _ ⟨a1, b1, k1, l1, m1, n1⟩ ⟨a2, b2, k2, l2, m2, n2⟩ ⟨a3, b3, k3, l3, m3, n3⟩
      ⟨a4, b4, k4, l4, m4, n4⟩ ⟨a5, b5, k5, l5, m5, n5⟩

/-- A guiding centre from a distribution over energy and pitch. -/
theorem gc_energy {r phi z e1 e2 v : List ℝ} (hi : Increasing [r, phi, z, e1, e2]) {c : ℕ} (cl mass : ℝ)
    (toRz : ℝ → ℝ → ℝ → ℝ × ℝ) {u : ℕ → ℝ} (hu : ∀ k, 0 ≤ u k ∧ u k < 1)
    (hcell : c < size [r, phi, z, e1, e2]) :
    let d := cylindrical "ekin" "pitch" r phi z e1 e2 v
    ∃ i1 i2 i3 j1 j2 R P Z E xi, unravel d.shape c = [i1, i2, i3, j1, j2] ∧
      position d toRz i1 i2 i3 u = some (R, P, Z) ∧ gc d cl mass j1 j2 u = some (E, xi) ∧
      InCell d.edges c [R, P, Z, E, xi] := by
  intro d
  obtain ⟨i1, i2, i3, i4, i5, h0, h1, h2, h3, h4, h5, h6⟩ := C154.cell (edges := d.edges) rfl hcell
  obtain ⟨x1, a1, b1, r1, k1, l1, m1, n1, -⟩ := randomize_spec (hi r (by simp)) h1 (hu 0).1 (hu 0).2
  obtain ⟨x2, a2, b2, r2, k2, l2, m2, n2, -⟩ := randomize_spec (hi phi (by simp)) h2 (hu 1).1 (hu 1).2
  obtain ⟨x3, a3, b3, r3, k3, l3, m3, n3, -⟩ := randomize_spec (hi z (by simp)) h3 (hu 2).1 (hu 2).2
  obtain ⟨x4, a4, b4, r4, k4, l4, m4, n4, -⟩ := randomize_spec (hi e1 (by simp)) h4 (hu 3).1 (hu 3).2
  obtain ⟨x5, a5, b5, r5, k5, l5, m5, n5, -⟩ := randomize_spec (hi e2 (by simp)) h5 (hu 4).1 (hu 4).2
  refine ⟨i1, i2, i3, i4, i5, x1, x2, x3, x4, x5, h0, ?_, ?_, ?_⟩
  · simp [position, d, cylindrical, Dist.axis, Dist.value, List.lookup, r1, r2, r3]
  · simp only [gc, d, cylindrical, Dist.axis, Dist.value, List.lookup]
    simp [r4, r5]
  · exact h6 _ _ _ _ _ ⟨a1, b1, k1, l1, m1, n1⟩ ⟨a2, b2, k2, l2, m2, n2⟩ ⟨a3, b3, k3, l3, m3, n3⟩
      ⟨a4, b4, k4, l4, m4, n4⟩ ⟨a5, b5, k5, l5, m5, n5⟩

/-- A distribution in flux coordinates, with its axes in the order in which simulations write them
(src/hdf5io/hdf5_dist.c:168). -/
def fluxCoordinates (m1 m2 : String) (rho theta phi e1 e2 : List ℝ) (v : List ℝ) : Dist :=
  ⟨[("rho", rho), ("theta", theta), ("phi", phi), (m1, e1), (m2, e2)], v⟩

/-- Flux coordinates: the indices are given to other axes. -/
theorem rho_wrong_cell {m1 m2 : String} {rho theta phi e1 e2 v : List ℝ} (h1 : "r" ≠ m1) (h2 : "r" ≠ m2)
    (hi : Increasing [rho, theta, phi, e1, e2]) {i j k : ℕ} (hj : i < phi.length - 1)
    (hk : j < rho.length - 1) (hl : k < theta.length - 1) (toRz : ℝ → ℝ → ℝ → ℝ × ℝ) {u : ℕ → ℝ}
    (hu : ∀ k, 0 ≤ u k ∧ u k < 1) :
    ∃ rh th ph, position (fluxCoordinates m1 m2 rho theta phi e1 e2 v) toRz i j k u =
        some ((toRz rh th ph).1, ph, (toRz rh th ph).2) ∧
      (∃ a b, phi[i]? = some a ∧ phi[i + 1]? = some b ∧ a ≤ ph ∧ ph < b) ∧
      (∃ a b, rho[j]? = some a ∧ rho[j + 1]? = some b ∧ a ≤ rh ∧ rh < b) ∧
      (∃ a b, theta[k]? = some a ∧ theta[k + 1]? = some b ∧ a ≤ th ∧ th < b) := by
  obtain ⟨x1, a1, b1, r1, k1, l1, m1', n1, -⟩ := randomize_spec (hi phi (by simp)) hj (hu 0).1 (hu 0).2
  obtain ⟨x2, a2, b2, r2, k2, l2, m2', n2, -⟩ := randomize_spec (hi rho (by simp)) hk (hu 1).1 (hu 1).2
  obtain ⟨x3, a3, b3, r3, k3, l3, m3, n3, -⟩ := randomize_spec (hi theta (by simp)) hl (hu 2).1 (hu 2).2
  refine ⟨x2, x3, x1, ?_, ⟨a1, b1, k1, l1, m1', n1⟩, ⟨a2, b2, k2, l2, m2', n2⟩, ⟨a3, b3, k3, l3, m3, n3⟩⟩
  have hr : ("r" == m1) = false := by simpa using h1
  have hr' : ("r" == m2) = false := by simpa using h2
  simp [position, fluxCoordinates, Dist.axis, Dist.value, List.lookup, r1, r2, r3, hr, hr']

/-- Flux coordinates: a marker of a cell whose radial index `i` is not its toroidal index `k` has an angle outside of
the cell. -/
theorem rho_not_in_cell {m1 m2 : String} {rho theta phi e1 e2 v : List ℝ} (h1 : "r" ≠ m1) (h2 : "r" ≠ m2)
    (hi : Increasing [rho, theta, phi, e1, e2]) {i j k : ℕ} (hik : i ≠ k) (toRz : ℝ → ℝ → ℝ → ℝ × ℝ)
    {u : ℕ → ℝ} (hu : ∀ k, 0 ≤ u k ∧ u k < 1) {R P Z : ℝ}
    (h : position (fluxCoordinates m1 m2 rho theta phi e1 e2 v) toRz i j k u = some (R, P, Z)) :
    ¬ ∃ a b, phi[k]? = some a ∧ phi[k + 1]? = some b ∧ a ≤ P ∧ P < b := by
  rintro ⟨a, b, ha, hb, hPa, hPb⟩
  have hr : ("r" == m1) = false := by simpa using h1
  have hr' : ("r" == m2) = false := by simpa using h2
  have hlt : i < phi.length - 1 := by
    by_contra hge
    have hz : randomize phi i (u 0) = none := by
      unfold randomize
      rw [List.getElem?_eq_none (by omega : phi.length ≤ i + 1)]
      cases phi[i]? <;> rfl
    simp [position, fluxCoordinates, Dist.axis, Dist.value, List.lookup, hr, hr', hz] at h
  have hp := hi phi (by simp)
  obtain ⟨x, a', b', r1, k1, l1, m1', n1, -⟩ := randomize_spec hp hlt (hu 0).1 (hu 0).2
  have hx : P = x := by
    simp only [position, fluxCoordinates, Dist.axis, Dist.value, List.lookup, hr, hr'] at h
    simp [r1] at h
    split at h <;> simp_all
  subst hx
  obtain ⟨q1, rfl⟩ := List.getElem?_eq_some_iff.1 ha
  obtain ⟨q2, rfl⟩ := List.getElem?_eq_some_iff.1 hb
  obtain ⟨q3, rfl⟩ := List.getElem?_eq_some_iff.1 k1
  obtain ⟨q4, rfl⟩ := List.getElem?_eq_some_iff.1 l1
  have mono : ∀ s t (hs : s < phi.length) (ht : t < phi.length), s ≤ t → phi[s] ≤ phi[t] := by
    intro s t hs ht hst
    rcases hst.eq_or_lt with rfl | hlt
    · exact le_rfl
    · exact (List.pairwise_iff_getElem.1 hp s t hs ht hlt).le
  rcases Nat.lt_or_gt_of_ne hik with h' | h'
  · have := mono (i + 1) k q4 q1 h'
    linarith
  · have := mono (k + 1) i q2 q3 h'
    linarith

/-- Flux coordinates: an exception, if there are more radial than toroidal cells. -/
theorem rho_refused {m1 m2 : String} {rho theta phi e1 e2 v : List ℝ} (h1 : "r" ≠ m1) (h2 : "r" ≠ m2)
    {i j k : ℕ} (hj : phi.length - 1 ≤ i) (toRz : ℝ → ℝ → ℝ → ℝ × ℝ) (u : ℕ → ℝ) :
    position (fluxCoordinates m1 m2 rho theta phi e1 e2 v) toRz i j k u = none := by
  have hr : ("r" == m1) = false := by simpa using h1
  have hr' : ("r" == m2) = false := by simpa using h2
  have hz : randomize phi i (u 0) = none := by
    unfold randomize
    rw [List.getElem?_eq_none (by omega : phi.length ≤ i + 1)]
    cases phi[i]? <;> rfl
  simp [position, fluxCoordinates, Dist.axis, Dist.value, List.lookup, hr, hr', hz]

/-! ## Particles -/

/-- The velocity of a particle, times its mass, has the parallel and perpendicular components of the momentum. -/
theorem velocity_direction {mass : ℝ} (hm : 0 < mass) {b : V3 ℝ} (hb : b.x ≠ 0 ∨ b.y ≠ 0) (ppa ppe zeta : ℝ) :
    ∃ v, velocity mass b ppa ppe zeta = some v ∧
      mass * V3.dot v b = ppa * Real.sqrt (V3.dot b b) ∧ mass ^ 2 * V3.dot v v = ppa ^ 2 + ppe ^ 2 := by
  have hxy : 0 < b.x ^ 2 + b.y ^ 2 := by
    rcases hb with h | h
    · have := pow_pos (abs_pos.2 h) 2; rw [sq_abs] at this; nlinarith [sq_nonneg b.y]
    · have := pow_pos (abs_pos.2 h) 2; rw [sq_abs] at this; nlinarith [sq_nonneg b.x]
  have hn0 : 0 < b.x ^ 2 + b.y ^ 2 + b.z ^ 2 := by nlinarith [sq_nonneg b.z]
  set n := Real.sqrt (b.x ^ 2 + b.y ^ 2 + b.z ^ 2) with hn
  have hnp : 0 < n := Real.sqrt_pos.2 hn0
  have hn2 : n ^ 2 = b.x ^ 2 + b.y ^ 2 + b.z ^ 2 := Real.sq_sqrt hn0.le
  have hdot : Real.sqrt (V3.dot b b) = n := by rw [hn]; congr 1; simp only [V3.dot]; ring
  obtain ⟨hx, e1⟩ : ∃ x, x = b.x / n := ⟨_, rfl⟩
  obtain ⟨hy, e2⟩ : ∃ y, y = b.y / n := ⟨_, rfl⟩
  obtain ⟨hz, e3⟩ : ∃ z, z = b.z / n := ⟨_, rfl⟩
  have hu : hx ^ 2 + hy ^ 2 + hz ^ 2 = 1 := by
    rw [e1, e2, e3]; field_simp; exact hn2.symm
  have hq0 : 0 < hx ^ 2 + hy ^ 2 := by
    rw [e1, e2, div_pow, div_pow, ← add_div]; positivity
  set q := Real.sqrt (hx ^ 2 + hy ^ 2) with hq
  have hqp : 0 < q := Real.sqrt_pos.2 hq0
  have hq2 : q ^ 2 = hx ^ 2 + hy ^ 2 := Real.sq_sqrt hq0.le
  have hq' : Real.sqrt ((V3.cross ⟨hx, hy, hz⟩ (⟨0, 0, 1⟩ : V3 ℝ)).x ^ 2 +
      (V3.cross ⟨hx, hy, hz⟩ (⟨0, 0, 1⟩ : V3 ℝ)).y ^ 2 +
      (V3.cross ⟨hx, hy, hz⟩ (⟨0, 0, 1⟩ : V3 ℝ)).z ^ 2) = q := by
    rw [hq]; congr 1; simp only [V3.cross]; ring
  have hb1 : b.x = hx * n := by rw [e1]; field_simp
  have hb2 : b.y = hy * n := by rw [e2]; field_simp
  have hb3 : b.z = hz * n := by rw [e3]; field_simp
  have hsc := Real.sin_sq_add_cos_sq zeta
  unfold velocity
  dsimp only
  rw [← hn, if_neg hnp.ne', ← e1, ← e2, ← e3, hq', if_neg hqp.ne']
  refine ⟨_, rfl, ?_, ?_⟩
  · rw [hdot]
    simp only [V3.dot, V3.cross]
    rw [hb1, hb2, hb3]
    field_simp
    linear_combination (ppa * q) * hu
  · obtain ⟨al, ha⟩ : ∃ x, x = hy / q := ⟨_, rfl⟩
    obtain ⟨be, hbe⟩ : ∃ x, x = -hx / q := ⟨_, rfl⟩
    have g1 : hx = -be * q := by rw [hbe]; field_simp
    have g2 : hy = al * q := by rw [ha]; field_simp
    have hA : al ^ 2 + be ^ 2 = 1 := by
      rw [ha, hbe, div_pow, div_pow, ← add_div, hq2, neg_sq, add_comm, div_self hq0.ne']
    have hQ : q ^ 2 + hz ^ 2 = 1 := by rw [hq2]; exact hu
    simp only [V3.dot, V3.cross]
    generalize Real.sin zeta = s at *
    generalize Real.cos zeta = k at *
    have g3 : (hy * 1 - hz * 0) / q = al := by rw [ha]; ring
    have g4 : (hz * 0 - hx * 1) / q = be := by rw [hbe]; ring
    have g5 : (hx * 0 - hy * 0) / q = 0 := by ring
    rw [g3, g4, g5]
    clear_value q n
    rw [g1, g2]
    field_simp
    linear_combination (ppa ^ 2 * q ^ 2 + ppe ^ 2 * (s ^ 2 + k ^ 2 * hz ^ 2) +
      q ^ 2 * k ^ 2 * ppe ^ 2 * (al ^ 2 + be ^ 2 + 1)) * hA +
      (ppa ^ 2 + ppe ^ 2 * k ^ 2) * hQ + ppe ^ 2 * hsc

/-- The velocity of a particle is not that of its momentum: a slow particle has more momentum than sampled, and one
with momentum beyond `m c` is faster than light. -/
theorem velocity_wrong {c mass : ℝ} (hc : 0 < c) (hm : 0 < mass) {b : V3 ℝ} (hb : b.x ≠ 0 ∨ b.y ≠ 0)
    {ppa ppe zeta : ℝ} (hp : 0 < ppa ^ 2 + ppe ^ 2) :
    ∃ v, velocity mass b ppa ppe zeta = some v ∧
      (Real.sqrt (ppa ^ 2 + ppe ^ 2) < mass * c →
        Real.sqrt (ppa ^ 2 + ppe ^ 2) < momentumOf c mass (Real.sqrt (V3.dot v v))) ∧
      (mass * c ≤ Real.sqrt (ppa ^ 2 + ppe ^ 2) → c ≤ Real.sqrt (V3.dot v v)) := by
  obtain ⟨v, h1, -, h3⟩ := velocity_direction hm hb ppa ppe zeta
  have hv0 : 0 ≤ V3.dot v v := by simp only [V3.dot]; nlinarith [sq_nonneg v.x, sq_nonneg v.y, sq_nonneg v.z]
  have e : Real.sqrt (ppa ^ 2 + ppe ^ 2) = mass * Real.sqrt (V3.dot v v) := by
    rw [← h3, Real.sqrt_mul (sq_nonneg _), Real.sqrt_sq hm.le]
  have hs : 0 < Real.sqrt (V3.dot v v) := by
    have := Real.sqrt_pos.2 hp
    rw [e] at this
    exact pos_of_mul_pos_right this hm.le
  refine ⟨v, h1, ?_, ?_⟩
  · rw [e]
    intro h
    have hlt : Real.sqrt (V3.dot v v) < c := lt_of_mul_lt_mul_left h hm.le
    unfold momentumOf
    have h0 : 0 < 1 - Real.sqrt (V3.dot v v) ^ 2 / c ^ 2 := by
      rw [sub_pos, div_lt_one (by positivity)]
      exact pow_lt_pow_left₀ hlt hs.le two_ne_zero
    have h1' : 1 - Real.sqrt (V3.dot v v) ^ 2 / c ^ 2 < 1 := by
      have : 0 < Real.sqrt (V3.dot v v) ^ 2 / c ^ 2 := by positivity
      linarith
    rw [lt_div_iff₀ (Real.sqrt_pos.2 h0)]
    have : Real.sqrt (1 - Real.sqrt (V3.dot v v) ^ 2 / c ^ 2) < 1 := by
      rw [Real.sqrt_lt' one_pos]; simpa using h1'
    have hmv : 0 < mass * Real.sqrt (V3.dot v v) := by positivity
    nlinarith
  · rw [e]
    intro h
    exact le_of_mul_le_mul_left h hm

/-- There is no velocity in a vertical field. -/
theorem velocity_vertical (mass z ppa ppe zeta : ℝ) : velocity mass ⟨0, 0, z⟩ ppa ppe zeta = none := by
  unfold velocity
  dsimp only
  split_ifs with h1 h2
  · rfl
  · rfl
  · exact absurd (by simp [V3.cross]) h2

/-- Momentum components from energy and pitch. -/
theorem momentum_energy {r phi z e1 e2 v : List ℝ} (hi : Increasing [e1, e2])
    (he1 : ∀ x ∈ e1, 0 ≤ x) (he2 : ∀ x ∈ e2, -1 ≤ x ∧ x ≤ 1) {c mass : ℝ} (hc : 0 < c) (hm : 0 < mass)
    {u : ℕ → ℝ} (hu : ∀ k, 0 ≤ u k ∧ u k < 1) {j1 j2 : ℕ} (h1 : j1 < e1.length - 1) (h2 : j2 < e2.length - 1) :
    let d := cylindrical "ekin" "pitch" r phi z e1 e2 v
    ∃ E xi ppa ppe, gc d c mass j1 j2 u = some (E, xi) ∧ momentum d c mass j1 j2 u = some (ppa, ppe) ∧
      HasMomentum c mass E (Real.sqrt (ppa ^ 2 + ppe ^ 2)) ∧ xi * Real.sqrt (ppa ^ 2 + ppe ^ 2) = ppa := by
  intro d
  obtain ⟨x4, a4, b4, r4, k4, l4, m4, n4, -⟩ := randomize_spec (hi e1 (by simp)) h1 (hu 3).1 (hu 3).2
  obtain ⟨x5, a5, b5, r5, k5, l5, m5, n5, -⟩ := randomize_spec (hi e2 (by simp)) h2 (hu 4).1 (hu 4).2
  have hx4 : 0 ≤ x4 := (he1 a4 (List.mem_of_getElem? k4)).trans m4
  have hx5 : -1 ≤ x5 := (he2 a5 (List.mem_of_getElem? k5)).1.trans m5
  have hx5' : x5 ≤ 1 := n5.le.trans (he2 b5 (List.mem_of_getElem? l5)).2
  have h1x : 0 ≤ 1 - x5 ^ 2 := by nlinarith
  have hg : 0 ≤ (1 + x4 / (mass * c ^ 2)) ^ 2 - 1 := by
    have : 0 ≤ x4 / (mass * c ^ 2) := by positivity
    nlinarith
  have hp0 : 0 ≤ Real.sqrt ((1 + x4 / (mass * c ^ 2)) ^ 2 - 1) * mass * c := by positivity
  have e : Real.sqrt ((x5 * (Real.sqrt ((1 + x4 / (mass * c ^ 2)) ^ 2 - 1) * mass * c)) ^ 2 +
      (Real.sqrt (1 - x5 ^ 2) * (Real.sqrt ((1 + x4 / (mass * c ^ 2)) ^ 2 - 1) * mass * c)) ^ 2) =
      Real.sqrt ((1 + x4 / (mass * c ^ 2)) ^ 2 - 1) * mass * c := by
    rw [mul_pow, mul_pow (Real.sqrt (1 - x5 ^ 2)), Real.sq_sqrt h1x, ← add_mul]
    rw [show x5 ^ 2 + (1 - x5 ^ 2) = 1 by ring, one_mul, Real.sqrt_sq hp0]
  refine ⟨x4, x5, x5 * (Real.sqrt ((1 + x4 / (mass * c ^ 2)) ^ 2 - 1) * mass * c),
    Real.sqrt (1 - x5 ^ 2) * (Real.sqrt ((1 + x4 / (mass * c ^ 2)) ^ 2 - 1) * mass * c), ?_, ?_, ?_, ?_⟩
  · simp only [gc, d, cylindrical, Dist.axis, Dist.value, List.lookup]
    simp [r4, r5]
  · simp only [momentum, d, cylindrical, Dist.axis, Dist.value, List.lookup]
    simp [r4, r5]
  · rw [e]
    refine ⟨hp0, hx4, ?_⟩
    rw [mul_pow, mul_pow, mul_pow, Real.sq_sqrt hg]
    field_simp
    ring
  · rw [e]

/-! ## The returned distributions -/

theorem widths_pos {e : List ℝ} (he : e.Pairwise (· < ·)) : ∀ w ∈ widths e, 0 < w := by
  intro w hw
  obtain ⟨i, hi, rfl⟩ := List.mem_iff_getElem.1 hw
  unfold widths at hi ⊢
  rw [List.length_zipWith, List.length_tail] at hi
  rw [List.getElem_zipWith, List.getElem_tail, sub_pos]
  exact List.pairwise_iff_getElem.1 he _ _ _ _ (Nat.lt_succ_self i)

theorem volume_pos : ∀ {edges : List (List ℝ)}, Increasing edges → ∀ w ∈ volume edges, 0 < w
  | [], _, w, hw => by rw [volume, List.mem_singleton] at hw; rw [hw]; exact one_pos
  | e :: es, h, w, hw => by
    rw [volume, List.mem_flatMap] at hw
    obtain ⟨a, ha, hw⟩ := hw
    obtain ⟨b, hb, rfl⟩ := List.mem_map.1 hw
    exact mul_pos (widths_pos (h e List.mem_cons_self) a ha)
      (volume_pos (fun e' he' => h e' (List.mem_cons_of_mem _ he')) b hb)

theorem volume_length : ∀ (edges : List (List ℝ)), (volume edges).length = size edges
  | [] => rfl
  | e :: es => by
    rw [volume, size_cons, List.length_flatMap]
    simp only [List.length_map, volume_length es, List.map_const', List.sum_replicate, smul_eq_mul]
    congr 1
    simp [widths]

/-- The returned distribution of particles has in each cell the weights of the markers of the cell: all particles of
the cell, or nothing if it has no markers. -/
theorem particle_dist {d : Dist} (hi : Increasing d.edges) (hd : d.values.length = size d.edges)
    (l : List (ℕ × ℝ)) {c : ℕ} (hc : c < size d.edges) : (prtDist d l).histogram[c]? = some (inside l c) := by
  have hv : c < (volume d.edges).length := by rw [volume_length]; exact hc
  have hpos := volume_pos hi _ (List.getElem_mem hv)
  have h1 : (addAt d.values.length l)[c]? = some (inside l c) := by
    unfold addAt
    rw [List.getElem?_map, List.getElem?_range (by omega)]
    rfl
  have he : (prtDist d l).edges = d.edges := rfl
  unfold Dist.histogram
  rw [he]
  unfold prtDist
  rw [List.getElem?_zipWith, List.getElem?_zipWith, h1, List.getElem?_eq_getElem hv]
  simp [hpos.ne']

/-- Together with `sampled`: where there are markers, the returned distribution is that of the particles. -/
theorem particle_dist_eq {d : Dist} (hi : Increasing d.edges) (hd : d.values.length = size d.edges)
    {nmrk fuel : ℕ} {mrk : List ℝ} {minw : ℝ} {rnd : ℕ → ℝ} {shuffle : List ℕ} {out : List (ℕ × ℝ)}
    (hm : ∀ v ∈ mrk, 0 ≤ v) (hlen : mrk.length = d.values.length) (hr : ∀ k, 0 ≤ rnd k ∧ rnd k < 1)
    (hs : shuffle.Perm (List.range nmrk))
    (h : sample nmrk d.histogram mrk minw rnd fuel shuffle = some out) :
    (∀ c, (∃ x ∈ out, x.1 = c) → (prtDist d out).histogram[c]? = d.histogram[c]?) ∧
      ∀ c, c < size d.edges → (¬ ∃ x ∈ out, x.1 = c) → (prtDist d out).histogram[c]? = some 0 := by
  obtain ⟨-, h2, -, h4⟩ := sampled hm hr hs h
  constructor
  · intro c hc
    rw [h4 c hc]
    obtain ⟨x, hx, rfl⟩ := hc
    obtain ⟨v, v1, -⟩ := h2 x hx
    exact particle_dist hi hd out (by rw [← hd, ← hlen]; exact (List.getElem?_eq_some_iff.1 v1).1)
  · intro c hc ho
    rw [particle_dist hi hd out hc]
    congr 1
    unfold inside
    rw [List.filter_eq_nil_iff.2]
    · rfl
    · intro x hx hxc
      exact ho ⟨x, hx, of_decide_eq_true hxc⟩

/-- The returned distribution of markers has the number of markers times the volume of the cell in each cell. -/
theorem marker_dist_wrong {d : Dist} (hd : d.values.length = size d.edges) (l : List (ℕ × ℝ)) {c : ℕ} {w : ℝ}
    (hw : (volume d.edges)[c]? = some w) :
    (mrkDist d l).histogram[c]? = some ((l.map (·.1)).count c * w) := by
  have hc : c < size d.edges := by rw [← volume_length]; exact (List.getElem?_eq_some_iff.1 hw).1
  have h1 : (addAt d.values.length (l.map fun x => (x.1, (1 : ℝ))))[c]? =
      some ((l.map (·.1)).count c : ℝ) := by
    unfold addAt
    rw [List.getElem?_map, List.getElem?_range (by omega), Option.map_some]
    congr 1
    clear hw hc hd
    induction l with
    | nil => simp
    | cons a l ih =>
      rw [List.map_cons, List.map_cons]
      by_cases ha : a.1 = c
      · rw [List.filter_cons_of_pos (by simpa using ha), List.map_cons, List.sum_cons, ih, ha,
          List.count_cons_self]
        push_cast; ring
      · rw [List.filter_cons_of_neg (by simpa using ha), ih, List.count_cons_of_ne ha]
  have he : (mrkDist d l).edges = d.edges := rfl
  unfold Dist.histogram
  rw [he]
  unfold mrkDist
  rw [List.getElem?_zipWith, h1, hw]

/-! ## The hypotheses can be met -/

/-- Three markers, of which two are in the same cell. -/
noncomputable def example1 : Option (List (ℕ × ℝ)) :=
  sample 3 [6, 5, 8] [1, 0, 1] 0 (fun k => if k = 1 then 3 / 4 else 1 / 4) 1 [2, 0, 1]

example : ∃ out, example1 = some out ∧ out.length = 3 ∧ ∀ x ∈ out, x.1 ≠ 1 := by
  have hm : ∀ v ∈ [(1 : ℝ), 0, 1], 0 ≤ v := by simp
  have hr : ∀ k : ℕ, (0 : ℝ) ≤ (if k = 1 then 3 / 4 else 1 / 4) ∧ (if k = 1 then (3 / 4 : ℝ) else 1 / 4) < 1 := by
    intro k; split_ifs <;> norm_num
  obtain ⟨out, h⟩ := ends (nmrk := 3) (by norm_num) (prt := [6, 5, 8]) (minw := 0) (shuffle := [2, 0, 1]) hm
    ⟨1, by simp, one_pos⟩ (by simp) rfl hr le_rfl
  have h' := sampled hm hr (by decide) h
  refine ⟨out, h, h'.1, ?_⟩
  intro x hx h1
  obtain ⟨v, v1, v2⟩ := h'.2.1 x hx
  rw [h1] at v1
  simp at v1
  linarith

example : ∀ v ∈ [(1 : ℝ), 2], 0 ≤ v ∧ v < 3 := by
  intro v hv
  simp at hv
  rcases hv with rfl | rfl <;> norm_num

example : Increasing [[(1 : ℝ), 2], [0, 6], [-1, 0, 1], [-1, 1], [0, 1]] ∧
    3 < size [[(1 : ℝ), 2, 3], [0, 6], [-1, 0, 1], [-1, 1], [0, 1]] ∧ (∀ x ∈ [(0 : ℝ), 1], 0 ≤ x) := by
  refine ⟨?_, by decide, by simp⟩
  intro e he
  simp at he
  rcases he with rfl | rfl | rfl | rfl | rfl <;> norm_num

end Ascot.C154
