import Verif.Model.AfsiSetup
import Verif.Lemmas.DistData
import Verif.Props.C160_Moments
import Verif.Props.C59_Sample

set_option linter.unusedSectionVars false
set_option linter.unusedSimpArgs false

/-!
# C162: a fusion calculation is set up for the populations and cells that the user asks for
-/
namespace Ascot.C162

open AfsiSetup DistData Marginal
open Afsi (Hist)
open HistG (eff)

/-! ## Reaction and reactants -/

/-- The names of the reactions: reactants, then products. -/
def title : BoschHale.Channel → String
  | .DT_He4n => "DT_He4n"
  | .DHe3_He4p => "DHe3_He4p"
  | .DD_Tp => "DD_Tp"
  | .DD_He3n => "DD_He3n"

/-- **Names.**  The calculation gets the reaction of that name, and no reaction for another name. -/
theorem named (s : String) (c : BoschHale.Channel) : (reaction (.name s)).bind BoschHale.channel = some c ↔ s = title c := by
  unfold reaction
  simp only
  constructor
  · intro h
    split_ifs at h with h1 h2 h3 h4
    · obtain rfl : BoschHale.Channel.DT_He4n = c := Option.some.inj h; exact h1
    · obtain rfl : BoschHale.Channel.DHe3_He4p = c := Option.some.inj h; exact h2
    · obtain rfl : BoschHale.Channel.DD_Tp = c := Option.some.inj h; exact h3
    · obtain rfl : BoschHale.Channel.DD_He3n = c := Option.some.inj h; exact h4
    · simp at h
  · rintro rfl
    cases c <;> simp [title, BoschHale.channel]

/-- An index of a reaction, which the documentation allows, is refused. -/
theorem index_refused (i : ℤ) : reaction (.index i) = none := rfl

/-- **Table.**  For an atomic mass unit within a part in ten thousand of its value, the mass and charge numbers are those of
deuterium, tritium and helium-3. -/
theorem table {amu e : ℝ} (h1 : 1.6604e-27 < amu) (h2 : amu < 1.6607e-27) (he : 0 < e) (c : BoschHale.Channel) :
    (numbers amu e (BoschHale.species e c).m1 (BoschHale.species e c).q1,
      numbers amu e (BoschHale.species e c).m2 (BoschHale.species e c).q2) =
    match c with
    | .DT_He4n => ((2, 1), (3, 1))
    | .DHe3_He4p => ((2, 1), (3, 2))
    | .DD_Tp => ((2, 1), (2, 1))
    | .DD_He3n => ((2, 1), (2, 1)) := by
  have ha : 0 < amu := lt_trans (by norm_num) h1
  have d : round (3.344e-27 / amu) = 2 := by
    rw [round_eq, Int.floor_eq_iff]
    constructor
    · push_cast
      have : (1.5 : ℝ) ≤ 3.344e-27 / amu := by rw [le_div_iff₀ ha]; linarith
      linarith
    · push_cast
      have : 3.344e-27 / amu < (2.5 : ℝ) := by rw [div_lt_iff₀ ha]; linarith
      linarith
  have t : round (5.008e-27 / amu) = 3 := by
    rw [round_eq, Int.floor_eq_iff]
    constructor
    · push_cast
      have : (2.5 : ℝ) ≤ 5.008e-27 / amu := by rw [le_div_iff₀ ha]; linarith
      linarith
    · push_cast
      have : 5.008e-27 / amu < (3.5 : ℝ) := by rw [div_lt_iff₀ ha]; linarith
      linarith
  have e1 : round (e / e) = 1 := by rw [div_self he.ne', round_one]
  have e2 : round (2 * e / e) = 2 := by
    rw [mul_div_cancel_right₀ _ he.ne']
    exact_mod_cast round_natCast (α := ℝ) 2
  cases c <;> simp only [numbers, BoschHale.species, d, t, e1, e2]

example : (1.6604e-27 : ℝ) < 1.66053906892e-27 ∧ (1.66053906892e-27 : ℝ) < 1.6607e-27 := by norm_num

theorem foldl_find (species : List (ℤ × ℤ)) (x : ℤ × ℤ) : ∀ (n : ℕ) (i : ℕ),
    (List.range n).foldl (fun a i => if species[i]? = some x then some i else a) none = some i ↔
      i < n ∧ species[i]? = some x ∧ ∀ j, i < j → j < n → species[j]? ≠ some x
  | 0, i => by simp
  | n + 1, i => by
    rw [List.range_succ, List.foldl_append, List.foldl_cons, List.foldl_nil]
    by_cases h : species[n]? = some x
    · rw [if_pos h, Option.some.injEq]
      constructor
      · rintro rfl
        exact ⟨by omega, h, fun j h1 h2 => by omega⟩
      · rintro ⟨h1, h2, h3⟩
        by_contra hne
        exact h3 n (by omega) (by omega) h
    · rw [if_neg h, foldl_find species x n i]
      constructor
      · rintro ⟨h1, h2, h3⟩
        refine ⟨by omega, h2, fun j h4 h5 => ?_⟩
        rcases Nat.lt_succ_iff_lt_or_eq.mp h5 with h6 | rfl
        · exact h3 j h4 h6
        · exact h
      · rintro ⟨h1, h2, h3⟩
        have : i ≠ n := fun hh => h (hh ▸ h2)
        exact ⟨by omega, h2, fun j h4 h5 => h3 j h4 (by omega)⟩

theorem find_iff (species : List (ℤ × ℤ)) (x : ℤ × ℤ) (i : ℕ) :
    find species x = some i ↔ species[i]? = some x ∧ ∀ j, i < j → species[j]? ≠ some x := by
  unfold find
  rw [foldl_find]
  constructor
  · rintro ⟨_, h1, h2⟩
    refine ⟨h1, fun j hj hh => ?_⟩
    exact h2 j hj (List.getElem?_eq_some_iff.mp hh).1 hh
  · rintro ⟨h1, h2⟩
    exact ⟨(List.getElem?_eq_some_iff.mp h1).1, h1, fun j hj _ => h2 j hj⟩

theorem find_isSome (species : List (ℤ × ℤ)) (x : ℤ × ℤ) : (find species x).isSome ↔ x ∈ species := by
  constructor
  · intro h
    obtain ⟨i, hi⟩ := Option.isSome_iff_exists.mp h
    exact List.mem_of_getElem? ((find_iff _ _ _).mp hi).1
  · intro h
    by_contra hn
    rw [Option.not_isSome_iff_eq_none] at hn
    have : ∀ n, (∀ i, i < n → species[i]? ≠ some x) ∨ ∃ i,
        (List.range n).foldl (fun a i => if species[i]? = some x then some i else a) none = some i := by
      intro n
      induction n with
      | zero => exact Or.inl fun i hi => absurd hi (Nat.not_lt_zero i)
      | succ n ih =>
        rw [List.range_succ, List.foldl_append, List.foldl_cons, List.foldl_nil]
        by_cases hh : species[n]? = some x
        · exact Or.inr ⟨n, by rw [if_pos hh]⟩
        · rw [if_neg hh]
          rcases ih with ih | ih
          · left
            intro i hi
            rcases Nat.lt_succ_iff_lt_or_eq.mp hi with h1 | rfl
            · exact ih i h1
            · exact hh
          · exact Or.inr ih
    rcases this species.length with h1 | ⟨i, h1⟩
    · obtain ⟨i, hi, he⟩ := List.mem_iff_getElem.mp h
      exact h1 i hi (List.getElem?_eq_some_iff.mpr ⟨hi, he⟩)
    · unfold find at hn
      rw [hn] at h1
      cases h1

/-- **Thermal reactants.**  The calculation is refused unless both reactants are species of the plasma.  Otherwise the
reactants are such species, and the number of reactions is halved if and only if they are the same. -/
theorem thermal_reactants (species : List (ℤ × ℤ)) (x1 x2 : ℤ × ℤ) :
    ((thermal species x1 x2).isSome ↔ x1 ∈ species ∧ x2 ∈ species) ∧
    ∀ i1 i2 mult, thermal species x1 x2 = some (i1, i2, mult) →
      species[i1]? = some x1 ∧ species[i2]? = some x2 ∧ mult = if x1 = x2 then 1 / 2 else 1 := by
  constructor
  · rw [← find_isSome, ← find_isSome]
    unfold thermal
    cases find species x1 <;> cases find species x2 <;> simp
  · intro i1 i2 mult h
    unfold thermal at h
    cases h1 : find species x1 with
    | none => simp [h1] at h
    | some k1 =>
      cases h2 : find species x2 with
      | none => simp [h1, h2] at h
      | some k2 =>
        rw [h1, h2] at h
        simp only [Option.bind_some, Option.map_some, Option.some.injEq, Prod.mk.injEq] at h
        obtain ⟨rfl, rfl, rfl⟩ := h
        have e1 := ((find_iff _ _ _).mp h1).1
        have e2 := ((find_iff _ _ _).mp h2).1
        refine ⟨e1, e2, ?_⟩
        by_cases hx : x1 = x2
        · subst hx
          rw [h1] at h2
          rw [if_pos (Option.some.inj h2), if_pos rfl]
          norm_num
        · rw [if_neg hx, if_neg]
          rintro rfl
          rw [e1] at e2
          exact hx (Option.some.inj e2)

example : thermal [(2, 1), (3, 1)] (2, 1) (3, 1) = some (0, 1, 1) := by
  simp [thermal, find, List.range_succ]

/-- **Beam and plasma.**  The thermal reactant is the second, or with `swap` the first, and must be in the plasma. -/
theorem thermal_of_beam (species : List (ℤ × ℤ)) (x1 x2 : ℤ × ℤ) (swap : Bool) :
    ((beamthermal species swap x1 x2).isSome ↔ (if swap then x1 else x2) ∈ species) ∧
    ∀ i, beamthermal species swap x1 x2 = some i → species[i]? = some (if swap then x1 else x2) :=
  ⟨find_isSome _ _, fun _ h => ((find_iff _ _ _).mp h).1⟩

/-- **Beams.**  The reactants are the two beams, in their order, or the one beam with itself, which has half the reactions of the same
beam given twice: the second counts each pair of particles twice. -/
theorem beam_twice {α : Type} (b b' : α) : (beambeam b (some b')).1 = b ∧ (beambeam b (some b')).2.1 = b' ∧
    (beambeam b none).1 = b ∧ (beambeam b none).2.1 = b ∧
    (beambeam b (some b')).2.2 = 1 ∧ (beambeam b (some b)).2.2 = 2 * (beambeam b none).2.2 := by
  refine ⟨rfl, rfl, rfl, rfl, rfl, ?_⟩
  unfold beambeam
  norm_num

/-! ## Choice of coordinates -/

/-- **Coordinates.**  With `r` and `z` both given or both left out, and energy and pitch of both products given or of both
left out, the calculation runs in the coordinates given. -/
theorem coordinates (g : Given) (h1 : g.r = g.z) (h2 : g.ekin1 = g.pitch1) (h3 : g.ekin2 = g.pitch2) :
    choose g = if g.ekin1 = g.ekin2 then .run g.r g.ekin1 else .refused := by
  obtain ⟨r, z, e1, p1, e2, p2, mo⟩ := g
  simp only at h1 h2 h3
  subst h1 h2 h3
  cases r <;> cases e1 <;> cases e2 <;> cases mo <;> rfl

/-- With only one of `r` and `z`, the calculation fails, but only after the inputs have been initialized, and they stay so:
the message for this case is never given. -/
theorem incomplete (g : Given) (h1 : g.r ≠ g.z) (h2 : (g.ekin1 && g.pitch1) = (g.ekin2 && g.pitch2)) : choose g = .failed := by
  obtain ⟨r, z, e1, p1, e2, p2, mo⟩ := g
  simp only at h1 h2
  cases r <;> cases z <;> simp at h1 <;> cases e1 <;> cases p1 <;> cases e2 <;> cases p2 <;> simp at h2 <;> cases mo <;> rfl

/-- The only case that is refused with a message is that energy and pitch are given for one product and not for the other. -/
theorem refused_iff (g : Given) : choose g = .refused ↔ (g.ekin1 && g.pitch1) ≠ (g.ekin2 && g.pitch2) := by
  obtain ⟨r, z, e1, p1, e2, p2, mo⟩ := g
  cases r <;> cases z <;> cases e1 <;> cases p1 <;> cases e2 <;> cases p2 <;> cases mo <;> decide

/-- If the pitch of the second product is forgotten, its energies are ignored without a message: the calculation is in
momenta. -/
theorem ignored (r mo : Bool) : choose ⟨r, r, false, false, true, false, mo⟩ = .run r false := by
  cases r <;> cases mo <;> rfl

/-! ## Cells -/

/-- All bins of an axis have the same width. -/
def Uniform (a : Axis) : Prop := ∀ i, i < a.size → a.width i = a.width 0

/-- **Volumes.**  With bins of equal widths, the volume of every cell is that of the body in space. -/
theorem volume_cell {r phi z : Axis} (hr : Uniform r) (hp : Uniform phi) (hz : Uniform z) {i j k : ℕ} (hi : i < r.size)
    (hj : j < phi.size) (hk : k < z.size) : vol r phi z i j k = Moments.cylVolume r phi z i j k := by
  have h1 := hr i hi
  have h2 := hp j hj
  have h3 := hz k hk
  unfold vol Moments.cylVolume
  rw [← h1, ← h2, ← h3]
  unfold Axis.width
  ring

theorem volume_total {r phi z : Axis} (hr : Uniform r) (hp : Uniform phi) (hz : Uniform z) :
    ∑ i ∈ Finset.range r.size, ∑ j ∈ Finset.range phi.size, ∑ k ∈ Finset.range z.size, vol r phi z i j k
      = (r.edge r.size ^ 2 - r.edge 0 ^ 2) / 2 * (phi.edge phi.size - phi.edge 0) * (z.edge z.size - z.edge 0) := by
  rw [← C160.volumes]
  refine Finset.sum_congr rfl fun i hi => Finset.sum_congr rfl fun j hj => Finset.sum_congr rfl fun k hk => ?_
  exact volume_cell hr hp hz (Finset.mem_range.mp hi) (Finset.mem_range.mp hj) (Finset.mem_range.mp hk)

theorem edge_uniform {a : Axis} (h : Uniform a) : ∀ {i : ℕ}, i ≤ a.size → a.edge i = a.edge 0 + i * a.width 0
  | 0, _ => by simp
  | i + 1, hi => by
    have h1 := h i (by omega)
    have h2 := edge_uniform h (i := i) (by omega)
    unfold Axis.width at h1 ⊢
    push_cast
    unfold Axis.width at h2
    linarith

/-- **Bins of the products.**  With bins of equal widths, the centre of a cell is in the bin of the products that the cell is
counted in. -/
theorem bin_cell {a : Axis} (ha : IsEdges a.edges) (h : Uniform a) {i : ℕ} (hi : i < a.size) :
    HistG.binIndex (productAxis a) (a.center i) = i ∧ (productAxis a).n = a.size := by
  refine ⟨?_, rfl⟩
  have hs : 0 < a.size := by omega
  have hs' : (0 : ℝ) < a.size := by exact_mod_cast hs
  have hw : 0 < a.width 0 := by
    unfold Axis.width Axis.edge
    have hl := ha.1
    rw [List.getD_eq_getElem _ _ (by omega), List.getD_eq_getElem _ _ (by omega)]
    exact sub_pos.mpr (List.pairwise_iff_getElem.mp ha.2 0 1 (by omega) (by omega) (by omega))
  have h1 := edge_uniform h (i := i) (by omega)
  have h2 := edge_uniform h (i := i + 1) (by omega)
  have h3 := edge_uniform h (i := a.size) (le_refl _)
  have hn : (productAxis a).n = a.size := rfl
  have hmin : (productAxis a).min = a.edge 0 := rfl
  have hmax : (productAxis a).max = a.edge a.size := rfl
  unfold HistG.binIndex
  rw [hn, hmin, hmax, h3]
  have e : (a.size : ℝ) * (a.center i - a.edge 0) / (a.edge 0 + a.size * a.width 0 - a.edge 0) = i + 1 / 2 := by
    unfold Axis.center
    rw [h1, h2, add_sub_cancel_left, div_eq_iff (mul_pos hs' hw).ne']
    push_cast
    ring
  rw [e, Int.floor_eq_iff]
  push_cast
  constructor <;> linarith

/-- With bins of different widths, the volume of a cell is not that of the body, and the cell is not counted where it is. -/
theorem unequal : ∃ a : Axis, IsEdges a.edges ∧ ∃ i, i < a.size ∧ HistG.binIndex (productAxis a) (a.center i) ≠ i ∧
    ∀ phi z : Axis, Uniform phi → Uniform z → 0 < phi.size → 0 < z.size → 0 < phi.width 0 → 0 < z.width 0 →
      vol a phi z 2 0 0 < Moments.cylVolume a phi z 2 0 0 := by
  refine ⟨⟨0, [0, 1, 2, 10]⟩, ⟨by simp, by simp; norm_num⟩, 1, by simp [Axis.size], ?_, ?_⟩
  · have : HistG.binIndex (productAxis ⟨0, [0, 1, 2, 10]⟩) (Axis.center ⟨0, [0, 1, 2, 10]⟩ 1) = 0 := by
      unfold HistG.binIndex productAxis Axis.center Axis.edge
      rw [Int.floor_eq_iff]
      norm_num
    rw [this]
    norm_num
  · intro phi z _ _ _ _ hp hz
    unfold vol Moments.cylVolume
    have h1 := mul_pos hp hz
    simp only [Axis.edge, Axis.width, List.getD_cons_zero, List.getD_cons_succ] at h1 ⊢
    norm_num at h1 ⊢
    nlinarith

example : IsEdges [(1 : ℝ), 2, 3] ∧ Uniform ⟨0, [1, 2, 3]⟩ := by
  refine ⟨⟨by simp, by simp; norm_num⟩, fun i hi => ?_⟩
  have : i = 0 ∨ i = 1 := by
    simp [Axis.size] at hi
    omega
  rcases this with rfl | rfl
  · rfl
  · simp [Axis.width, Axis.edge]
    norm_num

/-- **Charge.**  The bin for the charge of a product contains the charge, and no charge that differs by one or more.  It contains also
those that differ a little, so that rounding does no harm. -/
theorem charge (q x : ℝ) : (|x - q| < 1 → HistG.binIndex (chargeAxis q) x = 0) ∧ (1 < |x - q| → HistG.binIndex (chargeAxis q) x ≠ 0) := by
  unfold HistG.binIndex chargeAxis
  have e : ((1 : ℕ) : ℝ) * (x - (q - 1)) / (q + 1 - (q - 1)) = (x - q + 1) / 2 := by push_cast; ring
  simp only [e]
  constructor
  · intro h
    rw [abs_lt] at h
    rw [Int.floor_eq_iff]
    push_cast
    constructor <;> linarith
  · intro h h0
    rw [Int.floor_eq_iff] at h0
    push_cast at h0
    rcases lt_abs.1 h with h | h <;> linarith

example : |(1 : ℝ) - 1| < 1 ∧ 1 < |(3 : ℝ) - 1| := by norm_num

/-! ## Beams -/

theorem length_ravel : ∀ (s : List ℕ) (g : List ℕ → ℝ), (ravel s g).length = s.prod
  | [], g => by simp [ravel]
  | n :: s, g => by
    rw [ravel, List.length_flatMap, List.prod_cons]
    have : (List.map (fun j => (ravel s fun r => g (j :: r)).length) (List.range n)) = List.replicate n s.prod := by
      rw [List.eq_replicate_iff]
      refine ⟨by simp, fun b hb => ?_⟩
      obtain ⟨j, -, rfl⟩ := List.mem_map.mp hb
      exact length_ravel s _
    rw [this, List.sum_replicate, smul_eq_mul]

theorem getElem_flatMap {L : ℕ} (f : ℕ → List ℝ) (hf : ∀ j, (f j).length = L) : ∀ (n j k : ℕ), j < n → k < L →
    ((List.range n).flatMap f)[j * L + k]? = (f j)[k]?
  | 0, j, k, hj, _ => by omega
  | n + 1, j, k, hj, hk => by
    rw [List.range_succ, List.flatMap_append]
    have hlen : ((List.range n).flatMap f).length = n * L := by
      rw [List.length_flatMap]
      have : (List.map (fun j => (f j).length) (List.range n)) = List.replicate n L := by
        rw [List.eq_replicate_iff]
        refine ⟨by simp, fun b hb => ?_⟩
        obtain ⟨j, -, rfl⟩ := List.mem_map.mp hb
        exact hf j
      rw [this, List.sum_replicate, smul_eq_mul]
    rcases Nat.lt_succ_iff_lt_or_eq.mp hj with h | rfl
    · rw [List.getElem?_append_left]
      · exact getElem_flatMap f hf n j k h hk
      · rw [hlen]
        nlinarith
    · rw [List.getElem?_append_right (by rw [hlen]; omega), hlen, Nat.add_sub_cancel_left]
      simp

/-- The entry of the flat array. -/
theorem ravel_get : ∀ (s is : List ℕ) (g : List ℕ → ℝ), Within s is → (ravel s g)[Dist.radix s is]? = some (g is)
  | [], [], g, _ => by simp [ravel, Dist.radix]
  | n :: s, i :: is, g, h => by
    rw [ravel, Dist.radix, getElem_flatMap _ (fun j => length_ravel s _) n i _ h.1]
    · exact ravel_get s is _ h.2
    · refine Dist.radix_lt ?_
      have : ∀ (s is : List ℕ), Within s is → List.Forall₂ (fun i n => i < n) is s := by
        intro s
        induction s with
        | nil =>
          intro is h
          cases is with
          | nil => exact .nil
          | cons => exact absurd h (by simp [Within])
        | cons n s ih =>
          intro is h
          cases is with
          | nil => exact absurd h (by simp [Within])
          | cons i is => exact .cons h.1 (ih is h.2)
      exact this s is h.2
  | [], _ :: _, _, h => absurd h (by simp [Within])
  | _ :: _, [], _, h => absurd h (by simp [Within])

/-- The sizes of the axes in the histogram. -/
theorem beam_sizes {a0 a1 a2 a3 a4 a5 a6 : Axis} {f : List ℕ → ℝ} :
    (beamHist ⟨[a0, a1, a2, a3, a4, a5, a6], f⟩).axes.map Dist.Axis.n
      = [a0.size, a1.size, a2.size, 0, 0, a3.size, a4.size, 0, 0, 0, 0, 0, 0, 0, a5.size, a6.size] := by
  simp [beamHist, HistG.axesOf, requests, HistG.axisOf, List.range_succ]

theorem eff_pos {n : ℕ} (h : 0 < n) : eff n = n := by
  unfold eff
  rw [if_pos (by omega)]

/-- **Beam.**  In every cell, the particles that a calculation takes from a beam are those of the distribution in the first
bin of time and of charge, bin by bin in the momenta. -/
theorem beam_content {a0 a1 a2 a3 a4 a5 a6 : Axis} {f : List ℕ → ℝ}
    (hpos : ∀ a ∈ [a0, a1, a2, a3, a4, a5, a6], 0 < a.size) {i0 i1 i2 k1 k2 : ℕ} (h0 : i0 < a0.size) (h1 : i1 < a1.size)
    (h2 : i2 < a2.size) (h3 : k1 < a3.size) (h4 : k2 < a4.size) :
    C59.content (beamHist ⟨[a0, a1, a2, a3, a4, a5, a6], f⟩) 5 6 i0 i1 i2 k1 k2
      = histogram ⟨[a0, a1, a2, a3, a4, a5, a6], f⟩ [i0, i1, i2, k1, k2, 0, 0] := by
  simp only [List.mem_cons, List.not_mem_nil, or_false, forall_eq_or_imp, forall_eq] at hpos
  obtain ⟨p0, p1, p2, p3, p4, p5, p6⟩ := hpos
  unfold C59.content C25.elementOf
  have e : (beamHist ⟨[a0, a1, a2, a3, a4, a5, a6], f⟩).axes.map (fun a => eff a.n)
      = [a0.size, a1.size, a2.size, 1, 1, a3.size, a4.size, 1, 1, 1, 1, 1, 1, 1, a5.size, a6.size] := by
    have := congrArg (List.map eff) (beam_sizes (a0 := a0) (a1 := a1) (a2 := a2) (a3 := a3) (a4 := a4) (a5 := a5) (a6 := a6) (f := f))
    rw [List.map_map] at this
    refine this.trans ?_
    simp only [List.map_cons, List.map_nil, eff_pos p0, eff_pos p1, eff_pos p2, eff_pos p3, eff_pos p4, eff_pos p5, eff_pos p6]
    rfl
  rw [e]
  have e2 : Dist.radix [a0.size, a1.size, a2.size, 1, 1, a3.size, a4.size, 1, 1, 1, 1, 1, 1, 1, a5.size, a6.size]
      (C59.address 5 6 i0 i1 i2 k1 k2)
      = Dist.radix [a0.size, a1.size, a2.size, a3.size, a4.size, a5.size, a6.size] [i0, i1, i2, k1, k2, 0, 0] := by
    simp [C59.address, Dist.radix, List.replicate]
  rw [e2]
  have := ravel_get [a0.size, a1.size, a2.size, a3.size, a4.size, a5.size, a6.size] [i0, i1, i2, k1, k2, 0, 0]
    (histogram ⟨[a0, a1, a2, a3, a4, a5, a6], f⟩) ⟨h0, h1, h2, h3, h4, p5, p6, trivial⟩
  have e3 : (beamHist ⟨[a0, a1, a2, a3, a4, a5, a6], f⟩).bins
      = ravel [a0.size, a1.size, a2.size, a3.size, a4.size, a5.size, a6.size] (histogram ⟨[a0, a1, a2, a3, a4, a5, a6], f⟩) := rfl
  rw [e3, this, Option.getD_some]

theorem mem_ravel : ∀ (s : List ℕ) (g : List ℕ → ℝ) (b : ℝ), b ∈ ravel s g → ∃ is, Within s is ∧ b = g is
  | [], g, b, h => ⟨[], trivial, by simpa [ravel] using h⟩
  | n :: s, g, b, h => by
    rw [ravel, List.mem_flatMap] at h
    obtain ⟨j, hj, hb⟩ := h
    obtain ⟨is, h1, h2⟩ := mem_ravel s _ b hb
    exact ⟨j :: is, ⟨List.mem_range.mp hj, h1⟩, h2⟩

/-- Particles in the cell, summed over the momenta. -/
noncomputable def particles (h : List ℕ → ℝ) (n3 n4 : ℕ) (i0 i1 i2 t q : ℕ) : ℝ :=
  ∑ k1 ∈ Finset.range n3, ∑ k2 ∈ Finset.range n4, h [i0, i1, i2, k1, k2, t, q]

/-- **Density of a beam.**  The density in a cell is the number of particles in the first bin of time and of charge by the
volume. -/
theorem beam_density {a0 a1 a2 a3 a4 a5 a6 : Axis} {f : List ℕ → ℝ}
    (hpos : ∀ a ∈ [a0, a1, a2, a3, a4, a5, a6], 0 < a.size) {i0 i1 i2 : ℕ} (h0 : i0 < a0.size) (h1 : i1 < a1.size)
    (h2 : i2 < a2.size) {c mass vol : ℝ} {us : List ℝ} {dens : ℝ} {l : List (ℝ × ℝ)}
    (hnn : ∀ is, Within ([a0, a1, a2, a3, a4, a5, a6].map Axis.size) is → 0 ≤ histogram ⟨[a0, a1, a2, a3, a4, a5, a6], f⟩ is)
    (h : Afsi.sampleBeam c mass vol (beamHist ⟨[a0, a1, a2, a3, a4, a5, a6], f⟩) i0 i1 i2 us = some (dens, l)) :
    dens = particles (histogram ⟨[a0, a1, a2, a3, a4, a5, a6], f⟩) a3.size a4.size i0 i1 i2 0 0 / vol := by
  have hpos' := hpos
  simp only [List.mem_cons, List.not_mem_nil, or_false, forall_eq_or_imp, forall_eq] at hpos
  obtain ⟨p0, p1, p2, p3, p4, p5, p6⟩ := hpos
  have hn : ∀ k, (beamHist ⟨[a0, a1, a2, a3, a4, a5, a6], f⟩).n k
      = ([a0.size, a1.size, a2.size, 0, 0, a3.size, a4.size, 0, 0, 0, 0, 0, 0, 0, a5.size, a6.size][k]?).getD 0 := by
    intro k
    unfold Hist.n
    rw [beam_sizes]
  have n0 := hn 0
  have n1 := hn 1
  have n2 := hn 2
  have n5 := hn 5
  have n6 := hn 6
  simp only [List.getElem?_cons_zero, List.getElem?_cons_succ, Option.getD_some] at n0 n1 n2 n5 n6
  have hv : C59.Valid (beamHist ⟨[a0, a1, a2, a3, a4, a5, a6], f⟩) := by
    refine ⟨by simp [beamHist, HistG.axesOf], ?_, fun b hb => ?_⟩
    swap
    · obtain ⟨is, h3, h4⟩ := mem_ravel _ _ b hb
      rw [h4]
      exact hnn is h3
    have e : (beamHist ⟨[a0, a1, a2, a3, a4, a5, a6], f⟩).axes.map (fun a => eff a.n)
        = [a0.size, a1.size, a2.size, 1, 1, a3.size, a4.size, 1, 1, 1, 1, 1, 1, 1, a5.size, a6.size] := by
      have := congrArg (List.map eff) (beam_sizes (a0 := a0) (a1 := a1) (a2 := a2) (a3 := a3) (a4 := a4) (a5 := a5) (a6 := a6) (f := f))
      rw [List.map_map] at this
      refine this.trans ?_
      simp only [List.map_cons, List.map_nil, eff_pos p0, eff_pos p1, eff_pos p2, eff_pos p3, eff_pos p4, eff_pos p5, eff_pos p6]
      rfl
    rw [e]
    refine (length_ravel _ _).trans ?_
    simp
  have hax : Afsi.momentumAxes (beamHist ⟨[a0, a1, a2, a3, a4, a5, a6], f⟩) = some (5, 6, true) := by
    unfold Afsi.momentumAxes
    rw [if_pos (by rw [n5]; omega)]
  have hc : C59.InCell (beamHist ⟨[a0, a1, a2, a3, a4, a5, a6], f⟩) i0 i1 i2 := by
    unfold C59.InCell
    rw [n0, n1, n2, eff_pos p0, eff_pos p1, eff_pos p2]
    exact ⟨h0, h1, h2⟩
  unfold Afsi.sampleBeam at h
  rw [hax] at h
  simp only [Option.bind_some] at h
  rw [C59.cellBins_eq hv (Or.inl rfl) hc] at h
  simp only [Option.bind_some] at h
  rw [C59.density_eq, C59.sum_range_mul _ _ (fun k1 k2 => C59.content (beamHist ⟨[a0, a1, a2, a3, a4, a5, a6], f⟩) 5 6 i0 i1 i2 k1 k2)] at h
  have e : (∑ k1 ∈ Finset.range ((beamHist ⟨[a0, a1, a2, a3, a4, a5, a6], f⟩).n 5),
      ∑ k2 ∈ Finset.range ((beamHist ⟨[a0, a1, a2, a3, a4, a5, a6], f⟩).n 6),
        C59.content (beamHist ⟨[a0, a1, a2, a3, a4, a5, a6], f⟩) 5 6 i0 i1 i2 k1 k2)
      = particles (histogram ⟨[a0, a1, a2, a3, a4, a5, a6], f⟩) a3.size a4.size i0 i1 i2 0 0 := by
    unfold particles
    rw [n5, n6]
    refine Finset.sum_congr rfl fun k1 hk1 => Finset.sum_congr rfl fun k2 hk2 => ?_
    exact beam_content hpos' h0 h1 h2 (Finset.mem_range.mp hk1) (Finset.mem_range.mp hk2)
  rw [e] at h
  split_ifs at h with hz
  · rw [← (Prod.mk.inj (Option.some.inj h)).1, hz]
  · rw [Option.map_eq_some_iff] at h
    obtain ⟨l', -, h'⟩ := h
    exact (Prod.mk.inj h').1.symm

/-- **Particles.**  With one bin in time and one in charge, the densities by the volumes sum to the number of particles of
the distribution. -/
theorem beam_number (h : List ℕ → ℝ) (n0 n1 n2 n3 n4 : ℕ) {V : ℕ → ℕ → ℕ → ℝ} (hV : ∀ i j k, V i j k ≠ 0) :
    ∑ i0 ∈ Finset.range n0, ∑ i1 ∈ Finset.range n1, ∑ i2 ∈ Finset.range n2, particles h n3 n4 i0 i1 i2 0 0 / V i0 i1 i2 * V i0 i1 i2
      = total [n0, n1, n2, n3, n4, 1, 1] h := by
  simp only [total, Finset.sum_range_one, particles]
  refine Finset.sum_congr rfl fun i0 _ => Finset.sum_congr rfl fun i1 _ => Finset.sum_congr rfl fun i2 _ => ?_
  exact div_mul_cancel₀ _ (hV i0 i1 i2)

/-- With more bins, particles outside of the first bin of charge do not react. -/
theorem beam_lost {a0 a1 a2 a3 a4 a5 a6 : Axis} {f : List ℕ → ℝ}
    (hpos : ∀ a ∈ [a0, a1, a2, a3, a4, a5, a6], 0 < a.size) {i0 i1 i2 : ℕ} (h0 : i0 < a0.size) (h1 : i1 < a1.size)
    (h2 : i2 < a2.size) {c mass vol : ℝ} {us : List ℝ} {dens : ℝ} {l : List (ℝ × ℝ)}
    (hnn : ∀ is, Within ([a0, a1, a2, a3, a4, a5, a6].map Axis.size) is → 0 ≤ histogram ⟨[a0, a1, a2, a3, a4, a5, a6], f⟩ is)
    (hq : ∀ j0 j1 j2 k1 k2 t, f [j0, j1, j2, k1, k2, t, 0] = 0)
    (h : Afsi.sampleBeam c mass vol (beamHist ⟨[a0, a1, a2, a3, a4, a5, a6], f⟩) i0 i1 i2 us = some (dens, l)) : dens = 0 := by
  rw [beam_density hpos h0 h1 h2 hnn h]
  unfold particles histogram
  simp [hq]

/-- **Second beam.**  The density of a beam in a cell does not depend on where the bins of the beam are: if the second beam
has other bins in space than the first, its particles react at another place than they are. -/
theorem grid_ignored {a0 a1 a2 b0 b1 b2 a3 a4 a5 a6 : Axis} {f g : List ℕ → ℝ}
    (hpos : ∀ a ∈ [a0, a1, a2, a3, a4, a5, a6], 0 < a.size) (e0 : a0.size = b0.size) (e1 : a1.size = b1.size)
    (e2 : a2.size = b2.size) (hfg : histogram ⟨[a0, a1, a2, a3, a4, a5, a6], f⟩ = histogram ⟨[b0, b1, b2, a3, a4, a5, a6], g⟩)
    {i0 i1 i2 : ℕ} (h0 : i0 < a0.size) (h1 : i1 < a1.size) (h2 : i2 < a2.size) {c mass vol : ℝ} {us us' : List ℝ}
    {d d' : ℝ} {l l' : List (ℝ × ℝ)}
    (hnn : ∀ is, Within ([a0, a1, a2, a3, a4, a5, a6].map Axis.size) is → 0 ≤ histogram ⟨[a0, a1, a2, a3, a4, a5, a6], f⟩ is)
    (h : Afsi.sampleBeam c mass vol (beamHist ⟨[a0, a1, a2, a3, a4, a5, a6], f⟩) i0 i1 i2 us = some (d, l))
    (h' : Afsi.sampleBeam c mass vol (beamHist ⟨[b0, b1, b2, a3, a4, a5, a6], g⟩) i0 i1 i2 us' = some (d', l')) : d = d' := by
  rw [beam_density hpos h0 h1 h2 hnn h, beam_density ?_ (e0 ▸ h0) (e1 ▸ h1) (e2 ▸ h2) ?_ h', hfg]
  · simp only [List.mem_cons, List.not_mem_nil, or_false, forall_eq_or_imp, forall_eq] at hpos ⊢
    rw [← e0, ← e1, ← e2]
    exact hpos
  · intro is his
    rw [← hfg]
    refine hnn is ?_
    simp only [List.map_cons, List.map_nil] at his ⊢
    rw [e0, e1, e2]
    exact his

/-- A distribution with one cell and one particle. -/
noncomputable def one : Data :=
  ofHistogram (List.replicate 7 ⟨0, [0, 1]⟩) fun _ => 1

example : (∀ a ∈ one.axes, 0 < a.size) ∧ (∀ is, 0 ≤ histogram one is) ∧
    (Afsi.sampleBeam 1 1 2 (beamHist one) 0 0 0 []).isSome := by
  refine ⟨by simp [one, ofHistogram, List.replicate, Axis.size], fun is => ?_, ?_⟩
  · unfold histogram one ofHistogram
    simp only
    by_cases hz : volume (List.replicate 7 ⟨0, [0, 1]⟩) is = 0
    · rw [hz]; simp
    · rw [div_mul_cancel₀ _ hz]; exact zero_le_one
  · have : ∀ bins, (if Afsi.density 2 bins = 0 then some ((0 : ℝ), ([] : List (ℝ × ℝ)))
        else (some []).map fun l => (Afsi.density 2 bins, l)).isSome := by
      intro bins
      split_ifs <;> rfl
    have hax : Afsi.momentumAxes (beamHist one) = some (5, 6, true) := by
      unfold Afsi.momentumAxes Hist.n
      rw [show one = ⟨[⟨0, [0, 1]⟩, ⟨0, [0, 1]⟩, ⟨0, [0, 1]⟩, ⟨0, [0, 1]⟩, ⟨0, [0, 1]⟩, ⟨0, [0, 1]⟩, ⟨0, [0, 1]⟩], one.f⟩ from rfl, beam_sizes]
      simp [Axis.size]
    have hcell : (Afsi.cellBins (beamHist one) 5 6 0 0 0).isSome := by
      unfold Afsi.cellBins Hist.n
      rw [show one = ⟨[⟨0, [0, 1]⟩, ⟨0, [0, 1]⟩, ⟨0, [0, 1]⟩, ⟨0, [0, 1]⟩, ⟨0, [0, 1]⟩, ⟨0, [0, 1]⟩, ⟨0, [0, 1]⟩], one.f⟩ from rfl, beam_sizes]
      simp [Axis.size, beamHist, ravel]
    obtain ⟨bins, hb⟩ := Option.isSome_iff_exists.mp hcell
    unfold Afsi.sampleBeam
    rw [hax]
    simp only [Option.bind_some]
    rw [hb]
    exact this bins

end Ascot.C162
