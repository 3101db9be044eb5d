import Verif.Props.C125_DistFile
import Verif.Props.C25_Hist
import Mathlib.Tactic.IntervalCases

/-!
# C126: general histograms in the output file

Full statement: the cells of a written histogram are those of the histogram in memory, and each
abscissa is given in a unit of its quantity.  The latter is false for the magnetic moment and the
toroidal angular momentum (`moment_violation`, `ptor_violation`).
-/

set_option linter.unusedSectionVars false
set_option linter.unusedSimpArgs false

namespace Ascot.C126
open Ascot.DistFile Ascot.DistDoc Ascot.C125
open Ascot.Dist (Axis)
open Ascot.HistG (Marker eff)
open Ascot.C25 (CellOpt InCellOpt InBinOpt Within elementOf)
open Ascot.OutputDoc (Dim unitOf)

/-- The entries of a list that belong to axes in use. -/
def used {α : Type} : List (Axis ℝ) → List α → List α
  | a :: as, x :: xs => if a.n = 0 then used as xs else x :: used as xs
  | _, _ => []

/-- Factor from the collected quantities to SI units: the charge is collected as charge number. -/
noncomputable def factor (i : ℕ) : ℝ := if i = 15 then OutputDoc.e else 1

/-- Each abscissa is written in a unit of its quantity, with edges that are those of the axis.
Missing: magnetic moment (12) and toroidal angular momentum (13). -/
theorem abscissa_partial (i : ℕ) (hi : i < 16) (h12 : i ≠ 12) (h13 : i ≠ 13) (a : Axis ℝ) :
    ∃ p, general[i]? = some p ∧ (abscOf i a).name = p.1 ∧ Right (abscOf i a) a p.2 (factor i) := by
  have hd := fun (name : String) => right_deg name a
  simp only [rad2deg] at hd
  interval_cases i
  · exact ⟨_, rfl, rfl, by simpa [factor, abscOf] using right_same _ _ a _ rfl⟩
  · exact ⟨_, rfl, rfl, by simpa [factor, abscOf] using hd "phi"⟩
  · exact ⟨_, rfl, rfl, by simpa [factor, abscOf] using right_same _ _ a _ rfl⟩
  · exact ⟨_, rfl, rfl, by simpa [factor, abscOf] using right_same _ _ a _ rfl⟩
  · exact ⟨_, rfl, rfl, by simpa [factor, abscOf] using hd "theta"⟩
  · exact ⟨_, rfl, rfl, by simpa [factor, abscOf] using right_same _ _ a _ rfl⟩
  · exact ⟨_, rfl, rfl, by simpa [factor, abscOf] using right_same _ _ a _ rfl⟩
  · exact ⟨_, rfl, rfl, by simpa [factor, abscOf] using right_same _ _ a _ rfl⟩
  · exact ⟨_, rfl, rfl, by simpa [factor, abscOf] using right_same _ _ a _ rfl⟩
  · exact ⟨_, rfl, rfl, by simpa [factor, abscOf] using right_same _ _ a _ rfl⟩
  · exact ⟨_, rfl, rfl, by simpa [factor, abscOf] using right_div "ekin" "eV" a _ rfl⟩
  · exact ⟨_, rfl, rfl, by simpa [factor, abscOf] using right_same _ _ a _ rfl⟩
  · exact absurd rfl h12
  · exact absurd rfl h13
  · exact ⟨_, rfl, rfl, by simpa [factor, abscOf] using right_same _ _ a _ rfl⟩
  · exact ⟨_, rfl, rfl, by simpa [factor, abscOf] using right_e "charge" a⟩

theorem eff_zero {n : ℕ} (h : n = 0) : eff n = 1 := by simp [eff, h]
theorem eff_pos {n : ℕ} (h : n ≠ 0) : eff n = n := by simp [eff, h]

theorem abscs_n (axes : List (Axis ℝ)) (i : ℕ) :
    ((abscs i axes).map Absc.n).prod = (axes.map fun a => eff a.n).prod := by
  induction axes generalizing i with
  | nil => rfl
  | cons a l ih =>
    rw [abscs, List.map_cons, List.prod_cons]
    by_cases h : a.n = 0
    · rw [if_pos h, ih, eff_zero h, one_mul]
    · rw [if_neg h, List.map_cons, List.prod_cons, ih, eff_pos h]
      congr 1
      unfold abscOf
      split <;> rfl

theorem abscOf_n (i : ℕ) (a : Axis ℝ) : (abscOf i a).n = a.n := by
  unfold abscOf; split <;> rfl

theorem place_used (axes : List (Axis ℝ)) (i : ℕ) (is : List ℕ) (hc : CellOpt axes is) :
    place ((abscs i axes).map Absc.n) (used axes is) = elementOf axes is := by
  unfold elementOf
  induction axes generalizing i is with
  | nil => cases hc; rfl
  | cons a l ih =>
    cases hc with
    | cons hk hc =>
      rename_i k ks
      rw [abscs, used, List.map_cons, Dist.radix, ← ih (i + 1) ks hc, ← abscs_n l (i + 1)]
      by_cases h : a.n = 0
      · rw [if_pos h, if_pos h]
        rw [eff_zero h] at hk
        have : k = 0 := by omega
        rw [this]; simp
      · rw [if_neg h, if_neg h, List.map_cons, place]

/-- Each cell of the histogram is in the file, under the bins of the axes in use. -/
theorem cells (axes : List (Axis ℝ)) (bins : ℕ → ℝ) (is : List ℕ) (hc : CellOpt axes is) :
    IsCell (histWrite axes bins) (used axes is) ∧
    value (histWrite axes bins) (used axes is) = bins (elementOf axes is) := by
  refine ⟨?_, ?_⟩
  · unfold IsCell histWrite writeUniform
    simp only
    rw [List.forall₂_map_right_iff]
    generalize 0 = i
    induction axes generalizing i is with
    | nil => cases hc; exact .nil
    | cons a l ih =>
      cases hc with
      | cons hk hc =>
        rw [abscs, used]
        by_cases h : a.n = 0
        · rw [if_pos h, if_pos h]; exact ih _ hc (i + 1)
        · rw [if_neg h, if_neg h]
          refine .cons ?_ (ih _ hc (i + 1))
          rw [abscOf_n]
          rwa [eff_pos h] at hk
  · unfold value histWrite writeUniform
    simp only
    rw [show place (1 :: (abscs 0 axes).map Absc.n) (0 :: used axes is) =
      place ((abscs 0 axes).map Absc.n) (used axes is) by rw [place]; simp, place_used axes 0 is hc]

/-- Conversely every cell in the file is one of the histogram. -/
theorem cells_back (axes : List (Axis ℝ)) (bins : ℕ → ℝ) (js : List ℕ)
    (hj : IsCell (histWrite axes bins) js) : ∃ is, CellOpt axes is ∧ used axes is = js := by
  unfold IsCell histWrite writeUniform at hj
  simp only at hj
  rw [List.forall₂_map_right_iff] at hj
  revert hj
  generalize 0 = i
  intro hj
  induction axes generalizing i js with
  | nil => cases hj; exact ⟨[], .nil, rfl⟩
  | cons a l ih =>
    rw [abscs] at hj
    by_cases h : a.n = 0
    · rw [if_pos h] at hj
      obtain ⟨is, h1, h2⟩ := ih _ _ hj
      exact ⟨0 :: is, .cons (by rw [eff_zero h]; omega) h1, by rw [used, if_pos h, h2]⟩
    · rw [if_neg h] at hj
      cases hj with
      | cons hk hj =>
        obtain ⟨is, h1, h2⟩ := ih _ _ hj
        refine ⟨_ :: is, .cons ?_ h1, by rw [used, if_neg h, h2]⟩
        rw [eff_pos h]; rwa [abscOf_n] at hk

/-- The dimensions of the abscissae in use and the quantities of a marker in SI units, from axis
number `i` on. -/
def dims (i : ℕ) : List (Axis ℝ) → List Dim
  | [] => []
  | a :: l => if a.n = 0 then dims (i + 1) l else ((general[i]?).map Prod.snd).getD .one :: dims (i + 1) l
@[inherit_doc dims]
noncomputable def quantities (i : ℕ) : List (Axis ℝ) → List (Option ℝ) → List ℝ
  | a :: as, x :: xs =>
    if a.n = 0 then quantities (i + 1) as xs else x.getD 0 * factor i :: quantities (i + 1) as xs
  | _, _ => []

theorem inCell (axes : List (Axis ℝ)) (bins : ℕ → ℝ) (is : List ℕ) (xs : List (Option ℝ))
    (h12 : ∀ a, axes[12]? = some a → a.n = 0) (h13 : ∀ a, axes[13]? = some a → a.n = 0)
    (hl : axes.length ≤ 16) (h : InCellOpt axes is xs) :
    InCell (histWrite axes bins).absc (dims 0 axes) (used axes is) (quantities 0 axes xs) := by
  unfold histWrite writeUniform
  simp only
  have key : ∀ (axes : List (Axis ℝ)) (i : ℕ) (is : List ℕ) (xs : List (Option ℝ)),
      (∀ j a, axes[j]? = some a → i + j = 12 ∨ i + j = 13 → a.n = 0) → i + axes.length ≤ 16 →
      InCellOpt axes is xs →
      InCell ((abscs i axes).map fun a => ⟨a.name, a.unit, a.n,
        (List.range (a.n + 1)).map fun j : ℕ => a.min + j * ((a.max - a.min) / a.n)⟩) (dims i axes)
        (used axes is) (quantities i axes xs) := by
    intro axes
    induction axes with
    | nil =>
      intro i is xs _ _ h
      match is, xs, h with
      | [], [], _ => trivial
    | cons a l ih =>
      intro i is xs h0 hl h
      match is, xs, h with
      | k :: ks, x :: xs, h =>
        have h0' : ∀ j b, l[j]? = some b → i + 1 + j = 12 ∨ i + 1 + j = 13 → b.n = 0 := by
          intro j b hj hb
          exact h0 (j + 1) b (by simpa using hj) (by omega)
        have hr := ih (i + 1) ks xs h0' (by simp only [List.length_cons] at hl; omega) h.2
        have h1 := h.1
        rw [abscs, dims, used, quantities]
        by_cases hn : a.n = 0
        · rw [if_pos hn, if_pos hn, if_pos hn, if_pos hn]; exact hr
        · rw [if_neg hn, if_neg hn, if_neg hn, if_neg hn, List.map_cons]
          refine ⟨?_, hr⟩
          unfold InBinOpt at h1
          rw [if_neg hn] at h1
          obtain ⟨y, rfl, h2, h3⟩ := h1
          obtain ⟨p, hp, -, hR⟩ := abscissa_partial i (by simp only [List.length_cons] at hl; omega)
            (fun e => hn (h0 0 a rfl (by omega))) (fun e => hn (h0 0 a rfl (by omega))) a
          rw [hp]
          obtain ⟨f, hu, hmin, hmax⟩ := hR.unit
          exact (spans_iff _ a p.2 f y _ k hR.n hu _ hR.pos hmin hmax h2 rfl).mpr h3
  refine key axes 0 is xs ?_ (by omega) h
  intro j a hj hb
  rcases hb with hb | hb
  · exact h12 a (by rw [← hb, Nat.zero_add]; exact hj)
  · exact h13 a (by rw [← hb, Nat.zero_add]; exact hj)

/-- A running marker within the axes in use adds its weight to one cell of the file, which contains
the marker, and changes no other.  Missing: the same markers and axes as in C25.`within_partial`,
and axes of the magnetic moment and the toroidal angular momentum. -/
theorem update_partial (axes : List (Axis ℝ)) (hne : axes ≠ []) (hl : axes.length ≤ 16)
    (hv : ∀ a ∈ axes, a.n ≠ 0 → a.min < a.max)
    (h12 : ∀ a, axes[12]? = some a → a.n = 0) (h13 : ∀ a, axes[13]? = some a → a.n = 0)
    (m : Marker ℝ) (hr : m.running = true) (hm : Within axes m.coords) (h : ℕ → ℝ) :
    ∃ h' js, HistG.updateFo axes (axes.map fun a => eff a.n).prod [m] h = some h' ∧
      IsCell (histWrite axes h') js ∧
      InCell (histWrite axes h').absc (dims 0 axes) js (quantities 0 axes m.coords) ∧
      value (histWrite axes h') js = value (histWrite axes h) js + m.weight ∧
      ∀ js', IsCell (histWrite axes h') js' → js' ≠ js →
        value (histWrite axes h') js' = value (histWrite axes h) js' := by
  obtain ⟨is, h1, h2, h3⟩ := C25.within_partial axes hne hv m hm h
  rw [if_pos hr] at h3
  refine ⟨_, used axes is, h3, (cells axes _ is h1).1, inCell axes _ is _ h12 h13 hl h2, ?_, ?_⟩
  · rw [(cells axes _ is h1).2, (cells axes _ is h1).2]
    simp [Dist.addAt]
  · intro js' hj hne'
    obtain ⟨is', hc', rfl⟩ := cells_back axes _ js' hj
    rw [(cells axes _ is' hc').2, (cells axes _ is' hc').2]
    have : elementOf axes is' ≠ elementOf axes is := fun he =>
      hne' (by rw [(C25.cells axes).2.1 is' is hc' h1 he])
    simp [Dist.addAt, this]

/-- The magnetic moment is written without conversion under the unit `T/eV`, which is that of its
inverse. -/
theorem moment_violation (a : Axis ℝ) : (abscOf 12 a).name = "mu" ∧
    (abscOf 12 a).min = a.min ∧ (¬ ∃ f, unitOf (abscOf 12 a).unit = some (Dim.moment, f)) ∧
    ¬ ∃ g, Right (abscOf 12 a) a .moment g := by
  have h : ¬ ∃ f, unitOf (abscOf 12 a).unit = some (Dim.moment, f) := by
    rintro ⟨f, hf⟩
    have h2 : unitOf (abscOf 12 a).unit = some (⟨0, -2, 1, -1⟩, 1 / OutputDoc.e) := rfl
    rw [h2] at hf
    have h3 := congrArg (fun x => x.map (fun y : Dim × ℝ => y.1)) hf
    simp only [Option.map_some, Option.some.injEq] at h3
    exact absurd h3 (by decide)
  refine ⟨rfl, rfl, h, ?_⟩
  rintro ⟨g, hg⟩
  obtain ⟨f, hf, -⟩ := hg.unit
  exact h ⟨f, hf⟩

/-- The toroidal angular momentum has the unit of a momentum. -/
theorem ptor_violation (a : Axis ℝ) : (abscOf 13 a).name = "ptor" ∧
    ¬ ∃ g, Right (abscOf 13 a) a .action g := by
  refine ⟨rfl, ?_⟩
  rintro ⟨g, hg⟩
  obtain ⟨f, hf, -⟩ := hg.unit
  have h2 : unitOf (abscOf 13 a).unit = some (Dim.momentum, 1) := rfl
  rw [h2] at hf
  have h3 := congrArg (fun x => x.map (fun y : Dim × ℝ => y.1)) hf
  simp only [Option.map_some, Option.some.injEq] at h3
  exact absurd h3 (by decide)

/-- Axes R with two bins and the angle with three, and a marker within them. -/
example : Within ([⟨2, 0, 2⟩, ⟨3, 0, 3⟩] ++ List.replicate 14 ⟨0, 0, 1⟩ : List (Axis ℝ))
    ([some 1, some 1] ++ List.replicate 14 none) ∧
    used ([⟨2, 0, 2⟩, ⟨3, 0, 3⟩] ++ List.replicate 14 ⟨0, 0, 1⟩ : List (Axis ℝ))
      (1 :: 2 :: List.replicate 14 0) = [1, 2] := by
  refine ⟨?_, by simp [used, List.replicate]⟩
  refine .cons (fun _ => ⟨1, rfl, by norm_num, by norm_num⟩)
    (.cons (fun _ => ⟨1, rfl, by norm_num, by norm_num⟩) ?_)
  simp [List.replicate]

end Ascot.C126
