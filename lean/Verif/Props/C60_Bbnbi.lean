import Mathlib.MeasureTheory.Integral.IntervalIntegral.Basic
import Mathlib.Algebra.Order.BigOperators.Group.List
import Mathlib.Tactic.Linarith
import Mathlib.Tactic.FieldSimp
import Mathlib.Tactic.NormNum
import Verif.Model.Bbnbi
import Verif.Lemmas.Buf

/-!
# C60: markers of the injectors
-/
set_option linter.unusedSectionVars false
set_option linter.unusedSimpArgs false

namespace Ascot.C60
open Ascot.Bbnbi Ascot.Buf

variable {K : Type} [Field K] [LinearOrder K] [IsStrictOrderedRing K] [FloorRing K] {M : Type}

/-- Number of markers with a smaller slot than those of injector `i`. -/
def before (counts : List Nat) (i : Nat) : Nat := (counts.take i).sum

/-- The assignments made by injectors with `counts` markers, the first of which has index `i` and starts at slot `g`. -/
def expected (mk : Nat → Int → Int → Nat → M) : Nat → Nat → List Nat → List (Nat × M)
  | _, _, [] => []
  | i, g, n :: rest => (List.range n).map (fun j => (g + j, mk i n g j)) ++ expected mk (i + 1) (g + n) rest

theorem mem_expected {mk : Nat → Int → Int → Nat → M} {counts : List Nat} : ∀ {i g : Nat} {w : Nat × M},
    w ∈ expected mk i g counts ↔ ∃ k n j, counts[k]? = some n ∧ j < n ∧ w = (g + before counts k + j, mk (i + k) n (g + before counts k : Nat) j) := by
  induction counts with
  | nil => intro i g w; simp [expected]
  | cons c rest ih =>
    intro i g w
    simp only [expected, List.mem_append, List.mem_map, List.mem_range, ih]
    constructor
    · rintro (⟨j, hj, rfl⟩ | ⟨k, n, j, h1, h2, rfl⟩)
      · exact ⟨0, c, j, rfl, hj, by simp [before]⟩
      · refine ⟨k + 1, n, j, by simpa using h1, h2, ?_⟩
        simp only [before, List.take_succ_cons, List.sum_cons]
        refine Prod.ext (by simp only; omega) ?_
        simp only
        rw [show i + 1 + k = i + (k + 1) by omega, show g + c + (List.take k rest).sum = g + (c + (List.take k rest).sum) by omega]
    · rintro ⟨k, n, j, h1, h2, rfl⟩
      cases k with
      | zero =>
        simp only [List.getElem?_cons_zero, Option.some.injEq] at h1
        subst h1
        exact .inl ⟨j, h2, by simp [before]⟩
      | succ k =>
        refine .inr ⟨k, n, j, by simpa using h1, h2, ?_⟩
        simp only [before, List.take_succ_cons, List.sum_cons]
        refine Prod.ext (by simp only; omega) ?_
        simp only
        rw [show i + 1 + k = i + (k + 1) by omega, show g + c + (List.take k rest).sum = g + (c + (List.take k rest).sum) by omega]

theorem before_succ {counts : List Nat} {k n : Nat} (h : counts[k]? = some n) : before counts (k + 1) = before counts k + n := by
  unfold before
  obtain ⟨hk, e⟩ := List.getElem?_eq_some_iff.1 h
  rw [List.take_succ_eq_append_getElem hk, List.sum_append, e]; simp

theorem before_mono (counts : List Nat) {k l : Nat} (h : k ≤ l) : before counts k ≤ before counts l := by
  induction l with
  | zero => obtain rfl : k = 0 := by omega
            exact le_rfl
  | succ l ih =>
    rcases Nat.lt_succ_iff_lt_or_eq.1 (Nat.lt_succ_of_le h) with h' | h'
    · refine (ih (by omega)).trans ?_
      cases e : counts[l]? with
      | none =>
        have hl := List.getElem?_eq_none_iff.1 e
        unfold before
        rw [List.take_of_length_le hl, List.take_of_length_le (by omega)]
      | some n => rw [before_succ e]; omega
    · subst h'; exact le_rfl

theorem before_le_sum (counts : List Nat) (k : Nat) : before counts k ≤ counts.sum := by
  have := before_mono counts (k := k) (l := max k counts.length) (le_max_left _ _)
  refine this.trans (le_of_eq ?_)
  unfold before
  rw [List.take_of_length_le (le_max_right _ _)]

/-- Every slot below the sum belongs to exactly one injector. -/
theorem slot_owner (counts : List Nat) : ∀ s, s < counts.sum → ∃ k n j, counts[k]? = some n ∧ j < n ∧ s = before counts k + j := by
  induction counts with
  | nil => intro s h; simp at h
  | cons c rest ih =>
    intro s h
    simp only [List.sum_cons] at h
    by_cases hs : s < c
    · exact ⟨0, c, s, rfl, hs, by simp [before]⟩
    · obtain ⟨k, n, j, h1, h2, h3⟩ := ih (s - c) (by omega)
      exact ⟨k + 1, n, j, by simpa using h1, h2, by simp only [before, List.take_succ_cons, List.sum_cons] at h3 ⊢; omega⟩

theorem slot_unique {counts : List Nat} {k k' n n' j j' : Nat} (h : counts[k]? = some n) (h' : counts[k']? = some n') (hj : j < n) (hj' : j' < n')
    (e : before counts k + j = before counts k' + j') : k = k' ∧ n = n' ∧ j = j' := by
  have hk : k = k' := by
    rcases lt_trichotomy k k' with hl | hl | hl
    · have := before_mono counts (k := k + 1) (l := k') hl
      rw [before_succ h] at this; omega
    · exact hl
    · have := before_mono counts (k := k' + 1) (l := k) hl
      rw [before_succ h'] at this; omega
  subst hk
  rw [h] at h'
  exact ⟨rfl, Option.some.inj h', by omega⟩

/-- The shares as natural numbers, and the loop as the expected assignments. -/
theorem writes_eq (mk : Nat → Int → Int → Nat → M) {total : K} (ht : 0 < total) (nprt : Nat) : ∀ (powers : List K) (i g : Nat),
    (∀ p ∈ powers, 0 ≤ p) → powers ≠ [] → (g : K) + powers.sum / total * nprt ≤ nprt →
    ∃ counts : List Nat, counts.length = powers.length ∧ g + counts.sum = nprt ∧
      writes mk total nprt i powers g = (expected mk i g counts).map (fun w => ((w.1 : Int), w.2)) ∧
      (∀ k p n, k + 1 < powers.length → powers[k]? = some p → counts[k]? = some n → (n : K) ≤ p / total * nprt ∧ p / total * nprt < n + 1) ∧
      ∀ p n, powers[powers.length - 1]? = some p → counts[powers.length - 1]? = some n → p / total * nprt ≤ n ∧
        (g : K) + n + powers.sum / total * nprt - p / total * nprt < nprt + powers.length := by
  intro powers
  induction powers with
  | nil => intro i g _ h; exact absurd rfl h
  | cons p rest ih =>
    intro i g hp _ hsum
    cases rest with
    | nil =>
      simp only [List.sum_cons, List.sum_nil, add_zero] at hsum
      have h0 : 0 ≤ p / total * (nprt : K) := mul_nonneg (div_nonneg (hp p (by simp)) ht.le) (Nat.cast_nonneg _)
      have hg : g ≤ nprt := by
        have : (g : K) ≤ nprt := by linarith
        exact_mod_cast this
      refine ⟨[nprt - g], rfl, by simp; omega, ?_, ?_, ?_⟩
      · have e : ((nprt : Int) - g).toNat = nprt - g := by omega
        have e2 : ((nprt - g : Nat) : Int) = (nprt : Int) - g := by omega
        simp only [writes, share, List.isEmpty_nil, if_true, expected, List.append_nil, List.map_map, e]
        apply List.map_congr_left
        intro j _
        simp [e2]
      · intro k q n hk; simp at hk
      · intro q n hq hn
        simp at hq hn
        subst hq hn
        have : ((nprt - g : Nat) : K) = (nprt : K) - g := by rw [Nat.cast_sub hg]
        rw [this]
        exact ⟨by linarith, by simp⟩
    | cons p' rest =>
      have h0 : 0 ≤ p / total * (nprt : K) := mul_nonneg (div_nonneg (hp p (by simp)) ht.le) (Nat.cast_nonneg _)
      set n := ⌊p / total * (nprt : K)⌋.toNat with hn
      have hf : (n : Int) = ⌊p / total * (nprt : K)⌋ := Int.toNat_of_nonneg (Int.floor_nonneg.2 h0)
      have hfK : (n : K) = (⌊p / total * (nprt : K)⌋ : K) := by rw [← hf]; simp
      have hle : (n : K) ≤ p / total * nprt := by rw [hfK]; exact Int.floor_le _
      have hlt : p / total * nprt < (n : K) + 1 := by rw [hfK]; exact Int.lt_floor_add_one _
      have hsum' : (p :: p' :: rest).sum / total * (nprt : K) = p / total * nprt + (p' :: rest).sum / total * nprt := by
        rw [List.sum_cons, add_div, add_mul]
      obtain ⟨counts, c1, c2, c3, c4, c5⟩ := ih (i + 1) (g + n) (fun q hq => hp q (by simp [List.mem_cons.1 hq])) (by simp)
        (by rw [hsum'] at hsum; push_cast; linarith)
      refine ⟨n :: counts, by simp [c1], by simp; omega, ?_, ?_, ?_⟩
      · have e : share total p (nprt : Int) g (p' :: rest).isEmpty = n := by
          simp only [share, List.isEmpty_cons, Bool.false_eq_true, if_false, trunc, Int.cast_natCast, if_pos h0, hf]
        rw [writes]
        simp only [e, Int.toNat_natCast, expected, List.map_append, List.map_map]
        rw [c3.symm.trans (by push_cast; rfl)]
        rfl
      · intro k q m hk hq hm
        cases k with
        | zero =>
          simp at hq hm
          subst hq hm
          exact ⟨hle, hlt⟩
        | succ k => exact c4 k q m (by simpa using hk) (by simpa using hq) (by simpa using hm)
      · intro q m hq hm
        obtain ⟨d1, d2⟩ := c5 q m (by simpa using hq) (by simpa using hm)
        refine ⟨d1, ?_⟩
        rw [hsum']
        push_cast at d2
        simp only [List.length_cons] at d2 ⊢
        push_cast at d2 ⊢
        linarith

/-- The markers of the injectors: there are exactly as many as requested, those of an injector are in consecutive slots after those of
the previous injectors, every slot is filled, and an injector gets its share rounded down, except the last, which gets its share and
what was lost by rounding for the others, less than one for each.  `mk i n g j` is the marker `j` of `n` of the injector `i` after `g` others. -/
theorem markers (mk : Nat → Int → Int → Nat → M) (powers : List K) (nprt : Nat) (hp : ∀ p ∈ powers, 0 ≤ p) (hs : 0 < powers.sum) :
    ∃ (counts : List Nat) (b : Buf M), generate mk powers nprt = some b ∧ b.size = nprt ∧ counts.length = powers.length ∧ counts.sum = nprt ∧
      (∀ i n j : Nat, counts[i]? = some n → j < n →
        before counts i + j < nprt ∧ b.get (before counts i + j : Nat) = some (mk i n (before counts i) j)) ∧
      (∀ s, s < nprt → ∃ i n j, counts[i]? = some n ∧ j < n ∧ s = before counts i + j) ∧
      (∀ i p n, i + 1 < powers.length → powers[i]? = some p → counts[i]? = some n →
        (n : K) ≤ p / powers.sum * nprt ∧ p / powers.sum * nprt < n + 1) ∧
      ∀ p n, powers[powers.length - 1]? = some p → counts[powers.length - 1]? = some n →
        p / powers.sum * nprt ≤ n ∧ (n : K) < p / powers.sum * nprt + powers.length := by
  have hne : powers ≠ [] := by rintro rfl; simp at hs
  have htot : powers.foldl (· + ·) 0 = powers.sum := List.sum_eq_foldl.symm
  obtain ⟨counts, c1, c2, c3, c4, c5⟩ := writes_eq mk hs nprt powers 0 0 hp hne (by rw [div_self hs.ne']; simp)
  simp only [Nat.cast_zero, zero_add] at c2 c3 c5
  have hmem := @mem_expected M mk counts 0 0
  simp only [zero_add] at hmem
  have hin : ∀ w ∈ expected mk 0 0 counts, w.1 < nprt := by
    intro w hw
    obtain ⟨k, n, j, h1, h2, rfl⟩ := hmem.1 hw
    have := before_le_sum counts (k + 1)
    rw [before_succ h1] at this
    simp only; omega
  obtain ⟨b, b1, b2, -, b4⟩ := run_spec (expected mk 0 0 counts) (Buf.new nprt) hin
  have hgen : generate mk powers nprt = some b := by
    unfold generate
    simp only [htot]
    rw [if_neg (by rintro ⟨-, h⟩; exact hs.ne' h), c3, if_pos (by
      intro w hw
      obtain ⟨w', -, rfl⟩ := List.mem_map.1 hw
      simp)]
    rw [List.map_map]
    have : ((fun w : Int × M => (w.1.toNat, w.2)) ∘ fun w : Nat × M => ((w.1 : Int), w.2)) = id := by
      funext w; simp
    rw [this, List.map_id]
    exact b1
  refine ⟨counts, b, hgen, b2, c1, c2, ?_, ?_, c4, ?_⟩
  · intro i n j hi hj
    have hlt : before counts i + j < nprt := by
      have := before_le_sum counts (i + 1)
      rw [before_succ hi] at this; omega
    refine ⟨hlt, ?_⟩
    unfold Buf.get
    rw [if_pos ⟨by omega, by rw [b2]; exact_mod_cast hlt⟩, Int.toNat_natCast]
    refine b4 _ _ (hmem.2 ⟨i, n, j, hi, hj, rfl⟩) ?_
    intro w hw e
    obtain ⟨k', n', j', h1, h2, rfl⟩ := hmem.1 hw
    obtain ⟨rfl, rfl, rfl⟩ := slot_unique h1 hi h2 hj e
    rfl
  · intro s h; rw [← c2] at h; exact slot_owner counts s h
  · intro p n hpn hn
    obtain ⟨d1, d2⟩ := c5 p n hpn hn
    rw [div_self hs.ne'] at d2
    exact ⟨d1, by linarith⟩

/-! ### Identifiers and power -/

/-- Mean energy of the markers of an injector: the mean over the random number that selects the energy. -/
noncomputable def meanEnergy (inj : Injector) : ℝ := ∫ r in (0 : ℝ)..1, sampleEnergy inj r

/-- The fractions of the energy components are not negative and add up to one. -/
structure Fractions (inj : Injector) : Prop where
  h0 : 0 ≤ inj.e0
  h1 : 0 ≤ inj.e1
  h2 : 0 ≤ inj.e2
  sum : inj.e0 + inj.e1 + inj.e2 = 1

theorem integral_of_const {f : ℝ → ℝ} {a b v : ℝ} (hab : a ≤ b) (h : ∀ x, a ≤ x → x < b → f x = v) :
    IntervalIntegrable f MeasureTheory.volume a b ∧ ∫ x in a..b, f x = (b - a) * v := by
  have hae : ∀ᵐ x ∂(MeasureTheory.volume.restrict (Set.uIoc a b)), f x = v := by
    rw [Set.uIoc_of_le hab]
    have h1 : ∀ᵐ x ∂(MeasureTheory.volume.restrict (Set.Ioc a b)), x ∈ Set.Ioc a b :=
      MeasureTheory.ae_restrict_mem measurableSet_Ioc
    have h2 : ∀ᵐ x ∂(MeasureTheory.volume.restrict (Set.Ioc a b)), x ≠ b :=
      MeasureTheory.ae_restrict_of_ae (MeasureTheory.Measure.ae_ne MeasureTheory.volume b)
    filter_upwards [h1, h2] with x hx hxb
    exact h x hx.1.le (lt_of_le_of_ne hx.2 hxb)
  constructor
  · exact (intervalIntegrable_const (c := v)).congr_ae (by filter_upwards [hae] with x hx; exact hx.symm)
  · rw [intervalIntegral.integral_congr_ae_restrict (g := fun _ => v) hae, intervalIntegral.integral_const, smul_eq_mul]

/-- The mean energy is the one the weights are calculated with. -/
theorem mean_energy (inj : Injector) (h : Fractions inj) :
    meanEnergy inj = inj.energy * (inj.e0 + inj.e1 / 2 + inj.e2 / 3) := by
  obtain ⟨h0, h1, h2, hs⟩ := h
  obtain ⟨i1, v1⟩ := integral_of_const (f := sampleEnergy inj) (a := 0) (b := inj.e0) (v := inj.energy) h0
    (fun x _ hx => by simp [sampleEnergy, hx])
  obtain ⟨i2, v2⟩ := integral_of_const (f := sampleEnergy inj) (a := inj.e0) (b := inj.e0 + inj.e1) (v := inj.energy / 2) (by linarith)
    (fun x ha hx => by simp [sampleEnergy, hx, not_lt.2 ha])
  obtain ⟨i3, v3⟩ := integral_of_const (f := sampleEnergy inj) (a := inj.e0 + inj.e1) (b := 1) (v := inj.energy / 3) (by linarith)
    (fun x ha hx => by
      have : ¬ x < inj.e0 := by linarith
      simp [sampleEnergy, this, not_lt.2 ha])
  unfold meanEnergy
  rw [← intervalIntegral.integral_add_adjacent_intervals (i1.trans i2) i3, ← intervalIntegral.integral_add_adjacent_intervals i1 i2, v1, v2, v3]
  have : inj.e2 = 1 - inj.e0 - inj.e1 := by linarith
  rw [this]
  ring

/-- The markers are those of the injectors, with any random numbers. -/
def Injected (c : ℝ) (psi : ℝ → V3 ℝ → Except Nat ℝ) (t0 t1 : ℝ) (injs : List Injector) (mk : Nat → Int → Int → Nat → Marker) : Prop :=
  ∀ i inj n g j, injs[i]? = some inj → ∃ d, injectMarker c psi inj n g t0 t1 j d = some (mk i n g j)

theorem injectMarker_fields {c : ℝ} {psi : ℝ → V3 ℝ → Except Nat ℝ} {inj : Injector} {n g : Int} {t0 t1 : ℝ} {j : Nat} {d : Draws} {m : Marker}
    (h : injectMarker c psi inj n g t0 t1 j d = some m) : m.id = g + j + 1 ∧ m.weight = weight inj n := by
  unfold injectMarker at h
  obtain ⟨xv, -, h⟩ := Option.bind_eq_some_iff.1 h
  obtain ⟨x, -, rfl⟩ := Option.map_eq_some_iff.1 h
  exact ⟨rfl, rfl⟩

/-- What a marker contributes to the power. -/
noncomputable def power (b : Buf Marker) (inj : Injector) (slot : Nat) : ℝ := (b.get slot).elim 0 (fun m => m.weight * meanEnergy inj)

/-- The marker in slot `s` has the identifier `s + 1`, so identifiers are consecutive and unique, and the powers of the markers of an
injector that has any add up to the power of the injector.  Missing: an injector whose share is less than one marker gets none, and
its power is lost; see `power_lost`. -/
theorem power_partial (c : ℝ) (psi : ℝ → V3 ℝ → Except Nat ℝ) (t0 t1 : ℝ) (injs : List Injector) (mk : Nat → Int → Int → Nat → Marker) (nprt : Nat)
    (hmk : Injected c psi t0 t1 injs mk) (hp : ∀ inj ∈ injs, 0 ≤ inj.power ∧ 0 < inj.energy ∧ Fractions inj) (hs : 0 < (injs.map (·.power)).sum) :
    ∃ (counts : List Nat) (b : Buf Marker), generate mk (injs.map (·.power)) nprt = some b ∧ b.size = nprt ∧ counts.length = injs.length ∧
      counts.sum = nprt ∧ (∀ s : Nat, s < nprt → ∃ m, b.get s = some m ∧ m.id = s + 1) ∧
      (∀ i inj n, i + 1 < injs.length → injs[i]? = some inj → counts[i]? = some n →
        (n : ℝ) ≤ inj.power / (injs.map (·.power)).sum * nprt) ∧
      ∀ i inj n, injs[i]? = some inj → counts[i]? = some n → 0 < n →
        ((List.range n).map fun j => power b inj (before counts i + j)).sum = inj.power := by
  obtain ⟨counts, b, h1, h2, h3, h4, h5, h6, h7, -⟩ := markers mk (injs.map (·.power)) nprt
    (fun p hpp => by obtain ⟨inj, hi, rfl⟩ := List.mem_map.1 hpp; exact (hp inj hi).1) hs
  rw [List.length_map] at h3
  have hinj : ∀ i n : Nat, counts[i]? = some n → ∃ inj, injs[i]? = some inj := by
    intro i n hi
    have : i < counts.length := (List.getElem?_eq_some_iff.1 hi).1
    exact ⟨injs[i], List.getElem?_eq_getElem (by omega)⟩
  refine ⟨counts, b, h1, h2, h3, h4, ?_, fun i inj n hl hi hn => (h7 i inj.power n (by simpa using hl) (by simp [hi]) hn).1, ?_⟩
  · intro s hsl
    obtain ⟨i, n, j, hi, hj, rfl⟩ := h6 s hsl
    obtain ⟨inj, hinj⟩ := hinj i n hi
    obtain ⟨d, hd⟩ := hmk i inj n (before counts i) j hinj
    refine ⟨_, (h5 i n j hi hj).2, ?_⟩
    rw [(injectMarker_fields hd).1]
    push_cast
    ring
  · intro i inj n hi hn hpos
    have hv : ∀ j ∈ List.range n, power b inj (before counts i + j) = weight inj n * meanEnergy inj := by
      intro j hj
      obtain ⟨d, hd⟩ := hmk i inj n (before counts i) j hi
      unfold power
      rw [(h5 i n j hn (List.mem_range.1 hj)).2]
      simp only [Option.elim_some]
      rw [(injectMarker_fields hd).2]
    rw [List.map_congr_left hv]
    simp only [List.map_const', List.sum_replicate, List.length_range, nsmul_eq_mul]
    obtain ⟨-, he, hf⟩ := hp inj (List.mem_of_getElem? hi)
    rw [mean_energy inj hf]
    obtain ⟨f0, f1, f2, fs⟩ := hf
    have hpos' : (0 : ℝ) < n := by exact_mod_cast hpos
    have hfp : 0 < inj.e0 + inj.e1 / 2 + inj.e2 / 3 := by nlinarith
    unfold weight
    simp only [Int.cast_natCast]
    have : 1 * inj.e0 + 1 / 2 * inj.e1 + 1 / 3 * inj.e2 = inj.e0 + inj.e1 / 2 + inj.e2 / 3 := by ring
    rw [this]
    generalize inj.e0 + inj.e1 / 2 + inj.e2 / 3 = f at hfp ⊢
    field_simp

/-- An injector for examples: one beamlet, all markers with the full energy 1. -/
noncomputable def exInj (power : ℝ) : Injector where
  beamlets := [(⟨1, 0, 0⟩, ⟨1, 0, 0⟩)]
  power := power
  energy := 1
  e0 := 1
  e1 := 0
  e2 := 0
  divH := 0
  divV := 0
  haloFrac := 0
  haloH := 0
  haloV := 0
  anum := 2
  znum := 1
  mass := 1

theorem exFractions (p : ℝ) : Fractions (exInj p) := ⟨by simp [exInj], by simp [exInj], by simp [exInj], by simp [exInj]⟩

/-- There are markers for the examples: the field is defined everywhere. -/
theorem exInjected : ∃ mk, Injected 1 (fun _ _ => .ok 0) 0 1 [exInj 1, exInj 3] mk := by
  have key : ∀ p n g j, ∃ m, injectMarker 1 (fun _ _ => .ok 0) (exInj p) n g 0 1 j ⟨0, 0, 0, 0, 0, 0⟩ = some m := by
    intro p n g j
    have h1 : ∃ xv, inject 1 (exInj p) ⟨0, 0, 0, 0, 0, 0⟩ = some xv := by
      unfold inject
      simp [exInj]
    obtain ⟨xv, h1⟩ := h1
    have h2 : ∀ u x, ∃ y, enter (fun _ => Except.ok (ε := Nat) (0 : ℝ)) u x = some y := by
      intro u x
      unfold enter
      rw [dif_pos ⟨0, rfl⟩]
      exact ⟨_, rfl⟩
    obtain ⟨y, h2⟩ := h2 (V3.unit Real.sqrt xv.2) xv.1
    unfold injectMarker
    simp only [h1, Option.bind_some, h2, Option.map_some]
    exact ⟨_, rfl⟩
  choose m hm using key
  refine ⟨fun i n g j => if i = 0 then m 1 n g j else m 3 n g j, ?_⟩
  intro i inj n g j hi
  rcases i with _ | _ | i
  · simp at hi; subst hi; exact ⟨_, by simpa using hm 1 n g j⟩
  · simp at hi; subst hi; exact ⟨_, by simpa using hm 3 n g j⟩
  · simp at hi

/-- The property fails in its last part: of two injectors with the powers 1 and 3 and two markers, both markers belong to the second,
and the power of all markers is 3 instead of 4. -/
theorem power_lost : ∃ (c : ℝ) (psi : ℝ → V3 ℝ → Except Nat ℝ) (t0 t1 : ℝ) (mk : Nat → Int → Int → Nat → Marker) (b : Buf Marker),
    Injected c psi t0 t1 [exInj 1, exInj 3] mk ∧ generate mk [(exInj 1).power, (exInj 3).power] 2 = some b ∧
    ((List.range 2).map fun s => power b (exInj 3) s).sum = 3 ∧ ((List.range 2).map fun s => power b (exInj 1) s).sum = 3 := by
  obtain ⟨mk, hmk⟩ := exInjected
  have hp : ∀ inj ∈ [exInj 1, exInj 3], 0 ≤ inj.power ∧ 0 < inj.energy ∧ Fractions inj := by
    intro inj hi
    simp at hi
    rcases hi with rfl | rfl <;> exact ⟨by simp [exInj], by simp [exInj], exFractions _⟩
  have hs : 0 < ([exInj 1, exInj 3].map (·.power)).sum := by simp [exInj]; norm_num
  obtain ⟨counts, b, h1, h2, h3, h4, -, h5, h6⟩ := power_partial 1 (fun _ _ => .ok 0) 0 1 _ mk 2 hmk hp hs
  have hc : counts = [0, 2] := by
    match counts, h3 with
    | [x, y], _ =>
      have hx := h5 0 (exInj 1) x (by simp) rfl rfl
      have : x = 0 := by
        have : (x : ℝ) < 1 := lt_of_le_of_lt hx (by simp [exInj]; norm_num)
        have : x < 1 := by exact_mod_cast this
        omega
      subst this
      simp at h4
      rw [h4]
  subst hc
  have hsum := h6 1 (exInj 3) 2 rfl rfl (by decide)
  have hm : meanEnergy (exInj 1) = meanEnergy (exInj 3) := by
    rw [mean_energy _ (exFractions _), mean_energy _ (exFractions _)]; simp [exInj]
  have hsum' : ((List.range 2).map fun s => power b (exInj 3) s).sum = 3 := by
    simpa [before, exInj] using hsum
  refine ⟨1, fun _ _ => .ok 0, 0, 1, mk, b, hmk, h1, hsum', ?_⟩
  rw [← hsum']
  simp only [power, hm]

end Ascot.C60
