import Mathlib.Analysis.SpecialFunctions.Trigonometric.Arctan
import Verif.Lemmas.Gyration
import Verif.Lemmas.Vpa
import Verif.Model.TimeStep

set_option linter.unusedSectionVars false
set_option linter.unusedSimpArgs false

/-!
# C167: the time step a marker begins with

The step is the value given by the user, or the given fraction of the relativistic gyration period: that many steps
make exactly one gyration of the exact motion in the field at the marker.
-/
namespace Ascot.C167
open Ascot.TimeStep Ascot.Gyration

/-- The value given by the user is used as it is in all three modes. -/
theorem user (c : ℝ) (val nstep : ℝ) (a b : Bool) (m q mu ppar : ℝ) (p B : V3 ℝ) :
    foFixed c (readOpt 1 val nstep a b) m q p B = some val ∧ gcFixed c (readOpt 1 val nstep a b) m q mu ppar B = some val ∧
      gcAdaptive c (readOpt 1 val nstep a b) m q mu ppar B = val := by
  have h : (readOpt 1 val nstep a b).useUser = true := by
    simp [readOpt, toInt, not_lt.2 (zero_le_one : (0 : ℝ) ≤ 1)]
  refine ⟨?_, ?_, ?_⟩
  · unfold foFixed
    rw [if_pos h]
    rfl
  · unfold gcFixed
    rw [if_pos h]
    rfl
  · unfold gcAdaptive
    rw [if_pos h]
    rfl

theorem zero_use (val nstep : ℝ) (a b : Bool) : (readOpt 0 val nstep a b).useUser = false := by
  simp [readOpt, toInt]

theorem toInt_nat (n : ℕ) : toInt (n : ℝ) = n := by
  unfold toInt
  rw [if_neg (by exact not_lt.2 (Nat.cast_nonneg n))]
  simp

theorem norm_eq (B : V3 ℝ) : V3.norm Real.sqrt B = Real.sqrt (V3.dot B B) := rfl

theorem dot_nonneg (B : V3 ℝ) : 0 ≤ V3.dot B B := by
  unfold V3.dot
  nlinarith [mul_self_nonneg B.x, mul_self_nonneg B.y, mul_self_nonneg B.z]

theorem dot_pos {B : V3 ℝ} (hB : B ≠ ⟨0, 0, 0⟩) : 0 < V3.dot B B :=
  lt_of_le_of_ne (dot_nonneg B) (fun h => hB (zero_of_dot h.symm))

theorem gamma_eq (c m : ℝ) (p : V3 ℝ) : Physlib.gammaPnorm c m (V3.norm Real.sqrt p) = lorentz c m p := by
  unfold Physlib.gammaPnorm lorentz
  rw [norm_eq, Real.mul_self_sqrt (dot_nonneg p)]
  congr 3
  ring

theorem lorentz_pos (c m : ℝ) (p : V3 ℝ) : 0 < lorentz c m p := by
  unfold lorentz
  have : 0 ≤ V3.dot p p / (m * c) ^ 2 := div_nonneg (dot_nonneg p) (sq_nonneg _)
  exact Real.sqrt_pos.2 (by linarith)

/-- What the step is for a gyrating particle. -/
theorem fo_value (c : ℝ) (val : ℝ) (n : ℕ) (hn : n ≠ 0) (a b : Bool) {m q : ℝ} (hm : 0 < m) (hq : q ≠ 0) (p : V3 ℝ) {B : V3 ℝ}
    (hB : B ≠ ⟨0, 0, 0⟩) :
    foFixed c (readOpt 0 val n a b) m q p B =
      some (2 * Real.pi / (|q| * Real.sqrt (V3.dot B B) / (m * lorentz c m p)) / n) := by
  have hw : |q| * Real.sqrt (V3.dot B B) / (m * lorentz c m p) ≠ 0 :=
    (div_pos (mul_pos (abs_pos.2 hq) (Real.sqrt_pos.2 (dot_pos hB))) (mul_pos hm (lorentz_pos c m p))).ne'
  unfold foFixed
  rw [if_neg (by rw [zero_use]; simp)]
  have hn' : (readOpt 0 val n a b).nstep = n := toInt_nat n
  simp only [Physlib.gyrofreqPnorm, gamma_eq, norm_eq B, gyrotime, if_neg hw, part, hn', Nat.cast_eq_zero, if_neg hn]
  simp

/-- As many steps as the user asked for per gyration make exactly one gyration: for every motion in the field at the marker
with the momentum of the marker at some time, the momentum is the same after these steps, and is different after fewer
unless the particle moves along the field. -/
theorem one_gyration {c val : ℝ} {n : ℕ} (hn : n ≠ 0) {a b : Bool} {m q : ℝ} (hm : 0 < m) (hq : q ≠ 0) {B : V3 ℝ}
    (hB : B ≠ ⟨0, 0, 0⟩) {p : ℝ → V3 ℝ} (hp : Moves c m q B p) (t : ℝ) :
    ∃ h, foFixed c (readOpt 0 val n a b) m q (p t) B = some h ∧ 0 < h ∧ p (t + n * h) = p t ∧
      ∀ k : ℕ, 0 < k → k < n → V3.cross (p t) B ≠ ⟨0, 0, 0⟩ → p (t + k * h) ≠ p t := by
  refine ⟨_, fo_value c val n hn a b hm hq (p t) hB, ?_⟩
  set g := lorentz c m (p t) with hg
  have hgp : 0 < g := lorentz_pos c m (p t)
  set l := Real.sqrt (V3.dot B B) with hl
  have hlp : 0 < l := Real.sqrt_pos.2 (dot_pos hB)
  have hl2 : l ^ 2 = V3.dot B B := Real.sq_sqrt (dot_nonneg B)
  have hqp := abs_pos.2 hq
  have hnp : (0 : ℝ) < n := by exact_mod_cast Nat.pos_of_ne_zero hn
  set h := 2 * Real.pi / (|q| * l / (m * g)) / n with hh
  have hT := hp.turns t
  have hang : ∀ k : ℝ, q / (m * g) * l * (t + k * h - t) = q / |q| * (2 * Real.pi * (k / n)) := by
    intro k
    rw [hh]
    field_simp
    ring
  have hsgn : q / |q| = 1 ∨ q / |q| = -1 := by
    rcases lt_or_gt_of_ne hq with h1 | h1
    · right
      rw [abs_of_neg h1, div_neg, div_self hq]
    · left
      rw [abs_of_pos h1, div_self hq]
  refine ⟨?_, ?_, ?_⟩
  · rw [hh]
    have := Real.pi_pos
    positivity
  · rw [hT.eq hl2 hlp.ne' t (t + n * h), hang, div_self hnp.ne', mul_one]
    refine turned_zero B l (p t) ?_ ?_
    · rcases hsgn with e | e <;> rw [e] <;> simp
    · rcases hsgn with e | e <;> rw [e] <;> simp
  · intro k hk hkn hperp heq
    have hcos : Real.cos (q / |q| * (2 * Real.pi * (k / n))) = Real.cos (2 * Real.pi * (k / n)) := by
      rcases hsgn with e | e <;> rw [e] <;> simp
    have h1 := dot_turned B hl2 hlp.ne' (p t) (q / |q| * (2 * Real.pi * (k / n)))
    rw [← hang, ← hT.eq hl2 hlp.ne' t (t + k * h), heq, hang, hcos] at h1
    have hlt : Real.cos (2 * Real.pi * ((k : ℝ) / n)) ≠ 1 := by
      intro h2
      have hk0 : (0 : ℝ) < k := by exact_mod_cast hk
      have hkn' : (k : ℝ) / n < 1 := (div_lt_one hnp).2 (by exact_mod_cast hkn)
      have hkp : 0 < (k : ℝ) / n := div_pos hk0 hnp
      have hpi := Real.pi_pos
      have h3 := (Real.cos_eq_one_iff_of_lt_of_lt (x := 2 * Real.pi * ((k : ℝ) / n)) (by nlinarith) (by nlinarith)).1 h2
      have : 0 < 2 * Real.pi * ((k : ℝ) / n) := by positivity
      linarith
    have h4 : V3.dot (p t) (p t) - (V3.dot (p t) B / l) ^ 2 = 0 := by
      have : (V3.dot (p t) (p t) - (V3.dot (p t) B / l) ^ 2) * (1 - Real.cos (2 * Real.pi * ((k : ℝ) / n))) = 0 := by linarith
      rcases mul_eq_zero.1 this with h5 | h5
      · exact h5
      · exact absurd (by linarith) hlt
    apply hperp
    apply zero_of_dot
    rw [div_pow, hl2] at h4
    have hBB := (dot_pos hB).ne'
    field_simp at h4
    simp only [V3.dot, V3.cross] at h4 ⊢
    linear_combination h4

/-- Such a motion exists from any momentum. -/
example (c m q : ℝ) (B a : V3 ℝ) (hB : B ≠ ⟨0, 0, 0⟩) : ∃ p : ℝ → V3 ℝ, Moves c m q B p ∧ p 0 = a := by
  refine ⟨_, moves_turned c m q B (k := Real.sqrt (V3.dot B B)) (Real.sq_sqrt (dot_nonneg B)) (Real.sqrt_pos.2 (dot_pos hB)).ne' a, ?_⟩
  exact turned_zero B _ a (by simp) (by simp)

/-- The guiding center has the step of its particle: magnetic moment and parallel momentum of a momentum give the same step. -/
theorem same_step (c : ℝ) (hc : c ≠ 0) (o : Opt) {m q : ℝ} (hm : 0 < m) (p : V3 ℝ) {B : V3 ℝ} (hB : B ≠ ⟨0, 0, 0⟩) :
    gcFixed c o m q (moment m p B) (parallel p B) B = foFixed c o m q p B := by
  have hl := Real.sqrt_pos.2 (dot_pos hB)
  have e : Physlib.gammaPpar c m (moment m p B) (parallel p B) (V3.norm Real.sqrt B) =
      Physlib.gammaPnorm c m (V3.norm Real.sqrt p) := by
    rw [gamma_eq]
    unfold Physlib.gammaPpar lorentz moment
    rw [norm_eq]
    congr 1
    field_simp
    ring
  unfold gcFixed foFixed Physlib.gyrofreqPpar Physlib.gyrofreqPnorm
  dsimp only
  rw [e]

/-- A step of the full-orbit scheme without electric field turns the momentum about the field by the angle
`2 arctan (pi / n)`, which is a little less than the n-th part of a turn; the component along the field is kept. -/
theorem vpa_turn {c val : ℝ} (hc : 0 < c) {n : ℕ} (hn : n ≠ 0) {a b : Bool} {m q : ℝ} (hm : 0 < m) (hq : q ≠ 0) (p : V3 ℝ) {B : V3 ℝ}
    (hB : B ≠ ⟨0, 0, 0⟩) (junk : Nat → ℝ) :
    ∃ h, foFixed c (readOpt 0 val n a b) m q p B = some h ∧
      (let p' := Vpa.kick c q m h junk ⟨0, 0, 0⟩ B p
       parallel p' B = parallel p B ∧ V3.dot p' p' = V3.dot p p ∧
       V3.dot p' p - parallel p B ^ 2 = Real.cos (2 * Real.arctan (Real.pi / n)) * (V3.dot p p - parallel p B ^ 2)) ∧
      2 * Real.arctan (Real.pi / n) < 2 * Real.pi / n := by
  refine ⟨_, fo_value c val n hn a b hm hq p hB, ?_, ?_⟩
  · set g := lorentz c m p with hg
    have hgp : 0 < g := lorentz_pos c m p
    set l := Real.sqrt (V3.dot B B) with hl
    have hlp : 0 < l := Real.sqrt_pos.2 (dot_pos hB)
    have hl2 : l ^ 2 = V3.dot B B := Real.sq_sqrt (dot_nonneg B)
    have hqp := abs_pos.2 hq
    have hnp : (0 : ℝ) < n := by exact_mod_cast Nat.pos_of_ne_zero hn
    set h := 2 * Real.pi / (|q| * l / (m * g)) / n with hh
    have hpm : Vpa.pminus c q m h ⟨0, 0, 0⟩ p = ⟨p.x / (m * c), p.y / (m * c), p.z / (m * c)⟩ := by
      unfold Vpa.pminus
      ext <;> simp
    have hdd : V3.dot (⟨p.x / (m * c), p.y / (m * c), p.z / (m * c)⟩ : V3 ℝ) ⟨p.x / (m * c), p.y / (m * c), p.z / (m * c)⟩ =
        V3.dot p p / (m * c) ^ 2 := by
      simp only [V3.dot]
      field_simp
    have hd : Vpa.dval q m h ⟨p.x / (m * c), p.y / (m * c), p.z / (m * c)⟩ = q / |q| * (Real.pi / n) / l := by
      unfold Vpa.dval
      rw [hdd]
      rw [show Real.sqrt (1 + V3.dot p p / (m * c) ^ 2) = g from rfl, hh]
      field_simp
    have hd2 : (q / |q| * (Real.pi / n) / l) ^ 2 * V3.dot B B = (Real.pi / n) ^ 2 := by
      rw [← hl2]
      have : q ^ 2 = |q| ^ 2 := (sq_abs q).symm
      field_simp
      rw [this]
    have hkd := Vpa.kick_dot c q m h junk B p hm.ne' hc.ne'
    rw [Vpa.kick_eq] at hkd ⊢
    dsimp only at hkd ⊢
    rw [hpm, hd] at hkd ⊢
    generalize q / |q| * (Real.pi / n) / l = d at hd2 hkd ⊢
    have hcos : Real.cos (2 * Real.arctan (Real.pi / n)) = (1 - (Real.pi / n) ^ 2) / (1 + (Real.pi / n) ^ 2) := by
      rw [Real.cos_two_mul, Real.cos_sq_arctan]
      have : (1 : ℝ) + (Real.pi / n) ^ 2 ≠ 0 := by positivity
      field_simp
      ring
    refine ⟨?_, hkd, ?_⟩
    · unfold parallel
      congr 1
      have h0 := (Vpa.den_pos d B).ne'
      unfold Vpa.rot
      simp only [V3.dot, V3.cross] at h0 ⊢
      field_simp
      ring
    · rw [hcos, ← hd2]
      have hpar : parallel p B ^ 2 = V3.dot p B ^ 2 / V3.dot B B := by
        unfold parallel
        rw [div_pow, Real.sq_sqrt (dot_nonneg B)]
      rw [hpar]
      have h0 := (Vpa.den_pos d B).ne'
      have hdot : V3.dot (⟨((Vpa.rot d B ⟨p.x / (m * c), p.y / (m * c), p.z / (m * c)⟩).x + q * h / (2 * m * c) * 0) * m * c,
          ((Vpa.rot d B ⟨p.x / (m * c), p.y / (m * c), p.z / (m * c)⟩).y + q * h / (2 * m * c) * 0) * m * c,
          ((Vpa.rot d B ⟨p.x / (m * c), p.y / (m * c), p.z / (m * c)⟩).z + q * h / (2 * m * c) * 0) * m * c⟩ : V3 ℝ) p =
          V3.dot p p - 2 * d * d / (1 + d * d * V3.dot B B) * (V3.dot p p * V3.dot B B - V3.dot p B ^ 2) := by
        unfold Vpa.rot
        dsimp only
        generalize 1 + d * d * V3.dot B B = D at h0 ⊢
        simp only [V3.dot, V3.cross]
        field_simp
        ring
      rw [hdot]
      have hBB := (dot_pos hB).ne'
      generalize V3.dot p p = X
      generalize V3.dot p B = Y
      generalize V3.dot B B = b at h0 hBB ⊢
      have h0' : 1 + d ^ 2 * b ≠ 0 := by
        rw [sq]
        exact h0
      rw [mul_assoc 2 d d, ← sq]
      field_simp
      ring
  · have hx : 0 < Real.pi / n := div_pos Real.pi_pos (by exact_mod_cast Nat.pos_of_ne_zero hn)
    have := Real.lt_tan (Real.arctan_pos.2 hx) (Real.arctan_lt_pi_div_two _)
    rw [Real.tan_arctan] at this
    rw [mul_div_assoc]
    linarith

/-- A marker without charge, no field, or a number of steps below one has no step: the code divides by zero and the step is
infinite. -/
theorem infinite (c : ℝ) (val x : ℝ) (a b : Bool) (m q mu ppar : ℝ) (p B : V3 ℝ)
    (h : q = 0 ∨ B = ⟨0, 0, 0⟩ ∨ (0 ≤ x ∧ x < 1)) :
    foFixed c (readOpt 0 val x a b) m q p B = none ∧ gcFixed c (readOpt 0 val x a b) m q mu ppar B = none := by
  have hz : ∀ w, q = 0 ∨ B = ⟨0, 0, 0⟩ → |q| * V3.norm Real.sqrt B / w = 0 := by
    rintro w (h | h)
    · rw [h]
      simp
    · rw [h]
      simp [V3.norm]
  have hx : 0 ≤ x ∧ x < 1 → (readOpt 0 val x a b).nstep = 0 := by
    rintro ⟨h1, h2⟩
    show toInt x = 0
    unfold toInt
    rw [if_neg (not_lt.2 h1), Int.floor_eq_zero_iff]
    exact ⟨h1, h2⟩
  have hp : ∀ t : Option ℝ, part t 0 = none := by
    rintro (_ | t)
    · rfl
    · simp [part]
  unfold foFixed gcFixed Physlib.gyrofreqPpar Physlib.gyrofreqPnorm
  simp only [zero_use, Bool.false_eq_true, if_false]
  rw [← or_assoc] at h
  rcases h with h | h
  · rw [hz _ h, hz _ h]
    simp [gyrotime, part]
  · rw [hx h]
    exact ⟨hp _, hp _⟩

theorem lower_le (h : ℝ) (x : Option ℝ) : lower h x ≤ h := by
  unfold lower
  split
  · exact le_rfl
  · split_ifs with g
    · exact g.le
    · exact le_rfl

theorem lower_le' {h y : ℝ} {x : Option ℝ} (hx : x = some y) : lower h x ≤ y := by
  rw [hx]
  unfold lower
  dsimp only
  split_ifs with g
  · exact le_rfl
  · exact not_lt.1 g

theorem lower_pos {h : ℝ} {x : Option ℝ} (h0 : 0 < h) (hx : ∀ y, x = some y → 0 < y) : 0 < lower h x := by
  unfold lower
  split
  · exact h0
  · rename_i y
    have := hx y rfl
    split_ifs
    · exact this
    · exact h0

/-- The first step of the adaptive scheme is positive for every marker, neutral ones too, at most one second, at most a gyration
period with orbit-following, and at most a hundredth of a second with collisions. -/
theorem adaptive_bounds (c : ℝ) (val x : ℝ) (a b : Bool) {m : ℝ} (hm : 0 < m) (q mu ppar : ℝ) (B : V3 ℝ) :
    let h := gcAdaptive c (readOpt 0 val x a b) m q mu ppar B
    let omega := |q| * Real.sqrt (V3.dot B B) / (m * Physlib.gammaPpar c m mu ppar (Real.sqrt (V3.dot B B)))
    0 < h ∧ h ≤ 1 ∧ (a = true → 0 < omega → h * omega ≤ 2 * Real.pi) ∧ (b = true → h ≤ 1 / 100) := by
  intro h omega
  have hw : 0 ≤ omega := div_nonneg (mul_nonneg (abs_nonneg _) (Real.sqrt_nonneg _)) (mul_nonneg hm.le (Real.sqrt_nonneg _))
  have hgy : ∀ y, gyrotime omega = some y → 0 < y := by
    intro y hy
    unfold gyrotime at hy
    split_ifs at hy with h0
    obtain rfl := Option.some.inj hy
    exact div_pos (by linarith [Real.pi_pos]) (lt_of_le_of_ne hw (Ne.symm h0))
  have hdef : h = (if b = true then lower (if a = true then lower 1 (gyrotime omega) else 1) (some (1 / (100 * 1)))
      else (if a = true then lower 1 (gyrotime omega) else 1)) := by
    show gcAdaptive c (readOpt 0 val x a b) m q mu ppar B = _
    unfold gcAdaptive
    rw [if_neg (by rw [zero_use]; simp)]
    rfl
  set h1 := (if a = true then lower 1 (gyrotime omega) else 1) with hh1
  have p1 : 0 < h1 := by
    rw [hh1]
    split_ifs
    · exact lower_pos one_pos hgy
    · exact one_pos
  have l1 : h1 ≤ 1 := by
    rw [hh1]
    split_ifs
    · exact lower_le _ _
    · exact le_rfl
  have hle : h ≤ h1 := by
    rw [hdef]
    split_ifs
    · exact lower_le _ _
    · exact le_rfl
  refine ⟨?_, hle.trans l1, ?_, ?_⟩
  · rw [hdef]
    split_ifs
    · refine lower_pos p1 ?_
      intro y hy
      obtain rfl := Option.some.inj hy
      norm_num
    · exact p1
  · intro ha ho
    have : h1 ≤ 2 * Real.pi / omega := by
      rw [hh1, if_pos ha]
      refine lower_le' ?_
      unfold gyrotime
      rw [if_neg ho.ne']
    have h2 := hle.trans this
    rwa [le_div_iff₀ ho] at h2
  · intro hb
    rw [hdef, if_pos hb]
    have := lower_le' (h := h1) (x := some (1 / (100 * 1 : ℝ))) rfl
    linarith

/-- The adaptive scheme does not begin with the fixed step, as the description of the option says, unless one step per gyration is
asked for: its first step is a whole gyration period, whatever the number of steps. -/
theorem adaptive_is_period (c : ℝ) (val : ℝ) (n : ℕ) (hn : n ≠ 0) {m q mu ppar : ℝ} {B : V3 ℝ}
    (hw : 2 * Real.pi ≤ |q| * Real.sqrt (V3.dot B B) / (m * Physlib.gammaPpar c m mu ppar (Real.sqrt (V3.dot B B)))) :
    ∃ h, gcFixed c (readOpt 0 val n true false) m q mu ppar B = some h ∧
      gcAdaptive c (readOpt 0 val n true false) m q mu ppar B = n * h := by
  set omega := |q| * Real.sqrt (V3.dot B B) / (m * Physlib.gammaPpar c m mu ppar (Real.sqrt (V3.dot B B))) with ho
  have hwp : 0 < omega := lt_of_lt_of_le (by linarith [Real.pi_pos]) hw
  have hnp : (n : ℝ) ≠ 0 := by exact_mod_cast hn
  have hn' : (readOpt 0 val n true false).nstep = n := toInt_nat n
  have e1 : gcFixed c (readOpt 0 val n true false) m q mu ppar B = part (gyrotime omega) n := by
    unfold gcFixed
    rw [if_neg (by rw [zero_use]; simp), hn']
    rfl
  have e2 : gcAdaptive c (readOpt 0 val n true false) m q mu ppar B = lower 1 (gyrotime omega) := by
    unfold gcAdaptive
    rw [if_neg (by rw [zero_use]; simp)]
    rfl
  have e3 : gyrotime omega = some (2 * Real.pi / omega) := if_neg hwp.ne'
  refine ⟨2 * Real.pi / omega / n, ?_, ?_⟩
  · rw [e1, e3]
    simp [part, hn]
  · rw [e2, e3, mul_div_cancel₀ _ hnp]
    have : 2 * Real.pi / omega ≤ 1 := (div_le_one hwp).2 hw
    unfold lower
    dsimp only
    split_ifs with g
    · rfl
    · linarith

/-- A slow marker of unit mass and charge in a field of seven meets the hypothesis. -/
example : 2 * Real.pi ≤ |(1 : ℝ)| * Real.sqrt (V3.dot ⟨7, 0, 0⟩ ⟨7, 0, 0⟩) /
    (1 * Physlib.gammaPpar 1 1 0 0 (Real.sqrt (V3.dot (⟨7, 0, 0⟩ : V3 ℝ) ⟨7, 0, 0⟩))) := by
  have e : Real.sqrt (V3.dot (⟨7, 0, 0⟩ : V3 ℝ) ⟨7, 0, 0⟩) = 7 := by
    rw [show V3.dot (⟨7, 0, 0⟩ : V3 ℝ) ⟨7, 0, 0⟩ = 7 ^ 2 by simp [V3.dot]; norm_num]
    exact Real.sqrt_sq (by norm_num)
  rw [e]
  have := Real.pi_lt_d2
  simp [Physlib.gammaPpar]
  linarith

/-- Without orbit-following and collisions the first step of the adaptive scheme is a second; with collisions only, it is a
hundredth of a second in every plasma. -/
theorem adaptive_constant (c : ℝ) (val x m q mu ppar : ℝ) (B : V3 ℝ) :
    gcAdaptive c (readOpt 0 val x false false) m q mu ppar B = 1 ∧ gcAdaptive c (readOpt 0 val x false true) m q mu ppar B = 1 / 100 := by
  have h1 : ∀ b, gcAdaptive c (readOpt 0 val x false b) m q mu ppar B = if b = true then lower 1 (some (1 / (100 * 1))) else 1 := by
    intro b
    unfold gcAdaptive
    rw [if_neg (by rw [zero_use]; simp)]
    rfl
  rw [h1, h1]
  refine ⟨by simp, ?_⟩
  simp only [if_true, lower]
  norm_num

end Ascot.C167
