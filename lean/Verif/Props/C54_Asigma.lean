import Verif.Model.Asigma
import Mathlib.Tactic.NormNum
import Mathlib.Tactic.Ring
import Mathlib.Tactic.Linarith
import Mathlib.Tactic.FieldSimp

/-!
# C54 and C87: atomic reaction data

Full statement of C54: after initialisation every reaction is evaluated from the data given for that reaction, i.e. reaction `i` from
the `i`-th block of the packed data.  The code satisfies this for the first reaction only (`first_reaction_partial`); every other
reaction is built from the start of the packed data (`offset_always_zero`, `second_reaction_wrong`).

Full statement of C87: a rate evaluation is never negative, reports missing data with an error and the value zero, and otherwise the
charge-exchange rate is the sum over the neutral species and the beam-stopping coefficient is the mean over the ion species weighted
with charge density.  The last part holds only if every species has exactly one entry with beam-stopping data.
-/
set_option linter.unusedSectionVars false
set_option linter.unusedSimpArgs false

namespace Ascot.C54

open Asigma

/-- The values a table holds. -/
def Holds {α : Type} (t : Table α) (l : List α) : Prop := t = .d1 l ∨ t = .d2 l ∨ t = .d3 l

/-- Shapes the initialisation is written for: energy; energy and temperature; energy, density and temperature. -/
def ShapeOk (r : ReacIn) : Prop :=
  (1 < r.ne ∧ r.nn = 1 ∧ r.nT = 1) ∨ (1 < r.ne ∧ r.nn = 1 ∧ 1 < r.nT) ∨ (1 < r.ne ∧ 1 < r.nn ∧ 1 < r.nT)

private theorem initOne_shape {α : Type} (se : Table α → Nat) (sigma : List α) (r : ReacIn) (h : ShapeOk r)
    (hs : blockSize r ≤ sigma.length) : ∃ t e, initOne se sigma r = some (t, e) ∧ Holds t (sigma.take (blockSize r)) := by
  unfold blockSize at hs ⊢
  rcases h with ⟨h1, h2, h3⟩ | ⟨h1, h2, h3⟩ | ⟨h1, h2, h3⟩
  · have hd : dim r = 1 := by simp [dim, h1, h2, h3]
    rw [h2, h3, mul_one, mul_one] at hs ⊢
    exact ⟨.d1 (sigma.take r.ne), se (.d1 (sigma.take r.ne)), by simp [initOne, hd, readN, hs], Or.inl rfl⟩
  · have hd : dim r = 2 := by simp [dim, h1, h2, h3]
    rw [h2, mul_one] at hs ⊢
    exact ⟨.d2 (sigma.take (r.ne * r.nT)), se (.d2 (sigma.take (r.ne * r.nT))), by simp [initOne, hd, readN, hs], Or.inr (Or.inl rfl)⟩
  · have hd : dim r = 3 := by simp [dim, h1, h2, h3]
    exact ⟨.d3 (sigma.take (r.ne * r.nn * r.nT)), se (.d3 (sigma.take (r.ne * r.nn * r.nT))), by simp [initOne, hd, readN, hs], Or.inr (Or.inr rfl)⟩

/-- With packed data of the right total length the initialisation does not read outside it, and every reaction holds the values at
the start of the packed data, whatever its position in the list. -/
theorem offset_always_zero {α : Type} (se : Table α → Nat) (sigma : List α) (rs : List ReacIn) (hs : ∀ r ∈ rs, ShapeOk r)
    (hlen : ∀ r ∈ rs, blockSize r ≤ sigma.length) (err : Nat) :
    ∃ ts e, locInit se sigma rs err = some (ts, e) ∧ ts.length = rs.length ∧
      ∀ i (h : i < rs.length) (h' : i < ts.length), Holds ts[i] (sigma.take (blockSize rs[i])) := by
  induction rs generalizing err with
  | nil => exact ⟨[], err, rfl, rfl, fun i h => absurd h (Nat.not_lt_zero i)⟩
  | cons r rs ih =>
    obtain ⟨t, e, ht, hh⟩ := initOne_shape se sigma r (hs r (by simp)) (hlen r (by simp))
    obtain ⟨ts, e', hts, hl, hi⟩ := ih (fun r' h' => hs r' (by simp [h'])) (fun r' h' => hlen r' (by simp [h'])) e
    refine ⟨t :: ts, e', by simp [locInit, ht, hts], by simp [hl], ?_⟩
    intro i h h'
    cases i with
    | zero => exact hh
    | succ i => exact hi i (by simpa using h) (by simpa using h')

/-- The first reaction holds its own block. -/
theorem first_reaction_partial {α : Type} (se : Table α → Nat) (r : ReacIn) (rs : List ReacIn) (b : List α) (bs : List (List α))
    (hb : b.length = blockSize r) (hbs : bs.map List.length = rs.map blockSize) (hs : ∀ r' ∈ r :: rs, ShapeOk r') (err : Nat) :
    ∃ t ts e, locInit se (b ++ bs.flatten) (r :: rs) err = some (t :: ts, e) ∧ Holds t b := by
  have hsum : ∀ (bs : List (List α)) (rs : List ReacIn), bs.map List.length = rs.map blockSize → ∀ r' ∈ rs, blockSize r' ≤ bs.flatten.length := by
    intro bs
    induction bs with
    | nil => intro rs h; cases rs <;> simp at h ⊢
    | cons b bs ih =>
      intro rs h
      cases rs with
      | nil => simp at h
      | cons r rs =>
        simp only [List.map_cons, List.cons.injEq] at h
        intro r' hr'
        rw [List.flatten_cons, List.length_append]
        rcases List.mem_cons.1 hr' with rfl | hr'
        · omega
        · have := ih rs h.2 r' hr'; omega
  have hlen : ∀ r' ∈ r :: rs, blockSize r' ≤ (b ++ bs.flatten).length := by
    intro r' hr'
    rw [List.length_append]
    rcases List.mem_cons.1 hr' with rfl | hr'
    · omega
    · have := hsum bs rs hbs r' hr'; omega
  obtain ⟨ts, e, h1, h2, h3⟩ := offset_always_zero se _ (r :: rs) hs hlen err
  cases ts with
  | nil => simp at h2
  | cons t ts =>
    refine ⟨t, ts, e, h1, ?_⟩
    have := h3 0 (by simp) (by simp)
    simpa [← hb] using this

/-- The hypotheses hold for two cross-section tables on two and three energies. -/
example : ∃ (r r' : ReacIn) (b b' : List ℚ), b.length = blockSize r ∧ [b'].map List.length = [r'].map blockSize ∧
    (∀ x ∈ [r, r'], ShapeOk x) :=
  ⟨⟨1, 2, 1, 2, 1, 2, 1, 1⟩, ⟨1, 2, 1, 3, 1, 3, 1, 1⟩, [1, 2], [3, 4, 5], rfl, rfl, by simp [ShapeOk]⟩

/-- The code violates C54: with two reactions the second one holds the data of the first. -/
theorem second_reaction_wrong (se : Table ℚ → Nat) :
    ∃ (r1 r2 : ReacIn) (b1 b2 : List ℚ) (t1 t2 : Table ℚ) (e : Nat),
      b1.length = blockSize r1 ∧ b2.length = blockSize r2 ∧ ShapeOk r1 ∧ ShapeOk r2 ∧
      locInit se (b1 ++ b2) [r1, r2] 0 = some ([t1, t2], e) ∧ Holds t2 b1 ∧ ¬ Holds t2 b2 :=
  ⟨⟨1, 2, 1, 2, 1, 2, 1, 1⟩, ⟨1, 2, 1, 3, 1, 2, 1, 1⟩, [1, 2], [3, 4], _, _, _, rfl, rfl, Or.inl ⟨by decide, rfl, rfl⟩,
    Or.inl ⟨by decide, rfl, rfl⟩, rfl, Or.inl rfl, by simp [Holds]⟩

/-- An error of any reaction but the last is not reported: here the first reaction has no usable table. -/
theorem error_lost (se : Table ℚ → Nat) (hse : ∀ t, se t = 0) (r1 r2 : ReacIn) (sigma : List ℚ) (h1 : dim r1 = 0) (h2 : ShapeOk r2)
    (hs : blockSize r2 ≤ sigma.length) : ∃ t, locInit se sigma [r1, r2] 0 = some ([.none, t], 0) := by
  obtain ⟨t, e, ht, _⟩ := initOne_shape se sigma r2 h2 hs
  have he : e = 0 := by
    unfold initOne at ht
    split at ht
    · simp only [Option.map_eq_some_iff, Prod.mk.injEq] at ht; obtain ⟨l, _, _, h⟩ := ht; rw [← h]; exact hse _
    · simp only [Option.map_eq_some_iff, Prod.mk.injEq] at ht; obtain ⟨l, _, _, h⟩ := ht; rw [← h]; exact hse _
    · simp only [Option.map_eq_some_iff, Prod.mk.injEq] at ht; obtain ⟨l, _, _, h⟩ := ht; rw [← h]; exact hse _
    · rename_i h3 h4 h5
      exfalso
      rcases h2 with ⟨g1, g2, g3⟩ | ⟨g1, g2, g3⟩ | ⟨g1, g2, g3⟩
      · exact h3 (by simp [dim, g1, g2, g3])
      · exact h4 (by simp [dim, g1, g2, g3])
      · exact h5 (by simp [dim, g1, g2, g3])
  have h0 : initOne se sigma r1 = some (.none, 1) := by simp [initOne, h1]
  exact ⟨t, by simp [locInit, h0, ht, he]⟩

example : ∃ (r1 r2 : ReacIn) (sigma : List ℚ), dim r1 = 0 ∧ ShapeOk r2 ∧ blockSize r2 ≤ sigma.length :=
  ⟨⟨1, 2, 1, 2, 1, 1, 1, 1⟩, ⟨1, 2, 1, 3, 1, 2, 1, 1⟩, [1, 2], rfl, Or.inl ⟨by decide, rfl, rfl⟩, by decide⟩

end Ascot.C54

namespace Ascot.C87

open Asigma

/-- `r` is the last entry of `ds` that satisfies `p`. -/
def IsLast (p : Reac → Prop) (ds : List Reac) (r : Reac) : Prop :=
  ∃ pre post, ds = pre ++ r :: post ∧ p r ∧ ∀ r' ∈ post, ¬ p r'

/-- Entries for the collision of `z1/a1` with `z2/a2` of type `type`. -/
def Matches (z1 a1 z2 a2 : ℤ) (type : Nat) (r : Reac) : Prop :=
  r.z1 = z1 ∧ r.a1 = a1 ∧ r.z2 = z2 ∧ r.a2 = a2 ∧ r.type = type

private theorem foldl_no (p : Reac → Bool) (ds : List Reac) (acc : Option Reac) (h : ∀ r ∈ ds, p r = false) :
    ds.foldl (fun acc r => if p r then some r else acc) acc = acc := by
  induction ds generalizing acc with
  | nil => rfl
  | cons a l ih => simp only [List.foldl_cons, h a (by simp), Bool.false_eq_true, if_false]; exact ih _ fun r hr => h r (by simp [hr])

private theorem lastMatch_of (p : Reac → Bool) (P : Reac → Prop) (hp : ∀ r, p r = true ↔ P r) {ds : List Reac} {r : Reac}
    (h : IsLast P ds r) : lastMatch p ds = some r := by
  obtain ⟨pre, post, rfl, h1, h2⟩ := h
  unfold lastMatch
  rw [List.foldl_append, List.foldl_cons, if_pos ((hp r).2 h1)]
  exact foldl_no _ _ _ fun r' hr' => by rw [Bool.eq_false_iff]; exact fun h => h2 r' hr' ((hp r').1 h)

private theorem lastMatch_none (p : Reac → Bool) (P : Reac → Prop) (hp : ∀ r, p r = true ↔ P r) {ds : List Reac}
    (h : ∀ r ∈ ds, ¬ P r) : lastMatch p ds = none :=
  foldl_no _ _ _ fun r' hr' => by rw [Bool.eq_false_iff]; exact fun h' => h r' hr' ((hp r').1 h')

private theorem clip_nonneg (r : Res) {v : ℝ} (h : (clip r).val = some v) : 0 ≤ v := by
  unfold clip at h
  split at h
  · simp at h; exact h.le
  · rename_i hn
    push Not at hn
    exact hn.2 v h

private theorem clip_err (r : Res) (h : (clip r).err ≠ 0) : (clip r).val = some 0 := by
  unfold clip at h ⊢
  split
  · rfl
  · rename_i hn
    rw [if_neg hn] at h
    exact absurd (Or.inl h) hn

/-- No evaluation returns a negative value. -/
theorem nonneg (c cE : ℝ) (d : Data) (z1 a1 z2 a2 : ℤ) (e te t0 ni mass v : ℝ) (type : Nat) (spec : List Species) :
    ((evalSigma d z1 a1 z2 a2 e type).val = some v → 0 ≤ v) ∧
    ((evalSigmav cE d z1 a1 z2 a2 e te t0 ni type).val = some v → 0 ≤ v) ∧
    ((evalCx cE d z1 a1 e t0 spec).val = some v → 0 ≤ v) ∧
    (∀ r, evalBms c cE d z1 a1 e mass te spec = some r → r.val = some v → 0 ≤ v) := by
  refine ⟨clip_nonneg _, clip_nonneg _, clip_nonneg _, ?_⟩
  intro r hr hv
  unfold evalBms at hr
  rw [Option.map_eq_some_iff] at hr
  obtain ⟨x, _, rfl⟩ := hr
  exact clip_nonneg _ hv

/-- With an error the value is zero. -/
theorem error_zero (c cE : ℝ) (d : Data) (z1 a1 z2 a2 : ℤ) (e te t0 ni mass : ℝ) (type : Nat) (spec : List Species) :
    ((evalSigma d z1 a1 z2 a2 e type).err ≠ 0 → (evalSigma d z1 a1 z2 a2 e type).val = some 0) ∧
    ((evalSigmav cE d z1 a1 z2 a2 e te t0 ni type).err ≠ 0 → (evalSigmav cE d z1 a1 z2 a2 e te t0 ni type).val = some 0) ∧
    ((evalCx cE d z1 a1 e t0 spec).err ≠ 0 → (evalCx cE d z1 a1 e t0 spec).val = some 0) ∧
    (∀ r, evalBms c cE d z1 a1 e mass te spec = some r → r.err ≠ 0 → r.val = some 0) := by
  refine ⟨clip_err _, clip_err _, clip_err _, ?_⟩
  intro r hr hv
  unfold evalBms at hr
  rw [Option.map_eq_some_iff] at hr
  obtain ⟨x, _, rfl⟩ := hr
  exact clip_err _ hv

private theorem clip_ok {v : ℝ} (hv : 0 ≤ v) : clip ⟨0, some v⟩ = ⟨0, some v⟩ := by
  unfold clip
  rw [if_neg]
  rintro (h | ⟨w, hw, hn⟩)
  · exact h rfl
  · simp at hw; linarith

private theorem clip_neg {v : ℝ} (hv : v < 0) : clip ⟨0, some v⟩ = ⟨0, some 0⟩ := by
  unfold clip
  rw [if_pos (Or.inr ⟨v, rfl, hv⟩)]

private theorem clip_max (v : ℝ) : clip ⟨0, some v⟩ = ⟨0, some (max v 0)⟩ := by
  rcases le_or_gt 0 v with h | h
  · rw [clip_ok h, max_eq_left h]
  · rw [clip_neg h, max_eq_right h.le]

private theorem clip_err' {e : Nat} (he : e ≠ 0) (v : Option ℝ) : clip ⟨e, v⟩ = ⟨e, some 0⟩ := by
  unfold clip
  rw [if_pos (Or.inl he)]

private theorem matchb (z1 a1 z2 a2 : ℤ) (type : Nat) (r : Reac) :
    (r.z1 == z1 && r.a1 == a1 && r.z2 == z2 && r.a2 == a2 && r.type == type) = true ↔ Matches z1 a1 z2 a2 type r := by
  simp [Matches, and_assoc]

/-- Cross sections: the last matching entry is used; the value is its interpolation clipped at zero; outside its table the value is
zero when extrapolating and an error otherwise. -/
theorem sigma_value (ds : List Reac) (ex : Bool) (z1 a1 z2 a2 : ℤ) (e : ℝ) (type : Nat) (r : Reac)
    (ht : type = 1 ∨ type = 2 ∨ type = 3) (hr : IsLast (Matches z1 a1 z2 a2 type) ds r) :
    (∀ v, r.sigma e = some v → evalSigma ⟨some ds, ex⟩ z1 a1 z2 a2 e type = ⟨0, some (max v 0)⟩) ∧
    (r.sigma e = none → ex = true → evalSigma ⟨some ds, ex⟩ z1 a1 z2 a2 e type = ⟨0, some 0⟩) ∧
    (r.sigma e = none → ex = false → (evalSigma ⟨some ds, ex⟩ z1 a1 z2 a2 e type).err ≠ 0) := by
  have hm := lastMatch_of _ _ (matchb z1 a1 z2 a2 type) hr
  have hty : r.type = type := by obtain ⟨_, _, _, h, _⟩ := hr; exact h.2.2.2.2
  have key : evalSigma ⟨some ds, ex⟩ z1 a1 z2 a2 e type = clip (fromInterp ex 204 (r.sigma e)) := by
    simp only [evalSigma, locSigma, hm]
    rw [if_pos (by rw [hty]; exact ht)]
  rw [key]
  refine ⟨fun v hv => by rw [hv]; exact clip_max v, fun h hx => ?_, fun h hx => ?_⟩
  · rw [h, hx]; simp [fromInterp, clip]
  · rw [h, hx]; simp only [fromInterp, Bool.false_eq_true, if_false]; rw [clip_err' (by decide)]; decide

/-- Missing data is an error, and so is an unknown type of atomic data. -/
theorem missing_error (cE : ℝ) (ds : List Reac) (ex : Bool) (z1 a1 z2 a2 : ℤ) (e te t0 ni : ℝ) (type : Nat) :
    ((∀ r ∈ ds, ¬ Matches z1 a1 z2 a2 type r) → (evalSigma ⟨some ds, ex⟩ z1 a1 z2 a2 e type).err ≠ 0) ∧
    ((∀ r ∈ ds, ¬ Matches z1 a1 z2 a2 type r) → type ≠ 7 → (evalSigmav cE ⟨some ds, ex⟩ z1 a1 z2 a2 e te t0 ni type).err ≠ 0) ∧
    (evalSigma ⟨none, ex⟩ z1 a1 z2 a2 e type).err ≠ 0 ∧
    (evalSigmav cE ⟨none, ex⟩ z1 a1 z2 a2 e te t0 ni type).err ≠ 0 := by
  refine ⟨fun h => ?_, fun h h7 => ?_, ?_, ?_⟩
  · simp only [evalSigma, locSigma, lastMatch_none _ _ (matchb z1 a1 z2 a2 type) h]
    rw [clip_err' (by decide)]; decide
  · have hb : ∀ r : Reac, ((type == 7 && r.z1 == z1 && r.z2 == z2 && r.type == type) ||
      (r.z1 == z1 && r.a1 == a1 && r.z2 == z2 && r.a2 == a2 && r.type == type)) = true ↔ Matches z1 a1 z2 a2 type r := by
      intro r
      rw [← matchb]
      simp [h7]
    simp only [evalSigmav, locSigmav, lastMatch_none _ _ hb h]
    rw [clip_err' (by decide)]; decide
  · simp only [evalSigma]; rw [clip_err' (by decide)]; decide
  · simp only [evalSigmav]; rw [clip_err' (by decide)]; decide

/-- Rate coefficients of ionisation, recombination and charge exchange. -/
theorem sigmav_value (cE : ℝ) (ds : List Reac) (ex : Bool) (z1 a1 z2 a2 : ℤ) (e te t0 ni : ℝ) (type : Nat) (r : Reac)
    (ht : type = 4 ∨ type = 5 ∨ type = 6) (hr : IsLast (Matches z1 a1 z2 a2 type) ds r) :
    (∀ v, r.sigmav (e / cE) (t0 / cE) = some v →
      evalSigmav cE ⟨some ds, ex⟩ z1 a1 z2 a2 e te t0 ni type = ⟨0, some (max v 0)⟩) ∧
    (r.sigmav (e / cE) (t0 / cE) = none → ex = true → evalSigmav cE ⟨some ds, ex⟩ z1 a1 z2 a2 e te t0 ni type = ⟨0, some 0⟩) ∧
    (r.sigmav (e / cE) (t0 / cE) = none → ex = false → (evalSigmav cE ⟨some ds, ex⟩ z1 a1 z2 a2 e te t0 ni type).err ≠ 0) := by
  have hb : ∀ r : Reac, ((type == 7 && r.z1 == z1 && r.z2 == z2 && r.type == type) ||
      (r.z1 == z1 && r.a1 == a1 && r.z2 == z2 && r.a2 == a2 && r.type == type)) = true ↔ Matches z1 a1 z2 a2 type r := by
    intro r
    rw [← matchb]
    have : type ≠ 7 := by omega
    simp [this]
  have hm := lastMatch_of _ _ hb hr
  have key : evalSigmav cE ⟨some ds, ex⟩ z1 a1 z2 a2 e te t0 ni type = clip (fromInterp ex 285 (r.sigmav (e / cE) (t0 / cE))) := by
    simp only [evalSigmav, locSigmav, hm]
    rw [if_pos ht]
  rw [key]
  refine ⟨fun v hv => by rw [hv]; exact clip_max v, fun h hx => ?_, fun h hx => ?_⟩
  · rw [h, hx]; simp [fromInterp, clip]
  · rw [h, hx]; simp only [fromInterp, Bool.false_eq_true, if_false]; rw [clip_err' (by decide)]; decide

private theorem cx_fold_ok (ds : List Reac) (ex : Bool) (z1 a1 : ℤ) (e t0 : ℝ) (spec : List Species) (R : Species → Reac)
    (σ : Species → ℝ) (hR : ∀ s ∈ spec, IsLast (Matches z1 a1 s.znum s.anum 6) ds (R s))
    (hσ : ∀ s ∈ spec, (R s).sigmav e t0 = some (σ s) ∨ (ex = true ∧ (R s).sigmav e t0 = none ∧ σ s = 0)) (a : ℝ) :
    spec.foldl (cxStep ds ex z1 a1 e t0) ⟨0, some a⟩ = ⟨0, some (a + (spec.map fun s => σ s * s.dens).sum)⟩ := by
  induction spec generalizing a with
  | nil => simp
  | cons s l ih =>
    have hm := lastMatch_of _ _ (matchb z1 a1 s.znum s.anum 6) (hR s (by simp))
    have hstep : cxStep ds ex z1 a1 e t0 ⟨0, some a⟩ s = ⟨0, some (a + σ s * s.dens)⟩ := by
      unfold cxStep
      rw [hm]
      rcases hσ s (by simp) with h | ⟨h1, h2, h3⟩
      · simp [h, fromInterp]
      · simp [h1, h2, h3, fromInterp]
    rw [List.foldl_cons, hstep, ih (fun s' h' => hR s' (by simp [h'])) (fun s' h' => hσ s' (by simp [h']))]
    simp [add_assoc]

/-- Charge exchange: if every neutral species has data, the rate is the sum over the species of the interpolated coefficient (zero
outside the table when extrapolating) times the density, clipped at zero. -/
theorem cx_sum (cE : ℝ) (ds : List Reac) (ex : Bool) (z1 a1 : ℤ) (e t0 : ℝ) (spec : List Species) (R : Species → Reac)
    (σ : Species → ℝ) (hR : ∀ s ∈ spec, IsLast (Matches z1 a1 s.znum s.anum 6) ds (R s))
    (hσ : ∀ s ∈ spec, (R s).sigmav (e / cE) (t0 / cE) = some (σ s) ∨
      (ex = true ∧ (R s).sigmav (e / cE) (t0 / cE) = none ∧ σ s = 0)) :
    evalCx cE ⟨some ds, ex⟩ z1 a1 e t0 spec = ⟨0, some (max ((spec.map fun s => σ s * s.dens).sum) 0)⟩ := by
  simp only [evalCx, locCx]
  rw [cx_fold_ok ds ex z1 a1 _ _ spec R σ hR hσ, clip_max, zero_add]

/-- Two neutral species with constant coefficients 2 and 3. -/
example : ∃ (ds : List Reac) (spec : List Species) (R : Species → Reac) (σ : Species → ℝ), spec.length = 2 ∧
    (∀ s ∈ spec, IsLast (Matches 1 2 s.znum s.anum 6) ds (R s)) ∧ (∀ s ∈ spec, (R s).sigmav 1 1 = some (σ s)) := by
  refine ⟨[⟨1, 2, 1, 2, 6, fun _ => none, fun _ _ => some 2, fun _ _ _ => none⟩,
    ⟨1, 2, 2, 4, 6, fun _ => none, fun _ _ => some 3, fun _ _ _ => none⟩], [⟨1, 2, 1⟩, ⟨1, 4, 2⟩],
    fun s => if s.znum = 1 then ⟨1, 2, 1, 2, 6, fun _ => none, fun _ _ => some 2, fun _ _ _ => none⟩
      else ⟨1, 2, 2, 4, 6, fun _ => none, fun _ _ => some 3, fun _ _ _ => none⟩,
    fun s => if s.znum = 1 then 2 else 3, rfl, ?_, ?_⟩
  · intro s hs
    simp at hs
    rcases hs with rfl | rfl
    · exact ⟨[], [_], rfl, by simp [Matches], by simp [Matches]⟩
    · exact ⟨[_], [], rfl, by simp [Matches], by simp [Matches]⟩
  · intro s hs
    simp at hs
    rcases hs with rfl | rfl <;> simp

private theorem cx_fold_err (ds : List Reac) (ex : Bool) (z1 a1 : ℤ) (e t0 : ℝ) (spec : List Species) (acc : Res)
    (h : acc.err ≠ 0) : (spec.foldl (cxStep ds ex z1 a1 e t0) acc).err ≠ 0 := by
  induction spec generalizing acc with
  | nil => exact h
  | cons s l ih =>
    rw [List.foldl_cons]
    apply ih
    unfold cxStep
    split
    · exact (by decide : Error.raise 1 361 27 ≠ 0)
    · simp only; split
      · rename_i h'; exact h'
      · exact h

/-- Charge exchange: a species without data is an error, and so is one outside its table when not extrapolating. -/
theorem cx_error (cE : ℝ) (ds : List Reac) (ex : Bool) (z1 a1 : ℤ) (e t0 : ℝ) (spec : List Species) (s : Species) (hs : s ∈ spec)
    (h : (∀ r ∈ ds, ¬ Matches z1 a1 s.znum s.anum 6 r) ∨
      (ex = false ∧ ∃ r, IsLast (Matches z1 a1 s.znum s.anum 6) ds r ∧ r.sigmav (e / cE) (t0 / cE) = none)) :
    (evalCx cE ⟨some ds, ex⟩ z1 a1 e t0 spec).err ≠ 0 := by
  have hl : (locCx cE ds ex z1 a1 e t0 spec).err ≠ 0 := by
    obtain ⟨pre, post, rfl⟩ := List.append_of_mem hs
    unfold locCx
    rw [List.foldl_append, List.foldl_cons]
    apply cx_fold_err
    generalize List.foldl _ _ _ = acc
    unfold cxStep
    rcases h with h | ⟨hx, r, hr, hn⟩
    · rw [lastMatch_none _ _ (matchb z1 a1 s.znum s.anum 6) h]; exact (by decide : Error.raise 1 361 27 ≠ 0)
    · rw [lastMatch_of _ _ (matchb z1 a1 s.znum s.anum 6) hr]
      simp only [hn, hx, fromInterp, Bool.false_eq_true, if_false]
      rw [if_pos (by decide)]
      decide
  simp only [evalCx]
  generalize locCx cE ds ex z1 a1 e t0 spec = x at hl
  obtain ⟨er, v⟩ := x
  rw [clip_err' hl]
  exact hl

private theorem bms_inner_eq (ex : Bool) (z1 : ℤ) (ea te : ℝ) (s : Species) (ds : List Reac) (σ : Reac → ℝ)
    (hσ : ∀ r ∈ ds, bmsMatch z1 s r = true → r.bms ea (s.znum * s.dens) te = some (σ r)) (a : ℝ) :
    ds.foldl (bmsInner ex z1 ea te s) ⟨0, some a⟩ =
      ⟨0, some (a + ((ds.filter (bmsMatch z1 s)).map fun r => σ r * (s.znum * s.dens)).sum)⟩ := by
  induction ds generalizing a with
  | nil => simp
  | cons r l ih =>
    rw [List.foldl_cons]
    by_cases h : bmsMatch z1 s r = true
    · have : bmsInner ex z1 ea te s ⟨0, some a⟩ r = ⟨0, some (a + σ r * (s.znum * s.dens))⟩ := by
        simp [bmsInner, h, hσ r (by simp) h, fromInterp]
      rw [this, ih (fun r' h' => hσ r' (by simp [h']))]
      simp [List.filter_cons, h, add_assoc]
    · have : bmsInner ex z1 ea te s ⟨0, some a⟩ r = ⟨0, some a⟩ := by simp [bmsInner, h]
      rw [this, ih (fun r' h' => hσ r' (by simp [h']))]
      simp [List.filter_cons, h]

private theorem bms_fold_eq (ex : Bool) (z1 : ℤ) (ea te : ℝ) (ds : List Reac) (spec : List Species) (σ : Species → Reac → ℝ)
    (hσ : ∀ s ∈ spec, ∀ r ∈ ds, bmsMatch z1 s r = true → r.bms ea (s.znum * s.dens) te = some (σ s r)) (a : ℝ) :
    spec.foldl (fun acc s => ds.foldl (bmsInner ex z1 ea te s) acc) ⟨0, some a⟩ =
      ⟨0, some (a + (spec.map fun s => ((ds.filter (bmsMatch z1 s)).map fun r => σ s r * (s.znum * s.dens)).sum).sum)⟩ := by
  induction spec generalizing a with
  | nil => simp
  | cons s l ih =>
    rw [List.foldl_cons, bms_inner_eq ex z1 ea te s ds (σ s) (hσ s (by simp)), ih (fun s' h' => hσ s' (by simp [h']))]
    simp [add_assoc]

/-- Entries with beam-stopping data for a species; isotopes are not distinguished. -/
def BmsEntry (z1 : ℤ) (s : Species) (r : Reac) : Prop := r.z1 = z1 ∧ r.z2 = s.znum ∧ r.type = 7

/-- Beam stopping: if every ion species has exactly one entry and is inside its table, the coefficient is the mean of the
interpolated coefficients weighted with the charge densities, clipped at zero. -/
theorem bms_mean_partial (c cE : ℝ) (ds : List Reac) (ex : Bool) (z1 a1 : ℤ) (e mass te : ℝ) (spec : List Species)
    (hne : spec ≠ []) (R : Species → Reac) (σ : Species → ℝ)
    (hR : ∀ s ∈ spec, ∃ pre post, ds = pre ++ R s :: post ∧ BmsEntry z1 s (R s) ∧ ∀ r ∈ pre ++ post, ¬ BmsEntry z1 s r)
    (hσ : ∀ s ∈ spec, (R s).bms (e / cE / a1) (s.znum * s.dens) (te / cE) = some (σ s))
    (hn : (spec.map fun s => (s.znum : ℝ) * s.dens).sum ≠ 0) :
    evalBms c cE ⟨some ds, ex⟩ z1 a1 e mass te spec = some ⟨0, some (max
      ((spec.map fun s => σ s * (s.znum * s.dens)).sum / (spec.map fun s => (s.znum : ℝ) * s.dens).sum) 0)⟩ := by
  have hb : ∀ s r, bmsMatch z1 s r = true ↔ BmsEntry z1 s r := by intro s r; simp [bmsMatch, BmsEntry, and_assoc]
  have hf : ∀ s ∈ spec, ds.filter (bmsMatch z1 s) = [R s] := by
    intro s hs
    obtain ⟨pre, post, rfl, h1, h2⟩ := hR s hs
    rw [List.filter_append, List.filter_cons, if_pos ((hb s _).2 h1)]
    rw [List.filter_eq_nil_iff.2 fun r hr h => h2 r (by simp [hr]) ((hb s r).1 h),
      List.filter_eq_nil_iff.2 fun r hr h => h2 r (by simp [hr]) ((hb s r).1 h)]
    rfl
  have hany : (spec.any fun s => ds.any (bmsMatch z1 s)) = true := by
    obtain ⟨s, hs⟩ := List.exists_mem_of_ne_nil spec hne
    rw [List.any_eq_true]
    refine ⟨s, hs, ?_⟩
    rw [List.any_eq_true]
    have : R s ∈ ds.filter (bmsMatch z1 s) := by rw [hf s hs]; simp
    exact ⟨R s, List.mem_of_mem_filter this, List.of_mem_filter this⟩
  have hfold := bms_fold_eq ex z1 (e / cE / a1) (te / cE) ds spec (fun s _ => σ s) (fun s hs r hr h => by
    have : r ∈ ds.filter (bmsMatch z1 s) := List.mem_filter.2 ⟨hr, h⟩
    rw [hf s hs] at this
    simp at this
    rw [this]; exact hσ s hs) 0
  have hsum : (spec.map fun s => ((ds.filter (bmsMatch z1 s)).map fun _ => σ s * (s.znum * s.dens)).sum) =
      spec.map fun s => σ s * (s.znum * s.dens) := by
    apply List.map_congr_left
    intro s hs
    rw [hf s hs]; simp
  simp only [evalBms, locBms]
  rw [if_pos hany, hfold]
  simp only [hsum, zero_add]
  rw [if_neg hn]
  simp only [Option.map_some, clip_max]

/-- The hypotheses hold for a deuterium plasma with one table. -/
example : ∃ (ds : List Reac) (spec : List Species) (R : Species → Reac) (σ : Species → ℝ), spec ≠ [] ∧
    (∀ s ∈ spec, ∃ pre post, ds = pre ++ R s :: post ∧ BmsEntry 1 s (R s) ∧ ∀ r ∈ pre ++ post, ¬ BmsEntry 1 s r) ∧
    (∀ s ∈ spec, (R s).bms (1 / 1 / (2 : ℤ)) (s.znum * s.dens) (1 / 1) = some (σ s)) ∧
    (spec.map fun s => (s.znum : ℝ) * s.dens).sum ≠ 0 := by
  refine ⟨[⟨1, 2, 1, 2, 7, fun _ => none, fun _ _ => none, fun e _ _ => some e⟩], [⟨1, 2, 1⟩],
    fun _ => ⟨1, 2, 1, 2, 7, fun _ => none, fun _ _ => none, fun e _ _ => some e⟩, fun _ => 1 / 2, by simp, ?_, ?_, ?_⟩
  · intro s hs; simp at hs; subst hs; exact ⟨[], [], rfl, by simp [BmsEntry], by simp⟩
  · intro s hs; simp at hs; subst hs; simp
  · simp

/-- The code violates the last part of C87 when the tables of two isotopes are given: both are used for every isotope, and the
result is twice the tabulated coefficient. -/
theorem bms_counts_isotopes_twice (c cE e mass te : ℝ) (ex : Bool) :
    ∃ (ds : List Reac) (spec : List Species), spec = [⟨1, 2, 1⟩] ∧
      (∀ r ∈ ds, r.bms (e / cE / (2 : ℤ)) 1 (te / cE) = some 1) ∧
      evalBms c cE ⟨some ds, ex⟩ 1 2 e mass te spec = some ⟨0, some 2⟩ := by
  refine ⟨[⟨1, 1, 1, 1, 7, fun _ => none, fun _ _ => none, fun _ _ _ => some 1⟩,
    ⟨1, 2, 1, 2, 7, fun _ => none, fun _ _ => none, fun _ _ _ => some 1⟩], [⟨1, 2, 1⟩], rfl, by simp, ?_⟩
  simp [evalBms, locBms, bmsInner, bmsMatch, fromInterp]
  rw [show (1 : ℝ) + 1 = 2 by norm_num]
  exact clip_ok (by norm_num)

/-- A species without data lowers the mean instead of raising an error, as long as another species has data. -/
theorem bms_missing_species_silent (c cE e mass te : ℝ) (ex : Bool) :
    ∃ (ds : List Reac) (spec : List Species), spec = [⟨1, 2, 1⟩, ⟨1, 2, 1⟩, ⟨1, 12, 6⟩] ∧
      (∀ r ∈ ds, ¬ BmsEntry 1 ⟨1, 12, 6⟩ r) ∧
      evalBms c cE ⟨some ds, ex⟩ 1 2 e mass te spec = some ⟨0, some (1/4)⟩ := by
  refine ⟨[⟨1, 2, 1, 2, 7, fun _ => none, fun _ _ => none, fun _ _ _ => some 1⟩], _, rfl, by simp [BmsEntry], ?_⟩
  simp [evalBms, locBms, bmsInner, bmsMatch, fromInterp]
  rw [show ((1 : ℝ) + 1) / (1 + (1 + 6)) = 4⁻¹ by norm_num, if_neg (by norm_num)]
  exact clip_ok (v := (4 : ℝ)⁻¹) (by norm_num)

/-- For a single ion species the two ways to evaluate beam stopping agree if beam and plasma have the same mass number. -/
theorem bms_sigmav_agree_partial (c cE : ℝ) (ds : List Reac) (ex : Bool) (z1 a : ℤ) (e mass te t0 : ℝ) (s : Species) (hz : s.znum ≠ 0)
    (hd : s.dens ≠ 0) (ha : s.anum = a) (r : Reac) (v : ℝ)
    (hR : ∃ pre post, ds = pre ++ r :: post ∧ BmsEntry z1 s r ∧ ∀ r' ∈ pre ++ post, ¬ BmsEntry z1 s r')
    (hv : r.bms (e / cE / a) (s.znum * s.dens) (te / cE) = some v) :
    evalBms c cE ⟨some ds, ex⟩ z1 a e mass te [s] = some (evalSigmav cE ⟨some ds, ex⟩ z1 a s.znum s.anum e te t0 s.dens 7) := by
  have hz' : (s.znum : ℝ) ≠ 0 := by exact_mod_cast hz
  have hzn : (s.znum : ℝ) * s.dens ≠ 0 := mul_ne_zero hz' hd
  rw [bms_mean_partial c cE ds ex z1 a e mass te [s] (by simp) (fun _ => r) (fun _ => v) (by simpa using hR) (by simpa using hv)
    (by simpa using hzn)]
  have hl : IsLast (BmsEntry z1 s) ds r := by
    obtain ⟨pre, post, h1, h2, h3⟩ := hR
    exact ⟨pre, post, h1, h2, fun r' h' => h3 r' (by simp [h'])⟩
  have hb : ∀ r : Reac, (((7 : Nat) == 7 && r.z1 == z1 && r.z2 == s.znum && r.type == 7) ||
      (r.z1 == z1 && r.a1 == a && r.z2 == s.znum && r.a2 == s.anum && r.type == 7)) = true ↔ BmsEntry z1 s r := by
    intro r
    simp only [BmsEntry, Bool.or_eq_true, Bool.and_eq_true, beq_iff_eq, true_and]
    tauto
  simp only [evalSigmav, locSigmav, lastMatch_of _ _ hb hl]
  rw [if_neg (by decide), if_pos trivial, ha, hv]
  simp only [fromInterp, clip_max]
  congr 3
  simp
  field_simp

/-- They disagree otherwise: `asigma_eval_sigmav` divides the beam energy by the mass number of the plasma ion. -/
theorem bms_sigmav_disagree (c cE mass te t0 : ℝ) (hc : 0 < cE) (ex : Bool) :
    ∃ (ds : List Reac) (s : Species) (e : ℝ), s.anum ≠ 2 ∧
      evalBms c cE ⟨some ds, ex⟩ 1 2 e mass te [s] ≠ some (evalSigmav cE ⟨some ds, ex⟩ 1 2 s.znum s.anum e te t0 s.dens 7) := by
  refine ⟨[⟨1, 2, 1, 2, 7, fun _ => none, fun _ _ => none, fun e _ _ => some e⟩], ⟨1, 1, 1⟩, cE, by simp, ?_⟩
  have h : cE / cE = 1 := div_self hc.ne'
  simp [evalBms, locBms, bmsInner, bmsMatch, fromInterp, evalSigmav, locSigmav, lastMatch, h]
  rw [clip_ok (by norm_num), clip_ok (by norm_num)]
  norm_num

end Ascot.C87
