import Verif.Lemmas.Cocos
import Verif.Model.Bfield

set_option linter.unusedSectionVars false
set_option linter.unusedSimpArgs false

/-!
# C151: equilibria are recognised and converted without changing what they say

The convention of an equilibrium is found from the signs of its data, and a conversion to any other
convention gives the equilibrium that says the same about flux, field, current, pressure and safety
factor, and only this one.  The convention that is used in the code is that of the magnetic field which the
code computes.

Conversions between systems of units are not right: see `units_wrong`.
-/
namespace Ascot.C151

open Cocos Equilibrium

/-- Conversion to any convention. -/
theorem converted {n m : ℤ} (hn : IsCocos n) (hm : IsCocos m) (e : Eqd) (cw wb : Bool) :
    ∃ b, convert e m (some n) cw wb = some b ∧ Same n e m b := by
  obtain ⟨i, hi, -⟩ := cocos_eq hn
  obtain ⟨o, ho, -⟩ := cocos_eq hm
  have h0 : n ≠ 0 := by unfold IsCocos at hn; omega
  refine ⟨apply (transform i o {}) e, ?_, ?_⟩
  · unfold convert
    simp only [if_neg h0, hi, ho]
  · rw [transform_eq hn hm hi ho]
    have f := flux_fac n m
    have p := perFlux_fac n m
    have c := ccw_fac n m
    have s := safety_fac n m
    constructor <;> simp only [apply, mul_one, scale_one] <;>
      first
        | rfl
        | exact f _
        | exact c _
        | exact map_scale c _
        | exact map_scale p _
        | exact map_scale s _
        | (rw [List.map_map]; exact List.map_congr_left fun x _ => map_scale f x)

/-- There is only one. -/
theorem unique {n m : ℤ} {e a b : Eqd} (ha : Same n e m a) (hb : Same n e m b) : a = b := by
  have fl := List.map_injective_iff.2 (flux_inj (n := m))
  have cl := List.map_injective_iff.2 (ccw_inj (n := m))
  have pl := List.map_injective_iff.2 (perFlux_inj (n := m))
  have sl := List.map_injective_iff.2 (safety_inj (n := m))
  have fll := List.map_injective_iff.2 fl
  ext1
  · exact ha.nx.symm.trans hb.nx
  · exact ha.ny.symm.trans hb.ny
  · exact ha.rdim.symm.trans hb.rdim
  · exact ha.zdim.symm.trans hb.zdim
  · exact ha.rcentr.symm.trans hb.rcentr
  · exact ha.rleft.symm.trans hb.rleft
  · exact ha.zmid.symm.trans hb.zmid
  · exact ha.rmagx.symm.trans hb.rmagx
  · exact ha.zmagx.symm.trans hb.zmagx
  · exact flux_inj (ha.simagx.symm.trans hb.simagx)
  · exact flux_inj (ha.sibdry.symm.trans hb.sibdry)
  · exact ccw_inj (ha.bcentr.symm.trans hb.bcentr)
  · exact ccw_inj (ha.cpasma.symm.trans hb.cpasma)
  · exact cl (ha.fpol.symm.trans hb.fpol)
  · exact ha.pres.symm.trans hb.pres
  · exact pl (ha.ffprime.symm.trans hb.ffprime)
  · exact pl (ha.pprime.symm.trans hb.pprime)
  · exact fll (ha.psi.symm.trans hb.psi)
  · exact sl (ha.qpsi.symm.trans hb.qpsi)
  · exact ha.rbdry.symm.trans hb.rbdry
  · exact ha.zbdry.symm.trans hb.zbdry
  · exact ha.rlim.symm.trans hb.rlim
  · exact ha.zlim.symm.trans hb.zlim

theorem same_refl (n : ℤ) (e : Eqd) : Same n e n e := by constructor <;> rfl

theorem same_trans {n m k : ℤ} {a b c : Eqd} (h : Same n a m b) (g : Same m b k c) : Same n a k c where
  nx := h.nx.trans g.nx
  ny := h.ny.trans g.ny
  rdim := h.rdim.trans g.rdim
  zdim := h.zdim.trans g.zdim
  rcentr := h.rcentr.trans g.rcentr
  rleft := h.rleft.trans g.rleft
  zmid := h.zmid.trans g.zmid
  rmagx := h.rmagx.trans g.rmagx
  zmagx := h.zmagx.trans g.zmagx
  simagx := h.simagx.trans g.simagx
  sibdry := h.sibdry.trans g.sibdry
  bcentr := h.bcentr.trans g.bcentr
  cpasma := h.cpasma.trans g.cpasma
  fpol := h.fpol.trans g.fpol
  pres := h.pres.trans g.pres
  ffprime := h.ffprime.trans g.ffprime
  pprime := h.pprime.trans g.pprime
  psi := h.psi.trans g.psi
  qpsi := h.qpsi.trans g.qpsi
  rbdry := h.rbdry.trans g.rbdry
  zbdry := h.zbdry.trans g.zbdry
  rlim := h.rlim.trans g.rlim
  zlim := h.zlim.trans g.zlim

/-- Conversions one after the other, along any list of conventions, have the effect of one conversion to the
last of them. -/
theorem chain {n : ℤ} (hn : IsCocos n) (e : Eqd) (cw wb : Bool) : ∀ (l : List ℤ) (m : ℤ),
    (∀ k ∈ l, IsCocos k) → IsCocos m →
    ∃ b, (l ++ [m]).foldlM (fun (s : ℤ × Eqd) k => (convert s.2 k (some s.1) cw wb).map (k, ·)) (n, e) =
        some (m, b) ∧ convert e m (some n) cw wb = some b := by
  intro l
  induction l generalizing n e with
  | nil =>
    intro m _ hm
    obtain ⟨b, h, -⟩ := converted hn hm e cw wb
    exact ⟨b, by simp [h], h⟩
  | cons k l ih =>
    intro m hl hm
    have hk := hl k List.mem_cons_self
    obtain ⟨a, h1, s1⟩ := converted hn hk e cw wb
    obtain ⟨b, h2, h3⟩ := ih hk a m (fun x hx => hl x (List.mem_cons_of_mem _ hx)) hm
    obtain ⟨b', h4, s2⟩ := converted hk hm a cw wb
    rw [h3] at h4
    cases h4
    obtain ⟨c, h5, s3⟩ := converted hn hm e cw wb
    refine ⟨b, ?_, ?_⟩
    · rw [List.cons_append, List.foldlM_cons, h1]
      exact h2
    · rw [h5, unique (same_trans s1 s2) s3]

/-- There and back. -/
theorem round_trip {n m : ℤ} (hn : IsCocos n) (hm : IsCocos m) (e : Eqd) (cw wb : Bool) :
    ∃ b, convert e m (some n) cw wb = some b ∧ convert b n (some m) cw wb = some e := by
  obtain ⟨b, h1, s1⟩ := converted hn hm e cw wb
  obtain ⟨c, h2, s2⟩ := converted hm hn b cw wb
  exact ⟨b, h1, by rw [h2, unique (same_trans s1 s2) (same_refl n e)]⟩

/-- Other numbers are refused. -/
theorem refused {n m : ℤ} (h : n ≠ 0 ∧ ¬ IsCocos n ∨ IsCocos n ∧ ¬ IsCocos m) (e : Eqd) (cw wb : Bool) :
    convert e m (some n) cw wb = none := by
  unfold convert
  rcases h with ⟨h0, h⟩ | ⟨h, h'⟩
  · simp only [if_neg h0, cocos_none h]
  · have h0 : n ≠ 0 := by unfold IsCocos at h; omega
    obtain ⟨i, hi, -⟩ := cocos_eq h
    simp only [if_neg h0, hi, cocos_none h']

/-- The convention of an equilibrium is found, if it is known whether the toroidal angle increases clockwise
and whether ψ has been divided by 2π. -/
theorem recognised {n : ℤ} (hn : IsCocos n) {e : Eqd} (h : Consistent n e) :
    assignEqd e (decide (n % 2 = 0)) (decide (n ≤ 8)) = some n := by
  obtain ⟨h1, q, hq, h2⟩ := h
  unfold assignEqd
  cases hl : e.qpsi with
  | nil => rw [hl] at hq; cases hq
  | cons x l =>
    rw [hl] at hq
    cases hq
    dsimp only
    apply assign_eq hn
    · have e1 : (flux n e.sibdry - flux n e.simagx) * ccw n e.cpasma =
          (sRpZ n * sRpZ n) * (sBp n * ((e.sibdry - e.simagx) * e.cpasma)) / turn n := by
        unfold flux ccw; ring
      rw [e1, sq_sRpZ, one_mul] at h1
      exact (div_pos_iff_of_pos_right (turn_pos n)).1 h1
    · have e2 : safety n q * (ccw n e.cpasma * ccw n e.bcentr) =
          (sRpZ n * sRpZ n) * (sRtp n * (q * (e.cpasma * e.bcentr))) := by
        unfold safety ccw; ring
      rw [e2, sq_sRpZ, one_mul] at h2
      exact h2

/-- What is converted without a number, and then converted again. -/
theorem recognised_again {n m : ℤ} (hn : IsCocos n) (hm : IsCocos m) {e : Eqd} (h : Consistent n e) :
    ∃ b, convert e m none (decide (n % 2 = 0)) (decide (n ≤ 8)) = some b ∧ Same n e m b ∧
      Consistent m b ∧ assignEqd b (decide (m % 2 = 0)) (decide (m ≤ 8)) = some m := by
  obtain ⟨b, h1, s⟩ := converted hn hm e (decide (n % 2 = 0)) (decide (n ≤ 8))
  have hc : Consistent m b := by
    refine ⟨?_, ?_⟩
    · rw [← s.sibdry, ← s.simagx, ← s.cpasma]; exact h.ampere
    · obtain ⟨q, hq, hp⟩ := h.helicity
      have := congrArg List.head? s.qpsi
      rw [List.head?_map, List.head?_map, hq, Option.map_some] at this
      obtain ⟨q', hq', e'⟩ := Option.map_eq_some_iff.1 this.symm
      exact ⟨q', hq', by rw [e', ← s.cpasma, ← s.bcentr]; exact hp⟩
  refine ⟨b, ?_, s, hc, recognised hm hc⟩
  have h0 : n ≠ 0 := by unfold IsCocos at hn; omega
  rw [← h1]
  unfold convert
  simp only [recognised hn h, if_neg h0]

/-- Some number is found for any data. -/
theorem always_found (q ip b0 a b : ℝ) (cw wb : Bool) : ∃ n, assign q ip b0 a b cw wb = some n ∧ IsCocos n := by
  unfold assign candidates
  dsimp only
  cases quotPos (sgn (b - a)) (sgn ip) <;> cases quotNeg (sgn q) (sgn ip * sgn b0) <;> cases cw <;>
    cases wb <;> exact ⟨_, rfl, by unfold IsCocos; decide⟩

/-- The magnetic field that the code computes from ψ alone: the number of the convention that the code uses is
the right one. -/
theorem ascot_field {d : Bfield.B2} {r z : ℝ} {p : Bfield.D2} {B : V3 ℝ} (hp : d.psi.df r z = some p)
    (h1 : d.Br.f r z = some 0) (h3 : d.Bz.f r z = some 0) (h : d.evalB r z = .ok B) :
    B.x = flux ascot p.z / r ∧ B.z = -(flux ascot p.r / r) := by
  have ef : ∀ x, flux ascot x = -x := by
    intro x; simp [flux, ascot, sRpZ, sBp, turn]
  rw [ef, ef]
  unfold Bfield.B2.evalB at h
  rw [h1, h3, hp] at h
  cases hb : d.Bphi.f r z with
  | none => rw [hb] at h; cases h
  | some b =>
    rw [hb] at h
    dsimp only at h
    split_ifs at h
    cases h
    constructor <;> dsimp only <;> ring

/-- With other units the derivatives do not belong to the functions: the factor of `dp/dψ` times that of
ψ is that of `p`, and the factor of `F dF/dψ` times that of ψ is that of `F²`, only if the unit of
magnetic flux stays the same. -/
theorem units_wrong {n m : ℤ} (hn : IsCocos n) (hm : IsCocos m) {i o : Cocos.Cocos} (hi : cocos n = some i)
    (ho : cocos m = some o) {l b : ℝ} (hl : 0 < l) (hb : 0 < b) (s : Scales)
    (hs : s = { ld := (1, l), lB := (1, b) }) :
    ((transform i o s).PPRIME * (transform i o s).PSI = (transform i o s).PRES ↔ b * l ^ 2 = 1) ∧
    ((transform i o s).FFPRIME * (transform i o s).PSI = (transform i o s).F ^ 2 ↔ b * l ^ 2 = 1) ∧
    (transform i o s).F = (transform i o s).R * (transform i o s).B ∧
    (transform i o s).TOR = (transform i o s).R ^ 2 * (transform i o s).B ∧
    (transform i o s).I = (transform i o s).R ^ 2 * (transform i o s).J := by
  subst hs
  obtain ⟨c, c0, c1, c2, c3, c4⟩ := cocos_eq hn
  obtain ⟨d, d0, d1, d2, d3, d4⟩ := cocos_eq hm
  rw [hi] at c0; rw [ho] at d0
  cases c0; cases d0
  have hp : sRpZ n * sRpZ m * (sRpZ n * sRpZ m) = 1 := by
    rw [show sRpZ n * sRpZ m * (sRpZ n * sRpZ m) = (sRpZ n * sRpZ n) * (sRpZ m * sRpZ m) by ring,
      sq_sRpZ, sq_sRpZ, one_mul]
  have hq : sBp n * sBp m * (sBp n * sBp m) = 1 := by
    rw [show sBp n * sBp m * (sBp n * sBp m) = (sBp n * sBp n) * (sBp m * sBp m) by ring,
      sq_sBp, sq_sBp, one_mul]
  have ht : (2 * Real.pi) ^ (o.expBp - i.expBp) ≠ 0 := (zpow_pos (by positivity) _).ne'
  unfold transform
  dsimp only
  generalize (2 * Real.pi) ^ (o.expBp - i.expBp) = t at ht
  push_cast
  rw [c1, c2, d1, d2]
  generalize sRpZ n * sRpZ m = u at hp
  generalize sBp n * sBp m = v at hq
  simp only [div_one, sub_self, zpow_zero, mul_one]
  refine ⟨?_, ?_, by ring, by ring, by field_simp⟩
  · rw [show b / l ^ 2 * u * v / t * (b * l ^ 2 * u * v * t * l ^ 2 * b) =
      (u * u) * (v * v) * (b ^ 2 * (b * l ^ 2)) by field_simp, hp, hq, one_mul, one_mul]
    constructor
    · intro h
      exact mul_left_cancel₀ (pow_pos hb 2).ne' (h.trans (mul_one _).symm)
    · intro h; rw [h, mul_one]
  · rw [show b * u * v / t * (b * l ^ 2 * u * v * t * l ^ 2 * b) =
      (u * u) * (v * v) * (b ^ 2 * l ^ 2 * (b * l ^ 2)) by field_simp,
      show (u * l * b) ^ 2 = (u * u) * (b ^ 2 * l ^ 2) by ring, hp, hq, one_mul, one_mul, one_mul]
    constructor
    · intro h
      exact mul_left_cancel₀ (mul_pos (pow_pos hb 2) (pow_pos hl 2)).ne' (h.trans (mul_one _).symm)
    · intro h; rw [h, mul_one]

/-- Nothing is noticed if q vanishes, although its sign is needed. -/
theorem zero_q_accepted : assign 0 1 1 0 1 false true = some 1 := by
  unfold assign candidates
  simp only [sub_zero, sgn_pos one_pos]
  have : sgn 0 = 0 := by simp [sgn]
  rw [this]
  rfl

/-! ## Examples: the hypotheses can be met -/

/-- An equilibrium in convention 12: ψ in weber, the toroidal angle increases clockwise. -/
noncomputable def eq12 : Eqd :=
  { nx := 2, ny := 2, rdim := 2, zdim := 2, rcentr := 2, rleft := 1, zmid := 0, rmagx := 2, zmagx := 0,
    simagx := 0, sibdry := -5, bcentr := 3, cpasma := -1, fpol := [6, 6], pres := [1, 0],
    ffprime := [0, 0], pprime := [1, 1], psi := [[-5, -5], [-5, -5]], qpsi := [-1, -3],
    rbdry := [], zbdry := [], rlim := [], zlim := [] }

theorem consistent12 : Consistent 12 eq12 := by
  refine ⟨?_, -1, rfl, ?_⟩
  · have := Real.pi_pos
    simp [flux, ccw, eq12, sRpZ, sBp, turn]
    exact mul_neg_of_neg_of_pos (div_neg_of_neg_of_pos (by norm_num) (by positivity)) (by norm_num)
  · simp [safety, ccw, eq12, sRpZ, sRtp]

example : IsCocos 12 ∧ IsCocos ascot := ⟨Or.inr ⟨by decide, by decide⟩, Or.inl ⟨by decide, by decide⟩⟩

example : ∃ b, convert eq12 ascot none true false = some b ∧ Same 12 eq12 ascot b ∧ Consistent ascot b ∧
    assignEqd b false true = some ascot :=
  recognised_again (n := 12) (m := ascot) (Or.inr ⟨by decide, by decide⟩) (Or.inl ⟨by decide, by decide⟩)
    consistent12

example : ¬ IsCocos 9 := by unfold IsCocos; decide

/-- Centimetres instead of metres. -/
example : ∃ (l b : ℝ), 0 < l ∧ 0 < b ∧ ¬ b * l ^ 2 = 1 := ⟨100, 1, by norm_num, by norm_num, by norm_num⟩

/-- A field for which the magnetic field is computed. -/
noncomputable example : ∃ (d : Bfield.B2) (p : Bfield.D2) (B : V3 ℝ), d.psi.df 1 0 = some p ∧
    d.Br.f 1 0 = some 0 ∧ d.Bz.f 1 0 = some 0 ∧ d.evalB 1 0 = .ok B :=
  ⟨⟨0, 1, 1, 0, ⟨fun _ _ => some 0, fun _ _ => some ⟨0, 1, 0, 0, 0, 0⟩⟩,
      ⟨fun _ _ => some 0, fun _ _ => none⟩, ⟨fun _ _ => some 1, fun _ _ => none⟩,
      ⟨fun _ _ => some 0, fun _ _ => none⟩⟩, ⟨0, 1, 0, 0, 0, 0⟩, ⟨0 - 0 / 1, 1, 0 + 1 / 1⟩, rfl, rfl, rfl, by
    simp [Bfield.B2.evalB]⟩

end Ascot.C151
