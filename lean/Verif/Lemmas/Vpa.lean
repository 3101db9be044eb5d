import Verif.Lemmas.Coord
import Verif.Lemmas.Physlib
import Verif.Model.Vpa

set_option linter.unusedSectionVars false
set_option linter.unusedSimpArgs false

namespace Ascot.Vpa
open Ascot.Coord Ascot.Physlib

theorem square_entries (B : V3 ℝ) (junk : Nat → ℝ) :
    let q := MathC.matmul (bhat B) (bhat B) 3 3 3 junk
    q 0 = -(B.z * B.z) - B.y * B.y ∧ q 1 = B.x * B.y ∧ q 2 = B.x * B.z ∧
    q 3 = B.x * B.y ∧ q 4 = -(B.z * B.z) - B.x * B.x ∧ q 5 = B.y * B.z ∧
    q 6 = B.x * B.z ∧ q 7 = B.y * B.z ∧ q 8 = -(B.y * B.y) - B.x * B.x := by
  intro q
  refine ⟨?_, ?_, ?_, ?_, ?_, ?_, ?_, ?_, ?_⟩ <;>
    (simp [q, MathC.matmul, MathC.matSum, MathC.write, List.range_succ, bhat]; try ring)

theorem row_times (v : V3 ℝ) (A junk : Nat → ℝ) :
    let q := MathC.matmul (arr v) A 1 3 3 junk
    q 0 = v.x * A 0 + v.y * A 1 + v.z * A 2 ∧ q 1 = v.x * A 3 + v.y * A 4 + v.z * A 5 ∧
    q 2 = v.x * A 6 + v.y * A 7 + v.z * A 8 := by
  intro q
  refine ⟨?_, ?_, ?_⟩ <;>
    simp [q, MathC.matmul, MathC.matSum, MathC.write, List.range_succ, arr]

/-- Rotation of the normalised momentum: `p + f ((p x B) + d (p x B) x B)` with `f = 2d / (1 + d² B²)`. -/
noncomputable def rot (d : ℝ) (B p : V3 ℝ) : V3 ℝ :=
  let f := 2 * d / (1 + d * d * V3.dot B B)
  let w := V3.cross p B
  let u := V3.cross w B
  ⟨p.x + f * (w.x + d * u.x), p.y + f * (w.y + d * u.y), p.z + f * (w.z + d * u.z)⟩

noncomputable def pminus (c q m h : ℝ) (E p : V3 ℝ) : V3 ℝ :=
  ⟨p.x / (m * c) + q * h / (2 * m * c) * E.x, p.y / (m * c) + q * h / (2 * m * c) * E.y,
    p.z / (m * c) + q * h / (2 * m * c) * E.z⟩

noncomputable def dval (q m h : ℝ) (p : V3 ℝ) : ℝ := q * h / (2 * m) / Real.sqrt (1 + V3.dot p p)

theorem kick_eq (c q m h : ℝ) (junk : Nat → ℝ) (E B p : V3 ℝ) :
    kick c q m h junk E B p =
      let pm := pminus c q m h E p
      let pp := rot (dval q m h pm) B pm
      let s := q * h / (2 * m * c)
      ⟨(pp.x + s * E.x) * m * c, (pp.y + s * E.y) * m * c, (pp.z + s * E.z) * m * c⟩ := by
  unfold kick
  obtain ⟨h0, h1, h2, h3, h4, h5, h6, h7, h8⟩ := square_entries B junk
  dsimp only
  rw [(row_times _ _ _).1, (row_times _ _ _).2.1, (row_times _ _ _).2.2]
  dsimp only
  rw [h0, h1, h2, h3, h4, h5, h6, h7, h8]
  have b0 : bhat B 0 = 0 := rfl
  have b1 : bhat B 1 = B.z := rfl
  have b2 : bhat B 2 = -B.y := rfl
  have b3 : bhat B 3 = -B.z := rfl
  have b4 : bhat B 4 = 0 := rfl
  have b5 : bhat B 5 = B.x := rfl
  have b6 : bhat B 6 = B.y := rfl
  have b7 : bhat B 7 = -B.x := rfl
  have b8 : bhat B 8 = 0 := rfl
  rw [b0, b1, b2, b3, b4, b5, b6, b7, b8]
  have hpm : (⟨p.x / (m * c) + q * h / (2 * m * c) * E.x, p.y / (m * c) + q * h / (2 * m * c) * E.y,
    p.z / (m * c) + q * h / (2 * m * c) * E.z⟩ : V3 ℝ) = pminus c q m h E p := rfl
  have hx : p.x / (m * c) + q * h / (2 * m * c) * E.x = (pminus c q m h E p).x := rfl
  have hy : p.y / (m * c) + q * h / (2 * m * c) * E.y = (pminus c q m h E p).y := rfl
  have hz : p.z / (m * c) + q * h / (2 * m * c) * E.z = (pminus c q m h E p).z := rfl
  rw [hpm, hx, hy, hz]
  have hd : q * h / (2 * m) / Real.sqrt (1 + V3.dot (pminus c q m h E p) (pminus c q m h E p)) = dval q m h (pminus c q m h E p) := rfl
  rw [hd]
  generalize dval q m h (pminus c q m h E p) = d
  generalize pminus c q m h E p = v
  unfold rot V3.cross V3.dot
  ext <;> dsimp only <;> ring

theorem den_pos (d : ℝ) (B : V3 ℝ) : 0 < 1 + d * d * V3.dot B B := by
  have h1 : 0 ≤ d * d := mul_self_nonneg d
  have h2 : 0 ≤ V3.dot B B := by
    unfold V3.dot
    nlinarith [mul_self_nonneg B.x, mul_self_nonneg B.y, mul_self_nonneg B.z]
  nlinarith [mul_nonneg h1 h2]

theorem rot_dot (d : ℝ) (B p : V3 ℝ) : V3.dot (rot d B p) (rot d B p) = V3.dot p p := by
  have h := (den_pos d B).ne'
  unfold rot
  simp only [V3.dot, V3.cross] at h ⊢
  field_simp
  ring

theorem rot_inv (d : ℝ) (B p : V3 ℝ) : rot (-d) B (rot d B p) = p := by
  have h := (den_pos d B).ne'
  have h' : 1 + -d * -d * V3.dot B B ≠ 0 := by
    rw [neg_mul_neg]
    exact h
  unfold rot
  simp only [V3.dot, V3.cross] at h h' ⊢
  ext <;> dsimp only <;> (field_simp; ring)

/-- With no electric field the length of the momentum is kept. -/
theorem kick_dot (c q m h : ℝ) (junk : Nat → ℝ) (B p : V3 ℝ) (hm : m ≠ 0) (hc : c ≠ 0) :
    V3.dot (kick c q m h junk ⟨0, 0, 0⟩ B p) (kick c q m h junk ⟨0, 0, 0⟩ B p) = V3.dot p p := by
  rw [kick_eq]
  dsimp only
  have e : pminus c q m h ⟨0, 0, 0⟩ p = ⟨p.x / (m * c), p.y / (m * c), p.z / (m * c)⟩ := by
    unfold pminus
    ext <;> simp
  have h := rot_dot (dval q m h (pminus c q m h ⟨0, 0, 0⟩ p)) B (pminus c q m h ⟨0, 0, 0⟩ p)
  generalize rot (dval q m _ (pminus c q m _ ⟨0, 0, 0⟩ p)) B (pminus c q m _ ⟨0, 0, 0⟩ p) = w at h
  rw [e] at h
  unfold V3.dot at h ⊢
  dsimp only at h ⊢
  have h2 : (p.x / (m * c) * (p.x / (m * c)) + p.y / (m * c) * (p.y / (m * c)) + p.z / (m * c) * (p.z / (m * c))) * (m * c) ^ 2 =
      p.x * p.x + p.y * p.y + p.z * p.z := by field_simp
  rw [← h] at h2
  linear_combination h2

theorem kick_inv (c q m h : ℝ) (junk junk' : Nat → ℝ) (E B p : V3 ℝ) (hm : m ≠ 0) (hc : c ≠ 0) :
    kick c q m (-h) junk' E B (kick c q m h junk E B p) = p := by
  rw [kick_eq c q m h]
  dsimp only
  set pm := pminus c q m h E p with hpm
  set pp := rot (dval q m h pm) B pm with hpp
  rw [kick_eq]
  dsimp only
  have e1 : pminus c q m (-h) E ⟨(pp.x + q * h / (2 * m * c) * E.x) * m * c, (pp.y + q * h / (2 * m * c) * E.y) * m * c,
      (pp.z + q * h / (2 * m * c) * E.z) * m * c⟩ = pp := by
    unfold pminus
    ext <;> dsimp only <;> (field_simp; ring)
  rw [e1]
  have e2 : dval q m (-h) pp = -dval q m h pm := by
    unfold dval
    rw [hpp, rot_dot]
    ring
  rw [e2, hpp, rot_inv]
  rw [hpm]
  unfold pminus
  ext <;> dsimp only <;> (field_simp; ring)

theorem kick_neutral (c m h : ℝ) (junk : Nat → ℝ) (E B p : V3 ℝ) (hm : m ≠ 0) (hc : c ≠ 0) : kick c 0 m h junk E B p = p := by
  rw [kick_eq]
  unfold dval pminus rot
  ext <;> dsimp only <;> (simp; field_simp)

theorem vec_dot_rot (v : V3 ℝ) (phi : ℝ) : V3.dot (vecRpz2xyz v phi) (vecRpz2xyz v phi) = V3.dot v v := by
  unfold vecRpz2xyz V3.dot
  dsimp only
  linear_combination (v.x * v.x + v.y * v.y) * sc phi

theorem vec_dot_rot' (v : V3 ℝ) (phi : ℝ) : V3.dot (vecXyz2rpz v phi) (vecXyz2rpz v phi) = V3.dot v v := by
  unfold vecXyz2rpz V3.dot
  dsimp only
  linear_combination (v.x * v.x + v.y * v.y) * sc phi

theorem norm_eq_sqrt_dot (v : V3 ℝ) : V3.norm Real.sqrt v = Real.sqrt (V3.dot v v) := rfl

theorem norm_rot (v : V3 ℝ) (phi : ℝ) : V3.norm Real.sqrt (vecRpz2xyz v phi) = V3.norm Real.sqrt v := by
  rw [norm_eq_sqrt_dot, norm_eq_sqrt_dot, vec_dot_rot]

/-- What a successful push has done. -/
theorem push_ok {c h : ℝ} {junk : Nat → ℝ} {mid} {s s1 : Fo} (hp : push c junk mid h s = .ok s1) :
    ∃ B E, mid (xyz2rpz (drift c s.mass h (rpz2xyz ⟨s.r, s.phi, s.z⟩) (vecRpz2xyz s.p s.phi))).x
        (xyz2rpz (drift c s.mass h (rpz2xyz ⟨s.r, s.phi, s.z⟩) (vecRpz2xyz s.p s.phi))).y
        (xyz2rpz (drift c s.mass h (rpz2xyz ⟨s.r, s.phi, s.z⟩) (vecRpz2xyz s.p s.phi))).z (s.time + h / 2) = .ok (B, E) ∧
      ∃ xf pf x0 a, x0 = rpz2xyz ⟨s.r, s.phi, s.z⟩ ∧
        a = (xyz2rpz (drift c s.mass h x0 (vecRpz2xyz s.p s.phi))).y ∧
        pf = kick c s.charge s.mass h junk (vecRpz2xyz E a) (vecRpz2xyz B a) (vecRpz2xyz s.p s.phi) ∧
        xf = drift c s.mass h (drift c s.mass h x0 (vecRpz2xyz s.p s.phi)) pf ∧
        s1 = { s with
          r := Real.sqrt (xf.x * xf.x + xf.y * xf.y)
          phi := s.phi + atan2 (x0.x * xf.y - x0.y * xf.x) (x0.x * xf.x + x0.y * xf.y)
          z := xf.z
          p := vecXyz2rpz pf (s.phi + atan2 (x0.x * xf.y - x0.y * xf.x) (x0.x * xf.x + x0.y * xf.y)) } := by
  unfold push at hp
  dsimp only at hp
  split at hp
  · cases hp
  · rename_i B E hmid
    refine ⟨B, E, hmid, _, _, _, _, rfl, rfl, rfl, rfl, ?_⟩
    injection hp with hp
    rw [← hp]
    rfl

/-- The converse: a push succeeds whenever the fields are available. -/
theorem push_of_mid {c h : ℝ} {junk : Nat → ℝ} {mid} {s : Fo} {B E : V3 ℝ}
    (hm : mid (xyz2rpz (drift c s.mass h (rpz2xyz ⟨s.r, s.phi, s.z⟩) (vecRpz2xyz s.p s.phi))).x
        (xyz2rpz (drift c s.mass h (rpz2xyz ⟨s.r, s.phi, s.z⟩) (vecRpz2xyz s.p s.phi))).y
        (xyz2rpz (drift c s.mass h (rpz2xyz ⟨s.r, s.phi, s.z⟩) (vecRpz2xyz s.p s.phi))).z (s.time + h / 2) = .ok (B, E)) :
    ∃ s1, push c junk mid h s = .ok s1 := by
  unfold push
  dsimp only
  rw [hm]
  exact ⟨_, rfl⟩

theorem push_dot {c h : ℝ} {junk : Nat → ℝ} {mid} {s s1 : Fo} (hc : c ≠ 0) (hm : s.mass ≠ 0)
    (hE : ∀ r p z t B E, mid r p z t = .ok (B, E) → E = ⟨0, 0, 0⟩) (hp : push c junk mid h s = .ok s1) :
    V3.dot s1.p s1.p = V3.dot s.p s.p ∧ s1.mass = s.mass ∧ s1.charge = s.charge ∧ s1.running = s.running := by
  obtain ⟨B, E, hmid, xf, pf, x0, a, hx0, ha, hpf, hxf, rfl⟩ := push_ok hp
  refine ⟨?_, rfl, rfl, rfl⟩
  dsimp only
  rw [vec_dot_rot', hpf, hE _ _ _ _ _ _ hmid]
  have : vecRpz2xyz ⟨0, 0, 0⟩ a = ⟨0, 0, 0⟩ := by unfold vecRpz2xyz; simp
  rw [this, kick_dot _ _ _ _ _ _ _ hm hc, vec_dot_rot]

theorem refresh_fields (f : Fields) (h : ℝ) (s0 s : Fo) :
    (refresh f h s0 s).1.r = s.r ∧ (refresh f h s0 s).1.phi = s.phi ∧ (refresh f h s0 s).1.z = s.z ∧
    (refresh f h s0 s).1.p = s.p ∧ (refresh f h s0 s).1.mass = s.mass ∧ (refresh f h s0 s).1.charge = s.charge ∧
    (refresh f h s0 s).1.running = s.running ∧ (refresh f h s0 s).1.time = s.time := by
  unfold refresh
  split
  · simp
  · split
    · simp
    · split <;> simp

theorem settle_fields (s : Fo) (e : Nat) : (settle s e).r = s.r ∧ (settle s e).phi = s.phi ∧ (settle s e).z = s.z ∧
    (settle s e).p = s.p ∧ (settle s e).mass = s.mass ∧ (settle s e).charge = s.charge ∧ (settle s e).time = s.time := by
  unfold settle
  split <;> simp

theorem radiate_off {c k : ℝ} {ald : ℝ} {s s' : Fo} (h0 : ald = 0 ∨ s.charge = 0) (h : radiate c k ald s = some s') : s' = s := by
  unfold radiate at h
  dsimp only at h
  have e : aldChartime c k s.charge s.mass (V3.norm Real.sqrt s.B) (gammaPnorm c s.mass (V3.norm Real.sqrt s.p)) * ald = 0 := by
    rcases h0 with rfl | h0
    · simp
    · unfold aldChartime
      rw [h0]
      simp
  rw [e] at h
  split at h
  · cases h
  · injection h with h
    rw [← h]
    simp

/-- Cartesian position and momentum of a marker. -/
noncomputable def cart (s : Fo) : V3 ℝ × V3 ℝ := (rpz2xyz ⟨s.r, s.phi, s.z⟩, vecRpz2xyz s.p s.phi)

theorem vec_round (v : V3 ℝ) (phi : ℝ) : vecRpz2xyz (vecXyz2rpz v phi) phi = v := by
  unfold vecRpz2xyz vecXyz2rpz
  have := sc phi
  ext
  · dsimp only
    linear_combination v.x * this
  · dsimp only
    linear_combination v.y * this
  · rfl

theorem push_cart {c h : ℝ} {junk : Nat → ℝ} {mid} {s s1 : Fo} (hr : 0 < s.r) (hp : push c junk mid h s = .ok s1) :
    let x := drift c s.mass h (cart s).1 (cart s).2
    ∃ B E, mid (xyz2rpz x).x (xyz2rpz x).y (xyz2rpz x).z (s.time + h / 2) = .ok (B, E) ∧
      (cart s1).2 = kick c s.charge s.mass h junk (vecRpz2xyz E (xyz2rpz x).y) (vecRpz2xyz B (xyz2rpz x).y) (cart s).2 ∧
      (cart s1).1 = drift c s.mass h x (cart s1).2 ∧ s1.mass = s.mass ∧ s1.charge = s.charge ∧ s1.time = s.time ∧
      s1.running = s.running := by
  obtain ⟨B, E, hmid, xf, pf, x0, a, hx0, ha, hpf, hxf, rfl⟩ := push_ok hp
  have hx0' : x0 = (cart s).1 := hx0
  intro x
  have e2 : (cart { s with
          r := Real.sqrt (xf.x * xf.x + xf.y * xf.y)
          phi := s.phi + atan2 (x0.x * xf.y - x0.y * xf.x) (x0.x * xf.x + x0.y * xf.y)
          z := xf.z
          p := vecXyz2rpz pf (s.phi + atan2 (x0.x * xf.y - x0.y * xf.x) (x0.x * xf.x + x0.y * xf.y)) }).2 = pf := by
    unfold cart
    dsimp only
    exact vec_round _ _
  refine ⟨B, E, hmid, ?_, ?_, rfl, rfl, rfl, rfl⟩
  · rw [e2, hpf, ha, hx0']
    rfl
  · rw [e2]
    have hxf' : xf = drift c s.mass h x pf := by rw [hxf, hx0']; rfl
    rw [← hxf']
    have hcum := cumulative s.r s.phi xf.x xf.y hr
    dsimp only at hcum
    unfold cart
    dsimp only
    unfold rpz2xyz
    ext
    · dsimp only
      rw [hx0]
      exact hcum.1
    · dsimp only
      rw [hx0]
      exact hcum.2
    · rfl

theorem drift_back (c m h : ℝ) (x p : V3 ℝ) : drift c m (-h) (drift c m h x p) p = x := by
  unfold drift
  ext <;> dsimp only <;> ring

end Ascot.Vpa
