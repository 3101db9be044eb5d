import Mathlib.Analysis.Calculus.Deriv.Inv
import Verif.Props.C63_Bfield
import Verif.Spec.Partial
import Verif.Props.C44_C45_Coord

/-!
# C85: the Cartesian test field; C86: the spline fields
-/
set_option linter.unusedSectionVars false
set_option linter.unusedSimpArgs false

namespace Ascot.C85
open Ascot.Bfield Ascot.Coord Ascot.Spec

/-- A field that is linear in the Cartesian coordinates: component `i` at `(x, y, z)` is `B_i + sum_j dB_ij x_j`. -/
def linearField (d : TC) (x y z : ℝ) : V3 ℝ :=
  ⟨d.B.x + (d.dx.x * x + d.dx.y * y + d.dx.z * z),
   d.B.y + (d.dy.x * x + d.dy.y * y + d.dy.z * z),
   d.B.z + (d.dz.x * x + d.dz.y * y + d.dz.z * z)⟩

theorem cart_eq (d : TC) (r phi z : ℝ) : d.cart r phi z = linearField d (r * Real.cos phi) (r * Real.sin phi) z := by
  unfold TC.cart linearField rpz2xyz
  ext <;> dsimp only <;> ring

/-- The field is the linear field, in cylindrical components: its projections on the radial, toroidal and vertical unit vectors. -/
theorem field (d : TC) (r phi z : ℝ) :
    let b := linearField d (r * Real.cos phi) (r * Real.sin phi) z
    d.evalB r phi z = ⟨b.x * Real.cos phi + b.y * Real.sin phi, b.y * Real.cos phi - b.x * Real.sin phi, b.z⟩ := by
  intro b
  unfold TC.evalB vecXyz2rpz
  rw [cart_eq]
  ext
  · rfl
  · show -b.x * _ + b.y * _ = b.y * _ - b.x * _
    ring
  · rfl

theorem grad_linear (a p q s : ℝ) (v : ℝ × ℝ × ℝ) :
    C45.HasGrad (fun v : ℝ × ℝ × ℝ => a + (p * v.1 + q * v.2.1 + s * v.2.2)) ⟨a + (p * v.1 + q * v.2.1 + s * v.2.2), p, q, s⟩ v := by
  refine ⟨rfl, ?_⟩
  have h1 : HasFDerivAt (fun v : ℝ × ℝ × ℝ => v.1) (ContinuousLinearMap.fst ℝ ℝ (ℝ × ℝ)) v := hasFDerivAt_fst
  have h2 : HasFDerivAt (fun v : ℝ × ℝ × ℝ => v.2.1) ((ContinuousLinearMap.fst ℝ ℝ ℝ).comp (ContinuousLinearMap.snd ℝ ℝ (ℝ × ℝ))) v :=
    hasFDerivAt_fst.comp v hasFDerivAt_snd
  have h3 : HasFDerivAt (fun v : ℝ × ℝ × ℝ => v.2.2) ((ContinuousLinearMap.snd ℝ ℝ ℝ).comp (ContinuousLinearMap.snd ℝ ℝ (ℝ × ℝ))) v :=
    hasFDerivAt_snd.comp v hasFDerivAt_snd
  have h := (((h1.const_mul p).add (h2.const_mul q)).add (h3.const_mul s)).const_add a
  refine h.congr_fderiv ?_
  dsimp only
  rw [add_assoc]

/-- What the gradient should be: the conversion of the field at the position, not of the field at the origin. -/
noncomputable def intended (d : TC) (r phi z : ℝ) : Jac :=
  let b := linearField d (r * Real.cos phi) (r * Real.sin phi) z
  jacXyz2rpz ⟨⟨b.x, d.dx.x, d.dx.y, d.dx.z⟩, ⟨b.y, d.dy.x, d.dy.y, d.dy.z⟩, ⟨b.z, d.dz.x, d.dz.y, d.dz.z⟩⟩ r phi

theorem intended_ok (d : TC) (r phi z : ℝ) : IsJacobian (fun r phi z => some (d.evalB r phi z)) (intended d r phi z) r phi z := by
  have h := C45.to_cylindrical (fun v => d.B.x + (d.dx.x * v.1 + d.dx.y * v.2.1 + d.dx.z * v.2.2))
    (fun v => d.B.y + (d.dy.x * v.1 + d.dy.y * v.2.1 + d.dy.z * v.2.2))
    (fun v => d.B.z + (d.dz.x * v.1 + d.dz.y * v.2.1 + d.dz.z * v.2.2))
    (let b := linearField d (r * Real.cos phi) (r * Real.sin phi) z;
      ⟨⟨b.x, d.dx.x, d.dx.y, d.dx.z⟩, ⟨b.y, d.dy.x, d.dy.y, d.dy.z⟩, ⟨b.z, d.dz.x, d.dz.y, d.dz.z⟩⟩) r phi z
    (grad_linear _ _ _ _ _) (grad_linear _ _ _ _ _) (grad_linear _ _ _ _ _)
  obtain ⟨⟨a0, a1, a2, a3⟩, ⟨b0, b1, b2, b3⟩, ⟨c0, c1, c2, c3⟩⟩ := h
  have lift : ∀ (f : ℝ → V3 ℝ) (pr : V3 ℝ → ℝ) (g : ℝ → ℝ) (x c : ℝ), (∀ y, g y = pr (f y)) → HasDerivAt g c x →
      HasPartial (fun y => (some (f y)).map pr) c x := by
    intro f pr g x c hg hd
    refine ⟨g, Filter.Eventually.of_forall fun y => ?_, hd⟩
    rw [hg]
    rfl
  have ex : ∀ r phi z, (d.evalB r phi z).x = (linearField d (r * Real.cos phi) (r * Real.sin phi) z).x * Real.cos phi
      + (linearField d (r * Real.cos phi) (r * Real.sin phi) z).y * Real.sin phi := fun r phi z => by rw [field]
  have ey : ∀ r phi z, (d.evalB r phi z).y = -(linearField d (r * Real.cos phi) (r * Real.sin phi) z).x * Real.sin phi
      + (linearField d (r * Real.cos phi) (r * Real.sin phi) z).y * Real.cos phi := fun r phi z => by rw [field]; dsimp only; ring
  have ez : ∀ r phi z, (d.evalB r phi z).z = (linearField d (r * Real.cos phi) (r * Real.sin phi) z).z := fun r phi z => by rw [field]
  refine ⟨?_, ⟨lift _ _ _ r _ (fun y => (ex y phi z).symm) a1, lift _ _ _ phi _ (fun y => (ex r y z).symm) a2, lift _ _ _ z _ (fun y => (ex r phi y).symm) a3⟩,
    ⟨lift _ _ _ r _ (fun y => (ey y phi z).symm) b1, lift _ _ _ phi _ (fun y => (ey r y z).symm) b2, lift _ _ _ z _ (fun y => (ey r phi y).symm) b3⟩,
    ⟨lift _ _ _ r _ (fun y => (ez y phi z).symm) c1, lift _ _ _ phi _ (fun y => (ez r y z).symm) c2, lift _ _ _ z _ (fun y => (ez r phi y).symm) c3⟩⟩
  simp only [Option.some.injEq]
  ext
  · rw [ex]; exact a0
  · rw [ey]; exact b0
  · rw [ez]; exact c0

/-- The derivatives along R and z are right everywhere, and so is the derivative of the vertical component along phi; the
vertical component itself is that of the origin. -/
theorem gradient_partial (d : TC) (r phi z : ℝ) :
    let F := fun r phi z => some (d.evalB r phi z)
    let j := d.evalBdB r phi z
    (HasPartial (fun y => (F y phi z).map V3.x) j.a.d1 r ∧ HasPartial (fun y => (F r phi y).map V3.x) j.a.d3 z)
      ∧ (HasPartial (fun y => (F y phi z).map V3.y) j.b.d1 r ∧ HasPartial (fun y => (F r phi y).map V3.y) j.b.d3 z)
      ∧ (HasPartial (fun y => (F y phi z).map V3.z) j.c.d1 r ∧ HasPartial (fun y => (F r y z).map V3.z) j.c.d2 phi
        ∧ HasPartial (fun y => (F r phi y).map V3.z) j.c.d3 z) := by
  intro F j
  obtain ⟨-, ⟨a1, -, a3⟩, ⟨b1, -, b3⟩, ⟨c1, c2, c3⟩⟩ := intended_ok d r phi z
  exact ⟨⟨a1, a3⟩, ⟨b1, b3⟩, ⟨c1, c2, c3⟩⟩

theorem rotate_inj {a b c e phi : ℝ} (h1 : a * Real.cos phi + b * Real.sin phi = c * Real.cos phi + e * Real.sin phi)
    (h2 : b * Real.cos phi - a * Real.sin phi = e * Real.cos phi - c * Real.sin phi) : a = c ∧ b = e := by
  have h := Real.sin_sq_add_cos_sq phi
  constructor
  · linear_combination Real.cos phi * h1 - Real.sin phi * h2 - (a - c) * h
  · linear_combination Real.sin phi * h1 + Real.cos phi * h2 - (b - e) * h

/-- The field that comes with the gradient is right exactly at the positions where the field is that of the origin, and then
the whole gradient is right. -/
theorem gradient_iff (d : TC) (r phi z : ℝ) :
    IsJacobian (fun r phi z => some (d.evalB r phi z)) (d.evalBdB r phi z) r phi z
      ↔ linearField d (r * Real.cos phi) (r * Real.sin phi) z = d.B := by
  constructor
  · intro h
    have h0 := Option.some.inj h.1
    rw [field] at h0
    have h1 : (linearField d (r * Real.cos phi) (r * Real.sin phi) z).x * Real.cos phi + (linearField d (r * Real.cos phi) (r * Real.sin phi) z).y * Real.sin phi
        = d.B.x * Real.cos phi + d.B.y * Real.sin phi := congrArg V3.x h0
    have h2 : (linearField d (r * Real.cos phi) (r * Real.sin phi) z).y * Real.cos phi - (linearField d (r * Real.cos phi) (r * Real.sin phi) z).x * Real.sin phi
        = -d.B.x * Real.sin phi + d.B.y * Real.cos phi := congrArg V3.y h0
    have h3 : (linearField d (r * Real.cos phi) (r * Real.sin phi) z).z = d.B.z := by
      have := congrArg V3.z h0
      exact this
    have h4 := rotate_inj h1 (by rw [h2]; ring)
    exact V3.ext h4.1 h4.2 h3
  · intro h
    have e : d.evalBdB r phi z = intended d r phi z := by
      unfold intended TC.evalBdB
      rw [h]
    rw [e]
    exact intended_ok d r phi z

/-- A uniform field is right. -/
theorem gradient_uniform (d : TC) (r phi z : ℝ) (hx : d.dx = ⟨0, 0, 0⟩) (hy : d.dy = ⟨0, 0, 0⟩) (hz : d.dz = ⟨0, 0, 0⟩) :
    IsJacobian (fun r phi z => some (d.evalB r phi z)) (d.evalBdB r phi z) r phi z := by
  rw [gradient_iff]
  unfold linearField
  rw [hx, hy, hz]
  ext <;> simp

/-- Finding: with a gradient, the field and the field that comes with the gradient differ. -/
theorem gradient_wrong : ∃ (d : TC) (r phi z : ℝ), d.evalB r phi z ≠ ⟨(d.evalBdB r phi z).a.v, (d.evalBdB r phi z).b.v, (d.evalBdB r phi z).c.v⟩ := by
  refine ⟨⟨1, 0, 0, 0, ⟨0, 0, 1⟩, ⟨0, 0, 0⟩, ⟨0, 0, 0⟩, ⟨1, 0, 0⟩⟩, 1, 0, 0, fun h => ?_⟩
  have := congrArg V3.z h
  rw [field] at this
  simp [linearField, TC.evalBdB, jacXyz2rpz] at this

end Ascot.C85

namespace Ascot.C86
open Ascot.Bfield Ascot.Coord Ascot.Spec Filter Topology

def ok {α : Type} : Except Fault α → Option α
  | .ok v => some v
  | .error _ => none

/-- A two-dimensional spline is differentiable at a point: around it the evaluations succeed and what is returned as
derivatives are derivatives (for the second derivatives, of the returned first derivatives). -/
structure Smooth2 (s : Spline2) (r z : ℝ) (p : D2) : Prop where
  at_ : s.df r z = some p
  value : ∀ r z, s.f r z = (s.df r z).map D2.v
  dr : HasPartial (fun y => s.f y z) p.r r
  dz : HasPartial (fun y => s.f r y) p.z z
  drr : HasPartial (fun y => (s.df y z).map D2.r) p.rr r
  drz : HasPartial (fun y => (s.df y z).map D2.z) p.rz r
  dzr : HasPartial (fun y => (s.df r y).map D2.r) p.rz z
  dzz : HasPartial (fun y => (s.df r y).map D2.z) p.zz z

/-- The same for a three-dimensional spline. -/
structure Smooth3 (s : Spline3) (r phi z : ℝ) (p : Grad) : Prop where
  at_ : s.df r phi z = some p
  value : ∀ r phi z, s.f r phi z = (s.df r phi z).map Grad.v
  d1 : HasPartial (fun y => s.f y phi z) p.d1 r
  d2 : HasPartial (fun y => s.f r y z) p.d2 phi
  d3 : HasPartial (fun y => s.f r phi y) p.d3 z

/-- The field of the axisymmetric and the 3D spline field from its parts. -/
noncomputable def combine (br bphi bz : Option ℝ) (p : Option D2) (r : ℝ) : Option (V3 ℝ) :=
  match br, bphi, bz, p with
  | some br, some bphi, some bz, some p =>
    if r = 0 then none
    else if (br - p.z / r) * (br - p.z / r) + bphi * bphi + (bz + p.r / r) * (bz + p.r / r) = 0 then none
    else some ⟨br - p.z / r, bphi, bz + p.r / r⟩
  | _, _, _, _ => none

theorem b2_combine (d : B2) (r z : ℝ) : ok (d.evalB r z) = combine (d.Br.f r z) (d.Bphi.f r z) (d.Bz.f r z) (d.psi.df r z) r := by
  unfold B2.evalB combine
  cases d.Br.f r z <;> cases d.Bphi.f r z <;> cases d.Bz.f r z <;> cases d.psi.df r z <;> try rfl
  dsimp only
  split
  · rfl
  · split <;> rfl

theorem b3_combine (d : B3) (r phi z : ℝ) :
    ok (d.evalB r phi z) = combine (d.Br.f r phi z) (d.Bphi.f r phi z) (d.Bz.f r phi z) (d.psi.df r z) r := by
  unfold B3.evalB combine
  cases d.Br.f r phi z <;> cases d.Bphi.f r phi z <;> cases d.Bz.f r phi z <;> cases d.psi.df r z <;> try rfl
  dsimp only
  split
  · rfl
  · split <;> rfl

/-- Derivative of the combined field along a coordinate line. -/
theorem combine_deriv {br bphi bz : ℝ → Option ℝ} {p : ℝ → Option D2} {r : ℝ → ℝ} {t br' bphi' bz' pr' pz' r' : ℝ} {B : V3 ℝ} {p0 : D2}
    (hbr : HasPartial br br' t) (hbphi : HasPartial bphi bphi' t) (hbz : HasPartial bz bz' t)
    (hpr : HasPartial (fun y => (p y).map D2.r) pr' t) (hpz : HasPartial (fun y => (p y).map D2.z) pz' t) (hr : HasDerivAt r r' t)
    (hp : p t = some p0) (hB : combine (br t) (bphi t) (bz t) (p t) (r t) = some B) :
    HasPartial (fun y => (combine (br y) (bphi y) (bz y) (p y) (r y)).map V3.x) (br' - (pz' * r t - p0.z * r') / (r t) ^ 2) t
      ∧ HasPartial (fun y => (combine (br y) (bphi y) (bz y) (p y) (r y)).map V3.y) bphi' t
      ∧ HasPartial (fun y => (combine (br y) (bphi y) (bz y) (p y) (r y)).map V3.z) (bz' + (pr' * r t - p0.r * r') / (r t) ^ 2) t := by
  obtain ⟨f1, e1, h1⟩ := hbr
  obtain ⟨f2, e2, h2⟩ := hbphi
  obtain ⟨f3, e3, h3⟩ := hbz
  obtain ⟨f4, e4, h4⟩ := hpr
  obtain ⟨f5, e5, h5⟩ := hpz
  have q4 : f4 t = p0.r := by
    have : (p t).map D2.r = some (f4 t) := e4.self_of_nhds
    rw [hp] at this
    exact (Option.some.inj this).symm
  have q5 : f5 t = p0.z := by
    have : (p t).map D2.z = some (f5 t) := e5.self_of_nhds
    rw [hp] at this
    exact (Option.some.inj this).symm
  have hr0 : r t ≠ 0 := by
    intro h0
    unfold combine at hB
    split at hB
    · rw [if_pos h0] at hB
      cases hB
    · cases hB
  have hx := h1.sub (h5.div hr hr0)
  have hz := h3.add (h4.div hr hr0)
  have hn := ((hx.mul hx).add (h2.mul h2)).add (hz.mul hz)
  have hn0 : (f1 t - f5 t / r t) * (f1 t - f5 t / r t) + f2 t * f2 t + (f3 t + f4 t / r t) * (f3 t + f4 t / r t) ≠ 0 := by
    intro h0
    rw [e1.self_of_nhds, e2.self_of_nhds, e3.self_of_nhds, hp] at hB
    unfold combine at hB
    dsimp only at hB
    rw [if_neg hr0, ← q4, ← q5, if_pos h0] at hB
    cases hB
  have ev : ∀ᶠ y in 𝓝 t, combine (br y) (bphi y) (bz y) (p y) (r y) = some ⟨f1 y - f5 y / r y, f2 y, f3 y + f4 y / r y⟩ := by
    filter_upwards [e1, e2, e3, e4, e5, hr.continuousAt.eventually (isOpen_ne.mem_nhds hr0),
      hn.continuousAt.eventually (isOpen_ne.mem_nhds hn0)] with y g1 g2 g3 g4 g5 g6 g7
    obtain ⟨q, hq, hq4⟩ := Option.map_eq_some_iff.mp g4
    rw [hq] at g5
    have hq5 : q.z = f5 y := Option.some.inj g5
    rw [g1, g2, g3, hq]
    unfold combine
    dsimp only
    rw [if_neg g6, hq4, hq5]
    exact if_neg g7
  refine ⟨⟨_, ?_, hx.congr_deriv (by rw [q5])⟩, ⟨_, ?_, h2⟩, ⟨_, ?_, hz.congr_deriv (by rw [q4])⟩⟩ <;>
    · filter_upwards [ev] with y hy
      rw [hy]
      rfl

/-- Axisymmetric spline field: what is returned as the field and its gradient is the field and its gradient. -/
theorem b2_jacobian (d : B2) (r phi z : ℝ) (j : Jac) (p br bphi bz : D2) (hp : Smooth2 d.psi r z p) (h1 : Smooth2 d.Br r z br)
    (h2 : Smooth2 d.Bphi r z bphi) (h3 : Smooth2 d.Bz r z bz) (h : d.evalBdB r z = .ok j) :
    IsJacobian (fun r _ z => ok (d.evalB r z)) j r phi z := by
  unfold B2.evalBdB at h
  rw [h1.at_, h2.at_, h3.at_, hp.at_] at h
  dsimp only at h
  split at h
  · cases h
  · rename_i hr
    split at h
    · cases h
    · rename_i hn
      simp only [Except.ok.injEq] at h
      have hB : combine (d.Br.f r z) (d.Bphi.f r z) (d.Bz.f r z) (d.psi.df r z) r = some ⟨br.v - p.z / r, bphi.v, bz.v + p.r / r⟩ := by
        rw [h1.value, h2.value, h3.value, h1.at_, h2.at_, h3.at_, hp.at_]
        unfold combine
        dsimp only [Option.map_some]
        rw [if_neg hr, if_neg hn]
      have a := combine_deriv (r := fun y => y) (p := fun y => d.psi.df y z) (t := r) h1.dr h2.dr h3.dr hp.drr hp.drz (hasDerivAt_id r) hp.at_ hB
      have c := combine_deriv (r := fun _ => r) (p := fun y => d.psi.df r y) (t := z) h1.dz h2.dz h3.dz hp.dzr hp.dzz (hasDerivAt_const z r) hp.at_ hB
      subst h
      simp only [b2_combine, IsJacobian]
      refine ⟨hB, ⟨?_, ⟨fun _ => br.v - p.z / r, ?_, hasDerivAt_const _ _⟩, ?_⟩, ⟨a.2.1, ⟨fun _ => bphi.v, ?_, hasDerivAt_const _ _⟩, c.2.1⟩,
        ⟨?_, ⟨fun _ => bz.v + p.r / r, ?_, hasDerivAt_const _ _⟩, ?_⟩⟩
      · convert a.1 using 1
        field_simp
        ring
      · rw [hB]; exact Eventually.of_forall fun _ => rfl
      · convert c.1 using 1
        field_simp
        ring
      · rw [hB]; exact Eventually.of_forall fun _ => rfl
      · convert a.2.2 using 1
        field_simp
        ring
      · rw [hB]; exact Eventually.of_forall fun _ => rfl
      · convert c.2.2 using 1
        field_simp
        ring

/-- 3D spline field: the same. -/
theorem b3_jacobian (d : B3) (r phi z : ℝ) (j : Jac) (p : D2) (br bphi bz : Grad) (hp : Smooth2 d.psi r z p) (h1 : Smooth3 d.Br r phi z br)
    (h2 : Smooth3 d.Bphi r phi z bphi) (h3 : Smooth3 d.Bz r phi z bz) (h : d.evalBdB r phi z = .ok j) :
    IsJacobian (fun r phi z => ok (d.evalB r phi z)) j r phi z := by
  unfold B3.evalBdB at h
  rw [h1.at_, h2.at_, h3.at_, hp.at_] at h
  dsimp only at h
  split at h
  · cases h
  · rename_i hr
    split at h
    · cases h
    · rename_i hn
      simp only [Except.ok.injEq] at h
      have hB : combine (d.Br.f r phi z) (d.Bphi.f r phi z) (d.Bz.f r phi z) (d.psi.df r z) r = some ⟨br.v - p.z / r, bphi.v, bz.v + p.r / r⟩ := by
        rw [h1.value, h2.value, h3.value, h1.at_, h2.at_, h3.at_, hp.at_]
        unfold combine
        dsimp only [Option.map_some]
        rw [if_neg hr, if_neg hn]
      have kr : HasPartial (fun _ : ℝ => (d.psi.df r z).map D2.r) 0 phi := ⟨fun _ => p.r, by rw [hp.at_]; exact Eventually.of_forall fun _ => rfl, hasDerivAt_const _ _⟩
      have kz : HasPartial (fun _ : ℝ => (d.psi.df r z).map D2.z) 0 phi := ⟨fun _ => p.z, by rw [hp.at_]; exact Eventually.of_forall fun _ => rfl, hasDerivAt_const _ _⟩
      have a := combine_deriv (r := fun y => y) (p := fun y => d.psi.df y z) (t := r) h1.d1 h2.d1 h3.d1 hp.drr hp.drz (hasDerivAt_id r) hp.at_ hB
      have b := combine_deriv (r := fun _ => r) (p := fun _ => d.psi.df r z) (t := phi) h1.d2 h2.d2 h3.d2 kr kz (hasDerivAt_const phi r) hp.at_ hB
      have c := combine_deriv (r := fun _ => r) (p := fun y => d.psi.df r y) (t := z) h1.d3 h2.d3 h3.d3 hp.dzr hp.dzz (hasDerivAt_const z r) hp.at_ hB
      subst h
      simp only [b3_combine, IsJacobian]
      refine ⟨hB, ⟨?_, ?_, ?_⟩, ⟨a.2.1, b.2.1, c.2.1⟩, ⟨?_, ?_, ?_⟩⟩
      · convert a.1 using 1
        field_simp
        ring
      · convert b.1 using 1
        field_simp
        ring
      · convert c.1 using 1
        field_simp
        ring
      · convert a.2.2 using 1
        field_simp
        ring
      · convert b.2.2 using 1
        field_simp
        ring
      · convert c.2.2 using 1
        field_simp
        ring

theorem sts_deriv {br bphi bz : ℝ → Option ℝ} {t br' bphi' bz' : ℝ} {F : ℝ → Option (V3 ℝ)} (hbr : HasPartial br br' t)
    (hbphi : HasPartial bphi bphi' t) (hbz : HasPartial bz bz' t)
    (hF : ∀ y u v w, br y = some u → bphi y = some v → bz y = some w → u * u + v * v + w * w ≠ 0 → F y = some ⟨u, v, w⟩)
    (h0 : ∀ u v w, br t = some u → bphi t = some v → bz t = some w → u * u + v * v + w * w ≠ 0) :
    HasPartial (fun y => (F y).map V3.x) br' t ∧ HasPartial (fun y => (F y).map V3.y) bphi' t ∧ HasPartial (fun y => (F y).map V3.z) bz' t := by
  obtain ⟨f1, e1, h1⟩ := hbr
  obtain ⟨f2, e2, h2⟩ := hbphi
  obtain ⟨f3, e3, h3⟩ := hbz
  have hn := ((h1.mul h1).add (h2.mul h2)).add (h3.mul h3)
  have hn0 := h0 _ _ _ e1.self_of_nhds e2.self_of_nhds e3.self_of_nhds
  have ev : ∀ᶠ y in 𝓝 t, F y = some ⟨f1 y, f2 y, f3 y⟩ := by
    filter_upwards [e1, e2, e3, hn.continuousAt.eventually (isOpen_ne.mem_nhds hn0)] with y g1 g2 g3 g4
    exact hF y _ _ _ g1 g2 g3 g4
  refine ⟨⟨_, ?_, h1⟩, ⟨_, ?_, h2⟩, ⟨_, ?_, h3⟩⟩ <;>
    · filter_upwards [ev] with y hy
      rw [hy]
      rfl

/-- Stellarator field: the same. -/
theorem sts_jacobian (d : STS) (r phi z : ℝ) (j : Jac) (br bphi bz : Grad) (h1 : Smooth3 d.Br r phi z br)
    (h2 : Smooth3 d.Bphi r phi z bphi) (h3 : Smooth3 d.Bz r phi z bz) (h : d.evalBdB r phi z = .ok j) :
    IsJacobian (fun r phi z => ok (d.evalB r phi z)) j r phi z := by
  unfold STS.evalBdB at h
  rw [h1.at_, h2.at_, h3.at_] at h
  dsimp only at h
  split at h
  · cases h
  · rename_i hn
    simp only [Except.ok.injEq] at h
    subst h
    have hF : ∀ r phi z u v w, d.Br.f r phi z = some u → d.Bphi.f r phi z = some v → d.Bz.f r phi z = some w →
        u * u + v * v + w * w ≠ 0 → ok (d.evalB r phi z) = some ⟨u, v, w⟩ := by
      intro r phi z u v w g1 g2 g3 g4
      unfold STS.evalB
      rw [g1, g2, g3]
      dsimp only
      rw [if_neg g4]
      rfl
    have e1 : d.Br.f r phi z = some br.v := by rw [h1.value, h1.at_]; rfl
    have e2 : d.Bphi.f r phi z = some bphi.v := by rw [h2.value, h2.at_]; rfl
    have e3 : d.Bz.f r phi z = some bz.v := by rw [h3.value, h3.at_]; rfl
    have h0 : ∀ u v w, d.Br.f r phi z = some u → d.Bphi.f r phi z = some v → d.Bz.f r phi z = some w → u * u + v * v + w * w ≠ 0 := by
      intro u v w g1 g2 g3
      rw [e1] at g1; rw [e2] at g2; rw [e3] at g3
      cases g1; cases g2; cases g3
      exact hn
    have a := sts_deriv h1.d1 h2.d1 h3.d1 (F := fun y => ok (d.evalB y phi z)) (fun y u v w => hF y phi z u v w) h0
    have b := sts_deriv h1.d2 h2.d2 h3.d2 (F := fun y => ok (d.evalB r y z)) (fun y u v w => hF r y z u v w) h0
    have c := sts_deriv h1.d3 h2.d3 h3.d3 (F := fun y => ok (d.evalB r phi y)) (fun y u v w => hF r phi y u v w) h0
    exact ⟨hF r phi z _ _ _ e1 e2 e3 hn, ⟨a.1, b.1, c.1⟩, ⟨a.2.1, b.2.1, c.2.1⟩, ⟨a.2.2, b.2.2, c.2.2⟩⟩

/-- The flux contributes no divergence: that of the field is that of the splined components. -/
theorem b2_divergence (d : B2) (r z : ℝ) (j : Jac) (br bphi bz : D2) (h1 : d.Br.df r z = some br)
    (h2 : d.Bphi.df r z = some bphi) (h3 : d.Bz.df r z = some bz) (h : d.evalBdB r z = .ok j) :
    divergence j r = br.v / r + br.r + bz.z := by
  unfold B2.evalBdB at h
  rw [h1, h2, h3] at h
  dsimp only at h
  repeat' split at h
  all_goals first | (cases h; done) | skip
  rename_i hr hn
  simp only [Except.ok.injEq] at h
  subst h
  unfold divergence
  field_simp
  ring

theorem b3_divergence (d : B3) (r phi z : ℝ) (j : Jac) (br bphi bz : Grad) (h1 : d.Br.df r phi z = some br)
    (h2 : d.Bphi.df r phi z = some bphi) (h3 : d.Bz.df r phi z = some bz) (h : d.evalBdB r phi z = .ok j) :
    divergence j r = br.v / r + br.d1 + bphi.d2 / r + bz.d3 := by
  unfold B3.evalBdB at h
  rw [h1, h2, h3] at h
  dsimp only at h
  repeat' split at h
  all_goals first | (cases h; done) | skip
  rename_i hr hn
  simp only [Except.ok.injEq] at h
  subst h
  unfold divergence
  field_simp
  ring

/-- If only the toroidal component is splined, the field lies in the flux surfaces. -/
theorem b2_tangent (d : B2) (r z : ℝ) (B : V3 ℝ) (p : D2) (hp : d.psi.df r z = some p) (h1 : d.Br.f r z = some 0)
    (h3 : d.Bz.f r z = some 0) (h : d.evalB r z = .ok B) : B.x * p.r + B.z * p.z = 0 := by
  unfold B2.evalB at h
  rw [h1, h3, hp] at h
  dsimp only at h
  repeat' split at h
  all_goals first | (cases h; done) | skip
  simp only [Except.ok.injEq] at h
  subst h
  rename_i e1 _ e3 _ _
  rw [← Option.some.inj e1, ← Option.some.inj e3]
  dsimp only
  ring

/-- A successful evaluation of a spline field never gives the zero vector. -/
theorem nonzero (b : Data) (r phi z : ℝ) (B : V3 ℝ) (h : evalB b r phi z = some (B, 0))
    (hb : (∃ d, b = .b2 d) ∨ (∃ d, b = .b3 d) ∨ ∃ d, b = .sts d) : B ≠ ⟨0, 0, 0⟩ := by
  rcases C63.B_result b r phi z B 0 h with ⟨h0, -⟩ | ⟨-, h2⟩
  · exact absurd rfl h0
  · rintro rfl
    rcases hb with ⟨d, rfl⟩ | ⟨d, rfl⟩ | ⟨d, rfl⟩
    · have e : ok (d.evalB r z) = some ⟨0, 0, 0⟩ := by rw [h2]; rfl
      rw [b2_combine] at e
      unfold combine at e
      split at e
      · split at e
        · cases e
        · split at e
          · cases e
          · rename_i hn
            simp only [Option.some.injEq, V3.mk.injEq] at e
            rw [e.1, e.2.1, e.2.2] at hn
            simp at hn
      · cases e
    · have e : ok (d.evalB r phi z) = some ⟨0, 0, 0⟩ := by rw [h2]; rfl
      rw [b3_combine] at e
      unfold combine at e
      split at e
      · split at e
        · cases e
        · split at e
          · cases e
          · rename_i hn
            simp only [Option.some.injEq, V3.mk.injEq] at e
            rw [e.1, e.2.1, e.2.2] at hn
            simp at hn
      · cases e
    · have h2 : d.evalB r phi z = .ok ⟨0, 0, 0⟩ := h2
      unfold STS.evalB at h2
      split at h2
      · split at h2
        · cases h2
        · rename_i hn
          simp only [Except.ok.injEq, V3.mk.injEq] at h2
          rw [h2.1, h2.2.1, h2.2.2] at hn
          simp at hn
      · cases h2

/-- Finding: the test field may be zero without an error. -/
theorem zero_field : ∃ b r phi z, evalB b r phi z = some (⟨0, 0, 0⟩, 0) := by
  refine ⟨.tc ⟨1, 0, 1, 1, ⟨0, 0, 0⟩, ⟨0, 0, 0⟩, ⟨0, 0, 0⟩, ⟨0, 0, 0⟩⟩, 1, 0, 0, ?_⟩
  simp [evalB, withFallback, modelB, TC.evalB, TC.cart, vecXyz2rpz]

/-- The value splines of the flux agree with the values of the derivative evaluation. -/
def FluxConsistent : Data → Prop
  | .b2 d => ∀ r z, d.psi.f r z = (d.psi.df r z).map D2.v
  | .b3 d => ∀ r z, d.psi.f r z = (d.psi.df r z).map D2.v
  | .sts d => ∀ r phi z, d.psi.f r phi z = (d.psi.df r phi z).map Grad.v
  | .tc d => 0 < d.rhoval
  | _ => True

/-- The three ways to the normalised radius agree: from the position with gradient, or from the flux at the position; and the
gradients are related by the chain rule. -/
theorem rho_consistent (b : Data) (r phi z : ℝ) (g : Grad) (hc : FluxConsistent b) (h : evalRhoDrho b r phi z = some (g, 0)) :
    ∃ psi dpsi drho, evalPsi b r phi z = some (psi, 0) ∧ evalPsiDpsi b r phi z = some (dpsi, 0) ∧ dpsi.v = psi
      ∧ evalRho b psi = (some g.v, some drho, 0) ∧ g.d1 = drho * dpsi.d1 ∧ g.d2 = drho * dpsi.d2 ∧ g.d3 = drho * dpsi.d3 := by
  have rho_of : ∀ psi psi0 psi1, C63.fluxRange b = some (psi0, psi1) → psi1 - psi0 ≠ 0 → 0 < (psi - psi0) / (psi1 - psi0) →
      evalRho b psi = (some (Real.sqrt ((psi - psi0) / (psi1 - psi0))), some (1 / (2 * (psi1 - psi0) * Real.sqrt ((psi - psi0) / (psi1 - psi0)))), 0) := by
    intro psi psi0 psi1 hb hd hy
    unfold evalRho
    rw [C63.limits_eq hb]
    dsimp only
    rw [if_neg hd, if_neg (not_lt.mpr hy.le), if_neg (by simp), if_neg (Real.sqrt_pos.mpr hy).ne']
  rcases C63.rho_drho_result b r phi z g 0 h with ⟨h0, -⟩ | ⟨-, h2⟩
  · exact absurd rfl h0
  · cases b with
    | gs d =>
      have h2 : BGS.evalRhoDrho d r z = some (.ok g) := h2
      unfold BGS.evalRhoDrho at h2
      split at h2
      · cases h2
      · rename_i p hp
        have hv : BGS.evalPsi d r z = some p.v := by
          unfold BGS.evalPsiDpsi at hp
          unfold BGS.evalPsi
          split at hp
          · rename_i hv
            rw [if_pos hv]
            simp only [Option.some.injEq] at hp
            rw [← hp]
          · cases hp
        dsimp only at h2
        split at h2
        · cases h2
        · rename_i hd
          split at h2
          · cases h2
          · rename_i hneg
            split at h2
            · cases h2
            · rename_i hrho
              simp only [Option.some.injEq, Except.ok.injEq] at h2
              have hpos : 0 < (p.v - d.psi0) / (d.psi1 - d.psi0) := Real.sqrt_ne_zero'.mp hrho
              have hz : p.d2 = 0 := by
                unfold BGS.evalPsiDpsi at hp
                split at hp
                · simp only [Option.some.injEq] at hp
                  rw [← hp]
                · cases hp
              refine ⟨p.v, p, (1 / (2 * (d.psi1 - d.psi0) * Real.sqrt ((p.v - d.psi0) / (d.psi1 - d.psi0)))), ?_, ?_, rfl, ?_, ?_⟩
              · simp [evalPsi, modelPsi, hv, ofOption, withFallback]
              · simp [evalPsiDpsi, modelPsiDpsi, hp, ofOption, withFallback]
              · rw [rho_of p.v d.psi0 d.psi1 rfl hd hpos, ← h2]
              · rw [← h2, hz]
                refine ⟨?_, ?_, ?_⟩ <;> dsimp only <;> ring
    | b2 d =>
      have h2 : d.evalRhoDrho r z = .ok g := h2
      unfold B2.evalRhoDrho at h2
      split at h2
      · cases h2
      · rename_i p hp
        have hv : d.psi.f r z = some p.v := by rw [hc r z, hp]; rfl
        dsimp only at h2
        split at h2
        · cases h2
        · rename_i hd
          split at h2
          · cases h2
          · split at h2
            · cases h2
            · rename_i hrho
              simp only [Except.ok.injEq] at h2
              have hpos : 0 < (p.v - d.psi0) / (d.psi1 - d.psi0) := Real.sqrt_ne_zero'.mp hrho
              refine ⟨p.v, ⟨p.v, p.r, 0, p.z⟩, (1 / (2 * (d.psi1 - d.psi0) * Real.sqrt ((p.v - d.psi0) / (d.psi1 - d.psi0)))), ?_, ?_, rfl, ?_, ?_⟩
              · simp [evalPsi, modelPsi, B2.evalPsi, hv, withFallback]
              · simp [evalPsiDpsi, modelPsiDpsi, B2.evalPsiDpsi, hp, withFallback]
              · rw [rho_of p.v d.psi0 d.psi1 rfl hd hpos, ← h2]
              · rw [← h2]
                refine ⟨?_, ?_, ?_⟩ <;> dsimp only <;> ring
    | b3 d =>
      have h2 : d.evalRhoDrho r z = .ok g := h2
      unfold B3.evalRhoDrho at h2
      split at h2
      · cases h2
      · rename_i p hp
        have hv : d.psi.f r z = some p.v := by rw [hc r z, hp]; rfl
        dsimp only at h2
        split at h2
        · cases h2
        · rename_i hd
          split at h2
          · cases h2
          · rename_i hneg
            rw [abs_of_nonneg (not_lt.mp hneg)] at h2
            split at h2
            · cases h2
            · rename_i hrho
              simp only [Except.ok.injEq] at h2
              have hpos : 0 < (p.v - d.psi0) / (d.psi1 - d.psi0) := Real.sqrt_ne_zero'.mp hrho
              refine ⟨p.v, ⟨p.v, p.r, 0, p.z⟩, (1 / (2 * (d.psi1 - d.psi0) * Real.sqrt ((p.v - d.psi0) / (d.psi1 - d.psi0)))), ?_, ?_, rfl, ?_, ?_⟩
              · simp [evalPsi, modelPsi, B3.evalPsi, hv, withFallback]
              · simp [evalPsiDpsi, modelPsiDpsi, B3.evalPsiDpsi, hp, withFallback]
              · rw [rho_of p.v d.psi0 d.psi1 rfl hd hpos, ← h2]
              · rw [← h2]
                refine ⟨?_, ?_, ?_⟩ <;> dsimp only <;> ring
    | sts d =>
      have h2 : d.evalRhoDrho r phi z = .ok g := h2
      unfold STS.evalRhoDrho at h2
      split at h2
      · cases h2
      · rename_i p hp
        have hv : d.psi.f r phi z = some p.v := by rw [hc r phi z, hp]; rfl
        dsimp only at h2
        split at h2
        · cases h2
        · rename_i hd
          split at h2
          · cases h2
          · rename_i hneg
            simp only [Except.ok.injEq] at h2
            have hpos : 0 < (p.v - d.psi0) / (d.psi1 - d.psi0) := not_le.mp hneg
            refine ⟨p.v, p, (1 / (2 * (d.psi1 - d.psi0) * Real.sqrt ((p.v - d.psi0) / (d.psi1 - d.psi0)))), ?_, ?_, rfl, ?_, ?_⟩
            · simp [evalPsi, modelPsi, STS.evalPsi, hv, withFallback]
            · simp [evalPsiDpsi, modelPsiDpsi, STS.evalPsiDpsi, hp, withFallback]
            · rw [rho_of p.v d.psi0 d.psi1 rfl hd hpos, ← h2]
            · rw [← h2]
              refine ⟨?_, ?_, ?_⟩ <;> dsimp only <;> ring
    | tc d =>
      have h2 : g = ⟨d.rhoval, 0, 0, 0⟩ := h2
      have hc : 0 < d.rhoval := hc
      have e : (d.psival - (d.psival - d.rhoval ^ 2)) / (d.psival - d.rhoval ^ 2 + 1 - (d.psival - d.rhoval ^ 2)) = d.rhoval * d.rhoval := by
        rw [show d.psival - d.rhoval ^ 2 + 1 - (d.psival - d.rhoval ^ 2) = 1 by ring]
        ring
      have := rho_of d.psival (d.psival - d.rhoval ^ 2) (d.psival - d.rhoval ^ 2 + 1) rfl (by ring_nf; norm_num)
        (by rw [e]; positivity)
      rw [e, Real.sqrt_mul_self hc.le] at this
      subst h2
      exact ⟨d.psival, ⟨d.psival, 0, 0, 0⟩, _, rfl, rfl, rfl, this, by simp, by simp, by simp⟩
    | unknown => exact h2.elim

/-- Finding: at the axis of an axisymmetric or 3D spline field the evaluation with gradient gives values that are not numbers,
without an error; in a stellarator field it gives an error; and the evaluation from the flux gives zero in each case. -/
theorem at_axis (psi0 psi1 : ℝ) (hd : psi0 ≠ psi1) (r phi z : ℝ) :
    (∀ (d : B2) (p : D2), d.psi0 = psi0 → d.psi1 = psi1 → d.psi.df r z = some p → p.v = psi0 →
      evalRhoDrho (.b2 d) r phi z = none ∧ (evalRho (.b2 d) p.v).1 = some 0)
    ∧ (∀ (d : B3) (p : D2), d.psi0 = psi0 → d.psi1 = psi1 → d.psi.df r z = some p → p.v = psi0 →
      evalRhoDrho (.b3 d) r phi z = none ∧ (evalRho (.b3 d) p.v).1 = some 0)
    ∧ ∀ (d : STS) (p : Grad), d.psi0 = psi0 → d.psi1 = psi1 → d.psi.df r phi z = some p → p.v = psi0 →
      (∃ e, e ≠ 0 ∧ evalRhoDrho (.sts d) r phi z = some (⟨1, 0, 0, 0⟩, e)) ∧ (evalRho (.sts d) p.v).1 = some 0 := by
  have hd' := sub_ne_zero.mpr hd.symm
  refine ⟨?_, ?_, ?_⟩
  · rintro d p rfl rfl hp hv
    refine ⟨?_, ?_⟩
    · simp only [evalRhoDrho, modelRhoDrho, B2.evalRhoDrho, hp]
      rw [if_neg hd', hv, sub_self, zero_div, if_neg (lt_irrefl _), Real.sqrt_zero, if_pos rfl]
      rfl
    · rw [hv]
      exact (C63.rho_ends (.b2 d) d.psi0 d.psi1 rfl hd).1
  · rintro d p rfl rfl hp hv
    refine ⟨?_, ?_⟩
    · simp only [evalRhoDrho, modelRhoDrho, B3.evalRhoDrho, hp]
      rw [if_neg hd', hv, sub_self, zero_div, if_neg (lt_irrefl _), abs_zero, Real.sqrt_zero, if_pos rfl]
      rfl
    · rw [hv]
      exact (C63.rho_ends (.b3 d) d.psi0 d.psi1 rfl hd).1
  · rintro d p rfl rfl hp hv
    refine ⟨⟨Error.raise 3 310 13, by decide, ?_⟩, ?_⟩
    · simp only [evalRhoDrho, modelRhoDrho, STS.evalRhoDrho, hp]
      rw [if_neg hd', hv, sub_self, zero_div, if_pos le_rfl]
      rfl
    · rw [hv]
      exact (C63.rho_ends (.sts d) d.psi0 d.psi1 rfl hd).1

/-- A paraboloid as a spline: value and all derivatives. -/
def paraboloid : Spline2 := ⟨fun r z => some (r ^ 2 + z ^ 2), fun r z => some ⟨r ^ 2 + z ^ 2, 2 * r, 2 * z, 2, 2, 0⟩⟩
def flat (c : ℝ) : Spline2 := ⟨fun _ _ => some c, fun _ _ => some ⟨c, 0, 0, 0, 0, 0⟩⟩

theorem flat_smooth (c r z : ℝ) : Smooth2 (flat c) r z ⟨c, 0, 0, 0, 0, 0⟩ :=
  ⟨rfl, fun _ _ => rfl, ⟨fun _ => c, .of_forall fun _ => rfl, hasDerivAt_const _ _⟩, ⟨fun _ => c, .of_forall fun _ => rfl, hasDerivAt_const _ _⟩,
    ⟨fun _ => 0, .of_forall fun _ => rfl, hasDerivAt_const _ _⟩, ⟨fun _ => 0, .of_forall fun _ => rfl, hasDerivAt_const _ _⟩,
    ⟨fun _ => 0, .of_forall fun _ => rfl, hasDerivAt_const _ _⟩, ⟨fun _ => 0, .of_forall fun _ => rfl, hasDerivAt_const _ _⟩⟩

theorem paraboloid_smooth (r z : ℝ) : Smooth2 paraboloid r z ⟨r ^ 2 + z ^ 2, 2 * r, 2 * z, 2, 2, 0⟩ := by
  have sq : ∀ x : ℝ, HasDerivAt (fun y : ℝ => y ^ 2) (2 * x) x := fun x => by simpa using hasDerivAt_pow 2 x
  have lin : ∀ x : ℝ, HasDerivAt (fun y : ℝ => 2 * y) 2 x := fun x => by simpa using (hasDerivAt_id x).const_mul 2
  exact ⟨rfl, fun _ _ => rfl, ⟨_, .of_forall fun _ => rfl, (sq r).add_const _⟩, ⟨_, .of_forall fun _ => rfl, (sq z).const_add _⟩,
    ⟨_, .of_forall fun _ => rfl, lin r⟩, ⟨_, .of_forall fun _ => rfl, hasDerivAt_const _ _⟩,
    ⟨_, .of_forall fun _ => rfl, hasDerivAt_const _ _⟩, ⟨_, .of_forall fun _ => rfl, lin z⟩⟩

example : ∃ j, (⟨0, 1, 0, 0, paraboloid, flat 0, flat 1, flat 0⟩ : B2).evalBdB 1 1 = .ok j := by
  unfold B2.evalBdB
  simp [paraboloid, flat]
  rw [if_neg (by norm_num)]
  exact ⟨_, rfl⟩

end Ascot.C86
