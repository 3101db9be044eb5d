import Verif.Props.C139_Smooth
import Verif.Props.C85_C86_Bfield
import Verif.Props.C138_BfieldFile
set_option linter.unusedSectionVars false
set_option linter.unusedSimpArgs false

/-!
# C139: the gradients of the spline fields are the gradients of the fields

The fields that `B_2DS_init`, `B_3DS_init` and `B_STS_init` set up meet the assumptions of C86, inside of the grid.
-/
namespace Ascot.C139
open Ascot.Linint hiding On covers locate locate_on locate_outside
open Ascot.Spline Ascot.Interp Ascot.Smooth Ascot.Bfield Ascot.BfieldFile Ascot.Coord Ascot.Spec
open Ascot.C86 (Smooth2 Smooth3)
open Filter Topology

theorem line1 {F : ℝ × ℝ → ℝ} {a b x y : ℝ} (h : HasFDerivAt F (lin2 a b) (x, y)) : HasDerivAt (fun t => F (t, y)) a x := by
  have := h.comp_hasDerivAt x ((hasDerivAt_id x).prodMk (hasDerivAt_const x y))
  exact this.congr_deriv (by simp [lin2])

theorem line2 {F : ℝ × ℝ → ℝ} {a b x y : ℝ} (h : HasFDerivAt F (lin2 a b) (x, y)) : HasDerivAt (fun t => F (x, t)) b y := by
  have := h.comp_hasDerivAt y ((hasDerivAt_const y x).prodMk (hasDerivAt_id y))
  exact this.congr_deriv (by simp [lin2])

theorem line31 {F : ℝ × ℝ × ℝ → ℝ} {a b c x y z : ℝ} (h : HasFDerivAt F (lin3 a b c) (x, y, z)) : HasDerivAt (fun t => F (t, y, z)) a x := by
  have := h.comp_hasDerivAt x ((hasDerivAt_id x).prodMk ((hasDerivAt_const x y).prodMk (hasDerivAt_const x z)))
  exact this.congr_deriv (by simp [lin3, lin2])

theorem line32 {F : ℝ × ℝ × ℝ → ℝ} {a b c x y z : ℝ} (h : HasFDerivAt F (lin3 a b c) (x, y, z)) : HasDerivAt (fun t => F (x, t, z)) b y := by
  have := h.comp_hasDerivAt y ((hasDerivAt_const y x).prodMk ((hasDerivAt_id y).prodMk (hasDerivAt_const y z)))
  exact this.congr_deriv (by simp [lin3, lin2])

theorem line33 {F : ℝ × ℝ × ℝ → ℝ} {a b c x y z : ℝ} (h : HasFDerivAt F (lin3 a b c) (x, y, z)) : HasDerivAt (fun t => F (x, y, t)) c z := by
  have := h.comp_hasDerivAt z ((hasDerivAt_const z x).prodMk ((hasDerivAt_const z y).prodMk (hasDerivAt_id z)))
  exact this.congr_deriv (by simp [lin3, lin2])

/-- A two-dimensional spline, as the field uses it, is smooth inside of the grid. -/
theorem smooth2 {t : ℕ → ℝ} {nr nz : ℕ} {r0 r1 z0 z1 : ℝ} {s : Spline2} (hs : spline2 t nr nz r0 r1 z0 z1 = some s) (hr : 2 ≤ nr) (hz : 2 ≤ nz)
    {r z : ℝ} (h1 : r0 < r ∧ r < r1) (h2 : z0 < z ∧ z < z1) : ∃ p, Smooth2 s r z p := by
  have mr : r0 < r1 := h1.1.trans h1.2
  have mz : z0 < z1 := h2.1.trans h2.2
  obtain ⟨c, F, Fx, Fy, Fxx, Fyy, Fxy, hc, hC, he⟩ := two_dimensions (bx := .natural) (by_ := .natural) hr hz mr mz (fun i j => t (j * nr + i))
  unfold spline2 at hs
  rw [hc] at hs
  simp only [Option.map_some, Option.some.injEq] at hs
  have hf : ∀ r z, (r0 ≤ r ∧ r ≤ r1) → (z0 ≤ z ∧ z ≤ z1) → s.f r z = some (F (r, z)) := by
    intro r z h1 h2
    have := (he (r, z) ⟨h1, h2⟩).1
    rw [← hs]; dsimp only at this ⊢; rw [this]; rfl
  have hdf : ∀ r z, (r0 ≤ r ∧ r ≤ r1) → (z0 ≤ z ∧ z ≤ z1) →
      s.df r z = some ⟨F (r, z), Fx (r, z), Fy (r, z), Fxx (r, z), Fyy (r, z), Fxy (r, z)⟩ := by
    intro r z h1 h2
    have := (he (r, z) ⟨h1, h2⟩).2
    rw [← hs]; dsimp only at this ⊢; rw [this]
  have hn : (axis .natural r0 r1 ×ˢ axis .natural z0 z1) ∈ 𝓝 (r, z) := prod_mem_nhds (Icc_mem_nhds h1.1 h1.2) (Icc_mem_nhds h2.1 h2.2)
  have hm : (r, z) ∈ axis .natural r0 r1 ×ˢ axis .natural z0 z1 := mem_of_mem_nhds hn
  have d0 := (hC.first _ hm).hasFDerivAt hn
  have dx := (hC.x _ hm).hasFDerivAt hn
  have dy := (hC.y _ hm).hasFDerivAt hn
  have er : ∀ᶠ y in 𝓝 r, r0 ≤ y ∧ y ≤ r1 := Icc_mem_nhds h1.1 h1.2
  have ez : ∀ᶠ y in 𝓝 z, z0 ≤ y ∧ y ≤ z1 := Icc_mem_nhds h2.1 h2.2
  have wr : r0 ≤ r ∧ r ≤ r1 := ⟨h1.1.le, h1.2.le⟩
  have wz : z0 ≤ z ∧ z ≤ z1 := ⟨h2.1.le, h2.2.le⟩
  refine ⟨_, hdf r z wr wz, ?_, ⟨fun y => F (y, z), er.mono fun y hy => hf y z hy wz, line1 d0⟩,
    ⟨fun y => F (r, y), ez.mono fun y hy => hf r y wr hy, line2 d0⟩,
    ⟨fun y => Fx (y, z), er.mono fun y hy => by dsimp only; rw [hdf y z hy wz]; rfl, line1 dx⟩,
    ⟨fun y => Fy (y, z), er.mono fun y hy => by dsimp only; rw [hdf y z hy wz]; rfl, line1 dy⟩,
    ⟨fun y => Fx (r, y), ez.mono fun y hy => by dsimp only; rw [hdf r y wr hy]; rfl, line2 dx⟩,
    ⟨fun y => Fy (r, y), ez.mono fun y hy => by dsimp only; rw [hdf r y wr hy]; rfl, line2 dy⟩⟩
  intro r z
  by_cases ho : (r < r0 ∨ r1 < r) ∨ (z < z0 ∨ z1 < z)
  · obtain ⟨c', hc', -, -, h3, h4⟩ := C39.safe_2D (Tensor.enough_natural hr) (Tensor.enough_natural hz) mr mz (fun i j => t (j * nr + i)) r z
    obtain rfl : c = c' := Option.some.inj (hc.symm.trans hc')
    have ho' : C39.Outside .natural r0 r1 r ∨ C39.Outside .natural z0 z1 z := ho.imp (fun h => ⟨rfl, h⟩) fun h => ⟨rfl, h⟩
    rw [← hs]
    dsimp only
    rw [h3.2 ho', h4.2 ho']
    rfl
  · push Not at ho
    rw [hf r z ho.1 ho.2, hdf r z ho.1 ho.2]
    rfl

/-- A three-dimensional one as well. -/
theorem smooth3 {t : ℕ → ℝ} {nr np nz : ℕ} {r0 r1 p0 p1 z0 z1 : ℝ} {s : Spline3} (hs : spline3 t nr np nz r0 r1 p0 p1 z0 z1 = some s)
    (hr : 2 ≤ nr) (hp : 3 ≤ np) (hz : 2 ≤ nz) (mp : p0 < p1)
    {r : ℝ} (phi : ℝ) {z : ℝ} (h1 : r0 < r ∧ r < r1) (h2 : z0 < z ∧ z < z1) : ∃ p, Smooth3 s r phi z p := by
  have mr : r0 < r1 := h1.1.trans h1.2
  have mz : z0 < z1 := h2.1.trans h2.2
  obtain ⟨c, F, Fx, Fy, Fz, Fxx, Fyy, Fzz, Fxy, Fxz, Fyz, hc, hC, he⟩ := three_dimensions (bx := .natural) (by_ := .periodic) (bz := .natural)
    hr hp hz mr mp mz (fun i j k => t (k * np * nr + j * nr + i))
  unfold spline3 at hs
  rw [hc] at hs
  simp only [Option.map_some, Option.some.injEq] at hs
  have hf : ∀ r p z, (r0 ≤ r ∧ r ≤ r1) → (z0 ≤ z ∧ z ≤ z1) → s.f r p z = some (F (r, p, z)) := by
    intro r p z h1 h2
    have := (he (r, p, z) ⟨h1, Set.mem_univ _, h2⟩).1
    rw [← hs]; dsimp only at this ⊢; rw [this]; rfl
  have hdf : ∀ r p z, (r0 ≤ r ∧ r ≤ r1) → (z0 ≤ z ∧ z ≤ z1) →
      s.df r p z = some ⟨F (r, p, z), Fx (r, p, z), Fy (r, p, z), Fz (r, p, z)⟩ := by
    intro r p z h1 h2
    have := (he (r, p, z) ⟨h1, Set.mem_univ _, h2⟩).2
    rw [← hs]; dsimp only at this ⊢; rw [this]
  have hn : (axis .natural r0 r1 ×ˢ axis .periodic p0 p1 ×ˢ axis .natural z0 z1) ∈ 𝓝 (r, phi, z) :=
    prod_mem_nhds (Icc_mem_nhds h1.1 h1.2) (prod_mem_nhds univ_mem (Icc_mem_nhds h2.1 h2.2))
  have d0 := (hC.first _ (mem_of_mem_nhds hn)).hasFDerivAt hn
  have er : ∀ᶠ y in 𝓝 r, r0 ≤ y ∧ y ≤ r1 := Icc_mem_nhds h1.1 h1.2
  have ez : ∀ᶠ y in 𝓝 z, z0 ≤ y ∧ y ≤ z1 := Icc_mem_nhds h2.1 h2.2
  have wr : r0 ≤ r ∧ r ≤ r1 := ⟨h1.1.le, h1.2.le⟩
  have wz : z0 ≤ z ∧ z ≤ z1 := ⟨h2.1.le, h2.2.le⟩
  refine ⟨_, hdf r phi z wr wz, ?_, ⟨fun y => F (y, phi, z), er.mono fun y hy => hf y phi z hy wz, line31 d0⟩,
    ⟨fun y => F (r, y, z), Eventually.of_forall fun y => hf r y z wr wz, line32 d0⟩,
    ⟨fun y => F (r, phi, y), ez.mono fun y hy => hf r phi y wr hy, line33 d0⟩⟩
  intro r p z
  by_cases ho : (r < r0 ∨ r1 < r) ∨ (z < z0 ∨ z1 < z)
  · obtain ⟨c', hc', -, -, h3, h4⟩ := C39.safe_3D (Tensor.enough_natural hr) (Tensor.enough_periodic hp) (Tensor.enough_natural hz) mr mp mz
      (fun i j k => t (k * np * nr + j * nr + i)) r p z
    obtain rfl : c = c' := Option.some.inj (hc.symm.trans hc')
    have ho' : C39.Outside .natural r0 r1 r ∨ C39.Outside .periodic p0 p1 p ∨ C39.Outside .natural z0 z1 z :=
      ho.elim (fun h => Or.inl ⟨rfl, h⟩) fun h => Or.inr (Or.inr ⟨rfl, h⟩)
    rw [← hs]
    dsimp only
    rw [h3.2 ho', h4.2 ho']
    rfl
  · push Not at ho
    rw [hf r p z ho.1 ho.2, hdf r p z ho.1 ho.2]
    rfl

theorem of_check {α : Type} {b d : α} {x : Except Fault (V3 ℝ)} (h : check b x = .ok d) : d = b := by
  unfold check at h
  split at h
  · cases h
  · injection h with h; exact h.symm

/-- The gradient of the flux of a two-dimensional spline is its gradient. -/
def IsFluxGradient (F : ℝ → ℝ → ℝ → Option ℝ) (r phi z : ℝ) (g : Grad) : Prop :=
  F r phi z = some g.v ∧ HasPartial (fun y => F y phi z) g.d1 r ∧ HasPartial (fun y => F r y z) g.d2 phi ∧ HasPartial (fun y => F r phi y) g.d3 z

/-- Axisymmetric field: inside of the grid the returned gradients are the gradients of the returned flux and field. -/
theorem axisymmetric {nr nz : ℕ} {r0 r1 z0 z1 axisr axisz psi0 psi1 : ℝ} {psi br bphi bz : ℕ → ℝ} {d : B2}
    (hd : init2D nr r0 r1 nz z0 z1 axisr axisz psi0 psi1 psi br bphi bz = .ok d) (hr : 2 ≤ nr) (hz : 2 ≤ nz) {r z : ℝ} (phi : ℝ)
    (h1 : r0 < r ∧ r < r1) (h2 : z0 < z ∧ z < z1) :
    (∃ g, d.evalPsiDpsi r z = .ok g ∧ IsFluxGradient (fun r _ z => C86.ok (d.evalPsi r z)) r phi z g) ∧
    ∀ j, d.evalBdB r z = .ok j → IsJacobian (fun r _ z => C86.ok (d.evalB r z)) j r phi z := by
  unfold init2D at hd
  split at hd
  · rename_i p a b c hp ha hb hc
    have hd' := of_check hd
    obtain ⟨vp, sp⟩ := smooth2 hp hr hz h1 h2
    obtain ⟨va, sa⟩ := smooth2 ha hr hz h1 h2
    obtain ⟨vb, sb⟩ := smooth2 hb hr hz h1 h2
    obtain ⟨vc, sc⟩ := smooth2 hc hr hz h1 h2
    subst hd'
    refine ⟨⟨⟨vp.v, vp.r, 0, vp.z⟩, ?_, ?_, ?_, ⟨fun _ => vp.v, ?_, hasDerivAt_const _ _⟩, ?_⟩, fun j hj => ?_⟩
    · unfold B2.evalPsiDpsi; dsimp only; rw [sp.at_]
    · simp only [B2.evalPsi]; rw [sp.value, sp.at_]; rfl
    · obtain ⟨g, e, h⟩ := sp.dr
      refine ⟨g, e.mono fun y hy => ?_, h⟩
      simp only [B2.evalPsi]; dsimp only at hy; rw [hy]; rfl
    · refine Eventually.of_forall fun y => ?_
      simp only [B2.evalPsi]; rw [sp.value, sp.at_]; rfl
    · obtain ⟨g, e, h⟩ := sp.dz
      refine ⟨g, e.mono fun y hy => ?_, h⟩
      simp only [B2.evalPsi]; dsimp only at hy; rw [hy]; rfl
    · exact C86.b2_jacobian _ r phi z j vp va vb vc sp sa sb sc hj
  · cases hd

/-- Field in three dimensions with axisymmetric flux. -/
theorem three_dimensional {pnr pnz nr np nz : ℕ} {pr0 pr1 pz0 pz1 r0 r1 p0 p1 z0 z1 axisr axisz psi0 psi1 : ℝ} {psi br bphi bz : ℕ → ℝ} {d : B3}
    (hd : init3D pnr pr0 pr1 pnz pz0 pz1 nr r0 r1 np p0 p1 nz z0 z1 axisr axisz psi0 psi1 psi br bphi bz = .ok d)
    (hpr : 2 ≤ pnr) (hpz : 2 ≤ pnz) (hr : 2 ≤ nr) (hnp : 3 ≤ np) (hz : 2 ≤ nz) (mp : p0 < p1) {r z : ℝ} (phi : ℝ)
    (h1 : r0 < r ∧ r < r1) (h2 : z0 < z ∧ z < z1) (h3 : pr0 < r ∧ r < pr1) (h4 : pz0 < z ∧ z < pz1) :
    (∃ g, d.evalPsiDpsi r z = .ok g ∧ IsFluxGradient (fun r _ z => C86.ok (d.evalPsi r z)) r phi z g) ∧
    ∀ j, d.evalBdB r phi z = .ok j → IsJacobian (fun r phi z => C86.ok (d.evalB r phi z)) j r phi z := by
  unfold init3D at hd
  split at hd
  · rename_i p a b c hp ha hb hc
    have hd' := of_check hd
    obtain ⟨vp, sp⟩ := smooth2 hp hpr hpz h3 h4
    obtain ⟨va, sa⟩ := smooth3 ha hr hnp hz mp phi h1 h2
    obtain ⟨vb, sb⟩ := smooth3 hb hr hnp hz mp phi h1 h2
    obtain ⟨vc, sc⟩ := smooth3 hc hr hnp hz mp phi h1 h2
    subst hd'
    refine ⟨⟨⟨vp.v, vp.r, 0, vp.z⟩, ?_, ?_, ?_, ⟨fun _ => vp.v, ?_, hasDerivAt_const _ _⟩, ?_⟩, fun j hj => ?_⟩
    · unfold B3.evalPsiDpsi; dsimp only; rw [sp.at_]
    · simp only [B3.evalPsi]; rw [sp.value, sp.at_]; rfl
    · obtain ⟨g, e, h⟩ := sp.dr
      refine ⟨g, e.mono fun y hy => ?_, h⟩
      simp only [B3.evalPsi]; dsimp only at hy; rw [hy]; rfl
    · refine Eventually.of_forall fun y => ?_
      simp only [B3.evalPsi]; rw [sp.value, sp.at_]; rfl
    · obtain ⟨g, e, h⟩ := sp.dz
      refine ⟨g, e.mono fun y hy => ?_, h⟩
      simp only [B3.evalPsi]; dsimp only at hy; rw [hy]; rfl
    · exact C86.b3_jacobian _ r phi z j vp va vb vc sp sa sb sc hj
  · cases hd

/-- Stellarator field. -/
theorem stellarator {pnr pnp pnz nr np nz na : ℕ} {pr0 pr1 pp0 pp1 pz0 pz1 r0 r1 p0 p1 z0 z1 a0 a1 psi0 psi1 : ℝ} {axisr axisz : List ℝ}
    {psi br bphi bz : ℕ → ℝ} {d : STS}
    (hd : initSTS pnr pr0 pr1 pnp pp0 pp1 pnz pz0 pz1 nr r0 r1 np p0 p1 nz z0 z1 na a0 a1 axisr axisz psi0 psi1 psi br bphi bz = .ok d)
    (hpr : 2 ≤ pnr) (hpp : 3 ≤ pnp) (hpz : 2 ≤ pnz) (mpp : pp0 < pp1) (hr : 2 ≤ nr) (hnp : 3 ≤ np) (hz : 2 ≤ nz) (mp : p0 < p1) {r z : ℝ} (phi : ℝ)
    (h1 : r0 < r ∧ r < r1) (h2 : z0 < z ∧ z < z1) (h3 : pr0 < r ∧ r < pr1) (h4 : pz0 < z ∧ z < pz1) :
    (∃ g, d.evalPsiDpsi r phi z = .ok g ∧ IsFluxGradient (fun r phi z => C86.ok (d.evalPsi r phi z)) r phi z g) ∧
    ∀ j, d.evalBdB r phi z = .ok j → IsJacobian (fun r phi z => C86.ok (d.evalB r phi z)) j r phi z := by
  unfold initSTS at hd
  split at hd
  · rename_i p a b c hp ha hb hc
    obtain ⟨vp, sp⟩ := smooth3 hp hpr hpp hpz mpp phi h3 h4
    obtain ⟨va, sa⟩ := smooth3 ha hr hnp hz mp phi h1 h2
    obtain ⟨vb, sb⟩ := smooth3 hb hr hnp hz mp phi h1 h2
    obtain ⟨vc, sc⟩ := smooth3 hc hr hnp hz mp phi h1 h2
    have hd' : d.psi = p ∧ d.Br = a ∧ d.Bphi = b ∧ d.Bz = c := by
      dsimp only at hd
      split at hd
      · cases hd
      · split at hd
        · cases hd
        · have := of_check hd
          subst this
          exact ⟨rfl, rfl, rfl, rfl⟩
    obtain ⟨e1, e2, e3, e4⟩ := hd'
    subst e1 e2 e3 e4
    refine ⟨⟨vp, ?_, ?_, ?_, ?_, ?_⟩, fun j hj => C86.sts_jacobian _ r phi z j va vb vc sa sb sc hj⟩
    · unfold STS.evalPsiDpsi; rw [sp.at_]
    · simp only [STS.evalPsi]; rw [sp.value, sp.at_]; rfl
    · obtain ⟨g, e, h⟩ := sp.d1
      refine ⟨g, e.mono fun y hy => ?_, h⟩
      simp only [STS.evalPsi]; dsimp only at hy; rw [hy]; rfl
    · obtain ⟨g, e, h⟩ := sp.d2
      refine ⟨g, e.mono fun y hy => ?_, h⟩
      simp only [STS.evalPsi]; dsimp only at hy; rw [hy]; rfl
    · obtain ⟨g, e, h⟩ := sp.d3
      refine ⟨g, e.mono fun y hy => ?_, h⟩
      simp only [STS.evalPsi]; dsimp only at hy; rw [hy]; rfl
  · cases hd

theorem zero_spline2 {nr nz : ℕ} {r0 r1 z0 z1 : ℝ} {s : Spline2} (hs : spline2 (fun _ => 0) nr nz r0 r1 z0 z1 = some s) (hr : 2 ≤ nr) (hz : 2 ≤ nz)
    {r z : ℝ} (h1 : r0 < r ∧ r < r1) (h2 : z0 < z ∧ z < z1) : s.f r z = some 0 ∧ s.df r z = some ⟨0, 0, 0, 0, 0, 0⟩ := by
  have mr : r0 < r1 := h1.1.trans h1.2
  have mz : z0 < z1 := h2.1.trans h2.2
  have er : Enough nr .natural := hr
  have ez : Enough nz .natural := hz
  obtain ⟨i, dx, o1⟩ := er.on (x := r) mr fun _ => ⟨h1.1.le, h1.2.le⟩
  obtain ⟨j, dy, o2⟩ := ez.on (x := z) mz fun _ => ⟨h2.1.le, h2.2.le⟩
  obtain ⟨c, hc, e1, e2⟩ := eval2_eq (f := fun _ _ => (0 : ℝ)) er.ok ez.ok mr mz o1 o2 _ rfl
  have zero : ∀ (o : Op) {n : ℕ} {g d : ℝ} {i : ℕ}, sizeOk n .natural = true → g ≠ 0 → i < n → spl o n .natural g i d (fun _ => (0 : ℝ)) = 0 := by
    intro o n g d i h hg hi
    obtain ⟨w, hw⟩ := spl_weights h (o := o) hg hi d
    rw [hw]; simp
  have z2 : ∀ ox oy, spl2 ox oy (Axis.init nr .natural r0 r1) (Axis.init nz .natural z0 z1) i j dx dy (fun _ _ => (0 : ℝ)) = 0 := by
    intro ox oy
    unfold spl2
    dsimp only
    simp only [zero oy ez.ok (grid_ne ez.ok mz) o2.lt]
    exact zero ox er.ok (grid_ne er.ok mr) o1.lt
  unfold spline2 at hs
  rw [hc] at hs
  simp only [Option.map_some, Option.some.injEq] at hs
  rw [← hs]
  dsimp only
  rw [e1, e2]
  simp only [z2]
  exact ⟨rfl, trivial⟩

/-- An axisymmetric field that is given by its flux and toroidal field alone has no divergence and stays on the flux surfaces, everywhere inside of the grid. -/
theorem flux_field {nr nz : ℕ} {r0 r1 z0 z1 axisr axisz psi0 psi1 : ℝ} {psi bphi : ℕ → ℝ} {d : B2}
    (hd : init2D nr r0 r1 nz z0 z1 axisr axisz psi0 psi1 psi (fun _ => 0) bphi (fun _ => 0) = .ok d) (hr : 2 ≤ nr) (hz : 2 ≤ nz) {r z : ℝ}
    (h1 : r0 < r ∧ r < r1) (h2 : z0 < z ∧ z < z1) :
    (∀ j, d.evalBdB r z = .ok j → divergence j r = 0) ∧
    ∀ B g, d.evalB r z = .ok B → d.evalPsiDpsi r z = .ok g → B.x * g.d1 + B.z * g.d3 = 0 := by
  unfold init2D at hd
  split at hd
  · rename_i p a b c hp ha hb hc
    have hd' := of_check hd
    obtain ⟨vp, sp⟩ := smooth2 hp hr hz h1 h2
    obtain ⟨vb, sb⟩ := smooth2 hb hr hz h1 h2
    obtain ⟨za, za'⟩ := zero_spline2 ha hr hz h1 h2
    obtain ⟨zc, zc'⟩ := zero_spline2 hc hr hz h1 h2
    subst hd'
    constructor
    · intro j hj
      rw [C86.b2_divergence _ r z j _ vb _ za' sb.at_ zc' hj]
      simp
    · intro B g hB hg
      have e : g = ⟨vp.v, vp.r, 0, vp.z⟩ := by
        unfold B2.evalPsiDpsi at hg
        dsimp only at hg
        rw [sp.at_] at hg
        injection hg with hg
        exact hg.symm
      rw [e]
      exact C86.b2_tangent _ r z B vp sp.at_ za zc hB
  · cases hd

/-- A field that is set up, and has a gradient at a position inside of the grid. -/
example : ∃ d, init2D 3 4 8 3 (-2) 2 6 0 0 1 (fun k => (k % 3 : ℕ)) (fun _ => 0) (fun _ => 1) (fun _ => 0) = .ok d ∧ ∃ j, d.evalBdB 6 0 = .ok j := by
  obtain ⟨p, hp, vp, -⟩ := Tensor.spline2_spec (nr := 3) (nz := 3) (r0 := 4) (r1 := 8) (z0 := -2) (z1 := 2) (t := fun k => ((k % 3 : ℕ) : ℝ))
    (fun i _ => i) (by decide) (by decide) (by norm_num) (by norm_num) (fun i hi j hj => by
      have : (j * 3 + i) % 3 = i := by omega
      simp only [this])
  obtain ⟨b, hb, vb, -⟩ := Tensor.spline2_spec (nr := 3) (nz := 3) (r0 := 4) (r1 := 8) (z0 := -2) (z1 := 2) (t := fun _ => (1 : ℝ))
    (fun _ _ => 1) (by decide) (by decide) (by norm_num) (by norm_num) (fun _ _ _ _ => rfl)
  obtain ⟨a, ha, -, -⟩ := Tensor.spline2_spec (nr := 3) (nz := 3) (r0 := 4) (r1 := 8) (z0 := -2) (z1 := 2) (t := fun _ => (0 : ℝ))
    (fun _ _ => 0) (by decide) (by decide) (by norm_num) (by norm_num) (fun _ _ _ _ => rfl)
  obtain ⟨za, za'⟩ := zero_spline2 ha (by decide) (by decide) (r := 6) (z := 0) (by norm_num) (by norm_num)
  have h6 : Tensor.At 3 4 8 6 1 0 := ⟨by decide, by norm_num, by norm_num, by norm_num, by norm_num⟩
  have h0 : Tensor.At 3 (-2) 2 0 1 0 := ⟨by decide, by norm_num, by norm_num, by norm_num, by norm_num⟩
  obtain ⟨u, p1, p2, -⟩ := vp 6 0 1 1 0 0 h6 h0
  obtain ⟨v, b1, b2, b3⟩ := vb 6 0 1 1 0 0 h6 h0
  have hv : v .val .val = 1 := Tensor.value2_grid (by decide) (by decide) (fun _ => by decide) (fun _ => by decide) (b3 .val .val)
  have hne : ∀ x y : ℝ, (0 - x) * (0 - x) + v .val .val * v .val .val + (0 + y) * (0 + y) ≠ 0 := by
    intro x y h
    rw [hv] at h
    nlinarith [mul_self_nonneg (0 - x), mul_self_nonneg (0 + y)]
  refine ⟨⟨0, 1, 6, 0, p, a, b, a⟩, ?_, ?_⟩
  · unfold init2D
    rw [hp, ha, hb]
    dsimp only
    unfold B2.evalB
    dsimp only
    rw [za, b1, p2]
    dsimp only
    rw [if_neg (by norm_num), if_neg (hne _ _)]
    rfl
  · unfold B2.evalBdB
    dsimp only
    rw [za', b2, p2]
    dsimp only
    rw [if_neg (by norm_num), if_neg (hne _ _)]
    exact ⟨_, rfl⟩

end Ascot.C139
