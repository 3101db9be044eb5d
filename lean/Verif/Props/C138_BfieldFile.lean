import Verif.Lemmas.Tensor
import Verif.Lemmas.PyFile
import Verif.Props.C84_BGS
import Verif.Props.C85_C86_Bfield
import Verif.Props.C35_Linint
set_option linter.unusedSectionVars false
set_option linter.unusedSimpArgs false

/-!
# C138: the magnetic field that the simulation sees is the one the user wrote

A user calls `write_hdf5` of the Python interface with tables of the flux and the field on a grid in R (m), phi (degrees) and
z (m), or with the parameters of an analytic field; the program reads the file and evaluates the field at R, phi (radians) and z.
-/
namespace Ascot.C138
open Ascot.PyFile Ascot.BfieldFile Ascot.Tensor Ascot.Coord
open Ascot.Spline (Op)
open Ascot.Bfield (B2 B3 STS Data D2 Fault evalPsi evalPsiDpsi evalRho evalB evalBdB axis)
open Ascot.MarkerFile (Group readReals)
open Ascot.Options (Res)

/-! ## Specification -/

/-- Degrees to radians. -/
noncomputable def rad (x : ℝ) : ℝ := x * (Real.pi / 180)

/-- The evaluation returned an error. -/
def Fails {α : Type} (x : Option (α × ℕ)) : Prop := ∃ v e, x = some (v, e) ∧ e ≠ 0

/-- The poloidal field of the flux, `B_R = -(1/R) dpsi/dz` and `B_z = (1/R) dpsi/dR`, is added to the tabulated field; `p` gives
the flux and its derivatives with respect to R and z. -/
noncomputable def withFlux (r : ℝ) (p : Op → Op → ℝ) (a b c : ℝ) : V3 ℝ := ⟨a - p .val .der / r, b, c + p .der .val / r⟩

/-- The derivatives of the sum, from those of the flux and those of the tabulated components (value, d/dR, d/dphi, d/dz). -/
noncomputable def withFluxGrad (r : ℝ) (p : Op → Op → ℝ) (a b c : Grad) : Jac :=
  ⟨⟨a.v - p .val .der / r, a.d1 + p .val .der / r ^ 2 - p .der .der / r, a.d2, a.d3 - p .val .der2 / r⟩, b,
   ⟨c.v + p .der .val / r, c.d1 - p .der .val / r ^ 2 + p .der2 .val / r, c.d2, c.d3 + p .der .der / r⟩⟩

/-- `v` are the value and the derivatives of the spline in R and z through `f`, at a position in cell `i`, `j`. -/
def Values2 (g : GridRz) (f : ℕ → ℕ → ℝ) (i j : ℕ) (d e : ℝ) (v : Op → Op → ℝ) : Prop :=
  ∀ ox oy, IsValue2 g.nr g.nz .natural .natural (spacing g.nr .natural g.rmin g.rmax) (spacing g.nz .natural g.zmin g.zmax) f i j d e
    ox oy (v ox oy)

/-- The same in R, phi and z, with a period in phi. -/
def Values3 (g : GridRpz) (f : ℕ → ℕ → ℕ → ℝ) (i j k : ℕ) (d e h : ℝ) (v : Op → Op → Op → ℝ) : Prop :=
  ∀ ox oy oz, IsValue3 g.nr g.nphi g.nz .natural .periodic .natural (spacing g.nr .natural g.rmin g.rmax)
    (spacing g.nphi .periodic (rad g.phimin) (rad g.phimax)) (spacing g.nz .natural g.zmin g.zmax) f i j k d e h ox oy oz (v ox oy oz)

/-- Value and gradient. -/
def grad2 (v : Op → Op → ℝ) : Grad := ⟨v .val .val, v .der .val, 0, v .val .der⟩
@[inherit_doc grad2]
def grad3 (v : Op → Op → Op → ℝ) : Grad := ⟨v .val .val .val, v .der .val .val, v .val .der .val, v .val .val .der⟩

/-- A grid on which splines are defined. -/
def GridRz.Ok (g : GridRz) : Prop := 2 ≤ g.nr ∧ 2 ≤ g.nz ∧ g.rmin < g.rmax ∧ g.zmin < g.zmax
def GridRpz.Ok (g : GridRpz) : Prop := GridRz.Ok g.toGridRz ∧ 3 ≤ g.nphi ∧ g.phimin < g.phimax

/-- Outside of the grid in R or z. -/
def Outside (g : GridRz) (r z : ℝ) : Prop := (r < g.rmin ∨ g.rmax < r) ∨ (z < g.zmin ∨ g.zmax < z)

/-- The normalised radius is the root of the flux, scaled such that it is 0 at the axis and 1 at the separatrix; below the flux
of the axis it is an error. -/
def RhoFrom (data : Data) (psi0 psi1 : ℝ) : Prop :=
  psi0 ≠ psi1 → ∀ psi,
    (0 ≤ (psi - psi0) / (psi1 - psi0) → (evalRho data psi).1 = some (Real.sqrt ((psi - psi0) / (psi1 - psi0))) ∧ (evalRho data psi).2.2 = 0) ∧
    ((psi - psi0) / (psi1 - psi0) < 0 → (evalRho data psi).2.2 ≠ 0)

/-- The field is read, unless it cannot be evaluated on the axis; then the program stops. -/
def LoadsIf (x : Res Data) (data : Data) (bad : Prop) : Prop := (bad → x = .fail) ∧ (¬ bad → x = .ok data)

/-- The arguments of the writers, made from functions of the indices. -/
def args2 (g : GridRz) (axisr axisz psi0 psi1 : ℝ) (psi br bphi bz : ℕ → ℕ → ℝ) : In2D :=
  ⟨g.rmin, g.rmax, g.nr, g.zmin, g.zmax, g.nz, axisr, axisz, nd2 g.nr g.nz psi, psi0, psi1, nd2 g.nr g.nz br, nd2 g.nr g.nz bphi,
    nd2 g.nr g.nz bz⟩

@[inherit_doc args2]
def args3 (g : GridRpz) (p : Option GridRz) (axisr axisz psi0 psi1 : ℝ) (psi : ℕ → ℕ → ℝ) (br bphi bz : ℕ → ℕ → ℕ → ℝ) : In3D :=
  ⟨g, axisr, axisz, nd2 (p.getD g.toGridRz).nr (p.getD g.toGridRz).nz psi, psi0, psi1, nd3 g.nr g.nphi g.nz br,
    nd3 g.nr g.nphi g.nz bphi, nd3 g.nr g.nphi g.nz bz, p⟩

@[inherit_doc args2]
def argsSTS (g : GridRpz) (p : Option GridRpz) (na : ℕ) (a0 a1 : ℝ) (axisr axisz : ℕ → ℝ) (psi0 psi1 : ℝ) (psi br bphi bz : ℕ → ℕ → ℕ → ℝ) : InSTS :=
  ⟨g, psi0, psi1, nd3 g.nr g.nphi g.nz br, nd3 g.nr g.nphi g.nz bphi, nd3 g.nr g.nphi g.nz bz,
    nd3 (p.getD g).nr (p.getD g).nphi (p.getD g).nz psi, a0, a1, na, tab na axisr, tab na axisz, p⟩

/-! ## Lemmas -/

theorem divmod {a b n : ℕ} (h : b < n) : (a * n + b) / n = a ∧ (a * n + b) % n = b := by
  constructor
  · rw [Nat.add_comm, Nat.add_mul_div_right _ _ (by omega), Nat.div_eq_of_lt h, Nat.zero_add]
  · rw [Nat.add_comm, Nat.add_mul_mod_self_right, Nat.mod_eq_of_lt h]

theorem index_lt {a b n m : ℕ} (ha : a < m) (hb : b < n) : a * n + b < m * n := by
  calc a * n + b < a * n + n := by omega
    _ = (a + 1) * n := by ring
    _ ≤ m * n := Nat.mul_le_mul_right _ ha

theorem table2 {n m : ℕ} {junk : ℕ → ℝ} {f : ℕ → ℕ → ℝ} {N : ℕ} (hN : N = m * n) {i j : ℕ} (hi : i < n) (hj : j < m) :
    ext junk (fun k : Fin N => f (k % n) (k / n)) (j * n + i) = f i j := by
  rw [ext_lt (by rw [hN]; exact index_lt hj hi)]
  simp only [(divmod hi).1, (divmod hi).2]

theorem table3 {n m l : ℕ} {junk : ℕ → ℝ} {f : ℕ → ℕ → ℕ → ℝ} {N : ℕ} (hN : N = l * (m * n)) {i j k : ℕ} (hi : i < n) (hj : j < m) (hk : k < l) :
    ext junk (fun q : Fin N => f (q % (m * n) % n) (q % (m * n) / n) (q / (m * n))) (k * m * n + j * n + i) = f i j k := by
  have a1 : j * n + i < m * n := index_lt hj hi
  have e : k * m * n + j * n + i = k * (m * n) + (j * n + i) := by ring
  rw [ext_lt (by rw [hN, e]; exact index_lt hk a1)]
  simp only [e, (divmod a1).1, (divmod a1).2, (divmod hi).1, (divmod hi).2]

theorem rad_lt {a b : ℝ} (h : a < b) : rad a < rad b := mul_lt_mul_of_pos_right h (by positivity)

theorem zero_iff (B : V3 ℝ) : B.x * B.x + B.y * B.y + B.z * B.z = 0 ↔ B = ⟨0, 0, 0⟩ := by
  constructor
  · intro h
    have hx : B.x * B.x = 0 := by nlinarith [mul_self_nonneg B.x, mul_self_nonneg B.y, mul_self_nonneg B.z]
    have hy : B.y * B.y = 0 := by nlinarith [mul_self_nonneg B.x, mul_self_nonneg B.y, mul_self_nonneg B.z]
    have hz : B.z * B.z = 0 := by nlinarith [mul_self_nonneg B.x, mul_self_nonneg B.y, mul_self_nonneg B.z]
    ext
    · exact mul_self_eq_zero.mp hx
    · exact mul_self_eq_zero.mp hy
    · exact mul_self_eq_zero.mp hz
  · rintro rfl; simp

theorem rho_from {data : Data} {psi0 psi1 : ℝ} (h : Bfield.limits data = (psi0, psi1, 0)) : RhoFrom data psi0 psi1 := by
  intro hne psi
  have hd : psi1 - psi0 ≠ 0 := sub_ne_zero.mpr hne.symm
  unfold evalRho
  rw [h]
  dsimp only
  rw [if_neg hd]
  constructor
  · intro h0
    rw [if_neg (not_lt.mpr h0), if_neg (by simp)]
    exact ⟨rfl, rfl⟩
  · intro h0
    rw [if_pos h0]
    simp [Error.raise]

theorem fails_of {α : Type} {f : α} {x : Except Fault α} (hx : C63.CodesNonzero x) {e : ℕ} (h : x = .error (.err e)) :
    Fails (Bfield.withFallback f x) := ⟨f, e, by rw [h]; rfl, hx e h⟩

/-- The check at the end of the initialisation. -/
theorem check_cases {α : Type} (b : α) {x : Except Fault (V3 ℝ)} (hx : C63.CodesNonzero x) (f : V3 ℝ) :
    (Fails (Bfield.withFallback f x) → check b x = .fail) ∧ (¬ Fails (Bfield.withFallback f x) → check b x = .ok b) := by
  rcases x with (e | _) | v
  · exact ⟨fun _ => rfl, fun h => absurd (fails_of hx rfl) h⟩
  · refine ⟨?_, fun _ => rfl⟩
    rintro ⟨v, e, h, -⟩
    cases h
  · refine ⟨?_, fun _ => rfl⟩
    rintro ⟨w, e, h, h0⟩
    simp [Bfield.withFallback] at h
    exact absurd h.2.symm h0

/-! ## The axisymmetric field -/

theorem written2 (g : GridRz) (axisr axisz psi0 psi1 : ℝ) (psi br bphi bz : ℕ → ℕ → ℝ) :
    ∃ w, write2D (args2 g axisr axisz psi0 psi1 psi br bphi bz) = .done w ∧
      w.ints "nr" = some [(g.nr : ℤ)] ∧ w.ints "nz" = some [(g.nz : ℤ)] ∧ w.reals "rmin" = some [g.rmin] ∧ w.reals "rmax" = some [g.rmax] ∧
      w.reals "zmin" = some [g.zmin] ∧ w.reals "zmax" = some [g.zmax] ∧
      w.reals "psi" = some (tab (g.nr * g.nz) fun k => psi (k % g.nr) (k / g.nr)) ∧
      w.reals "br" = some (tab (g.nr * g.nz) fun k => br (k % g.nr) (k / g.nr)) ∧
      w.reals "bphi" = some (tab (g.nr * g.nz) fun k => bphi (k % g.nr) (k / g.nr)) ∧
      w.reals "bz" = some (tab (g.nr * g.nz) fun k => bz (k % g.nr) (k / g.nr)) ∧
      w.reals "psi0" = some [psi0] ∧ w.reals "psi1" = some [psi1] ∧ w.reals "axisr" = some [axisr] ∧ w.reals "axisz" = some [axisz] := by
  have e : g.nz * g.nr = g.nr * g.nz := by ring
  refine ⟨?w, ?a, ?b⟩
  case a =>
    unfold write2D
    simp only [args2, nd2_T_flat]
    rw [if_neg (by simp [nd2]), if_neg (by simp [nd2]), if_neg (by simp [nd2]), if_neg (by simp [nd2])]
    rw [createAll_done (by simp [Elems.length])]
  case b => simp [put, empty, e]

/-- The field of flux and tables, at a place where the splines give these values. -/
theorem b2_value {d : B2} {r phi z : ℝ} {p a b c : Op → Op → ℝ}
    (hp : d.psi.df r z = some ⟨p .val .val, p .der .val, p .val .der, p .der2 .val, p .val .der2, p .der .der⟩)
    (ha : d.Br.f r z = some (a .val .val)) (hb : d.Bphi.f r z = some (b .val .val)) (hc : d.Bz.f r z = some (c .val .val))
    (ha' : d.Br.df r z = some ⟨a .val .val, a .der .val, a .val .der, a .der2 .val, a .val .der2, a .der .der⟩)
    (hb' : d.Bphi.df r z = some ⟨b .val .val, b .der .val, b .val .der, b .der2 .val, b .val .der2, b .der .der⟩)
    (hc' : d.Bz.df r z = some ⟨c .val .val, c .der .val, c .val .der, c .der2 .val, c .val .der2, c .der .der⟩) (hr : r ≠ 0) :
    (withFlux r p (a .val .val) (b .val .val) (c .val .val) = ⟨0, 0, 0⟩ → Fails (evalB (.b2 d) r phi z) ∧ Fails (evalBdB (.b2 d) r phi z)) ∧
    (withFlux r p (a .val .val) (b .val .val) (c .val .val) ≠ ⟨0, 0, 0⟩ →
      evalB (.b2 d) r phi z = some (withFlux r p (a .val .val) (b .val .val) (c .val .val), 0) ∧
      evalBdB (.b2 d) r phi z = some (withFluxGrad r p (grad2 a) (grad2 b) (grad2 c), 0)) := by
  classical
  have eB : d.evalB r z = if (withFlux r p (a .val .val) (b .val .val) (c .val .val)) = ⟨0, 0, 0⟩ then .error (.err (Error.raise 3 279 12))
      else .ok (withFlux r p (a .val .val) (b .val .val) (c .val .val)) := by
    unfold B2.evalB
    rw [ha, hb, hc, hp]
    dsimp only
    rw [if_neg hr]
    exact if_congr (zero_iff ⟨_, _, _⟩) rfl rfl
  have eJ : d.evalBdB r z = if (withFlux r p (a .val .val) (b .val .val) (c .val .val)) = ⟨0, 0, 0⟩ then .error (.err (Error.raise 3 351 12))
      else .ok (withFluxGrad r p (grad2 a) (grad2 b) (grad2 c)) := by
    unfold B2.evalBdB
    rw [ha', hb', hc', hp]
    dsimp only
    rw [if_neg hr]
    refine if_congr (zero_iff ⟨_, _, _⟩) rfl ?_
    simp only [withFluxGrad, grad2, pow_two]
  constructor
  · intro h
    rw [if_pos h] at eB eJ
    exact ⟨fails_of (C63.codes_B (.b2 d) r phi z) eB, fails_of (C63.codes_B_dB (.b2 d) r phi z) eJ⟩
  · intro h
    rw [if_neg h] at eB eJ
    constructor
    · show Bfield.withFallback _ (d.evalB r z) = _
      rw [eB]; rfl
    · show Bfield.withFallback _ (d.evalBdB r z) = _
      rw [eJ]; rfl

/-- Written, read and evaluated: the flux is the spline through the table of the user, the field is that of the flux plus the splines through the tables, and
the derivatives are theirs; axis and normalised radius are those that the user gave.  The program stops if the field cannot be evaluated on the axis, and
outside of the grid there are errors. -/
theorem axisymmetric (g : GridRz) (ok : GridRz.Ok g) (axisr axisz psi0 psi1 : ℝ) (psi br bphi bz : ℕ → ℕ → ℝ) (junk : ℕ → ℝ) :
    ∃ w data, write2D (args2 g axisr axisz psi0 psi1 psi br bphi bz) = .done w ∧
      LoadsIf (readBfield junk (only "B_2DS" w)) data (Fails (evalB data axisr 0 axisz)) ∧
      (∀ phi, axis data phi = some ((axisr, axisz), 0)) ∧ RhoFrom data psi0 psi1 ∧
      (∀ r phi z, Outside g r z → Fails (evalPsi data r phi z) ∧ Fails (evalPsiDpsi data r phi z) ∧ Fails (evalB data r phi z) ∧
        Fails (evalBdB data r phi z)) ∧
      ∀ r phi z i j d e, At g.nr g.rmin g.rmax r i d → At g.nz g.zmin g.zmax z j e →
        ∃ p a b c, Values2 g psi i j d e p ∧ Values2 g br i j d e a ∧ Values2 g bphi i j d e b ∧ Values2 g bz i j d e c ∧
          evalPsi data r phi z = some (p .val .val, 0) ∧ evalPsiDpsi data r phi z = some (grad2 p, 0) ∧
          (r ≠ 0 →
            (withFlux r p (a .val .val) (b .val .val) (c .val .val) = ⟨0, 0, 0⟩ → Fails (evalB data r phi z) ∧ Fails (evalBdB data r phi z)) ∧
            (withFlux r p (a .val .val) (b .val .val) (c .val .val) ≠ ⟨0, 0, 0⟩ →
              evalB data r phi z = some (withFlux r p (a .val .val) (b .val .val) (c .val .val), 0) ∧
              evalBdB data r phi z = some (withFluxGrad r p (grad2 a) (grad2 b) (grad2 c), 0))) := by
  obtain ⟨o1, o2, o3, o4⟩ := ok
  obtain ⟨w, hw, h1, h2, h3, h4, h5, h6, h7, h8, h9, h10, h11, h12, h13, h14⟩ := written2 g axisr axisz psi0 psi1 psi br bphi bz
  have key : ∀ f : ℕ → ℕ → ℝ, _ := fun f => spline2_spec (nr := g.nr) (nz := g.nz) (r0 := g.rmin) (r1 := g.rmax) (z0 := g.zmin) (z1 := g.zmax)
    (t := ext junk fun k : Fin (g.nr * g.nz) => f (k % g.nr) (k / g.nr)) f o1 o2 o3 o4
    fun i hi j hj => table2 (Nat.mul_comm _ _) hi hj
  obtain ⟨sp, ep, vp, np⟩ := key psi
  obtain ⟨sa, ea, va, na⟩ := key br
  obtain ⟨sb, eb, vb, nb⟩ := key bphi
  obtain ⟨sc, ec, vc, nc⟩ := key bz
  set d : B2 := ⟨psi0, psi1, axisr, axisz, sp, sa, sb, sc⟩ with hd
  have hread : readBfield junk (only "B_2DS" w) = (check d (d.evalB axisr axisz) >>= fun b => Res.ok (Data.b2 b)) := by
    rw [readBfield, lastFound_only (r := read2D junk) (by simp) (by simp)]
    unfold read2D
    rw [readCount_eq h1, ok_bind, readCount_eq h2, ok_bind, readReal_eq h3, ok_bind, readReal_eq h4, ok_bind, readReal_eq h5, ok_bind,
      readReal_eq h6, ok_bind, readReals_tab h7, ok_bind, readReals_tab h8, ok_bind, readReals_tab h9, ok_bind, readReals_tab h10, ok_bind,
      readReal_eq h11, ok_bind, readReal_eq h12, ok_bind, readReal_eq h13, ok_bind, readReal_eq h14, ok_bind]
    unfold init2D
    rw [ep, ea, eb, ec]
    rfl
  obtain ⟨c1, c2⟩ := check_cases d (C63.codes_B (.b2 d) axisr 0 axisz) ⟨1, 0, 0⟩
  refine ⟨w, .b2 d, hw, ⟨fun h => ?_, fun h => ?_⟩, fun phi => rfl, rho_from rfl, ?_, ?_⟩
  · rw [hread, show check d (d.evalB axisr axisz) = .fail from c1 h]; rfl
  · rw [hread, show check d (d.evalB axisr axisz) = .ok d from c2 h]; rfl
  · intro r phi z h
    refine ⟨?_, ?_, ?_, ?_⟩
    · refine fails_of (C63.codes_psi (.b2 d) r phi z) (e := Error.raise 1 165 12) ?_
      show d.evalPsi r z = _
      unfold B2.evalPsi; rw [(np r z h).1]
    · refine fails_of (C63.codes_psi_dpsi (.b2 d) r phi z) (e := Error.raise 1 195 12) ?_
      show d.evalPsiDpsi r z = _
      unfold B2.evalPsiDpsi; rw [(np r z h).2]
    · refine fails_of (C63.codes_B (.b2 d) r phi z) (e := Error.raise 1 260 12) ?_
      show d.evalB r z = _
      unfold B2.evalB; rw [(na r z h).1]
    · refine fails_of (C63.codes_B_dB (.b2 d) r phi z) (e := Error.raise 1 325 12) ?_
      show d.evalBdB r z = _
      unfold B2.evalBdB; rw [(na r z h).2]
  · intro r phi z i j x y hi hj
    obtain ⟨p, p1, p2, p3⟩ := vp r z i j x y hi hj
    obtain ⟨a, a1, a2, a3⟩ := va r z i j x y hi hj
    obtain ⟨b, b1, b2, b3⟩ := vb r z i j x y hi hj
    obtain ⟨c, c1, c2, c3⟩ := vc r z i j x y hi hj
    refine ⟨p, a, b, c, p3, a3, b3, c3, ?_, ?_, fun hr => b2_value p2 a1 b1 c1 a2 b2 c2 hr⟩
    · show Bfield.withFallback _ (d.evalPsi r z) = _
      unfold B2.evalPsi; rw [p1]; rfl
    · show Bfield.withFallback _ (d.evalPsiDpsi r z) = _
      unfold B2.evalPsiDpsi; rw [p2]; rfl

/-- The values of the splines exist and are the only ones, so the theorem says what the field is. -/
theorem values2_unique {g : GridRz} (ok : GridRz.Ok g) {f : ℕ → ℕ → ℝ} {r z : ℝ} {i j : ℕ} {d e : ℝ} (hi : At g.nr g.rmin g.rmax r i d)
    (hj : At g.nz g.zmin g.zmax z j e) : ∃! v, Values2 g f i j d e v := by
  obtain ⟨o1, o2, o3, o4⟩ := ok
  have s1 : spacing g.nr .natural g.rmin g.rmax ≠ 0 := by
    have : (2 : ℝ) ≤ g.nr := by exact_mod_cast o1
    exact (div_pos (sub_pos.mpr o3) (by linarith)).ne'
  have s2 : spacing g.nz .natural g.zmin g.zmax ≠ 0 := by
    have : (2 : ℝ) ≤ g.nz := by exact_mod_cast o2
    exact (div_pos (sub_pos.mpr o4) (by linarith)).ne'
  choose v hv using fun ox oy => exists_value2 (enough_natural o1) (enough_natural o2) (spacing g.nr .natural g.rmin g.rmax)
    (spacing g.nz .natural g.zmin g.zmax) f i j d e ox oy
  refine ⟨v, hv, fun w hw => ?_⟩
  funext ox oy
  exact value2_unique (enough_natural o1) (enough_natural o2) s1 s2 (by have := hi.1; simp [Spline.cells]; omega)
    (by have := hj.1; simp [Spline.cells]; omega) (hw ox oy) (hv ox oy)

/-- At a grid point the flux is the number of the table. -/
theorem values2_grid {g : GridRz} {f : ℕ → ℕ → ℝ} {i j : ℕ} {v : Op → Op → ℝ} (hi : i + 1 < g.nr) (hj : j + 1 < g.nz)
    (h : Values2 g f i j 0 0 v) : v .val .val = f i j :=
  value2_grid (by omega) (by omega) (fun _ => hi) (fun _ => hj) (h .val .val)

/-! ## The field in three dimensions -/

theorem written3 (g : GridRpz) (p : Option GridRz) (axisr axisz psi0 psi1 : ℝ) (psi : ℕ → ℕ → ℝ) (br bphi bz : ℕ → ℕ → ℕ → ℝ) :
    ∃ w, write3D (args3 g p axisr axisz psi0 psi1 psi br bphi bz) = .done w ∧
      w.ints "b_nr" = some [(g.nr : ℤ)] ∧ w.ints "b_nz" = some [(g.nz : ℤ)] ∧ w.reals "b_rmin" = some [g.rmin] ∧
      w.reals "b_rmax" = some [g.rmax] ∧ w.reals "b_zmin" = some [g.zmin] ∧ w.reals "b_zmax" = some [g.zmax] ∧
      w.ints "b_nphi" = some [(g.nphi : ℤ)] ∧ w.reals "b_phimin" = some [g.phimin] ∧ w.reals "b_phimax" = some [g.phimax] ∧
      w.ints "psi_nr" = some [((p.getD g.toGridRz).nr : ℤ)] ∧ w.ints "psi_nz" = some [((p.getD g.toGridRz).nz : ℤ)] ∧
      w.reals "psi_rmin" = some [(p.getD g.toGridRz).rmin] ∧ w.reals "psi_rmax" = some [(p.getD g.toGridRz).rmax] ∧
      w.reals "psi_zmin" = some [(p.getD g.toGridRz).zmin] ∧ w.reals "psi_zmax" = some [(p.getD g.toGridRz).zmax] ∧
      w.reals "psi" = some (tab ((p.getD g.toGridRz).nr * (p.getD g.toGridRz).nz) fun k =>
        psi (k % (p.getD g.toGridRz).nr) (k / (p.getD g.toGridRz).nr)) ∧
      w.reals "br" = some (tab (g.nr * g.nphi * g.nz) fun k => br (k % (g.nphi * g.nr) % g.nr) (k % (g.nphi * g.nr) / g.nr) (k / (g.nphi * g.nr))) ∧
      w.reals "bphi" = some (tab (g.nr * g.nphi * g.nz) fun k => bphi (k % (g.nphi * g.nr) % g.nr) (k % (g.nphi * g.nr) / g.nr) (k / (g.nphi * g.nr))) ∧
      w.reals "bz" = some (tab (g.nr * g.nphi * g.nz) fun k => bz (k % (g.nphi * g.nr) % g.nr) (k % (g.nphi * g.nr) / g.nr) (k / (g.nphi * g.nr))) ∧
      w.reals "psi0" = some [psi0] ∧ w.reals "psi1" = some [psi1] ∧ w.reals "axisr" = some [axisr] ∧ w.reals "axisz" = some [axisz] := by
  have e : (p.getD g.toGridRz).nz * (p.getD g.toGridRz).nr = (p.getD g.toGridRz).nr * (p.getD g.toGridRz).nz := by ring
  have e3 : g.nz * (g.nphi * g.nr) = g.nr * g.nphi * g.nz := by ring
  refine ⟨?w, ?a, ?b⟩
  case a =>
    unfold write3D
    simp only [args3, nd2_T_flat, nd3_T_flat]
    rw [if_neg (by simp [nd2]), if_neg (by simp [nd3]), if_neg (by simp [nd3]), if_neg (by simp [nd3])]
    rw [createAll_done (by simp [Elems.length])]
  case b => simp [put, empty, e, e3]

@[inherit_doc b2_value]
theorem b3_value {d : B3} {r phi z : ℝ} {p : Op → Op → ℝ} {a b c : Op → Op → Op → ℝ}
    (hp : d.psi.df r z = some ⟨p .val .val, p .der .val, p .val .der, p .der2 .val, p .val .der2, p .der .der⟩)
    (ha : d.Br.f r phi z = some (a .val .val .val)) (hb : d.Bphi.f r phi z = some (b .val .val .val)) (hc : d.Bz.f r phi z = some (c .val .val .val))
    (ha' : d.Br.df r phi z = some (grad3 a)) (hb' : d.Bphi.df r phi z = some (grad3 b)) (hc' : d.Bz.df r phi z = some (grad3 c)) (hr : r ≠ 0) :
    (withFlux r p (a .val .val .val) (b .val .val .val) (c .val .val .val) = ⟨0, 0, 0⟩ →
      Fails (evalB (.b3 d) r phi z) ∧ Fails (evalBdB (.b3 d) r phi z)) ∧
    (withFlux r p (a .val .val .val) (b .val .val .val) (c .val .val .val) ≠ ⟨0, 0, 0⟩ →
      evalB (.b3 d) r phi z = some (withFlux r p (a .val .val .val) (b .val .val .val) (c .val .val .val), 0) ∧
      evalBdB (.b3 d) r phi z = some (withFluxGrad r p (grad3 a) (grad3 b) (grad3 c), 0)) := by
  classical
  have eB : d.evalB r phi z = if (withFlux r p (a .val .val .val) (b .val .val .val) (c .val .val .val)) = ⟨0, 0, 0⟩
      then .error (.err (Error.raise 3 347 11)) else .ok (withFlux r p (a .val .val .val) (b .val .val .val) (c .val .val .val)) := by
    unfold B3.evalB
    rw [ha, hb, hc, hp]
    dsimp only
    rw [if_neg hr]
    exact if_congr (zero_iff ⟨_, _, _⟩) rfl rfl
  have eJ : d.evalBdB r phi z = if (withFlux r p (a .val .val .val) (b .val .val .val) (c .val .val .val)) = ⟨0, 0, 0⟩
      then .error (.err (Error.raise 3 414 11)) else .ok (withFluxGrad r p (grad3 a) (grad3 b) (grad3 c)) := by
    unfold B3.evalBdB
    rw [ha', hb', hc', hp]
    dsimp only
    rw [if_neg hr]
    refine if_congr (zero_iff ⟨_, _, _⟩) rfl ?_
    simp only [withFluxGrad, pow_two]
  constructor
  · intro h
    rw [if_pos h] at eB eJ
    exact ⟨fails_of (C63.codes_B (.b3 d) r phi z) eB, fails_of (C63.codes_B_dB (.b3 d) r phi z) eJ⟩
  · intro h
    rw [if_neg h] at eB eJ
    constructor
    · show Bfield.withFallback _ (d.evalB r phi z) = _
      rw [eB]; rfl
    · show Bfield.withFallback _ (d.evalBdB r phi z) = _
      rw [eJ]; rfl

/-- The same with tables of the field in R, phi (degrees in the file, radians in the simulation) and z; the flux may be given on a grid of its own, otherwise it
has that of the field. -/
theorem three_dimensional (g : GridRpz) (p : Option GridRz) (ok : GridRpz.Ok g) (okp : GridRz.Ok (p.getD g.toGridRz)) (axisr axisz psi0 psi1 : ℝ)
    (psi : ℕ → ℕ → ℝ) (br bphi bz : ℕ → ℕ → ℕ → ℝ) (junk : ℕ → ℝ) :
    ∃ w data, write3D (args3 g p axisr axisz psi0 psi1 psi br bphi bz) = .done w ∧
      LoadsIf (readBfield junk (only "B_3DS" w)) data (Fails (evalB data axisr 0 axisz)) ∧
      (∀ phi, axis data phi = some ((axisr, axisz), 0)) ∧ RhoFrom data psi0 psi1 ∧
      (∀ r phi z, Outside (p.getD g.toGridRz) r z → Fails (evalPsi data r phi z) ∧ Fails (evalPsiDpsi data r phi z) ∧
        Fails (evalB data r phi z) ∧ Fails (evalBdB data r phi z)) ∧
      (∀ r phi z, Outside g.toGridRz r z → Fails (evalB data r phi z) ∧ Fails (evalBdB data r phi z)) ∧
      (∀ r phi z i j d e, At (p.getD g.toGridRz).nr (p.getD g.toGridRz).rmin (p.getD g.toGridRz).rmax r i d →
        At (p.getD g.toGridRz).nz (p.getD g.toGridRz).zmin (p.getD g.toGridRz).zmax z j e →
        ∃ q, Values2 (p.getD g.toGridRz) psi i j d e q ∧ evalPsi data r phi z = some (q .val .val, 0) ∧
          evalPsiDpsi data r phi z = some (grad2 q, 0) ∧
          ∀ k l m x y h, r ≠ 0 → At g.nr g.rmin g.rmax r k x → AtPeriodic g.nphi (rad g.phimin) (rad g.phimax) phi l y →
            At g.nz g.zmin g.zmax z m h →
            ∃ a b c, Values3 g br k l m x y h a ∧ Values3 g bphi k l m x y h b ∧ Values3 g bz k l m x y h c ∧
              (withFlux r q (a .val .val .val) (b .val .val .val) (c .val .val .val) = ⟨0, 0, 0⟩ →
                Fails (evalB data r phi z) ∧ Fails (evalBdB data r phi z)) ∧
              (withFlux r q (a .val .val .val) (b .val .val .val) (c .val .val .val) ≠ ⟨0, 0, 0⟩ →
                evalB data r phi z = some (withFlux r q (a .val .val .val) (b .val .val .val) (c .val .val .val), 0) ∧
                evalBdB data r phi z = some (withFluxGrad r q (grad3 a) (grad3 b) (grad3 c), 0))) := by
  obtain ⟨w, hw, h1, h2, h3, h4, h5, h6, h7, h8, h9, h10, h11, h12, h13, h14, h15, h16, h17, h18, h19, h20, h21, h22, h23⟩ :=
    written3 g p axisr axisz psi0 psi1 psi br bphi bz
  generalize hP : p.getD g.toGridRz = P at *
  obtain ⟨⟨o1, o2, o3, o4⟩, o5, o6⟩ := ok
  obtain ⟨q1, q2, q3, q4⟩ := okp
  have key : ∀ f : ℕ → ℕ → ℕ → ℝ, _ := fun f => spline3_spec (nr := g.nr) (np := g.nphi) (nz := g.nz) (r0 := g.rmin) (r1 := g.rmax)
    (p0 := rad g.phimin) (p1 := rad g.phimax) (z0 := g.zmin) (z1 := g.zmax)
    (t := ext junk fun k : Fin (g.nr * g.nphi * g.nz) => f (k % (g.nphi * g.nr) % g.nr) (k % (g.nphi * g.nr) / g.nr) (k / (g.nphi * g.nr)))
    f o1 o5 o2 o3 (rad_lt o6) o4
    fun i hi j hj k hk => table3 (by ring) hi hj hk
  obtain ⟨sp, ep, vp, np⟩ := spline2_spec (nr := P.nr) (nz := P.nz) (r0 := P.rmin) (r1 := P.rmax) (z0 := P.zmin) (z1 := P.zmax)
    (t := ext junk fun k : Fin (P.nr * P.nz) => psi (k % P.nr) (k / P.nr)) psi q1 q2 q3 q4
    fun i hi j hj => table2 (Nat.mul_comm _ _) hi hj
  obtain ⟨sa, ea, va, na⟩ := key br
  obtain ⟨sb, eb, vb, nb⟩ := key bphi
  obtain ⟨sc, ec, vc, nc⟩ := key bz
  set d : B3 := ⟨psi0, psi1, axisr, axisz, sp, sa, sb, sc⟩ with hd
  have hread : readBfield junk (only "B_3DS" w) = (check d (d.evalB axisr 0 axisz) >>= fun b => Res.ok (Data.b3 b)) := by
    rw [readBfield, lastFound_only (r := read3D junk) (by simp) (by simp)]
    unfold read3D
    rw [readCount_eq h1, ok_bind, readCount_eq h2, ok_bind, readReal_eq h3, ok_bind, readReal_eq h4, ok_bind, readReal_eq h5, ok_bind,
      readReal_eq h6, ok_bind, readCount_eq h7, ok_bind, readReal_eq h8, ok_bind, readReal_eq h9, ok_bind, readCount_eq h10, ok_bind,
      readCount_eq h11, ok_bind, readReal_eq h12, ok_bind, readReal_eq h13, ok_bind, readReal_eq h14, ok_bind, readReal_eq h15, ok_bind,
      readReals_tab h16, ok_bind, readReals_tab h17, ok_bind, readReals_tab h18, ok_bind, readReals_tab h19, ok_bind,
      readReal_eq h20, ok_bind, readReal_eq h21, ok_bind, readReal_eq h22, ok_bind, readReal_eq h23, ok_bind]
    unfold init3D
    rw [ep, show Options.deg2rad g.phimin = rad g.phimin from rfl, show Options.deg2rad g.phimax = rad g.phimax from rfl, ea, eb, ec]
    rfl
  obtain ⟨c1, c2⟩ := check_cases d (C63.codes_B (.b3 d) axisr 0 axisz) ⟨1, 0, 0⟩
  have hf : ∀ r phi z, d.psi.df r z = none → Fails (evalB (.b3 d) r phi z) ∧ Fails (evalBdB (.b3 d) r phi z) := by
    intro r phi z h
    constructor
    · have : ∃ e, d.evalB r phi z = .error (.err e) := by
        unfold B3.evalB; rw [h]; split <;> exact ⟨_, rfl⟩
      obtain ⟨e, he⟩ := this
      exact fails_of (C63.codes_B (.b3 d) r phi z) he
    · have : ∃ e, d.evalBdB r phi z = .error (.err e) := by
        unfold B3.evalBdB; rw [h]; split <;> exact ⟨_, rfl⟩
      obtain ⟨e, he⟩ := this
      exact fails_of (C63.codes_B_dB (.b3 d) r phi z) he
  refine ⟨w, .b3 d, hw, ⟨fun h => ?_, fun h => ?_⟩, fun phi => rfl, rho_from rfl, ?_, ?_, ?_⟩
  · rw [hread, show check d (d.evalB axisr 0 axisz) = .fail from c1 h]; rfl
  · rw [hread, show check d (d.evalB axisr 0 axisz) = .ok d from c2 h]; rfl
  · intro r phi z h
    refine ⟨?_, ?_, hf r phi z (np r z h).2⟩
    · refine fails_of (C63.codes_psi (.b3 d) r phi z) (e := Error.raise 1 231 11) ?_
      show d.evalPsi r z = _
      unfold B3.evalPsi; rw [(np r z h).1]
    · refine fails_of (C63.codes_psi_dpsi (.b3 d) r phi z) (e := Error.raise 1 262 11) ?_
      show d.evalPsiDpsi r z = _
      unfold B3.evalPsiDpsi; rw [(np r z h).2]
  · intro r phi z h
    refine ⟨?_, ?_⟩
    · refine fails_of (C63.codes_B (.b3 d) r phi z) (e := Error.raise 1 327 11) ?_
      show d.evalB r phi z = _
      unfold B3.evalB; rw [(na r phi z h).1]
    · refine fails_of (C63.codes_B_dB (.b3 d) r phi z) (e := Error.raise 1 390 11) ?_
      show d.evalBdB r phi z = _
      unfold B3.evalBdB; rw [(na r phi z h).2]
  · intro r phi z i j x y hi hj
    obtain ⟨q, p1, p2, p3⟩ := vp r z i j x y hi hj
    refine ⟨q, p3, ?_, ?_, fun k l m x y h hr hk hl hm => ?_⟩
    · show Bfield.withFallback _ (d.evalPsi r z) = _
      unfold B3.evalPsi; rw [p1]; rfl
    · show Bfield.withFallback _ (d.evalPsiDpsi r z) = _
      unfold B3.evalPsiDpsi; rw [p2]; rfl
    · obtain ⟨a, a1, a2, a3⟩ := va r phi z k l m x y h hk hl hm
      obtain ⟨b, b1, b2, b3⟩ := vb r phi z k l m x y h hk hl hm
      obtain ⟨c, c1, c2, c3⟩ := vc r phi z k l m x y h hk hl hm
      exact ⟨a, b, c, a3, b3, c3, b3_value p2 a1 b1 c1 a2 b2 c2 hr⟩

@[inherit_doc values2_unique]
theorem values3_unique {g : GridRpz} (ok : GridRpz.Ok g) {f : ℕ → ℕ → ℕ → ℝ} {r phi z : ℝ} {i j k : ℕ} {d e h : ℝ} (hi : At g.nr g.rmin g.rmax r i d)
    (hj : AtPeriodic g.nphi (rad g.phimin) (rad g.phimax) phi j e) (hk : At g.nz g.zmin g.zmax z k h) : ∃! v, Values3 g f i j k d e h v := by
  obtain ⟨⟨o1, o2, o3, o4⟩, o5, o6⟩ := ok
  have s1 : spacing g.nr .natural g.rmin g.rmax ≠ 0 := by
    have : (2 : ℝ) ≤ g.nr := by exact_mod_cast o1
    exact (div_pos (sub_pos.mpr o3) (by linarith)).ne'
  have s2 : spacing g.nz .natural g.zmin g.zmax ≠ 0 := by
    have : (2 : ℝ) ≤ g.nz := by exact_mod_cast o2
    exact (div_pos (sub_pos.mpr o4) (by linarith)).ne'
  have s3 : spacing g.nphi .periodic (rad g.phimin) (rad g.phimax) ≠ 0 := by
    have : (3 : ℝ) ≤ g.nphi := by exact_mod_cast o5
    exact (div_pos (sub_pos.mpr (rad_lt o6)) (by linarith)).ne'
  choose v hv using fun ox oy oz => exists_value3 (enough_natural o1) (enough_periodic o5) (enough_natural o2) (spacing g.nr .natural g.rmin g.rmax)
    (spacing g.nphi .periodic (rad g.phimin) (rad g.phimax)) (spacing g.nz .natural g.zmin g.zmax) f i j k d e h ox oy oz
  refine ⟨v, hv, fun w hw => ?_⟩
  funext ox oy oz
  exact value3_unique (enough_natural o1) (enough_periodic o5) (enough_natural o2) s1 s3 s2 (by have := hi.1; simp [Spline.cells]; omega)
    (by have := hj.1; simp [Spline.cells]; omega) (by have := hk.1; simp [Spline.cells]; omega) (hw ox oy oz) (hv ox oy oz)

/-- At a grid point the value is the number of the table; the angle of point `j` is `j` parts of the period, in degrees, after the first one. -/
theorem values3_grid {g : GridRpz} {f : ℕ → ℕ → ℕ → ℝ} {i j k : ℕ} {v : Op → Op → Op → ℝ} (hi : i + 1 < g.nr) (hj : j < g.nphi) (hk : k + 1 < g.nz)
    (h : Values3 g f i j k 0 0 0 v) : v .val .val .val = f i j k :=
  value3_grid (by omega) hj (by omega) (fun _ => hi) (by simp) (fun _ => hk) (h .val .val .val)

theorem at_grid_angle {n : ℕ} {lo hi : ℝ} {j : ℕ} (hj : j < n) :
    AtPeriodic n (rad lo) (rad hi) (rad (lo + j * ((hi - lo) / n))) j 0 :=
  ⟨hj, le_refl _, one_pos, 0, by unfold rad; push_cast; ring⟩

/-! ## The stellarator field -/

theorem writtenSTS (g : GridRpz) (p : Option GridRpz) (na : ℕ) (a0 a1 : ℝ) (axisr axisz : ℕ → ℝ) (psi0 psi1 : ℝ)
    (psi br bphi bz : ℕ → ℕ → ℕ → ℝ) :
    ∃ w, writeSTS (argsSTS g p na a0 a1 axisr axisz psi0 psi1 psi br bphi bz) = .done w ∧
      w.ints "b_nr" = some [(g.nr : ℤ)] ∧ w.ints "b_nz" = some [(g.nz : ℤ)] ∧ w.reals "b_rmin" = some [g.rmin] ∧
      w.reals "b_rmax" = some [g.rmax] ∧ w.reals "b_zmin" = some [g.zmin] ∧ w.reals "b_zmax" = some [g.zmax] ∧
      w.ints "b_nphi" = some [(g.nphi : ℤ)] ∧ w.reals "b_phimin" = some [g.phimin] ∧ w.reals "b_phimax" = some [g.phimax] ∧
      w.ints "psi_nr" = some [((p.getD g).nr : ℤ)] ∧ w.ints "psi_nz" = some [((p.getD g).nz : ℤ)] ∧
      w.reals "psi_rmin" = some [(p.getD g).rmin] ∧ w.reals "psi_rmax" = some [(p.getD g).rmax] ∧
      w.reals "psi_zmin" = some [(p.getD g).zmin] ∧ w.reals "psi_zmax" = some [(p.getD g).zmax] ∧
      w.ints "psi_nphi" = some [((p.getD g).nphi : ℤ)] ∧ w.reals "psi_phimin" = some [(p.getD g).phimin] ∧
      w.reals "psi_phimax" = some [(p.getD g).phimax] ∧
      w.ints "axis_nphi" = some [(na : ℤ)] ∧ w.reals "axis_phimin" = some [a0] ∧ w.reals "axis_phimax" = some [a1] ∧
      w.reals "psi0" = some [psi0] ∧ w.reals "psi1" = some [psi1] ∧
      w.reals "br" = some (tab (g.nr * g.nphi * g.nz) fun k => br (k % (g.nphi * g.nr) % g.nr) (k % (g.nphi * g.nr) / g.nr) (k / (g.nphi * g.nr))) ∧
      w.reals "bphi" = some (tab (g.nr * g.nphi * g.nz) fun k => bphi (k % (g.nphi * g.nr) % g.nr) (k % (g.nphi * g.nr) / g.nr) (k / (g.nphi * g.nr))) ∧
      w.reals "bz" = some (tab (g.nr * g.nphi * g.nz) fun k => bz (k % (g.nphi * g.nr) % g.nr) (k % (g.nphi * g.nr) / g.nr) (k / (g.nphi * g.nr))) ∧
      w.reals "psi" = some (tab ((p.getD g).nr * (p.getD g).nphi * (p.getD g).nz) fun k =>
        psi (k % ((p.getD g).nphi * (p.getD g).nr) % (p.getD g).nr) (k % ((p.getD g).nphi * (p.getD g).nr) / (p.getD g).nr)
          (k / ((p.getD g).nphi * (p.getD g).nr))) ∧
      w.reals "axisr" = some (tab na axisr) ∧ w.reals "axisz" = some (tab na axisz) := by
  have e : (p.getD g).nz * ((p.getD g).nphi * (p.getD g).nr) = (p.getD g).nr * (p.getD g).nphi * (p.getD g).nz := by ring
  have e3 : g.nz * (g.nphi * g.nr) = g.nr * g.nphi * g.nz := by ring
  refine ⟨?w, ?a, ?b⟩
  case a =>
    unfold writeSTS
    simp only [argsSTS, nd3_T_flat]
    rw [if_neg (by simp [nd3]), if_neg (by simp [nd3]), if_neg (by simp [nd3]), if_neg (by simp [nd3])]
    rw [createAll_done (by simp [Elems.length])]
  case b => simp [put, empty, e, e3]

theorem periodic_on {n : ℕ} {lo hi x d : ℝ} {i : ℕ} (h : AtPeriodic n lo hi x i d) : Linint.On (Linint.Axis.init n .periodic lo hi) x i d := by
  obtain ⟨h1, h2, h3, k, h4⟩ := h
  exact ⟨h1, by simp [Linint.Axis.init], h2, h3, k, by simp [Linint.Axis.init], by simp [Linint.Axis.init, Linint.gridOf, h4]⟩

theorem tab_getD (n : ℕ) (f : ℕ → ℝ) {i : ℕ} (h : i < n) : (tab n f).getD i 0 = f i := by simp [tab, h]

theorem axis_value {na i : ℕ} {a0 a1 phi d : ℝ} (t : ℕ → ℝ) (ha : a0 < a1) (h : AtPeriodic na (rad a0) (rad a1) phi i d) :
    (Linint.eval1D (Linint.Axis.init na .periodic (rad a0) (rad a1)) (tab na t) phi).join = some (Linint.line (t i) (t ((i + 1) % na)) d) := by
  rw [C35.value1 (rad_lt ha) (tab_length na t) (periodic_on h)]
  simp only [Option.join_some, Linint.cell1]
  rw [tab_getD _ _ h.1, tab_getD _ _ (Nat.mod_lt _ (by have := h.1; omega))]

/-- The field of a stellarator: it is that of the tables, to which no field of the flux is added; the axis is interpolated between its points.  The program stops
if there is no axis or neither flux nor field can be evaluated there, at phi = 0. -/
theorem stellarator (g : GridRpz) (p : Option GridRpz) (ok : GridRpz.Ok g) (okp : GridRpz.Ok (p.getD g)) (na : ℕ) (a0 a1 : ℝ) (ha : a0 < a1)
    (axisr axisz : ℕ → ℝ) (psi0 psi1 : ℝ) (psi br bphi bz : ℕ → ℕ → ℕ → ℝ) (junk : ℕ → ℝ) :
    ∃ w data, writeSTS (argsSTS g p na a0 a1 axisr axisz psi0 psi1 psi br bphi bz) = .done w ∧
      LoadsIf (readBfield junk (only "B_STS" w)) data
        (Fails (axis data 0) ∨ ∃ r z, axis data 0 = some ((r, z), 0) ∧ (Fails (evalPsi data r 0 z) ∨ Fails (evalB data r 0 z))) ∧
      (∀ phi i d, AtPeriodic na (rad a0) (rad a1) phi i d →
        axis data phi = some ((Linint.line (axisr i) (axisr ((i + 1) % na)) d, Linint.line (axisz i) (axisz ((i + 1) % na)) d), 0)) ∧
      RhoFrom data psi0 psi1 ∧
      (∀ r phi z, Outside (p.getD g).toGridRz r z → Fails (evalPsi data r phi z) ∧ Fails (evalPsiDpsi data r phi z)) ∧
      (∀ r phi z, Outside g.toGridRz r z → Fails (evalB data r phi z) ∧ Fails (evalBdB data r phi z)) ∧
      (∀ r phi z i j k d e h, At (p.getD g).nr (p.getD g).rmin (p.getD g).rmax r i d →
        AtPeriodic (p.getD g).nphi (rad (p.getD g).phimin) (rad (p.getD g).phimax) phi j e →
        At (p.getD g).nz (p.getD g).zmin (p.getD g).zmax z k h →
        ∃ q, Values3 (p.getD g) psi i j k d e h q ∧ evalPsi data r phi z = some (q .val .val .val, 0) ∧
          evalPsiDpsi data r phi z = some (grad3 q, 0)) ∧
      ∀ r phi z i j k d e h, At g.nr g.rmin g.rmax r i d → AtPeriodic g.nphi (rad g.phimin) (rad g.phimax) phi j e → At g.nz g.zmin g.zmax z k h →
        ∃ a b c, Values3 g br i j k d e h a ∧ Values3 g bphi i j k d e h b ∧ Values3 g bz i j k d e h c ∧
          ((⟨a .val .val .val, b .val .val .val, c .val .val .val⟩ : V3 ℝ) = ⟨0, 0, 0⟩ → Fails (evalB data r phi z) ∧ Fails (evalBdB data r phi z)) ∧
          ((⟨a .val .val .val, b .val .val .val, c .val .val .val⟩ : V3 ℝ) ≠ ⟨0, 0, 0⟩ →
            evalB data r phi z = some (⟨a .val .val .val, b .val .val .val, c .val .val .val⟩, 0) ∧
            evalBdB data r phi z = some (⟨grad3 a, grad3 b, grad3 c⟩, 0)) := by
  obtain ⟨w, hw, h1, h2, h3, h4, h5, h6, h7, h8, h9, h10, h11, h12, h13, h14, h15, h16, h17, h18, h19, h20, h21, h22, h23, h24, h25, h26, h27, h28, h29⟩ :=
    writtenSTS g p na a0 a1 axisr axisz psi0 psi1 psi br bphi bz
  generalize hP : p.getD g = P at *
  have key : ∀ (g : GridRpz) (ok : GridRpz.Ok g) (f : ℕ → ℕ → ℕ → ℝ), _ := fun g ok f => spline3_spec (nr := g.nr) (np := g.nphi) (nz := g.nz)
    (r0 := g.rmin) (r1 := g.rmax) (p0 := rad g.phimin) (p1 := rad g.phimax) (z0 := g.zmin) (z1 := g.zmax)
    (t := ext junk fun k : Fin (g.nr * g.nphi * g.nz) => f (k % (g.nphi * g.nr) % g.nr) (k % (g.nphi * g.nr) / g.nr) (k / (g.nphi * g.nr)))
    f ok.1.1 ok.2.1 ok.1.2.1 ok.1.2.2.1 (rad_lt ok.2.2) ok.1.2.2.2
    fun i hi j hj k hk => table3 (by ring) hi hj hk
  obtain ⟨sp, ep, vp, np⟩ := key P okp psi
  obtain ⟨sa, ea, va, na'⟩ := key g ok br
  obtain ⟨sb, eb, vb, nb⟩ := key g ok bphi
  obtain ⟨sc, ec, vc, nc⟩ := key g ok bz
  set d : STS := ⟨psi0, psi1, fun phi => (Linint.eval1D (Linint.Axis.init na .periodic (rad a0) (rad a1)) (tab na axisr) phi).join,
      fun phi => (Linint.eval1D (Linint.Axis.init na .periodic (rad a0) (rad a1)) (tab na axisz) phi).join, sp, sa, sb, sc⟩ with hd
  have hread : readBfield junk (only "B_STS" w) = ((match d.axis 0 with
      | .error _ => Res.fail
      | .ok (r, z) =>
        match d.evalPsi r 0 z with
        | .error (.err _) => .fail
        | _ => check d (d.evalB r 0 z)) >>= fun b => Res.ok (Data.sts b)) := by
    rw [readBfield, lastFound_only (r := readSTS junk) (by simp) (by simp)]
    unfold readSTS
    rw [readCount_eq h1, ok_bind, readCount_eq h2, ok_bind, readReal_eq h3, ok_bind, readReal_eq h4, ok_bind, readReal_eq h5, ok_bind,
      readReal_eq h6, ok_bind, readCount_eq h7, ok_bind, readReal_eq h8, ok_bind, readReal_eq h9, ok_bind, readCount_eq h10, ok_bind,
      readCount_eq h11, ok_bind, readReal_eq h12, ok_bind, readReal_eq h13, ok_bind, readReal_eq h14, ok_bind, readReal_eq h15, ok_bind,
      readCount_eq h16, ok_bind, readReal_eq h17, ok_bind, readReal_eq h18, ok_bind, readCount_eq h19, ok_bind, readReal_eq h20, ok_bind,
      readReal_eq h21, ok_bind, readReal_eq h22, ok_bind, readReal_eq h23, ok_bind, readReals_tab h24, ok_bind, readReals_tab h25, ok_bind,
      readReals_tab h26, ok_bind, readReals_tab h27, ok_bind, readReals_tab h28, ok_bind, readReals_tab h29, ok_bind]
    unfold initSTS
    rw [ofFn_tab na axisr, ofFn_tab na axisz]
    simp only [show ∀ x, Options.deg2rad x = rad x from fun _ => rfl]
    rw [ep, ea, eb, ec]
    rfl
  refine ⟨w, .sts d, hw, ⟨fun h => ?_, fun h => ?_⟩, ?_, rho_from rfl, ?_, ?_, ?_, ?_⟩
  · rw [hread]
    rcases h with ⟨v, e, h, h0⟩ | ⟨r, z, h, h'⟩
    · change Bfield.withFallback (1, 0) (d.axis 0) = _ at h
      rcases hx : d.axis 0 with x | x
      · rfl
      · rw [hx] at h
        simp [Bfield.withFallback] at h
        exact absurd h.2.symm h0
    · change Bfield.withFallback (1, 0) (d.axis 0) = _ at h
      have hx : d.axis 0 = .ok (r, z) := by
        rcases C63.fallback_or (C63.codes_axis (.sts d) 0) h with h | h
        · exact absurd rfl h.1
        · exact h.2
      rw [hx]
      dsimp only
      rcases hy : d.evalPsi r 0 z with (y | _) | y
      · rfl
      · have : d.evalPsi r 0 z ≠ .error .nan := by unfold STS.evalPsi; split <;> simp
        exact absurd hy this
      · dsimp only
        rcases h' with ⟨v, e, h', h0⟩ | h'
        · change Bfield.withFallback 1 (d.evalPsi r 0 z) = _ at h'
          rw [hy] at h'
          simp [Bfield.withFallback] at h'
          exact absurd h'.2.symm h0
        · rw [show check d (d.evalB r 0 z) = .fail from (check_cases d (C63.codes_B (.sts d) r 0 z) ⟨1, 0, 0⟩).1 h']; rfl
  · rw [hread]
    rcases hx : d.axis 0 with x | ⟨r, z⟩
    · exfalso
      apply h
      left
      rcases x with e | _
      · exact fails_of (C63.codes_axis (.sts d) 0) hx
      · have : d.axis 0 ≠ .error .nan := by unfold STS.axis; split <;> simp
        exact absurd hx this
    · have hax : axis (.sts d) 0 = some ((r, z), 0) := by
        show Bfield.withFallback (1, 0) (d.axis 0) = _
        rw [hx]; rfl
      have h' : ¬ (Fails (evalPsi (.sts d) r 0 z) ∨ Fails (evalB (.sts d) r 0 z)) := fun hh => h (.inr ⟨r, z, hax, hh⟩)
      push Not at h'
      dsimp only
      rcases hy : d.evalPsi r 0 z with (y | _) | y
      · exact absurd (fails_of (C63.codes_psi (.sts d) r 0 z) hy) h'.1
      · dsimp only
        rw [show check d (d.evalB r 0 z) = .ok d from (check_cases d (C63.codes_B (.sts d) r 0 z) ⟨1, 0, 0⟩).2 h'.2]; rfl
      · dsimp only
        rw [show check d (d.evalB r 0 z) = .ok d from (check_cases d (C63.codes_B (.sts d) r 0 z) ⟨1, 0, 0⟩).2 h'.2]; rfl
  · intro phi i x hi
    show Bfield.withFallback (1, 0) (d.axis phi) = _
    have : d.axis phi = .ok (Linint.line (axisr i) (axisr ((i + 1) % na)) x, Linint.line (axisz i) (axisz ((i + 1) % na)) x) := by
      unfold STS.axis
      rw [show d.axisR phi = _ from axis_value axisr ha hi, show d.axisZ phi = _ from axis_value axisz ha hi]
    rw [this]; rfl
  · intro r phi z h
    refine ⟨?_, ?_⟩
    · refine fails_of (C63.codes_psi (.sts d) r phi z) (e := Error.raise 1 227 13) ?_
      show d.evalPsi r phi z = _
      unfold STS.evalPsi; rw [(np r phi z h).1]
    · refine fails_of (C63.codes_psi_dpsi (.sts d) r phi z) (e := Error.raise 1 269 13) ?_
      show d.evalPsiDpsi r phi z = _
      unfold STS.evalPsiDpsi; rw [(np r phi z h).2]
  · intro r phi z h
    refine ⟨?_, ?_⟩
    · refine fails_of (C63.codes_B (.sts d) r phi z) (e := Error.raise 1 345 13) ?_
      show d.evalB r phi z = _
      unfold STS.evalB; rw [(na' r phi z h).1]
    · refine fails_of (C63.codes_B_dB (.sts d) r phi z) (e := Error.raise 1 399 13) ?_
      show d.evalBdB r phi z = _
      unfold STS.evalBdB; rw [(na' r phi z h).2]
  · intro r phi z i j k x y h hi hj hk
    obtain ⟨q, q1, q2, q3⟩ := vp r phi z i j k x y h hi hj hk
    refine ⟨q, q3, ?_, ?_⟩
    · show Bfield.withFallback _ (d.evalPsi r phi z) = _
      unfold STS.evalPsi; rw [q1]; rfl
    · show Bfield.withFallback _ (d.evalPsiDpsi r phi z) = _
      unfold STS.evalPsiDpsi; rw [q2]; rfl
  · intro r phi z i j k x y h hi hj hk
    obtain ⟨a, a1, a2, a3⟩ := va r phi z i j k x y h hi hj hk
    obtain ⟨b, b1, b2, b3⟩ := vb r phi z i j k x y h hi hj hk
    obtain ⟨c, c1, c2, c3⟩ := vc r phi z i j k x y h hi hj hk
    refine ⟨a, b, c, a3, b3, c3, ?_⟩
    have z0 := zero_iff ⟨a .val .val .val, b .val .val .val, c .val .val .val⟩
    constructor
    · intro h0
      constructor
      · refine fails_of (C63.codes_B (.sts d) r phi z) (e := Error.raise 3 352 13) ?_
        show d.evalB r phi z = _
        unfold STS.evalB; rw [a1, b1, c1]; exact if_pos (z0.2 h0)
      · refine fails_of (C63.codes_B_dB (.sts d) r phi z) (e := Error.raise 3 406 13) ?_
        show d.evalBdB r phi z = _
        unfold STS.evalBdB; rw [a2, b2, c2]; exact if_pos (z0.2 h0)
    · intro h0
      constructor
      · show Bfield.withFallback _ (d.evalB r phi z) = _
        have : d.evalB r phi z = .ok ⟨a .val .val .val, b .val .val .val, c .val .val .val⟩ := by
          unfold STS.evalB; rw [a1, b1, c1]; exact if_neg fun h => h0 (z0.1 h)
        rw [this]; rfl
      · show Bfield.withFallback _ (d.evalBdB r phi z) = _
        have : d.evalBdB r phi z = .ok ⟨grad3 a, grad3 b, grad3 c⟩ := by
          unfold STS.evalBdB; rw [a2, b2, c2]; exact if_neg fun h => h0 (z0.1 h)
        rw [this]; rfl

end Ascot.C138
