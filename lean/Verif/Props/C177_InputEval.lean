import Verif.Model.InputEval
import Verif.Spec.InputEval
import Mathlib.Analysis.SpecialFunctions.Pow.Deriv
import Mathlib.Tactic.Ring
import Mathlib.Tactic.FieldSimp
import Mathlib.Tactic.Linarith

/-!
# C177: inputs evaluated in the Python interface

Each value is that of its own point, on a grid and along a list of points; the quantities derived from the magnetic field
are the divergence, the curl, the current and the gradient of the magnitude.
-/
set_option linter.unusedSectionVars false
set_option linter.unusedSimpArgs false

namespace Ascot.C177
open Ascot.InputEval

/-! ## Points -/

theorem flatMap_get {α β : Type*} (f : α → List β) (n : ℕ) (hf : ∀ a, (f a).length = n) (l : List α) (i j : ℕ) (hj : j < n) :
    (l.flatMap f)[i * n + j]? = l[i]?.bind fun a => (f a)[j]? := by
  induction l generalizing i with
  | nil => simp
  | cons a l ih =>
    rw [List.flatMap_cons]
    cases i with
    | zero => simp [List.getElem?_append_left, hf, hj]
    | succ i =>
      rw [List.getElem?_append_right (by rw [hf]; nlinarith), hf, show (i + 1) * n + j - n = i * n + j by
        rw [Nat.add_mul]; omega, ih i]
      simp

theorem flatMap_len {α β : Type*} (f : α → List β) (n : ℕ) (hf : ∀ a, (f a).length = n) (l : List α) :
    (l.flatMap f).length = l.length * n := by
  induction l with
  | nil => simp
  | cons a l ih => rw [List.flatMap_cons, List.length_append, hf, ih, List.length_cons, Nat.add_mul]; omega

theorem mesh_get (r phi z t : List ℝ) (i j k m : ℕ) (hj : j < phi.length) (hk : k < z.length) (hm : m < t.length) :
    (mesh r phi z t)[((i * phi.length + j) * z.length + k) * t.length + m]? =
      r[i]?.bind fun a => phi[j]?.bind fun b => z[k]?.bind fun c => t[m]?.map fun d => (a, b, c, d) := by
  have h1 : ∀ a b c, (t.map fun d => ((a, b, c, d) : Pt)).length = t.length := by simp
  have h2 : ∀ a b, (z.flatMap fun c => t.map fun d => ((a, b, c, d) : Pt)).length = z.length * t.length :=
    fun a b => flatMap_len _ _ (h1 a b) z
  have h3 : ∀ a, (phi.flatMap fun b => z.flatMap fun c => t.map fun d => ((a, b, c, d) : Pt)).length
      = phi.length * (z.length * t.length) := fun a => flatMap_len _ _ (h2 a) phi
  have b2 : k * t.length + m < z.length * t.length := by nlinarith
  have b3 : j * (z.length * t.length) + (k * t.length + m) < phi.length * (z.length * t.length) := by
    have : (j + 1) * (z.length * t.length) ≤ phi.length * (z.length * t.length) := Nat.mul_le_mul_right _ hj
    nlinarith
  unfold mesh
  rw [show ((i * phi.length + j) * z.length + k) * t.length + m
      = i * (phi.length * (z.length * t.length)) + (j * (z.length * t.length) + (k * t.length + m)) by ring,
    flatMap_get _ _ h3 r _ _ b3]
  congr 1; funext a
  rw [flatMap_get _ _ (h2 a) phi _ _ b2]
  congr 1; funext b
  rw [flatMap_get _ _ (h1 a b) z _ _ hm]
  congr 1; funext c
  rw [List.getElem?_map]

/-- **On a grid**, element `[i, j, k, m]` of each quantity is its value at `(r_i, phi_j, z_k, t_m)`. -/
theorem grid (mu0 : ℝ) (ev : Ev) (ions : Pt → List Ion) (r phi z t : List ℝ) (qnt : List String)
    (out : List (List (Option ℝ))) (h : eval mu0 ev ions r phi z t qnt true = some out) (n : ℕ) (q : String)
    (hq : qnt[n]? = some q) (i j k m : ℕ) (hi : i < r.length) (hj : j < phi.length) (hk : k < z.length) (hm : m < t.length) :
    ∃ l, out[n]? = some l ∧ l.length = r.length * (phi.length * (z.length * t.length)) ∧
      entry phi.length z.length t.length l i j k m = some (value mu0 ev ions q (r[i], phi[j], z[k], t[m])) := by
  unfold eval at h
  simp only [if_true, Option.bind_some] at h
  split at h
  · injection h with h
    subst h
    refine ⟨(mesh r phi z t).map (value mu0 ev ions q), by simp [hq], ?_, ?_⟩
    · rw [List.length_map]; unfold mesh
      exact flatMap_len _ _ (fun a => flatMap_len _ _ (fun b => flatMap_len _ _ (by simp) z) phi) r
    · unfold entry
      rw [List.getElem?_map, mesh_get r phi z t i j k m hj hk hm]
      simp [hi, hj, hk, hm]
  · exact absurd h (by simp)

theorem spread_get (n : ℕ) (l : List ℝ) (h : l.length = 1 ∨ l.length = n) (i : ℕ) (hi : i < n) :
    (spread n l)[i]? = Spec.coord l i ∧ (spread n l).length = n := by
  unfold spread Spec.coord
  match l with
  | [] => simp at h; omega
  | [x] => simp [hi]
  | x :: y :: l =>
    have h1 : (x :: y :: l).length = n := by rcases h with h | h <;> simp_all
    have h2 : (x :: y :: l).length ≠ 1 := by simp
    exact ⟨by rw [if_neg h2], h1⟩

/-- **Along a list of points**, value number `i` of each quantity is its value at point number `i`, where an array of
one element stands for all points.  There are as many values as points. -/
theorem points (mu0 : ℝ) (ev : Ev) (ions : Pt → List Ion) (r phi z t : List ℝ) (qnt : List String)
    (out : List (List (Option ℝ))) (h : eval mu0 ev ions r phi z t qnt false = some out) (n : ℕ) (q : String)
    (hq : qnt[n]? = some q) (i : ℕ) (hi : i < r.length ∨ i < phi.length ∨ i < z.length ∨ i < t.length) :
    ∃ l a b c d, out[n]? = some l ∧ Spec.coord r i = some a ∧ Spec.coord phi i = some b ∧ Spec.coord z i = some c ∧
      Spec.coord t i = some d ∧ l[i]? = some (value mu0 ev ions q (a, b, c, d)) ∧
      l.length = max (max r.length phi.length) (max z.length t.length) := by
  unfold eval broadcast at h
  simp only [Bool.false_eq_true, if_false] at h
  generalize hN : max (max r.length phi.length) (max z.length t.length) = N at h ⊢
  have hi : i < N := by omega
  by_cases hs : (r.length = 1 ∨ r.length = N) ∧ (phi.length = 1 ∨ phi.length = N) ∧ (z.length = 1 ∨ z.length = N) ∧
      (t.length = 1 ∨ t.length = N)
  · rw [if_pos hs, Option.bind_some] at h
    obtain ⟨h1, h2, h3, h4⟩ := hs
    obtain ⟨g1, l1⟩ := spread_get N r h1 i hi
    obtain ⟨g2, l2⟩ := spread_get N phi h2 i hi
    obtain ⟨g3, l3⟩ := spread_get N z h3 i hi
    obtain ⟨g4, l4⟩ := spread_get N t h4 i hi
    split at h
    · injection h with h
      subst h
      have e1 := List.getElem?_eq_getElem (l := spread N r) (i := i) (by omega)
      have e2 := List.getElem?_eq_getElem (l := spread N phi) (i := i) (by omega)
      have e3 := List.getElem?_eq_getElem (l := spread N z) (i := i) (by omega)
      have e4 := List.getElem?_eq_getElem (l := spread N t) (i := i) (by omega)
      refine ⟨_, _, _, _, _, by rw [List.getElem?_map, hq]; rfl, g1 ▸ e1, g2 ▸ e2, g3 ▸ e3, g4 ▸ e4, ?_, ?_⟩
      · rw [List.getElem?_map, List.getElem?_eq_getElem (by simp; omega)]
        simp
      · simp; omega
    · exact absurd h (by simp)
  · rw [if_neg hs] at h
    exact absurd h (by simp)

/-- **Refusal**: arrays whose sizes do not fit are refused, and so are names that are not known. -/
theorem refused (mu0 : ℝ) (ev : Ev) (ions : Pt → List Ion) (r phi z t : List ℝ) (qnt : List String) :
    ((∃ a ∈ [r.length, phi.length, z.length, t.length], ∃ b ∈ [r.length, phi.length, z.length, t.length],
        a ≠ 1 ∧ b ≠ 1 ∧ a ≠ b) → eval mu0 ev ions r phi z t qnt false = none) ∧
      (∀ q ∈ qnt, q ∉ names → ∀ g, eval mu0 ev ions r phi z t qnt g = none) := by
  constructor
  · intro h
    have : broadcast r phi z t = none := by
      unfold broadcast
      rw [if_neg]
      rintro ⟨h1, h2, h3, h4⟩
      obtain ⟨a, ha, b, hb, h5, h6, h7⟩ := h
      simp only [List.mem_cons, List.not_mem_nil, or_false] at ha hb
      omega
    simp [eval, this]
  · intro q hq hn g
    unfold eval
    cases (if g then some (mesh r phi z t) else broadcast r phi z t) with
    | none => rfl
    | some l => rw [Option.bind_some, if_neg fun h => hn (h q hq)]

/-- **Every quantity that is listed** can be evaluated, on any grid and at any points of fitting sizes. -/
theorem listed (mu0 : ℝ) (ev : Ev) (ions : Pt → List Ion) (r phi z t : List ℝ) (qnt : List String)
    (h : ∀ q ∈ qnt, q ∈ Spec.listed) :
    (eval mu0 ev ions r phi z t qnt true).isSome ∧
      (phi.length ∈ [1, r.length] → z.length ∈ [1, r.length] → t.length ∈ [1, r.length] → r ≠ [] →
        (eval mu0 ev ions r phi z t qnt false).isSome) := by
  have hn : ∀ q ∈ qnt, q ∈ names := fun q hq =>
    (show ∀ q ∈ Spec.listed, q ∈ names by decide +kernel) q (h q hq)
  constructor
  · unfold eval
    rw [if_pos rfl, Option.bind_some, if_pos hn]; rfl
  · intro h1 h2 h3 h4
    have h5 : 0 < r.length := List.length_pos_iff.mpr h4
    simp only [List.mem_cons, List.not_mem_nil, or_false] at h1 h2 h3
    unfold eval broadcast
    rw [if_neg (by simp), if_pos (by omega), Option.bind_some, if_pos hn]; rfl

/-! ## Quantities derived from the field -/

/-- The library stores the field `B` and its derivatives at the point `(r, phi, z, t)`. -/
structure Stored (ev : Ev) (B : Spec.VField) (r phi z t : ℝ) : Prop where
  br : ev "br" (r, phi, z, t) = some (B.R r phi z)
  bphi : ev "bphi" (r, phi, z, t) = some (B.P r phi z)
  bz : ev "bz" (r, phi, z, t) = some (B.Z r phi z)
  brdr : ev "brdr" (r, phi, z, t) = some (Spec.dR B.R r phi z)
  brdphi : ev "brdphi" (r, phi, z, t) = some (Spec.dP B.R r phi z)
  brdz : ev "brdz" (r, phi, z, t) = some (Spec.dZ B.R r phi z)
  bphidr : ev "bphidr" (r, phi, z, t) = some (Spec.dR B.P r phi z)
  bphidphi : ev "bphidphi" (r, phi, z, t) = some (Spec.dP B.P r phi z)
  bphidz : ev "bphidz" (r, phi, z, t) = some (Spec.dZ B.P r phi z)
  bzdr : ev "bzdr" (r, phi, z, t) = some (Spec.dR B.Z r phi z)
  bzdphi : ev "bzdphi" (r, phi, z, t) = some (Spec.dP B.Z r phi z)
  bzdz : ev "bzdz" (r, phi, z, t) = some (Spec.dZ B.Z r phi z)

theorem stored_field {ev : Ev} {B : Spec.VField} {r phi z t : ℝ} (h : Stored ev B r phi z t) :
    field ev (r, phi, z, t) = some ⟨B.R r phi z, B.P r phi z, B.Z r phi z, Spec.dR B.R r phi z, Spec.dP B.R r phi z,
      Spec.dZ B.R r phi z, Spec.dR B.P r phi z, Spec.dP B.P r phi z, Spec.dZ B.P r phi z, Spec.dR B.Z r phi z,
      Spec.dP B.Z r phi z, Spec.dZ B.Z r phi z⟩ := by
  simp [field, h.br, h.bphi, h.bz, h.brdr, h.brdphi, h.brdz, h.bphidr, h.bphidphi, h.bphidz, h.bzdr, h.bzdphi, h.bzdz]

theorem dR_mul (f : ℝ → ℝ → ℝ → ℝ) (r p z : ℝ) (h : DifferentiableAt ℝ (fun x => f x p z) r) :
    Spec.dR (fun x p z => x * f x p z) r p z = f r p z + r * Spec.dR f r p z := by
  have := ((hasDerivAt_id r).mul h.hasDerivAt).deriv
  simp only [id, one_mul] at this
  exact this

theorem sqrt_deriv (f g h : ℝ → ℝ) (x : ℝ) (hf : DifferentiableAt ℝ f x) (hg : DifferentiableAt ℝ g x)
    (hh : DifferentiableAt ℝ h x) (h0 : f x ^ 2 + g x ^ 2 + h x ^ 2 ≠ 0) :
    deriv (fun y => Real.sqrt (f y ^ 2 + g y ^ 2 + h y ^ 2)) x =
      (f x * deriv f x + g x * deriv g x + h x * deriv h x) / Real.sqrt (f x ^ 2 + g x ^ 2 + h x ^ 2) := by
  have h1 := (((hf.hasDerivAt.pow 2).add (hg.hasDerivAt.pow 2)).add (hh.hasDerivAt.pow 2)).sqrt h0
  refine h1.deriv.trans ?_
  have h2 : Real.sqrt (f x ^ 2 + g x ^ 2 + h x ^ 2) ≠ 0 := by
    rw [Real.sqrt_ne_zero (by positivity)]; exact h0
  simp only [Pi.add_apply, Pi.pow_apply]
  field_simp
  push_cast
  ring

/-- **Divergence, curl and current**: `divb` is the divergence of the field, `curlbr`, `curlbphi`, `curlbz` its curl, and
the current density satisfies Ampère's law `curl B = mu0 j`. -/
theorem divergence_curl (mu0 : ℝ) (hmu : mu0 ≠ 0) (ev : Ev) (ions : Pt → List Ion) (B : Spec.VField) (r phi z t : ℝ)
    (hr : r ≠ 0) (h : Stored ev B r phi z t) (hR : Spec.Smooth B.R r phi z) (hP : Spec.Smooth B.P r phi z) :
    value mu0 ev ions "divb" (r, phi, z, t) = some (Spec.div B r phi z) ∧
      value mu0 ev ions "curlbr" (r, phi, z, t) = some (Spec.curlR B r phi z) ∧
      value mu0 ev ions "curlbphi" (r, phi, z, t) = some (Spec.curlP B r phi z) ∧
      value mu0 ev ions "curlbz" (r, phi, z, t) = some (Spec.curlZ B r phi z) ∧
      ∃ jR jP jZ jN, value mu0 ev ions "jr" (r, phi, z, t) = some jR ∧ value mu0 ev ions "jphi" (r, phi, z, t) = some jP ∧
        value mu0 ev ions "jz" (r, phi, z, t) = some jZ ∧ value mu0 ev ions "jnorm" (r, phi, z, t) = some jN ∧
        mu0 * jR = Spec.curlR B r phi z ∧ mu0 * jP = Spec.curlP B r phi z ∧ mu0 * jZ = Spec.curlZ B r phi z ∧
        0 ≤ jN ∧ jN ^ 2 = jR ^ 2 + jP ^ 2 + jZ ^ 2 := by
  have hf := stored_field h
  refine ⟨?_, ?_, ?_, ?_, _, _, _, _, by simp [value, hf, derived]; rfl, by simp [value, hf, derived]; rfl,
    by simp [value, hf, derived]; rfl, by simp [value, hf, derived]; try rfl, ?_, ?_, ?_, Real.sqrt_nonneg _,
    Real.sq_sqrt (by positivity)⟩
  · simp only [value, hf, derived, Spec.div, dR_mul B.R r phi z hR.1]
    simp; field_simp
  · simp only [value, hf, derived, Spec.curlR]
    simp; field_simp
  · simp [value, hf, derived, Spec.curlP]
  · simp only [value, hf, derived, Spec.curlZ, dR_mul B.P r phi z hP.1]
    simp; field_simp; ring
  · simp only [jr, Spec.curlR]; field_simp
  · simp only [jphi, Spec.curlP]; field_simp
  · simp only [jz, Spec.curlZ, dR_mul B.P r phi z hP.1]; field_simp; try ring

/-- **Magnitude and its gradient**: `bnorm` is the magnitude of the field and `gradbr`, `gradbphi`, `gradbz` are the
components of its gradient, wherever the field does not vanish. -/
theorem gradient (mu0 : ℝ) (ev : Ev) (ions : Pt → List Ion) (B : Spec.VField) (r phi z t : ℝ)
    (h : Stored ev B r phi z t) (hR : Spec.Smooth B.R r phi z) (hP : Spec.Smooth B.P r phi z)
    (hZ : Spec.Smooth B.Z r phi z) (h0 : Spec.norm B r phi z ≠ 0) :
    value mu0 ev ions "bnorm" (r, phi, z, t) = some (Spec.norm B r phi z) ∧
      value mu0 ev ions "gradbr" (r, phi, z, t) = some (Spec.dR (Spec.norm B) r phi z) ∧
      value mu0 ev ions "gradbphi" (r, phi, z, t) = some (1 / r * Spec.dP (Spec.norm B) r phi z) ∧
      value mu0 ev ions "gradbz" (r, phi, z, t) = some (Spec.dZ (Spec.norm B) r phi z) := by
  have hf := stored_field h
  have hn : B.R r phi z ^ 2 + B.P r phi z ^ 2 + B.Z r phi z ^ 2 ≠ 0 := by
    intro h1; apply h0; simp [Spec.norm, h1]
  have d1 : Spec.dR (Spec.norm B) r phi z = _ :=
    sqrt_deriv (fun x => B.R x phi z) (fun x => B.P x phi z) (fun x => B.Z x phi z) r hR.1 hP.1 hZ.1 hn
  have d2 : Spec.dP (Spec.norm B) r phi z = _ :=
    sqrt_deriv (fun x => B.R r x z) (fun x => B.P r x z) (fun x => B.Z r x z) phi hR.2.1 hP.2.1 hZ.2.1 hn
  have d3 : Spec.dZ (Spec.norm B) r phi z = _ :=
    sqrt_deriv (fun x => B.R r phi x) (fun x => B.P r phi x) (fun x => B.Z r phi x) z hR.2.2 hP.2.2 hZ.2.2 hn
  refine ⟨by simp [value, hf, derived, bnorm, Spec.norm], ?_, ?_, ?_⟩
  · rw [d1]; simp [value, hf, derived, bnorm, Spec.dR]
  · rw [d2]; simp only [value, hf, derived, bnorm, Spec.dP]
    simp only [List.mem_cons, List.not_mem_nil, or_false, or_true, true_or, if_true, Option.bind_some, Option.some.injEq,
      String.reduceEq, false_or]
    rw [div_mul_eq_div_div, one_div, inv_mul_eq_div]
  · rw [d3]; simp [value, hf, derived, bnorm, Spec.dZ]

/-- **`nan` where the evaluation failed**: if the field could not be evaluated at a point, all quantities derived from it
are `nan` there. -/
theorem failed (mu0 : ℝ) (ev : Ev) (ions : Pt → List Ion) (p : Pt)
    (h : ∀ q ∈ ["br", "bphi", "bz", "brdr", "brdphi", "brdz", "bphidr", "bphidphi", "bphidz", "bzdr", "bzdphi", "bzdz"],
      ev q p = none) : ∀ q ∈ "bpol" :: "db/b (mhd)" :: bNames, value mu0 ev ions q p = none := by
  have h1 := h "br" (by simp)
  have hf : field ev p = none := by simp [field, h1]
  intro q hq
  by_cases hd : q ∈ ["divb", "bnorm", "jnorm", "jr", "jphi", "jz", "gradbr", "gradbphi", "gradbz", "curlbr", "curlbphi",
      "curlbz"]
  · unfold value; rw [if_pos hd, hf]; rfl
  · have h3 : q = "bpol" ∨ q = "db/b (mhd)" ∨ q ∈ ["br", "bphi", "bz", "brdr", "brdphi", "brdz", "bphidr", "bphidphi",
        "bphidz", "bzdr", "bzdphi", "bzdz"] :=
      (show ∀ q ∈ "bpol" :: "db/b (mhd)" :: bNames, q ∉ ["divb", "bnorm", "jnorm", "jr", "jphi", "jz", "gradbr",
        "gradbphi", "gradbz", "curlbr", "curlbphi", "curlbz"] → q = "bpol" ∨ q = "db/b (mhd)" ∨ q ∈ ["br", "bphi", "bz",
        "brdr", "brdphi", "brdz", "bphidr", "bphidphi", "bphidz", "bzdr", "bzdphi", "bzdz"] by decide +kernel) q hq hd
    rcases h3 with rfl | rfl | h3
    · simp [value, h1]
    · simp [value, h1]
    · have h4 := (show ∀ q ∈ ["br", "bphi", "bz", "brdr", "brdphi", "brdz", "bphidr", "bphidphi", "bphidz", "bzdr",
        "bzdphi", "bzdz"], q ≠ "rminor" ∧ q ≠ "bpol" ∧ q ≠ "enorm" ∧ q ≠ "db/b (mhd)" ∧ q ≠ "zeff" by decide +kernel) q h3
      unfold value
      rw [if_neg hd, if_neg h4.1, if_neg h4.2.1, if_neg h4.2.2.1, if_neg h4.2.2.2.1, if_neg h4.2.2.2.2]
      exact h q h3

/-! ## The poloidal field and the effective charge -/

/-- **Poloidal field** (full claim: the magnitude of `bpol` is that of the poloidal field): it is, with the sign of the
direction around the axis, wherever the poloidal field is not along the line to the axis. -/
theorem poloidal_partial (mu0 : ℝ) (ev : Ev) (ions : Pt → List Ion) (r phi z t ar az br bz : ℝ)
    (h1 : ev "axisr" (r, phi, z, t) = some ar) (h2 : ev "axisz" (r, phi, z, t) = some az)
    (h3 : ev "br" (r, phi, z, t) = some br) (h4 : ev "bz" (r, phi, z, t) = some bz)
    (h : (r - ar) * bz - (z - az) * br ≠ 0) :
    ∃ b, value mu0 ev ions "bpol" (r, phi, z, t) = some b ∧ b ^ 2 = br ^ 2 + bz ^ 2 ∧
      (0 < b ↔ 0 < (r - ar) * bz - (z - az) * br) := by
  refine ⟨bpol (r, phi, z, t) ar az br bz, by simp [value, h1, h2, h3, h4], ?_, ?_⟩
  · unfold bpol
    rw [mul_pow, Real.sq_sqrt (by positivity)]
    rcases Real.sign_apply_eq_of_ne_zero _ h with e | e <;> simp only [e] <;> ring
  · have hp : 0 < Real.sqrt (br ^ 2 + bz ^ 2) := by
      apply Real.sqrt_pos.mpr
      by_contra hc
      have hb : br = 0 := by nlinarith [sq_nonneg br, sq_nonneg bz]
      have hb' : bz = 0 := by nlinarith [sq_nonneg br, sq_nonneg bz]
      apply h; rw [hb, hb']; ring
    unfold bpol
    dsimp only
    rcases lt_or_gt_of_ne h with hl | hg
    · rw [Real.sign_of_neg hl]; constructor <;> intro h5 <;> linarith
    · rw [Real.sign_of_pos hg]; constructor <;> intro h5 <;> linarith

/-- **Minor radius, electric field and perturbation**: `rminor` is the distance to the axis in the poloidal plane,
`enorm` the magnitude of the electric field, and `db/b (mhd)` the magnitude of the perturbation over that of the field. -/
theorem magnitudes (mu0 : ℝ) (ev : Ev) (ions : Pt → List Ion) (r phi z t : ℝ) :
    (∀ ar az, ev "axisr" (r, phi, z, t) = some ar → ev "axisz" (r, phi, z, t) = some az →
      ∃ x, value mu0 ev ions "rminor" (r, phi, z, t) = some x ∧ 0 ≤ x ∧ x ^ 2 = (r - ar) ^ 2 + (z - az) ^ 2) ∧
    (∀ a b c, ev "er" (r, phi, z, t) = some a → ev "ephi" (r, phi, z, t) = some b → ev "ez" (r, phi, z, t) = some c →
      ∃ x, value mu0 ev ions "enorm" (r, phi, z, t) = some x ∧ 0 ≤ x ∧ x ^ 2 = a ^ 2 + b ^ 2 + c ^ 2) ∧
    (∀ a b c u v w, ev "mhd_br" (r, phi, z, t) = some a → ev "mhd_bphi" (r, phi, z, t) = some b →
      ev "mhd_bz" (r, phi, z, t) = some c → ev "br" (r, phi, z, t) = some u → ev "bphi" (r, phi, z, t) = some v →
      ev "bz" (r, phi, z, t) = some w → 0 < u ^ 2 + v ^ 2 + w ^ 2 →
      ∃ x, value mu0 ev ions "db/b (mhd)" (r, phi, z, t) = some x ∧ 0 ≤ x ∧
        x ^ 2 * (u ^ 2 + v ^ 2 + w ^ 2) = a ^ 2 + b ^ 2 + c ^ 2) := by
  refine ⟨fun ar az h1 h2 => ⟨rminor (r, phi, z, t) ar az, by simp [value, h1, h2], Real.sqrt_nonneg _, ?_⟩,
    fun a b c h1 h2 h3 => ⟨Real.sqrt (a ^ 2 + b ^ 2 + c ^ 2), by simp [value, h1, h2, h3], Real.sqrt_nonneg _,
      Real.sq_sqrt (by positivity)⟩,
    fun a b c u v w h1 h2 h3 h4 h5 h6 h0 => ⟨Real.sqrt (a ^ 2 + b ^ 2 + c ^ 2) / Real.sqrt (u ^ 2 + v ^ 2 + w ^ 2),
      by simp [value, h1, h2, h3, h4, h5, h6], by positivity, ?_⟩⟩
  · unfold rminor
    rw [Real.sq_sqrt (by positivity)]
    ring
  · rw [div_pow, Real.sq_sqrt (by positivity), Real.sq_sqrt h0.le, div_mul_cancel₀ _ h0.ne']

/-- The claim of `poloidal_partial` fails elsewhere: straight outside of the axis, a field that points outwards has no poloidal component. -/
theorem poloidal_violation (mu0 : ℝ) (ions : Pt → List Ion) : ∃ (ev : Ev) (p : Pt) (br bz : ℝ),
    ev "br" p = some br ∧ ev "bz" p = some bz ∧ 0 < br ^ 2 + bz ^ 2 ∧ value mu0 ev ions "bpol" p = some 0 :=
  ⟨fun q _ => if q = "br" then some 1 else if q = "axisr" then some 6 else some 0, (7, 0, 0, 0), 1, 0, by simp, by simp,
    by norm_num, by simp [value, bpol]⟩

/-- Sum of density times squared charge state, over the electron density. -/
noncomputable def effective (ne : ℝ) (ions : List Ion) : ℝ := (ions.map fun i => i.dens * i.charge ^ 2).sum / ne

theorem zeff_fold (l : List Ion) (s : ℝ) (h : ∀ i ∈ l, i.charge = i.znum) :
    l.foldl (fun s i => s + i.dens * (i.znum : ℝ) ^ 2) s = s + (l.map fun i => i.dens * i.charge ^ 2).sum := by
  induction l generalizing s with
  | nil => simp
  | cons a l ih =>
    rw [List.foldl_cons, ih _ fun i hi => h i (List.mem_cons_of_mem _ hi), List.map_cons, List.sum_cons,
      h a List.mem_cons_self]
    ring

/-- **Effective charge** (full claim: `zeff` is the sum of density times squared charge, over the electron density): it is
when every ion species is fully ionised. -/
theorem charge_partial (mu0 : ℝ) (ev : Ev) (ions : Pt → List Ion) (p : Pt) (ne : ℝ) (h : ev "ne" p = some ne)
    (hi : ∀ i ∈ ions p, i.charge = i.znum) : value mu0 ev ions "zeff" p = some (effective ne (ions p)) := by
  simp only [value, h, zeff, effective, zeff_fold _ _ hi]
  simp

/-- The claim fails for other ions: a neutral plasma of deuterium and a trace of tungsten with charge 20 gets the value
for fully ionised tungsten. -/
theorem charge_violation (mu0 : ℝ) : ∃ (ev : Ev) (ions : Pt → List Ion) (p : Pt) (ne : ℝ), ev "ne" p = some ne ∧
    ne = ((ions p).map fun i => i.dens * i.charge).sum ∧
    ∃ x, value mu0 ev ions "zeff" p = some x ∧ x = 6456 / 1000 ∧ effective ne (ions p) = 1380 / 1000 :=
  ⟨fun _ _ => some 1000, fun _ => [⟨980, 1, 1⟩, ⟨1, 20, 74⟩], (1, 0, 0, 0), 1000, rfl, by norm_num, _,
    by simp [value]; rfl, by norm_num [zeff], by norm_num [effective]⟩

/-! ## Concrete cases -/

/-- A toroidal field `B_phi = 1/r` with a vertical field of 1. -/
noncomputable def exB : Spec.VField := ⟨fun _ _ _ => 0, fun r _ _ => 1 / r, fun _ _ _ => 1⟩

noncomputable def exEv : Ev := fun q p =>
  match q with
  | "bphi" => some (1 / p.1)
  | "bz" => some 1
  | "bphidr" => some (-(p.1 ^ 2)⁻¹)
  | _ => some 0

theorem ex_stored : Stored exEv exB 2 0 0 0 := by
  constructor <;> simp [exEv, exB, Spec.dR, Spec.dP, Spec.dZ]

theorem ex_smooth : Spec.Smooth exB.R 2 0 0 ∧ Spec.Smooth exB.P 2 0 0 ∧ Spec.Smooth exB.Z 2 0 0 := by
  refine ⟨⟨?_, ?_, ?_⟩, ⟨?_, ?_, ?_⟩, ⟨?_, ?_, ?_⟩⟩ <;> simp [exB]
  all_goals exact differentiableAt_inv (by norm_num)

example : value 1 exEv (fun _ => []) "divb" (2, 0, 0, 0) = some (Spec.div exB 2 0 0) :=
  (divergence_curl 1 one_ne_zero exEv _ exB 2 0 0 0 (by norm_num) ex_stored ex_smooth.1 ex_smooth.2.1).1

example : value 1 exEv (fun _ => []) "gradbr" (2, 0, 0, 0) = some (Spec.dR (Spec.norm exB) 2 0 0) :=
  (gradient 1 exEv _ exB 2 0 0 0 ex_stored ex_smooth.1 ex_smooth.2.1 ex_smooth.2.2 (by
    unfold Spec.norm exB; rw [Real.sqrt_ne_zero (by positivity)]; norm_num)).2.1

/-- A grid of two radii and two heights; two points on one height; sizes that do not fit. -/
example : (eval 1 exEv (fun _ => []) [1, 2] [0] [0, 1] [0] ["bphi", "divb"] true).isSome ∧
    (eval 1 exEv (fun _ => []) [1, 2] [0] [3] [0] ["bphi", "divb"] false).isSome ∧
    eval 1 exEv (fun _ => []) [1, 2] [0] [3, 4, 5] [0] ["bphi"] false = none :=
  ⟨(listed 1 exEv _ _ _ _ _ _ (by decide +kernel)).1, (listed 1 exEv _ _ _ _ _ _ (by decide +kernel)).2 (by simp) (by simp)
    (by simp) (by simp), (refused 1 exEv _ _ _ _ _ _).1 ⟨2, by simp, 3, by simp, by norm_num⟩⟩

example : ∃ b, value 1 exEv (fun _ => []) "bpol" (2, 0, 0, 0) = some b ∧ b ^ 2 = (0 : ℝ) ^ 2 + 1 ^ 2 ∧
    (0 < b ↔ 0 < ((2 : ℝ) - 0) * 1 - (0 - 0) * 0) :=
  poloidal_partial 1 exEv _ 2 0 0 0 0 0 0 1 (by simp [exEv]) (by simp [exEv]) (by simp [exEv]) (by simp [exEv]) (by norm_num)

example : ∃ x, value 1 exEv (fun _ => []) "rminor" (2, 0, 3, 0) = some x ∧ 0 ≤ x ∧
    x ^ 2 = ((2 : ℝ) - 0) ^ 2 + (3 - 0) ^ 2 :=
  (magnitudes 1 exEv _ 2 0 3 0).1 0 0 (by simp [exEv]) (by simp [exEv])

/-- Points where nothing is stored, and a fully ionised plasma. -/
example : value 1 (fun _ _ => none) (fun _ => []) "jz" (2, 0, 0, 0) = none :=
  failed 1 _ _ _ (fun _ _ => rfl) "jz" (by simp [bNames])

example : value 1 (fun _ _ => some 8) (fun _ => [⟨2, 1, 1⟩, ⟨1, 6, 6⟩]) "zeff" (2, 0, 0, 0)
    = some (effective 8 [⟨2, 1, 1⟩, ⟨1, 6, 6⟩]) :=
  charge_partial 1 _ _ _ 8 rfl (by simp)

end Ascot.C177
