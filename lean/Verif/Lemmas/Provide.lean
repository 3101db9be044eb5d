import Verif.Model.Provide
import Verif.Lemmas.PyFile
import Verif.Lemmas.Interp
set_option linter.unusedSectionVars false
set_option linter.unusedSimpArgs false

/-! # Lemmas on data given by address -/
namespace Ascot.Provide
open Ascot.PyFile
open Ascot.MarkerFile (Group readReals)
open Ascot.Options (Res)
open Ascot.Interp (coeff2 coeff3)
open Ascot.Linint (gridOf)
open Ascot.BfieldFile

theorem flatMap_congr_mem {α β : Type} {l : List α} {f g : α → List β} (h : ∀ x ∈ l, f x = g x) : l.flatMap f = l.flatMap g := by
  induction l with
  | nil => rfl
  | cons a l ih => rw [List.flatMap_cons, List.flatMap_cons, h a (by simp), ih fun x hx => h x (by simp [hx])]

section
variable {K : Type} [Field K] [LinearOrder K] [IsStrictOrderedRing K] [FloorRing K]

/-- The coefficients depend on the numbers in the table only. -/
theorem coeff2_congr {f g : ℕ → ℕ → K} {nx ny : ℕ} {bx by_ : Linint.BC} {xg yg : K} (h : ∀ i < nx, ∀ j < ny, f i j = g i j) :
    coeff2 f nx ny bx by_ xg yg = coeff2 g nx ny bx by_ xg yg := by
  unfold coeff2
  by_cases hs : (Spline.sizeOk nx bx && Spline.sizeOk ny by_) = true
  · rw [if_pos hs, if_pos hs]
    obtain ⟨h1, h2⟩ := Bool.and_eq_true_iff.mp hs
    dsimp only
    congr 1
    refine flatMap_congr_mem fun j hj => flatMap_congr_mem fun i hi => ?_
    have hj := List.mem_range.mp hj
    have hi := List.mem_range.mp hi
    have exx : ∀ i < nx, ∀ j < ny, Spline.second (fun i => f i j) nx bx i = Spline.second (fun i => g i j) nx bx i := fun i hi j hj =>
      Spline.second_congr h1 (fun a ha => h a ha j hj) hi
    have eyy : Spline.second (fun j => f i j) ny by_ j = Spline.second (fun j => g i j) ny by_ j :=
      Spline.second_congr h2 (fun a ha => h i hi a ha) hj
    have exy : Spline.second (fun j => Spline.second (fun i => f i j) nx bx i / (xg * xg)) ny by_ j =
        Spline.second (fun j => Spline.second (fun i => g i j) nx bx i / (xg * xg)) ny by_ j :=
      Spline.second_congr h2 (fun a ha => by rw [exx i hi a ha]) hj
    rw [h i hi j hj, exx i hi j hj, eyy, exy]
  · rw [if_neg hs, if_neg hs]

theorem coeff3_congr {f g : ℕ → ℕ → ℕ → K} {nx ny nz : ℕ} {bx by_ bz : Linint.BC} {xg yg zg : K}
    (h : ∀ i < nx, ∀ j < ny, ∀ k < nz, f i j k = g i j k) :
    coeff3 f nx ny nz bx by_ bz xg yg zg = coeff3 g nx ny nz bx by_ bz xg yg zg := by
  unfold coeff3
  by_cases hs : (Spline.sizeOk nx bx && Spline.sizeOk ny by_ && Spline.sizeOk nz bz) = true
  · rw [if_pos hs, if_pos hs]
    obtain ⟨h12, h3⟩ := Bool.and_eq_true_iff.mp hs
    obtain ⟨h1, h2⟩ := Bool.and_eq_true_iff.mp h12
    dsimp only
    congr 1
    refine flatMap_congr_mem fun k hk => flatMap_congr_mem fun j hj => flatMap_congr_mem fun i hi => ?_
    have hk := List.mem_range.mp hk
    have hj := List.mem_range.mp hj
    have hi := List.mem_range.mp hi
    have exx : ∀ j < ny, ∀ k < nz, Spline.second (fun i => f i j k) nx bx i = Spline.second (fun i => g i j k) nx bx i := fun j hj k hk =>
      Spline.second_congr h1 (fun a ha => h a ha j hj k hk) hi
    have eyy : ∀ k < nz, Spline.second (fun j => f i j k) ny by_ j = Spline.second (fun j => g i j k) ny by_ j := fun k hk =>
      Spline.second_congr h2 (fun a ha => h i hi a ha k hk) hj
    have exy : ∀ k < nz, Spline.second (fun j => Spline.second (fun i => f i j k) nx bx i / (xg * xg)) ny by_ j =
        Spline.second (fun j => Spline.second (fun i => g i j k) nx bx i / (xg * xg)) ny by_ j := fun k hk =>
      Spline.second_congr h2 (fun a ha => by rw [exx a ha k hk]) hj
    have ezz : Spline.second (fun k => f i j k) nz bz k = Spline.second (fun k => g i j k) nz bz k :=
      Spline.second_congr h3 (fun a ha => h i hi j hj a ha) hk
    have exz : Spline.second (fun k => Spline.second (fun i => f i j k) nx bx i / (xg * xg)) nz bz k =
        Spline.second (fun k => Spline.second (fun i => g i j k) nx bx i / (xg * xg)) nz bz k :=
      Spline.second_congr h3 (fun a ha => by rw [exx j hj a ha]) hk
    have eyz : Spline.second (fun k => Spline.second (fun j => f i j k) ny by_ j / (yg * yg)) nz bz k =
        Spline.second (fun k => Spline.second (fun j => g i j k) ny by_ j / (yg * yg)) nz bz k :=
      Spline.second_congr h3 (fun a ha => by rw [eyy a ha]) hk
    have exyz : Spline.second (fun k => Spline.second (fun j => Spline.second (fun i => f i j k) nx bx i / (xg * xg)) ny by_ j / (yg * yg)) nz bz k =
        Spline.second (fun k => Spline.second (fun j => Spline.second (fun i => g i j k) nx bx i / (xg * xg)) ny by_ j / (yg * yg)) nz bz k :=
      Spline.second_congr h3 (fun a ha => by rw [exy a ha]) hk
    rw [h i hi j hj k hk, exx j hj k hk, eyy k hk, exy k hk, ezz, exz, eyz, exyz]
  · rw [if_neg hs, if_neg hs]

end

/-- What lies behind the array does not matter. -/
theorem spline2_congr {f g : ℕ → ℝ} {nr nz : ℕ} {r0 r1 z0 z1 : ℝ} (h : ∀ k < nr * nz, f k = g k) :
    spline2 f nr nz r0 r1 z0 z1 = spline2 g nr nz r0 r1 z0 z1 := by
  unfold spline2
  rw [coeff2_congr fun i hi j hj => h (j * nr + i) ?_]
  calc j * nr + i < j * nr + nr := by omega
    _ = (j + 1) * nr := by ring
    _ ≤ nz * nr := Nat.mul_le_mul_right _ hj
    _ = nr * nz := by ring

theorem spline3_congr {f g : ℕ → ℝ} {nr np nz : ℕ} {r0 r1 p0 p1 z0 z1 : ℝ} (h : ∀ k < nr * np * nz, f k = g k) :
    spline3 f nr np nz r0 r1 p0 p1 z0 z1 = spline3 g nr np nz r0 r1 p0 p1 z0 z1 := by
  unfold spline3
  rw [coeff3_congr fun i hi j hj k hk => h (k * np * nr + j * nr + i) ?_]
  calc k * np * nr + j * nr + i < k * np * nr + j * nr + nr := by omega
    _ = k * np * nr + (j + 1) * nr := by ring
    _ ≤ k * np * nr + np * nr := Nat.add_le_add_left (Nat.mul_le_mul_right _ hj) _
    _ = (k + 1) * (np * nr) := by ring
    _ ≤ nz * (np * nr) := Nat.mul_le_mul_right _ hk
    _ = nr * np * nz := by ring

/-- What was read from a data set is what is found at the address of an array with these elements. -/
theorem readReals_list {g : Group} {name : String} {xs : List ℝ} {n : ℕ} (h : g.reals name = some xs) (hl : xs.length = n) :
    ∃ f : Fin n → ℝ, readReals g name n = .ok f ∧ ∀ junk junk' : ℕ → ℝ, ∀ k < n, ext junk f k = ptr junk' xs k := by
  subst hl
  refine ⟨fun i => xs[i], ?_, fun junk junk' k hk => ?_⟩
  · unfold readReals; rw [h]; simp only [reduceDIte]; rfl
  · simp [ext, ptr, hk]

theorem reads_ok {n : ℕ} {xs : List ℝ} (h : xs.length = n) : reads n xs = .ok () := by simp [reads, h]

theorem radians_eq (x : ℝ) : radians x = Options.deg2rad x := by unfold radians Options.deg2rad; ring

end Ascot.Provide
