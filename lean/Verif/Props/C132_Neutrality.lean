import Verif.Props.C131_PlasmaFile
import Mathlib.Algebra.BigOperators.Fin
import Mathlib.Data.Finset.Lattice.Fold
set_option linter.unusedSectionVars false
set_option linter.unusedSimpArgs false

/-!
# C132: the report of quasi-neutrality

After reading a plasma the program prints by how much the charge density of the ions deviates from that of the electrons,
relative to the latter, at the radius where the deviation is largest.
-/
namespace Ascot.C132
open Ascot.PyFile Ascot.PlasmaFile Ascot.Profile Ascot.C131
open Ascot.Plasma hiding Res
open Ascot.Buf

/-! ## Specification -/

/-- `q` is the largest of the numbers `f 0`, …, `f (n-1)` and zero. -/
def Largest (n : ℕ) (f : ℕ → ℝ) (q : ℝ) : Prop := (∀ k < n, f k ≤ q) ∧ 0 ≤ q ∧ (q = 0 ∨ ∃ k < n, q = f k)

/-- The relative deviation at radius `k`: ions have charges `Z j` in elementary charges. -/
noncomputable def deviation (nion : ℕ) (Z : ℕ → ℤ) (ne : ℕ → ℝ) (ni : ℕ → ℕ → ℝ) (k : ℕ) : ℝ :=
  |1 - (∑ j ∈ Finset.range nion, Z j * ni k j) / ne k|

/-! ## Loops -/

theorem sumLoop_eq {n : ℕ} {f : ℕ → Option ℝ} {x : ℕ → ℝ} (h : ∀ i < n, f i = some (x i)) :
    sumLoop n f = some (∑ i ∈ Finset.range n, x i) := by
  unfold sumLoop
  induction n with
  | zero => simp
  | succ n ih =>
    rw [List.range_succ, List.foldlM_append, ih fun i hi => h i (by omega)]
    simp [h n (by omega), Finset.sum_range_succ]

theorem sumLoop_none {n : ℕ} {f : ℕ → Option ℝ} (hn : 0 < n) (h : f 0 = none) : sumLoop n f = none := by
  unfold sumLoop
  obtain ⟨m, rfl⟩ : ∃ m, n = m + 1 := ⟨n - 1, by omega⟩
  rw [List.range_succ_eq_map, List.foldlM_cons, h]
  rfl

theorem neutral_eq {n : ℕ} {ele ion : ℕ → Option ℝ} {x y : ℕ → ℝ} (h : ∀ k < n, ele k = some (x k) ∧ ion k = some (y k) ∧ x k ≠ 0) :
    ∃ q, neutral n ele ion = some q ∧ Largest n (fun k => |1 - y k / x k|) q := by
  unfold neutral
  induction n with
  | zero => exact ⟨0, rfl, by simp [Largest]⟩
  | succ n ih =>
    obtain ⟨q, hq, h1, h2, h3⟩ := ih fun k hk => h k (by omega)
    obtain ⟨a, b, c⟩ := h n (by omega)
    rw [List.range_succ, List.foldlM_append, hq]
    refine ⟨fmax q |1 - y n / x n|, ?_, ?_, ?_, ?_⟩
    · simp [a, b, cdiv, if_neg c]
    · intro k hk
      unfold fmax
      rcases Nat.lt_succ_iff_lt_or_eq.1 hk with hk | rfl
      · have := h1 k hk
        split <;> [exact this.trans (by linarith); exact this]
      · split <;> [exact le_rfl; exact not_lt.1 ‹_›]
    · unfold fmax; split <;> [positivity; exact h2]
    · unfold fmax
      split
      · exact .inr ⟨n, by omega, rfl⟩
      · rcases h3 with h | ⟨k, hk, h⟩
        · exact .inl h
        · exact .inr ⟨k, by omega, h⟩

theorem neutral_none {n : ℕ} {ele ion : ℕ → Option ℝ} {k : ℕ} (hk : k < n) (h : ion k = none) : neutral n ele ion = none := by
  unfold neutral
  induction n with
  | zero => omega
  | succ n ih =>
    rw [List.range_succ, List.foldlM_append]
    rcases Nat.lt_succ_iff_lt_or_eq.1 hk with hk | rfl
    · rw [ih hk]; rfl
    · generalize (List.range k).foldlM (m := Option) _ (0 : ℝ) = x
      cases x with
      | none => rfl
      | some q =>
        simp only [List.foldlM_cons, List.foldlM_nil, h]
        cases ele k <;> rfl

theorem run_size {K : Type} (ws : List (ℕ × K)) : ∀ {b b' : Buf K}, b.run ws = some b' → b'.size = b.size := by
  induction ws with
  | nil => intro b b' h; simp only [Buf.run, Option.some.injEq] at h; rw [h]
  | cons w ws ih =>
    intro b b' h
    simp only [Buf.run, Option.bind_eq_some_iff] at h
    obtain ⟨c, hc, h⟩ := h
    rw [ih h]
    unfold Buf.set at hc
    split at hc
    · injection hc with hc; rw [← hc]
    · simp at hc

theorem charge_get {nion : ℕ} {a : Ions} {sp : Species} (h : Right nion a sp) {j : ℕ} (hj : j < nion) :
    sp.charge[j + 1]? = some (a.charge j * e) := by
  rw [h.2.2.2]
  simp [tab, hj]

theorem e_ne : e ≠ 0 := by unfold e; norm_num

theorem ratio (nion : ℕ) (Z : ℕ → ℤ) (ne : ℝ) (ni : ℕ → ℝ) :
    (∑ j ∈ Finset.range nion, ni j * (Z j * e)) / (ne * e) = (∑ j ∈ Finset.range nion, Z j * ni j) / ne := by
  rw [show (∑ j ∈ Finset.range nion, ni j * (Z j * e)) = (∑ j ∈ Finset.range nion, Z j * ni j) * e by
    rw [Finset.sum_mul]; exact Finset.sum_congr rfl fun j _ => by ring]
  exact mul_div_mul_right _ _ e_ne

/-! ## Results -/

/-- Profiles on a grid, as written by the user and read: the number is the largest deviation. -/
theorem grid_partial (junk : ℕ → ℝ) (nrho nion : ℕ) (a : Ions) (rho vtor ne te ti : ℕ → ℝ) (ni : ℕ → ℕ → ℝ) (hne : ∀ k < nrho, ne k ≠ 0) :
    ∃ g p sp q, write1D (args1D nrho nion a rho vtor ne te ti ni) = .done g ∧ read1D junk g = .ok (p, sp) ∧
      report1D p sp nion = some q ∧ Largest nrho (deviation nion a.charge ne ni) q := by
  obtain ⟨g, sp, hg, hsp, hread⟩ := read1D_eq junk nrho nion a rho vtor ne te ti ni
  obtain ⟨p, hp, hgood⟩ := init1D_good nrho nion (ext junk fun i : Fin nrho => rho i) (ext junk fun i : Fin nrho => te i * e)
    (ext junk fun i : Fin nrho => ti i * e) (ext junk fun i : Fin nrho => ne i)
    (ext junk fun k : Fin (nrho * nion) => ni (k % nrho) (k / nrho)) (ext junk fun i : Fin nrho => vtor i)
  have hd : ∀ s ≤ nion, ∀ k < nrho, p.dens.get ((s : ℤ) * nrho + k) = some (density ne ni s k) := by
    intro s hs k hk
    rw [hgood.dens.get (i := s * nrho + k) (by push_cast; ring) (lt_mul_of (by omega) hk), flat1D_species _ _ _ hk,
      species_ext hs k hk]
  obtain ⟨q, hq, hl⟩ := neutral_eq (n := nrho)
    (ele := fun k => (p.dens.get k).map fun d => d * e)
    (ion := fun k => sumLoop nion fun i => do
      let d ← p.dens.get (((i : ℤ) + 1) * p.nRho + k)
      let q ← sp.charge[i + 1]?
      some (d * q))
    (x := fun k => ne k * e) (y := fun k => ∑ j ∈ Finset.range nion, ni k j * (a.charge j * e)) (by
      intro k hk
      refine ⟨?_, ?_, mul_ne_zero (hne k hk) e_ne⟩
      · have := hd 0 (by omega) k hk
        rw [show ((0 : ℕ) : ℤ) * nrho + k = k by push_cast; ring] at this
        rw [this]; rfl
      · refine sumLoop_eq fun j hj => ?_
        have := hd (j + 1) (by omega) k hk
        push_cast at this
        rw [hgood.n, this, charge_get hsp hj]
        rfl)
  refine ⟨g, p, sp, q, hg, hread p hp, ?_, ?_⟩
  · unfold report1D
    rw [show MarkerFile.eCharge = e from rfl, hgood.n]
    rw [hgood.n] at hq
    exact hq
  · simp only [ratio] at hl
    exact hl

/-- Splines with ions of charge one: the number is the largest deviation.  Missing: other charges (`spline_violation`) and profiles
that depend on time (`time_violation`). -/
theorem spline_partial (junk : ℕ → ℝ) (nrho nion : ℕ) (a : Ions) (rhomin rhomax : ℝ) (vtor ne te ti : ℕ → ℝ) (ni : ℕ → ℕ → ℝ) (hn : 2 ≤ nrho)
    (hm : rhomin < rhomax) (hpos : ∀ i < nrho, 0 < te i ∧ 0 < ti i ∧ 0 < ne i ∧ ∀ j < nion, 0 < ni i j) (old : ℝ) :
    ∃ g p sp q, write1DS (args1DS nrho nion a rhomin rhomax vtor ne te ti ni) = .done g ∧ read1DS junk g = .ok (p, sp) ∧
      report1DS p nrho nion rhomin rhomax old = some q ∧ Largest nrho (deviation nion (fun _ => 1) ne ni) q ∧
      ((∀ j < nion, a.charge j = 1) → Largest nrho (deviation nion a.charge ne ni) q) := by
  obtain ⟨g, d, sp, hg, hread, -, -, -, ht⟩ := spline junk nrho nion a rhomin rhomax vtor ne te ti ni hn hm hpos
  simp only [readPlasma] at hread
  cases hr : read1DS junk g with
  | fail => rw [hr] at hread; simp at hread
  | ub => rw [hr] at hread; simp at hread
  | ok x =>
    obtain ⟨p, sp'⟩ := x
    rw [hr] at hread
    simp only [Options.Res.ok.injEq, Prod.mk.injEq] at hread
    obtain ⟨rfl, rfl⟩ := hread
    have hd : ∀ s ≤ nion, ∀ k < nrho, (dens1DS p (rhomin + k * (rhomax - rhomin) / (nrho - 1)) s).map (out old) =
        some (density ne ni s k) := by
      intro s hs k hk
      have := (ht k hk 0 0 s hs).1
      rw [mul_div_assoc]
      simp only [evalDens, Option.map_eq_some_iff] at this ⊢
      obtain ⟨x, hx, hx'⟩ := this
      refine ⟨x, hx, ?_⟩
      cases x with
      | ok v => simp only [store, Prod.mk.injEq] at hx'; exact hx'.1
      | error e' =>
        simp only [store, Prod.mk.injEq] at hx'
        obtain ⟨-, rfl⟩ := hx'
        exfalso
        unfold dens1DS at hx
        rw [Option.bind_eq_some_iff] at hx
        obtain ⟨s1, -, hx⟩ := hx
        rw [Option.map_eq_some_iff] at hx
        obtain ⟨s2, -, hx⟩ := hx
        cases s2 with
        | none => simp [Error.raise] at hx
        | some y =>
          simp only at hx
          split at hx <;> simp [Error.raise] at hx
    obtain ⟨q, hq, hl⟩ := neutral_eq (n := nrho)
      (ele := fun k => (dens1DS p (rhomin + k * (rhomax - rhomin) / (nrho - 1)) 0).map (out old))
      (ion := fun k => sumLoop nion fun i => (dens1DS p (rhomin + k * (rhomax - rhomin) / (nrho - 1)) (i + 1)).map (out old))
      (x := ne) (y := fun k => ∑ j ∈ Finset.range nion, ni k j)
      (fun k hk => ⟨hd 0 (by omega) k hk, sumLoop_eq fun j hj => hd (j + 1) (by omega) k hk, (hpos k hk).2.2.1.ne'⟩)
    have hl' : Largest nrho (deviation nion (fun _ => 1) ne ni) q := by
      unfold Largest deviation
      simpa [Largest] using hl
    refine ⟨g, p, sp', q, hg, hr, hq, hl', fun hc => ?_⟩
    have : deviation nion a.charge ne ni = deviation nion (fun _ => 1) ne ni := by
      funext k
      unfold deviation
      rw [Finset.sum_congr rfl fun j hj => by rw [hc j (Finset.mem_range.mp hj)]]
    rw [this]
    exact hl'

/-- Finding: with splines the charges of the ions are left out.  A helium plasma that is neutral is reported to deviate by one half. -/
theorem spline_violation (junk : ℕ → ℝ) (old : ℝ) :
    ∃ g p sp, write1DS (args1DS 2 1 ⟨fun _ => 4, fun _ => 2, fun _ => 4, fun _ => 2⟩ 0 1 (fun _ => 0) (fun _ => 2) (fun _ => 1) (fun _ => 1)
        (fun _ _ => 1)) = .done g ∧ read1DS junk g = .ok (p, sp) ∧
      report1DS p 2 1 0 1 old = some (1 / 2) ∧ Largest 2 (deviation 1 (fun _ => 2) (fun _ => 2) fun _ _ => 1) 0 := by
  obtain ⟨g, p, sp, q, hg, hr, hq, hl, -⟩ := spline_partial junk 2 1 ⟨fun _ => 4, fun _ => 2, fun _ => 4, fun _ => 2⟩ 0 1 (fun _ => 0)
    (fun _ => 2) (fun _ => 1) (fun _ => 1) (fun _ _ => 1) le_rfl one_pos (fun _ _ => by norm_num) old
  have hdev : ∀ k, deviation 1 (fun _ => 1) (fun _ => 2) (fun _ _ => 1) k = 1 / 2 := by
    intro k; unfold deviation; norm_num [abs_of_pos]
  obtain ⟨h1, h2, h3⟩ := hl
  have : q = 1 / 2 := by
    have := h1 0 (by norm_num)
    rw [hdev] at this
    rcases h3 with h | ⟨k, -, h⟩
    · linarith
    · rw [h, hdev]
  subst this
  refine ⟨g, p, sp, hg, hr, hq, ?_, le_rfl, .inl rfl⟩
  intro k _
  unfold deviation
  norm_num

/-- Finding: for profiles that depend on time the report reads outside of the table of densities, unless there are many times and
ions. -/
theorem time_violation (junk : ℕ → ℝ) (nrho ntime nion : ℕ) (a : Ions) (rho time : ℕ → ℝ) (vtor ne te ti : ℕ → ℕ → ℝ) (ni : ℕ → ℕ → ℕ → ℝ)
    (hn : 0 < nrho) (hi : 0 < nion) (hs : nion * (nrho * ntime) < ntime + 4 * nrho) :
    ∃ g p sp, write1Dt (args1Dt nrho ntime nion a rho time vtor ne te ti ni) = .done g ∧ read1Dt junk g = .ok (p, sp) ∧
      report1Dt p sp nion = none := by
  obtain ⟨g, sp, hg, hsp, hread⟩ := read1Dt_eq junk nrho ntime nion a rho time vtor ne te ti ni
  obtain ⟨p, hp, hgood⟩ := init1Dt_good nrho ntime nion (ext junk fun i : Fin nrho => rho i) (ext junk fun i : Fin ntime => time i)
    (ext junk fun k : Fin (ntime * nrho) => te (k / nrho) (k % nrho) * e)
    (ext junk fun k : Fin (ntime * nrho) => ti (k / nrho) (k % nrho) * e)
    (ext junk fun k : Fin (ntime * nrho) => ne (k / nrho) (k % nrho))
    (ext junk fun k : Fin (ntime * nion * nrho) => ni (k / (nion * nrho)) (k % (nion * nrho) / nrho) (k % (nion * nrho) % nrho))
    (ext junk fun k : Fin (ntime * nrho) => vtor (k / nrho) (k % nrho))
  refine ⟨g, p, sp, hg, hread p hp, ?_⟩
  have hsize : p.dens.size = (nion + 1) * nrho * ntime := by
    unfold init1Dt at hp
    simp only [Option.bind_eq_some_iff, Option.some.injEq] at hp
    obtain ⟨b1, -, b2, -, b3, -, b4, -, b5, h5, rfl⟩ := hp
    exact run_size _ h5
  unfold report1Dt
  refine neutral_none (k := nrho - 1) (by rw [hgood.n]; omega) (sumLoop_none hi ?_)
  rw [hgood.n, hgood.nt]
  have : p.dens.get ((nrho : ℤ) * ntime + ntime + nrho * (2 + 1) + ((nrho - 1 : ℕ) : ℤ)) = none := by
    unfold Buf.get
    rw [if_neg]
    rw [hsize]
    intro h
    have h2 := h.2
    have : nrho * ntime + ntime + nrho * (2 + 1) + (nrho - 1) < (nion + 1) * nrho * ntime := by exact_mod_cast h2
    have e1 : (nion + 1) * nrho * ntime = nion * (nrho * ntime) + nrho * ntime := by ring
    omega
  rw [this]
  rfl

/-- This is so for the plasma that `create_dummy` of the Python interface makes: three radii, four times, one ion. -/
example : 0 < 3 ∧ 0 < 1 ∧ 1 * (3 * 4) < 4 + 4 * 3 := by decide

/-- Deuterium with density between one and three at three radii, electrons of the same density. -/
example : (∀ k < 3, (fun k : ℕ => (k : ℝ) + 1) k ≠ 0) ∧ Largest 3 (deviation 1 (fun _ => 1) (fun k => k + 1) fun k _ => k + 1) 0 := by
  refine ⟨fun k _ => by positivity, fun k _ => ?_, le_rfl, .inl rfl⟩
  have : (k : ℝ) + 1 ≠ 0 := by positivity
  simp [deviation, div_self this]

end Ascot.C132
