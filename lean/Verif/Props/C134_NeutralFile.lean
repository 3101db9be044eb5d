import Verif.Model.NeutralFile
import Verif.Lemmas.PyFile
import Verif.Props.C105_Neutral
set_option linter.unusedSectionVars false
set_option linter.unusedSimpArgs false

/-!
# C134: the neutrals that the simulation sees are those the user wrote

A user calls `write_hdf5` of the Python interface with tables of densities in m^-3 and temperatures in eV, on a grid in rho or
in R (m), phi (degrees), z (m); the program reads the file and evaluates densities in m^-3 and temperatures in J at phi in radians.
-/
namespace Ascot.C134
open Ascot.PyFile Ascot.NeutralFile Ascot.Linint
open Ascot.Neutral (evalN0 evalT0 Data)
open Ascot.MarkerFile (Group readReals readInts)
open Ascot.C105 (table1 table3)

/-! ## Specification -/

/-- An electronvolt in J. -/
noncomputable def e : ℝ := 1.602176565e-19

/-- The arguments of the writers, made from functions of the indices: radius, species; `maxwellian` has its default value. -/
def args1 (n ns : ℕ) (lo hi : ℝ) (an zn : ℕ → ℤ) (den tem : ℕ → ℕ → ℝ) : In1D :=
  ⟨lo, hi, n, ns, tab ns an, tab ns zn, nd2 n ns den, nd2 n ns tem, .number 1⟩

/-- The same in three dimensions: R, phi, z, species. -/
def args3 (nr np nz ns : ℕ) (r0 r1 p0 p1 z0 z1 : ℝ) (an zn : ℕ → ℤ) (den tem : ℕ → ℕ → ℕ → ℕ → ℝ) : In3D :=
  ⟨r0, r1, nr, z0, z1, nz, p0, p1, np, ns, tab ns an, tab ns zn, nd4 nr np nz ns den, nd4 nr np nz ns tem, .number 1⟩

/-- `x` is at the fraction `d` of the cell that begins at point `i` of the `n` points from `lo` to `hi`. -/
def InCell (n : ℕ) (lo hi x : ℝ) (i : ℕ) (d : ℝ) : Prop :=
  i + 1 < n ∧ 0 ≤ d ∧ d < 1 ∧ x = lo + (i + d) * ((hi - lo) / (n - 1))

/-- `x`, in radians, is at the fraction `d` of the cell that begins at point `i` of the `n` points that divide the period from
`lo` to `hi`, in degrees, into equal parts. -/
def InPeriod (n : ℕ) (lo hi x : ℝ) (i : ℕ) (d : ℝ) : Prop :=
  i < n ∧ 0 ≤ d ∧ d < 1 ∧ ∃ k : ℤ, x = (lo + (i + d) * ((hi - lo) / n) + k * (hi - lo)) * (Real.pi / 180)

/-! ## Lemmas -/

theorem on_natural {n : ℕ} {lo hi x d : ℝ} {i : ℕ} (h : InCell n lo hi x i d) : On (Axis.init n .natural lo hi) x i d := by
  obtain ⟨h1, h2, h3, h4⟩ := h
  exact ⟨by simp [Axis.init]; omega, fun _ => h1, h2, h3, 0, fun _ => rfl, by simp [Axis.init, gridOf, h4]⟩

theorem on_periodic {n : ℕ} {lo hi x d : ℝ} {i : ℕ} (h : InPeriod n lo hi x i d) :
    On (Axis.init n .periodic (Options.deg2rad lo) (Options.deg2rad hi)) x i d := by
  obtain ⟨h1, h2, h3, k, h4⟩ := h
  refine ⟨h1, fun h => by simp [Axis.init] at h, h2, h3, k, fun h => by simp [Axis.init] at h, ?_⟩
  simp only [Axis.init, gridOf, Options.deg2rad, h4, reduceCtorEq, if_false]
  ring

theorem tab_getD (n : ℕ) (f : ℕ → ℝ) {i : ℕ} (h : i < n) : (tab n f).getD i 0 = f i := by simp [tab, h]

theorem table1_tab {n ns : ℕ} (f : ℕ → ℕ → ℝ) {s i : ℕ} (hs : s < ns) (hi : i < n) :
    table1 (tab (ns * n) fun k => f (k % n) (k / n)) n s i = f i s := by
  unfold table1
  have hlt : s * n + i < ns * n := by
    calc s * n + i < s * n + n := by omega
      _ = (s + 1) * n := by ring
      _ ≤ ns * n := Nat.mul_le_mul_right _ hs
  rw [tab_getD _ _ hlt]
  congr 1
  · rw [Nat.add_comm, Nat.add_mul_mod_self_right, Nat.mod_eq_of_lt hi]
  · rw [Nat.add_comm, Nat.add_mul_div_right _ _ (by omega), Nat.div_eq_of_lt hi, Nat.zero_add]

theorem divmod {a b n : ℕ} (h : b < n) : (a * n + b) / n = a ∧ (a * n + b) % n = b := by
  constructor
  · rw [Nat.add_comm, Nat.add_mul_div_right _ _ (by omega), Nat.div_eq_of_lt h, Nat.zero_add]
  · rw [Nat.add_comm, Nat.add_mul_mod_self_right, Nat.mod_eq_of_lt h]

theorem index_lt {a b n m : ℕ} (ha : a < m) (hb : b < n) : a * n + b < m * n := by
  calc a * n + b < a * n + n := by omega
    _ = (a + 1) * n := by ring
    _ ≤ m * n := Nat.mul_le_mul_right _ ha

theorem table3_tab {nr np nz ns : ℕ} (f : ℕ → ℕ → ℕ → ℕ → ℝ) {s i j k : ℕ} (hs : s < ns) (hi : i < nr) (hj : j < np) (hk : k < nz) :
    table3 (tab (ns * nr * np * nz) fun q => f (q % (np * (nz * nr)) % (nz * nr) % nr) (q % (np * (nz * nr)) / (nz * nr))
      (q % (np * (nz * nr)) % (nz * nr) / nr) (q / (np * (nz * nr)))) nr np nz s i j k = f i j k s := by
  unfold table3
  have a1 : k * nr + i < nz * nr := index_lt hk hi
  have a2 : j * (nz * nr) + (k * nr + i) < np * (nz * nr) := index_lt hj a1
  have a3 : s * (np * (nz * nr)) + (j * (nz * nr) + (k * nr + i)) < ns * (np * (nz * nr)) := index_lt hs a2
  have e0 : s * (nr * np * nz) + (j * nz * nr + k * nr + i) = s * (np * (nz * nr)) + (j * (nz * nr) + (k * nr + i)) := by ring
  have e1 : ns * nr * np * nz = ns * (np * (nz * nr)) := by ring
  rw [e0, e1, tab_getD _ _ a3]
  simp only [(divmod a2).1, (divmod a2).2, (divmod a1).1, (divmod a1).2, (divmod hi).1, (divmod hi).2]

theorem written1 (n ns : ℕ) (lo hi : ℝ) (an zn : ℕ → ℤ) (den tem : ℕ → ℕ → ℝ) :
    ∃ g, write1D (args1 n ns lo hi an zn den tem) = .done g ∧
      g.ints "nrho" = some [(n : ℤ)] ∧ g.reals "rhomin" = some [lo] ∧ g.reals "rhomax" = some [hi] ∧
      g.ints "nspecies" = some [(ns : ℤ)] ∧ g.ints "anum" = some (tab ns an) ∧ g.ints "znum" = some (tab ns zn) ∧
      g.ints "maxwellian" = some (tab ns fun _ => 1) ∧
      g.reals "density" = some (tab (ns * n) fun k => den (k % n) (k / n)) ∧
      g.reals "temperature" = some (tab (ns * n) fun k => tem (k % n) (k / n)) := by
  have hm : (Mx.number 1).resolve ns = some (tab ns fun _ => (1 : ℤ)) := by
    simp [Mx.resolve, Mx.isOne, tab, List.map_const']
  refine ⟨?w, ?a, ?b⟩
  case a =>
    unfold write1D
    simp only [args1, tab_length, ne_eq, not_true, or_self, if_false, nd2_T_flat, hm]
    rw [if_neg (by simp [nd2]), if_neg (by simp [nd2])]
    rw [createAll_done (by simp [Elems.length])]
  case b => simp [put, empty]

theorem written3 (nr np nz ns : ℕ) (r0 r1 p0 p1 z0 z1 : ℝ) (an zn : ℕ → ℤ) (den tem : ℕ → ℕ → ℕ → ℕ → ℝ) :
    ∃ g, write3D (args3 nr np nz ns r0 r1 p0 p1 z0 z1 an zn den tem) = .done g ∧
      g.ints "nr" = some [(nr : ℤ)] ∧ g.ints "nphi" = some [(np : ℤ)] ∧ g.ints "nz" = some [(nz : ℤ)] ∧
      g.reals "rmin" = some [r0] ∧ g.reals "rmax" = some [r1] ∧ g.reals "phimin" = some [p0] ∧ g.reals "phimax" = some [p1] ∧
      g.reals "zmin" = some [z0] ∧ g.reals "zmax" = some [z1] ∧
      g.ints "nspecies" = some [(ns : ℤ)] ∧ g.ints "anum" = some (tab ns an) ∧ g.ints "znum" = some (tab ns zn) ∧
      g.ints "maxwellian" = some (tab ns fun _ => 1) ∧
      g.reals "density" = some (tab (ns * nr * np * nz) fun q => den (q % (np * (nz * nr)) % (nz * nr) % nr)
        (q % (np * (nz * nr)) / (nz * nr)) (q % (np * (nz * nr)) % (nz * nr) / nr) (q / (np * (nz * nr)))) ∧
      g.reals "temperature" = some (tab (ns * nr * np * nz) fun q => tem (q % (np * (nz * nr)) % (nz * nr) % nr)
        (q % (np * (nz * nr)) / (nz * nr)) (q % (np * (nz * nr)) % (nz * nr) / nr) (q / (np * (nz * nr)))) := by
  have hm : (Mx.number 1).resolve ns = some (tab ns fun _ => (1 : ℤ)) := by
    simp [Mx.resolve, Mx.isOne, tab, List.map_const']
  have e1 : ns * (np * (nz * nr)) = ns * nr * np * nz := by ring
  refine ⟨?w, ?a, ?b⟩
  case a =>
    unfold write3D
    simp only [args3, tab_length, ne_eq, not_true, or_self, if_false, nd4_3120_flat, hm]
    rw [if_neg (by simp [nd4]), if_neg (by simp [nd4])]
    rw [createAll_done (by simp [Elems.length])]
  case b => simp [put, empty, e1]

/-! ## Neutrals as function of rho -/

theorem ofFn_lt {α : Type} (n : ℕ) (f : ℕ → α) : List.ofFn (fun i : Fin n => f i) = tab n f := ofFn_tab n f

/-- Written, read and evaluated: at every point of the grid in rho there is no error, and the density of a species is the linear
interpolation of what the user gave for it, and its temperature that of what they gave in eV times the electronvolt.  `partial`: for
species with the same tables as the first one, among them the first one itself; and for points below the last grid point. -/
theorem rho_partial (n ns : ℕ) (lo hi : ℝ) (an zn : ℕ → ℤ) (den tem : ℕ → ℕ → ℝ) (hr : lo < hi) (h0 : 1 ≤ ns) :
    ∃ g data, write1D (args1 n ns lo hi an zn den tem) = .done g ∧ readNeutral (only "N0_1D" g) = .ok data ∧
      (∀ rho i d r phi z out, InCell n lo hi rho i d →
        (∃ res, evalN0 data rho r phi z out = some (0, res) ∧
          (∀ s < ns, (∀ j < n, den j s = den j 0) → res s = some (line (den i s) (den (i + 1) s) d)) ∧ ∀ s, ns ≤ s → res s = out s) ∧
        ∃ res, evalT0 data rho r phi z out = some (0, res) ∧
          (∀ s < ns, (∀ j < n, tem j s = tem j 0) → res s = some (line (tem i s) (tem (i + 1) s) d * e)) ∧
          ∀ s, ns ≤ s → res s = out s) ∧
      ∀ rho r phi z out, rho < lo ∨ hi < rho →
        (∃ err res, evalN0 data rho r phi z out = some (err, res) ∧ err ≠ 0) ∧
        ∃ err res, evalT0 data rho r phi z out = some (err, res) ∧ err ≠ 0 := by
  obtain ⟨g, hg, h1, h2, h3, h4, h5, h6, h7, h8, h9⟩ := written1 n ns lo hi an zn den tem
  have hinit := fun (x : Unit) => C105.init1_eq (K := ℝ) (nRho := n) (lo := lo) (hi := hi) (ns := ns) (an := tab ns an) (zn := tab ns zn)
    (mx := tab ns fun _ => 1) (den := tab (ns * n) fun k => den (k % n) (k / n)) (tem := tab (ns * n) fun k => tem (k % n) (k / n) * e)
    (by simp) (by simp) (by simp) (by simp; exact Nat.le_mul_of_pos_left _ h0) (by simp; exact Nat.le_mul_of_pos_left _ h0)
  have hinit := hinit ()
  generalize hdata : (⟨ns, _, _, _, _, _⟩ : Neutral.N0 (Neutral.Lin1 ℝ)) = data at hinit
  refine ⟨g, .d1 data, hg, ?_, ?_, ?_⟩
  · rw [readNeutral, lastFound_only (r := read1D) (by simp) (by simp)]
    unfold read1D
    rw [readCount_eq h1, ok_bind, readReal_eq h2, ok_bind, readReal_eq h3, ok_bind, readCount_eq h4, ok_bind, readInts_tab h5, ok_bind,
      readInts_tab h6, ok_bind, readInts_tab h7, ok_bind, readReals_tab h8, ok_bind, readReals_tab h9, ok_bind]
    rw [ofFn_tab ns an, ofFn_tab ns zn, ofFn_tab ns fun _ => (1 : ℤ), ofFn_tab (ns * n) fun k => den (k % n) (k / n),
      ofFn_tab (ns * n) fun k => tem (k % n) (k / n) * MarkerFile.eCharge, show MarkerFile.eCharge = e from rfl, hinit]
    rfl
  · intro rho i d r phi z out hc
    have hon := on_natural hc
    have hm : (i + 1) % n = i + 1 := Nat.mod_eq_of_lt hc.1
    constructor
    · obtain ⟨data', res, q1, q2, q3, q4⟩ := C105.density1_partial (r := r) (phi := phi) (z := z) hr (an := tab ns an) (zn := tab ns zn)
        (mx := tab ns fun _ => 1) (den := tab (ns * n) fun k => den (k % n) (k / n))
        (tem := tab (ns * n) fun k => tem (k % n) (k / n) * e) (by simp) (by simp) (by simp) (by simp) (by simp) h0 hon out
      obtain rfl : data = data' := Option.some.inj (hinit.symm.trans q1)
      refine ⟨res, q2, fun s hs h => ?_, q4⟩
      rw [q3 s hs fun j hj => by rw [table1_tab _ hs hj, table1_tab _ h0 hj, h j hj]]
      rw [cell1, hm, table1_tab _ hs hon.lt, table1_tab _ hs hc.1]
    · obtain ⟨data', res, q1, q2, q3, q4⟩ := C105.temperature1_partial (r := r) (phi := phi) (z := z) hr (an := tab ns an) (zn := tab ns zn)
        (mx := tab ns fun _ => 1) (den := tab (ns * n) fun k => den (k % n) (k / n))
        (tem := tab (ns * n) fun k => tem (k % n) (k / n) * e) (by simp) (by simp) (by simp) (by simp) (by simp) h0 hon out
      obtain rfl : data = data' := Option.some.inj (hinit.symm.trans q1)
      refine ⟨res, q2, fun s hs h => ?_, q4⟩
      have ht : ∀ s < ns, ∀ j < n, table1 (tab (ns * n) fun k => tem (k % n) (k / n) * e) n s j = tem j s * e :=
        fun s hs j hj => table1_tab (fun a b => tem a b * e) hs hj
      rw [q3 s hs fun j hj => by rw [ht s hs j hj, ht 0 h0 j hj, h j hj]]
      rw [cell1, hm, ht s hs i hon.lt, ht s hs _ hc.1]
      unfold line
      congr 1; ring
  · intro rho r phi z out ho
    obtain ⟨data', q1, ⟨e1, res1, a1, a2, -⟩, e2, res2, b1, b2, -⟩ := C105.outside1_partial (n := n) (r := r) (phi := phi) (z := z) (an := tab ns an)
      (zn := tab ns zn) (mx := tab ns fun _ => 1) (den := tab (ns * n) fun k => den (k % n) (k / n))
      (tem := tab (ns * n) fun k => tem (k % n) (k / n) * e) (by simp) (by simp) (by simp) (by simp) (by simp) h0 ho out
    obtain rfl : data = data' := Option.some.inj (hinit.symm.trans q1)
    exact ⟨⟨e1, res1, a1, a2⟩, e2, res2, b1, b2⟩

/-! ## Neutrals in three dimensions -/

/-- The same on a grid in R, phi and z: the toroidal angle, given by the user in degrees, is periodic. -/
theorem rpz_partial (nr np nz ns : ℕ) (r0 r1 p0 p1 z0 z1 : ℝ) (an zn : ℕ → ℤ) (den tem : ℕ → ℕ → ℕ → ℕ → ℝ)
    (hr : r0 < r1) (hp : p0 < p1) (hz : z0 < z1) (h0 : 1 ≤ ns) :
    ∃ g data, write3D (args3 nr np nz ns r0 r1 p0 p1 z0 z1 an zn den tem) = .done g ∧ readNeutral (only "N0_3D" g) = .ok data ∧
      ∀ rho r phi z i j k d f h out, InCell nr r0 r1 r i d → InPeriod np p0 p1 phi j f → InCell nz z0 z1 z k h →
        (∃ res, evalN0 data rho r phi z out = some (0, res) ∧
          (∀ s < ns, (∀ i < nr, ∀ j < np, ∀ k < nz, den i j k s = den i j k 0) →
            res s = some (cell3 nr np nz (fun i j k => den i j k s) i j k d f h)) ∧ ∀ s, ns ≤ s → res s = out s) ∧
        ∃ res, evalT0 data rho r phi z out = some (0, res) ∧
          (∀ s < ns, (∀ i < nr, ∀ j < np, ∀ k < nz, tem i j k s = tem i j k 0) →
            res s = some (cell3 nr np nz (fun i j k => tem i j k s * e) i j k d f h)) ∧ ∀ s, ns ≤ s → res s = out s := by
  obtain ⟨g, hg, h1, h2, h3, h4, h5, h6, h7, h8, h9, h10, h11, h12, h13, h14, h15⟩ :=
    written3 nr np nz ns r0 r1 p0 p1 z0 z1 an zn den tem
  have hd : ∀ s < ns, ∀ i < nr, ∀ j < np, ∀ k < nz, table3 (tab (ns * nr * np * nz) fun q =>
      den (q % (np * (nz * nr)) % (nz * nr) % nr) (q % (np * (nz * nr)) / (nz * nr)) (q % (np * (nz * nr)) % (nz * nr) / nr)
        (q / (np * (nz * nr)))) nr np nz s i j k = den i j k s :=
    fun s hs i hi j hj k hk => table3_tab den hs hi hj hk
  have ht : ∀ s < ns, ∀ i < nr, ∀ j < np, ∀ k < nz, table3 (tab (ns * nr * np * nz) fun q =>
      tem (q % (np * (nz * nr)) % (nz * nr) % nr) (q % (np * (nz * nr)) / (nz * nr)) (q % (np * (nz * nr)) % (nz * nr) / nr)
        (q / (np * (nz * nr))) * e) nr np nz s i j k = tem i j k s * e :=
    fun s hs i hi j hj k hk => table3_tab (fun a b c d => tem a b c d * e) hs hi hj hk
  generalize hD : (tab (ns * nr * np * nz) fun q =>
      den (q % (np * (nz * nr)) % (nz * nr) % nr) (q % (np * (nz * nr)) / (nz * nr)) (q % (np * (nz * nr)) % (nz * nr) / nr)
        (q / (np * (nz * nr)))) = D at hd
  generalize hT : (tab (ns * nr * np * nz) fun q =>
      tem (q % (np * (nz * nr)) % (nz * nr) % nr) (q % (np * (nz * nr)) / (nz * nr)) (q % (np * (nz * nr)) % (nz * nr) / nr)
        (q / (np * (nz * nr))) * e) = T at ht
  have lD : D.length = ns * (nr * np * nz) := by rw [← hD]; simp; ring
  have lT : T.length = ns * (nr * np * nz) := by rw [← hT]; simp; ring
  have hinit := fun (x : Unit) => C105.init3_eq (K := ℝ) (nr := nr) (np := np) (nz := nz) (r0 := r0) (r1 := r1) (p0 := Options.deg2rad p0)
    (p1 := Options.deg2rad p1) (z0 := z0) (z1 := z1) (ns := ns) (an := tab ns an) (zn := tab ns zn)
    (mx := tab ns fun _ => 1) (den := D) (tem := T)
    (by simp) (by simp) (by simp) (by rw [lD]; exact Nat.le_mul_of_pos_left _ h0) (by rw [lT]; exact Nat.le_mul_of_pos_left _ h0)
  have hinit := hinit ()
  generalize hdata : (⟨ns, _, _, _, _, _⟩ : Neutral.N0 (Neutral.Lin3 ℝ)) = data at hinit
  have hp' : Options.deg2rad p0 < Options.deg2rad p1 := by
    unfold Options.deg2rad
    exact mul_lt_mul_of_pos_right hp (by positivity)
  refine ⟨g, .d3 data, hg, ?_, ?_⟩
  · rw [readNeutral, lastFound_only (r := read3D) (by simp) (by simp)]
    unfold read3D
    rw [readCount_eq h1, ok_bind, readCount_eq h2, ok_bind, readCount_eq h3, ok_bind, readReal_eq h4, ok_bind, readReal_eq h5, ok_bind,
      readReal_eq h6, ok_bind, readReal_eq h7, ok_bind, readReal_eq h8, ok_bind, readReal_eq h9, ok_bind, readCount_eq h10, ok_bind,
      readInts_tab h11, ok_bind, readInts_tab h12, ok_bind, readInts_tab h13, ok_bind, readReals_tab h14, ok_bind, readReals_tab h15, ok_bind]
    have eD := (ofFn_tab (ns * nr * np * nz) fun q => den (q % (np * (nz * nr)) % (nz * nr) % nr) (q % (np * (nz * nr)) / (nz * nr))
      (q % (np * (nz * nr)) % (nz * nr) / nr) (q / (np * (nz * nr)))).trans hD
    have eT := (ofFn_tab (ns * nr * np * nz) fun q => tem (q % (np * (nz * nr)) % (nz * nr) % nr) (q % (np * (nz * nr)) / (nz * nr))
      (q % (np * (nz * nr)) % (nz * nr) / nr) (q / (np * (nz * nr))) * e).trans hT
    rw [ofFn_tab ns an, ofFn_tab ns zn, ofFn_tab ns fun _ => (1 : ℤ), show MarkerFile.eCharge = e from rfl, eD, eT, hinit]
    rfl
  · intro rho r phi z i j k d f h out hcr hcp hcz
    have ox := on_natural hcr
    have oy := on_periodic hcp
    have oz := on_natural hcz
    have ir : i < nr := ox.lt
    have ip : j < np := oy.lt
    have iz : k < nz := oz.lt
    constructor
    · obtain ⟨data', res, q1, q2, q3, q4⟩ := C105.density3_partial (rho := rho) hr hp' hz (an := tab ns an) (zn := tab ns zn)
        (mx := tab ns fun _ => 1) (den := D) (tem := T) (by simp) (by simp) (by simp) lD lT h0 ox oy oz out
      obtain rfl : data = data' := Option.some.inj (hinit.symm.trans q1)
      refine ⟨res, q2, fun s hs hh => ?_, q4⟩
      rw [q3 s hs fun a ha b hb c hc => by rw [hd s hs a ha b hb c hc, hd 0 h0 a ha b hb c hc, hh a ha b hb c hc]]
      rw [C105.cell3_congr ir ip iz fun a ha b hb c hc => hd s hs a ha b hb c hc]
    · obtain ⟨data', res, q1, q2, q3, q4⟩ := C105.temperature3_partial (rho := rho) hr hp' hz (an := tab ns an) (zn := tab ns zn)
        (mx := tab ns fun _ => 1) (den := D) (tem := T) (by simp) (by simp) (by simp) lD lT h0 ox oy oz out
      obtain rfl : data = data' := Option.some.inj (hinit.symm.trans q1)
      refine ⟨res, q2, fun s hs hh => ?_, q4⟩
      rw [q3 s hs fun a ha b hb c hc => by rw [ht s hs a ha b hb c hc, ht 0 h0 a ha b hb c hc, hh a ha b hb c hc]]
      rw [C105.cell3_congr ir ip iz fun a ha b hb c hc => ht s hs a ha b hb c hc]

/-! ## Violations -/

/-- **Violation.** Whatever two species the user writes, the second has the density and the temperature of the first. -/
theorem species_violation (n : ℕ) (lo hi : ℝ) (an zn : ℕ → ℤ) (den tem : ℕ → ℕ → ℝ) (hr : lo < hi) :
    ∃ g data, write1D (args1 n 2 lo hi an zn den tem) = .done g ∧ readNeutral (only "N0_1D" g) = .ok data ∧
      ∀ rho i d r phi z out, InCell n lo hi rho i d →
        ∃ res, evalN0 data rho r phi z out = some (0, res) ∧ res 0 = some (line (den i 0) (den (i + 1) 0) d) ∧ res 1 = res 0 := by
  obtain ⟨g, data, h1, h2, h3, -⟩ := rho_partial n 2 lo hi an zn den tem hr (by norm_num)
  refine ⟨g, data, h1, h2, fun rho i d r phi z out hc => ?_⟩
  obtain ⟨⟨res, a, b, c⟩, -⟩ := h3 rho i d r phi z out hc
  refine ⟨res, a, b 0 (by norm_num) fun _ _ => rfl, ?_⟩
  obtain ⟨g', hg, q1, q2, q3, q4, q5, q6, q7, q8, q9⟩ := written1 n 2 lo hi an zn den tem
  obtain rfl : g = g' := by rw [h1] at hg; injection hg
  have hinit := C105.init1_eq (K := ℝ) (nRho := n) (lo := lo) (hi := hi) (ns := 2) (an := tab 2 an) (zn := tab 2 zn)
    (mx := tab 2 fun _ => 1) (den := tab (2 * n) fun k => den (k % n) (k / n)) (tem := tab (2 * n) fun k => tem (k % n) (k / n) * e)
    (by simp) (by simp) (by simp) (by simp; omega) (by simp; omega)
  have hread : readNeutral (only "N0_1D" g) = .ok (.d1 ⟨2, tab 2 an, tab 2 zn, tab 2 fun _ => 1,
      List.replicate 2 ⟨Axis.init n .natural lo hi, (tab (2 * n) fun k => den (k % n) (k / n)).take n⟩,
      List.replicate 2 ⟨Axis.init n .natural lo hi, (tab (2 * n) fun k => tem (k % n) (k / n) * e).take n⟩⟩) := by
    rw [readNeutral, lastFound_only (r := read1D) (by simp) (by simp)]
    unfold read1D
    rw [readCount_eq q1, ok_bind, readReal_eq q2, ok_bind, readReal_eq q3, ok_bind, readCount_eq q4, ok_bind, readInts_tab q5, ok_bind,
      readInts_tab q6, ok_bind, readInts_tab q7, ok_bind, readReals_tab q8, ok_bind, readReals_tab q9, ok_bind]
    rw [ofFn_tab 2 an, ofFn_tab 2 zn, ofFn_tab 2 fun _ => (1 : ℤ), ofFn_tab (2 * n) fun k => den (k % n) (k / n),
      ofFn_tab (2 * n) fun k => tem (k % n) (k / n) * MarkerFile.eCharge, show MarkerFile.eCharge = e from rfl, hinit]
    rfl
  rw [h2] at hread
  injection hread with hread
  subst hread
  unfold evalN0 Neutral.evalN01D at a
  dsimp only at a
  have hl : ((tab (2 * n) fun k => den (k % n) (k / n)).take n).length = n := by simp; omega
  rw [C105.loop_ok (fun l : Neutral.Lin1 ℝ => eval1D l.x l.c rho) _ _ (by exact C35.value1 hr hl (on_natural hc)) 2 2 le_rfl] at a
  simp only [Option.map_some, C105.finish_ok, Option.some.injEq, Prod.mk.injEq] at a
  rw [← a.2]
  rfl

/-- **Violation.** The documented argument `maxwellian`, an array with one element per species, is refused for two or more species
(comparing it to 1 is ambiguous), in one and in three dimensions. -/
theorem maxwellian_violation (u : In1D) (v : In3D) (xs ys : List ℤ) (hu : u.maxwellian = .array xs) (hx : xs.length = u.nspecies)
    (hn : 2 ≤ u.nspecies) (hv : v.maxwellian = .array ys) (hy : ys.length = v.nspecies) (hm : 2 ≤ v.nspecies) :
    write1D u = .refused ∧ write3D v = .refused := by
  have key : ∀ (l : List ℤ) (k : ℕ), 2 ≤ l.length → (Mx.array l).resolve k = none := by
    intro l k h
    match l with
    | [] => simp at h
    | [a] => simp at h
    | a :: b :: t => rfl
  constructor
  · unfold write1D
    split_ifs <;> try rfl
    rw [hu, key xs _ (by omega)]
  · unfold write3D
    split_ifs <;> try rfl
    rw [hv, key ys _ (by omega)]

/-! ### The hypotheses can be met -/

example : InCell 3 0 1 (3 / 4) 1 (1 / 2) := ⟨by norm_num, by norm_num, by norm_num, by norm_num⟩

example : InPeriod 4 0 360 (5 * Real.pi / 4) 2 (1 / 2) := ⟨by norm_num, by norm_num, by norm_num, 0, by push_cast; ring⟩

example : ∃ u : In1D, u.maxwellian = .array [1, 0] ∧ 2 ≤ u.nspecies ∧ [1, 0].length = u.nspecies :=
  ⟨⟨0, 1, 2, 2, [1, 2], [1, 1], nd2 2 2 fun _ _ => 1, nd2 2 2 fun _ _ => 1, .array [1, 0]⟩, rfl, le_rfl, rfl⟩

end Ascot.C134
