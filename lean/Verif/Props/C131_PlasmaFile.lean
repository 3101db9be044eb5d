import Verif.Model.PlasmaFile
import Verif.Lemmas.PyFile
import Verif.Props.C97_Plasma
import Verif.Props.C52_Plasma
set_option linter.unusedSectionVars false
set_option linter.unusedSimpArgs false

/-!
# C131: the plasma that the simulation sees is the one the user wrote

A user calls `write_hdf5` of the Python interface with tables of densities in m^-3 and temperatures in eV; the program
reads the file and evaluates densities in m^-3 and temperatures in J.
-/
namespace Ascot.C131
open Ascot.PyFile Ascot.PlasmaFile Ascot.Profile
open Ascot.Plasma hiding Res
open Ascot.MarkerFile (Group readReals readInts)
open Ascot.Options (Res)

/-! ## Specification -/

/-- Elementary charge in C, which is also an electronvolt in J; atomic mass unit and mass of the electron in kg. -/
noncomputable def e : ℝ := 1.602176565e-19
@[inherit_doc e] noncomputable def u : ℝ := 1.660538921e-27
@[inherit_doc e] noncomputable def me : ℝ := 9.10938291e-31

/-- Ions as the user sees them: mass number, charge number, mass in atomic mass units, charge in elementary charges. -/
structure Ions where
  anum : ℕ → ℤ
  znum : ℕ → ℤ
  mass : ℕ → ℝ
  charge : ℕ → ℤ

/-- Table of density for each species: electrons first, then the ions; `ne i`, `ni i j` are for radius `i` and ion `j`. -/
def density (ne : ℕ → ℝ) (ni : ℕ → ℕ → ℝ) (s : ℕ) : ℕ → ℝ := fun i => if s = 0 then ne i else ni i (s - 1)

/-- The species of the simulation: electrons first, masses in kg, charges in C. -/
def Right (nion : ℕ) (a : Ions) (sp : Species) : Prop :=
  sp.anum = tab nion a.anum ∧ sp.znum = tab nion a.znum ∧
  sp.mass = me :: tab nion (fun j => a.mass j * u) ∧
  sp.charge = -e :: tab nion (fun j => a.charge j * e)

/-- The arguments of the writers, made from functions of the indices. -/
def args1D (nrho nion : ℕ) (a : Ions) (rho vtor ne te ti : ℕ → ℝ) (ni : ℕ → ℕ → ℝ) : In1D where
  nrho := nrho
  nion := nion
  anum := tab nion a.anum
  znum := tab nion a.znum
  mass := tab nion a.mass
  charge := tab nion a.charge
  rho := tab nrho rho
  vtor := tab nrho vtor
  edensity := tab nrho ne
  etemperature := tab nrho te
  idensity := nd2 nrho nion ni
  itemperature := tab nrho ti

@[inherit_doc args1D]
def args1DS (nrho nion : ℕ) (a : Ions) (rhomin rhomax : ℝ) (vtor ne te ti : ℕ → ℝ) (ni : ℕ → ℕ → ℝ) : In1DS where
  nrho := nrho
  nion := nion
  anum := tab nion a.anum
  znum := tab nion a.znum
  mass := tab nion a.mass
  charge := tab nion a.charge
  rhomin := rhomin
  rhomax := rhomax
  vtor := tab nrho vtor
  edensity := tab nrho ne
  etemperature := tab nrho te
  idensity := nd2 nrho nion ni
  itemperature := tab nrho ti

@[inherit_doc args1D]
def args1Dt (nrho ntime nion : ℕ) (a : Ions) (rho time : ℕ → ℝ) (vtor ne te ti : ℕ → ℕ → ℝ) (ni : ℕ → ℕ → ℕ → ℝ) : In1Dt where
  nrho := nrho
  ntime := ntime
  nion := nion
  anum := tab nion a.anum
  znum := tab nion a.znum
  mass := tab nion a.mass
  charge := tab nion a.charge
  rho := tab nrho rho
  time := tab ntime time
  vtor := nd2 ntime nrho vtor
  edensity := nd2 ntime nrho ne
  etemperature := nd2 ntime nrho te
  idensity := nd3 ntime nion nrho ni
  itemperature := nd2 ntime nrho ti

/-! ## Tables that agree where it matters -/

theorem increasing_congr {n : ℕ} {x y : ℕ → ℝ} (h : ∀ i < n, x i = y i) (hx : Increasing n x) : Increasing n y := by
  intro i hi
  rw [← h i (by omega), ← h (i + 1) hi]
  exact hx i hi

theorem between_congr {n : ℕ} {x y : ℕ → ℝ} (h : ∀ i < n, x i = y i) {v : ℝ} {i : ℕ} (hx : Between n x v i) : Between n y v i := by
  obtain ⟨a, b, c⟩ := hx
  exact ⟨a, h i (by omega) ▸ b, h (i + 1) a ▸ c⟩

theorem lerp_congr {n : ℕ} {x y f g : ℕ → ℝ} (h : ∀ i < n, x i = y i) (h' : ∀ i < n, f i = g i) {v : ℝ} {i : ℕ} (hi : i + 1 < n) :
    lerp x f v i = lerp y g v i := by
  unfold lerp
  rw [h i (by omega), h (i + 1) hi, h' i (by omega), h' (i + 1) hi]

theorem lerp_mul (x f : ℕ → ℝ) (c v : ℝ) (i : ℕ) : lerp x (fun k => f k * c) v i = lerp x f v i * c := by
  unfold lerp; ring

/-- The ion densities in the order of the file. -/
theorem species_ext {nrho nion : ℕ} {junk : ℕ → ℝ} {ne : ℕ → ℝ} {ni : ℕ → ℕ → ℝ} {s : ℕ} (hs : s ≤ nion) :
    ∀ i < nrho, species nrho (ext junk fun i : Fin nrho => ne i)
      (ext junk fun k : Fin (nrho * nion) => ni (k % nrho) (k / nrho)) s i = density ne ni s i := by
  intro i hi
  unfold species density
  split
  · rw [ext_lt hi]
  · rename_i h
    have hlt : (s - 1) * nrho + i < nrho * nion := by
      calc (s - 1) * nrho + i < (s - 1) * nrho + nrho := by omega
        _ = nrho * (s - 1 + 1) := by ring
        _ ≤ nrho * nion := Nat.mul_le_mul_left _ (by omega)
    rw [ext_lt hlt]
    have e1 : ((s - 1) * nrho + i) % nrho = i := by
      rw [Nat.add_comm, Nat.add_mul_mod_self_right, Nat.mod_eq_of_lt hi]
    have e2 : ((s - 1) * nrho + i) / nrho = s - 1 := by
      rw [Nat.add_comm, Nat.add_mul_div_right _ _ (by omega), Nat.div_eq_of_lt hi, Nat.zero_add]
    simp only [e1, e2]

theorem readSpecies_eq {g : Group} {nion : ℕ} {a : Ions} (h1 : g.ints "znum" = some (tab nion a.znum))
    (h2 : g.ints "anum" = some (tab nion a.anum)) (h3 : g.ints "charge" = some (tab nion a.charge))
    (h4 : g.reals "mass" = some (tab nion a.mass)) : ∃ sp, readSpecies g nion = .ok sp ∧ Right nion a sp := by
  refine ⟨?w, ?a, ?b⟩
  case a =>
    unfold readSpecies
    rw [readInts_tab h1, ok_bind, readInts_tab h2, ok_bind, readInts_tab h3, ok_bind, readReals_tab h4, ok_bind]
    rfl
  case b =>
    refine ⟨ofFn_tab _ _, ofFn_tab _ _, ?_, ?_⟩
    · exact congrArg _ (ofFn_tab nion fun j => a.mass j * u)
    · refine congrArg₂ List.cons ?_ (ofFn_tab nion fun j => a.charge j * e)
      rw [show MarkerFile.eCharge = e from rfl]; ring

/-! ## Profiles on a grid -/

theorem written1D (nrho nion : ℕ) (a : Ions) (rho vtor ne te ti : ℕ → ℝ) (ni : ℕ → ℕ → ℝ) :
    ∃ g, write1D (args1D nrho nion a rho vtor ne te ti ni) = .done g ∧
      g.ints "nion" = some [(nion : ℤ)] ∧ g.ints "nrho" = some [(nrho : ℤ)] ∧
      g.ints "znum" = some (tab nion a.znum) ∧ g.ints "anum" = some (tab nion a.anum) ∧
      g.ints "charge" = some (tab nion a.charge) ∧ g.reals "mass" = some (tab nion a.mass) ∧
      g.reals "rho" = some (tab nrho rho) ∧ g.reals "vtor" = some (tab nrho vtor) ∧
      g.reals "etemperature" = some (tab nrho te) ∧ g.reals "edensity" = some (tab nrho ne) ∧
      g.reals "itemperature" = some (tab nrho ti) ∧
      g.reals "idensity" = some (tab (nrho * nion) fun k => ni (k % nrho) (k / nrho)) := by
  refine ⟨?w, ?a, ?b⟩
  case a =>
    unfold write1D
    simp only [args1D, tab_length, ne_eq, not_true, if_false, nd2_T_flat]
    rw [if_neg (by simp [nd2])]
    rw [createAll_done (by simp [Elems.length])]
  case b => simp [put, empty, Nat.mul_comm]

theorem read1D_eq (junk : ℕ → ℝ) (nrho nion : ℕ) (a : Ions) (rho vtor ne te ti : ℕ → ℝ) (ni : ℕ → ℕ → ℝ) :
    ∃ g sp, write1D (args1D nrho nion a rho vtor ne te ti ni) = .done g ∧ Right nion a sp ∧
      ∀ p, init1D nrho nion (ext junk fun i : Fin nrho => rho i) (ext junk fun i : Fin nrho => te i * e)
        (ext junk fun i : Fin nrho => ti i * e) (ext junk fun i : Fin nrho => ne i)
        (ext junk fun k : Fin (nrho * nion) => ni (k % nrho) (k / nrho)) (ext junk fun i : Fin nrho => vtor i) = some p →
        read1D junk g = .ok (p, sp) := by
  obtain ⟨g, hg, h1, h2, h3, h4, h5, h6, h7, h8, h9, h10, h11, h12⟩ := written1D nrho nion a rho vtor ne te ti ni
  obtain ⟨sp, hsp, hr⟩ := readSpecies_eq h3 h4 h5 h6
  refine ⟨g, sp, hg, hr, fun p hp => ?_⟩
  unfold read1D
  rw [readCount_eq h1, ok_bind, readCount_eq h2, ok_bind, hsp, ok_bind, readReals_tab h7, ok_bind, readReals_tab h8, ok_bind,
    readReals_tab h9, ok_bind, readReals_tab h10, ok_bind, readReals_tab h11, ok_bind, readReals_tab h12, ok_bind,
    show MarkerFile.eCharge = e from rfl, hp]
  rfl

/-- Written, read and evaluated: densities are interpolated linearly between those the user gave for each species, temperatures
between those the user gave in eV, and the species have the masses and charges the user gave.  Not as in the property: the
flow (`flow_violation`), the last grid point (C52) and profiles that depend on time. -/
theorem grid_partial (junk : ℕ → ℝ) (nrho nion : ℕ) (a : Ions) (rho vtor ne te ti : ℕ → ℝ) (ni : ℕ → ℕ → ℝ) (hn : 0 < nrho)
    (hr : Increasing nrho rho) :
    ∃ g d sp, write1D (args1D nrho nion a rho vtor ne te ti ni) = .done g ∧
      readPlasma junk ⟨some g, none, none⟩ = .ok (d, sp) ∧ Right nion a sp ∧ nSpecies d = nion + 1 ∧
      (∀ v i, Between nrho rho v i → ∀ t old, ∀ s ≤ nion,
        evalDens d v t s old = some (lerp rho (density ne ni s) v i, 0) ∧
        evalTemp d v t s old = some (lerp rho (if s = 0 then te else ti) v i * e, 0)) ∧
      (∀ v, Outside nrho rho v → ∀ t old, ∀ s ≤ nion,
        ∃ e1 e2, e1 ≠ 0 ∧ e2 ≠ 0 ∧ evalDens d v t s old = some (10 ^ 20, e1) ∧ evalTemp d v t s old = some (10 ^ 20, e2)) := by
  obtain ⟨g, sp, hg, hsp, hread⟩ := read1D_eq junk nrho nion a rho vtor ne te ti ni
  have hx : ∀ i < nrho, rho i = ext junk (fun i : Fin nrho => rho i) i := fun i hi => by rw [ext_lt hi]
  have hx' : ∀ i < nrho, ext junk (fun i : Fin nrho => rho i) i = rho i := fun i hi => (hx i hi).symm
  obtain ⟨p, hp, hb, ho⟩ := C52.linear_partial nrho nion (ext junk fun i : Fin nrho => te i * e)
    (ext junk fun i : Fin nrho => ti i * e) (ext junk fun i : Fin nrho => ne i)
    (ext junk fun k : Fin (nrho * nion) => ni (k % nrho) (k / nrho)) (ext junk fun i : Fin nrho => vtor i) hn
    (increasing_congr hx hr)
  obtain ⟨p', hp', hgood⟩ := init1D_good nrho nion (ext junk fun i : Fin nrho => rho i) (ext junk fun i : Fin nrho => te i * e)
    (ext junk fun i : Fin nrho => ti i * e) (ext junk fun i : Fin nrho => ne i)
    (ext junk fun k : Fin (nrho * nion) => ni (k % nrho) (k / nrho)) (ext junk fun i : Fin nrho => vtor i)
  obtain rfl : p = p' := Option.some.inj (hp.symm.trans hp')
  refine ⟨g, .p1D p, sp, hg, ?_, hsp, hgood.ns, ?_, ?_⟩
  · simp only [readPlasma, hread p hp]
  · intro v i hi t old s hs
    have hi' := between_congr hx hi
    obtain ⟨hd, ht, -⟩ := hb v i hi'
    have h1 := hi.1
    constructor
    · simp only [evalDens, hd s hs, Option.map_some, store, lerp_congr hx' (species_ext hs) h1]
    · simp only [evalTemp, ht s hs, Option.map_some, store]
      rw [lerp_congr (g := fun i => (if s = 0 then te else ti) i * e) hx' ?_ h1, lerp_mul]
      intro k hk
      unfold temperature
      split <;> simp [ext_lt hk]
  · intro v hv t old s hs
    have hv' : Outside nrho (ext junk fun i : Fin nrho => rho i) v := by
      rcases hv with h | h
      · exact .inl (by rwa [ext_lt hn])
      · exact .inr (by rwa [ext_lt (show nrho - 1 < nrho by omega)])
    obtain ⟨e1, e2, e3, n1, n2, -, g1, g2, -⟩ := ho v hv'
    exact ⟨e1, e2, n1, n2, by simp [evalDens, g1, store], by simp [evalTemp, g2, store]⟩

/-- Finding: the rotation between two grid points is that of the left one, times the major radius. -/
theorem flow_violation (junk : ℕ → ℝ) (nrho nion : ℕ) (a : Ions) (rho vtor ne te ti : ℕ → ℝ) (ni : ℕ → ℕ → ℝ)
    (hr : Increasing nrho rho) :
    ∃ g d sp, write1D (args1D nrho nion a rho vtor ne te ti ni) = .done g ∧
      readPlasma junk ⟨some g, none, none⟩ = .ok (d, sp) ∧
      ∀ v i, Between nrho rho v i → ∀ t r old, evalFlow d v t r old = some (vtor i * r, 0) := by
  obtain ⟨g, sp, hg, hsp, hread⟩ := read1D_eq junk nrho nion a rho vtor ne te ti ni
  have hx : ∀ i < nrho, rho i = ext junk (fun i : Fin nrho => rho i) i := fun i hi => by rw [ext_lt hi]
  obtain ⟨p, hp, hf⟩ := C52.flow_is_a_step nrho nion (ext junk fun i : Fin nrho => te i * e)
    (ext junk fun i : Fin nrho => ti i * e) (ext junk fun i : Fin nrho => ne i)
    (ext junk fun k : Fin (nrho * nion) => ni (k % nrho) (k / nrho)) (ext junk fun i : Fin nrho => vtor i)
    (increasing_congr hx hr)
  refine ⟨g, .p1D p, sp, hg, by simp only [readPlasma, hread p hp], fun v i hi t r old => ?_⟩
  have h1 := hi.1
  simp only [evalFlow, hf v r i (between_congr hx hi), Option.map_some, store]
  rw [ext_lt (show i < nrho by omega)]

/-- A call of the writer that raises an exception half way leaves a group in the file that the program refuses to read. -/
theorem broken_refused (w : In1D) (g : Group) (h : write1D w = .broken g) (junk : ℕ → ℝ) :
    readPlasma junk ⟨some g, none, none⟩ = .fail := by
  have key : read1D junk g = .fail := by
    unfold write1D at h
    split_ifs at h
    simp only at h
    obtain ⟨hR, hI⟩ := createAll_broken h
    simp only [empty, reduceCtorEq, false_or, List.dropLast, List.mem_cons, List.not_mem_nil, or_false, exists_eq_or_imp,
      exists_eq_left, Elems.reals.injEq, Elems.ints.injEq, and_false, false_and] at hR hI
    have r : ∀ x n, (∀ xs, g.reals x = some xs → xs.length = n) → readReals g x n = .fail ∨ ∃ f, readReals g x n = .ok f :=
      fun x n h => readReals_cases h
    unfold read1D
    rcases readCount_cases (g := g) (x := "nion") (n := w.nion) (by intro xs hx; have := hI _ _ hx; simp at this; exact this.1.symm)
      with e | e <;> rw [e] <;> [rfl; rw [ok_bind]]
    rcases readCount_cases (g := g) (x := "nrho") (n := w.nrho) (by intro xs hx; have := hI _ _ hx; simp at this; exact this.1.symm)
      with e | e <;> rw [e] <;> [rfl; rw [ok_bind]]
    unfold readSpecies
    rcases readInts_cases (g := g) (x := "znum") (n := w.nion) (by intro xs hx; have := hI _ _ hx; simp at this; exact this.2)
      with e | ⟨_, e⟩ <;> rw [e] <;> [rfl; rw [ok_bind]]
    rcases readInts_cases (g := g) (x := "anum") (n := w.nion) (by intro xs hx; have := hI _ _ hx; simp at this; exact this.2)
      with e | ⟨_, e⟩ <;> rw [e] <;> [rfl; rw [ok_bind]]
    rcases readInts_cases (g := g) (x := "charge") (n := w.nion) (by intro xs hx; have := hI _ _ hx; simp at this; exact this.2)
      with e | ⟨_, e⟩ <;> rw [e] <;> [rfl; rw [ok_bind]]
    rcases r "mass" w.nion (by intro xs hx; have := hR _ _ hx; simp at this; exact this.2)
      with e | ⟨_, e⟩ <;> rw [e] <;> [rfl; rw [ok_bind]]
    rw [show ∀ a : Species, (pure a : Res Species) = .ok a from fun _ => rfl, ok_bind]
    rcases r "rho" w.nrho (by intro xs hx; have := hR _ _ hx; simp at this; exact this.2)
      with e | ⟨_, e⟩ <;> rw [e] <;> [rfl; rw [ok_bind]]
    rcases r "vtor" w.nrho (by intro xs hx; have := hR _ _ hx; simp at this; exact this.2)
      with e | ⟨_, e⟩ <;> rw [e] <;> [rfl; rw [ok_bind]]
    rcases r "etemperature" w.nrho (by intro xs hx; have := hR _ _ hx; simp at this; exact this.2)
      with e | ⟨_, e⟩ <;> rw [e] <;> [rfl; rw [ok_bind]]
    rcases r "edensity" w.nrho (by intro xs hx; have := hR _ _ hx; simp at this; exact this.2)
      with e | ⟨_, e⟩ <;> rw [e] <;> [rfl; rw [ok_bind]]
    rcases r "itemperature" w.nrho (by intro xs hx; have := hR _ _ hx; simp at this; exact this.2)
      with e | ⟨_, e⟩ <;> rw [e] <;> [rfl; rw [ok_bind]]
    rw [readReals_none, fail_bind]
    cases hx : g.reals "idensity" with
    | none => rfl
    | some xs => have := hR _ _ hx; simp at this
  simp only [readPlasma, key]

/-! ## Splines -/

theorem splineOf_congr {n : ℕ} {min max : ℝ} {f g : ℕ → ℝ} {F : ℝ → ℝ} (h : ∀ i < n, f i = g i) (hF : C97.SplineOf n min max f F) :
    C97.SplineOf n min max g F := by
  obtain ⟨q, ⟨a, b, c, d, e1, e2⟩, hq⟩ := hF
  exact ⟨q, ⟨fun i hi => (a i hi).trans (h i (by omega)), fun i hi => (b i hi).trans (h (i + 1) hi), c, d, e1, e2⟩, hq⟩

theorem written1DS (nrho nion : ℕ) (a : Ions) (rhomin rhomax : ℝ) (vtor ne te ti : ℕ → ℝ) (ni : ℕ → ℕ → ℝ) :
    ∃ g, write1DS (args1DS nrho nion a rhomin rhomax vtor ne te ti ni) = .done g ∧
      g.ints "nion" = some [(nion : ℤ)] ∧ g.ints "nrho" = some [(nrho : ℤ)] ∧
      g.ints "znum" = some (tab nion a.znum) ∧ g.ints "anum" = some (tab nion a.anum) ∧
      g.ints "charge" = some (tab nion a.charge) ∧ g.reals "mass" = some (tab nion a.mass) ∧
      g.reals "rhomin" = some [rhomin] ∧ g.reals "rhomax" = some [rhomax] ∧ g.reals "vtor" = some (tab nrho vtor) ∧
      g.reals "etemperature" = some (tab nrho te) ∧ g.reals "edensity" = some (tab nrho ne) ∧
      g.reals "itemperature" = some (tab nrho ti) ∧
      g.reals "idensity" = some (tab (nrho * nion) fun k => ni (k % nrho) (k / nrho)) := by
  refine ⟨?w, ?a, ?b⟩
  case a =>
    unfold write1DS
    simp only [args1DS, tab_length, ne_eq, not_true, if_false, nd2_T_flat]
    rw [if_neg (by simp [nd2])]
    rw [createAll_done (by simp [Elems.length])]
  case b => simp [put, empty, Nat.mul_comm]

/-- Written, read and evaluated with splines: at the grid points the values are those the user gave (temperatures in eV times
the electronvolt, rotation times major radius), everywhere on the grid densities and temperatures are exponentials of the natural
cubic splines through the logarithms and the rotation is the spline. -/
theorem spline (junk : ℕ → ℝ) (nrho nion : ℕ) (a : Ions) (rhomin rhomax : ℝ) (vtor ne te ti : ℕ → ℝ) (ni : ℕ → ℕ → ℝ) (hn : 2 ≤ nrho)
    (hm : rhomin < rhomax) (hpos : ∀ i < nrho, 0 < te i ∧ 0 < ti i ∧ 0 < ne i ∧ ∀ j < nion, 0 < ni i j) :
    ∃ g d sp, write1DS (args1DS nrho nion a rhomin rhomax vtor ne te ti ni) = .done g ∧
      readPlasma junk ⟨none, none, some g⟩ = .ok (d, sp) ∧ Right nion a sp ∧ nSpecies d = nion + 1 ∧
      (∃ (D T : ℕ → ℝ → ℝ) (V : ℝ → ℝ),
        (∀ s ≤ nion, C97.SplineOf nrho rhomin rhomax (fun i => Real.log (density ne ni s i)) (D s) ∧
          C97.SplineOf nrho rhomin rhomax (fun i => Real.log ((if s = 0 then te else ti) i * e)) (T s)) ∧
        C97.SplineOf nrho rhomin rhomax vtor V ∧
        ∀ v, rhomin ≤ v → v ≤ rhomax →
          (∀ t old, ∀ s ≤ nion, evalDens d v t s old = some (Real.exp (D s v), 0) ∧ evalTemp d v t s old = some (Real.exp (T s v), 0)) ∧
          ∀ t r old, evalFlow d v t r old = some (V v * r, 0)) ∧
      ∀ k < nrho, ∀ t old, ∀ s ≤ nion,
        evalDens d (rhomin + k * ((rhomax - rhomin) / (nrho - 1))) t s old = some (density ne ni s k, 0) ∧
        evalTemp d (rhomin + k * ((rhomax - rhomin) / (nrho - 1))) t s old = some ((if s = 0 then te else ti) k * e, 0) := by
  obtain ⟨g, hg, h1, h2, h3, h4, h5, h6, h7, h8, h9, h10, h11, h12, h13⟩ := written1DS nrho nion a rhomin rhomax vtor ne te ti ni
  obtain ⟨sp, hsp, hr⟩ := readSpecies_eq h3 h4 h5 h6
  have he : 0 < e := by unfold e; norm_num
  have hT : ∀ i < nrho, 0 < ext junk (fun i : Fin nrho => te i * e) i ∧ 0 < ext junk (fun i : Fin nrho => ti i * e) i ∧
      0 < ext junk (fun i : Fin nrho => ne i) i := by
    intro i hi
    obtain ⟨p1, p2, p3, -⟩ := hpos i hi
    rw [ext_lt hi, ext_lt hi, ext_lt hi]
    exact ⟨mul_pos p1 he, mul_pos p2 he, p3⟩
  have hi : ∀ i < nion * nrho, 0 < ext junk (fun k : Fin (nrho * nion) => ni (k % nrho) (k / nrho)) i := by
    intro i hi
    have hi' : i < nrho * nion := by rwa [Nat.mul_comm]
    rw [ext_lt hi']
    exact (hpos (i % nrho) (Nat.mod_lt _ (by omega))).2.2.2 _ (Nat.div_lt_of_lt_mul hi')
  obtain ⟨p, D, T, hp, hns, hsD, hv, -, V, hV, hf, -⟩ := C97.spline_profiles (ext junk fun i : Fin nrho => vtor i) hn hm hT hi
  obtain ⟨p', hp', -, ht⟩ := C97.positive_and_tabulated (ext junk fun i : Fin nrho => vtor i) hn hm hT hi
  obtain rfl : p = p' := Option.some.inj (hp.symm.trans hp')
  have etemp : ∀ s, ∀ i < nrho, temperature (ext junk fun i : Fin nrho => te i * e) (ext junk fun i : Fin nrho => ti i * e) s i =
      (if s = 0 then te else ti) i * e := by
    intro s i hi
    unfold temperature
    split <;> simp [ext_lt hi]
  refine ⟨g, .p1DS p, sp, hg, ?_, hr, hns, ⟨D, T, V, ?_, ?_, ?_⟩, ?_⟩
  · have : read1DS junk g = .ok (p, sp) := by
      unfold read1DS
      rw [readCount_eq h1, ok_bind, readCount_eq h2, ok_bind, readReal_eq h7, ok_bind, readReal_eq h8, ok_bind, hsp, ok_bind,
        readReals_tab h9, ok_bind, readReals_tab h10, ok_bind, readReals_tab h11, ok_bind, readReals_tab h12, ok_bind,
        readReals_tab h13, ok_bind, show MarkerFile.eCharge = e from rfl, hp]
      rfl
    simp only [readPlasma, this]
  · intro s hs
    obtain ⟨a1, a2⟩ := hsD s hs
    exact ⟨splineOf_congr (fun i hi => by rw [species_ext hs i hi]) a1, splineOf_congr (fun i hi => by rw [etemp s i hi]) a2⟩
  · exact splineOf_congr (fun i hi => by rw [ext_lt hi]) hV
  · intro v h0 h1
    obtain ⟨a1, -⟩ := hv v h0 h1
    refine ⟨fun t old s hs => ?_, fun t r old => ?_⟩
    · simp [evalDens, evalTemp, (a1 s hs).1, (a1 s hs).2, store]
    · simp [evalFlow, hf v r old h0 h1, store]
  · intro k hk t old s hs
    obtain ⟨a1, a2⟩ := ht k hk s hs
    simp only [evalDens, evalTemp, a1, a2, Option.map_some, store, species_ext hs k hk, etemp s k hk, and_self]

/-! ## Profiles that depend on time -/

theorem written1Dt (nrho ntime nion : ℕ) (a : Ions) (rho time : ℕ → ℝ) (vtor ne te ti : ℕ → ℕ → ℝ) (ni : ℕ → ℕ → ℕ → ℝ) :
    ∃ g, write1Dt (args1Dt nrho ntime nion a rho time vtor ne te ti ni) = .done g ∧
      g.ints "nion" = some [(nion : ℤ)] ∧ g.ints "nrho" = some [(nrho : ℤ)] ∧ g.ints "ntime" = some [(ntime : ℤ)] ∧
      g.ints "znum" = some (tab nion a.znum) ∧ g.ints "anum" = some (tab nion a.anum) ∧
      g.ints "charge" = some (tab nion a.charge) ∧ g.reals "mass" = some (tab nion a.mass) ∧
      g.reals "rho" = some (tab nrho rho) ∧ g.reals "time" = some (tab ntime time) ∧
      g.reals "vtor" = some (tab (ntime * nrho) fun k => vtor (k / nrho) (k % nrho)) ∧
      g.reals "etemperature" = some (tab (ntime * nrho) fun k => te (k / nrho) (k % nrho)) ∧
      g.reals "edensity" = some (tab (ntime * nrho) fun k => ne (k / nrho) (k % nrho)) ∧
      g.reals "itemperature" = some (tab (ntime * nrho) fun k => ti (k / nrho) (k % nrho)) ∧
      g.reals "idensity" = some (tab (ntime * nion * nrho) fun k =>
        ni (k / (nion * nrho)) (k % (nion * nrho) / nrho) (k % (nion * nrho) % nrho)) := by
  refine ⟨?w, ?a, ?b⟩
  case a =>
    unfold write1Dt
    simp only [args1Dt, nd2_flat, nd3_flat]
    rw [if_neg (by simp [nd2]), if_neg (by simp [nd2]), if_neg (by simp [nd2]), if_neg (by simp [nd2]), if_neg (by simp [nd3])]
    rw [createAll_done (by simp [Elems.length])]
  case b => simp [put, empty, Nat.mul_assoc]

theorem read1Dt_eq (junk : ℕ → ℝ) (nrho ntime nion : ℕ) (a : Ions) (rho time : ℕ → ℝ) (vtor ne te ti : ℕ → ℕ → ℝ) (ni : ℕ → ℕ → ℕ → ℝ) :
    ∃ g sp, write1Dt (args1Dt nrho ntime nion a rho time vtor ne te ti ni) = .done g ∧ Right nion a sp ∧
      ∀ p, init1Dt nrho ntime nion (ext junk fun i : Fin nrho => rho i) (ext junk fun i : Fin ntime => time i)
        (ext junk fun k : Fin (ntime * nrho) => te (k / nrho) (k % nrho) * e)
        (ext junk fun k : Fin (ntime * nrho) => ti (k / nrho) (k % nrho) * e)
        (ext junk fun k : Fin (ntime * nrho) => ne (k / nrho) (k % nrho))
        (ext junk fun k : Fin (ntime * nion * nrho) => ni (k / (nion * nrho)) (k % (nion * nrho) / nrho) (k % (nion * nrho) % nrho))
        (ext junk fun k : Fin (ntime * nrho) => vtor (k / nrho) (k % nrho)) = some p →
        read1Dt junk g = .ok (p, sp) := by
  obtain ⟨g, hg, h1, h2, h3, h4, h5, h6, h7, h8, h9, h10, h11, h12, h13, h14⟩ :=
    written1Dt nrho ntime nion a rho time vtor ne te ti ni
  obtain ⟨sp, hsp, hr⟩ := readSpecies_eq h4 h5 h6 h7
  refine ⟨g, sp, hg, hr, fun p hp => ?_⟩
  unfold read1Dt
  rw [readCount_eq h1, ok_bind, readCount_eq h2, ok_bind, readCount_eq h3, ok_bind, hsp, ok_bind, readReals_tab h8, ok_bind,
    readReals_tab h9, ok_bind, readReals_tab h11, ok_bind, readReals_tab h13, ok_bind, readReals_tab h10, ok_bind,
    readReals_tab h12, ok_bind, readReals_tab h14, ok_bind, show MarkerFile.eCharge = e from rfl, hp]
  rfl

/-- An element of a table of times and radii. -/
theorem row_ext {nrho ntime : ℕ} {junk : ℕ → ℝ} {f : ℕ → ℕ → ℝ} {j : ℕ} (hj : j < ntime) {i : ℕ} (hi : i < nrho) :
    C96.row nrho (ext junk fun k : Fin (ntime * nrho) => f (k / nrho) (k % nrho)) j i = f j i := by
  unfold C96.row
  have hlt : j * nrho + i < ntime * nrho := by
    calc j * nrho + i < j * nrho + nrho := by omega
      _ = (j + 1) * nrho := by ring
      _ ≤ ntime * nrho := Nat.mul_le_mul_right _ (by omega)
  rw [ext_lt hlt]
  have e1 : (j * nrho + i) % nrho = i := by rw [Nat.add_comm, Nat.add_mul_mod_self_right, Nat.mod_eq_of_lt hi]
  have e2 : (j * nrho + i) / nrho = j := by
    rw [Nat.add_comm, Nat.add_mul_div_right _ _ (by omega), Nat.div_eq_of_lt hi, Nat.zero_add]
  simp only [e1, e2]

/-- Temperatures that depend on time: in all time intervals but the last they are interpolated linearly in radius and time
between those the user gave in eV; from the last time on they are those of the last time.  The species are right.  Missing: densities
(`time_density_violation`), rotation and the last interval (C96). -/
theorem time_temperature_partial (junk : ℕ → ℝ) (nrho ntime nion : ℕ) (a : Ions) (rho time : ℕ → ℝ) (vtor ne te ti : ℕ → ℕ → ℝ)
    (ni : ℕ → ℕ → ℕ → ℝ) (h2 : 2 ≤ ntime) (hr : Increasing nrho rho) (ht : Increasing ntime time) :
    ∃ g d sp, write1Dt (args1Dt nrho ntime nion a rho time vtor ne te ti ni) = .done g ∧
      readPlasma junk ⟨none, some g, none⟩ = .ok (d, sp) ∧ Right nion a sp ∧
      ∀ v i, Between nrho rho v i → ∀ old, ∀ s ≤ nion,
        (∀ t j, Between ntime time t j → j + 2 < ntime →
          evalTemp d v t s old = some (C96.bilinear rho time (if s = 0 then te else ti) v t i j * e, 0)) ∧
        ∀ t, time (ntime - 1) ≤ t →
          evalTemp d v t s old = some (lerp rho ((if s = 0 then te else ti) (ntime - 1)) v i * e, 0) := by
  obtain ⟨g, sp, hg, hsp, hread⟩ := read1Dt_eq junk nrho ntime nion a rho time vtor ne te ti ni
  have hx : ∀ i < nrho, rho i = ext junk (fun i : Fin nrho => rho i) i := fun i hi => by rw [ext_lt hi]
  have hx' : ∀ i < nrho, ext junk (fun i : Fin nrho => rho i) i = rho i := fun i hi => (hx i hi).symm
  have hy : ∀ i < ntime, time i = ext junk (fun i : Fin ntime => time i) i := fun i hi => by rw [ext_lt hi]
  have hy' : ∀ i < ntime, ext junk (fun i : Fin ntime => time i) i = time i := fun i hi => (hy i hi).symm
  obtain ⟨p, hp, hb⟩ := C96.temperature_partial nrho ntime nion
    (ext junk fun k : Fin (ntime * nrho) => te (k / nrho) (k % nrho) * e)
    (ext junk fun k : Fin (ntime * nrho) => ti (k / nrho) (k % nrho) * e)
    (ext junk fun k : Fin (ntime * nrho) => ne (k / nrho) (k % nrho))
    (ext junk fun k : Fin (ntime * nion * nrho) => ni (k / (nion * nrho)) (k % (nion * nrho) / nrho) (k % (nion * nrho) % nrho))
    (ext junk fun k : Fin (ntime * nrho) => vtor (k / nrho) (k % nrho)) h2 (increasing_congr hx hr) (increasing_congr hy ht)
  have hrow : ∀ s, ∀ j < ntime, ∀ k < nrho,
      temperature (C96.row nrho (ext junk fun k : Fin (ntime * nrho) => te (k / nrho) (k % nrho) * e) j)
        (C96.row nrho (ext junk fun k : Fin (ntime * nrho) => ti (k / nrho) (k % nrho) * e) j) s k =
      (if s = 0 then te else ti) j k * e := by
    intro s j hj k hk
    unfold temperature
    split
    · exact row_ext (f := fun a b => te a b * e) hj hk
    · exact row_ext (f := fun a b => ti a b * e) hj hk
  refine ⟨g, .p1Dt p, sp, hg, by simp only [readPlasma, hread p hp], hsp, fun v i hi old s hs => ?_⟩
  have h1 := hi.1
  obtain ⟨ha, hl⟩ := hb v i (between_congr hx hi) s hs
  constructor
  · intro t j hj hl
    have hj1 := hj.1
    simp only [evalTemp, ha t j (between_congr hy hj) hl, Option.map_some, store]
    unfold C96.bilinear
    rw [← lerp_mul, lerp_congr (g := fun j => lerp rho ((if s = 0 then te else ti) j) v i * e) hy' ?_ hj1]
    intro k hk
    rw [← lerp_mul]
    exact lerp_congr hx' (hrow s k hk) h1
  · intro t htl
    have htl' : ext junk (fun i : Fin ntime => time i) (ntime - 1) ≤ t := by
      rwa [ext_lt (show ntime - 1 < ntime by omega)]
    simp only [evalTemp, hl t htl', Option.map_some, store]
    rw [← lerp_mul]
    exact congrArg some (congrArg (·, 0) (lerp_congr hx' (hrow s (ntime - 1) (by omega)) h1))

/-- Finding: with at least one ion and three times, the density of the first ion at the first time is that of the electrons at
the second time, whatever the user gave for the ion. -/
theorem time_density_violation (junk : ℕ → ℝ) (nrho ntime nion : ℕ) (a : Ions) (rho time : ℕ → ℝ) (vtor ne te ti : ℕ → ℕ → ℝ)
    (ni : ℕ → ℕ → ℕ → ℝ) (h3 : 3 ≤ ntime) (h1 : 1 ≤ nion) (hr : Increasing nrho rho) (ht : Increasing ntime time) :
    ∃ g d sp, write1Dt (args1Dt nrho ntime nion a rho time vtor ne te ti ni) = .done g ∧
      readPlasma junk ⟨none, some g, none⟩ = .ok (d, sp) ∧
      ∀ v i, Between nrho rho v i → ∀ old, evalDens d v (time 0) 1 old = some (lerp rho (ne 1) v i, 0) := by
  obtain ⟨g, sp, hg, hsp, hread⟩ := read1Dt_eq junk nrho ntime nion a rho time vtor ne te ti ni
  have hx : ∀ i < nrho, rho i = ext junk (fun i : Fin nrho => rho i) i := fun i hi => by rw [ext_lt hi]
  have hx' : ∀ i < nrho, ext junk (fun i : Fin nrho => rho i) i = rho i := fun i hi => (hx i hi).symm
  have hy : ∀ i < ntime, time i = ext junk (fun i : Fin ntime => time i) i := fun i hi => by rw [ext_lt hi]
  obtain ⟨p, hp, hb⟩ := C96.ion_density_is_electron_density nrho ntime nion
    (ext junk fun k : Fin (ntime * nrho) => te (k / nrho) (k % nrho) * e)
    (ext junk fun k : Fin (ntime * nrho) => ti (k / nrho) (k % nrho) * e)
    (ext junk fun k : Fin (ntime * nrho) => ne (k / nrho) (k % nrho))
    (ext junk fun k : Fin (ntime * nion * nrho) => ni (k / (nion * nrho)) (k % (nion * nrho) / nrho) (k % (nion * nrho) % nrho))
    (ext junk fun k : Fin (ntime * nrho) => vtor (k / nrho) (k % nrho)) h3 h1 (increasing_congr hx hr) (increasing_congr hy ht)
  refine ⟨g, .p1Dt p, sp, hg, by simp only [readPlasma, hread p hp], fun v i hi old => ?_⟩
  have h := hb v i (between_congr hx hi)
  rw [ext_lt (show 0 < ntime by omega)] at h
  simp only [evalDens, h, Option.map_some, store]
  exact congrArg some (congrArg (·, 0) (lerp_congr hx' (fun k hk => row_ext (by omega) hk) hi.1))

/-! ## The hypotheses can be met -/

/-- Deuterium and helium, in a plasma given at three radii and three times. -/
example : Increasing 3 (fun i => (i : ℝ)) ∧ Between 3 (fun i => (i : ℝ)) (1 / 2) 0 ∧ Outside 3 (fun i => (i : ℝ)) (-1) ∧
    ∀ i < 3, 0 < (fun i : ℕ => (i : ℝ) + 1) i ∧ 0 < (fun i : ℕ => (i : ℝ) + 2) i ∧ 0 < (fun i : ℕ => (i : ℝ) + 3) i ∧
      ∀ j < 2, 0 < (fun i j : ℕ => (i : ℝ) + j + 1) i j := by
  refine ⟨fun i _ => by push_cast; linarith, ⟨by decide, by norm_num, by norm_num⟩, .inl (by norm_num), fun i _ => ⟨?_, ?_, ?_, fun j _ => ?_⟩⟩ <;>
    positivity

/-- A table of radii with one point too many makes the writer stop half way. -/
def tooMany : In1D :=
  ⟨2, 1, [2], [1], [2], [1], [0, 1, 2], [0, 0], [1, 1], [1, 1], ⟨[2, 1], fun _ => 1⟩, [1, 1]⟩

example : ∃ g, write1D tooMany = .broken g := by
  refine ⟨?w, ?a⟩
  case a =>
    simp only [write1D, tooMany, createAll, create, Elems.length, List.length_cons, List.length_nil, List.prod_cons, List.prod_nil,
      ne_eq, not_true, if_false, reduceIte, Nat.reduceAdd, Nat.reduceMul, Nat.reduceEqDiff]
    rfl

end Ascot.C131
