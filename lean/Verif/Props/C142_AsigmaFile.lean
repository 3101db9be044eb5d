import Verif.Model.AsigmaFile
import Verif.Lemmas.PyFile
import Verif.Lemmas.SplineFun
set_option linter.unusedSectionVars false
set_option linter.unusedSimpArgs false

/-!
# C142: the reaction data that the simulation sees are those the user wrote

A user calls `Asigma_loc.write_hdf5` of the Python interface, the program reads the file and evaluates the reactions.
-/
namespace Ascot.C142
open Ascot.PyFile Ascot.AsigmaFile Ascot.Tensor Ascot.Smooth Ascot.SplineSetup Ascot.Spline Ascot.Interp
open Ascot.Linint (Axis gridOf)
open Ascot.Asigma (Reac evalSigma evalSigmav)
open Ascot.MarkerFile (Group readReals readInts)

/-! ### Specification -/

/-- What the user knows about a reaction: the species, the type, the axes, and the value `table i j k` at energy `i`, density `j` and temperature `k`. -/
structure Reaction where
  z1 : ℤ
  a1 : ℤ
  z2 : ℤ
  a2 : ℤ
  type : ℕ
  ne : ℕ
  emin : ℝ
  emax : ℝ
  nn : ℕ
  nmin : ℝ
  nmax : ℝ
  nT : ℕ
  Tmin : ℝ
  Tmax : ℝ
  table : ℕ → ℕ → ℕ → ℝ

/-- The number of values of a reaction. -/
def Reaction.size (r : Reaction) : ℕ := r.ne * r.nn * r.nT

/-- Where the values of reaction `i` begin. -/
def start (rs : ℕ → Reaction) (i : ℕ) : ℕ := ((List.range i).map fun q => (rs q).size).sum

/-- `data` holds the tables one after the other, in each the energy changes fastest and the temperature slowest. -/
def Packed (n : ℕ) (rs : ℕ → Reaction) (data : ℕ → ℝ) : Prop :=
  ∀ q < n, ∀ i < (rs q).ne, ∀ j < (rs q).nn, ∀ k < (rs q).nT,
    data (start rs q + (k * (rs q).nn * (rs q).ne + j * (rs q).ne + i)) = (rs q).table i j k

/-- The arguments of a correct call. -/
def args (n : ℕ) (rs : ℕ → Reaction) (data : ℕ → ℝ) : In :=
  ⟨n, tab n fun i => (rs i).z1, tab n fun i => (rs i).a1, tab n fun i => (rs i).z2, tab n fun i => (rs i).a2, tab n fun i => ((rs i).type : ℤ),
    tab n fun i => (rs i).ne, tab n fun i => (rs i).emin, tab n fun i => (rs i).emax,
    tab n fun i => (rs i).nn, tab n fun i => (rs i).nmin, tab n fun i => (rs i).nmax,
    tab n fun i => (rs i).nT, tab n fun i => (rs i).Tmin, tab n fun i => (rs i).Tmax, nd2 1 (start rs n) fun _ k => data k⟩

/-- `F` is the three-dimensional cubic spline through the table. -/
def IsSplineFun3 (nx ny nz : ℕ) (x0 x1 y0 y1 z0 z1 : ℝ) (f : ℕ → ℕ → ℕ → ℝ) (F : ℝ → ℝ → ℝ → ℝ) : Prop :=
  ∀ x y z i j k d e h, At nx x0 x1 x i d → At ny y0 y1 y j e → At nz z0 z1 z k h →
    IsValue3 nx ny nz .natural .natural .natural (spacing nx .natural x0 x1) (spacing ny .natural y0 y1) (spacing nz .natural z0 z1) f i j k d e h
      .val .val .val (F x y z)

/-- Data for the energy alone; for energy and temperature; for energy, density and temperature. -/
inductive Reaction.Kind (r : Reaction) : ℕ → Prop
  | one (h : 2 ≤ r.ne) (hn : r.nn = 1) (hT : r.nT = 1) (m : r.emin < r.emax) : Kind r 1
  | two (h : 2 ≤ r.ne) (hn : r.nn = 1) (hT : 2 ≤ r.nT) (m : r.emin < r.emax) (mT : r.Tmin < r.Tmax) : Kind r 2
  | three (h : 2 ≤ r.ne) (hn : 2 ≤ r.nn) (hT : 2 ≤ r.nT) (m : r.emin < r.emax) (mn : r.nmin < r.nmax) (mT : r.Tmin < r.Tmax) : Kind r 3

/-- The reaction `x` of the program has the species and the type of `r`. -/
def Same (r : Reaction) (x : Reac) : Prop := x.z1 = r.z1 ∧ x.a1 = r.a1 ∧ x.z2 = r.z2 ∧ x.a2 = r.a2 ∧ x.type = r.type

/-- The data of the reaction `x` of the program are the spline through `table` on the axes of `r`. -/
def Follows (r : Reaction) (table : ℕ → ℕ → ℕ → ℝ) (x : Reac) : ℕ → Prop
  | 1 => ∃ F, IsSplineFun1 r.ne r.emin r.emax (fun i => table i 0 0) F ∧
      (∀ e, r.emin ≤ e → e ≤ r.emax → x.sigma e = some (F e)) ∧ ∀ e, e < r.emin ∨ r.emax < e → x.sigma e = none
  | 2 => ∃ F, IsSplineFun2 r.ne r.nT .natural .natural r.emin r.emax r.Tmin r.Tmax (fun i k => table i 0 k) F ∧
      (∀ e t, r.emin ≤ e → e ≤ r.emax → r.Tmin ≤ t → t ≤ r.Tmax → x.sigmav e t = some (F (e, t))) ∧
      ∀ e t, (e < r.emin ∨ r.emax < e) ∨ (t < r.Tmin ∨ r.Tmax < t) → x.sigmav e t = none
  | 3 => ∃ F, IsSplineFun3 r.ne r.nn r.nT r.emin r.emax r.nmin r.nmax r.Tmin r.Tmax table F ∧
      (∀ e n t, r.emin ≤ e → e ≤ r.emax → r.nmin ≤ n → n ≤ r.nmax → r.Tmin ≤ t → t ≤ r.Tmax → x.bms e n t = some (F e n t)) ∧
      ∀ e n t, (e < r.emin ∨ r.emax < e) ∨ (n < r.nmin ∨ r.nmax < n) ∨ (t < r.Tmin ∨ r.Tmax < t) → x.bms e n t = none
  | _ => False

/-! ### Lemmas -/

theorem spline1_spec {n : ℕ} {lo hi : ℝ} (hn : 2 ≤ n) (hm : lo < hi) {t : ℕ → ℝ} (f : ℕ → ℝ) (ht : ∀ i < n, t i = f i) :
    ∃ s F, spline1 t n lo hi = some s ∧ IsSplineFun1 n lo hi f F ∧ (∀ x, lo ≤ x → x ≤ hi → s x = some (F x)) ∧
      ∀ x, x < lo ∨ hi < x → s x = none := by
  obtain ⟨c, F, F', F'', hc, hC, he⟩ := C139.one_dimension (bc := .natural) hn hm t
  obtain ⟨s', F2, F2', F2'', hs', hF, -, hin, -⟩ := setup1_spec hn hm f ht
  have e2 : ∀ x, lo ≤ x → x ≤ hi → F x = F2 x := by
    intro x h0 h1
    have h2 := hin x h0 h1
    unfold setup1 at hs'
    rw [hc] at hs'
    obtain rfl := Option.some.inj hs'
    dsimp only at h2
    rw [(he x ⟨h0, h1⟩).2] at h2
    exact (Prod.mk.inj (Option.some.inj h2)).1
  refine ⟨_, F2, by unfold spline1; rw [hc]; rfl, hF, fun x h0 h1 => ?_, fun x hx => ?_⟩
  · dsimp only
    rw [(he x ⟨h0, h1⟩).1, ← e2 x h0 h1]
    rfl
  · obtain ⟨c', hc', -, -, h4, -⟩ := C39.safe_1D (enough_natural hn) hm t x
    obtain rfl : c = c' := Option.some.inj (hc.symm.trans hc')
    dsimp only
    rw [h4.2 ⟨rfl, hx⟩]
    rfl

theorem spline3_spec {nx ny nz : ℕ} {x0 x1 y0 y1 z0 z1 : ℝ} (hx : 2 ≤ nx) (hy : 2 ≤ ny) (hz : 2 ≤ nz) (mx : x0 < x1) (my : y0 < y1) (mz : z0 < z1)
    {t : ℕ → ℝ} (f : ℕ → ℕ → ℕ → ℝ) (ht : ∀ i < nx, ∀ j < ny, ∀ k < nz, t (k * ny * nx + j * nx + i) = f i j k) :
    ∃ s F, spline3 t nx ny nz x0 x1 y0 y1 z0 z1 = some s ∧ IsSplineFun3 nx ny nz x0 x1 y0 y1 z0 z1 f F ∧
      (∀ x y z, x0 ≤ x → x ≤ x1 → y0 ≤ y → y ≤ y1 → z0 ≤ z → z ≤ z1 → s x y z = some (F x y z)) ∧
      ∀ x y z, (x < x0 ∨ x1 < x) ∨ (y < y0 ∨ y1 < y) ∨ (z < z0 ∨ z1 < z) → s x y z = none := by
  have safe := C39.safe_3D (enough_natural hx) (enough_natural hy) (enough_natural hz) mx my mz fun i j k => t (k * ny * nx + j * nx + i)
  obtain ⟨c, hc, -⟩ := safe 0 0 0
  refine ⟨fun x y z => (eval3f (Axis.init nx .natural x0 x1) (Axis.init ny .natural y0 y1) (Axis.init nz .natural z0 z1) c x y z).join,
    fun x y z => ((eval3f (Axis.init nx .natural x0 x1) (Axis.init ny .natural y0 y1) (Axis.init nz .natural z0 z1) c x y z).join).getD 0,
    by unfold spline3; rw [hc]; rfl, ?_, ?_, ?_⟩
  · intro x y z i j k d e h hi hj hk
    obtain ⟨c', hc', v, h1, -, h3, -⟩ := C71.spline_of_splines_3D (enough_natural hx) (enough_natural hy) (enough_natural hz) mx my mz
      (fun i j k => t (k * ny * nx + j * nx + i)) (at_on hi) (at_on hj) (at_on hk)
    obtain rfl : c = c' := Option.some.inj (hc.symm.trans hc')
    dsimp only
    rw [h1]
    obtain ⟨w, qz, qy, qx, a1, a2, a3, a4⟩ := exists_value3 (enough_natural hx) (enough_natural hy) (enough_natural hz)
      (spacing nx .natural x0 x1) (spacing ny .natural y0 y1) (spacing nz .natural z0 z1) f i j k d e h .val .val .val
    refine ⟨qz, qy, qx, a1, a2, a3, ?_⟩
    show v (.val, .val, .val) = _
    rw [h3 .val .val .val qz (fun i hi j hj => isSpline_congr (fun k hk => (ht i hi j hj k hk).symm) (a1 i hi j hj)) qy
      (by rw [spacing_eq]; exact a2) qx (by rw [spacing_eq]; exact a3), spacing_eq]
  · intro x y z a1 a2 b1 b2 c1 c2
    obtain ⟨c', hc', h1, -, h2, -⟩ := safe x y z
    obtain rfl : c = c' := Option.some.inj (hc.symm.trans hc')
    cases hv : eval3f (Axis.init nx .natural x0 x1) (Axis.init ny .natural y0 y1) (Axis.init nz .natural z0 z1) c x y z with
    | none => exact absurd hv h1
    | some w =>
      cases w with
      | none =>
        rcases h2.1 hv with ⟨-, h⟩ | ⟨-, h⟩ | ⟨-, h⟩ <;> rcases h with h | h <;> linarith
      | some w => simp [hv]
  · intro x y z ho
    obtain ⟨c', hc', -, -, h2, -⟩ := safe x y z
    obtain rfl : c = c' := Option.some.inj (hc.symm.trans hc')
    dsimp only
    rw [h2.2 (ho.imp (fun h => ⟨rfl, h⟩) fun h => h.imp (fun h => ⟨rfl, h⟩) fun h => ⟨rfl, h⟩)]
    rfl

theorem start_succ (rs : ℕ → Reaction) (n : ℕ) : start rs (n + 1) = start rs n + (rs n).size := by
  simp [start, List.range_succ]

theorem start_mono (rs : ℕ → Reaction) {a b : ℕ} (h : a ≤ b) : start rs a ≤ start rs b := by
  induction b, h using Nat.le_induction with
  | base => rfl
  | succ b _ ih => rw [start_succ]; omega

/-- All tables can be packed. -/
theorem exists_packed (n : ℕ) (rs : ℕ → Reaction) : ∃ data, Packed n rs data := by
  induction n with
  | zero => exact ⟨fun _ => 0, fun q hq => by omega⟩
  | succ n ih =>
    obtain ⟨data, h⟩ := ih
    refine ⟨fun k => if k < start rs n then data k else
      (rs n).table ((k - start rs n) % (rs n).ne) ((k - start rs n) / (rs n).ne % (rs n).nn) ((k - start rs n) / (rs n).ne / (rs n).nn), ?_⟩
    intro q hq i hi j hj k hk
    dsimp only
    by_cases c : q = n
    · subst c
      rw [if_neg (by omega), Nat.add_sub_cancel_left]
      have e : k * (rs q).nn * (rs q).ne + j * (rs q).ne + i = i + (rs q).ne * (j + (rs q).nn * k) := by ring
      rw [e, Nat.add_mul_mod_self_left, Nat.mod_eq_of_lt hi, Nat.add_mul_div_left _ _ (by omega), Nat.div_eq_of_lt hi, Nat.zero_add,
        Nat.add_mul_mod_self_left, Nat.mod_eq_of_lt hj, Nat.add_mul_div_left _ _ (by omega), Nat.div_eq_of_lt hj, Nat.zero_add]
    · have hq' : q < n := by omega
      rw [if_pos, h q hq' i hi j hj k hk]
      have : k * (rs q).nn * (rs q).ne + j * (rs q).ne + i < (rs q).size := by
        have h1 : j * (rs q).ne + i < (rs q).nn * (rs q).ne := by
          calc j * (rs q).ne + i < (j + 1) * (rs q).ne := by rw [Nat.succ_mul]; omega
            _ ≤ _ := Nat.mul_le_mul_right _ hj
        calc k * (rs q).nn * (rs q).ne + j * (rs q).ne + i < k * ((rs q).nn * (rs q).ne) + (rs q).nn * (rs q).ne := by rw [Nat.mul_assoc]; omega
          _ = (k + 1) * ((rs q).nn * (rs q).ne) := by ring
          _ ≤ (rs q).nT * ((rs q).nn * (rs q).ne) := Nat.mul_le_mul_right _ hk
          _ = (rs q).size := by unfold Reaction.size; ring
      have := start_mono rs (show q + 1 ≤ n by omega)
      rw [start_succ] at this
      omega

def entry (r : Reaction) : Entry := ⟨r.z1, r.a1, r.z2, r.a2, r.type, r.ne, r.emin, r.emax, r.nn, r.nmin, r.nmax, r.nT, r.Tmin, r.Tmax⟩

/-- One reaction reads the beginning of the array. -/
theorem initOne_spec {r : Reaction} {k : ℕ} (h : r.Kind k) {size : ℕ} (hs : r.size ≤ size) (t : ℕ → ℝ) (table : ℕ → ℕ → ℕ → ℝ)
    (ht : ∀ i < r.ne, ∀ j < r.nn, ∀ k < r.nT, t (k * r.nn * r.ne + j * r.ne + i) = table i j k) :
    ∃ x, initOne t size (entry r) = some (x, 0) ∧ Same r x ∧ Follows r table x k := by
  unfold Reaction.size at hs
  cases h with
  | one h hn hT m =>
    obtain ⟨s, F, h1, h2, h3, h4⟩ := spline1_spec h m (t := t) (fun i => table i 0 0) fun i hi => by
      have := ht i hi 0 (by omega) 0 (by omega)
      simpa using this
    rw [hn, hT] at hs
    refine ⟨?x, ?a, ?b, ?c⟩
    case a =>
      unfold initOne
      simp only [entry, hn, hT, if_pos (show r.ne > 1 by omega)]
      simp only [show ¬ 1 > 1 by omega, if_false, Nat.add_zero, if_pos (show r.ne ≤ size by omega), h1]
      rfl
    case b => exact ⟨rfl, rfl, rfl, rfl, rfl⟩
    case c => exact ⟨F, h2, h3, h4⟩
  | two h hn hT m mT =>
    obtain ⟨s, F, Fx, Fy, Fxx, Fyy, Fxy, h1, h2, -, h3, h4⟩ := setup2_spec (bx := .natural) (by_ := .natural) h hT m mT (t := t) (fun i k => table i 0 k)
      fun i hi k hk => by
        have := ht i hi 0 (by omega) k hk
        simpa [hn] using this
    rw [hn] at hs
    refine ⟨?x2, ?a2, ?b2, ?c2⟩
    case a2 =>
      unfold initOne
      simp only [entry, hn, if_pos (show r.ne > 1 by omega), if_pos (show r.nT > 1 by omega)]
      simp only [show ¬ 1 > 1 by omega, if_false, Nat.add_zero, Nat.reduceAdd, if_pos (show r.ne * r.nT ≤ size by simpa using hs), h1]
      rfl
    case b2 => exact ⟨rfl, rfl, rfl, rfl, rfl⟩
    case c2 =>
      refine ⟨F, h2, fun e t a b c d => (h3 e ⟨a, b⟩ t ⟨c, d⟩).1, fun e t ho => (h4 e t ?_).1⟩
      refine ho.imp (fun h => ?_) fun h => ?_ <;> rintro ⟨p, q⟩ <;> rcases h with h | h <;> linarith
  | three h hn hT m mn mT =>
    obtain ⟨s, F, h1, h2, h3, h4⟩ := spline3_spec h hn hT m mn mT (t := t) table ht
    refine ⟨?x3, ?a3, ?b3, ?c3⟩
    case a3 =>
      unfold initOne
      simp only [if_pos (show (entry r).ne > 1 from h), if_pos (show (entry r).nn > 1 from hn), if_pos (show (entry r).nT > 1 from hT)]
      simp only [Nat.reduceAdd, if_pos (show (entry r).ne * (entry r).nn * (entry r).nT ≤ size from hs)]
      simp only [entry, h1]
      rfl
    case b3 => exact ⟨rfl, rfl, rfl, rfl, rfl⟩
    case c3 => exact ⟨F, h2, h3, h4⟩

theorem locInit_eq {t : ℕ → ℝ} {size : ℕ} {E : ℕ → Entry} {X : ℕ → Reac} {l : List ℕ} (h : ∀ q ∈ l, initOne t size (E q) = some (X q, 0)) :
    locInit t size (l.map E) 0 = some (l.map X, 0) := by
  induction l with
  | nil => rfl
  | cons q l ih =>
    simp only [List.map_cons, locInit, h q (by simp), Option.bind_eq_bind, Option.bind_some]
    rw [ih fun q hq => h q (by simp [hq])]
    rfl

theorem ntot_eq (n : ℕ) (a b c : ℕ → ℕ) {l : List ℕ} (h : ∀ i ∈ l, i < n) :
    ntot (tab n a) (tab n b) (tab n c) l = some (l.map fun i => a i * b i * c i).sum := by
  induction l with
  | nil => rfl
  | cons i l ih =>
    have hi := h i (by simp)
    have key : ∀ f : ℕ → ℕ, (tab n f)[i]? = some (f i) := fun f => by
      rw [List.getElem?_eq_getElem (by simpa using hi), tab_get]
    unfold ntot
    rw [key, key, key, ih fun i hi => h i (by simp [hi])]
    simp

theorem start_eq (rs : ℕ → Reaction) (n : ℕ) : start rs n = ((List.range n).map fun i => (rs i).ne * (rs i).nn * (rs i).nT).sum := rfl

theorem write_done (n : ℕ) (rs : ℕ → Reaction) (data : ℕ → ℝ) :
    ∃ g, write (args n rs data) = .done g ∧ g.ints "nreac" = some [(n : ℤ)] ∧
      g.ints "nenergy" = some (tab n fun i => ((rs i).ne : ℤ)) ∧ g.ints "ndensity" = some (tab n fun i => ((rs i).nn : ℤ)) ∧
      g.ints "ntemperature" = some (tab n fun i => ((rs i).nT : ℤ)) ∧
      g.ints "z1" = some (tab n fun i => (rs i).z1) ∧ g.ints "a1" = some (tab n fun i => (rs i).a1) ∧
      g.ints "z2" = some (tab n fun i => (rs i).z2) ∧ g.ints "a2" = some (tab n fun i => (rs i).a2) ∧
      g.ints "reactype" = some (tab n fun i => ((rs i).type : ℤ)) ∧
      g.reals "energymin" = some (tab n fun i => (rs i).emin) ∧ g.reals "energymax" = some (tab n fun i => (rs i).emax) ∧
      g.reals "densitymin" = some (tab n fun i => (rs i).nmin) ∧ g.reals "densitymax" = some (tab n fun i => (rs i).nmax) ∧
      g.reals "temperaturemin" = some (tab n fun i => (rs i).Tmin) ∧ g.reals "temperaturemax" = some (tab n fun i => (rs i).Tmax) ∧
      g.reals "sigma" = some (tab (start rs n) data) := by
  have hm : ∀ f : ℕ → ℕ, (tab n f).map (fun k : ℕ => (k : ℤ)) = tab n fun i => (f i : ℤ) := fun f => by
    unfold tab; rw [List.map_map]; rfl
  have hf : (nd2 1 (start rs n) fun _ k => data k).flat = tab (start rs n) data := by
    rw [nd2_flat]
    simp only [one_mul]
    refine tab_congr fun k hk => ?_
    rw [Nat.mod_eq_of_lt hk]
  refine ⟨?w, ?a, ?b⟩
  case a =>
    unfold write
    simp only [args, tab_length, hf, hm]
    rw [if_neg (by simp), ntot_eq n _ _ _ (fun i hi => List.mem_range.1 hi), ← start_eq]
    dsimp only
    rw [if_neg (by simp [nd2]), createAll_done (by simp [Elems.length])]
  case b => simp [put, empty]

theorem counts_eq {n : ℕ} (f : ℕ → ℕ) : counts (fun i : Fin n => (f i : ℤ)) = .ok fun i => f i := by
  unfold counts
  rw [if_pos (by simp)]
  simp

/-- What is read: every reaction has its own identifiers and axes, and the beginning of the array. -/
theorem read_eq (junk : ℕ → ℝ) {n : ℕ} {rs : ℕ → Reaction} {kind : ℕ → ℕ} (h : ∀ q < n, (rs q).Kind (kind q)) (data : ℕ → ℝ) :
    ∃ (g : Group) (X : ℕ → Reac), write (args n rs data) = .done g ∧ readAsigma junk (only "asigma_loc" g) = .ok ((List.range n).map X) ∧
      ∀ q < n, Same (rs q) (X q) ∧ Follows (rs q) (fun i j k => data (k * (rs q).nn * (rs q).ne + j * (rs q).ne + i)) (X q) (kind q) := by
  obtain ⟨g, hg, h0, h1, h2, h3, h4, h5, h6, h7, h8, h9, h10, h11, h12, h13, h14, h15⟩ := write_done n rs data
  have hs : ∀ q < n, (rs q).size ≤ start rs n := fun q hq => by
    have := start_mono rs (show q + 1 ≤ n by omega)
    rw [start_succ] at this
    omega
  have key : ∀ q, ∃ x, q < n → initOne (ext junk fun k : Fin (start rs n) => data k) (start rs n) (entry (rs q)) = some (x, 0) ∧ Same (rs q) x ∧
      Follows (rs q) (fun i j k => data (k * (rs q).nn * (rs q).ne + j * (rs q).ne + i)) x (kind q) := by
    intro q
    by_cases hq : q < n
    · obtain ⟨x, hx⟩ := initOne_spec (h q hq) (hs q hq) (ext junk fun k : Fin (start rs n) => data k)
        (fun i j k => data (k * (rs q).nn * (rs q).ne + j * (rs q).ne + i)) fun i hi j hj k hk => by
          have : k * (rs q).nn * (rs q).ne + j * (rs q).ne + i < (rs q).size := by
            have h1 : j * (rs q).ne + i < (rs q).nn * (rs q).ne := by
              calc j * (rs q).ne + i < (j + 1) * (rs q).ne := by rw [Nat.succ_mul]; omega
                _ ≤ _ := Nat.mul_le_mul_right _ hj
            calc k * (rs q).nn * (rs q).ne + j * (rs q).ne + i < k * ((rs q).nn * (rs q).ne) + (rs q).nn * (rs q).ne := by rw [Nat.mul_assoc]; omega
              _ = (k + 1) * ((rs q).nn * (rs q).ne) := by ring
              _ ≤ (rs q).nT * ((rs q).nn * (rs q).ne) := Nat.mul_le_mul_right _ hk
              _ = (rs q).size := by unfold Reaction.size; ring
          rw [ext_lt (by have := hs q hq; omega)]
      exact ⟨x, fun _ => hx⟩
    · exact ⟨⟨0, 0, 0, 0, 0, fun _ => none, fun _ _ => none, fun _ _ _ => none⟩, fun h => absurd h hq⟩
  choose X hX using key
  refine ⟨g, X, hg, ?_, fun q hq => (hX q hq).2⟩
  rw [readAsigma, lastFound_only (r := readLoc junk) (by simp) (by simp)]
  unfold readLoc
  rw [readCount_eq h0, ok_bind, readInts_tab h1, ok_bind, readInts_tab h2, ok_bind, readInts_tab h3, ok_bind, readInts_tab h4, ok_bind,
    readInts_tab h5, ok_bind, readInts_tab h6, ok_bind, readInts_tab h7, ok_bind, readInts_tab h8, ok_bind, readReals_tab h9, ok_bind,
    readReals_tab h10, ok_bind, readReals_tab h11, ok_bind, readReals_tab h12, ok_bind, readReals_tab h13, ok_bind, readReals_tab h14, ok_bind,
    counts_eq fun i => (rs i).ne, ok_bind, counts_eq fun i => (rs i).nn, ok_bind, counts_eq fun i => (rs i).nT, ok_bind]
  have fr : ∀ {α : Type} (G : ℕ → α), (List.finRange n).map (fun i => G i.val) = (List.range n).map G := fun G => by
    rw [← List.map_coe_finRange_eq_range, List.map_map]
    rfl
  have e1 : ((List.finRange n).map fun i : Fin n => (rs i).ne * (rs i).nn * (rs i).nT).sum = start rs n := by
    rw [fr fun i => (rs i).ne * (rs i).nn * (rs i).nT]; rfl
  have e2 := fr fun i => entry (rs i)
  have e3 := locInit_eq (E := fun i => entry (rs i)) (X := X) (l := List.range n) fun q hq => (hX q (List.mem_range.1 hq)).1
  rw [← e2] at e3
  dsimp only [entry] at e3
  dsimp only
  rw [e1, readReals_tab h15, ok_bind, e3]
  rfl

theorem lastMatch_first {p : Reac → Bool} {x : Reac} {l : List Reac} (hx : p x = true) (hl : ∀ y ∈ l, p y = false) :
    Asigma.lastMatch p (x :: l) = some x := by
  unfold Asigma.lastMatch
  rw [List.foldl_cons, if_pos hx]
  induction l with
  | nil => rfl
  | cons y l ih =>
    rw [List.foldl_cons, if_neg (by simp [hl y (by simp)])]
    exact ih fun y hy => hl y (by simp [hy])

theorem clip_ok (v : ℝ) : Asigma.clip ⟨0, some v⟩ = ⟨0, some (max v 0)⟩ := by
  unfold Asigma.clip
  by_cases h : v < 0
  · rw [if_pos (.inr ⟨v, rfl, h⟩), max_eq_right h.le]
  · rw [if_neg, max_eq_left (not_lt.1 h)]
    rintro (h' | ⟨w, hw, h'⟩)
    · exact h' rfl
    · rw [← Option.some.inj hw] at h'
      exact h h'

theorem Follows.congr {r : Reaction} {f f' : ℕ → ℕ → ℕ → ℝ} {x : Reac} {k : ℕ} (hk : r.Kind k)
    (e : ∀ i < r.ne, ∀ j < r.nn, ∀ k < r.nT, f i j k = f' i j k) (h : Follows r f x k) : Follows r f' x k := by
  cases hk with
  | one h2 hn hT m =>
    obtain ⟨F, ⟨q, h1, h3⟩, h4⟩ := h
    exact ⟨F, ⟨q, natural_congr (fun i hi => e i hi 0 (by omega) 0 (by omega)) h2 h1, h3⟩, h4⟩
  | two h2 hn hT m mT =>
    obtain ⟨F, h1, h4⟩ := h
    refine ⟨F, fun x y i j d e' a b => ?_, h4⟩
    obtain ⟨qy, qx, c1, c2, c3⟩ := h1 x y i j d e' a b
    exact ⟨qy, qx, fun i hi => isSpline_congr (fun k hk => e i hi 0 (by omega) k hk) (c1 i hi), c2, c3⟩
  | three h2 hn hT m mn mT =>
    obtain ⟨F, h1, h4⟩ := h
    refine ⟨F, fun x y z i j k d e' f' a b c => ?_, h4⟩
    obtain ⟨qz, qy, qx, c1, c2, c3, c4⟩ := h1 x y z i j k d e' f' a b c
    exact ⟨qz, qy, qx, fun i hi j hj => isSpline_congr (fun k hk => e i hi j hj k hk) (c1 i hi j hj), c2, c3, c4⟩

/-! ### The property -/

/-- The species and the type of every reaction are those the user wrote, and so are the axes.  The data of the first reaction are the
spline through its table.  (The full property says this of every reaction: see `second_reaction_violation`.) -/
theorem first_reaction_partial (junk : ℕ → ℝ) {n : ℕ} {rs : ℕ → Reaction} {kind : ℕ → ℕ} (h : ∀ q < n, (rs q).Kind (kind q)) {data : ℕ → ℝ}
    (hd : Packed n rs data) :
    ∃ (g : Group) (ds : List Reac), write (args n rs data) = .done g ∧ readAsigma junk (only "asigma_loc" g) = .ok ds ∧ ds.length = n ∧
      (∀ q x, ds[q]? = some x → Same (rs q) x) ∧ ∀ x, ds[0]? = some x → Follows (rs 0) (rs 0).table x (kind 0) := by
  obtain ⟨g, X, hg, hr, hX⟩ := read_eq junk h data
  refine ⟨g, _, hg, hr, by simp, fun q x hx => ?_, fun x hx => ?_⟩
  · obtain ⟨hq, e⟩ := List.getElem?_eq_some_iff.1 hx
    simp only [List.length_map, List.length_range] at hq
    rw [List.getElem_map, List.getElem_range] at e
    rw [← e]
    exact (hX q hq).1
  · obtain ⟨hq, e⟩ := List.getElem?_eq_some_iff.1 hx
    simp only [List.length_map, List.length_range] at hq
    rw [List.getElem_map, List.getElem_range] at e
    rw [← e]
    refine Follows.congr (h 0 hq) (fun i hi j hj k hk => ?_) (hX 0 hq).2
    have := hd 0 hq i hi j hj k hk
    simpa [start] using this

/-- The evaluations of a file with a single reaction, or of the first if no other has the same species and type: cross-sections and rates are the
value of the spline through the user's table at the energy, and the temperature and density (rates: in units of eV, here `cE` joule;
for beam stopping per nucleon, and the density of charges), and zero if that is negative.  Outside of the axes the result is
zero if extrapolation is allowed, and otherwise an error. -/
theorem evaluation_partial (junk : ℕ → ℝ) {n : ℕ} {rs : ℕ → Reaction} {kind : ℕ → ℕ} (hn : 0 < n) (h : ∀ q < n, (rs q).Kind (kind q))
    {data : ℕ → ℝ} (hd : Packed n rs data)
    (hq : ∀ q < n, 0 < q → (rs q).z1 ≠ (rs 0).z1 ∨ (rs q).z2 ≠ (rs 0).z2 ∨ (rs q).type ≠ (rs 0).type) :
    ∃ (g : Group) (ds : List Reac), write (args n rs data) = .done g ∧ readAsigma junk (only "asigma_loc" g) = .ok ds ∧
      (kind 0 = 1 → (rs 0).type = 1 ∨ (rs 0).type = 2 ∨ (rs 0).type = 3 →
        ∃ F, IsSplineFun1 (rs 0).ne (rs 0).emin (rs 0).emax (fun i => (rs 0).table i 0 0) F ∧
          ∀ ext e, ((rs 0).emin ≤ e → e ≤ (rs 0).emax →
              evalSigma ⟨some ds, ext⟩ (rs 0).z1 (rs 0).a1 (rs 0).z2 (rs 0).a2 e (rs 0).type = ⟨0, some (max (F e) 0)⟩) ∧
            (e < (rs 0).emin ∨ (rs 0).emax < e → ∃ err, (err = 0 ↔ ext = true) ∧
              evalSigma ⟨some ds, ext⟩ (rs 0).z1 (rs 0).a1 (rs 0).z2 (rs 0).a2 e (rs 0).type = ⟨err, some 0⟩)) ∧
      (kind 0 = 2 → (rs 0).type = 4 ∨ (rs 0).type = 5 ∨ (rs 0).type = 6 →
        ∃ F, IsSplineFun2 (rs 0).ne (rs 0).nT .natural .natural (rs 0).emin (rs 0).emax (rs 0).Tmin (rs 0).Tmax (fun i k => (rs 0).table i 0 k) F ∧
          ∀ cE ext e te t0 ni, ((rs 0).emin ≤ e / cE → e / cE ≤ (rs 0).emax → (rs 0).Tmin ≤ t0 / cE → t0 / cE ≤ (rs 0).Tmax →
              evalSigmav cE ⟨some ds, ext⟩ (rs 0).z1 (rs 0).a1 (rs 0).z2 (rs 0).a2 e te t0 ni (rs 0).type =
                ⟨0, some (max (F (e / cE, t0 / cE)) 0)⟩) ∧
            ((e / cE < (rs 0).emin ∨ (rs 0).emax < e / cE) ∨ (t0 / cE < (rs 0).Tmin ∨ (rs 0).Tmax < t0 / cE) → ∃ err, (err = 0 ↔ ext = true) ∧
              evalSigmav cE ⟨some ds, ext⟩ (rs 0).z1 (rs 0).a1 (rs 0).z2 (rs 0).a2 e te t0 ni (rs 0).type = ⟨err, some 0⟩)) ∧
      (kind 0 = 3 → (rs 0).type = 7 →
        ∃ F, IsSplineFun3 (rs 0).ne (rs 0).nn (rs 0).nT (rs 0).emin (rs 0).emax (rs 0).nmin (rs 0).nmax (rs 0).Tmin (rs 0).Tmax (rs 0).table F ∧
          ∀ cE ext e te t0 ni, ((rs 0).emin ≤ e / cE / (rs 0).a2 → e / cE / (rs 0).a2 ≤ (rs 0).emax →
              (rs 0).nmin ≤ (rs 0).z2 * ni → (rs 0).z2 * ni ≤ (rs 0).nmax → (rs 0).Tmin ≤ te / cE → te / cE ≤ (rs 0).Tmax →
              evalSigmav cE ⟨some ds, ext⟩ (rs 0).z1 (rs 0).a1 (rs 0).z2 (rs 0).a2 e te t0 ni (rs 0).type =
                ⟨0, some (max (F (e / cE / (rs 0).a2) ((rs 0).z2 * ni) (te / cE)) 0)⟩) ∧
            ((e / cE / (rs 0).a2 < (rs 0).emin ∨ (rs 0).emax < e / cE / (rs 0).a2) ∨ ((rs 0).z2 * ni < (rs 0).nmin ∨ (rs 0).nmax < (rs 0).z2 * ni) ∨
                (te / cE < (rs 0).Tmin ∨ (rs 0).Tmax < te / cE) → ∃ err, (err = 0 ↔ ext = true) ∧
              evalSigmav cE ⟨some ds, ext⟩ (rs 0).z1 (rs 0).a1 (rs 0).z2 (rs 0).a2 e te t0 ni (rs 0).type = ⟨err, some 0⟩)) := by
  obtain ⟨g, ds, hg, hr, hl, hs, hf⟩ := first_reaction_partial junk h hd
  cases ds with
  | nil => simp at hl; omega
  | cons x l =>
    obtain ⟨i1, i2, i3, i4, i5⟩ := hs 0 x rfl
    have hf := hf x rfl
    have hno : ∀ y ∈ l, y.z1 ≠ x.z1 ∨ y.z2 ≠ x.z2 ∨ y.type ≠ x.type := by
      intro y hy
      obtain ⟨q, hq', e⟩ := List.getElem_of_mem hy
      have hy' : (x :: l)[q + 1]? = some y := by simp [List.getElem?_eq_getElem hq', e]
      obtain ⟨j1, j2, j3, j4, j5⟩ := hs (q + 1) y hy'
      rw [j1, j3, j5, i1, i3, i5]
      simp at hl
      exact hq (q + 1) (by omega) (by omega)
    have clip0 : ∀ ext line, ∃ err, (err = 0 ↔ ext = true) ∧ Asigma.clip (Asigma.fromInterp ext line none) = ⟨err, some 0⟩ := by
      intro ext line
      cases ext with
      | true => exact ⟨0, by simp, by simpa [Asigma.fromInterp] using clip_ok 0⟩
      | false =>
        refine ⟨Error.raise 1 line 27, by simp [Error.raise], ?_⟩
        simp [Asigma.fromInterp, Asigma.clip, Error.raise]
    refine ⟨g, x :: l, hg, hr, fun k0 ht => ?_, fun k0 ht => ?_, fun k0 ht => ?_⟩
    · rw [k0] at hf
      obtain ⟨F, hF, hin, hout⟩ := hf
      have hm : ∀ e ext, Asigma.locSigma (x :: l) ext (rs 0).z1 (rs 0).a1 (rs 0).z2 (rs 0).a2 e (rs 0).type =
          Asigma.fromInterp ext 204 (x.sigma e) := fun e ext => by
        unfold Asigma.locSigma
        rw [lastMatch_first (by simp [i1, i2, i3, i4, i5]) fun y hy => by
          have := hno y hy
          rw [i1, i3, i5] at this
          by_contra hc
          simp at hc
          rcases this with t | t | t <;> simp_all]
        dsimp only
        rw [i5, if_pos ht]
      refine ⟨F, hF, fun ext e => ⟨fun a b => ?_, fun ho => ?_⟩⟩
      · unfold evalSigma
        dsimp only
        rw [hm, hin e a b]
        exact clip_ok _
      · unfold evalSigma
        dsimp only
        rw [hm, hout e ho]
        exact clip0 _ _
    · rw [k0] at hf
      obtain ⟨F, hF, hin, hout⟩ := hf
      have hm : ∀ cE ext e te t0 ni, Asigma.locSigmav cE (x :: l) ext (rs 0).z1 (rs 0).a1 (rs 0).z2 (rs 0).a2 e te t0 ni (rs 0).type =
          Asigma.fromInterp ext 285 (x.sigmav (e / cE) (t0 / cE)) := fun cE ext e te t0 ni => by
        unfold Asigma.locSigmav
        dsimp only
        rw [lastMatch_first (by simp [i1, i2, i3, i4, i5]) fun y hy => by
          have := hno y hy
          rw [i1, i3, i5] at this
          by_contra hc
          simp at hc
          rcases this with t | t | t <;> simp_all]
        dsimp only
        rw [if_pos ht]
      refine ⟨F, hF, fun cE ext e te t0 ni => ⟨fun a b c d => ?_, fun ho => ?_⟩⟩
      · unfold evalSigmav
        dsimp only
        rw [hm, hin _ _ a b c d]
        exact clip_ok _
      · unfold evalSigmav
        dsimp only
        rw [hm, hout _ _ ho]
        exact clip0 _ _
    · rw [k0] at hf
      obtain ⟨F, hF, hin, hout⟩ := hf
      have hm : ∀ cE ext e te t0 ni, Asigma.locSigmav cE (x :: l) ext (rs 0).z1 (rs 0).a1 (rs 0).z2 (rs 0).a2 e te t0 ni (rs 0).type =
          Asigma.fromInterp ext 297 (x.bms (e / cE / (rs 0).a2) ((rs 0).z2 * ni) (te / cE)) := fun cE ext e te t0 ni => by
        unfold Asigma.locSigmav
        dsimp only
        rw [lastMatch_first (by simp [i1, i2, i3, i4, i5]) fun y hy => by
          have := hno y hy
          rw [i1, i3, i5] at this
          by_contra hc
          simp at hc
          rcases this with t | t | t <;> simp_all]
        dsimp only
        rw [if_neg (by omega), if_pos ht]
      refine ⟨F, hF, fun cE ext e te t0 ni => ⟨fun a b c d p q => ?_, fun ho => ?_⟩⟩
      · unfold evalSigmav
        dsimp only
        rw [hm, hin _ _ _ a b c d p q]
        exact clip_ok _
      · unfold evalSigmav
        dsimp only
        rw [hm, hout _ _ _ ho]
        exact clip0 _ _

/-- Two cross-sections on the same energies, that of the first reaction is 1 everywhere and that of the second 2. -/
def pair (q : ℕ) : Reaction := ⟨q, 1, 1, 1, 1, 2, 0, 1, 1, 0, 1, 1, 0, 1, fun _ _ _ => (q : ℝ) + 1⟩

/-- **Violation.** A file with two reactions: the second is evaluated with the data of the first. -/
theorem second_reaction_violation (junk : ℕ → ℝ) :
    ∃ (data : ℕ → ℝ) (g : Group) (ds : List Reac), Packed 2 pair data ∧ write (args 2 pair data) = .done g ∧
      readAsigma junk (only "asigma_loc" g) = .ok ds ∧
      (pair 1).table 0 0 0 = 2 ∧ evalSigma ⟨some ds, false⟩ 1 1 1 1 0 1 = ⟨0, some 1⟩ := by
  obtain ⟨data, hd⟩ := exists_packed 2 pair
  have hk : ∀ q < 2, (pair q).Kind 1 := fun q _ => .one (by simp [pair]) (by simp [pair]) (by simp [pair]) (by simp [pair])
  obtain ⟨g, X, hg, hr, hX⟩ := read_eq junk hk data
  refine ⟨data, g, _, hd, hg, hr, by norm_num [pair], ?_⟩
  obtain ⟨⟨i1, i2, i3, i4, i5⟩, F, hF, hin, -⟩ := hX 1 (by omega)
  obtain ⟨⟨j1, -⟩, -⟩ := hX 0 (by omega)
  have h0 : data 0 = 1 := by
    have := hd 0 (by omega) 0 (by simp [pair]) 0 (by simp [pair]) 0 (by simp [pair])
    simpa [start, pair] using this
  have hv := hF.tabulated (i := 0) (by simp [pair]) (by simp [pair])
  have e0 : F 0 = 1 := by
    have : (pair 1).emin + ((0 : ℕ) : ℝ) * (((pair 1).emax - (pair 1).emin) / ((pair 1).ne - 1)) = 0 := by simp [pair]
    rw [this] at hv
    rw [hv]
    simpa using h0
  have hs := hin 0 (by simp [pair]) (by simp [pair])
  simp only [pair] at i1 i2 i3 i4 i5 j1
  unfold evalSigma
  have hl : Asigma.lastMatch (fun r => r.z1 == 1 && r.a1 == 1 && r.z2 == 1 && r.a2 == 1 && r.type == 1) ((List.range 2).map X) = some (X 1) := by
    simp [Asigma.lastMatch, List.range_succ, i1, i2, i3, i4, i5, j1]
  unfold Asigma.locSigma
  dsimp only
  rw [hl]
  dsimp only
  rw [if_pos (by left; exact i5), hs, e0]
  have := clip_ok 1
  rw [max_eq_left zero_le_one] at this
  exact this

/-- Wrong numbers of reactions or of values are refused. -/
theorem refused (u : In) (h : u.z1.length ≠ u.nreac ∨ ∀ t, ntot u.nenergy u.ndensity u.ntemperature (List.range u.nreac) = some t → u.sigma.shape ≠ [1, t]) :
    write u = .refused := by
  unfold write
  split_ifs with h1
  · rfl
  · rcases h with h | h
    · exact absurd h h1
    · cases ht : ntot u.nenergy u.ndensity u.ntemperature (List.range u.nreac) with
      | none => rfl
      | some t =>
        dsimp only
        rw [if_pos (h t ht)]

/-- **Violation.** The sizes of the other arrays are not checked before the group is added to the file: a missing mass number makes the function stop
half way, and the program cannot read what is left. -/
theorem mass_numbers_violation (junk : ℕ → ℝ) (x : ℝ) :
    ∃ g, write ⟨1, [1], [], [1], [1], [1], [2], [0], [1], [1], [0], [1], [1], [0], [1], nd2 1 2 fun _ _ => x⟩ = .broken g ∧
      readAsigma junk (only "asigma_loc" g) = .fail := by
  refine ⟨?w, ?a, ?b⟩
  case a =>
    unfold write
    dsimp only
    rw [if_neg (by simp)]
    simp only [List.range_succ, List.range_zero, List.nil_append, ntot]
    simp [nd2, createAll, create, Elems.length]
    rfl
  case b =>
    rw [readAsigma, lastFound_only (r := readLoc junk) (by simp) (by simp)]
    unfold readLoc
    rw [readCount_eq (n := 1) (by simp [put, empty]), ok_bind]
    simp [readInts, put, empty]
    rfl

/-- The conditions of `evaluation_partial` hold for a file with the two reactions of `pair`. -/
example : (∀ q < 2, (pair q).Kind 1) ∧ (∃ data, Packed 2 pair data) ∧
    (∀ q < 2, 0 < q → (pair q).z1 ≠ (pair 0).z1 ∨ (pair q).z2 ≠ (pair 0).z2 ∨ (pair q).type ≠ (pair 0).type) :=
  ⟨fun q _ => .one (by simp [pair]) (by simp [pair]) (by simp [pair]) (by simp [pair]), exists_packed 2 pair,
    fun q hq h0 => .inl (by simp [pair]; omega)⟩

end Ascot.C142
