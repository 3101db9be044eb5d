import Verif.Model.MhdFile
import Verif.Lemmas.PyFile
import Verif.Lemmas.SplineFun
import Verif.Props.C108_Mhd
set_option linter.unusedSectionVars false
set_option linter.unusedSimpArgs false

/-!
# C140: the MHD modes that the simulation sees are those the user wrote

A user calls `write_hdf5` of one of the MHD inputs of the Python interface, the program reads the file and evaluates the
perturbation.
-/
namespace Ascot.C140
open Ascot.PyFile Ascot.MhdFile Ascot.Mhd Ascot.Coord Ascot.Tensor Ascot.Smooth Ascot.SplineSetup Ascot.C108
open Ascot.C106 (HasGrad)
open Ascot.Bfield (evalRho)
open Ascot.MarkerFile (Group readReals readInts)
open Filter Topology

/-! ### Specification -/

/-- What the user knows about the modes: numbers of mode `i`. -/
structure Numbers where
  n : ℕ → ℤ
  m : ℕ → ℤ
  amplitude : ℕ → ℝ
  omega : ℕ → ℝ
  phase : ℕ → ℝ

/-- The modes that are evaluated: all for -1, otherwise the one with this index. -/
def chosen (includemode : ℤ) (nmode : ℕ) : List ℕ := (List.range nmode).filter fun i => includemode = -1 ∨ includemode = (i : ℤ)

/-- Sum over modes of amplitude, profile and oscillation; `F i` is the profile of mode `i` as function of rho and time, `Rho` is
rho as function of psi, and psi, theta, zeta are functions of the position. -/
noncomputable def waves (u : Numbers) (is : List ℕ) (F : ℕ → ℝ → ℝ → ℝ) (Rho : ℝ → ℝ) (Psi Theta Zeta : ℝ → ℝ → ℝ → ℝ) (r phi z t : ℝ) : ℝ :=
  (is.map fun i => u.amplitude i * F i (Rho (Psi r phi z)) t *
    Real.cos (u.n i * Zeta r phi z - u.m i * Theta r phi z - u.omega i * t + u.phase i)).sum

/-- The arguments of a correct call for stationary modes: `alpha k i` is the value of mode `i` at radius `k`. -/
def argsStat (u : Numbers) (nmode nrho : ℕ) (rhomin rhomax : ℝ) (alpha phi : ℕ → ℕ → ℝ) : InStat :=
  ⟨nmode, tab nmode u.n, tab nmode u.m, tab nmode u.amplitude, tab nmode u.omega, tab nmode u.phase, nd2 nrho nmode alpha, nd2 nrho nmode phi,
    nrho, rhomin, rhomax⟩

/-- The arguments of a correct call for other modes: `alpha k j i` is the value of mode `i` at radius `k` and time `j`. -/
def argsNonstat (u : Numbers) (nmode nrho ntime : ℕ) (rhomin rhomax tmin tmax : ℝ) (alpha phi : ℕ → ℕ → ℕ → ℝ) : InNonstat :=
  ⟨nmode, tab nmode u.n, tab nmode u.m, tab nmode u.amplitude, tab nmode u.omega, tab nmode u.phase, nd3 nrho ntime nmode alpha,
    nd3 nrho ntime nmode phi, nrho, rhomin, rhomax, ntime, tmin, tmax⟩

/-! ### Lemmas -/

theorem mapM_some {α β : Type} {l : List α} {f : α → Option β} {g : α → β} (h : ∀ x ∈ l, f x = some (g x)) : l.mapM f = some (l.map g) := by
  induction l with
  | nil => rfl
  | cons a l ih =>
    rw [List.mapM_cons, h a (by simp), ih fun x hx => h x (by simp [hx])]
    rfl

/-- Mode `i` with its profiles. -/
def mode {P : Type} (u : Numbers) (a f : ℕ → P) (i : ℕ) : Mode P := ⟨u.n i, u.m i, u.amplitude i, u.omega i, u.phase i, a i, f i⟩

theorem modes_eq {P : Type} (u : Numbers) {nmode : ℕ} {alpha phi : ℕ → Option P} {a f : ℕ → P} (ha : ∀ i < nmode, alpha i = some (a i))
    (hf : ∀ i < nmode, phi i = some (f i)) :
    modes nmode (fun i => u.n i) (fun i => u.m i) (fun i => u.amplitude i) (fun i => u.omega i) (fun i => u.phase i) alpha phi =
      some ((List.range nmode).map (mode u a f)) := by
  unfold modes
  rw [mapM_some (g := fun i : Fin nmode => mode u a f i.val)]
  · rw [← List.map_coe_finRange_eq_range, List.map_map]
    rfl
  · intro i _
    rw [ha i i.2, hf i i.2]
    rfl

theorem selected_eq {P : Type} (k : ℕ → Mode P) (includemode : ℤ) (nmode : ℕ) :
    selected includemode ((List.range nmode).map k) = (chosen includemode nmode).map k := by
  unfold selected chosen
  split_ifs with h1 h2
  · rw [List.filter_eq_self.2]; simp [h1]
  · rw [List.filter_eq_nil_iff.2]
    · rfl
    · intro i _
      have : includemode ≠ (i : ℤ) := by omega
      simp [h1, this]
  · obtain ⟨j, rfl⟩ : ∃ j : ℕ, includemode = j := ⟨includemode.toNat, by omega⟩
    have e : (List.range nmode).filter (fun i : ℕ => decide ((j : ℤ) = -1 ∨ (j : ℤ) = (i : ℤ))) = if j < nmode then [j] else [] := by
      induction nmode with
      | zero => simp
      | succ n ih =>
        rw [List.range_succ, List.filter_append, ih]
        by_cases c : j = n
        · subst c; simp
        · have c' : ¬ ((j : ℤ) = -1 ∨ (j : ℤ) = (n : ℤ)) := by omega
          have e2 : List.filter (fun i : ℕ => decide ((j : ℤ) = -1 ∨ (j : ℤ) = (i : ℤ))) [n] = [] := by
            rw [List.filter_cons, List.filter_nil, if_neg (by simpa using c')]
          rw [e2, List.append_nil]
          by_cases c2 : j < n
          · rw [if_pos c2, if_pos (by omega)]
          · rw [if_neg c2, if_neg (by omega)]
    rw [e]
    split_ifs with c
    · simp [c]
    · simp [c]

/-- The profile of a stationary mode as function of rho. -/
noncomputable def value1 (s : Spline1) (x : ℝ) : ℝ := ((s x).map Prod.fst).getD 0

/-- The profile of another mode as function of rho and time. -/
noncomputable def valueT (s : SplineT) (x t : ℝ) : ℝ := ((s x t).map Prof.v).getD 0

theorem modeSum_waves {P : Type} (u : Numbers) (a f : ℕ → P) (is : List ℕ) (F : Mode P → ℝ → ℝ → ℝ) :
    modeSum (is.map (mode u a f)) F = waves u is fun i => F (mode u a f i) := by
  funext Rho Psi Theta Zeta r phi z t
  simp only [modeSum, waves, List.map_map]
  rfl

theorem writeStat_done (u : Numbers) (nmode nrho : ℕ) (rhomin rhomax : ℝ) (alpha phi : ℕ → ℕ → ℝ) :
    ∃ g, writeStat (argsStat u nmode nrho rhomin rhomax alpha phi) = .done g ∧ g.ints "nmode" = some [(nmode : ℤ)] ∧
      g.ints "nrho" = some [(nrho : ℤ)] ∧ g.reals "rhomin" = some [rhomin] ∧ g.reals "rhomax" = some [rhomax] ∧
      g.ints "nmodes" = some (tab nmode u.n) ∧ g.ints "mmodes" = some (tab nmode u.m) ∧ g.reals "omega" = some (tab nmode u.omega) ∧
      g.reals "phase" = some (tab nmode u.phase) ∧ g.reals "amplitude" = some (tab nmode u.amplitude) ∧
      g.reals "alpha" = some (tab (nrho * nmode) fun k => alpha (k % nrho) (k / nrho)) ∧
      g.reals "phi" = some (tab (nrho * nmode) fun k => phi (k % nrho) (k / nrho)) := by
  have e : nmode * nrho = nrho * nmode := Nat.mul_comm _ _
  refine ⟨?w, ?a, ?b⟩
  case a =>
    unfold writeStat
    simp only [argsStat, tab_length, nd2_T_flat]
    rw [if_neg (by simp), if_neg (by simp), if_neg (by simp [nd2]), if_neg (by simp [nd2])]
    rw [createAll_done (by simp [Elems.length])]
  case b => simp [put, empty, e]

theorem writeNonstat_done (u : Numbers) (nmode nrho ntime : ℕ) (rhomin rhomax tmin tmax : ℝ) (alpha phi : ℕ → ℕ → ℕ → ℝ) :
    ∃ g, writeNonstat (argsNonstat u nmode nrho ntime rhomin rhomax tmin tmax alpha phi) = .done g ∧ g.ints "nmode" = some [(nmode : ℤ)] ∧
      g.ints "nrho" = some [(nrho : ℤ)] ∧ g.reals "rhomin" = some [rhomin] ∧ g.reals "rhomax" = some [rhomax] ∧
      g.ints "ntime" = some [(ntime : ℤ)] ∧ g.reals "tmin" = some [tmin] ∧ g.reals "tmax" = some [tmax] ∧
      g.ints "nmodes" = some (tab nmode u.n) ∧ g.ints "mmodes" = some (tab nmode u.m) ∧ g.reals "omega" = some (tab nmode u.omega) ∧
      g.reals "phase" = some (tab nmode u.phase) ∧ g.reals "amplitude" = some (tab nmode u.amplitude) ∧
      g.reals "alpha" = some (tab (nrho * ntime * nmode) fun k => alpha (k % (ntime * nrho) % nrho) (k % (ntime * nrho) / nrho) (k / (ntime * nrho))) ∧
      g.reals "phi" = some (tab (nrho * ntime * nmode) fun k => phi (k % (ntime * nrho) % nrho) (k % (ntime * nrho) / nrho) (k / (ntime * nrho))) := by
  have e : nmode * (ntime * nrho) = nrho * ntime * nmode := by ring
  refine ⟨?w, ?a, ?b⟩
  case a =>
    unfold writeNonstat
    simp only [argsNonstat, tab_length, nd3_T_flat]
    rw [if_neg (by simp), if_neg (by simp), if_neg (by simp [nd3]), if_neg (by simp [nd3])]
    rw [createAll_done (by simp [Elems.length])]
  case b => simp [put, empty, e]

/-- The profile of mode `i` in the array that was read. -/
theorem table_stat {junk : ℕ → ℝ} {nmode nrho : ℕ} {f : ℕ → ℕ → ℝ} {i : ℕ} (hi : i < nmode) (k : ℕ) (hk : k < nrho) :
    ext junk (fun k : Fin (nrho * nmode) => f (k % nrho) (k / nrho)) (i * nrho + k) = f k i := by
  have h : i * nrho + k < nrho * nmode := by
    calc i * nrho + k < i * nrho + nrho := by omega
      _ = nrho * (i + 1) := by ring
      _ ≤ nrho * nmode := Nat.mul_le_mul_left _ hi
  rw [ext_lt h]
  dsimp only
  rw [show i * nrho + k = k + nrho * i by ring, Nat.add_mul_mod_self_left, Nat.mod_eq_of_lt hk, Nat.add_mul_div_left _ _ (by omega),
    Nat.div_eq_of_lt hk, Nat.zero_add]

theorem table_nonstat {junk : ℕ → ℝ} {nmode nrho ntime : ℕ} {f : ℕ → ℕ → ℕ → ℝ} {i : ℕ} (hi : i < nmode) (k : ℕ) (hk : k < nrho) (j : ℕ)
    (hj : j < ntime) :
    ext junk (fun k : Fin (nrho * ntime * nmode) => f (k % (ntime * nrho) % nrho) (k % (ntime * nrho) / nrho) (k / (ntime * nrho)))
      (i * nrho * ntime + (j * nrho + k)) = f k j i := by
  have h0 : j * nrho + k < ntime * nrho := by
    calc j * nrho + k < j * nrho + nrho := by omega
      _ = (j + 1) * nrho := by ring
      _ ≤ ntime * nrho := Nat.mul_le_mul_right _ hj
  have h : i * nrho * ntime + (j * nrho + k) < nrho * ntime * nmode := by
    calc i * nrho * ntime + (j * nrho + k) < i * nrho * ntime + ntime * nrho := by omega
      _ = nrho * ntime * (i + 1) := by ring
      _ ≤ nrho * ntime * nmode := Nat.mul_le_mul_left _ hi
  rw [ext_lt h]
  dsimp only
  rw [show i * nrho * ntime + (j * nrho + k) = (j * nrho + k) + ntime * nrho * i by ring, Nat.add_mul_mod_self_left, Nat.mod_eq_of_lt h0,
    Nat.add_mul_div_left _ _ (by omega), Nat.div_eq_of_lt h0, Nat.zero_add, show j * nrho + k = k + nrho * j by ring, Nat.add_mul_mod_self_left,
    Nat.mod_eq_of_lt hk, Nat.add_mul_div_left _ _ (by omega), Nat.div_eq_of_lt hk, Nat.zero_add]

/-- A stationary profile. -/
structure IsProfile (nrho : ℕ) (lo hi : ℝ) (f : ℕ → ℝ) (s : Spline1) : Prop where
  spline : IsSplineFun1 nrho lo hi f (value1 s)
  inside : ∀ x, lo < x → x < hi → ∃ d, s x = some (value1 s x, d) ∧ HasDerivAt (value1 s) d x
  edge : ∀ x, lo ≤ x → x ≤ hi → ∃ d, s x = some (value1 s x, d)
  outside : ∀ x, x < lo ∨ hi < x → s x = none

theorem profStat_spec {t : ℕ → ℝ} {nrho : ℕ} {lo hi : ℝ} (hn : 2 ≤ nrho) (hm : lo < hi) {i : ℕ} (f : ℕ → ℝ)
    (ht : ∀ k < nrho, t (i * nrho + k) = f k) : ∃ s, profStat t nrho lo hi i = some s ∧ IsProfile nrho lo hi f s := by
  obtain ⟨s, F, F', F'', hs, hF, hC, hin, hout⟩ := setup1_spec hn hm (t := fun k => t (i * nrho + k)) f ht
  have hv : ∀ x, lo ≤ x → x ≤ hi → value1 s x = F x := fun x h0 h1 => by simp [value1, hin x h0 h1]
  refine ⟨s, hs, ?_, fun x h0 h1 => ⟨F' x, by rw [hv x h0.le h1.le]; exact hin x h0.le h1.le, ?_⟩,
    fun x h0 h1 => ⟨F' x, by rw [hv x h0 h1]; exact hin x h0 h1⟩, hout⟩
  · obtain ⟨q, hq, hF⟩ := hF
    refine ⟨q, hq, fun x i d h => ?_⟩
    have ha := axis_of_at (bc := .natural) hm h
    rw [hv x ha.1 ha.2, hF x i d h]
  · have hx : Set.Icc lo hi ∈ 𝓝 x := Icc_mem_nhds h0 h1
    exact ((hC.first x ⟨h0.le, h1.le⟩).hasDerivAt hx).congr_of_eventuallyEq
      (Filter.mem_of_superset hx fun y hy => hv y hy.1 hy.2)

/-- A profile that depends on time. -/
structure IsProfileT (nrho ntime : ℕ) (lo hi t0 t1 : ℝ) (f : ℕ → ℕ → ℝ) (s : SplineT) : Prop where
  spline : IsSplineFun2 nrho ntime .natural .natural lo hi t0 t1 f fun p => valueT s p.1 p.2
  inside : ∀ x t, lo < x → x < hi → t0 < t → t < t1 → ∃ a b, s x t = some ⟨valueT s x t, a, b⟩ ∧
    HasDerivAt (fun x => valueT s x t) a x ∧ HasDerivAt (fun t => valueT s x t) b t
  outside : ∀ x t, (x < lo ∨ hi < x) ∨ (t < t0 ∨ t1 < t) → s x t = none

theorem profNonstat_spec {t : ℕ → ℝ} {nrho ntime : ℕ} {lo hi t0 t1 : ℝ} (hn : 2 ≤ nrho) (hnt : 2 ≤ ntime) (hm : lo < hi) (hmt : t0 < t1) {i : ℕ}
    (f : ℕ → ℕ → ℝ) (ht : ∀ k < nrho, ∀ j < ntime, t (i * nrho * ntime + (j * nrho + k)) = f k j) :
    ∃ s, profNonstat t nrho ntime lo hi t0 t1 i = some s ∧ IsProfileT nrho ntime lo hi t0 t1 f s := by
  obtain ⟨s, F, Fx, Fy, Fxx, Fyy, Fxy, hs, hF, hC, hin, hout⟩ := setup2_spec (bx := .natural) (by_ := .natural) hn hnt hm hmt
    (t := fun k => t (i * nrho * ntime + k)) f ht
  have hv : ∀ x t, (lo ≤ x ∧ x ≤ hi) → (t0 ≤ t ∧ t ≤ t1) → valueT (fun x t => (s.df x t).map fun d => (⟨d.v, d.r, d.z⟩ : Prof)) x t = F (x, t) :=
    fun x t h0 h1 => by simp [valueT, (hin x h0 t h1).2]
  refine ⟨_, by unfold profNonstat; rw [hs]; rfl, ?_, fun x t h0 h1 h2 h3 => ⟨Fx (x, t), Fy (x, t), ?_, ?_, ?_⟩, fun x t h => ?_⟩
  · intro x y i j d e h1 h2
    dsimp only
    rw [hv x y (axis_of_at (bc := .natural) hm h1) (axis_of_at (bc := .natural) hmt h2)]
    exact hF x y i j d e h1 h2
  · rw [hv x t ⟨h0.le, h1.le⟩ ⟨h2.le, h3.le⟩]
    dsimp only
    rw [(hin x ⟨h0.le, h1.le⟩ t ⟨h2.le, h3.le⟩).2]
    rfl
  · have hx : Set.Icc lo hi ∈ 𝓝 x := Icc_mem_nhds h0 h1
    exact (C139.line1 (interior_deriv hC hx (Icc_mem_nhds h2 h3))).congr_of_eventuallyEq
      (Filter.mem_of_superset hx fun y hy => hv y t hy ⟨h2.le, h3.le⟩)
  · have hx : Set.Icc t0 t1 ∈ 𝓝 t := Icc_mem_nhds h2 h3
    exact (C139.line2 (interior_deriv hC (Icc_mem_nhds h0 h1) hx)).congr_of_eventuallyEq
      (Filter.mem_of_superset hx fun y hy => hv x y ⟨h0.le, h1.le⟩ hy)
  · have : x ∉ axis .natural lo hi ∨ t ∉ axis .natural t0 t1 := by
      simp only [axis, Set.mem_Icc, not_and_or, not_le]
      exact h
    dsimp only
    rw [(hout x t this).2]
    rfl

/-- What is read from a file with stationary modes. -/
theorem read_stat (junk : ℕ → ℝ) (u : Numbers) {nmode nrho : ℕ} {rhomin rhomax : ℝ} (alpha phi : ℕ → ℕ → ℝ) (hn : 2 ≤ nrho) (hm : rhomin < rhomax) :
    ∃ g a f, writeStat (argsStat u nmode nrho rhomin rhomax alpha phi) = .done g ∧
      readMhd junk (only "MHD_STAT" g) = .ok (.stat ((List.range nmode).map (mode u a f))) ∧
      ∀ i < nmode, IsProfile nrho rhomin rhomax (fun k => alpha k i) (a i) ∧ IsProfile nrho rhomin rhomax (fun k => phi k i) (f i) := by
  obtain ⟨g, hg, h1, h2, h3, h4, h5, h6, h7, h8, h9, h10, h11⟩ := writeStat_done u nmode nrho rhomin rhomax alpha phi
  have ha : ∀ i, ∃ s, i < nmode → profStat (ext junk fun k : Fin (nrho * nmode) => alpha (k % nrho) (k / nrho)) nrho rhomin rhomax i = some s ∧
      IsProfile nrho rhomin rhomax (fun k => alpha k i) s := fun i => by
    by_cases hi : i < nmode
    · obtain ⟨s, hs⟩ := profStat_spec hn hm (fun k => alpha k i) fun k hk => table_stat (junk := junk) (f := alpha) hi k hk
      exact ⟨s, fun _ => hs⟩
    · exact ⟨fun _ => none, fun h => absurd h hi⟩
  have hf : ∀ i, ∃ s, i < nmode → profStat (ext junk fun k : Fin (nrho * nmode) => phi (k % nrho) (k / nrho)) nrho rhomin rhomax i = some s ∧
      IsProfile nrho rhomin rhomax (fun k => phi k i) s := fun i => by
    by_cases hi : i < nmode
    · obtain ⟨s, hs⟩ := profStat_spec hn hm (fun k => phi k i) fun k hk => table_stat (junk := junk) (f := phi) hi k hk
      exact ⟨s, fun _ => hs⟩
    · exact ⟨fun _ => none, fun h => absurd h hi⟩
  choose a ha using ha
  choose f hf using hf
  refine ⟨g, a, f, hg, ?_, fun i hi => ⟨(ha i hi).2, (hf i hi).2⟩⟩
  rw [readMhd, lastFound_only (r := readStat junk) (by simp) (by simp)]
  unfold readStat
  rw [readCount_eq h1, ok_bind, readCount_eq h2, ok_bind, readReal_eq h3, ok_bind, readReal_eq h4, ok_bind, readInts_tab h5, ok_bind,
    readInts_tab h6, ok_bind, readReals_tab h7, ok_bind, readReals_tab h8, ok_bind, readReals_tab h9, ok_bind, readReals_tab h10, ok_bind,
    readReals_tab h11, ok_bind, modes_eq u (fun i hi => (ha i hi).1) (fun i hi => (hf i hi).1)]
  rfl

/-- What is read from a file with modes that depend on time. -/
theorem read_nonstat (junk : ℕ → ℝ) (u : Numbers) {nmode nrho ntime : ℕ} {rhomin rhomax tmin tmax : ℝ} (alpha phi : ℕ → ℕ → ℕ → ℝ)
    (hn : 2 ≤ nrho) (hnt : 2 ≤ ntime) (hm : rhomin < rhomax) (hmt : tmin < tmax) :
    ∃ g a f, writeNonstat (argsNonstat u nmode nrho ntime rhomin rhomax tmin tmax alpha phi) = .done g ∧
      readMhd junk (only "MHD_NONSTAT" g) = .ok (.nonstat ((List.range nmode).map (mode u a f))) ∧
      ∀ i < nmode, IsProfileT nrho ntime rhomin rhomax tmin tmax (fun k j => alpha k j i) (a i) ∧
        IsProfileT nrho ntime rhomin rhomax tmin tmax (fun k j => phi k j i) (f i) := by
  obtain ⟨g, hg, h1, h2, h3, h4, h12, h13, h14, h5, h6, h7, h8, h9, h10, h11⟩ :=
    writeNonstat_done u nmode nrho ntime rhomin rhomax tmin tmax alpha phi
  have key : ∀ (h : ℕ → ℕ → ℕ → ℝ) (i : ℕ), ∃ s, i < nmode → profNonstat (ext junk fun k : Fin (nrho * ntime * nmode) =>
      h (k % (ntime * nrho) % nrho) (k % (ntime * nrho) / nrho) (k / (ntime * nrho))) nrho ntime rhomin rhomax tmin tmax i = some s ∧
      IsProfileT nrho ntime rhomin rhomax tmin tmax (fun k j => h k j i) s := fun h i => by
    by_cases hi : i < nmode
    · obtain ⟨s, hs⟩ := profNonstat_spec hn hnt hm hmt (fun k j => h k j i) fun k hk j hj => table_nonstat (junk := junk) (f := h) hi k hk j hj
      exact ⟨s, fun _ => hs⟩
    · exact ⟨fun _ _ => none, fun h => absurd h hi⟩
  choose a ha using key alpha
  choose f hf using key phi
  refine ⟨g, a, f, hg, ?_, fun i hi => ⟨(ha i hi).2, (hf i hi).2⟩⟩
  rw [readMhd, lastFound_only (r := readNonstat junk) (by simp) (by simp)]
  unfold readNonstat
  rw [readCount_eq h1, ok_bind, readCount_eq h2, ok_bind, readReal_eq h3, ok_bind, readReal_eq h4, ok_bind, readCount_eq h12, ok_bind,
    readReal_eq h13, ok_bind, readReal_eq h14, ok_bind, readInts_tab h5, ok_bind,
    readInts_tab h6, ok_bind, readReals_tab h7, ok_bind, readReals_tab h8, ok_bind, readReals_tab h9, ok_bind, readReals_tab h10, ok_bind,
    readReals_tab h11, ok_bind, modes_eq u (fun i hi => (ha i hi).1) (fun i hi => (hf i hi).1)]
  rfl

theorem chosen_lt {includemode : ℤ} {nmode i : ℕ} (h : i ∈ chosen includemode nmode) : i < nmode :=
  List.mem_range.1 (List.mem_filter.1 h).1

/-! ### The property -/

/-- Stationary modes.  There are natural cubic splines `Fa i`, `Ff i` through the columns of the tables that the user wrote, such
that the functions that are evaluated are the sums of the chosen modes with the user's mode numbers, amplitudes, frequencies and
phases, with their gradients and time derivatives; beyond the radial grid the perturbation is zero. -/
theorem stationary (junk : ℕ → ℝ) (u : Numbers) {nmode nrho : ℕ} {rhomin rhomax : ℝ} (alpha phi : ℕ → ℕ → ℝ) (hn : 2 ≤ nrho)
    (hm : rhomin < rhomax) :
    ∃ (g : Group) (d : Mhd.Data) (Fa Ff : ℕ → ℝ → ℝ), writeStat (argsStat u nmode nrho rhomin rhomax alpha phi) = .done g ∧ readMhd junk (only "MHD_STAT" g) = .ok d ∧
      (∀ i < nmode, IsSplineFun1 nrho rhomin rhomax (fun k => alpha k i) (Fa i) ∧ IsSplineFun1 nrho rhomin rhomax (fun k => phi k i) (Ff i)) ∧
      (∀ (includemode : ℤ) (bz : Boozer.Data) (b : Bfield.Data) (r phi z t : ℝ) (p : Boozer.Ptz) (rho drho : ℝ) (Rho : ℝ → ℝ)
        (Psi Theta Zeta : ℝ → ℝ → ℝ → ℝ), r ≠ 0 → Boozer.eval bz b r phi z = some (.ok (some p)) →
        evalRho b p.psi.v = (some rho, some drho, 0) → Rho p.psi.v = rho → HasDerivAt Rho drho p.psi.v → HasGrad Psi r phi z p.psi →
        HasGrad Theta r phi z p.theta → HasGrad Zeta r phi z p.zeta → rhomin < rho → rho < rhomax →
        ∃ m, Mhd.eval d includemode bz b r phi z t = some (.ok m) ∧
          IsPart (waves u (chosen includemode nmode) (fun i x _ => Fa i x) Rho Psi Theta Zeta) r phi z t m.alpha ∧
          IsPart (waves u (chosen includemode nmode) (fun i x _ => Ff i x) Rho Psi Theta Zeta) r phi z t m.phi) ∧
      ∀ (includemode : ℤ) (bz : Boozer.Data) (b : Bfield.Data) (r phi z t : ℝ) (p : Boozer.Ptz) (rho drho : ℝ), r ≠ 0 →
        Boozer.eval bz b r phi z = some (.ok (some p)) → evalRho b p.psi.v = (some rho, some drho, 0) → rho < rhomin ∨ rhomax < rho →
        Mhd.eval d includemode bz b r phi z t = some (.ok .zero) := by
  obtain ⟨g, a, f, hg, hr, hp⟩ := read_stat junk u (nmode := nmode) alpha phi hn hm
  refine ⟨g, _, fun i => value1 (a i), fun i => value1 (f i), hg, hr, fun i hi => ⟨(hp i hi).1.spline, (hp i hi).2.spline⟩, ?_, ?_⟩
  · intro includemode bz b r phi z t p rho drho Rho Psi Theta Zeta h0 hb he h1 h2 h3 h4 h5 lo hi
    have hs := selected_eq (mode u a f) includemode nmode
    obtain ⟨m, hm, ha, hf⟩ := C108.stationary (l := (List.range nmode).map (mode u a f)) (includemode := includemode) (t := t)
      (a := fun k => value1 k.alpha) (f := fun k => value1 k.phi) h0 hb he
      (fun k hk => by
        rw [hs] at hk
        obtain ⟨i, hi', rfl⟩ := List.mem_map.1 hk
        exact (hp i (chosen_lt hi')).1.inside rho lo hi)
      (fun k hk => by
        rw [hs] at hk
        obtain ⟨i, hi', rfl⟩ := List.mem_map.1 hk
        exact (hp i (chosen_lt hi')).2.inside rho lo hi) h1 h2 h3 h4 h5
    rw [hs, modeSum_waves] at ha hf
    exact ⟨m, hm, ha, hf⟩
  · intro includemode bz b r phi z t p rho drho h0 hb he ho
    have hs := selected_eq (mode u a f) includemode nmode
    by_cases hc : chosen includemode nmode = []
    · have h := evalWith_ok (ev := statProf) (t := t) (modes := (List.range nmode).map (mode u a f)) (includemode := includemode)
        (av := fun _ => ⟨0, 0, 0⟩) (fv := fun _ => ⟨0, 0, 0⟩) h0 hb he (by rw [hs, hc]; simp)
      rw [hs, hc] at h
      exact h
    · obtain ⟨i, hi⟩ := List.exists_mem_of_ne_nil _ hc
      refine C108.outside.2 hb he h0 ⟨mode u a f i, by rw [hs]; exact List.mem_map_of_mem hi, Or.inl ?_⟩
      show statProf (a i) rho t = none
      rw [statProf, (hp i (chosen_lt hi)).1.outside rho ho]
      rfl

/-- Modes that depend on time: the same with the two-dimensional splines through the tables; beyond the grid in radius or time the
perturbation is zero. -/
theorem time_dependent (junk : ℕ → ℝ) (u : Numbers) {nmode nrho ntime : ℕ} {rhomin rhomax tmin tmax : ℝ} (alpha phi : ℕ → ℕ → ℕ → ℝ)
    (hn : 2 ≤ nrho) (hnt : 2 ≤ ntime) (hm : rhomin < rhomax) (hmt : tmin < tmax) :
    ∃ (g : Group) (d : Mhd.Data) (Fa Ff : ℕ → ℝ → ℝ → ℝ), writeNonstat (argsNonstat u nmode nrho ntime rhomin rhomax tmin tmax alpha phi) = .done g ∧
      readMhd junk (only "MHD_NONSTAT" g) = .ok d ∧
      (∀ i < nmode, IsSplineFun2 nrho ntime .natural .natural rhomin rhomax tmin tmax (fun k j => alpha k j i) (fun p => Fa i p.1 p.2) ∧
        IsSplineFun2 nrho ntime .natural .natural rhomin rhomax tmin tmax (fun k j => phi k j i) fun p => Ff i p.1 p.2) ∧
      (∀ (includemode : ℤ) (bz : Boozer.Data) (b : Bfield.Data) (r phi z t : ℝ) (p : Boozer.Ptz) (rho drho : ℝ) (Rho : ℝ → ℝ)
        (Psi Theta Zeta : ℝ → ℝ → ℝ → ℝ), r ≠ 0 → Boozer.eval bz b r phi z = some (.ok (some p)) →
        evalRho b p.psi.v = (some rho, some drho, 0) → Rho p.psi.v = rho → HasDerivAt Rho drho p.psi.v → HasGrad Psi r phi z p.psi →
        HasGrad Theta r phi z p.theta → HasGrad Zeta r phi z p.zeta → rhomin < rho → rho < rhomax → tmin < t → t < tmax →
        ∃ m, Mhd.eval d includemode bz b r phi z t = some (.ok m) ∧
          IsPart (waves u (chosen includemode nmode) Fa Rho Psi Theta Zeta) r phi z t m.alpha ∧
          IsPart (waves u (chosen includemode nmode) Ff Rho Psi Theta Zeta) r phi z t m.phi) ∧
      ∀ (includemode : ℤ) (bz : Boozer.Data) (b : Bfield.Data) (r phi z t : ℝ) (p : Boozer.Ptz) (rho drho : ℝ), r ≠ 0 →
        Boozer.eval bz b r phi z = some (.ok (some p)) → evalRho b p.psi.v = (some rho, some drho, 0) →
        (rho < rhomin ∨ rhomax < rho) ∨ (t < tmin ∨ tmax < t) → Mhd.eval d includemode bz b r phi z t = some (.ok .zero) := by
  obtain ⟨g, a, f, hg, hr, hp⟩ := read_nonstat junk u (nmode := nmode) alpha phi hn hnt hm hmt
  refine ⟨g, _, fun i => valueT (a i), fun i => valueT (f i), hg, hr, fun i hi => ⟨(hp i hi).1.spline, (hp i hi).2.spline⟩, ?_, ?_⟩
  · intro includemode bz b r phi z t p rho drho Rho Psi Theta Zeta h0 hb he h1 h2 h3 h4 h5 lo hi lt ht
    have hs := selected_eq (mode u a f) includemode nmode
    obtain ⟨m, hm, ha, hf⟩ := C108.time_dependent (l := (List.range nmode).map (mode u a f)) (includemode := includemode) (t := t)
      (a := fun k => valueT k.alpha) (f := fun k => valueT k.phi) h0 hb he
      (fun k hk => by
        rw [hs] at hk
        obtain ⟨i, hi', rfl⟩ := List.mem_map.1 hk
        exact (hp i (chosen_lt hi')).1.inside rho t lo hi lt ht)
      (fun k hk => by
        rw [hs] at hk
        obtain ⟨i, hi', rfl⟩ := List.mem_map.1 hk
        exact (hp i (chosen_lt hi')).2.inside rho t lo hi lt ht) h1 h2 h3 h4 h5
    rw [hs, modeSum_waves] at ha hf
    exact ⟨m, hm, ha, hf⟩
  · intro includemode bz b r phi z t p rho drho h0 hb he ho
    have hs := selected_eq (mode u a f) includemode nmode
    by_cases hc : chosen includemode nmode = []
    · have h := evalWith_ok (ev := fun a => a) (t := t) (modes := (List.range nmode).map (mode u a f)) (includemode := includemode)
        (av := fun _ => ⟨0, 0, 0⟩) (fv := fun _ => ⟨0, 0, 0⟩) h0 hb he (by rw [hs, hc]; simp)
      rw [hs, hc] at h
      exact h
    · obtain ⟨i, hi⟩ := List.exists_mem_of_ne_nil _ hc
      exact C108.outside.2 hb he h0 ⟨mode u a f i, by rw [hs]; exact List.mem_map_of_mem hi, Or.inl ((hp i (chosen_lt hi)).1.outside rho t ho)⟩

/-- Mode numbers or tables of other sizes are refused. -/
theorem refused :
    (∀ u : InStat, u.nmodes.length ≠ u.nmode ∨ u.mmodes.length ≠ u.nmode ∨ u.alpha.shape ≠ [u.nrho, u.nmode] ∨ u.phi.shape ≠ [u.nrho, u.nmode] →
      writeStat u = .refused) ∧
    ∀ u : InNonstat, u.nmodes.length ≠ u.nmode ∨ u.mmodes.length ≠ u.nmode ∨ u.alpha.shape ≠ [u.nrho, u.ntime, u.nmode] ∨
      u.phi.shape ≠ [u.nrho, u.ntime, u.nmode] → writeNonstat u = .refused := by
  constructor
  · intro u h
    unfold writeStat
    split_ifs <;> simp_all
  · intro u h
    unfold writeNonstat
    split_ifs <;> simp_all

/-! ### Violations -/

/-- **Violation.** The number of phases is not checked before the group is added to the file: one phase for two modes makes the
call fail, but a group stays in the file, and the program cannot read it. -/
theorem phases_violation (junk : ℕ → ℝ) (u : Numbers) (alpha phi : ℕ → ℕ → ℝ) :
    ∃ g, writeStat ⟨2, tab 2 u.n, tab 2 u.m, tab 2 u.amplitude, tab 2 u.omega, [0], nd2 2 2 alpha, nd2 2 2 phi, 2, 0, 1⟩ = .broken g ∧ readMhd junk (only "MHD_STAT" g) = .fail := by
  refine ⟨?w, ?a, ?b⟩
  case a =>
    unfold writeStat
    dsimp only
    rw [if_neg (by simp), if_neg (by simp), if_neg (by simp [nd2]), if_neg (by simp [nd2])]
    simp only [createAll, create, Elems.length, tab_length, List.prod_cons, List.prod_nil, List.length_cons, List.length_nil]
    simp
    rfl
  case b =>
    rw [readMhd, lastFound_only (r := readStat junk) (by simp) (by simp)]
    unfold readStat
    rw [readCount_eq (n := 2) (by simp [put, empty]), ok_bind, readCount_eq (n := 2) (by simp [put, empty]), ok_bind,
      readReal_eq (x := 0) (by simp [put, empty]), ok_bind, readReal_eq (x := 1) (by simp [put, empty]), ok_bind,
      readInts_tab (f := u.n) (by simp [put, empty]), ok_bind, readInts_tab (f := u.m) (by simp [put, empty]), ok_bind,
      readReals_tab (f := u.omega) (by simp [put, empty]), ok_bind, readReals_none (by simp [put, empty])]
    rfl

/-- **Violation.** A table with one radius is accepted by the Python interface, but the splines of the program are not defined for it. -/
theorem one_radius_violation (junk : ℕ → ℝ) (u : Numbers) (alpha phi : ℕ → ℕ → ℝ) :
    ∃ g, writeStat (argsStat u 1 1 0 1 alpha phi) = .done g ∧ readMhd junk (only "MHD_STAT" g) = .ub := by
  obtain ⟨g, hg, h1, h2, h3, h4, h5, h6, h7, h8, h9, h10, h11⟩ := writeStat_done u 1 1 0 1 alpha phi
  refine ⟨g, hg, ?_⟩
  rw [readMhd, lastFound_only (r := readStat junk) (by simp) (by simp)]
  unfold readStat
  rw [readCount_eq h1, ok_bind, readCount_eq h2, ok_bind, readReal_eq h3, ok_bind, readReal_eq h4, ok_bind, readInts_tab h5, ok_bind,
    readInts_tab h6, ok_bind, readReals_tab h7, ok_bind, readReals_tab h8, ok_bind, readReals_tab h9, ok_bind, readReals_tab h10, ok_bind,
    readReals_tab h11, ok_bind]
  have : ∀ t : ℕ → ℝ, profStat t 1 0 1 0 = none := fun t => by
    simp [profStat, setup1, Interp.coeff1, Spline.splinecomp, Spline.sizeOk]
  simp [modes, this, List.finRange]

/-- The conditions hold for two modes on a grid of three radii. -/
example : (2 : ℕ) ≤ 3 ∧ (0 : ℝ) < 1 ∧ chosen (-1) 2 = [0, 1] ∧ chosen 1 2 = [1] ∧ chosen 7 2 = [] := by
  refine ⟨by norm_num, by norm_num, by decide, by decide, by decide⟩

end Ascot.C140
