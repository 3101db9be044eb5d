import Verif.Model.Neutral
import Verif.Props.C35_Linint
import Mathlib.Tactic.NormNum

/-!
# C105: neutral density and temperature

Every species has its own tables of density and temperature.  Inside the grid the evaluation returns, for every species, the
linear interpolation of its table; outside it an error is returned and the results have harmless values.  Releasing the data
releases every block of memory once.
-/
set_option linter.unusedSectionVars false
set_option linter.unusedSimpArgs false

namespace Ascot.C105
open Ascot.Linint Ascot.Neutral

variable {K : Type} [Field K] [LinearOrder K] [IsStrictOrderedRing K] [FloorRing K]

/-! ### Lemmas -/

theorem copy_eq {A : Type} : ∀ (n : Nat) (src : List A), n ≤ src.length → copy n src = some (src.take n) := by
  intro n
  induction n with
  | zero => intro src _; rfl
  | succ n ih =>
    intro src h
    have e := ih src (by omega)
    unfold copy at *
    rw [List.range_succ, List.mapM_append, e, List.take_add_one]
    have g : src[n]? = some src[n] := List.getElem?_eq_getElem (by omega)
    simp [g]

theorem mapM_const {A B : Type} (x : B) : ∀ l : List A, (l.mapM fun _ => some x) = some (List.replicate l.length x) := by
  intro l
  induction l with
  | nil => rfl
  | cons a l ih => simp [ih, List.replicate_succ]

theorem loop_ok {L : Type} (ev : L → Option (Option K)) (l : L) (v : K) (h : ev l = some (some v)) (n : Nat) (m : Nat)
    (hm : m ≤ n) (out : Nat → Option K) :
    evalLoop ev (List.replicate n l) m out = some (0, fun s => if s < m then some v else out s) := by
  induction m with
  | zero => rfl
  | succ m ih =>
    have e := ih (by omega)
    unfold evalLoop at *
    rw [List.range_succ, List.foldlM_append, e]
    have g : (List.replicate n l)[m]? = some l := by rw [List.getElem?_replicate, if_pos (by omega)]
    have q : (Function.update (fun s => if s < m then some v else out s) m (some v)) =
        fun s => if s < m + 1 then some v else out s := by
      funext s
      by_cases hs : s = m
      · subst hs; simp
      · rw [Function.update_of_ne hs]
        have : s < m + 1 ↔ s < m := by omega
        simp only [this]
    simp [g, h, q]

theorem loop_err {L : Type} (ev : L → Option (Option K)) (l : L) (h : ev l = some none) (n : Nat) (m : Nat)
    (hm : m ≤ n) (out : Nat → Option K) :
    evalLoop ev (List.replicate n l) m out = some (m, out) := by
  induction m with
  | zero => rfl
  | succ m ih =>
    have e := ih (by omega)
    unfold evalLoop at *
    rw [List.range_succ, List.foldlM_append, e]
    have g : (List.replicate n l)[m]? = some l := by rw [List.getElem?_replicate, if_pos (by omega)]
    simp [g, h]

theorem raise_ne (t l f : Nat) (h : 0 < t) : Error.raise t l f ≠ 0 := by
  unfold Error.raise; omega

/-- What `N0_1D_init` stores when its arguments have the sizes that are expected. -/
theorem init1_eq {nRho : Nat} {lo hi : K} {ns : Nat} {an zn mx : List Int} {den tem : List K}
    (ha : an.length = ns) (hz : zn.length = ns) (hm : mx.length = ns) (hd : nRho ≤ den.length) (ht : nRho ≤ tem.length) :
    init1D nRho lo hi ns an zn mx den tem = some ⟨ns, an, zn, mx,
      List.replicate ns ⟨Axis.init nRho .natural lo hi, den.take nRho⟩,
      List.replicate ns ⟨Axis.init nRho .natural lo hi, tem.take nRho⟩⟩ := by
  unfold init1D
  rw [copy_eq _ _ hd, copy_eq _ _ ht, copy_eq _ _ ha.ge, copy_eq _ _ hz.ge, copy_eq _ _ hm.ge]
  simp [mapM_const, ← ha, List.take_of_length_le (Nat.le_of_eq (hz.trans ha.symm)),
    List.take_of_length_le (Nat.le_of_eq (hm.trans ha.symm))]

theorem init3_eq {nr np nz : Nat} {r0 r1 p0 p1 z0 z1 : K} {ns : Nat} {an zn mx : List Int} {den tem : List K}
    (ha : an.length = ns) (hz : zn.length = ns) (hm : mx.length = ns) (hd : nr * np * nz ≤ den.length)
    (ht : nr * np * nz ≤ tem.length) :
    init3D nr r0 r1 np p0 p1 nz z0 z1 ns an zn mx den tem = some ⟨ns, an, zn, mx,
      List.replicate ns ⟨Axis.init nr .natural r0 r1, Axis.init np .periodic p0 p1, Axis.init nz .natural z0 z1,
        den.take (nr * np * nz)⟩,
      List.replicate ns ⟨Axis.init nr .natural r0 r1, Axis.init np .periodic p0 p1, Axis.init nz .natural z0 z1,
        tem.take (nr * np * nz)⟩⟩ := by
  unfold init3D
  rw [copy_eq _ _ hd, copy_eq _ _ ht, copy_eq _ _ ha.ge, copy_eq _ _ hz.ge, copy_eq _ _ hm.ge]
  simp [mapM_const, ← ha, List.take_of_length_le (Nat.le_of_eq (hz.trans ha.symm)),
    List.take_of_length_le (Nat.le_of_eq (hm.trans ha.symm))]

theorem getD_take {A : Type} (l : List A) (n i : Nat) (d : A) (h : i < n) : (l.take n).getD i d = l.getD i d := by
  simp [List.getD_eq_getElem?_getD, List.getElem?_take, h]

/-- `neutral` evaluations that succeed do not touch the fallback value. -/
theorem finish_ok (line file : Nat) (v : K) (out : Nat → Option K) :
    fallback v (finish line file (0, out)) = (0, out) := by simp [finish, fallback]

theorem fallback_err (line file m : Nat) (hm : 0 < m) (v : K) (out : Nat → Option K) :
    fallback v (finish line file (m, out)) = (Error.raise 1 line file, Function.update out 0 (some v)) := by
  have := raise_ne 1 line file (by norm_num)
  simp [finish, fallback, hm.ne', this]

theorem cell1_congr {n : Nat} {t u : Nat → K} {i : Nat} {d : K} (hi : i < n) (h : ∀ j < n, t j = u j) :
    cell1 n t i d = cell1 n u i d := by
  unfold cell1
  rw [h i hi, h _ (Nat.mod_lt _ (by omega))]

theorem cell3_congr {nx ny nz : Nat} {t u : Nat → Nat → Nat → K} {i j k : Nat} {d e f : K} (hi : i < nx) (hj : j < ny)
    (hk : k < nz) (h : ∀ i < nx, ∀ j < ny, ∀ k < nz, t i j k = u i j k) :
    cell3 nx ny nz t i j k d e f = cell3 nx ny nz u i j k d e f := by
  unfold cell3
  exact cell1_congr hj fun j hj => cell1_congr hk fun k hk => cell1_congr hi fun i hi => h i hi j hj k hk

/-! ### The property -/

/-- The table of species `s`: the tables follow each other in the array. -/
def table1 (tab : List K) (n s : Nat) : Nat → K := fun i => tab.getD (s * n + i) 0

/-- The same in three dimensions; the index of R runs fastest, then that of z. -/
def table3 (tab : List K) (nr np nz s : Nat) : Nat → Nat → Nat → K :=
  fun i j k => tab.getD (s * (nr * np * nz) + (j * nz * nr + k * nr + i)) 0

section one
variable {n ns : Nat} {lo hi rho d r phi z : K} {i : Nat} {an zn mx : List Int} {den tem : List K}

/-- In one dimension, inside the grid, all species are evaluated without error; the value of a species is the linear
interpolation of its table.  `partial`: only for species with the same table as the first one. -/
theorem density1_partial (hr : lo < hi) (ha : an.length = ns) (hz : zn.length = ns) (hm : mx.length = ns)
    (hd : den.length = ns * n) (ht : tem.length = ns * n) (h0 : 1 ≤ ns) (hon : On (Axis.init n .natural lo hi) rho i d)
    (out : Nat → Option K) :
    ∃ data res, init1D n lo hi ns an zn mx den tem = some data ∧ evalN0 (.d1 data) rho r phi z out = some (0, res) ∧
      (∀ s < ns, (∀ j < n, table1 den n s j = table1 den n 0 j) → res s = some (cell1 n (table1 den n s) i d)) ∧
      ∀ s, ns ≤ s → res s = out s := by
  have hd' : n ≤ den.length := hd ▸ Nat.le_mul_of_pos_left _ h0
  have ht' : n ≤ tem.length := ht ▸ Nat.le_mul_of_pos_left _ h0
  have hl : (den.take n).length = n := by simp [hd']
  refine ⟨_, fun s => if s < ns then some (cell1 n (fun i => (den.take n).getD i 0) i d) else out s, init1_eq ha hz hm hd' ht', ?_, ?_⟩
  · unfold evalN0 evalN01D
    dsimp only
    rw [loop_ok (fun l : Lin1 K => eval1D l.x l.c rho) _ _ (by exact C35.value1 hr hl hon) ns ns le_rfl]
    rfl
  · refine ⟨fun s hs heq => ?_, fun s hs => if_neg (by omega)⟩
    show (if s < ns then _ else _) = _
    rw [if_pos hs, cell1_congr hon.lt heq]
    congr 1
    refine cell1_congr hon.lt fun j hj => ?_
    rw [getD_take _ _ _ _ hj]
    simp [table1]

/-- The same for the temperature. -/
theorem temperature1_partial (hr : lo < hi) (ha : an.length = ns) (hz : zn.length = ns) (hm : mx.length = ns)
    (hd : den.length = ns * n) (ht : tem.length = ns * n) (h0 : 1 ≤ ns) (hon : On (Axis.init n .natural lo hi) rho i d)
    (out : Nat → Option K) :
    ∃ data res, init1D n lo hi ns an zn mx den tem = some data ∧ evalT0 (.d1 data) rho r phi z out = some (0, res) ∧
      (∀ s < ns, (∀ j < n, table1 tem n s j = table1 tem n 0 j) → res s = some (cell1 n (table1 tem n s) i d)) ∧
      ∀ s, ns ≤ s → res s = out s := by
  have hd' : n ≤ den.length := hd ▸ Nat.le_mul_of_pos_left _ h0
  have ht' : n ≤ tem.length := ht ▸ Nat.le_mul_of_pos_left _ h0
  have hl : (tem.take n).length = n := by simp [ht']
  refine ⟨_, fun s => if s < ns then some (cell1 n (fun i => (tem.take n).getD i 0) i d) else out s, init1_eq ha hz hm hd' ht', ?_, ?_⟩
  · unfold evalT0 evalT01D
    dsimp only
    rw [loop_ok (fun l : Lin1 K => eval1D l.x l.c rho) _ _ (by exact C35.value1 hr hl hon) ns ns le_rfl]
    rfl
  · refine ⟨fun s hs heq => ?_, fun s hs => if_neg (by omega)⟩
    show (if s < ns then _ else _) = _
    rw [if_pos hs, cell1_congr hon.lt heq]
    congr 1
    refine cell1_congr hon.lt fun j hj => ?_
    rw [getD_take _ _ _ _ hj]
    simp [table1]

/-- With a single species there is no condition on the tables. -/
theorem single (hr : lo < hi) (hd : den.length = n) (ht : tem.length = n)
    (hon : On (Axis.init n .natural lo hi) rho i d) (a q m : Int) (out : Nat → Option K) :
    ∃ data, init1D n lo hi 1 [a] [q] [m] den tem = some data ∧
      (∃ res, evalN0 (.d1 data) rho r phi z out = some (0, res) ∧ res 0 = some (cell1 n (fun i => den.getD i 0) i d)) ∧
      ∃ res, evalT0 (.d1 data) rho r phi z out = some (0, res) ∧ res 0 = some (cell1 n (fun i => tem.getD i 0) i d) := by
  obtain ⟨data, res, e1, e2, e3, -⟩ := density1_partial (ns := 1) (an := [a]) (zn := [q]) (mx := [m]) (den := den)
    (tem := tem) (r := r) (phi := phi) (z := z) hr rfl rfl rfl (by omega) (by omega) le_rfl hon out
  obtain ⟨data', res', e1', e2', e3', -⟩ := temperature1_partial (ns := 1) (an := [a]) (zn := [q]) (mx := [m]) (den := den)
    (tem := tem) (r := r) (phi := phi) (z := z) hr rfl rfl rfl (by omega) (by omega) le_rfl hon out
  obtain rfl : data' = data := by rw [e1] at e1'; exact (Option.some.inj e1').symm
  refine ⟨_, e1, ⟨res, e2, ?_⟩, res', e2', ?_⟩
  · rw [e3 0 (by norm_num) fun _ _ => rfl, show table1 den n 0 = fun i => den.getD i 0 by funext i; simp [table1]]
  · rw [e3' 0 (by norm_num) fun _ _ => rfl, show table1 tem n 0 = fun i => tem.getD i 0 by funext i; simp [table1]]

/-- Outside the grid an error is returned; the value of the first species is zero density and unit temperature.  `partial`:
the values of the other species are whatever the array had before. -/
theorem outside1_partial (ha : an.length = ns) (hz : zn.length = ns) (hm : mx.length = ns)
    (hd : den.length = ns * n) (ht : tem.length = ns * n) (h0 : 1 ≤ ns) (ho : rho < lo ∨ hi < rho) (out : Nat → Option K) :
    ∃ data, init1D n lo hi ns an zn mx den tem = some data ∧
      (∃ e res, evalN0 (.d1 data) rho r phi z out = some (e, res) ∧ e ≠ 0 ∧ res 0 = some 0 ∧ ∀ s, s ≠ 0 → res s = out s) ∧
      ∃ e res, evalT0 (.d1 data) rho r phi z out = some (e, res) ∧ e ≠ 0 ∧ res 0 = some 1 ∧ ∀ s, s ≠ 0 → res s = out s := by
  have hd' : n ≤ den.length := hd ▸ Nat.le_mul_of_pos_left _ h0
  have ht' : n ≤ tem.length := ht ▸ Nat.le_mul_of_pos_left _ h0
  refine ⟨_, init1_eq ha hz hm hd' ht', ⟨_, _, ?_, raise_ne 1 120 8 (by norm_num), Function.update_self _ _ out, ?_⟩,
    _, _, ?_, raise_ne 1 146 8 (by norm_num), Function.update_self _ _ out, ?_⟩
  · unfold evalN0 evalN01D
    dsimp only
    rw [loop_err (fun l : Lin1 K => eval1D l.x l.c rho) _ (by exact C35.outside1 ho) ns ns le_rfl, Option.map_some, Option.map_some, fallback_err _ _ _ h0]
  · exact fun s hs => Function.update_of_ne hs _ _
  · unfold evalT0 evalT01D
    dsimp only
    rw [loop_err (fun l : Lin1 K => eval1D l.x l.c rho) _ (by exact C35.outside1 ho) ns ns le_rfl, Option.map_some, Option.map_some, fallback_err _ _ _ h0]
  · exact fun s hs => Function.update_of_ne hs _ _

end one

section three
variable {nr np nz ns : Nat} {r0 r1 p0 p1 z0 z1 rho d e f r phi z : K} {i j k : Nat} {an zn mx : List Int} {den tem : List K}

/-- In three dimensions likewise; the toroidal angle is taken modulo the period. -/
theorem density3_partial (hr : r0 < r1) (hp : p0 < p1) (hzz : z0 < z1) (ha : an.length = ns) (hz : zn.length = ns)
    (hm : mx.length = ns) (hd : den.length = ns * (nr * np * nz)) (ht : tem.length = ns * (nr * np * nz)) (h0 : 1 ≤ ns)
    (ox : On (Axis.init nr .natural r0 r1) r i d) (oy : On (Axis.init np .periodic p0 p1) phi j e)
    (oz : On (Axis.init nz .natural z0 z1) z k f) (out : Nat → Option K) :
    ∃ data res, init3D nr r0 r1 np p0 p1 nz z0 z1 ns an zn mx den tem = some data ∧
      evalN0 (.d3 data) rho r phi z out = some (0, res) ∧
      (∀ s < ns, (∀ i < nr, ∀ j < np, ∀ k < nz, table3 den nr np nz s i j k = table3 den nr np nz 0 i j k) →
        res s = some (cell3 nr np nz (table3 den nr np nz s) i j k d e f)) ∧
      ∀ s, ns ≤ s → res s = out s := by
  have hd' : nr * np * nz ≤ den.length := hd ▸ Nat.le_mul_of_pos_left _ h0
  have ht' : nr * np * nz ≤ tem.length := ht ▸ Nat.le_mul_of_pos_left _ h0
  have hl : (den.take (nr * np * nz)).length = nr * np * nz := by simp [hd']
  refine ⟨_, fun s => if s < ns then some (cell3 nr np nz (fun i j k => (den.take (nr * np * nz)).getD (j * nz * nr + k * nr + i) 0)
    i j k d e f) else out s, init3_eq ha hz hm hd' ht', ?_, ?_⟩
  · unfold evalN0 evalN03D
    dsimp only
    rw [loop_ok (fun l : Lin3 K => eval3D l.x l.y l.z l.c r phi z) _ _ (by exact C35.value3 hr hp hzz hl ox oy oz) ns ns le_rfl]
    rfl
  · refine ⟨fun s hs heq => ?_, fun s hs => if_neg (by omega)⟩
    show (if s < ns then _ else _) = _
    rw [if_pos hs, cell3_congr ox.lt oy.lt oz.lt heq]
    congr 1
    refine cell3_congr ox.lt oy.lt oz.lt fun a ha b hb c hc => ?_
    rw [getD_take]
    · simp [table3]
    · calc b * nz * nr + c * nr + a < b * nz * nr + (c + 1) * nr := by nlinarith
        _ ≤ b * nz * nr + nz * nr := by nlinarith
        _ = (b + 1) * (nz * nr) := by ring
        _ ≤ np * (nz * nr) := Nat.mul_le_mul_right _ hb
        _ = nr * np * nz := by ring

theorem temperature3_partial (hr : r0 < r1) (hp : p0 < p1) (hzz : z0 < z1) (ha : an.length = ns) (hz : zn.length = ns)
    (hm : mx.length = ns) (hd : den.length = ns * (nr * np * nz)) (ht : tem.length = ns * (nr * np * nz)) (h0 : 1 ≤ ns)
    (ox : On (Axis.init nr .natural r0 r1) r i d) (oy : On (Axis.init np .periodic p0 p1) phi j e)
    (oz : On (Axis.init nz .natural z0 z1) z k f) (out : Nat → Option K) :
    ∃ data res, init3D nr r0 r1 np p0 p1 nz z0 z1 ns an zn mx den tem = some data ∧
      evalT0 (.d3 data) rho r phi z out = some (0, res) ∧
      (∀ s < ns, (∀ i < nr, ∀ j < np, ∀ k < nz, table3 tem nr np nz s i j k = table3 tem nr np nz 0 i j k) →
        res s = some (cell3 nr np nz (table3 tem nr np nz s) i j k d e f)) ∧
      ∀ s, ns ≤ s → res s = out s := by
  have hd' : nr * np * nz ≤ den.length := hd ▸ Nat.le_mul_of_pos_left _ h0
  have ht' : nr * np * nz ≤ tem.length := ht ▸ Nat.le_mul_of_pos_left _ h0
  have hl : (tem.take (nr * np * nz)).length = nr * np * nz := by simp [ht']
  refine ⟨_, fun s => if s < ns then some (cell3 nr np nz (fun i j k => (tem.take (nr * np * nz)).getD (j * nz * nr + k * nr + i) 0)
    i j k d e f) else out s, init3_eq ha hz hm hd' ht', ?_, ?_⟩
  · unfold evalT0 evalT03D
    dsimp only
    rw [loop_ok (fun l : Lin3 K => eval3D l.x l.y l.z l.c r phi z) _ _ (by exact C35.value3 hr hp hzz hl ox oy oz) ns ns le_rfl]
    rfl
  · refine ⟨fun s hs heq => ?_, fun s hs => if_neg (by omega)⟩
    show (if s < ns then _ else _) = _
    rw [if_pos hs, cell3_congr ox.lt oy.lt oz.lt heq]
    congr 1
    refine cell3_congr ox.lt oy.lt oz.lt fun a ha b hb c hc => ?_
    rw [getD_take]
    · simp [table3]
    · calc b * nz * nr + c * nr + a < b * nz * nr + (c + 1) * nr := by nlinarith
        _ ≤ b * nz * nr + nz * nr := by nlinarith
        _ = (b + 1) * (nz * nr) := by ring
        _ ≤ np * (nz * nr) := Nat.mul_le_mul_right _ hb
        _ = nr * np * nz := by ring

theorem outside3_partial (ha : an.length = ns) (hz : zn.length = ns)
    (hm : mx.length = ns) (hd : den.length = ns * (nr * np * nz)) (ht : tem.length = ns * (nr * np * nz)) (h0 : 1 ≤ ns)
    (ho : r < r0 ∨ r1 < r ∨ z < z0 ∨ z1 < z) (out : Nat → Option K) :
    ∃ data, init3D nr r0 r1 np p0 p1 nz z0 z1 ns an zn mx den tem = some data ∧
      (∃ e res, evalN0 (.d3 data) rho r phi z out = some (e, res) ∧ e ≠ 0 ∧ res 0 = some 0 ∧ ∀ s, s ≠ 0 → res s = out s) ∧
      ∃ e res, evalT0 (.d3 data) rho r phi z out = some (e, res) ∧ e ≠ 0 ∧ res 0 = some 1 ∧ ∀ s, s ≠ 0 → res s = out s := by
  have hd' : nr * np * nz ≤ den.length := hd ▸ Nat.le_mul_of_pos_left _ h0
  have ht' : nr * np * nz ≤ tem.length := ht ▸ Nat.le_mul_of_pos_left _ h0
  have key : ∀ c : List K, eval3D (Axis.init nr .natural r0 r1) (Axis.init np .periodic p0 p1) (Axis.init nz .natural z0 z1) c
      r phi z = some none := fun c => by
    rcases ho with h | h | h | h
    · exact C35.outside3 (Or.inl ⟨rfl, Or.inl h⟩)
    · exact C35.outside3 (Or.inl ⟨rfl, Or.inr h⟩)
    · exact C35.outside3 (Or.inr (Or.inr ⟨rfl, Or.inl h⟩))
    · exact C35.outside3 (Or.inr (Or.inr ⟨rfl, Or.inr h⟩))
  refine ⟨_, init3_eq ha hz hm hd' ht', ⟨_, _, ?_, raise_ne 1 124 9 (by norm_num), Function.update_self _ _ out, ?_⟩,
    _, _, ?_, raise_ne 1 152 9 (by norm_num), Function.update_self _ _ out, ?_⟩
  · unfold evalN0 evalN03D
    dsimp only
    rw [loop_err (fun l : Lin3 K => eval3D l.x l.y l.z l.c r phi z) _ (by exact key _) ns ns le_rfl, Option.map_some, Option.map_some, fallback_err _ _ _ h0]
  · exact fun s hs => Function.update_of_ne hs _ _
  · unfold evalT0 evalT03D
    dsimp only
    rw [loop_err (fun l : Lin3 K => eval3D l.x l.y l.z l.c r phi z) _ (by exact key _) ns ns le_rfl, Option.map_some, Option.map_some, fallback_err _ _ _ h0]
  · exact fun s hs => Function.update_of_ne hs _ _

end three

/-- **Violation.** With two species the second one gets the density and the temperature of the first: the table of the second
species is 10 everywhere and the value returned is 1. -/
theorem species_fails : ∃ data res res', init1D 2 (0 : ℚ) 1 2 [1, 2] [1, 1] [1, 1] [1, 1, 10, 10] [1, 1, 10, 10] = some data ∧
    evalN0 (.d1 data) (1 / 2) 0 0 0 (fun _ => none) = some (0, res) ∧ res 1 = some 1 ∧
    evalT0 (.d1 data) (1 / 2) 0 0 0 (fun _ => none) = some (0, res') ∧ res' 1 = some 1 ∧
    cell1 2 (table1 [1, 1, 10, 10] 2 1) 0 (1 / 2 : ℚ) = 10 := by
  have hon : On (Axis.init 2 .natural (0 : ℚ) 1) (1 / 2) 0 (1 / 2) :=
    ⟨by norm_num [Axis.init], fun _ => by norm_num [Axis.init], by norm_num, by norm_num, 0, fun _ => rfl, by
      norm_num [Axis.init, gridOf]⟩
  have v := C35.value1 (c := [1, 1]) (by norm_num) rfl hon
  refine ⟨_, fun s => if s < 2 then some (cell1 2 (fun i => [1, 1].getD i 0) 0 (1 / 2)) else none,
    fun s => if s < 2 then some (cell1 2 (fun i => [1, 1].getD i 0) 0 (1 / 2)) else none,
    init1_eq rfl rfl rfl (by norm_num) (by norm_num), ?_, ?_, ?_⟩
  · unfold evalN0 evalN01D
    dsimp only
    rw [show List.take 2 [1, 1, 10, 10] = [(1 : ℚ), 1] from rfl, loop_ok (fun l : Lin1 ℚ => eval1D l.x l.c (1 / 2)) _ _ (by exact v) 2 2 le_rfl]
    rfl
  · norm_num [cell1, line]
  · refine ⟨?_, ?_, ?_⟩
    · unfold evalT0 evalT01D
      dsimp only
      rw [show List.take 2 [1, 1, 10, 10] = [(1 : ℚ), 1] from rfl, loop_ok (fun l : Lin1 ℚ => eval1D l.x l.c (1 / 2)) _ _ (by exact v) 2 2 le_rfl]
      rfl
    · norm_num [cell1, line]
    · norm_num [cell1, line, table1]

/-- **Violation.** After an error the value of the second species may never have been written. -/
theorem fallback_fails : ∃ data e res, init1D 2 (0 : ℚ) 1 2 [1, 2] [1, 1] [1, 1] [1, 1, 10, 10] [1, 1, 10, 10] = some data ∧
    evalN0 (.d1 data) 2 0 0 0 (fun _ => none) = some (e, res) ∧ res 1 = none := by
  obtain ⟨data, h, ⟨e, res, h1, -, -, h2⟩, -⟩ := outside1_partial (K := ℚ) (n := 2) (ns := 2) (lo := 0) (hi := 1) (rho := 2)
    (an := [1, 2]) (zn := [1, 1]) (mx := [1, 1]) (den := [1, 1, 10, 10]) (tem := [1, 1, 10, 10]) (r := 0) (phi := 0) (z := 0)
    rfl rfl rfl rfl rfl (by norm_num) (Or.inr (by norm_num)) (fun _ => none)
  exact ⟨data, e, res, h, h1, h2 1 (by norm_num)⟩

/-- Input of unknown type gives an error and the same values. -/
theorem unknown (rho r phi z : K) (out : Nat → Option K) :
    (∃ e, evalN0 .unknown rho r phi z out = some (e, Function.update out 0 (some 0)) ∧ e ≠ 0) ∧
    ∃ e, evalT0 .unknown rho r phi z out = some (e, Function.update out 0 (some 1)) ∧ e ≠ 0 := by
  have a := raise_ne 2 86 19 (by norm_num)
  have b := raise_ne 2 128 19 (by norm_num)
  exact ⟨⟨_, by simp [evalN0, fallback, a], a⟩, _, by simp [evalT0, fallback, b], b⟩

/-- The number of species is the one given to the initialisation, and mass, charge and type of a species are its own. -/
theorem species {n ns : Nat} {lo hi : K} {an zn mx : List Int} {den tem : List K}
    (ha : an.length = ns) (hz : zn.length = ns) (hm : mx.length = ns)
    (hd : den.length = ns * n) (ht : tem.length = ns * n) (h0 : 1 ≤ ns) :
    ∃ data, init1D n lo hi ns an zn mx den tem = some data ∧ getNSpecies (.d1 data) = ns ∧ data.anum = an ∧
      data.znum = zn ∧ data.maxwellian = mx :=
  ⟨_, init1_eq ha hz hm (hd ▸ Nat.le_mul_of_pos_left _ h0) (ht ▸ Nat.le_mul_of_pos_left _ h0), rfl, rfl, rfl, rfl⟩

/-! ### Memory -/

/-- No block in use has an address that will be given out later. -/
def Fresh (h : Heap) : Prop := h.live.Nodup ∧ ∀ p ∈ h.live, p < h.next

/-- With one species, or none, the blocks in use after releasing the data are those before allocating it.  `partial`: fails for
more species. -/
theorem free_partial (n : Nat) (hn : n ≤ 1) (h : Heap) (hf : Fresh h) :
    ∃ h', free (alloc n h).2 (alloc n h).1 = some h' ∧ h'.live = h.live := by
  have hne : ∀ k, h.next + k ∉ h.live := fun k hk => by have := hf.2 _ hk; omega
  obtain rfl | rfl : n = 0 ∨ n = 1 := by omega
  · refine ⟨⟨h.next + 5, h.live⟩, ?_, rfl⟩
    simp only [alloc, allocTables, Heap.malloc, free, freeTables, Heap.free]
    simp [List.erase_cons, hne, Nat.add_assoc]
  · refine ⟨⟨h.next + 7, h.live⟩, ?_, rfl⟩
    simp only [alloc, allocTables, Heap.malloc, free, freeTables, Heap.free]
    simp [List.erase_cons, hne, Nat.add_assoc]

theorem free_nodup {h h' : Heap} {p : Nat} (hn : h.live.Nodup) (e : h.free p = some h') :
    h'.live.Nodup ∧ p ∉ h'.live ∧ ∀ q, q ∉ h.live → q ∉ h'.live := by
  unfold Heap.free at e
  split_ifs at e with hp
  cases e
  exact ⟨hn.erase _, fun m => (hn.mem_erase_iff.1 m).1 rfl, fun q hq m => hq (List.mem_of_mem_erase m)⟩

theorem malloc_fresh {h : Heap} (hf : Fresh h) : Fresh h.malloc.1 := by
  refine ⟨List.nodup_cons.2 ⟨fun m => ?_, hf.1⟩, fun p hp => ?_⟩
  · have := hf.2 _ m; omega
  · rcases List.mem_cons.1 hp with rfl | hp
    · exact Nat.lt_succ_self _
    · exact (hf.2 _ hp).trans (Nat.lt_succ_self _)

theorem tables_fresh : ∀ (n : Nat) (h : Heap) (a b : List Nat), Fresh h → Fresh (allocTables n h a b).1
  | 0, _, _, _, hf => hf
  | n + 1, h, a, b, hf => tables_fresh n _ _ _ (malloc_fresh (malloc_fresh hf))

/-- **Violation.** With two or more species releasing the data releases the tables of the first species again, which is
undefined. -/
theorem free_fails (n : Nat) (hn : 2 ≤ n) (h : Heap) (hf : Fresh h) : free (alloc n h).2 (alloc n h).1 = none := by
  have hf' : Fresh (alloc n h).1 := by
    unfold alloc
    exact tables_fresh _ _ _ _ (malloc_fresh (malloc_fresh (malloc_fresh (malloc_fresh (malloc_fresh hf)))))
  have hs : (alloc n h).2.nSpecies = n := rfl
  generalize (alloc n h).1 = g at hf'
  generalize (alloc n h).2 = p at hs
  obtain ⟨k, rfl⟩ : ∃ k, n = k + 2 := ⟨n - 2, by omega⟩
  have key : ∀ g : Heap, g.live.Nodup → freeTables p p.nSpecies g = none := by
    intro g hg
    rw [hs]
    unfold freeTables
    cases ea : p.n0c[0]? with
    | none => rfl
    | some a =>
      cases e1 : g.free a with
      | none => simp [e1]
      | some g1 =>
        obtain ⟨n1, m1, -⟩ := free_nodup hg e1
        cases eb : p.t0c[0]? with
        | none => simp [e1]
        | some b =>
          cases e2 : g1.free b with
          | none => simp [e1, e2]
          | some g2 =>
            obtain ⟨n2, -, k2⟩ := free_nodup n1 e2
            have : g2.free a = none := by simp [Heap.free, k2 _ m1]
            simp [e1, e2, freeTables, ea, this]
  unfold free
  cases e1 : g.free p.anum with
  | none => rfl
  | some g1 =>
    have n1 := (free_nodup hf'.1 e1).1
    cases e2 : g1.free p.znum with
    | none => simp [e2]
    | some g2 =>
      have n2 := (free_nodup n1 e2).1
      cases e3 : g2.free p.maxwellian with
      | none => simp [e2, e3]
      | some g3 =>
        have n3 := (free_nodup n2 e3).1
        simp [e2, e3, key g3 n3]

/-! ### The hypotheses can be met -/

example : On (Axis.init 3 .natural (0 : ℚ) 1) (3 / 4) 1 (1 / 2) :=
  ⟨by norm_num, fun _ => by norm_num, by norm_num, by norm_num, 0, fun _ => rfl, by norm_num [gridOf]⟩

example : Fresh ⟨5, [1, 3]⟩ := ⟨by decide, by decide⟩

end Ascot.C105
