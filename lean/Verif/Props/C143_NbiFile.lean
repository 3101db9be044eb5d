import Verif.Model.NbiFile
import Verif.Spec.PyArr
import Verif.Lemmas.PyFile
import Verif.Props.C99_Nbi

set_option linter.unusedSectionVars false
set_option linter.unusedSimpArgs false

/-!
# C143: the injectors of a beam simulation are those written with the Python interface
-/
namespace Ascot.C143
open Ascot.NbiFile Ascot.PyFile
open Ascot.MarkerFile (Group readReals)
open Ascot.Options (Res)
open Ascot.Bbnbi (Injector)

/-! ### Specification -/

/-- An injector as the user describes it: mass in atomic mass units, energy in electron volts, `n` beamlets with positions and
directions. -/
structure Source where
  ids : ℤ
  anum : ℤ
  znum : ℤ
  mass : ℝ
  energy : ℝ
  e0 : ℝ
  e1 : ℝ
  e2 : ℝ
  power : ℝ
  divh : ℝ
  divv : ℝ
  halofrac : ℝ
  haloh : ℝ
  halov : ℝ
  n : ℕ
  pos : ℕ → V3 ℝ
  dir : ℕ → V3 ℝ

/-- The arguments of the Python class. -/
def args (s : Source) : PyInj :=
  ⟨s.ids, s.anum, s.znum, s.mass, s.energy, [s.e0, s.e1, s.e2], s.power, s.divh, s.divv, s.halofrac, s.haloh, s.halov, s.n,
   tab s.n fun j => (s.pos j).x, tab s.n fun j => (s.pos j).y, tab s.n fun j => (s.pos j).z,
   tab s.n fun j => (s.dir j).x, tab s.n fun j => (s.dir j).y, tab s.n fun j => (s.dir j).z⟩

/-- The injector `x` of the simulation is what the user described, in SI units. -/
structure Is (cE cU : ℝ) (s : Source) (x : ℤ × Injector) : Prop where
  ids : x.1 = s.ids
  anum : x.2.anum = s.anum
  znum : x.2.znum = s.znum
  mass : x.2.mass = s.mass * cU
  energy : x.2.energy = s.energy * cE
  e0 : x.2.e0 = s.e0
  e1 : x.2.e1 = s.e1
  e2 : x.2.e2 = s.e2
  power : x.2.power = s.power
  divh : x.2.divH = s.divh
  divv : x.2.divV = s.divv
  halofrac : x.2.haloFrac = s.halofrac
  haloh : s.halofrac ≠ 0 → x.2.haloH = s.haloh
  halov : s.halofrac ≠ 0 → x.2.haloV = s.halov
  /-- Without a halo its divergence is positive and of no importance. -/
  nohalo : s.halofrac = 0 → 0 < x.2.haloH ∧ 0 < x.2.haloV
  count : x.2.beamlets.length = s.n
  beamlets : ∀ j < s.n, x.2.beamlets[j]? = some (s.pos j, s.dir j)

/-! ### Lemmas -/

/-- The data sets of an injector. -/
structure Holds (g : Group) (s : Source) : Prop where
  ids : g.ints "ids" = some [s.ids]
  anum : g.ints "anum" = some [s.anum]
  znum : g.ints "znum" = some [s.znum]
  mass : g.reals "mass" = some [s.mass]
  divh : g.reals "divh" = some [s.divh]
  divv : g.reals "divv" = some [s.divv]
  frac : g.reals "divhalofrac" = some [s.halofrac]
  haloh : g.reals "divhaloh" = some [s.haloh]
  halov : g.reals "divhalov" = some [s.halov]
  energy : g.reals "energy" = some [s.energy]
  efrac : g.reals "efrac" = some [s.e0, s.e1, s.e2]
  power : g.reals "power" = some [s.power]
  n : g.ints "nbeamlet" = some [(s.n : ℤ)]
  x : g.reals "beamletx" = some (tab s.n fun j => (s.pos j).x)
  y : g.reals "beamlety" = some (tab s.n fun j => (s.pos j).y)
  z : g.reals "beamletz" = some (tab s.n fun j => (s.pos j).z)
  dx : g.reals "beamletdx" = some (tab s.n fun j => (s.dir j).x)
  dy : g.reals "beamletdy" = some (tab s.n fun j => (s.dir j).y)
  dz : g.reals "beamletdz" = some (tab s.n fun j => (s.dir j).z)

theorem writeInj_done (s : Source) : ∃ g, writeInj (args s) = .done g ∧ Holds g s := by
  refine ⟨?g, ?a, ?b⟩
  case a =>
    unfold writeInj
    rw [createAll_done (by simp [Elems.length, args])]
  case b => constructor <;> simp [put, empty, args]

theorem writeAll_done (s : ℕ → Source) : ∀ (l i : ℕ) (f : File), ∃ f', writeAll f i ((List.range l).map fun k => args (s (i + k))) = .done f' ∧
    f'.top = f.top ∧ (∀ k ≤ i, f'.inj k = f.inj k) ∧ ∀ k < l, ∃ g, f'.inj (i + k + 1) = some g ∧ Holds g (s (i + k)) := by
  intro l
  induction l with
  | zero => exact fun i f => ⟨f, rfl, rfl, fun _ _ => rfl, fun _ h => absurd h (by omega)⟩
  | succ l ih =>
    intro i f
    rw [List.range_succ_eq_map, List.map_cons, List.map_map]
    obtain ⟨g, hg, hh⟩ := writeInj_done (s (i + 0))
    obtain ⟨f', h1, h2, h3, h4⟩ := ih (i + 1) (f.add (i + 1) g)
    refine ⟨f', ?_, h2, ?_, ?_⟩
    · unfold writeAll
      rw [hg]
      dsimp only
      rw [← h1]
      congr 1
      apply List.map_congr_left
      intro k _
      simp only [Function.comp]
      congr 2
      omega
    · intro k hk
      rw [h3 k (by omega)]
      simp [File.add, show ¬ k = i + 1 by omega]
    · intro k hk
      rcases k with _ | k
      · exact ⟨g, by rw [show i + 0 + 1 = i + 1 from rfl, h3 _ le_rfl]; simp [File.add], hh⟩
      · obtain ⟨g', h5, h6⟩ := h4 k (by omega)
        rw [show i + 1 + k + 1 = i + (k + 1) + 1 by omega, show i + 1 + k = i + (k + 1) by omega] at *
        exact ⟨g', h5, h6⟩

theorem write_done (N : ℕ) (s : ℕ → Source) : ∃ f, write N (tab N fun i => args (s i)) = .done f ∧
    f.top.ints "ninj" = some [(N : ℤ)] ∧ ∀ i < N, ∃ g, f.inj (i + 1) = some g ∧ Holds g (s i) := by
  obtain ⟨f, h1, h2, h3, h4⟩ := writeAll_done s N 0 ⟨put empty ⟨"ninj", [1], .ints [(N : ℤ)]⟩, fun _ => none⟩
  refine ⟨f, ?_, by rw [h2]; simp [put, empty], fun i hi => ?_⟩
  · unfold write
    rw [if_neg (by simp), ← h1]
    simp [tab]
  · simpa using h4 i hi

theorem readReals_three {g : Group} {name : String} {a b c : ℝ} (h : g.reals name = some [a, b, c]) :
    readReals g name 3 = .ok ![a, b, c] := by
  unfold readReals
  rw [h]
  simp only [List.length_cons, List.length_nil, reduceDIte]
  congr 1
  funext i
  fin_cases i <;> rfl

/-- The arrays after `k` passes. -/
structure Inv (cE cU : ℝ) (s : ℕ → Source) (k : ℕ) (a : Arrays) : Prop where
  id : ∀ i < k, a.id i = (s i).ids
  anum : ∀ i < k, a.anum i = (s i).anum
  znum : ∀ i < k, a.znum i = (s i).znum
  n : ∀ i < k, a.nbeamlet i = (s i).n
  mass : ∀ i < k, a.mass i = (s i).mass * cU
  power : ∀ i < k, a.power i = (s i).power
  e0 : ∀ i < k, a.efrac (3 * i + 0) = (s i).e0
  e1 : ∀ i < k, a.efrac (3 * i + 1) = (s i).e1
  e2 : ∀ i < k, a.efrac (3 * i + 2) = (s i).e2
  energy : ∀ i < k, a.energy i = (s i).energy * cE
  divh : ∀ i < k, a.divh i = (s i).divh
  divv : ∀ i < k, a.divv i = (s i).divv
  haloh : ∀ i < k, a.haloh i = (s i).haloh
  halov : ∀ i < k, a.halov i = (s i).halov
  frac : ∀ i < k, a.halofrac i = (s i).halofrac

theorem update_inv {X : Type} {p q : ℕ → X} {k : ℕ} (h : ∀ i < k, p i = q i) {v : X} (hv : v = q k) : ∀ i < k + 1, Function.update p k v i = q i := by
  intro i hi
  rcases Nat.lt_succ_iff_lt_or_eq.1 hi with h' | rfl
  · rw [Function.update_of_ne (by omega), h i h']
  · rw [Function.update_self, hv]

theorem store_efrac {p : ℕ → ℝ} {q : ℕ → ℝ} {k c : ℕ} (hc : c < 3) {v : Fin 3 → ℝ} (h : ∀ i < k, p (3 * i + c) = q i) (hv : v ⟨c, hc⟩ = q k) :
    ∀ i < k + 1, store p (k * 3) v (3 * i + c) = q i := by
  intro i hi
  unfold store
  rcases Nat.lt_succ_iff_lt_or_eq.1 hi with h' | rfl
  · rw [dif_neg (by omega), h i h']
  · rw [dif_pos (by omega), ← hv]
    congr 2
    omega

theorem loop1_ok {cE cU : ℝ} {f : File} {s : ℕ → Source} (junk : Arrays) {N : ℕ} (hf : ∀ i < N, ∃ g, f.inj (i + 1) = some g ∧ Holds g (s i)) :
    ∀ k ≤ N, ∃ a, loop1 cE cU f junk k = .ok a ∧ Inv cE cU s k a := by
  intro k
  induction k with
  | zero => exact fun _ => ⟨junk, rfl, by constructor <;> (intro i hi; omega)⟩
  | succ k ih =>
    intro hk
    obtain ⟨a, h1, h2⟩ := ih (by omega)
    obtain ⟨g, hg, h⟩ := hf k (by omega)
    refine ⟨?aa1, ?pp1, ?qq1⟩
    case pp1 =>
      unfold loop1
      rw [h1, ok_bind]
      unfold pass1 sub
      rw [hg]
      dsimp only
      rw [ok_bind, readInt_eq h.ids, ok_bind, readCount_eq h.n, ok_bind, readReal_eq h.power, ok_bind, readReal_eq h.energy, ok_bind,
        readReals_three h.efrac, ok_bind, readReal_eq h.divh, ok_bind, readReal_eq h.divv, ok_bind, readReal_eq h.frac, ok_bind,
        readReal_eq h.haloh, ok_bind, readReal_eq h.halov, ok_bind, readInt_eq h.anum, ok_bind, readInt_eq h.znum, ok_bind,
        readReal_eq h.mass, ok_bind]
      rfl
    case qq1 =>
      exact
        { id := update_inv h2.id rfl
          anum := update_inv h2.anum rfl
          znum := update_inv h2.znum rfl
          n := update_inv h2.n rfl
          mass := update_inv (q := fun i => (s i).mass * cU) h2.mass rfl
          power := update_inv h2.power rfl
          e0 := store_efrac (q := fun i => (s i).e0) (by omega) h2.e0 rfl
          e1 := store_efrac (q := fun i => (s i).e1) (by omega) h2.e1 rfl
          e2 := store_efrac (q := fun i => (s i).e2) (by omega) h2.e2 rfl
          energy := update_inv (q := fun i => (s i).energy * cE) h2.energy rfl
          divh := update_inv h2.divh rfl
          divv := update_inv h2.divv rfl
          haloh := update_inv h2.haloh rfl
          halov := update_inv h2.halov rfl
          frac := update_inv h2.frac rfl }

/-- Where the beamlets of injector `i` begin. -/
def start (s : ℕ → Source) : ℕ → ℕ
  | 0 => 0
  | i + 1 => start s i + 6 * (s i).n

theorem start_mono (s : ℕ → Source) {i k : ℕ} (h : i < k) : start s i + 6 * (s i).n ≤ start s k := by
  induction k with
  | zero => omega
  | succ k ih =>
    rw [start]
    rcases Nat.lt_succ_iff_lt_or_eq.1 h with h' | rfl
    · have := ih h'; omega
    · rfl

/-- The beamlets of injector `i` are where they belong. -/
structure Block (s : Source) (m : ℕ → ℝ) (idx : ℕ) : Prop where
  x : ∀ j < s.n, m (idx + 0 * s.n + j) = (s.pos j).x
  y : ∀ j < s.n, m (idx + 1 * s.n + j) = (s.pos j).y
  z : ∀ j < s.n, m (idx + 2 * s.n + j) = (s.pos j).z
  dx : ∀ j < s.n, m (idx + 3 * s.n + j) = (s.dir j).x
  dy : ∀ j < s.n, m (idx + 4 * s.n + j) = (s.dir j).y
  dz : ∀ j < s.n, m (idx + 5 * s.n + j) = (s.dir j).z

theorem store_in {a : ℕ → ℝ} {off n : ℕ} (v : ℕ → ℝ) {j : ℕ} (hj : j < n) : store a off (fun i : Fin n => v i) (off + j) = v j := by
  unfold store
  rw [dif_pos (by omega)]
  dsimp only
  congr 1
  omega

theorem store_out {a : ℕ → ℝ} {off n : ℕ} (v : Fin n → ℝ) {i : ℕ} (h : i < off ∨ off + n ≤ i) : store a off v i = a i := by
  unfold store
  rw [dif_neg (by omega)]

theorem loop2_ok {f : File} {s : ℕ → Source} (junk : ℕ → ℝ) {N : ℕ} (hf : ∀ i < N, ∃ g, f.inj (i + 1) = some g ∧ Holds g (s i)) {nb : ℕ → ℕ}
    (hn : ∀ i < N, nb i = (s i).n) :
    ∀ k ≤ N, ∃ m, loop2 f nb junk k = .ok (m, start s k) ∧ ∀ i < k, Block (s i) m (start s i) := by
  intro k
  induction k with
  | zero => exact fun _ => ⟨junk, rfl, fun i hi => by omega⟩
  | succ k ih =>
    intro hk
    obtain ⟨m, h1, h2⟩ := ih (by omega)
    obtain ⟨g, hg, h⟩ := hf k (by omega)
    refine ⟨?aa2, ?pp2, ?qq2⟩
    case pp2 =>
      unfold loop2
      rw [h1, ok_bind]
      unfold pass2 sub
      rw [hg]
      dsimp only
      rw [ok_bind, hn k (by omega), readReals_tab h.x, ok_bind, readReals_tab h.y, ok_bind, readReals_tab h.z, ok_bind, readReals_tab h.dx,
        ok_bind, readReals_tab h.dy, ok_bind, readReals_tab h.dz, ok_bind]
      rfl
    case qq2 =>
      intro i hi
      rcases Nat.lt_succ_iff_lt_or_eq.1 hi with h' | rfl
      · have hs := start_mono s h'
        obtain ⟨p1, p2, p3, p4, p5, p6⟩ := h2 i h'
        constructor <;> intro j hj <;> (repeat rw [store_out _ (by omega)])
        exacts [p1 j hj, p2 j hj, p3 j hj, p4 j hj, p5 j hj, p6 j hj]
      · constructor <;> intro j hj
        · (iterate 5 rw [store_out _ (by omega)])
          exact store_in (fun j => ((s i).pos j).x) hj
        · (iterate 4 rw [store_out _ (by omega)])
          exact store_in (fun j => ((s i).pos j).y) hj
        · (iterate 3 rw [store_out _ (by omega)])
          exact store_in (fun j => ((s i).pos j).z) hj
        · (iterate 2 rw [store_out _ (by omega)])
          exact store_in (fun j => ((s i).dir j).x) hj
        · rw [store_out _ (by omega)]
          exact store_in (fun j => ((s i).dir j).y) hj
        · exact store_in (fun j => ((s i).dir j).z) hj

theorem initOne_is {cE cU : ℝ} {s : ℕ → Source} {N i : ℕ} (hi : i < N) {a : Arrays} (h : Inv cE cU s N a) {m : ℕ → ℝ} {idx : ℕ} (hb : Block (s i) m idx) :
    Is cE cU (s i) (initOne a m idx i) := by
  have hn := h.n i hi
  constructor
  case ids => exact h.id i hi
  case anum => exact h.anum i hi
  case znum => exact h.znum i hi
  case mass => exact h.mass i hi
  case energy => exact h.energy i hi
  case e0 => exact h.e0 i hi
  case e1 => exact h.e1 i hi
  case e2 => exact h.e2 i hi
  case power => exact h.power i hi
  case divh => exact h.divh i hi
  case divv => exact h.divv i hi
  case halofrac => exact h.frac i hi
  case haloh =>
    intro h0
    unfold initOne
    dsimp only
    rw [if_neg (by rw [h.frac i hi]; exact h0), h.haloh i hi]
  case halov =>
    intro h0
    unfold initOne
    dsimp only
    rw [if_neg (by rw [h.frac i hi]; exact h0), h.halov i hi]
  case nohalo =>
    intro h0
    unfold initOne
    dsimp only
    have h1 : a.halofrac i = 0 := by rw [h.frac i hi]; exact h0
    rw [if_pos h1, if_pos h1]
    norm_num
  case count => simp [initOne, hn]
  case beamlets =>
    intro j hj
    simp only [initOne, hn, List.getElem?_map, List.getElem?_range hj, Option.map_some]
    rw [hb.x j hj, hb.y j hj, hb.z j hj, hb.dx j hj, hb.dy j hj, hb.dz j hj]

theorem init_spec {cE cU : ℝ} {s : ℕ → Source} {N : ℕ} {a : Arrays} (h : Inv cE cU s N a) {m : ℕ → ℝ} (hb : ∀ i < N, Block (s i) m (start s i)) :
    ∀ k ≤ N, (init a m k).2 = start s k ∧ (init a m k).1.length = k ∧ ∀ i < k, ∃ x, (init a m k).1[i]? = some x ∧ Is cE cU (s i) x := by
  intro k
  induction k with
  | zero => exact fun _ => ⟨rfl, rfl, fun i hi => by omega⟩
  | succ k ih =>
    intro hk
    obtain ⟨h1, h2, h3⟩ := ih (by omega)
    refine ⟨?_, ?_, ?_⟩
    · simp only [init, start, h1, h.n k (by omega)]
    · simp [init, h2]
    · intro i hi
      simp only [init]
      rcases Nat.lt_succ_iff_lt_or_eq.1 hi with h' | rfl
      · obtain ⟨x, h4, h5⟩ := h3 i h'
        exact ⟨x, by rw [List.getElem?_append_left (by omega), h4], h5⟩
      · refine ⟨initOne a m (start s i) i, ?_, initOne_is (by omega) h (hb i (by omega))⟩
        rw [List.getElem?_append_right (by omega), h2, h1]
        simp

/-! ### The property -/

/-- **From the arguments of the writer to the injectors of the simulation.**  For any number of injectors with any numbers of beamlets the simulation
has the same injectors in the same order, each with the user's numbers, in joule and kilogram, and the user's beamlets in the same
order. -/
theorem injectors (cE cU : ℝ) (junk : Arrays) (junk' : ℕ → ℝ) (N : ℕ) (s : ℕ → Source) :
    ∃ f, write N (tab N fun i => args (s i)) = .done f ∧ ∃ l, readNbi cE cU junk junk' f = .ok l ∧ l.length = N ∧
      ∀ i < N, ∃ x, l[i]? = some x ∧ Is cE cU (s i) x := by
  obtain ⟨f, h1, h2, h3⟩ := write_done N s
  obtain ⟨a, h4, h5⟩ := loop1_ok (cE := cE) (cU := cU) junk h3 N le_rfl
  obtain ⟨m, h6, h7⟩ := loop2_ok junk' h3 h5.n N le_rfl
  obtain ⟨-, h8, h9⟩ := init_spec h5 h7 N le_rfl
  refine ⟨f, h1, _, ?_, h8, h9⟩
  unfold readNbi
  rw [readCount_eq h2, ok_bind, h4, ok_bind, h6, ok_bind]
  rfl

/-- Arrays whose shape does not fit the number of beamlets or of energy fractions are refused when the injector is created, and a wrong
number of injectors when the file is written; everything else is accepted. -/
theorem checked (u : PyInj) : (∃ v, construct u = some v) ↔ u.efrac.length = 3 ∧ u.x.length = u.nbeamlet ∧ u.y.length = u.nbeamlet ∧
    u.z.length = u.nbeamlet ∧ u.dx.length = u.nbeamlet ∧ u.dy.length = u.nbeamlet ∧ u.dz.length = u.nbeamlet := by
  unfold construct
  by_cases h : u.efrac.length = 3
  · by_cases h' : [u.x, u.y, u.z, u.dx, u.dy, u.dz].any (fun v => v.length ≠ u.nbeamlet)
    · simp only [h, ne_eq, not_true_eq_false, if_false, h', if_true, reduceCtorEq, exists_false, false_iff]
      simp only [List.any_cons, List.any_nil, Bool.or_false, Bool.or_eq_true, decide_eq_true_eq] at h'
      rintro ⟨-, h1, h2, h3, h4, h5, h6⟩
      simp [h1, h2, h3, h4, h5, h6] at h'
    · simp only [h, ne_eq, not_true_eq_false, if_false, h']
      simp only [List.any_cons, List.any_nil, Bool.or_false, Bool.or_eq_true, decide_eq_true_eq, not_or, not_not] at h'
      exact ⟨fun _ => ⟨trivial, h'⟩, fun _ => ⟨u, by simp⟩⟩
  · simp [h]

theorem refused (N : ℕ) (us : List PyInj) (h : N ≠ us.length) : write N us = .refused := by
  unfold write
  rw [if_pos h]

/-- What Python accepts is what `args` gives. -/
theorem args_of_construct {u v : PyInj} (h : construct u = some v) : u = v ∧ ∃ s, args s = u := by
  have h' := (checked u).1 ⟨v, h⟩
  obtain ⟨h0, h1, h2, h3, h4, h5, h6⟩ := h'
  have e : u = v := by
    unfold construct at h
    split at h
    · exact absurd h (by simp)
    · split at h
      · exact absurd h (by simp)
      · exact Option.some.inj h
  refine ⟨e, ?_⟩
  have t : ∀ l : List ℝ, l.length = u.nbeamlet → tab u.nbeamlet (fun j => l.getD j 0) = l := by
    intro l hl
    apply List.ext_getElem
    · simp [hl]
    · intro i h1 h2
      simp [tab, h2]
  obtain ⟨ids, anum, znum, mass, energy, efrac, power, divh, divv, fr, hh, hv, n, x, y, z, dx, dy, dz⟩ := u
  obtain ⟨e0, e1, e2, rfl⟩ := List.length_eq_three.1 h0
  refine ⟨⟨ids, anum, znum, mass, energy, e0, e1, e2, power, divh, divv, fr, hh, hv, n, fun j => ⟨x.getD j 0, y.getD j 0, z.getD j 0⟩,
    fun j => ⟨dx.getD j 0, dy.getD j 0, dz.getD j 0⟩⟩, ?_⟩
  unfold args
  dsimp only at *
  rw [t x h1, t y h2, t z h3, t dx h4, t dy h5, t dz h6]

/-- **Markers of the simulation.**  If the directions are unit vectors, and mass and energy are positive, then a marker of injector `i` starts
at one of the user's beamlets, the one selected by the random number, with the energy in electron volts that the user gave or one half or one third of it, and flies in the
direction of the beamlet if both divergence angles are zero. -/
theorem markers {c cE cU : ℝ} (hc : 0 < c) (hE : 0 < cE) (hU : 0 < cU) (junk : Arrays) (junk' : ℕ → ℝ) (N : ℕ) (s : ℕ → Source)
    {i : ℕ} (hi : i < N) (hm : 0 < (s i).mass) (he : 0 ≤ (s i).energy) (hn : 0 < (s i).n) (hd : ∀ j < (s i).n, V3.dot ((s i).dir j) ((s i).dir j) = 1)
    (d : Bbnbi.Draws) (h0 : 0 ≤ d.beamlet) (h1 : d.beamlet < 1) :
    ∃ f, write N (tab N fun i => args (s i)) = .done f ∧ ∃ l, readNbi cE cU junk junk' f = .ok l ∧ ∃ x, l[i]? = some x ∧
      ∃ j < (s i).n, ∃ v, (j : ℝ) ≤ d.beamlet * (s i).n ∧ d.beamlet * (s i).n < j + 1 ∧
        Bbnbi.inject c x.2 d = some ((s i).pos j, v) ∧ Real.sqrt (V3.dot v v) < c ∧
        (∃ q : ℝ, (q = 1 ∨ q = 1 / 2 ∨ q = 1 / 3) ∧
          Physlib.ekinGamma c ((s i).mass * cU) (Physlib.gammaVnorm c (Real.sqrt (V3.dot v v))) / cE = q * (s i).energy) ∧
        (d.h = 0 → d.v = 0 → V3.dot v ((s i).dir j) = Real.sqrt (V3.dot v v)) := by
  obtain ⟨f, hf, l, hl, -, h⟩ := injectors cE cU junk junk' N s
  obtain ⟨x, hx, k⟩ := h i hi
  refine ⟨f, hf, l, hl, x, hx, ?_⟩
  have val : C99.Valid x.2 := by
    refine ⟨by rw [k.mass]; positivity, by rw [k.energy]; positivity, fun e => ?_, fun b hb => ?_⟩
    · have := k.count; rw [e] at this; simp at this; omega
    · obtain ⟨j, hj, e⟩ := List.mem_iff_getElem.1 hb
      have hj' : j < (s i).n := by rw [← k.count]; exact hj
      have := k.beamlets j hj'
      rw [List.getElem?_eq_getElem hj, e] at this
      rw [Option.some.inj this]
      exact hd j hj'
  obtain ⟨j, b, v, e1, e2, e3, e4, e5, e6, e7, -, -⟩ := C99.start hc val d h0 h1
  have hj : j < (s i).n := by
    rw [← k.count]
    exact (List.getElem?_eq_some_iff.1 e1).1
  have hb := k.beamlets j hj
  rw [e1] at hb
  obtain rfl := Option.some.inj hb
  rw [k.count] at e2 e3
  refine ⟨j, hj, v, e2, e3, e4, e5, ?_, fun hh hv => ?_⟩
  · rw [← k.mass, e6]
    rcases C99.sampleEnergy_cases x.2 d.energy with e | e | e <;> rw [e, k.energy]
    · exact ⟨1, by simp, by field_simp⟩
    · exact ⟨1 / 2, by simp, by field_simp⟩
    · exact ⟨1 / 3, by simp, by field_simp⟩
  · rw [e7]
    unfold Bbnbi.divergence
    rw [hh, hv]
    split <;> simp

/-- Two injectors with different numbers of beamlets meet the hypotheses. -/
example : ∃ s : ℕ → Source, (s 0).n = 1 ∧ (s 1).n = 2 ∧ ∀ i < 2, 0 < (s i).mass ∧ 0 ≤ (s i).energy ∧ 0 < (s i).n ∧
    ∀ j < (s i).n, V3.dot ((s i).dir j) ((s i).dir j) = 1 :=
  ⟨fun i => ⟨i, 2, 1, 2, 1e5, 0.8, 0.1, 0.1, 1e6, 0.01, 0.01, 0, 0, 0, i + 1, fun j => ⟨6, j, 0⟩, fun _ => ⟨-1, 0, 0⟩⟩, rfl, rfl,
    fun i _ => ⟨by norm_num, by norm_num, Nat.succ_pos _, fun j _ => by norm_num [V3.dot]⟩⟩

end Ascot.C143
