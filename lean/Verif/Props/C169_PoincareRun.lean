import Verif.Lemmas.PoincareRun

set_option linter.unusedSectionVars false
set_option linter.unusedSimpArgs false

/-!
# C169: the memory of a Poincare run

A Poincare run keeps all crossings of the planes: the number of points that the template reserves for each marker suffices for the
numbers of orbits that it asks for.
-/
namespace Ascot.C169
open Ascot.Orbit Ascot.EndCond Ascot.PoincareRun

/-- All crossings of a field line, in the order in which they are made. -/
noncomputable def crossings (d : Opts ℝ) (e : Env ℝ) (t : Template) (id index : ℕ) (B : Lane ℝ → ℝ × ℝ × ℝ) (p0 : Lane ℝ)
    (path : List (Lane ℝ)) : List (Pt ℝ → Pt ℝ) :=
  (follow (limits d t) e p0 path).flatMap fun s =>
    poincareRecords Real.pi .ml (planes t) (toMrk id index B s.1) (toMrk id index B s.2)

/-- A field line as the code follows it: it begins with the angles that the code gives it, goes on in one direction in both angles, in
steps of at most half a turn, and every step has a length. -/
structure Line (p0 : Lane ℝ) (path : List (Lane ℝ)) : Prop where
  phi : OneWay (fun l => l.phi) p0 path
  theta : OneWay (fun l => l.theta) p0 path
  start_phi : 0 ≤ p0.phi ∧ p0.phi < 2 * Real.pi
  start_theta : -Real.pi ≤ p0.theta ∧ p0.theta ≤ Real.pi
  small : Path (fun i f => |f.phi - i.phi| ≤ Real.pi ∧ |f.theta - i.theta| ≤ Real.pi) p0 path
  mileage : Path (fun i f => f.mileage ≠ i.mileage) p0 path
  running : ∀ f ∈ path, f.running = true

/-- The planes are angles between zero and a full turn, and at least one orbit of each kind is asked for. -/
structure Asked (t : Template) : Prop where
  tor : ∀ a ∈ t.tor, 0 ≤ a ∧ a < 2 * Real.pi
  pol : ∀ a ∈ t.pol, 0 ≤ a ∧ a < 2 * Real.pi
  ntorb : 1 ≤ t.ntorb
  nporb : 1 ≤ t.nporb

theorem follow_path {R : Lane ℝ → Lane ℝ → Prop} {o : Opts ℝ} {e : Env ℝ} {path : List (Lane ℝ)} {p0 : Lane ℝ} (h : Path R p0 path) :
    ∀ s ∈ follow o e p0 path, R s.2 s.1 := by
  induction path generalizing p0 with
  | nil => simp [follow]
  | cons f r ih =>
    intro s hs
    rw [follow] at hs
    rcases List.mem_cons.1 hs with rfl | hs
    · exact h.1
    · split_ifs at hs with hr
      · exact ih h.2 s hs
      · simp at hs

/-- All steps are recorded in the memory of the marker. -/
theorem run_buf {d : Opts ℝ} {e : Env ℝ} {t : Template} {id index : ℕ} {B : Lane ℝ → ℝ × ℝ × ℝ} {p0 : Lane ℝ} {path : List (Lane ℝ)}
    (hid : 0 < id) (hN : 0 < npoint t) (hm : Path (fun i f => f.mileage ≠ i.mileage) p0 path) {k : ℕ} {g : Pt ℝ → Pt ℝ}
    (hk : (crossings d e t id index B p0 path)[k]? = some g) (hl : (crossings d e t id index B p0 path).length ≤ k + npoint t) :
    ∃ o, (run d e t id index B p0 path).buf (index * npoint t + k % npoint t) = g o := by
  have key := C28.poincare_ring Real.pi (npoint t) hN (planes t)
    ((follow (limits d t) e p0 path).map fun s => (Mode.ml, toMrk id index B s.1, toMrk id index B s.2)) index k g
  dsimp only at key
  have hfilter : (((follow (limits d t) e p0 path).map fun s => (Mode.ml, toMrk id index B s.1, toMrk id index B s.2)).filter
      (fun x => x.2.1.id > 0 ∧ x.2.1.mileage ≠ x.2.2.mileage ∧ x.2.1.index = index)) =
      (follow (limits d t) e p0 path).map fun s => (Mode.ml, toMrk id index B s.1, toMrk id index B s.2) := by
    rw [List.filter_eq_self]
    intro x hx
    obtain ⟨s, hs, rfl⟩ := List.mem_map.1 hx
    exact decide_eq_true ⟨hid, follow_path hm s hs, rfl⟩
  rw [hfilter, List.flatMap_map, List.foldl_map] at key
  exact key hk hl

/-- **Enough points.**  If the line makes at most `m` toroidal and `m'` poloidal turns, and two more of each fit in the memory for each
plane, every crossing is kept, at its place in the order of the crossings. -/
theorem kept {d : Opts ℝ} {e : Env ℝ} {t : Template} {id index : ℕ} {B : Lane ℝ → ℝ × ℝ × ℝ} {p0 : Lane ℝ} {path : List (Lane ℝ)}
    (hid : 0 < id) (ht : Asked t) (hl : Line p0 path) {m m' : ℕ} (hm : 1 ≤ m) (hm' : 1 ≤ m')
    (hphi : ∀ s ∈ follow (limits d t) e p0 path, |s.1.phi| ≤ 2 * Real.pi * m + Real.pi)
    (htheta : ∀ s ∈ follow (limits d t) e p0 path, |s.1.theta| ≤ 2 * Real.pi * m' + Real.pi)
    (hN : (m + 2) * t.tor.length + (m' + 2) * t.pol.length ≤ npoint t) {k : ℕ} {g : Pt ℝ → Pt ℝ}
    (hk : (crossings d e t id index B p0 path)[k]? = some g) :
    k < npoint t ∧ ∃ o, (run d e t id index B p0 path).buf (index * npoint t + k) = g o := by
  have hp := Real.pi_pos
  have hlen : (crossings d e t id index B p0 path).length ≤ npoint t := by
    rw [crossings, flat_length]
    refine le_trans (Nat.add_le_add (sum_le _ _ (m + 2) ?_) (sum_le _ _ (m' + 2) ?_)) hN
    · intro a ha
      exact count_plane hl.phi (ht.tor a ha).1 (ht.tor a ha).2 (by have := hl.start_phi.1; linarith) hl.start_phi.2 hm hphi
    · intro a ha
      exact count_plane hl.theta (ht.pol a ha).1 (ht.pol a ha).2 hl.start_theta.1 (by have := hl.start_theta.2; linarith) hm' htheta
  have hk' : k < (crossings d e t id index B p0 path).length := by
    rw [List.getElem?_eq_some_iff] at hk
    exact hk.1
  have hkN : k < npoint t := by omega
  refine ⟨hkN, ?_⟩
  have := run_buf hid (by omega) hl.mileage hk (by omega)
  rwa [Nat.mod_eq_of_lt hkN] at this

/-- A line that is stopped by either limit stays within the limits but for the last step. -/
theorem bounded {d : Opts ℝ} {e : Env ℝ} {t : Template} (hb : t.both = false) {path : List (Lane ℝ)} {p0 : Lane ℝ}
    (hr : ∀ f ∈ path, f.running = true)
    (hs : Path (fun i f => |f.phi - i.phi| ≤ Real.pi ∧ |f.theta - i.theta| ≤ Real.pi) p0 path)
    (h1 : |p0.phi| ≤ 2 * Real.pi * t.ntorb) (h2 : |p0.theta| ≤ 2 * Real.pi * t.nporb) :
    ∀ s ∈ follow (limits d t) e p0 path,
      |s.1.phi| ≤ 2 * Real.pi * t.ntorb + Real.pi ∧ |s.1.theta| ≤ 2 * Real.pi * t.nporb + Real.pi := by
  induction path generalizing p0 with
  | nil => simp [follow]
  | cons f r ih =>
    intro s hs'
    rw [follow] at hs'
    rcases List.mem_cons.1 hs' with rfl | hs'
    · have a1 := abs_sub_abs_le_abs_sub f.phi p0.phi
      have a2 := abs_sub_abs_le_abs_sub f.theta p0.theta
      obtain ⟨b1, b2⟩ := hs.1
      exact ⟨by dsimp only; linarith, by dsimp only; linarith⟩
    · split_ifs at hs' with hrun
      · have hf := hr f List.mem_cons_self
        have hw := within hb hf hrun
        exact ih (fun x hx => hr x (List.mem_cons_of_mem _ hx)) hs.2 hw.1 hw.2 s hs'
      · simp at hs'

/-- If either limit stops the line, there are at most two crossings of each plane more than the points that the template reserves. -/
theorem nearly {d : Opts ℝ} {e : Env ℝ} {t : Template} {id index : ℕ} {B : Lane ℝ → ℝ × ℝ × ℝ} {p0 : Lane ℝ} {path : List (Lane ℝ)}
    (ht : Asked t) (hb : t.both = false) (hl : Line p0 path) :
    (crossings d e t id index B p0 path).length ≤ npoint t + 2 * (t.tor.length + t.pol.length) := by
  have hp := Real.pi_pos
  have n1 : (1 : ℝ) ≤ t.ntorb := by exact_mod_cast ht.ntorb
  have n2 : (1 : ℝ) ≤ t.nporb := by exact_mod_cast ht.nporb
  have m1 : Real.pi * 1 ≤ Real.pi * t.ntorb := mul_le_mul_of_nonneg_left n1 hp.le
  have m2 : Real.pi * 1 ≤ Real.pi * t.nporb := mul_le_mul_of_nonneg_left n2 hp.le
  have hbd := bounded (d := d) (e := e) hb hl.running hl.small
    (abs_le.2 ⟨by have := hl.start_phi.1; linarith, by have := hl.start_phi.2; linarith⟩)
    (abs_le.2 ⟨by have := hl.start_theta.1; linarith, by have := hl.start_theta.2; linarith⟩)
  rw [crossings, flat_length]
  have s1 := sum_le t.tor (fun a => ((follow (limits d t) e p0 path).map fun s => cross a s.1.phi s.2.phi).sum) (t.ntorb + 2)
    (fun a ha => count_plane hl.phi (ht.tor a ha).1 (ht.tor a ha).2 (by have := hl.start_phi.1; linarith) hl.start_phi.2 ht.ntorb
      (fun s hs => (hbd s hs).1))
  have s2 := sum_le t.pol (fun a => ((follow (limits d t) e p0 path).map fun s => cross a s.1.theta s.2.theta).sum) (t.nporb + 2)
    (fun a ha => count_plane hl.theta (ht.pol a ha).1 (ht.pol a ha).2 hl.start_theta.1 (by have := hl.start_theta.2; linarith) ht.nporb
      (fun s hs => (hbd s hs).2))
  rw [Nat.add_mul] at s1 s2
  unfold npoint
  omega

/-- **Stopped by the toroidal limit.**  If either limit stops the line and it has made at most `m'` poloidal turns, where enough poloidal
orbits are left (with one plane of each kind: four), every crossing is kept. -/
theorem kept_toroidal {d : Opts ℝ} {e : Env ℝ} {t : Template} {id index : ℕ} {B : Lane ℝ → ℝ × ℝ × ℝ} {p0 : Lane ℝ}
    {path : List (Lane ℝ)} (hid : 0 < id) (ht : Asked t) (hb : t.both = false) (hl : Line p0 path) {m' : ℕ} (hm' : 1 ≤ m')
    (htheta : ∀ s ∈ follow (limits d t) e p0 path, |s.1.theta| ≤ 2 * Real.pi * m')
    (hN : 2 * t.tor.length + (m' + 2) * t.pol.length ≤ t.nporb * t.pol.length) {k : ℕ} {g : Pt ℝ → Pt ℝ}
    (hk : (crossings d e t id index B p0 path)[k]? = some g) :
    k < npoint t ∧ ∃ o, (run d e t id index B p0 path).buf (index * npoint t + k) = g o := by
  have hp := Real.pi_pos
  have n1 : (1 : ℝ) ≤ t.ntorb := by exact_mod_cast ht.ntorb
  have n2 : (1 : ℝ) ≤ t.nporb := by exact_mod_cast ht.nporb
  have m1 : Real.pi * 1 ≤ Real.pi * t.ntorb := mul_le_mul_of_nonneg_left n1 hp.le
  have m2 : Real.pi * 1 ≤ Real.pi * t.nporb := mul_le_mul_of_nonneg_left n2 hp.le
  have hbd := bounded (d := d) (e := e) hb hl.running hl.small
    (abs_le.2 ⟨by have := hl.start_phi.1; linarith, by have := hl.start_phi.2; linarith⟩)
    (abs_le.2 ⟨by have := hl.start_theta.1; linarith, by have := hl.start_theta.2; linarith⟩)
  refine kept hid ht hl ht.ntorb hm' (fun s hs => (hbd s hs).1) (fun s hs => by have := htheta s hs; linarith) ?_ hk
  unfold npoint
  rw [Nat.add_mul t.ntorb]
  omega

/-! ## Failures -/

/-- Too many crossings: every place of the memory holds a later crossing than the first, which is lost. -/
theorem lost {d : Opts ℝ} {e : Env ℝ} {t : Template} {id index : ℕ} {B : Lane ℝ → ℝ × ℝ × ℝ} {p0 : Lane ℝ} {path : List (Lane ℝ)}
    (hid : 0 < id) (hN : 0 < npoint t) (hm : Path (fun i f => f.mileage ≠ i.mileage) p0 path)
    (h : npoint t < (crossings d e t id index B p0 path).length) (j : ℕ) (hj : j < npoint t) :
    ∃ k g o, (crossings d e t id index B p0 path).length - npoint t ≤ k ∧ (crossings d e t id index B p0 path)[k]? = some g ∧
      (run d e t id index B p0 path).buf (index * npoint t + j) = g o := by
  set H := (crossings d e t id index B p0 path).length with hH
  set N := npoint t with hNN
  obtain ⟨k, hk1, hk2, hk3⟩ : ∃ k, H - N ≤ k ∧ k < H ∧ k % N = j := by
    have hr := Nat.mod_lt (H - N) hN
    by_cases hle : (H - N) % N ≤ j
    · refine ⟨H - N + (j - (H - N) % N), by omega, by omega, ?_⟩
      rw [Nat.add_mod, Nat.mod_eq_of_lt (show j - (H - N) % N < N by omega)]
      rw [show (H - N) % N + (j - (H - N) % N) = j by omega]
      exact Nat.mod_eq_of_lt hj
    · refine ⟨H - N + (N + j - (H - N) % N), by omega, by omega, ?_⟩
      rw [Nat.add_mod, Nat.mod_eq_of_lt (show N + j - (H - N) % N < N by omega)]
      rw [show (H - N) % N + (N + j - (H - N) % N) = j + N by omega, Nat.add_mod_right]
      exact Nat.mod_eq_of_lt hj
  have hg : (crossings d e t id index B p0 path)[k]? = some ((crossings d e t id index B p0 path)[k]) := List.getElem?_eq_getElem hk2
  obtain ⟨o, ho⟩ := run_buf hid hN hm hg (by omega)
  exact ⟨k, _, o, hk1, hg, by rw [← ho, hk3]⟩

/-- A field line against the field with safety factor `q`: each step is half a toroidal turn. -/
noncomputable def lane (q : ℕ) (k : ℕ) : Lane ℝ where
  time := 0
  mileage := k
  cputime := 0
  r := 6
  phi := Real.pi / 2 - k * Real.pi
  z := 0
  rho := 1 / 2
  theta := (Real.pi / 2 - k * Real.pi) / q
  bounces := 0
  walltile := 0
  endcond := 0
  err := 0
  running := true

/-- The template with the planes at zero. -/
def zero (n : ℕ) (both : Bool) : Template := ⟨[0], [0], n, n, both⟩

/-- No other end condition than the wall, which is not hit. -/
def quiet (d : Opts ℝ) (e : Env ℝ) : Prop := d.active = EndCond.wall ∧ ∀ a b c x y z, (e.wallHit a b c x y z).1 = 0

theorem path_range {R : Lane ℝ → Lane ℝ → Prop} {q : ℕ} (h : ∀ k, R (lane q k) (lane q (k + 1))) (k n : ℕ) :
    Path R (lane q k) ((List.range' (k + 1) n).map (lane q)) := by
  induction n generalizing k with
  | zero => trivial
  | succ n ih =>
    rw [List.range'_succ, List.map_cons]
    exact ⟨h k, ih (k + 1)⟩

theorem lane_line {q : ℕ} (hq : 1 ≤ q) (n : ℕ) : Line (lane q 0) ((List.range' 1 n).map (lane q)) := by
  have hp := Real.pi_pos
  have hq' : (1 : ℝ) ≤ q := by exact_mod_cast hq
  have hdq : Real.pi / q ≤ Real.pi := div_le_self hp.le hq'
  have hdq0 : 0 ≤ Real.pi / q := by positivity
  have e1 : ∀ k : ℕ, (lane q (k + 1)).phi - (lane q k).phi = -Real.pi := by
    intro k
    simp only [lane]
    push_cast
    ring
  have e2 : ∀ k : ℕ, (lane q (k + 1)).theta - (lane q k).theta = -(Real.pi / q) := by
    intro k
    simp only [lane]
    push_cast
    ring
  constructor
  · right
    refine path_range (fun k => ?_) 0 n
    dsimp only
    linarith [e1 k]
  · right
    refine path_range (fun k => ?_) 0 n
    dsimp only
    linarith [e2 k]
  · simp only [lane]
    constructor <;> push_cast <;> linarith
  · have h1 : Real.pi / 2 / q ≤ Real.pi / 2 := div_le_self (by linarith) hq'
    have h2 : 0 ≤ Real.pi / 2 / q := by positivity
    simp only [lane]
    constructor <;> push_cast <;> simp only [zero_mul, sub_zero] <;> linarith
  · refine path_range (fun k => ?_) 0 n
    rw [e1, e2, abs_neg, abs_neg, abs_of_pos hp, abs_of_nonneg hdq0]
    exact ⟨le_refl _, hdq⟩
  · refine path_range (fun k => ?_) 0 n
    simp [lane]
  · intro f hf
    obtain ⟨k, _, rfl⟩ := List.mem_map.1 hf
    rfl

theorem follow_range {o : Opts ℝ} {e : Env ℝ} {q : ℕ} (n k : ℕ)
    (h : ∀ j, k < j → j < k + n → (checkMl o e (lane q (j - 1)) (lane q j)).running = true) :
    follow o e (lane q k) ((List.range' (k + 1) n).map (lane q)) = (List.range' k n).map fun j => (lane q (j + 1), lane q j) := by
  induction n generalizing k with
  | zero => rfl
  | succ n ih =>
    rw [List.range'_succ, List.map_cons, List.range'_succ, List.map_cons, follow]
    congr 1
    cases n with
    | zero => simp [follow]
    | succ n =>
      have := h (k + 1) (by omega) (by omega)
      rw [Nat.add_sub_cancel] at this
      rw [if_pos this]
      exact ih (k + 1) (fun j h1 h2 => h j (by omega) (by omega))

/-- The line is not stopped as long as the limits are not reached: both, if both are asked for. -/
theorem lane_goes_on {d : Opts ℝ} {e : Env ℝ} (hq : quiet d e) {q n : ℕ} {both : Bool} {j : ℕ} (i : Lane ℝ)
    (h2 : |(lane q j).theta| ≤ 2 * Real.pi * n) (h1 : both = false → |(lane q j).phi| ≤ 2 * Real.pi * n) :
    (checkMl (limits d (zero n both)) e i (lane q j)).running = true := by
  obtain ⟨ha, hw⟩ := hq
  have hact : (limits d (zero n both)).active = 0xC8 := by
    show d.active ||| (tormax ||| polmax) = _
    rw [ha]
    decide
  have hm : maxorb (limits d (zero n both)) e false (lane q j) &&& polmax = 0 ∧
      (both = false → maxorb (limits d (zero n both)) e false (lane q j) = 0) := by
    have hp' : ¬ |(lane q j).theta| > (limits d (zero n both)).maxPolorb := not_lt.2 h2
    have hf : ¬ (false = true ∧ (lane q j).bounces - 1 ≥ cInt ((limits d (zero n both)).maxPolorb / e.twoPi)) := by simp
    have e1 : maxorb (limits d (zero n both)) e false (lane q j) =
        if |(lane q j).phi| > (limits d (zero n both)).maxTororb then tormax else 0 := by
      unfold maxorb
      dsimp only
      rw [if_neg hp', if_neg hf, ite_self, if_pos (by rw [hact]; decide)]
    rw [e1]
    constructor
    · split_ifs <;> decide
    · intro hb
      exact if_neg (not_lt.2 (h1 hb))
  unfold checkMl
  rw [if_pos (show (lane q j).running = true from rfl)]
  have t1 : stepTlim (limits d (zero n both)) (lane q j) = lane q j := by
    unfold stepTlim
    rw [if_neg (by rw [hact]; decide)]
  have t2 : stepWall (limits d (zero n both)) e i (lane q j) = lane q j := by
    unfold stepWall
    dsimp only
    rw [hw]
    simp
  have t3 : stepRho (limits d (zero n both)) (lane q j) = lane q j := by
    unfold stepRho
    rw [if_neg (show ¬ (limits d (zero n both)).active &&& rhomax ≠ 0 by rw [hact]; decide),
      if_neg (show ¬ (limits d (zero n both)).active &&& rhomin ≠ 0 by rw [hact]; decide)]
  have t4 : stepOrb (limits d (zero n both)) e false (lane q j) = lane q j := by
    unfold stepOrb
    dsimp only
    rw [if_neg (by rintro ⟨_, _, h⟩; exact h hm.1), if_neg]
    rintro ⟨hb, h⟩
    exact h (hm.2 hb)
  rw [t1, t2, t3, t4]
  unfold stepCpu
  rw [if_neg (by rw [hact]; decide)]
  rfl

/-- Every other step crosses the plane. -/
theorem cross_even (i : ℕ) : cross 0 (Real.pi / 2 - (2 * i + 1 : ℕ) * Real.pi) (Real.pi / 2 - (2 * i : ℕ) * Real.pi) = 1 := by
  have hp := Real.pi_pos
  have hb : C28.Between (Real.pi / 2 - (2 * i : ℕ) * Real.pi) ((0 : ℝ) + ((-(i : ℤ) : ℤ) : ℝ) * (2 * Real.pi))
      (Real.pi / 2 - (2 * i + 1 : ℕ) * Real.pi) := by
    right
    push_cast
    constructor <;> linarith
  have hd : (Real.pi / 2 - (2 * i + 1 : ℕ) * Real.pi) - (Real.pi / 2 - (2 * i : ℕ) * Real.pi) = -Real.pi := by
    push_cast
    ring
  have := C28.plane_value Real.pi hp _ _ 0 le_rfl (by linarith) _ hb (by rw [hd, abs_neg, abs_of_pos hp])
  unfold cross
  rw [if_pos]
  rw [this]
  exact (C28.fraction hb).1

theorem sum_even (c : ℕ → ℕ) (h : ∀ i, c (2 * i) = 1) (n : ℕ) : n + 1 ≤ ((List.range' 0 (2 * n + 1)).map c).sum := by
  rw [← List.range_eq_range']
  induction n with
  | zero =>
    have := h 0
    simp at this
    simp [List.range_succ, this]
  | succ n ih =>
    rw [show 2 * (n + 1) + 1 = 2 * n + 1 + 1 + 1 by ring, List.range_succ, List.range_succ]
    simp only [List.map_append, List.sum_append, List.map_cons, List.map_nil, List.sum_cons, List.sum_nil]
    have := h (n + 1)
    rw [show 2 * (n + 1) = 2 * n + 1 + 1 by ring] at this
    have h2 : 0 ≤ c (2 * n + 1) := Nat.zero_le _
    rw [this]
    omega

/-- **One crossing of each plane is lost.**  For every number of orbits there is a line against the direction of the angles that both
limits allow, with safety factor one, whose first crossings are overwritten. -/
theorem one_over {d : Opts ℝ} {e : Env ℝ} (hq : quiet d e) {n : ℕ} (hn : 1 ≤ n) (id index : ℕ) (B : Lane ℝ → ℝ × ℝ × ℝ) :
    ∃ p0 path, Line p0 path ∧ npoint (zero n false) + 2 ≤ (crossings d e (zero n false) id index B p0 path).length := by
  have hp := Real.pi_pos
  refine ⟨lane 1 0, (List.range' 1 (2 * n + 1)).map (lane 1), lane_line le_rfl _, ?_⟩
  rw [crossings, follow_range (2 * n + 1) 0, flat_length]
  · have s1 := sum_even (fun j => cross 0 (lane 1 (j + 1)).phi (lane 1 j).phi) (fun i => cross_even i) n
    have s2 := sum_even (fun j => cross 0 (lane 1 (j + 1)).theta (lane 1 j).theta) (fun i => by
      have := cross_even i
      simp only [lane, Nat.cast_one, div_one]
      exact this) n
    simp only [zero, npoint, List.map_cons, List.map_nil, List.sum_cons, List.sum_nil, List.map_map, Function.comp_def, List.length_cons,
      List.length_nil]
    omega
  · intro j h0 h1
    have hj : (1 : ℝ) ≤ j := by exact_mod_cast h0
    have hj' : (j : ℝ) ≤ 2 * n := by exact_mod_cast (show j ≤ 2 * n by omega)
    have m1 : 1 * Real.pi ≤ j * Real.pi := mul_le_mul_of_nonneg_right hj hp.le
    have m2 : j * Real.pi ≤ 2 * n * Real.pi := mul_le_mul_of_nonneg_right hj' hp.le
    have hb : |(lane 1 j).phi| ≤ 2 * Real.pi * n := by
      simp only [lane]
      rw [abs_le]
      constructor <;> linarith
    refine lane_goes_on hq _ ?_ (fun _ => hb)
    have : (lane 1 j).theta = (lane 1 j).phi := by simp [lane]
    rw [this]
    exact hb

/-- **Both limits.**  If both limits must be reached, a line with safety factor `q` crosses the toroidal plane `q` times as often as the
template expects. -/
theorem both_over {d : Opts ℝ} {e : Env ℝ} (hq : quiet d e) {n q : ℕ} (hn : 1 ≤ n) (hq1 : 1 ≤ q) (id index : ℕ)
    (B : Lane ℝ → ℝ × ℝ × ℝ) :
    ∃ p0 path, Line p0 path ∧ npoint (zero n true) = 2 * n ∧ q * n + 1 ≤ (crossings d e (zero n true) id index B p0 path).length := by
  have hp := Real.pi_pos
  have hq' : (1 : ℝ) ≤ q := by exact_mod_cast hq1
  refine ⟨lane q 0, (List.range' 1 (2 * (q * n) + 1)).map (lane q), lane_line hq1 _, ?_, ?_⟩
  · simp [npoint, zero]
    omega
  rw [crossings, follow_range (2 * (q * n) + 1) 0, flat_length]
  · have s1 := sum_even (fun j => cross 0 (lane q (j + 1)).phi (lane q j).phi) (fun i => cross_even i) (q * n)
    simp only [zero, List.map_cons, List.map_nil, List.sum_cons, List.sum_nil, List.map_map, Function.comp_def]
    omega
  · intro j h0 h1
    have hj : (1 : ℝ) ≤ j := by exact_mod_cast h0
    have hj' : (j : ℝ) ≤ 2 * (q * n) := by exact_mod_cast (show j ≤ 2 * (q * n) by omega)
    have m1 : 1 * Real.pi ≤ j * Real.pi := mul_le_mul_of_nonneg_right hj hp.le
    have m2 : j * Real.pi ≤ 2 * (q * n) * Real.pi := mul_le_mul_of_nonneg_right hj' hp.le
    refine lane_goes_on hq _ ?_ (fun h => by simp at h)
    simp only [lane]
    rw [abs_div, abs_of_pos (show (0 : ℝ) < q by linarith), div_le_iff₀ (by linarith), abs_le]
    constructor <;> linarith

/-- Both failures lose crossings: with safety factor two or more, and at least one orbit. -/
theorem both_lost {d : Opts ℝ} {e : Env ℝ} (hq : quiet d e) {n q : ℕ} (hn : 1 ≤ n) (hq2 : 2 ≤ q) {id : ℕ} (hid : 0 < id) (index : ℕ)
    (B : Lane ℝ → ℝ × ℝ × ℝ) :
    ∃ p0 path, Line p0 path ∧ ∀ j < npoint (zero n true), ∃ k g o, (q - 2) * n + 1 ≤ k ∧
      (crossings d e (zero n true) id index B p0 path)[k]? = some g ∧
      (run d e (zero n true) id index B p0 path).buf (index * npoint (zero n true) + j) = g o := by
  obtain ⟨p0, path, hl, hN, hc⟩ := both_over hq (q := q) hn (by omega) id index B
  have e1 : (q - 2) * n + 2 * n = q * n := by
    rw [← Nat.add_mul]
    congr 1
    omega
  refine ⟨p0, path, hl, fun j hj => ?_⟩
  obtain ⟨k, g, o, h1, h2, h3⟩ := lost (d := d) (e := e) (B := B) (index := index) hid (by omega) hl.mileage (show npoint (zero n true) < _ by omega) j hj
  exact ⟨k, g, o, by omega, h2, h3⟩

/-- The template with the planes at zero is allowed. -/
example (n : ℕ) (hn : 1 ≤ n) : Asked (zero n false) := by
  have hp := Real.pi_pos
  refine ⟨?_, ?_, hn, hn⟩ <;> intro a ha <;> simp [zero] at ha <;> subst ha <;> exact ⟨le_rfl, by linarith⟩

/-- Default numbers of orbits, and a line with safety factor two: the hypotheses of `kept_toroidal` hold. -/
example {d : Opts ℝ} {e : Env ℝ} : Line (lane 2 0) ((List.range' 1 100).map (lane 2)) ∧
    (∀ s ∈ follow (limits d (zero 500 false)) e (lane 2 0) ((List.range' 1 100).map (lane 2)), |s.1.theta| ≤ 2 * Real.pi * (100 : ℕ)) ∧
    2 * (zero 500 false).tor.length + (100 + 2) * (zero 500 false).pol.length ≤ (zero 500 false).nporb * (zero 500 false).pol.length := by
  have hp := Real.pi_pos
  refine ⟨lane_line (by norm_num) _, ?_, by simp [zero]⟩
  intro s hs
  have hmem : ∀ (path : List (Lane ℝ)) (p0 : Lane ℝ), ∀ s ∈ follow (limits d (zero 500 false)) e p0 path, s.1 ∈ path := by
    intro path
    induction path with
    | nil => simp [follow]
    | cons f r ih =>
      intro p0 s hs
      rw [follow] at hs
      rcases List.mem_cons.1 hs with rfl | hs
      · exact List.mem_cons_self
      · split_ifs at hs
        · exact List.mem_cons_of_mem _ (ih f s hs)
        · simp at hs
  obtain ⟨k, hk, e1⟩ := List.mem_map.1 (hmem _ _ s hs)
  rw [List.mem_range'_1] at hk
  rw [← e1]
  have hk2 : (k : ℝ) ≤ 100 := by exact_mod_cast (show k ≤ 100 by omega)
  have hk0 : (0 : ℝ) ≤ k := Nat.cast_nonneg k
  have m1 : 0 * Real.pi ≤ k * Real.pi := mul_le_mul_of_nonneg_right hk0 hp.le
  have m2 : k * Real.pi ≤ 100 * Real.pi := mul_le_mul_of_nonneg_right hk2 hp.le
  simp only [lane]
  push_cast
  rw [abs_le]
  constructor <;> linarith

end Ascot.C169
