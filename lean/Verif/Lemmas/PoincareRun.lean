import Mathlib.Tactic.Linarith
import Mathlib.Tactic.FieldSimp
import Mathlib.Tactic.Ring
import Verif.Model.PoincareRun
import Verif.Props.C27_C28_Orbit

set_option linter.unusedSectionVars false
set_option linter.unusedSimpArgs false

/-!
# Numbers of crossings
-/
namespace Ascot.PoincareRun
open Ascot.Orbit Ascot.EndCond

/-- Whether a step is recorded at the plane `a`. -/
noncomputable def cross (a f i : ℝ) : ℕ := if planeCrossing Real.pi f i a ≠ 0 then 1 else 0

/-- Full turns since the plane. -/
noncomputable def turns (a x : ℝ) : ℤ := ⌊(x - a) / (2 * Real.pi)⌋

theorem turns_mono (a : ℝ) {x y : ℝ} (h : x ≤ y) : turns a x ≤ turns a y :=
  Int.floor_le_floor (div_le_div_of_nonneg_right (by linarith) (by have := Real.pi_pos; linarith))

theorem cross_le (a f i : ℝ) : (cross a f i : ℤ) ≤ |turns a f - turns a i| := by
  unfold cross
  split_ifs with h
  · have : turns a f ≠ turns a i := by
      intro e
      apply h
      unfold planeCrossing
      exact if_neg (not_not.2 e)
    have h2 : turns a f - turns a i ≠ 0 := sub_ne_zero.2 this
    exact_mod_cast Int.one_le_abs h2
  · simpa using abs_nonneg _

theorem tor_length (f i : Mrk ℝ) (l : List ℝ) (n : ℕ) :
    ((l.zipIdx n).filterMap (torRecord Real.pi .ml f i)).length = (l.map fun a => cross a f.phi i.phi).sum := by
  induction l generalizing n with
  | nil => rfl
  | cons a l ih =>
    rw [List.zipIdx_cons, List.filterMap_cons, List.map_cons, List.sum_cons, ← ih (n + 1)]
    unfold cross
    by_cases h : planeCrossing Real.pi f.phi i.phi a ≠ 0
    · have : torRecord Real.pi .ml f i (a, n) ≠ none := by simp [torRecord, h]
      obtain ⟨g, hg⟩ := Option.ne_none_iff_exists'.1 this
      rw [hg, if_pos h, List.length_cons]
      omega
    · have : torRecord Real.pi .ml f i (a, n) = none := by
        unfold torRecord
        exact if_neg h
      rw [this, if_neg h]
      simp

theorem pol_length (f i : Mrk ℝ) (k : ℕ) (l : List ℝ) (n : ℕ) :
    ((l.zipIdx n).filterMap (polRecord Real.pi .ml k f i)).length = (l.map fun a => cross a f.theta i.theta).sum := by
  induction l generalizing n with
  | nil => rfl
  | cons a l ih =>
    rw [List.zipIdx_cons, List.filterMap_cons, List.map_cons, List.sum_cons, ← ih (n + 1)]
    unfold cross
    by_cases h : planeCrossing Real.pi f.theta i.theta a ≠ 0
    · have : polRecord Real.pi .ml k f i (a, n) ≠ none := by simp [polRecord, h]
      obtain ⟨g, hg⟩ := Option.ne_none_iff_exists'.1 this
      rw [hg, if_pos h, List.length_cons]
      omega
    · have : polRecord Real.pi .ml k f i (a, n) = none := by
        unfold polRecord
        exact if_neg h
      rw [this, if_neg h]
      simp

theorem records_length (t : Template) (f i : Mrk ℝ) :
    (poincareRecords Real.pi .ml (planes t) f i).length =
      (t.tor.map fun a => cross a f.phi i.phi).sum + (t.pol.map fun a => cross a f.theta i.theta).sum := by
  unfold poincareRecords planes
  rw [List.length_append, List.length_append]
  have h1 := tor_length f i t.tor 0
  have h2 := pol_length f i t.tor.length t.pol 0
  simp only [List.zipIdx_nil, List.filterMap_nil, List.length_nil, Nat.add_zero]
  rw [h1, h2]

/-- Successive positions of a path are in the relation `R`. -/
def Path (R : Lane ℝ → Lane ℝ → Prop) : Lane ℝ → List (Lane ℝ) → Prop
  | _, [] => True
  | i, f :: r => R i f ∧ Path R f r

/-- Crossings of one plane by a path that only goes forward, and remains below `M`. -/
theorem count_up (x : Lane ℝ → ℝ) (a M : ℝ) (o : Opts ℝ) (e : Env ℝ) (path : List (Lane ℝ)) (p0 : Lane ℝ)
    (h : Path (fun i f => x i ≤ x f) p0 path) (h0 : x p0 ≤ M) (hM : ∀ s ∈ follow o e p0 path, x s.1 ≤ M) :
    (((follow o e p0 path).map fun s => cross a (x s.1) (x s.2)).sum : ℤ) ≤ turns a M - turns a (x p0) := by
  induction path generalizing p0 with
  | nil =>
    have := turns_mono a h0
    simp [follow]
    omega
  | cons f r ih =>
    obtain ⟨h1, h2⟩ := h
    have hf : x f ≤ M := hM (f, p0) (by simp [follow])
    have hc := cross_le a (x f) (x p0)
    have hm := turns_mono a h1
    rw [abs_of_nonneg (by omega)] at hc
    have hm2 := turns_mono a hf
    rw [follow, List.map_cons, List.sum_cons]
    split_ifs with hr
    · have := ih f h2 hf (fun s hs => hM s (by rw [follow, if_pos hr]; exact List.mem_cons_of_mem _ hs))
      push_cast at this ⊢
      omega
    · simp
      omega

/-- The same backward. -/
theorem count_down (x : Lane ℝ → ℝ) (a M : ℝ) (o : Opts ℝ) (e : Env ℝ) (path : List (Lane ℝ)) (p0 : Lane ℝ)
    (h : Path (fun i f => x f ≤ x i) p0 path) (h0 : M ≤ x p0) (hM : ∀ s ∈ follow o e p0 path, M ≤ x s.1) :
    (((follow o e p0 path).map fun s => cross a (x s.1) (x s.2)).sum : ℤ) ≤ turns a (x p0) - turns a M := by
  induction path generalizing p0 with
  | nil =>
    have := turns_mono a h0
    simp [follow]
    omega
  | cons f r ih =>
    obtain ⟨h1, h2⟩ := h
    have hf : M ≤ x f := hM (f, p0) (by simp [follow])
    have hc := cross_le a (x f) (x p0)
    have hm := turns_mono a h1
    rw [abs_of_nonpos (by omega)] at hc
    have hm2 := turns_mono a hf
    rw [follow, List.map_cons, List.sum_cons]
    split_ifs with hr
    · have := ih f h2 hf (fun s hs => hM s (by rw [follow, if_pos hr]; exact List.mem_cons_of_mem _ hs))
      push_cast at this ⊢
      omega
    · simp
      omega

theorem turns_upper {a x : ℝ} {n : ℤ} (ha : 0 ≤ a) (hx : x < 2 * Real.pi * (n + 1)) : turns a x ≤ n := by
  have hp := Real.pi_pos
  have : turns a x < n + 1 := by
    rw [turns, Int.floor_lt, div_lt_iff₀ (by linarith)]
    push_cast
    linarith
  omega

theorem turns_lower {a x : ℝ} {n : ℤ} (h : 2 * Real.pi * n ≤ x - a) : n ≤ turns a x := by
  have hp := Real.pi_pos
  rw [turns, Int.le_floor, le_div_iff₀ (by linarith)]
  linarith

/-- The angle `x` of a field line never turns round. -/
def OneWay (x : Lane ℝ → ℝ) (p0 : Lane ℝ) (path : List (Lane ℝ)) : Prop :=
  Path (fun i f => x i ≤ x f) p0 path ∨ Path (fun i f => x f ≤ x i) p0 path

theorem count_plane {x : Lane ℝ → ℝ} {a : ℝ} {n : ℕ} {o : Opts ℝ} {e : Env ℝ} {path : List (Lane ℝ)} {p0 : Lane ℝ}
    (h : OneWay x p0 path) (ha : 0 ≤ a) (ha' : a < 2 * Real.pi) (h0 : -Real.pi ≤ x p0) (h0' : x p0 < 2 * Real.pi) (hn : 1 ≤ n)
    (hM : ∀ s ∈ follow o e p0 path, |x s.1| ≤ 2 * Real.pi * n + Real.pi) :
    ((follow o e p0 path).map fun s => cross a (x s.1) (x s.2)).sum ≤ n + 2 := by
  have hp := Real.pi_pos
  have hn' : (1 : ℝ) ≤ n := by exact_mod_cast hn
  have hnp : Real.pi * 1 ≤ Real.pi * n := mul_le_mul_of_nonneg_left hn' hp.le
  rcases h with h | h
  · have := count_up x a (2 * Real.pi * n + Real.pi) o e path p0 h (by linarith) (fun s hs => (abs_le.1 (hM s hs)).2)
    have h1 : turns a (2 * Real.pi * n + Real.pi) ≤ (n : ℤ) := turns_upper ha (by push_cast; linarith)
    have h2 : (-2 : ℤ) ≤ turns a (x p0) := turns_lower (by push_cast; linarith)
    omega
  · have := count_down x a (-(2 * Real.pi * n + Real.pi)) o e path p0 h (by linarith) (fun s hs => (abs_le.1 (hM s hs)).1)
    have h1 : turns a (x p0) ≤ (0 : ℤ) := turns_upper ha (by push_cast; linarith)
    have h2 : (-(n : ℤ) - 2) ≤ turns a (-(2 * Real.pi * n + Real.pi)) := turns_lower (by push_cast; linarith)
    omega

/-- Sums over the planes and over the steps can be exchanged. -/
theorem sum_exchange (x : Lane ℝ → ℝ) (l : List ℝ) (S : List (Lane ℝ × Lane ℝ)) :
    (S.map fun s => (l.map fun a => cross a (x s.1) (x s.2)).sum).sum =
      (l.map fun a => (S.map fun s => cross a (x s.1) (x s.2)).sum).sum := by
  induction S with
  | nil => simp
  | cons s S ih =>
    simp only [List.map_cons, List.sum_cons, ih]
    induction l with
    | nil => rfl
    | cons a l ihl =>
      simp only [List.map_cons, List.sum_cons]
      have := ihl (by
        clear ihl ih
        induction S with
        | nil => simp
        | cons s' S ih' =>
          simp only [List.map_cons, List.sum_cons, ih']
          clear ih'
          induction l with
          | nil => rfl
          | cons b l ihb => simp only [List.map_cons, List.sum_cons]; omega)
      omega

theorem sum_le (l : List ℝ) (c : ℝ → ℕ) (n : ℕ) (h : ∀ a ∈ l, c a ≤ n) : (l.map c).sum ≤ n * l.length := by
  induction l with
  | nil => simp
  | cons a l ih =>
    have h1 := h a List.mem_cons_self
    have h2 := ih (fun b hb => h b (List.mem_cons_of_mem _ hb))
    simp only [List.map_cons, List.sum_cons, List.length_cons, Nat.mul_succ]
    omega

theorem flat_length (t : Template) (id index : ℕ) (B : Lane ℝ → ℝ × ℝ × ℝ) (S : List (Lane ℝ × Lane ℝ)) :
    (S.flatMap fun s => poincareRecords Real.pi .ml (planes t) (toMrk id index B s.1) (toMrk id index B s.2)).length =
      (t.tor.map fun a => (S.map fun s => cross a s.1.phi s.2.phi).sum).sum +
        (t.pol.map fun a => (S.map fun s => cross a s.1.theta s.2.theta).sum).sum := by
  rw [← sum_exchange (fun l => l.phi), ← sum_exchange (fun l => l.theta)]
  induction S with
  | nil => rfl
  | cons s S ih =>
    rw [List.flatMap_cons, List.length_append, ih, records_length]
    simp only [List.map_cons, List.sum_cons, toMrk]
    omega

/-! ## The end conditions -/

theorem stepCpu_run {o : Opts ℝ} {p : Lane ℝ} (h : (stepCpu o p).running = true) : p.running = true := by
  unfold stepCpu at h
  split_ifs at h <;> simp_all [Lane.stop]

theorem stepOrb_run {o : Opts ℝ} {e : Env ℝ} {b : Bool} {p : Lane ℝ} (h : (stepOrb o e b p).running = true) :
    p.running = true ∧ (o.torAndPol = false → maxorb o e b p = 0) := by
  unfold stepOrb at h
  dsimp only at h
  split_ifs at h with h1 h2
  · simp [Lane.stop] at h
  · simp [Lane.stop] at h
  · refine ⟨h, fun h3 => ?_⟩
    by_contra hc
    exact h2 ⟨h3, hc⟩

theorem stepRho_run {o : Opts ℝ} {p : Lane ℝ} (h : (stepRho o p).running = true) : stepRho o p = p := by
  unfold stepRho at h ⊢
  dsimp only at h ⊢
  split_ifs at h ⊢ <;> simp_all [Lane.stop]

theorem stepWall_run {o : Opts ℝ} {e : Env ℝ} {i p : Lane ℝ} (h : (stepWall o e i p).running = true) : stepWall o e i p = p := by
  unfold stepWall at h ⊢
  dsimp only at h ⊢
  split_ifs at h ⊢ <;> simp_all [Lane.stop]

theorem stepTlim_run {o : Opts ℝ} {p : Lane ℝ} (h : (stepTlim o p).running = true) : stepTlim o p = p := by
  unfold stepTlim at h ⊢
  dsimp only at h ⊢
  split_ifs at h ⊢ <;> simp_all [Lane.stop]

/-- A line that goes on has reached no limit. -/
theorem goes_on {o : Opts ℝ} {e : Env ℝ} {i f : Lane ℝ} (hb : o.torAndPol = false) (hf : f.running = true)
    (h : (checkMl o e i f).running = true) : maxorb o e false f = 0 := by
  unfold checkMl at h
  rw [if_pos hf] at h
  obtain ⟨h1, h2⟩ := stepOrb_run (stepCpu_run h)
  have e1 := stepRho_run h1
  rw [e1] at h1 h2
  have e2 := stepWall_run h1
  rw [e2] at h1 h2
  have e3 := stepTlim_run h1
  rw [e3] at h2
  exact h2 hb

theorem active_tor (n : ℕ) : (n ||| (tormax ||| polmax)) &&& tormax ≠ 0 := by
  have : (n ||| (tormax ||| polmax)) &&& tormax = tormax := by
    rw [Nat.and_or_distrib_right]
    apply Nat.eq_of_testBit_eq
    intro i
    simp only [Nat.testBit_or, Nat.testBit_and]
    cases n.testBit i <;> cases tormax.testBit i <;> cases polmax.testBit i <;> rfl
  rw [this]
  decide

theorem active_pol (n : ℕ) : (n ||| (tormax ||| polmax)) &&& polmax ≠ 0 := by
  have : (n ||| (tormax ||| polmax)) &&& polmax = polmax := by
    rw [Nat.and_or_distrib_right]
    apply Nat.eq_of_testBit_eq
    intro i
    simp only [Nat.testBit_or, Nat.testBit_and]
    cases n.testBit i <;> cases tormax.testBit i <;> cases polmax.testBit i <;> rfl
  rw [this]
  decide

theorem within {d : Opts ℝ} {e : Env ℝ} {t : Template} {i f : Lane ℝ} (hb : t.both = false) (hf : f.running = true)
    (h : (checkMl (limits d t) e i f).running = true) :
    |f.phi| ≤ 2 * Real.pi * t.ntorb ∧ |f.theta| ≤ 2 * Real.pi * t.nporb := by
  have := goes_on (o := limits d t) hb hf h
  have ht : (limits d t).active &&& tormax ≠ 0 := active_tor _
  have hp : (limits d t).active &&& polmax ≠ 0 := active_pol _
  unfold maxorb at this
  rw [if_pos ht, if_pos hp] at this
  constructor
  · by_contra hc
    have hc' : |f.phi| > (limits d t).maxTororb := not_le.1 hc
    rw [if_pos hc'] at this
    revert this
    split_ifs <;> decide
  · by_contra hc
    have hc' : |f.theta| > (limits d t).maxPolorb := not_le.1 hc
    rw [if_pos hc'] at this
    revert this
    split_ifs <;> decide

end Ascot.PoincareRun
