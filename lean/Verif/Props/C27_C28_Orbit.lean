import Verif.Lemmas.Orbit
import Mathlib.Data.Rat.Floor
import Mathlib.Tactic.NormNum
import Mathlib.Tactic.FieldSimp
import Mathlib.Tactic.LinearCombination

/-!
# C27, C28: orbit diagnostics
-/
set_option linter.unusedSectionVars false
set_option linter.unusedSimpArgs false

namespace Ascot.C27
open Ascot.Orbit

variable {K : Type} [Field K] [LinearOrder K] [IsStrictOrderedRing K] [FloorRing K]

/-- A run in interval mode: the lanes of all updates one after another, each with its mode and
the marker at the end and at the beginning of the step. -/
def run (wI : K) (N : Nat) (steps : List (Mode × Mrk K × Mrk K)) : Orb K :=
  steps.foldl (fun d s => interval wI s.1 s.2.1 s.2.2 d) (init N)

/-- The steps of the marker with index `m`; lanes with id 0 are empty. -/
def stepsOf (m : Nat) (steps : List (Mode × Mrk K × Mrk K)) : List (Mode × Mrk K × Mrk K) :=
  steps.filter (fun s => s.2.1.id > 0 ∧ s.2.1.index = m)

structure Inv (N : Nat) (d : Orb K) (L : Nat → List (Mode × Mrk K)) : Prop where
  ring : Ring N (init N) d (fun m => (L m).map (fun q => setPt q.1 q.2))
  last : ∀ m q, (L m).getLast? = some q → d.recorded m = q.2.mileage
  ids : ∀ m, ∀ q ∈ L m, q.2.id > 0

theorem inv_record {N : Nat} (hN : 0 < N) {d : Orb K} {L : Nat → List (Mode × Mrk K)} (h : Inv N d L) (k : Nat)
    (m : Mode) (p : Mrk K) (hp : p.id > 0) :
    Inv N (record d k (setPt m p) p.mileage) (fun j => if j = k then L j ++ [(m, p)] else L j) where
  ring := by
    convert ring_record hN h.ring k (setPt m p) p.mileage using 1
    funext j
    by_cases hj : j = k
    · subst hj; simp
    · simp [hj]
  last := by
    intro j q hq
    show (if j = k then _ else _) = _
    by_cases hj : j = k
    · subst hj
      simp only [if_true, List.getLast?_concat, Option.some.injEq] at hq ⊢
      rw [← hq]
    · simp only [if_neg hj] at hq ⊢
      exact h.last j q hq
  ids := by
    intro j q hq
    by_cases hj : j = k
    · subst hj
      simp only [if_true, List.mem_append, List.mem_singleton] at hq
      rcases hq with hq | rfl
      · exact h.ids _ q hq
      · exact hp
    · simp only [if_neg hj] at hq
      exact h.ids j q hq

/-- Whether the first element is empty tells whether anything was recorded. -/
theorem first_iff {N : Nat} (hN : 0 < N) {d : Orb K} {L : Nat → List (Mode × Mrk K)} (h : Inv N d L) (m : Nat) :
    (d.buf (m * N)).id = 0 ↔ L m = [] := by
  by_cases he : L m = []
  · have := h.ring.fresh m 0 hN (by simp [he])
    simp only [Nat.add_zero] at this
    simp [this, he, init]
  · simp only [he, iff_false]
    -- the latest point in slot 0
    have hlen : 0 < (L m).length := List.length_pos_iff.2 he
    have hdm := Nat.div_add_mod ((L m).length - 1) N
    have hmod := Nat.mod_lt ((L m).length - 1) hN
    generalize hq : ((L m).length - 1) / N = q at *
    have ht : N * q < (L m).length := by omega
    have hget : (L m)[N * q]? = some ((L m)[N * q]) := List.getElem?_eq_getElem ht
    obtain ⟨o, ho⟩ := h.ring.latest m (N * q) (setPt (L m)[N * q].1 (L m)[N * q].2)
      (by simp [hget]) (by simp; omega)
    rw [Nat.mul_mod_right, Nat.add_zero] at ho
    rw [ho, setPt_id]
    have := h.ids m _ (List.getElem_mem ht)
    exact_mod_cast Nat.pos_iff_ne_zero.1 this

theorem inv_step {N : Nat} (hN : 0 < N) (wI : K) {d : Orb K} {L : Nat → List (Mode × Mrk K)} (h : Inv N d L)
    (m : Mode) (f i : Mrk K) (hid : f.id > 0 → i.id > 0) :
    Inv N (interval wI m f i d)
      (fun j => if f.id > 0 ∧ f.index = j then keepStep wI (L j) (m, f, i) else L j) := by
  unfold interval
  by_cases hf : f.id > 0
  · simp only [if_true, hf, true_and]
    -- the list after the record of the first point
    have h1 : ∃ d1, (if (d.buf (f.index * d.npnt)).id = 0 then record d f.index (setPt m i) i.mileage else d) = d1 ∧
        Inv N d1 (fun j => if j = f.index then (if (L j).isEmpty then [(m, i)] else L j) else L j) := by
      refine ⟨_, rfl, ?_⟩
      have hfi := first_iff hN h f.index
      rw [h.ring.npnt]
      by_cases he : L f.index = []
      · rw [if_pos (hfi.2 he)]
        convert inv_record hN h f.index m i (hid hf) using 1
        funext j
        by_cases hj : j = f.index
        · subst hj; simp [he]
        · simp [hj]
      · rw [if_neg (fun hc => he (hfi.1 hc))]
        convert h using 1
        funext j
        by_cases hj : j = f.index
        · subst hj; simp [he]
        · simp [hj]
    obtain ⟨d1, e1, h1⟩ := h1
    rw [e1]
    -- the last recorded point
    have hne : (if (L f.index).isEmpty then [(m, i)] else L f.index) ≠ [] := by
      split
      · simp
      · rename_i hc; simpa using hc
    obtain ⟨q, hq⟩ : ∃ q, (if (L f.index).isEmpty then [(m, i)] else L f.index).getLast? = some q := by
      cases hl : (if (L f.index).isEmpty then [(m, i)] else L f.index).getLast? with
      | none => exact absurd (List.getLast?_eq_none_iff.1 hl) hne
      | some q => exact ⟨q, rfl⟩
    have hrec : d1.recorded f.index = q.2.mileage := h1.last f.index q (by simpa using hq)
    rw [hrec]
    have hdue : q.2.mileage + wI - f.mileage ≤ 0 ↔ q.2.mileage + wI ≤ f.mileage := by
      constructor <;> intro h <;> linarith
    have hkeep : keepStep wI (L f.index) (m, f, i) =
        if q.2.mileage + wI - f.mileage ≤ 0 ∨ f.endcond > 0
        then (if (L f.index).isEmpty then [(m, i)] else L f.index) ++ [(m, f)]
        else (if (L f.index).isEmpty then [(m, i)] else L f.index) := by
      unfold keepStep
      simp only [hq, decide_eq_true_eq, hdue]
    by_cases hc : q.2.mileage + wI - f.mileage ≤ 0 ∨ f.endcond > 0
    · rw [if_pos hc]
      rw [if_pos hc] at hkeep
      convert inv_record hN h1 f.index m f hf using 1
      funext j
      by_cases hj : j = f.index
      · subst hj; simp only [if_true, hkeep]
      · have hj' : f.index ≠ j := fun h => hj h.symm
        simp [hj, hj']
    · rw [if_neg hc]
      rw [if_neg hc] at hkeep
      convert h1 using 1
      funext j
      by_cases hj : j = f.index
      · subst hj; simp only [if_true, hkeep]
      · have hj' : f.index ≠ j := fun h => hj h.symm
        simp [hj, hj']
  · simp only [if_neg hf, hf, false_and, if_false]
    exact h

theorem inv_run {N : Nat} (hN : 0 < N) (wI : K) (steps : List (Mode × Mrk K × Mrk K))
    (hid : ∀ s ∈ steps, s.2.1.id > 0 → s.2.2.id > 0) :
    Inv N (run wI N steps) (fun m => kept wI (stepsOf m steps)) := by
  unfold run kept
  suffices h : ∀ (steps : List (Mode × Mrk K × Mrk K)), (∀ s ∈ steps, s.2.1.id > 0 → s.2.2.id > 0) →
      ∀ (d : Orb K) (L : Nat → List (Mode × Mrk K)), Inv N d L →
      Inv N (steps.foldl (fun d s => interval wI s.1 s.2.1 s.2.2 d) d)
        (fun m => (stepsOf m steps).foldl (keepStep wI) (L m)) by
    refine h steps hid _ _ ⟨?_, by simp, by simp⟩
    simpa using ring_init N hN
  intro steps
  induction steps with
  | nil => intro _ d L h; exact h
  | cons s steps ih =>
    intro hid d L h
    have := ih (fun x hx => hid x (by simp [hx])) _ _ (inv_step hN wI h s.1 s.2.1 s.2.2 (hid s (by simp)))
    rw [List.foldl_cons]
    convert this using 1
    funext m
    unfold stepsOf
    rw [List.filter_cons]
    by_cases hc : s.2.1.id > 0 ∧ s.2.1.index = m
    · rw [if_pos (by simpa using hc), if_pos hc]; rfl
    · rw [if_neg (by simpa using hc), if_neg hc]

/-- After any sequence of updates the memory of marker `m` shows the latest `N` of the points
that should be recorded, the `t`-th of them in place `t mod N`, and the places that were never
used are marked empty (id 0).  Steps of other markers have no influence: the right-hand side
only depends on the steps of `m`. -/
theorem interval_mode (wI : K) (N : Nat) (hN : 0 < N) (steps : List (Mode × Mrk K × Mrk K))
    (hid : ∀ s ∈ steps, s.2.1.id > 0 → s.2.2.id > 0) (m : Nat) :
    (∀ t q, (kept wI (stepsOf m steps))[t]? = some q → (kept wI (stepsOf m steps)).length ≤ t + N →
      Shows q.1 ((run wI N steps).buf (m * N + t % N)) q.2) ∧
    (∀ j, j < N → (kept wI (stepsOf m steps)).length ≤ j → ((run wI N steps).buf (m * N + j)).id = 0) ∧
    (run wI N steps).pnt m = (kept wI (stepsOf m steps)).length % N := by
  have h := inv_run hN wI steps hid
  refine ⟨?_, ?_, ?_⟩
  · intro t q hq hl
    obtain ⟨o, ho⟩ := h.ring.latest m t (setPt q.1 q.2) (by simp [hq]) (by simpa using hl)
    rw [ho]
    exact shows_setPt _ _ _
  · intro j hj hl
    rw [h.ring.fresh m j hj (by simpa using hl)]
    rfl
  · rw [h.ring.pnt]; simp

/-- Writes stay inside the arrays: only elements below `Nmrk * Npnt` change. -/
theorem bounds (wI : K) (N nmrk : Nat) (hN : 0 < N) (steps : List (Mode × Mrk K × Mrk K))
    (hidx : ∀ s ∈ steps, s.2.1.id > 0 → s.2.1.index < nmrk) (k : Nat) (hk : nmrk * N ≤ k) :
    (run wI N steps).buf k = (init N : Orb K).buf k := by
  have hrec : ∀ (d : Orb K) (m : Nat) (g : Pt K → Pt K) (mil : K), m < nmrk → d.npnt = N → (∀ m, d.pnt m < N) →
      d.buf k = (init N : Orb K).buf k →
      (record d m g mil).buf k = (init N : Orb K).buf k ∧ (record d m g mil).npnt = N ∧
        ∀ j, (record d m g mil).pnt j < N := by
    intro d m g mil hm hn hp hb
    refine ⟨?_, hn, ?_⟩
    · show (if _ = _ then _ else _) = _
      rw [if_neg, hb]
      rw [hn]
      have h1 : (m + 1) * N ≤ nmrk * N := Nat.mul_le_mul_right _ hm
      have h2 := hp m
      rw [Nat.add_mul] at h1
      omega
    · intro j
      show (if j = m then _ else _) < N
      split
      · split
        · exact hN
        · rename_i h
          rw [hn] at h
          have := hp m; omega
      · exact hp j
  suffices h : ∀ (steps : List (Mode × Mrk K × Mrk K)), (∀ s ∈ steps, s.2.1.id > 0 → s.2.1.index < nmrk) →
      ∀ d : Orb K, (d.buf k = (init N : Orb K).buf k ∧ d.npnt = N ∧ ∀ j, d.pnt j < N) →
      (steps.foldl (fun d s => interval wI s.1 s.2.1 s.2.2 d) d).buf k = (init N : Orb K).buf k from
    h steps hidx _ ⟨rfl, rfl, fun _ => hN⟩
  intro steps
  induction steps with
  | nil => intro _ d h; exact h.1
  | cons s steps ih =>
    intro hidx d h
    rw [List.foldl_cons]
    apply ih (fun x hx => hidx x (by simp [hx]))
    unfold interval
    by_cases hf : s.2.1.id > 0
    · have hi := hidx s (by simp) hf
      simp only [if_pos hf]
      have h1 : ∃ d1, (if (d.buf (s.2.1.index * d.npnt)).id = 0 then
          record d s.2.1.index (setPt s.1 s.2.2) s.2.2.mileage else d) = d1 ∧
          (d1.buf k = (init N : Orb K).buf k ∧ d1.npnt = N ∧ ∀ j, d1.pnt j < N) := by
        refine ⟨_, rfl, ?_⟩
        split
        · exact hrec d _ _ _ hi h.2.1 h.2.2 h.1
        · exact h
      obtain ⟨d1, e1, h1⟩ := h1
      rw [e1]
      split
      · exact hrec d1 _ _ _ hi h1.2.1 h1.2.2 h1.1
      · exact h1
    · simp only [if_neg hf]; exact h

def exMrk (id index : Nat) (mil : ℚ) : Mrk ℚ :=
  ⟨id, index, 0, mil, 1, 2, 3, 4, 5, 6, 7, 8, 9, 10, 11, 12, 13, 14, 15, 16⟩

/-- Two markers; four points of the first in a memory of two points: the points at 0, 1, 2, 3 are
due, and those at 2 and 3 are kept. -/
def exSteps : List (Mode × Mrk ℚ × Mrk ℚ) :=
  [(.gc, exMrk 7 0 1, exMrk 7 0 0), (.gc, exMrk 9 1 (1/2), exMrk 9 1 0), (.gc, exMrk 7 0 (3/2), exMrk 7 0 1),
   (.fo, exMrk 7 0 2, exMrk 7 0 (3/2)), (.fo, exMrk 7 0 3, exMrk 7 0 2)]

example : (kept 1 (stepsOf 0 exSteps)).map (fun q => q.2.mileage) = [0, 1, 2, 3] ∧
    ((run 1 2 exSteps).buf 0).mileage = 2 ∧ ((run 1 2 exSteps).buf 1).mileage = 3 ∧
    ((run 1 2 exSteps).buf 2).mileage = 0 ∧ ((run 1 2 exSteps).buf 2).id = 9 ∧ ((run 1 2 exSteps).buf 3).id = 0 := by
  decide +kernel

end Ascot.C27

namespace Ascot.C28
open Ascot.Orbit

variable {K : Type} [Field K] [LinearOrder K] [IsStrictOrderedRing K] [FloorRing K]

/-! ## Specification -/

/-- The stored point is the point of the straight step from `i` to `f` at the fraction `s`, in all
quantities that the mode records; the charge is that at the beginning. -/
def OnStep (s : K) (f i : Mrk K) : Mode → Pt K → Prop
  | .fo, o => o.id = f.id ∧ o.mileage = i.mileage + s * (f.mileage - i.mileage) ∧
      o.r = i.r + s * (f.r - i.r) ∧ o.phi = i.phi + s * (f.phi - i.phi) ∧ o.z = i.z + s * (f.z - i.z) ∧
      o.p_r = i.p_r + s * (f.p_r - i.p_r) ∧ o.p_phi = i.p_phi + s * (f.p_phi - i.p_phi) ∧
      o.p_z = i.p_z + s * (f.p_z - i.p_z) ∧ o.weight = i.weight + s * (f.weight - i.weight) ∧
      o.charge = i.charge ∧ o.rho = i.rho + s * (f.rho - i.rho) ∧
      o.theta = i.theta + s * (f.theta - i.theta) ∧ o.B_r = i.B_r + s * (f.B_r - i.B_r) ∧
      o.B_phi = i.B_phi + s * (f.B_phi - i.B_phi) ∧ o.B_z = i.B_z + s * (f.B_z - i.B_z)
  | .gc, o => o.id = f.id ∧ o.mileage = i.mileage + s * (f.mileage - i.mileage) ∧
      o.r = i.r + s * (f.r - i.r) ∧ o.phi = i.phi + s * (f.phi - i.phi) ∧ o.z = i.z + s * (f.z - i.z) ∧
      o.ppar = i.ppar + s * (f.ppar - i.ppar) ∧ o.mu = i.mu + s * (f.mu - i.mu) ∧
      o.zeta = i.zeta + s * (f.zeta - i.zeta) ∧ o.weight = i.weight + s * (f.weight - i.weight) ∧
      o.charge = i.charge ∧ o.rho = i.rho + s * (f.rho - i.rho) ∧
      o.theta = i.theta + s * (f.theta - i.theta) ∧ o.B_r = i.B_r + s * (f.B_r - i.B_r) ∧
      o.B_phi = i.B_phi + s * (f.B_phi - i.B_phi) ∧ o.B_z = i.B_z + s * (f.B_z - i.B_z)
  | .ml, o => o.id = f.id ∧ o.mileage = i.mileage + s * (f.mileage - i.mileage) ∧
      o.r = i.r + s * (f.r - i.r) ∧ o.phi = i.phi + s * (f.phi - i.phi) ∧ o.z = i.z + s * (f.z - i.z) ∧
      o.rho = i.rho + s * (f.rho - i.rho) ∧
      o.theta = i.theta + s * (f.theta - i.theta) ∧ o.B_r = i.B_r + s * (f.B_r - i.B_r) ∧
      o.B_phi = i.B_phi + s * (f.B_phi - i.B_phi) ∧ o.B_z = i.B_z + s * (f.B_z - i.B_z)

/-- `x` lies strictly between `a` and `b`. -/
def Between (a x b : K) : Prop := (a < x ∧ x < b) ∨ (b < x ∧ x < a)

/-! ## Proofs -/

theorem interp_onStep (m : Mode) (k : K) (f i : Mrk K) (o : Pt K) : OnStep k f i m (interp m k (1 - k) f i o) := by
  cases m <;> simp only [OnStep, interp] <;> refine ⟨trivial, ?_⟩ <;>
    (repeat' constructor) <;> first | trivial | ring

/-- The fraction of the step at which `x` is passed. -/
theorem fraction {a x b : K} (h : Between a x b) :
    |x - a| / |b - a| ≠ 0 ∧ a + |x - a| / |b - a| * (b - a) = x ∧ 0 < |x - a| / |b - a| ∧ |x - a| / |b - a| < 1 := by
  rcases h with ⟨h1, h2⟩ | ⟨h1, h2⟩
  · rw [abs_of_pos (by linarith), abs_of_pos (by linarith)]
    have hd : 0 < b - a := by linarith
    have h3 : 0 < (x - a) / (b - a) := div_pos (by linarith) hd
    refine ⟨h3.ne', ?_, h3, ?_⟩
    · rw [div_mul_cancel₀ _ hd.ne']; ring
    · rw [div_lt_one hd]; linarith
  · rw [abs_of_neg (by linarith), abs_of_neg (by linarith)]
    have hd : 0 < -(b - a) := by linarith
    have h3 : 0 < -(x - a) / -(b - a) := div_pos (by linarith) hd
    refine ⟨h3.ne', ?_, h3, ?_⟩
    · rw [neg_div_neg_eq, div_mul_cancel₀ _ (by linarith : b - a ≠ 0)]; ring
    · rw [div_lt_one hd]; linarith

/-- The angle of the crossing, if the step is at most half a turn. -/
theorem plane_value (pi : K) (hpi : 0 < pi) (fang iang ang0 : K) (h0 : 0 ≤ ang0) (h1 : ang0 ≤ 2 * pi)
    (n : Int) (hb : Between iang (ang0 + n * (2 * pi)) fang) (hs : |fang - iang| ≤ pi) :
    planeCrossing pi fang iang ang0 = |ang0 + n * (2 * pi) - iang| / |fang - iang| := by
  have hP : 0 < 2 * pi := by linarith
  have hfl : ⌊(fang - ang0) / (2 * pi)⌋ ≠ ⌊(iang - ang0) / (2 * pi)⌋ := by
    rcases hb with ⟨h2, h3⟩ | ⟨h2, h3⟩
    · have e1 : ⌊(iang - ang0) / (2 * pi)⌋ < n := by rw [Int.floor_lt, div_lt_iff₀ hP]; linarith
      have e2 : n ≤ ⌊(fang - ang0) / (2 * pi)⌋ := by rw [Int.le_floor, le_div_iff₀ hP]; linarith
      omega
    · have e1 : ⌊(fang - ang0) / (2 * pi)⌋ < n := by rw [Int.floor_lt, div_lt_iff₀ hP]; linarith
      have e2 : n ≤ ⌊(iang - ang0) / (2 * pi)⌋ := by rw [Int.le_floor, le_div_iff₀ hP]; linarith
      omega
  have hdel : |ang0 + n * (2 * pi) - iang| < pi := by
    refine lt_of_lt_of_le ?_ hs
    rcases hb with ⟨h2, h3⟩ | ⟨h2, h3⟩
    · rw [abs_of_pos (by linarith), abs_of_pos (by linarith)]; linarith
    · rw [abs_of_neg (by linarith), abs_of_neg (by linarith)]; linarith
  have f1 := Int.floor_le (iang / (2 * pi))
  have f2 := Int.lt_floor_add_one (iang / (2 * pi))
  rw [le_div_iff₀ hP] at f1
  rw [div_lt_iff₀ hP] at f2
  unfold planeCrossing
  rw [if_pos hfl]
  unfold Dist.fmod
  generalize hm : ⌊iang / (2 * pi)⌋ = m at *
  have hq : ¬ (iang - 2 * pi * m < 0) := by push Not; linarith
  simp only [if_neg hq]
  rw [abs_div]
  congr 1
  -- the angular distance
  generalize hd : ang0 + n * (2 * pi) - iang = d at *
  have e : ang0 - (iang - 2 * pi * m) = d + ((m - n : Int) : K) * (2 * pi) := by rw [← hd]; push_cast; ring
  have hlo : -(2 * pi) < ang0 - (iang - 2 * pi * m) := by linarith
  have hhi : ang0 - (iang - 2 * pi * m) ≤ 2 * pi := by linarith
  rw [e] at hlo hhi ⊢
  rw [abs_lt] at hdel
  generalize hqq : m - n = q at *
  have hq1 : q < 2 := by
    by_contra hc
    push Not at hc
    have : (2 : K) ≤ (q : K) := by exact_mod_cast hc
    have := mul_le_mul_of_nonneg_right this hP.le
    linarith
  have hq2 : -2 < q := by
    by_contra hc
    push Not at hc
    have : (q : K) ≤ (-2 : K) := by exact_mod_cast hc
    have := mul_le_mul_of_nonneg_right this hP.le
    linarith
  have : q = -1 ∨ q = 0 ∨ q = 1 := by omega
  rcases this with rfl | rfl | rfl
  · push_cast at hlo hhi ⊢
    have hd0 : 0 < d := by linarith
    rw [abs_of_neg (by linarith : d + -1 * (2 * pi) < 0), if_pos (by linarith), abs_abs_of_pos hd0 (by linarith)]
  · push_cast
    rw [zero_mul, add_zero]
    have h3 : |d| < pi := abs_lt.2 hdel
    rw [if_neg (by linarith), abs_abs]
  · push_cast at hlo hhi ⊢
    have hd0 : d ≤ 0 := by linarith
    rw [abs_of_pos (by linarith : 0 < d + 1 * (2 * pi)), if_pos (by linarith)]
    have e3 : 2 * pi - (d + 1 * (2 * pi)) = -d := by ring
    rw [e3, abs_neg]
where
  abs_abs_of_pos {d x : K} (hd : 0 < d) (h : x = d) : |x| = |d| := by rw [h]

theorem plane_none (pi : K) (hpi : 0 < pi) (fang iang ang0 : K)
    (hn : ∀ n : Int, ¬ (iang ≤ ang0 + n * (2 * pi) ∧ ang0 + n * (2 * pi) ≤ fang) ∧
      ¬ (fang ≤ ang0 + n * (2 * pi) ∧ ang0 + n * (2 * pi) ≤ iang)) :
    planeCrossing pi fang iang ang0 = 0 := by
  have hP : 0 < 2 * pi := by linarith
  unfold planeCrossing
  rw [if_neg]
  rw [not_not]
  have a1 := Int.floor_le ((fang - ang0) / (2 * pi))
  have a2 := Int.lt_floor_add_one ((fang - ang0) / (2 * pi))
  have b1 := Int.floor_le ((iang - ang0) / (2 * pi))
  have b2 := Int.lt_floor_add_one ((iang - ang0) / (2 * pi))
  rw [le_div_iff₀ hP] at a1 b1
  rw [div_lt_iff₀ hP] at a2 b2
  generalize ⌊(fang - ang0) / (2 * pi)⌋ = x at *
  generalize ⌊(iang - ang0) / (2 * pi)⌋ = y at *
  rcases lt_trichotomy x y with h | h | h
  · exfalso
    have hxy : (x : K) + 1 ≤ y := by exact_mod_cast h
    have := mul_le_mul_of_nonneg_right hxy hP.le
    exact (hn y).2 ⟨by linarith, by linarith⟩
  · exact h
  · exfalso
    have hxy : (y : K) + 1 ≤ x := by exact_mod_cast h
    have := mul_le_mul_of_nonneg_right hxy hP.le
    exact (hn x).1 ⟨by linarith, by linarith⟩

/-- Toroidal planes, all modes: a step of at most half a turn that strictly crosses the plane is
recorded once, at the crossing, with the number of the plane and the direction; a step that does
not touch the plane is not recorded.  Missing from C28: longer steps (`plane_fails`) and steps
that begin or end exactly on the plane (`touch_fails`). -/
theorem toroidal_partial (pi : K) (hpi : 0 < pi) (m : Mode) (f i : Mrk K) (ang0 : K) (j : Nat) (h0 : 0 ≤ ang0)
    (h1 : ang0 ≤ 2 * pi) :
    (∀ n : Int, Between i.phi (ang0 + n * (2 * pi)) f.phi → |f.phi - i.phi| ≤ pi →
      ∃ s g, 0 < s ∧ s < 1 ∧ i.phi + s * (f.phi - i.phi) = ang0 + n * (2 * pi) ∧
        torRecord pi m f i (ang0, j) = some g ∧ ∀ o, OnStep s f i m (g o) ∧ (g o).pncrid = j ∧
          (i.phi < f.phi → (g o).pncrdi = 1) ∧ (f.phi < i.phi → (g o).pncrdi = -1) ∧
          (g o).simmode = m.code) ∧
    ((∀ n : Int, ¬ (i.phi ≤ ang0 + n * (2 * pi) ∧ ang0 + n * (2 * pi) ≤ f.phi) ∧
        ¬ (f.phi ≤ ang0 + n * (2 * pi) ∧ ang0 + n * (2 * pi) ≤ i.phi)) →
      torRecord pi m f i (ang0, j) = none) := by
  refine ⟨?_, ?_⟩
  · intro n hb hs
    have hv := plane_value pi hpi f.phi i.phi ang0 h0 h1 n hb hs
    obtain ⟨k1, k2, k3, k4⟩ := fraction hb
    refine ⟨_, _, k3, k4, k2, by unfold torRecord; dsimp only; rw [hv, if_pos k1], ?_⟩
    intro o
    refine ⟨?_, rfl, ?_, ?_, rfl⟩
    · have := interp_onStep m (|ang0 + n * (2 * pi) - i.phi| / |f.phi - i.phi|) f i o
      cases m <;> exact this
    · intro h; show direction _ _ = 1; unfold direction; rw [if_neg (by linarith)]; ring
    · intro h; show direction _ _ = -1; unfold direction; rw [if_pos h]; ring
  · intro hn
    unfold torRecord
    dsimp only
    rw [plane_none pi hpi f.phi i.phi ang0 hn]
    simp

/-- Poloidal planes, as `toroidal_partial`; their numbers follow those of the toroidal planes. -/
theorem poloidal_partial (pi : K) (hpi : 0 < pi) (m : Mode) (ntor : Nat) (f i : Mrk K) (ang0 : K) (j : Nat)
    (h0 : 0 ≤ ang0) (h1 : ang0 ≤ 2 * pi) :
    (∀ n : Int, Between i.theta (ang0 + n * (2 * pi)) f.theta → |f.theta - i.theta| ≤ pi →
      ∃ s g, 0 < s ∧ s < 1 ∧ i.theta + s * (f.theta - i.theta) = ang0 + n * (2 * pi) ∧
        polRecord pi m ntor f i (ang0, j) = some g ∧ ∀ o, OnStep s f i m (g o) ∧
          (g o).pncrid = ((ntor + j : Nat) : K) ∧
          (i.theta < f.theta → (g o).pncrdi = 1) ∧ (f.theta < i.theta → (g o).pncrdi = -1) ∧
          (g o).simmode = m.code) ∧
    ((∀ n : Int, ¬ (i.theta ≤ ang0 + n * (2 * pi) ∧ ang0 + n * (2 * pi) ≤ f.theta) ∧
        ¬ (f.theta ≤ ang0 + n * (2 * pi) ∧ ang0 + n * (2 * pi) ≤ i.theta)) →
      polRecord pi m ntor f i (ang0, j) = none) := by
  refine ⟨?_, ?_⟩
  · intro n hb hs
    have hv := plane_value pi hpi f.theta i.theta ang0 h0 h1 n hb hs
    obtain ⟨k1, k2, k3, k4⟩ := fraction hb
    refine ⟨_, _, k3, k4, k2, by unfold polRecord; dsimp only; rw [hv, if_pos k1], ?_⟩
    intro o
    refine ⟨?_, ?_, ?_, ?_, rfl⟩
    · have := interp_onStep m (|ang0 + n * (2 * pi) - i.theta| / |f.theta - i.theta|) f i o
      cases m <;> exact this
    · show (((j + ntor : Nat)) : K) = _
      rw [Nat.add_comm]
    · intro h; show direction _ _ = 1; unfold direction; rw [if_neg (by linarith)]; ring
    · intro h; show direction _ _ = -1; unfold direction; rw [if_pos h]; ring
  · intro hn
    unfold polRecord
    dsimp only
    rw [plane_none pi hpi f.theta i.theta ang0 hn]
    simp

theorem radial_value {f i rho0 : K} (hb : Between i rho0 f) :
    radialCrossing f i rho0 = |rho0 - i| / |f - i| := by
  unfold radialCrossing
  rw [if_pos, abs_div, abs_sub_comm i rho0]
  rcases hb with ⟨h1, h2⟩ | ⟨h1, h2⟩
  · exact Or.inr ⟨h1.le, h2⟩
  · exact Or.inl ⟨h1.le, h2⟩

/-- Radial surfaces for guiding centers and field lines: a step that strictly crosses the surface is
recorded at the crossing; a step that stays on one side is not recorded.  Missing from C28:
full-orbit markers (`radial_fo_fails`), and steps that begin or end exactly on the surface
(`touch_fails`). -/
theorem radial_partial (m : Mode) (hm : m = .gc ∨ m = .ml) (nother : Nat) (f i : Mrk K) (rho0 : K) (j : Nat) :
    (Between i.rho rho0 f.rho →
      ∃ s g, 0 < s ∧ s < 1 ∧ i.rho + s * (f.rho - i.rho) = rho0 ∧
        radRecord m nother f i (rho0, j) = some g ∧ ∀ o, OnStep s f i m (g o) ∧
          (g o).pncrid = ((nother + j : Nat) : K)) ∧
    ((i.rho < rho0 ∧ f.rho < rho0) ∨ (rho0 < i.rho ∧ rho0 < f.rho) →
      radRecord m nother f i (rho0, j) = none) := by
  refine ⟨?_, ?_⟩
  · intro hb
    have hv := radial_value hb
    obtain ⟨k1, k2, k3, k4⟩ := fraction hb
    rcases hm with rfl | rfl
    · refine ⟨_, _, k3, k4, k2, by unfold radRecord; dsimp only; rw [hv, if_pos k1], ?_⟩
      intro o
      refine ⟨?_, ?_⟩
      · exact interp_onStep .gc (|rho0 - i.rho| / |f.rho - i.rho|) f i o
      · show (((j + nother : Nat)) : K) = _
        rw [Nat.add_comm]
    · refine ⟨_, _, k3, k4, k2, by unfold radRecord; dsimp only; rw [hv, if_pos k1], ?_⟩
      intro o
      refine ⟨?_, ?_⟩
      · exact interp_onStep .ml (|rho0 - i.rho| / |f.rho - i.rho|) f i o
      · show (((j + nother : Nat)) : K) = _
        rw [Nat.add_comm]
  · intro hn
    have : radialCrossing f.rho i.rho rho0 = 0 := by
      unfold radialCrossing
      rw [if_neg]
      rintro (⟨h1, h2⟩ | ⟨h1, h2⟩) <;> rcases hn with ⟨h3, h4⟩ | ⟨h3, h4⟩ <;> linarith
    unfold radRecord
    dsimp only
    rw [this]
    simp

/-- The records of a step are those of its surfaces, which are numbered toroidal planes first, then
poloidal planes, then radial surfaces. -/
theorem surfaces (pi : K) (m : Mode) (s : Planes K) (f i : Mrk K) (g : Pt K → Pt K) :
    g ∈ poincareRecords pi m s f i ↔
      (∃ j a, s.tor[j]? = some a ∧ torRecord pi m f i (a, j) = some g) ∨
      (∃ j a, s.pol[j]? = some a ∧ polRecord pi m s.tor.length f i (a, j) = some g) ∨
      (∃ j a, s.rad[j]? = some a ∧ radRecord m (s.tor.length + s.pol.length) f i (a, j) = some g) := by
  unfold poincareRecords
  simp only [List.mem_append, List.mem_filterMap, Prod.exists, List.mem_zipIdx_iff_getElem?]
  constructor
  · rintro ((⟨a, j, h1, h2⟩ | ⟨a, j, h1, h2⟩) | ⟨a, j, h1, h2⟩)
    · exact Or.inl ⟨j, a, h1, h2⟩
    · exact Or.inr (Or.inl ⟨j, a, h1, h2⟩)
    · exact Or.inr (Or.inr ⟨j, a, h1, h2⟩)
  · rintro (⟨j, a, h1, h2⟩ | ⟨j, a, h1, h2⟩ | ⟨j, a, h1, h2⟩)
    · exact Or.inl (Or.inl ⟨a, j, h1, h2⟩)
    · exact Or.inl (Or.inr ⟨a, j, h1, h2⟩)
    · exact Or.inr ⟨a, j, h1, h2⟩

/-- All records of a step go to the memory of the marker, one after another; with `ring_records`
the memory always holds the latest points. -/
theorem poincare_ring (pi : K) (N : Nat) (hN : 0 < N) (s : Planes K) (steps : List (Mode × Mrk K × Mrk K)) (k t : Nat)
    (g : Pt K → Pt K) :
    let d := steps.foldl (fun d x => poincare pi x.1 s x.2.1 x.2.2 d) (init N)
    let h := (steps.filter (fun x => x.2.1.id > 0 ∧ x.2.1.mileage ≠ x.2.2.mileage ∧ x.2.1.index = k)).flatMap
      (fun x => poincareRecords pi x.1 s x.2.1 x.2.2)
    h[t]? = some g → h.length ≤ t + N → ∃ o, d.buf (k * N + t % N) = g o := by
  intro d h ht hl
  have key : ∀ (steps : List (Mode × Mrk K × Mrk K)) (d : Orb K) (H : Nat → List (Pt K → Pt K)), Ring N (init N) d H →
      Ring N (init N) (steps.foldl (fun d x => poincare pi x.1 s x.2.1 x.2.2 d) d)
        (fun k => H k ++ (steps.filter (fun x => x.2.1.id > 0 ∧ x.2.1.mileage ≠ x.2.2.mileage ∧
          x.2.1.index = k)).flatMap (fun x => poincareRecords pi x.1 s x.2.1 x.2.2)) := by
    intro steps
    induction steps with
    | nil => intro d H h; simpa using h
    | cons x steps ih =>
      intro d H h
      rw [List.foldl_cons]
      by_cases hc : x.2.1.id > 0 ∧ x.2.1.mileage ≠ x.2.2.mileage
      · have h1 := ring_records hN ((poincareRecords pi x.1 s x.2.1 x.2.2).map
          (fun g => (x.2.1.index, g, x.2.1.mileage))) h
        rw [List.foldl_map] at h1
        have e : poincare pi x.1 s x.2.1 x.2.2 d = (poincareRecords pi x.1 s x.2.1 x.2.2).foldl
            (fun d g => record d x.2.1.index g x.2.1.mileage) d := by
          unfold poincare; rw [if_pos hc]
        rw [e]
        convert ih _ _ h1 using 1
        funext k
        rw [List.filter_cons]
        by_cases hk : x.2.1.index = k
        · have hp : decide (x.2.1.id > 0 ∧ x.2.1.mileage ≠ x.2.2.mileage ∧ x.2.1.index = k) = true := by
            simp only [decide_eq_true_eq]; exact ⟨hc.1, hc.2, hk⟩
          rw [if_pos hp, List.flatMap_cons, ← List.append_assoc]
          congr 2
          rw [List.filter_map, List.map_map]
          simp [Function.comp_def, hk]
        · have hp : ¬ decide (x.2.1.id > 0 ∧ x.2.1.mileage ≠ x.2.2.mileage ∧ x.2.1.index = k) = true := by
            simp only [decide_eq_true_eq]; exact fun h => hk h.2.2
          rw [if_neg hp, List.filter_map]
          simp [Function.comp_def, hk]
      · have e : poincare pi x.1 s x.2.1 x.2.2 d = d := by unfold poincare; rw [if_neg hc]
        rw [e]
        convert ih d H h using 1
        funext k
        rw [List.filter_cons, if_neg]
        simp only [decide_eq_true_eq]
        exact fun h => hc ⟨h.1, h.2.1⟩
  have := (key steps (init N) (fun _ => []) (ring_init N hN)).latest k t g
  simp only [List.nil_append] at this
  exact this ht hl

/-- Witness: a step of three quarters of a turn from 0 passes the plane at 5/8 of a turn, but the
point is recorded at 3/8 of a turn (`pi = 4`). -/
theorem plane_fails : Between (0 : ℚ) 5 6 ∧ planeCrossing (4 : ℚ) 6 0 5 = 1 / 2 ∧ (0 : ℚ) + 1 / 2 * (6 - 0) = 3 := by
  refine ⟨Or.inl (by norm_num), by decide +kernel, by norm_num⟩

/-- Witness: a marker that moves outwards through `rho = 1` with one step that ends exactly there and
another that begins there is not recorded at all; nor is one that comes from above to the plane at
angle 1 and moves on below it. -/
theorem touch_fails : radialCrossing (1 : ℚ) 0 1 = 0 ∧ radialCrossing (2 : ℚ) 1 1 = 0 ∧
    planeCrossing (4 : ℚ) 1 2 1 = 0 ∧ planeCrossing (4 : ℚ) 0 1 1 = 0 := by
  refine ⟨?_, ?_, ?_, ?_⟩ <;> decide +kernel

/-- For full-orbit markers the recorded point of a radial crossing is mirrored on the middle of the
step, so it is on the surface only if the crossing is in the middle. -/
theorem radial_fo_fails (nother : Nat) (f i : Mrk K) (rho0 : K) (j : Nat) (hb : Between i.rho rho0 f.rho) :
    ∃ g, radRecord .fo nother f i (rho0, j) = some g ∧ ∀ o, (g o).rho = f.rho + i.rho - rho0 := by
  have hv := radial_value hb
  obtain ⟨k1, k2, -, -⟩ := fraction hb
  refine ⟨_, by unfold radRecord; dsimp only; rw [hv, if_pos k1], ?_⟩
  intro o
  show (1 - |rho0 - i.rho| / |f.rho - i.rho|) * f.rho + |rho0 - i.rho| / |f.rho - i.rho| * i.rho = _
  linear_combination (-1 : K) * k2

/-- The mode of a radial record is not stored: whatever was in memory stays. -/
theorem radial_simmode_fails (m : Mode) (nother : Nat) (f i : Mrk K) (x : K × Nat) (g : Pt K → Pt K)
    (h : radRecord m nother f i x = some g) (o : Pt K) : (g o).simmode = o.simmode := by
  unfold radRecord at h
  dsimp only at h
  split at h
  · cases m <;> (simp only [Option.some.injEq] at h; subst h; rfl)
  · cases h

/-- A step that crosses: from 1 to 3 through the plane at 2, `pi = 4`. -/
example : Between (1 : ℚ) (2 + (0 : Int) * (2 * 4)) 3 ∧ |(3 : ℚ) - 1| ≤ 4 := by
  refine ⟨Or.inl (by norm_num), by norm_num⟩

end Ascot.C28
