import Verif.Model.CoilField
import Verif.Spec.Revolve
import Mathlib.Algebra.BigOperators.Field
import Mathlib.Tactic.Ring
import Mathlib.Tactic.Linarith
import Mathlib.Tactic.FieldSimp
import Mathlib.Tactic.LinearCombination

set_option linter.unusedSectionVars false
set_option linter.unusedSimpArgs false

/-!
# C163: fields of coils are sums over the coils, revolved ones included, and keep the field they are added to
-/
namespace Ascot.C163

open CoilField Revolve

/-! ## Rotation -/

theorem dot_turn (a : ℝ) (u v : V3 ℝ) : V3.dot (turn a u) (turn a v) = V3.dot u v := by
  unfold V3.dot turn
  simp only
  linear_combination (u.x * v.x + u.y * v.y) * Real.cos_sq_add_sin_sq a

theorem norm_turn (a : ℝ) (u : V3 ℝ) : V3.norm Real.sqrt (turn a u) = V3.norm Real.sqrt u := by
  have := dot_turn a u u
  unfold V3.dot at this
  unfold V3.norm
  rw [this]

theorem sub_turn (a : ℝ) (u v : V3 ℝ) : V3.sub (turn a u) (turn a v) = turn a (V3.sub u v) := by
  unfold V3.sub turn
  ext <;> simp only <;> ring

theorem cross_turn (a : ℝ) (u v : V3 ℝ) : V3.cross (turn a u) (turn a v) = turn a (V3.cross u v) := by
  unfold V3.cross turn
  ext <;> simp only
  · ring
  · ring
  · linear_combination (u.x * v.y - u.y * v.x) * Real.cos_sq_add_sin_sq a

/-- The field of a turned segment at a turned point is the turned field. -/
theorem segment_turn (mu0 a : ℝ) (p1 p2 x : V3 ℝ) :
    Biosaw.segment mu0 (turn a p1) (turn a p2) (turn a x) = (Biosaw.segment mu0 p1 p2 x).map (turn a) := by
  have hxs : ∀ s : ℝ, (⟨(turn a p1).x + s * (turn a (V3.sub p2 p1)).x - (turn a x).x,
      (turn a p1).y + s * (turn a (V3.sub p2 p1)).y - (turn a x).y,
      (turn a p1).z + s * (turn a (V3.sub p2 p1)).z - (turn a x).z⟩ : V3 ℝ)
      = turn a ⟨p1.x + s * (V3.sub p2 p1).x - x.x, p1.y + s * (V3.sub p2 p1).y - x.y, p1.z + s * (V3.sub p2 p1).z - x.z⟩ := by
    intro s
    unfold turn
    ext <;> simp only <;> ring
  unfold Biosaw.segment
  simp only [sub_turn, dot_turn, norm_turn, hxs, cross_turn]
  split_ifs with h
  · rfl
  · rw [Option.map_some, Option.some.injEq]
    unfold turn
    ext <;> simp only <;> ring

theorem turn_add (a : ℝ) (u v : Option (V3 ℝ)) : (Biosaw.add u v).map (turn a) = Biosaw.add (u.map (turn a)) (v.map (turn a)) := by
  cases u with
  | none => rfl
  | some u =>
    cases v with
    | none => rfl
    | some v =>
      unfold Biosaw.add
      simp only [Option.bind_some, Option.map_some, Option.some.injEq]
      unfold turn
      ext <;> simp only <;> ring

theorem loop_turn (mu0 a : ℝ) (x : V3 ℝ) : ∀ (ps : List (V3 ℝ)) (p : V3 ℝ) (B : Option (V3 ℝ)),
    Biosaw.loop mu0 (turn a x) (turn a p) (ps.map (turn a)) (B.map (turn a)) = (Biosaw.loop mu0 x p ps B).map (turn a)
  | [], _, _ => rfl
  | q :: ps, p, B => by
    rw [List.map_cons, Biosaw.loop, Biosaw.loop, segment_turn, ← turn_add, loop_turn mu0 a x ps q]

theorem coil_turn (mu0 a : ℝ) (c : List (V3 ℝ) × ℝ) (x : V3 ℝ) :
    coil mu0 (c.1.map (turn a), c.2) (turn a x) = (coil mu0 c x).map (turn a) := by
  unfold coil Biosaw.calcB
  cases hc : c.1 with
  | nil => rfl
  | cons p ps =>
    simp only [List.map_cons, Option.bind_some, id]
    have h0 : (some ⟨0, 0, 0⟩ : Option (V3 ℝ)) = (some ⟨0, 0, 0⟩ : Option (V3 ℝ)).map (turn a) := by
      rw [Option.map_some, Option.some.injEq]
      unfold turn
      ext <;> simp
    rw [h0, loop_turn, Option.map_map, ← h0, Option.map_map]
    congr 1
    funext B
    unfold turn
    simp only [Function.comp]
    ext <;> simp only <;> ring

theorem total_turn (mu0 a : ℝ) (cs : List (List (V3 ℝ) × ℝ)) (x : V3 ℝ) :
    total mu0 (turnCoils a cs) (turn a x) = (total mu0 cs x).map (turn a) := by
  have : ∀ (cs : List (List (V3 ℝ) × ℝ)) (B : Option (V3 ℝ)),
      (turnCoils a cs).foldl (fun B c => Biosaw.add B (coil mu0 c (turn a x))) (B.map (turn a))
        = (cs.foldl (fun B c => Biosaw.add B (coil mu0 c x)) B).map (turn a) := by
    intro cs
    induction cs with
    | nil => intro B; rfl
    | cons c cs ih =>
      intro B
      unfold turnCoils at ih ⊢
      rw [List.map_cons, List.foldl_cons, List.foldl_cons, coil_turn, ← turn_add, ih]
  unfold total
  rw [← this]
  congr 1
  rw [Option.map_some, Option.some.injEq]
  unfold turn
  ext <;> simp

/-- **Rotation.**  The field of turned coils, in components along R, phi and z, is that of the coils at the angle turned
back. -/
theorem rotated (mu0 a : ℝ) (cs : List (List (V3 ℝ) × ℝ)) (r phi z : ℝ) :
    field mu0 (turnCoils a cs) r phi z = field mu0 cs r (phi - a) z := by
  have hp : point r phi z = turn a (point r (phi - a) z) := by
    unfold point turn
    rw [Real.cos_sub, Real.sin_sub]
    ext <;> simp only
    · linear_combination -(r * Real.cos phi) * Real.cos_sq_add_sin_sq a
    · linear_combination -(r * Real.sin phi) * Real.cos_sq_add_sin_sq a
  unfold field
  rw [hp, total_turn, Option.map_map]
  congr 1
  funext B
  unfold cylindrical turn
  rw [Real.cos_sub, Real.sin_sub]
  ext <;> simp only [Function.comp] <;> ring

/-! ## Superposition -/

theorem add_assoc' (u v w : Option (V3 ℝ)) : Biosaw.add (Biosaw.add u v) w = Biosaw.add u (Biosaw.add v w) := by
  cases u <;> cases v <;> cases w <;> try rfl
  unfold Biosaw.add
  simp only [Option.bind_some, Option.map_some, Option.some.injEq]
  ext <;> simp only <;> ring

theorem zero_add' (u : Option (V3 ℝ)) : Biosaw.add (some ⟨0, 0, 0⟩) u = u := by
  cases u <;> simp [Biosaw.add]

theorem total_from (mu0 : ℝ) (x : V3 ℝ) : ∀ (cs : List (List (V3 ℝ) × ℝ)) (B : Option (V3 ℝ)),
    cs.foldl (fun B c => Biosaw.add B (coil mu0 c x)) B = Biosaw.add B (total mu0 cs x)
  | [], B => by
    cases B <;> simp [total, Biosaw.add]
  | c :: cs, B => by
    unfold total
    rw [List.foldl_cons, List.foldl_cons, total_from mu0 x cs, zero_add', total_from mu0 x cs (coil mu0 c x), add_assoc']

theorem total_append (mu0 : ℝ) (x : V3 ℝ) (cs cs' : List (List (V3 ℝ) × ℝ)) :
    total mu0 (cs ++ cs') x = Biosaw.add (total mu0 cs x) (total mu0 cs' x) := by
  unfold total
  rw [List.foldl_append, total_from]
  rfl

/-- **Superposition.**  The field of two sets of coils is the sum of their fields. -/
theorem superposed (mu0 : ℝ) (cs cs' : List (List (V3 ℝ) × ℝ)) (r phi z : ℝ) :
    field mu0 (cs ++ cs') r phi z = Biosaw.add (field mu0 cs r phi z) (field mu0 cs' r phi z) := by
  unfold field
  rw [total_append]
  cases total mu0 cs (point r phi z) <;> cases total mu0 cs' (point r phi z) <;> try rfl
  unfold Biosaw.add
  simp only [Option.bind_some, Option.map_some, Option.some.injEq]
  unfold cylindrical
  ext <;> simp only <;> ring

/-- **Currents.**  With all currents multiplied by a number, so is the field. -/
theorem scaled (mu0 k : ℝ) (cs : List (List (V3 ℝ) × ℝ)) (r phi z : ℝ) :
    field mu0 (cs.map fun c => (c.1, c.2 * k)) r phi z
      = (field mu0 cs r phi z).map fun B => ⟨B.x * k, B.y * k, B.z * k⟩ := by
  have h1 : ∀ c x, coil mu0 (c.1, c.2 * k) x = (coil mu0 c x).map fun B => (⟨B.x * k, B.y * k, B.z * k⟩ : V3 ℝ) := by
    intro c x
    unfold coil
    rw [Option.map_map]
    congr 1
    funext B
    simp only [Function.comp]
    ext <;> simp only <;> ring
  have h2 : ∀ (x : V3 ℝ), total mu0 (cs.map fun c => (c.1, c.2 * k)) x
      = (total mu0 cs x).map fun B => (⟨B.x * k, B.y * k, B.z * k⟩ : V3 ℝ) := by
    intro x
    induction cs with
    | nil => simp [total]
    | cons c cs ih =>
      rw [List.map_cons, ← List.singleton_append, ← List.singleton_append (l := cs), total_append, total_append, ih]
      have e : total mu0 [(c.1, c.2 * k)] x = (total mu0 [c] x).map fun B => (⟨B.x * k, B.y * k, B.z * k⟩ : V3 ℝ) := by
        unfold total
        rw [List.foldl_cons, List.foldl_nil, List.foldl_cons, List.foldl_nil, zero_add', zero_add', h1]
      rw [e]
      cases total mu0 [c] x <;> cases total mu0 cs x <;> try rfl
      unfold Biosaw.add
      simp only [Option.bind_some, Option.map_some, Option.some.injEq]
      ext <;> simp only <;> ring
  unfold field
  rw [h2, Option.map_map, Option.map_map]
  congr 1
  funext B
  unfold cylindrical
  simp only [Function.comp]
  ext <;> simp only <;> ring

/-- If there are fewer currents than coils, the last coils are left out without a message. -/
theorem left_out (coils more : List (List (V3 ℝ))) {currents : List ℝ} (h : currents.length = coils.length) :
    pairs (coils ++ more) currents = pairs coils currents := by
  unfold pairs
  have := List.zip_append (l₁ := coils) (r₁ := more) (l₂ := currents) (r₂ := []) h.symm
  simpa using this

/-- One current is that of all coils. -/
theorem same (coils : List (List (V3 ℝ))) (I : ℝ) : sameCurrent coils I = coils.map fun c => (c, I) := by
  unfold sameCurrent pairs
  induction coils with
  | nil => rfl
  | cons c cs ih => simp [List.replicate_succ] at ih ⊢; exact ih

/-- **Segments.**  A coil is refused if and only if two consecutive points coincide. -/
theorem checked : ∀ ps : List (V3 ℝ), valid ps ↔ List.IsChain (· ≠ ·) ps
  | [] => by simp [valid]
  | [p] => by simp [valid]
  | p :: q :: ps => by
    rw [valid, List.isChain_cons_cons, checked (q :: ps)]
    refine and_congr_left fun _ => ?_
    constructor
    · rintro h rfl
      simp at h
    · intro h hz
      have h1 : q.x - p.x = 0 := by nlinarith [sq_nonneg (q.x - p.x), sq_nonneg (q.y - p.y), sq_nonneg (q.z - p.z)]
      have h2 : q.y - p.y = 0 := by nlinarith [sq_nonneg (q.x - p.x), sq_nonneg (q.y - p.y), sq_nonneg (q.z - p.z)]
      have h3 : q.z - p.z = 0 := by nlinarith [sq_nonneg (q.x - p.x), sq_nonneg (q.y - p.y), sq_nonneg (q.z - p.z)]
      exact h (V3.ext (by linarith) (by linarith) (by linarith))

/-! ## Revolved coils -/

theorem roll_field (mu0 : ℝ) (cs : List (List (V3 ℝ) × ℝ)) (r z phi0 w : ℝ) {n : ℕ} {s j : ℕ} (hs : s < n) (hj : j < n) :
    roll n s (fun j => field mu0 cs r (phi0 + j * w) z) j
      = field mu0 (turnCoils (s * w - if s ≤ j then 0 else n * w) cs) r (phi0 + j * w) z := by
  rw [rotated]
  unfold roll
  simp only
  congr 1
  by_cases h : s ≤ j
  · have e : (((j : ℤ) - s) % n).toNat = j - s := by
      rw [Int.emod_eq_of_lt (by omega) (by omega)]
      omega
    rw [e, if_pos h, Nat.cast_sub h]
    ring
  · have e : (((j : ℤ) - s) % n).toNat = j + n - s := by
      rw [← Int.add_emod_right, Int.emod_eq_of_lt (by omega) (by omega)]
      omega
    rw [e, if_neg h, Nat.cast_sub (by omega)]
    push_cast
    ring

theorem revolve_spec (mu0 : ℝ) (cs : List (List (V3 ℝ) × ℝ)) (r z phi0 w : ℝ) {n rev : ℕ} (hr : 0 < rev) :
    ∀ (fuel i : ℕ) (F : ℕ → Option (V3 ℝ)), n < fuel + i →
    (∀ j, j < n → F j = field mu0 (copies (fun i => (i * rev : ℕ) * w - if i * rev ≤ j then 0 else n * w) i cs) r (phi0 + j * w) z) →
    (0 < i → (i - 1) * rev < n) →
    ∃ m G, revolve n rev (fun j => field mu0 cs r (phi0 + j * w) z) fuel i F = some G ∧ n ≤ m * rev ∧ (0 < m → (m - 1) * rev < n) ∧
      ∀ j, j < n →
        G j = field mu0 (copies (fun i => (i * rev : ℕ) * w - if i * rev ≤ j then 0 else n * w) m cs) r (phi0 + j * w) z
  | 0, i, F, hf, hF, hi => by
    exfalso
    have h1 := hi (by omega)
    have : i - 1 ≤ (i - 1) * rev := Nat.le_mul_of_pos_right _ hr
    omega
  | fuel + 1, i, F, hf, hF, hi => by
    unfold revolve
    split_ifs with hc
    · have hc' : i * rev < n := by exact_mod_cast hc
      refine revolve_spec mu0 cs r z phi0 w hr fuel (i + 1) _ (by omega) (fun j hj => ?_) (fun _ => by simpa using hc')
      have hroll := roll_field mu0 cs r z phi0 w hc' hj
      have ec : ((i : ℤ) * (rev : ℤ)) = ((i * rev : ℕ) : ℤ) := by push_cast; rfl
      rw [ec, hroll, hF j hj, ← superposed]
      congr 1
      unfold copies
      rw [List.range_succ, List.flatMap_append]
      simp
    · refine ⟨i, F, rfl, ?_, hi, hF⟩
      have : ¬ (i * rev < n) := fun h => hc (by exact_mod_cast h)
      omega

theorem turn_zero (v : V3 ℝ) : turn 0 v = v := by
  unfold turn
  simp

theorem copies_one (a : ℕ → ℝ) (ha : a 0 = 0) (cs : List (List (V3 ℝ) × ℝ)) : copies a 1 cs = cs := by
  unfold copies turnCoils
  rw [show List.range 1 = [0] from rfl, List.flatMap_cons, List.flatMap_nil, List.append_nil, ha]
  rw [show turn 0 = id from funext turn_zero]
  simp

/-- **Revolved coils.**  On a uniform toroidal grid of width `n w`, `revolve` gives the field of the coils and of copies turned
by multiples of `revolve` cells, where a copy that has been turned beyond the point comes from the other end of the grid. -/
theorem revolved_grid (mu0 : ℝ) (cs : List (List (V3 ℝ) × ℝ)) (r z phi0 w : ℝ) {n rev : ℕ} (hr : 0 < rev) (hn : 0 < n) {fuel : ℕ}
    (hf : n ≤ fuel) :
    ∃ m G, calculate mu0 cs r (fun j => phi0 + j * w) n z rev fuel = some G ∧ n ≤ m * rev ∧ (m - 1) * rev < n ∧
      ∀ j, j < n →
        G j = field mu0 (copies (fun i => (i * rev : ℕ) * w - if i * rev ≤ j then 0 else n * w) m cs) r (phi0 + j * w) z := by
  unfold calculate
  obtain ⟨m, G, h1, h2, h3, h4⟩ := revolve_spec (n := n) mu0 cs r z phi0 w hr fuel 1 (fun j => field mu0 cs r (phi0 + j * w) z)
    (by omega) (fun j _ => by rw [copies_one _ (by simp)]) (by simp [hn])
  exact ⟨m, G, h1, h2, h3 (Nat.pos_of_ne_zero (by rintro rfl; omega)), h4⟩

theorem turn_period (a : ℝ) : turn (a - 2 * Real.pi) = turn a := by
  funext v
  unfold turn
  rw [Real.cos_sub_two_pi, Real.sin_sub_two_pi]

/-- **Revolved coils, whole torus.**  If the grid covers the torus, the field is that of the coils together with their
copies turned by the angles of every `revolve`-th point of the grid. -/
theorem revolved (mu0 : ℝ) (cs : List (List (V3 ℝ) × ℝ)) (r z phi0 : ℝ) {n rev : ℕ} (hr : 0 < rev) (hn : 0 < n) {fuel : ℕ}
    (hf : n ≤ fuel) :
    ∃ m G, calculate mu0 cs r (fun j => phi0 + j * (2 * Real.pi / n)) n z rev fuel = some G ∧ n ≤ m * rev ∧ (m - 1) * rev < n ∧
      ∀ j, j < n → G j = field mu0 (copies (fun i => (i * rev : ℕ) * (2 * Real.pi / n)) m cs) r (phi0 + j * (2 * Real.pi / n)) z := by
  obtain ⟨m, G, h1, h2, h3, h4⟩ := revolved_grid mu0 cs r z phi0 (2 * Real.pi / n) hr hn hf
  refine ⟨m, G, h1, h2, h3, fun j hj => (h4 j hj).trans ?_⟩
  have hn' : (n : ℝ) ≠ 0 := by exact_mod_cast hn.ne'
  congr 1
  unfold copies
  refine congrArg (fun f => (List.range m).flatMap f) (funext fun i => ?_)
  simp only
  split_ifs
  · rw [sub_zero]
  · unfold turnCoils
    rw [mul_div_cancel₀ _ hn', turn_period]

example : ∃ n rev fuel : ℕ, 0 < rev ∧ 0 < n ∧ n ≤ fuel := ⟨360, 20, 360, by norm_num, by norm_num, by norm_num⟩

/-- If the number of points is a multiple of `revolve`, there are as many coils as the multiple. -/
theorem number {n rev q m : ℕ} (hr : 0 < rev) (hq : n = q * rev) (h1 : n ≤ m * rev) (h2 : (m - 1) * rev < n) (hm : 0 < m) :
    m = q := by
  subst hq
  have h3 : q ≤ m := Nat.le_of_mul_le_mul_right h1 hr
  have h4 : m - 1 < q := Nat.lt_of_mul_lt_mul_right h2
  omega

/-- A vertical wire at x = 2. -/
noncomputable def wire : List (List (V3 ℝ) × ℝ) := [([⟨2, 0, -1⟩, ⟨2, 0, 1⟩], 1)]

theorem wire_field {mu0 : ℝ} (hm : 0 < mu0) (x y : ℝ) (h : 0 < (x - 2) ^ 2 + y ^ 2) :
    ∃ k : ℝ, 0 < k ∧ total mu0 wire ⟨x, y, 0⟩ = some ⟨-(k * y), k * (x - 2), 0⟩ := by
  have hpi := Real.pi_pos
  obtain ⟨q, hq⟩ : ∃ q, q = (x - 2) ^ 2 + y ^ 2 := ⟨_, rfl⟩
  rw [← hq] at h
  have e1 : V3.norm Real.sqrt (V3.sub ⟨x, y, 0⟩ ⟨2, 0, -1⟩ : V3 ℝ) = Real.sqrt (q + 1) := by
    unfold V3.norm V3.sub
    congr 1
    simp only [hq]
    ring
  have e2 : V3.norm Real.sqrt (V3.sub ⟨x, y, 0⟩ ⟨2, 0, 1⟩ : V3 ℝ) = Real.sqrt (q + 1) := by
    unfold V3.norm V3.sub
    congr 1
    simp only [hq]
    ring
  have e3 : V3.norm Real.sqrt (V3.sub ⟨2, 0, 1⟩ ⟨2, 0, -1⟩ : V3 ℝ) = 2 := by
    unfold V3.norm V3.sub
    rw [show (2 : ℝ) = Real.sqrt (2 * 2) from (Real.sqrt_mul_self (by norm_num)).symm]
    congr 1
    rw [Real.sqrt_mul_self (by norm_num)]
    norm_num
  have e4 : V3.dot (V3.sub ⟨2, 0, 1⟩ ⟨2, 0, -1⟩ : V3 ℝ) (V3.sub ⟨x, y, 0⟩ ⟨2, 0, -1⟩) = 2 := by
    unfold V3.dot V3.sub
    norm_num
  have e5 : V3.dot (V3.sub ⟨2, 0, 1⟩ ⟨2, 0, -1⟩ : V3 ℝ) (V3.sub ⟨2, 0, 1⟩ ⟨2, 0, -1⟩) = 4 := by
    unfold V3.dot V3.sub
    norm_num
  have e6 : V3.cross (V3.sub ⟨x, y, 0⟩ ⟨2, 0, -1⟩ : V3 ℝ) (V3.sub ⟨x, y, 0⟩ ⟨2, 0, 1⟩) = ⟨-(2 * y), 2 * (x - 2), 0⟩ := by
    unfold V3.cross V3.sub
    ext <;> simp only <;> ring
  have e7 : V3.norm Real.sqrt (⟨-(2 * y), 2 * (x - 2), 0⟩ : V3 ℝ) = 2 * Real.sqrt q := by
    unfold V3.norm
    rw [show (2 : ℝ) * Real.sqrt q = Real.sqrt (4 * q) by
      rw [Real.sqrt_mul (by norm_num), show (4 : ℝ) = 2 * 2 by norm_num, Real.sqrt_mul_self (by norm_num)]]
    congr 1
    simp only [hq]
    ring
  have e8 : V3.norm Real.sqrt (⟨2 + 2 / 4 * (V3.sub ⟨2, 0, 1⟩ ⟨2, 0, -1⟩ : V3 ℝ).x - x,
      0 + 2 / 4 * (V3.sub ⟨2, 0, 1⟩ ⟨2, 0, -1⟩ : V3 ℝ).y - y, -1 + 2 / 4 * (V3.sub ⟨2, 0, 1⟩ ⟨2, 0, -1⟩ : V3 ℝ).z - 0⟩ : V3 ℝ)
      = Real.sqrt q := by
    unfold V3.norm V3.sub
    congr 1
    simp only [hq]
    ring
  have p1 : 0 < Real.sqrt q := Real.sqrt_pos.2 h
  have p2 : 0 < Real.sqrt (q + 1) := Real.sqrt_pos.2 (by linarith)
  refine ⟨mu0 / (4 * Real.pi) * ((2 - 2 / 4 * 2) / Real.sqrt (q + 1) + 2 / 4 * 2 / Real.sqrt (q + 1)) / Real.sqrt q / Real.sqrt q,
    by norm_num; positivity, ?_⟩
  unfold total wire
  rw [List.foldl_cons, List.foldl_nil, zero_add']
  unfold coil Biosaw.calcB
  simp only [Option.bind_some, id]
  rw [Biosaw.loop, Biosaw.loop, zero_add']
  unfold Biosaw.segment
  simp only [e1, e2, e3, e4, e5, e6, e7, e8]
  rw [if_neg (by
    rintro (h | h | h | h | h)
    · norm_num at h
    · exact p2.ne' h
    · exact p2.ne' h
    · exact p1.ne' h
    · linarith)]
  rw [Option.map_some, Option.some.injEq]
  ext <;> simp only <;> field_simp <;> ring

/-- **Part of the torus.**  If the grid covers only a part of the torus, here the half with two points, the field is not that of the
revolved coils: the copy beyond the first point is taken from the other end of the grid. -/
theorem part {mu0 : ℝ} (hm : 0 < mu0) : ∃ G,
    calculate mu0 wire 1 (fun j => 0 + j * (Real.pi / 2)) 2 0 (1 : ℕ) 2 = some G ∧
    G 0 ≠ field mu0 (copies (fun i => i * (Real.pi / 2)) 2 wire) 1 0 0 := by
  obtain ⟨m, G, h1, h2, h3, h4⟩ := revolved_grid mu0 wire 1 0 0 (Real.pi / 2) (n := 2) (rev := 1) (by norm_num) (by norm_num) (fuel := 2)
    (by norm_num)
  have hm2 : m = 2 := by omega
  subst hm2
  refine ⟨G, h1, fun he => ?_⟩
  have h5 := (h4 0 (by norm_num)).symm.trans he
  have hc : ∀ a : ℕ → ℝ, copies a 2 wire = turnCoils (a 0) wire ++ turnCoils (a 1) wire := by
    intro a
    unfold copies
    rw [show List.range 2 = [0, 1] from rfl, List.flatMap_cons, List.flatMap_cons, List.flatMap_nil, List.append_nil]
  rw [hc, hc, Nat.cast_zero, zero_mul, add_zero, superposed, superposed, rotated, rotated, rotated, rotated] at h5
  obtain ⟨k0, hk0, t0⟩ := wire_field hm 1 0 (by norm_num)
  obtain ⟨k1, hk1, t1⟩ := wire_field hm 0 1 (by norm_num)
  obtain ⟨k2, hk2, t2⟩ := wire_field hm 0 (-1) (by norm_num)
  have f0 : field mu0 wire 1 0 0 = some (cylindrical 0 ⟨-(k0 * 0), k0 * (1 - 2), 0⟩) := by
    unfold field point
    rw [Real.cos_zero, Real.sin_zero, mul_one, mul_zero, t0, Option.map_some]
  have f1 : field mu0 wire 1 (Real.pi / 2) 0 = some (cylindrical (Real.pi / 2) ⟨-(k1 * 1), k1 * (0 - 2), 0⟩) := by
    unfold field point
    rw [Real.cos_pi_div_two, Real.sin_pi_div_two, mul_one, mul_zero, t1, Option.map_some]
  have f2 : field mu0 wire 1 (-(Real.pi / 2)) 0 = some (cylindrical (-(Real.pi / 2)) ⟨-(k2 * -1), k2 * (0 - 2), 0⟩) := by
    unfold field point
    rw [Real.cos_neg, Real.sin_neg, Real.cos_pi_div_two, Real.sin_pi_div_two, mul_zero, one_mul, t2, Option.map_some]
  have a1 : (0 : ℝ) - (((1 * 1 : ℕ) : ℝ) * (Real.pi / 2) - if 1 * 1 ≤ 0 then 0 else ((2 : ℕ) : ℝ) * (Real.pi / 2)) = Real.pi / 2 := by
    rw [if_neg (by norm_num)]
    push_cast
    ring
  have a2 : (0 : ℝ) - ((1 : ℕ) : ℝ) * (Real.pi / 2) = -(Real.pi / 2) := by
    push_cast
    ring
  have a3 : (0 : ℝ) - (0 - if 0 * 1 ≤ 0 then 0 else ((2 : ℕ) : ℝ) * (Real.pi / 2)) = 0 := by
    simp
  have a4 : (0 : ℝ) - 0 = 0 := sub_zero _
  simp only [a1, a2, a3, a4, f0, f1, f2] at h5
  unfold Biosaw.add cylindrical at h5
  simp only [Option.bind_some, Option.map_some, Option.some.injEq, V3.mk.injEq, Real.cos_neg, Real.sin_neg, Real.cos_pi_div_two,
    Real.sin_pi_div_two] at h5
  have := h5.1
  linarith

example : ∃ mu0 : ℝ, 0 < mu0 := ⟨1, one_pos⟩

/-- With `revolve=0` the computation does not end. -/
theorem endless (mu0 : ℝ) (cs : List (List (V3 ℝ) × ℝ)) (r z : ℝ) (phi : ℕ → ℝ) {n : ℕ} (hn : 0 < n) (fuel : ℕ) :
    calculate mu0 cs r phi n z 0 fuel = none := by
  have : ∀ (F0 : ℕ → Option (V3 ℝ)) (fuel i : ℕ) (F : ℕ → Option (V3 ℝ)), revolve n 0 F0 fuel i F = none := by
    intro F0 fuel
    induction fuel with
    | zero => intro i F; rfl
    | succ fuel ih =>
      intro i F
      unfold revolve
      rw [if_pos (by simpa using hn), ih]
  exact this _ _ _ _

/-! ## Addition to other fields -/

/-- **Axisymmetric part.**  The toroidal average of the toroidal field is that of the axisymmetric input, unless that is
excluded. -/
theorem average {n : ℕ} (hn : 0 < n) (s : ℝ) (bphi : ℕ → ℕ → ℕ → ℝ) (b2d : ℕ → ℕ → ℝ) (i k : ℕ) :
    mean n (bphi2d n s bphi b2d false) i k = b2d i k := by
  have hn' : (n : ℝ) ≠ 0 := by exact_mod_cast hn.ne'
  unfold bphi2d
  simp only [Bool.false_eq_true, if_false]
  unfold mean
  rw [Finset.sum_add_distrib, Finset.sum_const, Finset.card_range, nsmul_eq_mul, add_div, mul_div_cancel_left₀ _ hn']
  ring

/-- Hence a value on the axis that the user asks for is not used in this case: the average on the axis is that of the input
whatever `b0`. -/
theorem value_ignored (interp : (ℕ → ℕ → ℝ) → ℝ) {n : ℕ} (hn : 0 < n) (bphi : ℕ → ℕ → ℕ → ℝ) (b2d : ℕ → ℕ → ℝ) (b : B0) :
    interp (mean n (bphi2d n (scaling interp n bphi b2d b) bphi b2d false)) = interp b2d := by
  congr 1
  funext i k
  exact average hn _ _ _ i k

/-- **Value on the axis.**  If the field of the input is excluded, the average on the axis is the value asked for, or that of
the input.  The interpolation is linear. -/
theorem value (interp : (ℕ → ℕ → ℝ) → ℝ) (hlin : ∀ (s : ℝ) (f : ℕ → ℕ → ℝ), interp (fun i k => s * f i k) = s * interp f)
    (n : ℕ) (bphi : ℕ → ℕ → ℕ → ℝ) (b2d : ℕ → ℕ → ℝ) (hne : interp (mean n bphi) ≠ 0) :
    (∀ b, interp (mean n (bphi2d n (scaling interp n bphi b2d (.value b)) bphi b2d true)) = b) ∧
    interp (mean n (bphi2d n (scaling interp n bphi b2d .axis) bphi b2d true)) = interp b2d := by
  have h : ∀ s, mean n (bphi2d n s bphi b2d true) = fun i k => s * mean n bphi i k := by
    intro s
    funext i k
    unfold mean bphi2d
    simp only [if_true]
    rw [← Finset.mul_sum, mul_div_assoc]
  constructor
  · intro b
    rw [h, hlin]
    exact div_mul_cancel₀ _ hne
  · rw [h, hlin]
    exact div_mul_cancel₀ _ hne

example : ∃ interp : (ℕ → ℕ → ℝ) → ℝ, (∀ (s : ℝ) (f : ℕ → ℕ → ℝ), interp (fun i k => s * f i k) = s * interp f) ∧
    interp (mean 4 fun _ _ _ => 2) ≠ 0 := by
  refine ⟨fun f => f 0 0, fun _ _ => rfl, ?_⟩
  unfold mean
  norm_num

/-- **Another grid.**  If the user gives other limits in R with the number of points of the input, the average at a point is
the value of the input at another point. -/
theorem other_grid {n : ℕ} (hn : 0 < n) (s : ℝ) (bphi : ℕ → ℕ → ℕ → ℝ) (f : ℝ → ℕ → ℝ) (rmin rmax rmin' rmax' : ℝ) (nr i k : ℕ) :
    mean n (bphi2d n s bphi (fun i => f (gridPoint rmin rmax nr i)) false) i k = f (gridPoint rmin rmax nr i) k ∧
    (rmin' ≠ rmin → gridPoint rmin' rmax' nr 0 ≠ gridPoint rmin rmax nr 0) := by
  refine ⟨average hn _ _ _ i k, fun h => ?_⟩
  unfold gridPoint
  simpa using h

/-- **Angles.**  The toroidal grid starts at the lower limit, has equal steps and does not contain the upper limit. -/
theorem angles {phimin phimax : ℝ} (h : phimin < phimax) {n j : ℕ} (hj : j < n) :
    phimin ≤ angle phimin phimax n j ∧ angle phimin phimax n j < phimax ∧
    angle phimin phimax n (j + 1) - angle phimin phimax n j = (phimax - phimin) / n ∧ angle phimin phimax n n = phimax := by
  have hn : (0 : ℝ) < n := by exact_mod_cast lt_of_le_of_lt (Nat.zero_le j) hj
  have hj' : (j : ℝ) < n := by exact_mod_cast hj
  have hd : 0 < (phimax - phimin) / n := div_pos (by linarith) hn
  have hm : (n : ℝ) * ((phimax - phimin) / n) = phimax - phimin := mul_div_cancel₀ _ hn.ne'
  unfold angle
  refine ⟨?_, ?_, ?_, ?_⟩
  · nlinarith [(Nat.cast_nonneg j : (0 : ℝ) ≤ j)]
  · nlinarith
  · push_cast
    ring
  · rw [hm]
    ring

/-- **Addition.**  What is added can be taken away again with opposite currents. -/
theorem undone (mu0 : ℝ) (cs : List (List (V3 ℝ) × ℝ)) (r phi z : ℕ → ℝ) {F F' : ℕ → ℕ → ℕ → V3 ℝ}
    (h : ∀ i j k, field mu0 cs (r i) (phi j) (z k) = some (F i j k))
    (h' : ∀ i j k, field mu0 (cs.map fun c => (c.1, -c.2)) (r i) (phi j) (z k) = some (F' i j k)) (b : ℕ → ℕ → ℕ → ℝ) :
    addto3d (addto3d b fun i j k => (F i j k).y) (fun i j k => (F' i j k).y) = b := by
  funext i j k
  have e : (cs.map fun c => (c.1, -c.2)) = cs.map fun c => (c.1, c.2 * (-1)) := by
    refine List.map_congr_left fun c _ => ?_
    rw [mul_neg_one]
  have h1 := h' i j k
  rw [e, scaled, h i j k, Option.map_some, Option.some.injEq] at h1
  unfold addto3d
  simp only [← h1]
  ring

end Ascot.C163
