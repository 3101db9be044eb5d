import Verif.Model.Plasma
import Verif.Lemmas.Buf
import Verif.Spec.Profile
import Verif.Lemmas.Interp
import Mathlib.Tactic.Linarith
import Mathlib.Tactic.Ring

/-!
# Lemmas about the plasma profiles
-/
set_option linter.unusedSectionVars false
set_option linter.unusedSimpArgs false

namespace Ascot.Profile
variable {K : Type} [Field K] [LinearOrder K] [IsStrictOrderedRing K]

theorem Increasing.lt {n : Nat} {x : Nat → K} (h : Increasing n x) : ∀ {i j}, i < j → j < n → x i < x j := by
  intro i j hij
  induction j with
  | zero => omega
  | succ j ih =>
    intro hj
    rcases Nat.lt_succ_iff_lt_or_eq.1 hij with e | e
    · exact (ih e (by omega)).trans (h j hj)
    · subst e; exact h i hj

theorem Increasing.le {n : Nat} {x : Nat → K} (h : Increasing n x) {i j} (hij : i ≤ j) (hj : j < n) : x i ≤ x j := by
  rcases Nat.lt_or_eq_of_le hij with e | e
  · exact (h.lt e hj).le
  · subst e; exact le_rfl

theorem between_of {n : Nat} {x : Nat → K} {v : K} (h0 : x 0 ≤ v) (h1 : v < x (n - 1)) : ∃ i, Between n x v i := by
  induction n with
  | zero => exact absurd h0 (not_le.2 h1)
  | succ n ih =>
    by_cases hn : n = 0
    · subst hn; exact absurd h0 (not_le.2 h1)
    · by_cases h : v < x (n - 1)
      · obtain ⟨i, a, b, c⟩ := ih h; exact ⟨i, by omega, b, c⟩
      · exact ⟨n - 1, by omega, not_lt.1 h, by rwa [Nat.sub_add_cancel (by omega)]⟩

theorem Between.unique {n : Nat} {x : Nat → K} (hx : Increasing n x) {v : K} {i j : Nat} (h : Between n x v i) (h' : Between n x v j) :
    i = j := by
  obtain ⟨a, b, c⟩ := h
  obtain ⟨a', b', c'⟩ := h'
  rcases Nat.lt_trichotomy i j with e | e | e
  · exact absurd (c.trans_le ((hx.le e (by omega)).trans b')) (lt_irrefl _)
  · exact e
  · exact absurd (c'.trans_le ((hx.le e (by omega)).trans b)) (lt_irrefl _)

theorem Between.not_outside {n : Nat} {x : Nat → K} (hx : Increasing n x) {v : K} {i : Nat} (h : Between n x v i) : ¬ Outside n x v := by
  obtain ⟨a, b, c⟩ := h
  rintro (e | e)
  · exact absurd (b.trans_lt e) (not_lt.2 (hx.le (Nat.zero_le i) (by omega)))
  · exact absurd (c.trans_le ((hx.le (by omega) (by omega)).trans e)) (lt_irrefl _)

end Ascot.Profile

namespace Ascot.Plasma
open Ascot.Buf Ascot.Profile
variable {K : Type} [Field K] [LinearOrder K] [IsStrictOrderedRing K]

/-- The array holds `f`. -/
def Holds (b : Buf K) (n : Nat) (f : Nat → K) : Prop := ∀ i : Nat, i < n → b.get i = some (f i)

theorem Holds.get {b : Buf K} {n : Nat} {f : Nat → K} (h : Holds b n f) {z : Int} {i : Nat} (e : z = i) (hi : i < n) : b.get z = some (f i) := by
  rw [e]; exact h i hi

theorem scan_eq {g : Buf K} {n : Nat} {x : Nat → K} (hg : Holds g n x) {v : K} {k : Nat} (hk : k < n) (h1 : ∀ j < k, x j ≤ v)
    (h2 : k + 1 = n ∨ v < x k) : ∀ fuel i, i ≤ k → k ≤ i + fuel → scan g n v fuel i = some k := by
  intro fuel
  induction fuel with
  | zero => intro i a b; have : i = k := by omega
            subst this; rfl
  | succ f ih =>
    intro i a b
    unfold scan
    rcases Nat.lt_or_eq_of_le a with e | e
    · rw [if_pos (by omega), hg i (by omega), Option.bind_some, if_pos (h1 i e)]
      exact ih _ e (by omega)
    · subst e
      by_cases hn : i + 1 < n
      · rw [if_pos hn, hg i hk, Option.bind_some, if_neg]
        rcases h2 with h2 | h2
        · omega
        · exact not_le.2 h2
      · rw [if_neg hn]

theorem scan_between {g : Buf K} {n : Nat} {x : Nat → K} (hg : Holds g n x) (hx : Increasing n x) {v : K} {i : Nat} (h : Between n x v i) :
    scan g n v n 0 = some (i + 1) :=
  scan_eq hg h.1 (fun _ hj => (hx.le (Nat.lt_succ_iff.1 hj) (by have := h.1; omega)).trans h.2.1) (.inr h.2.2) _ _ (by omega)
    (by have := h.1; omega)

theorem weight_of {g : Buf K} {n : Nat} {x : Nat → K} (hg : Holds g n x) (hx : Increasing n x) {v : K} {i : Nat} (hi : i + 1 < n)
    (hs : scan g n v n 0 = some (i + 1)) : weight g n v = some ((i : Int), (v - x i) / (x (i + 1) - x i)) := by
  have hne : x (i + 1) - x i ≠ 0 := (sub_pos.2 (hx i hi)).ne'
  have e : ((i + 1 : Nat) : Int) - 1 = i := by omega
  simp only [weight, hs, Option.bind_some, e]
  rw [hg.get (i := i) rfl (by omega), hg.get (i := i + 1) (by push_cast; rfl) hi]
  simp only [Option.bind_some, if_neg hne]

theorem weight_between {g : Buf K} {n : Nat} {x : Nat → K} (hg : Holds g n x) (hx : Increasing n x) {v : K} {i : Nat} (h : Between n x v i) :
    weight g n v = some ((i : Int), (v - x i) / (x (i + 1) - x i)) := weight_of hg hx h.1 (scan_between hg hx h)

theorem onGrid_in {α : Type} {g : Buf K} {n : Nat} {x : Nat → K} (hg : Holds g n x) (hx : Increasing n x) {v : K} {i : Nat}
    (h : Between n x v i) (l1 l2 : Nat) (k : Res α) : onGrid g n v l1 l2 k = k := by
  have := h.not_outside hx
  have hn : 0 < n := by have := h.1; omega
  unfold onGrid
  rw [hg.get (z := 0) (i := 0) rfl hn, hg.get (i := n - 1) (by omega) (by omega)]
  simp only [Option.bind_some]
  rw [if_neg fun e => this (.inl e), if_neg fun e => this (.inr e)]

theorem onGrid_out {α : Type} {g : Buf K} {n : Nat} {x : Nat → K} (hg : Holds g n x) (hn : 0 < n) {v : K}
    (h : Outside n x v) (l1 l2 : Nat) (k : Res α) : ∃ e, onGrid g n v l1 l2 k = some (.error e) ∧ e % 256 = 1 := by
  unfold onGrid
  rw [hg.get (z := 0) (i := 0) rfl hn, hg.get (i := n - 1) (by omega) (by omega)]
  simp only [Option.bind_some]
  by_cases h0 : v < x 0
  · rw [if_pos h0]; refine ⟨_, rfl, ?_⟩; unfold Error.raise; omega
  · rw [if_neg h0, if_pos (h.resolve_left h0)]; refine ⟨_, rfl, ?_⟩; unfold Error.raise; omega

theorem line_eq {b : Buf K} {m : Nat} {f : Nat → K} (hb : Holds b m f) {z : Int} {i : Nat} (e : z = i) (hi : i + 1 < m) (t : K) :
    line b z t = some (f i + t * (f (i + 1) - f i)) := by
  unfold line
  rw [hb.get e (by omega), hb.get (i := i + 1) (by omega) hi]
  rfl

/-! ### Initialisation -/

theorem fill_range (n : Nat) (f : Nat → K) : ∃ b, fill n ((List.range n).map fun i => (i, f i)) = some b ∧ Holds b n f := by
  obtain ⟨b, h1, -, h3⟩ := fill_spec (size := n) (ws := (List.range n).map fun i => (i, f i)) f
    (by intro w hw; obtain ⟨i, hi, rfl⟩ := List.mem_map.1 hw; exact ⟨List.mem_range.1 hi, rfl⟩)
    (fun i hi => ⟨(i, f i), List.mem_map.2 ⟨i, List.mem_range.2 hi, rfl⟩, rfl⟩)
  exact ⟨b, h1, h3⟩

theorem lt_mul_of {a b n m : Nat} (ha : a < m) (hb : b < n) : a * n + b < m * n := by
  calc a * n + b < a * n + n := by omega
    _ = (a + 1) * n := by ring
    _ ≤ m * n := Nat.mul_le_mul_right n ha

/-- Reading the flat table of densities. -/
def flat1D (nrho : Nat) (ne ni : Nat → K) (i : Nat) : K := if i < nrho then ne i else ni (i - nrho)

theorem flat1D_species {nrho : Nat} (ne ni : Nat → K) (s : Nat) {i : Nat} (hi : i < nrho) :
    flat1D nrho ne ni (s * nrho + i) = species nrho ne ni s i := by
  unfold flat1D species
  cases s with
  | zero => simp [hi]
  | succ s =>
    have : (s + 1) * nrho + i = s * nrho + i + nrho := by ring
    rw [if_neg (by omega), if_neg (by omega), this]
    simp

theorem mul_add_div {a b n : Nat} (hb : b < n) : (a * n + b) / n = a := by
  rw [Nat.add_comm, Nat.add_mul_div_right _ _ (by omega), Nat.div_eq_of_lt hb, Nat.zero_add]

theorem mul_add_mod' {a b n : Nat} (hb : b < n) : (a * n + b) % n = b := by
  rw [Nat.add_comm, Nat.add_mul_mod_self_right, Nat.mod_eq_of_lt hb]

theorem split {i m n : Nat} (h : i < m * n) : ∃ a b, a < m ∧ b < n ∧ i = a * n + b := by
  have hn : 0 < n := by rcases Nat.eq_zero_or_pos n with e | e
                        · subst e; omega
                        · exact e
  exact ⟨i / n, i % n, (Nat.div_lt_iff_lt_mul hn).2 h, Nat.mod_lt _ hn, (by rw [Nat.mul_comm]; exact (Nat.div_add_mod i n).symm)⟩

structure Good1D (p : P1D K) (nrho nion : Nat) (rho Te Ti ne ni vtor : Nat → K) : Prop where
  n : p.nRho = nrho
  ns : p.nSpecies = nion + 1
  rho : Holds p.rho nrho rho
  vtor : Holds p.vtor nrho vtor
  temp : Holds p.temp (2 * nrho) (flat1D nrho Te Ti)
  dens : Holds p.dens ((nion + 1) * nrho) (flat1D nrho ne ni)

theorem init1D_good (nrho nion : Nat) (rho Te Ti ne ni vtor : Nat → K) :
    ∃ p, init1D nrho nion rho Te Ti ne ni vtor = some p ∧ Good1D p nrho nion rho Te Ti ne ni vtor := by
  obtain ⟨b1, e1, h1⟩ := fill_range nrho rho
  obtain ⟨b2, e2, h2⟩ := fill_range nrho vtor
  obtain ⟨b3, e3, -, h3⟩ := fill_spec (size := 2 * nrho)
    (ws := (List.range nrho).flatMap fun i => [(i, Te i), (nrho + i, Ti i)]) (flat1D nrho Te Ti)
    (by
      intro w hw
      obtain ⟨i, hi, hw⟩ := List.mem_flatMap.1 hw
      have hi := List.mem_range.1 hi
      simp only [List.mem_cons, List.not_mem_nil, or_false] at hw
      rcases hw with rfl | rfl
      · refine ⟨by simp only; omega, ?_⟩; simp [flat1D, hi]
      · refine ⟨by simp only; omega, ?_⟩; simp [flat1D])
    (by
      intro i hi
      by_cases h : i < nrho
      · exact ⟨(i, Te i), List.mem_flatMap.2 ⟨i, List.mem_range.2 h, by simp⟩, rfl⟩
      · exact ⟨(nrho + (i - nrho), Ti (i - nrho)), List.mem_flatMap.2 ⟨i - nrho, List.mem_range.2 (by omega), by simp⟩, by simp only; omega⟩)
  obtain ⟨b4, e4, -, h4⟩ := fill_spec (size := (nion + 1) * nrho)
    (ws := (List.range nrho).flatMap fun i =>
      (i, ne i) :: (List.range nion).map fun j => ((j + 1) * nrho + i, ni (j * nrho + i))) (flat1D nrho ne ni)
    (by
      intro w hw
      obtain ⟨i, hi, hw⟩ := List.mem_flatMap.1 hw
      have hi := List.mem_range.1 hi
      rcases List.mem_cons.1 hw with rfl | hw
      · refine ⟨?_, by simp [flat1D, hi]⟩
        have := lt_mul_of (a := 0) (m := nion + 1) (by omega) hi
        simpa using this
      · obtain ⟨j, hj, rfl⟩ := List.mem_map.1 hw
        have hj := List.mem_range.1 hj
        refine ⟨lt_mul_of (by omega) hi, ?_⟩
        rw [flat1D_species ne ni (j + 1) hi]; simp [species])
    (by
      intro i hi
      obtain ⟨a, b, ha, hb, rfl⟩ := split hi
      cases a with
      | zero => exact ⟨(b, ne b), List.mem_flatMap.2 ⟨b, List.mem_range.2 hb, by simp⟩, by simp⟩
      | succ a =>
        exact ⟨((a + 1) * nrho + b, ni (a * nrho + b)), List.mem_flatMap.2 ⟨b, List.mem_range.2 hb, List.mem_cons_of_mem _
          (List.mem_map.2 ⟨a, List.mem_range.2 (by omega), rfl⟩)⟩, rfl⟩)
  refine ⟨⟨nrho, nion + 1, b1, b2, b3, b4⟩, ?_, rfl, rfl, h1, h2, h3, h4⟩
  simp only [init1D, e1, e2, e3, e4, Option.bind_some]

/-- Reading a species from the flat table. -/
theorem line_species {b : Buf K} {nrho m : Nat} {e ion : Nat → K} (hb : Holds b (m * nrho) (flat1D nrho e ion)) {i s : Nat} (hi : i + 1 < nrho)
    (hs : s < m) (t : K) :
    line b ((s : Int) * nrho + i) t = some (species nrho e ion s i + t * (species nrho e ion s (i + 1) - species nrho e ion s i)) := by
  have h1 := lt_mul_of (a := s) (m := m) hs hi
  rw [line_eq hb (i := s * nrho + i) (by push_cast; rfl) (by omega), flat1D_species _ _ _ (by omega), Nat.add_assoc,
    flat1D_species _ _ _ hi]

theorem species_temp {nrho : Nat} (e ion : Nat → K) (s i : Nat) : species nrho e ion (if s > 0 then 1 else 0) i = temperature e ion s i := by
  unfold species temperature
  cases s <;> simp

theorem mapM_some {α β : Type} {l : List α} {f : α → Option β} {g : α → β} (h : ∀ a ∈ l, f a = some (g a)) : l.mapM f = some (l.map g) := by
  induction l with
  | nil => rfl
  | cons a l ih =>
    rw [List.mapM_cons, h a (by simp), ih fun b hb => h b (by simp [hb])]
    rfl

theorem speciesLoop_eq {n : Nat} {d t : Nat → Option K} {D T : Nat → K} (hd : ∀ i < n, d i = some (D i)) (ht : ∀ i < 2, t i = some (T i)) :
    speciesLoop n d t = some ((List.range n).map fun i => (D i, T (if i > 0 then 1 else 0))) := by
  unfold speciesLoop
  refine mapM_some fun i hi => ?_
  have hi := List.mem_range.1 hi
  rw [hd i hi, Option.bind_some]
  have : t (if i < 2 then i else 1) = some (T (if i > 0 then 1 else 0)) := by
    rcases i with _ | _ | i
    · exact ht 0 (by omega)
    · exact ht 1 (by omega)
    · rw [if_neg (by omega), if_pos (by omega)]; exact ht 1 (by omega)
  rw [this]; rfl

/-! ### Time-dependent profiles -/

/-- The flat table of temperatures: for each time first the electrons, then the ions. -/
def flatT (nrho : Nat) (Te Ti : Nat → K) (q : Nat) : K :=
  if q / nrho % 2 = 0 then Te (q / nrho / 2 * nrho + q % nrho) else Ti (q / nrho / 2 * nrho + q % nrho)

theorem flatT_eq {nrho : Nat} (Te Ti : Nat → K) (j : Nat) {u i : Nat} (hu : u < 2) (hi : i < nrho) :
    flatT nrho Te Ti ((j * 2 + u) * nrho + i) = species nrho (fun k => Te (j * nrho + k)) (fun k => Ti (j * nrho + k)) u i := by
  unfold flatT species
  rw [mul_add_div hi, mul_add_mod' hi, mul_add_div hu, mul_add_mod' hu]
  rcases u with _ | _ | u
  · simp
  · simp
  · omega

structure Good1Dt (p : P1Dt K) (nrho ntime nion : Nat) (rho time Te Ti ne ni vtor : Nat → K) : Prop where
  n : p.nRho = nrho
  nt : p.nTime = ntime
  ns : p.nSpecies = nion + 1
  rho : Holds p.rho nrho rho
  time : Holds p.time ntime time
  vtor : Holds p.vtor (ntime * nrho) vtor
  temp : Holds p.temp (ntime * 2 * nrho) (flatT nrho Te Ti)
  dens : Holds p.dens ((nion + 1) * (nrho * ntime)) (flat1D (nrho * ntime) ne ni)

theorem mem_loop2 {α : Type} {nrho ntime : Nat} {body : Nat → Nat → List α} {w : α} :
    w ∈ loop2 nrho ntime body ↔ ∃ i j, i < nrho ∧ j < ntime ∧ w ∈ body i j := by
  simp only [loop2, List.mem_flatMap, List.mem_range]
  constructor
  · rintro ⟨i, hi, j, hj, h⟩; exact ⟨i, j, hi, hj, h⟩
  · rintro ⟨i, j, hi, hj, h⟩; exact ⟨i, hi, j, hj, h⟩

theorem init1Dt_good (nrho ntime nion : Nat) (rho time Te Ti ne ni vtor : Nat → K) :
    ∃ p, init1Dt nrho ntime nion rho time Te Ti ne ni vtor = some p ∧ Good1Dt p nrho ntime nion rho time Te Ti ne ni vtor := by
  obtain ⟨b1, e1, h1⟩ := fill_range nrho rho
  obtain ⟨b2, e2, h2⟩ := fill_range ntime time
  obtain ⟨b3, e3, -, h3⟩ := fill_spec (size := nrho * ntime)
    (ws := loop2 nrho ntime fun i j => [(j * nrho + i, vtor (j * nrho + i))]) vtor
    (by
      intro w hw
      obtain ⟨i, j, hi, hj, hw⟩ := mem_loop2.1 hw
      rw [List.mem_singleton] at hw
      subst hw
      exact ⟨(lt_mul_of hj hi).trans_eq (Nat.mul_comm _ _), rfl⟩)
    (by
      intro q hq
      obtain ⟨a, b, ha, hb, rfl⟩ := split (hq.trans_eq (Nat.mul_comm _ _))
      exact ⟨_, mem_loop2.2 ⟨b, a, hb, ha, List.mem_singleton.2 rfl⟩, rfl⟩)
  obtain ⟨b4, e4, -, h4⟩ := fill_spec (size := 2 * nrho * ntime)
    (ws := loop2 nrho ntime fun i j =>
      [(j * 2 * nrho + i, Te (j * nrho + i)), ((j * 2 + 1) * nrho + i, Ti (j * nrho + i))]) (flatT nrho Te Ti)
    (by
      intro w hw
      obtain ⟨i, j, hi, hj, hw⟩ := mem_loop2.1 hw
      have hs : ntime * 2 * nrho = 2 * nrho * ntime := by ring
      simp only [List.mem_cons, List.not_mem_nil, or_false] at hw
      rcases hw with rfl | rfl
      · exact ⟨hs ▸ lt_mul_of (by omega) hi, by have := flatT_eq Te Ti j (u := 0) (by omega) hi; simpa [species] using this.symm⟩
      · exact ⟨hs ▸ lt_mul_of (by omega) hi, by have := flatT_eq Te Ti j (u := 1) (by omega) hi; simpa [species] using this.symm⟩)
    (by
      intro q hq
      have hs : ntime * 2 * nrho = 2 * nrho * ntime := by ring
      obtain ⟨a, b, ha, hb, rfl⟩ := split (hs ▸ hq)
      obtain ⟨j, u, hj, hu, rfl⟩ := split ha
      rcases u with _ | _ | u
      · exact ⟨_, mem_loop2.2 ⟨b, j, hb, hj, List.mem_cons_self⟩, rfl⟩
      · exact ⟨_, mem_loop2.2 ⟨b, j, hb, hj, List.mem_cons_of_mem _ List.mem_cons_self⟩, rfl⟩
      · omega)
  have hk : ∀ k j i : Nat, k * nrho * ntime + j * nrho + i = k * (nrho * ntime) + (j * nrho + i) := by intros; ring
  obtain ⟨b5, e5, -, h5⟩ := fill_spec (size := (nion + 1) * nrho * ntime)
    (ws := loop2 nrho ntime fun i j =>
      (j * nrho + i, ne (j * nrho + i)) :: (List.range nion).map fun k =>
        ((k + 1) * nrho * ntime + j * nrho + i, ni (k * nrho * ntime + j * nrho + i))) (flat1D (nrho * ntime) ne ni)
    (by
      intro w hw
      obtain ⟨i, j, hi, hj, hw⟩ := mem_loop2.1 hw
      have hji := (lt_mul_of hj hi).trans_eq (Nat.mul_comm _ _)
      rcases List.mem_cons.1 hw with rfl | hw
      · refine ⟨?_, by simp [flat1D, hji]⟩
        have := lt_mul_of (a := 0) (m := nion + 1) (by omega) hji
        rw [Nat.mul_assoc]; simpa using this
      · obtain ⟨k, hk', rfl⟩ := List.mem_map.1 hw
        have hk' := List.mem_range.1 hk'
        simp only [hk]
        rw [flat1D_species ne ni (k + 1) hji, Nat.mul_assoc]
        exact ⟨lt_mul_of (by omega) hji, by simp [species]⟩)
    (by
      intro q hq
      rw [Nat.mul_assoc] at hq
      obtain ⟨a, b, ha, hb, rfl⟩ := split hq
      obtain ⟨j, i, hj, hi, rfl⟩ := split (hb.trans_eq (Nat.mul_comm _ _))
      cases a with
      | zero => exact ⟨_, mem_loop2.2 ⟨i, j, hi, hj, List.mem_cons_self⟩, by simp⟩
      | succ a =>
        exact ⟨_, mem_loop2.2 ⟨i, j, hi, hj, List.mem_cons_of_mem _ (List.mem_map.2 ⟨a, List.mem_range.2 (by omega), rfl⟩)⟩, hk _ _ _⟩)
  refine ⟨⟨nrho, ntime, nion + 1, b1, b2, b3, b4, b5⟩, ?_, rfl, rfl, rfl, h1, h2, ?_, ?_, ?_⟩
  · simp only [init1Dt, e1, e2, e3, e4, e5, Option.bind_some]
  · rw [Nat.mul_comm]; exact h3
  · rw [show ntime * 2 * nrho = 2 * nrho * ntime by ring]; exact h4
  · rw [← Nat.mul_assoc]; exact h5

variable {p : P1Dt K} {nrho ntime nion : Nat} {rho time Te Ti ne ni vtor : Nat → K}

theorem timeWeight_between (h : Good1Dt p nrho ntime nion rho time Te Ti ne ni vtor) (ht : Increasing ntime time) {t : K} {j : Nat}
    (hj : Between ntime time t j) (hl : j + 2 < ntime) :
    timeWeight p t = some ((j : Int), (t - time j) / (time (j + 1) - time j)) := by
  unfold timeWeight
  rw [h.nt, weight_between h.time ht hj, Option.map_some]
  simp only
  rw [if_neg (by omega), if_neg (by omega)]

theorem timeWeight_late (h : Good1Dt p nrho ntime nion rho time Te Ti ne ni vtor) (ht : Increasing ntime time) (h2 : 2 ≤ ntime) {t : K}
    (hl : time (ntime - 2) ≤ t) : timeWeight p t = some (((ntime - 2 : Nat) : Int), 1) := by
  have hs : scan p.time ntime t ntime 0 = some (ntime - 2 + 1) :=
    scan_eq h.time (by omega) (fun j hj => (ht.le (by omega) (by omega)).trans hl) (.inl (by omega)) _ _ (by omega) (by omega)
  unfold timeWeight
  rw [h.nt, weight_of h.time ht (i := ntime - 2) (by omega) hs, Option.map_some]
  simp only
  rw [if_neg (by omega), if_pos (by omega)]
  congr 2; omega

theorem timeWeight_early (h : Good1Dt p nrho ntime nion rho time Te Ti ne ni vtor) (h2 : 2 ≤ ntime) {t : K}
    (hl : t < time 0) : timeWeight p t = none := by
  have hs : scan p.time ntime t ntime 0 = some 0 := scan_eq h.time (by omega) (by simp) (.inr hl) _ _ (by omega) (by omega)
  unfold timeWeight
  rw [h.nt]
  simp only [weight, hs, Option.bind_some]
  have : p.time.get (((0 : Nat) : Int) - 1) = none := by unfold Buf.get; rw [if_neg (by simp)]
  rw [this]; rfl

/-- What the table of densities holds at block `b`. -/
theorem dens_block (h : Good1Dt p nrho ntime nion rho time Te Ti ne ni vtor) {b i : Nat} (hb : b < (nion + 1) * ntime) (hi : i + 1 < nrho) (t : K) :
    line p.dens ((b : Int) * nrho + i) t =
      some ((fun k => species (nrho * ntime) ne ni (b / ntime) (b % ntime * nrho + k)) i
        + t * ((fun k => species (nrho * ntime) ne ni (b / ntime) (b % ntime * nrho + k)) (i + 1)
          - (fun k => species (nrho * ntime) ne ni (b / ntime) (b % ntime * nrho + k)) i)) := by
  have hn : 0 < ntime := by rcases Nat.eq_zero_or_pos ntime with e | e
                            · subst e; omega
                            · exact e
  have e : ∀ k, b * nrho + k = b / ntime * (nrho * ntime) + (b % ntime * nrho + k) := by
    intro k
    conv_lhs => rw [← Nat.div_add_mod b ntime]
    ring
  have hm := Nat.mod_lt b hn
  have hlt : b * nrho + (i + 1) < (nion + 1) * (nrho * ntime) := by
    have := lt_mul_of hb hi
    calc _ < _ := this
      _ = _ := by ring
  have hx : ∀ k < nrho, b % ntime * nrho + k < nrho * ntime := fun k hk => (lt_mul_of hm hk).trans_eq (Nat.mul_comm _ _)
  rw [line_eq h.dens (i := b * nrho + i) (by push_cast; rfl) (by omega), Nat.add_assoc, e i, e (i + 1),
    flat1D_species _ _ _ (hx i (by omega)), flat1D_species _ _ _ (hx (i + 1) hi)]

theorem temp_block (h : Good1Dt p nrho ntime nion rho time Te Ti ne ni vtor) {j u i : Nat} (hj : j < ntime) (hu : u < 2) (hi : i + 1 < nrho) (t : K) :
    line p.temp (((j * 2 + u : Nat) : Int) * nrho + i) t =
      some ((fun k => species nrho (fun k => Te (j * nrho + k)) (fun k => Ti (j * nrho + k)) u k) i
        + t * ((fun k => species nrho (fun k => Te (j * nrho + k)) (fun k => Ti (j * nrho + k)) u k) (i + 1)
          - (fun k => species nrho (fun k => Te (j * nrho + k)) (fun k => Ti (j * nrho + k)) u k) i)) := by
  have hlt := lt_mul_of (a := j * 2 + u) (m := ntime * 2) (by omega) hi
  rw [line_eq h.temp (i := (j * 2 + u) * nrho + i) (by push_cast; rfl) (by omega), Nat.add_assoc,
    flatT_eq _ _ _ hu (by omega), flatT_eq _ _ _ hu hi]

/-- The `b`-th of the density profiles in the order of storage. -/
def blockD (nrho ntime : Nat) (ne ni : Nat → K) (b k : Nat) : K := species (nrho * ntime) ne ni (b / ntime) (b % ntime * nrho + k)

def mix (c a b : K) : K := a + c * (b - a)

theorem densandtemp_eq (h : Good1Dt p nrho ntime nion rho time Te Ti ne ni vtor) (hr : Increasing nrho rho) {v t c : K} {i j : Nat}
    (hi : Between nrho rho v i) (hw : timeWeight p t = some ((j : Int), c)) (hj : j + 1 < ntime) :
    densandtemp1Dt p v t = some (.ok ((List.range (nion + 1)).map fun s =>
      (mix c (lerp rho (blockD nrho ntime ne ni (j * (nion + 1) + s)) v i) (lerp rho (blockD nrho ntime ne ni ((j + 1) * (nion + 1) + s)) v i),
       mix c (lerp rho (temperature (fun k => Te (j * nrho + k)) (fun k => Ti (j * nrho + k)) s) v i)
         (lerp rho (temperature (fun k => Te ((j + 1) * nrho + k)) (fun k => Ti ((j + 1) * nrho + k)) s) v i)))) := by
  have hi1 := hi.1
  unfold densandtemp1Dt
  rw [h.n, onGrid_in h.rho hr hi, weight_between h.rho hr hi]
  simp only [Option.bind_some, hw]
  rw [speciesLoop_eq (D := fun s => mix c (lerp rho (blockD nrho ntime ne ni (j * (nion + 1) + s)) v i)
        (lerp rho (blockD nrho ntime ne ni ((j + 1) * (nion + 1) + s)) v i))
      (T := fun s => mix c (lerp rho (temperature (fun k => Te (j * nrho + k)) (fun k => Ti (j * nrho + k)) s) v i)
         (lerp rho (temperature (fun k => Te ((j + 1) * nrho + k)) (fun k => Ti ((j + 1) * nrho + k)) s) v i))]
  · rw [Option.map_some, h.ns]
    congr 3
    funext s
    rcases s with _ | s
    · simp
    · simp [temperature]
  · intro s hs
    rw [h.ns] at hs ⊢
    have e1 : ∀ j : Nat, (j : Int) * ((nion + 1 : Nat) : Int) * nrho + s * nrho + i = ((j * (nion + 1) + s : Nat) : Int) * nrho + i := by
      intro j; push_cast; ring
    have hb : ∀ j' < ntime, j' * (nion + 1) + s < (nion + 1) * ntime := fun j' h' => by
      rw [Nat.mul_comm (nion + 1)]; exact lt_mul_of h' hs
    have e2 := e1 (j + 1)
    push_cast at e1 e2 ⊢
    rw [e1, e2]
    have a1 := dens_block h (hb j (by omega)) hi1 ((v - rho i) / (rho (i + 1) - rho i))
    have a2 := dens_block h (hb (j + 1) hj) hi1 ((v - rho i) / (rho (i + 1) - rho i))
    push_cast at a1 a2
    rw [a1, Option.bind_some, a2]
    rfl
  · intro s hs
    have e1 : ∀ j : Nat, (j : Int) * 2 * nrho + s * nrho + i = ((j * 2 + s : Nat) : Int) * nrho + i := by
      intro j; push_cast; ring
    have e2 := e1 (j + 1)
    push_cast at e1 e2 ⊢
    rw [e1, e2]
    have a1 := temp_block h (j := j) (by omega) hs hi1 ((v - rho i) / (rho (i + 1) - rho i))
    have a2 := temp_block h hj hs hi1 ((v - rho i) / (rho (i + 1) - rho i))
    push_cast at a1 a2
    rw [a1, Option.bind_some, a2]
    rcases s with _ | _ | s
    · rfl
    · simp only [Option.bind_some, mix, lerp, temperature, species]; simp
    · omega

theorem flow_eq (h : Good1Dt p nrho ntime nion rho time Te Ti ne ni vtor) (hr : Increasing nrho rho) {v t c r : K} {i j : Nat}
    (hi : Between nrho rho v i) (hw : timeWeight p t = some ((j : Int), c)) (hj : j + 1 < ntime) :
    flow1Dt p v t r = some (.ok (mix c
      (mix ((v - rho i) / (rho (i + 1) - rho i)) (vtor (j * nrho + i)) (vtor ((j + 1) * nrho + i)))
      (mix ((v - rho i) / (rho (i + 1) - rho i)) (vtor (j * nrho + i + 1)) (vtor ((j + 1) * nrho + i + 1))) * r)) := by
  have hi1 := hi.1
  have l1 := lt_mul_of (a := j) (m := ntime) (by omega) hi1
  have l2 := lt_mul_of (a := j + 1) (m := ntime) hj hi1
  unfold flow1Dt
  rw [h.n, onGrid_in h.rho hr hi, weight_between h.rho hr hi]
  simp only [Option.bind_some, hw]
  rw [h.vtor.get (i := j * nrho + i) (by push_cast; rfl) (by omega), h.vtor.get (i := (j + 1) * nrho + i) (by push_cast; rfl) (by omega),
    h.vtor.get (i := j * nrho + i + 1) (by push_cast; rfl) (by omega), h.vtor.get (i := (j + 1) * nrho + i + 1) (by push_cast; rfl) (by omega)]
  rfl

end Ascot.Plasma
