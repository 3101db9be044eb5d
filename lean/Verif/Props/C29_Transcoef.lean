import Verif.Model.Transcoef
import Mathlib.Algebra.Order.Floor.Ring
import Mathlib.Data.Rat.Floor
import Mathlib.Tactic.NormNum
import Mathlib.Tactic.FieldSimp
import Mathlib.Tactic.LinearCombination
import Mathlib.Tactic.Positivity

/-!
# C29: transport coefficients
-/
set_option linter.unusedSectionVars false
set_option linter.unusedSimpArgs false

namespace Ascot.C29
open Ascot.Transcoef

variable {K : Type} [Field K] [LinearOrder K] [IsStrictOrderedRing K] [FloorRing K]

/-- The links with the sign that is processed. -/
def used (sign : K) (chain : List (Link K)) : List (Link K) := chain.filter (fun l => ¬ l.sign * sign < 0)

theorem next_used (sign : K) : ∀ (l : List (Link K)) (p : Link K) (rest : List (Link K)),
    used sign l = p :: rest → ∃ l', next sign l = some (p, l') ∧ used sign l' = rest
  | [], p, rest, h => by simp [used] at h
  | q :: l, p, rest, h => by
    unfold next
    by_cases hq : q.sign * sign < 0
    · rw [if_pos hq]
      apply next_used sign l p rest
      rw [← h]
      unfold used
      rw [List.filter_cons_of_neg (by simpa using hq)]
    · rw [if_neg hq]
      have : used sign (q :: l) = q :: used sign l := by
        unfold used
        rw [List.filter_cons_of_pos (by simpa using hq)]
      rw [this] at h
      cases h
      exact ⟨l, rfl, rfl⟩

theorem sumN_used (sign : K) : ∀ (k : Nat) (acc : K × K) (l : List (Link K)), k ≤ (used sign l).length →
    ∃ l', sumN sign k acc l = some ((acc.1 + (((used sign l).take k).map Link.rho).sum,
      acc.2 + (((used sign l).take k).map Link.time).sum), l') ∧ used sign l' = (used sign l).drop k
  | 0, acc, l, _ => ⟨l, by simp [sumN], by simp⟩
  | k + 1, acc, l, h => by
    cases hu : used sign l with
    | nil => rw [hu] at h; simp at h
    | cons p rest =>
      obtain ⟨l1, h1, h2⟩ := next_used sign l p rest hu
      rw [hu] at h
      obtain ⟨l2, h3, h4⟩ := sumN_used sign k (acc.1 + p.rho, acc.2 + p.time) l1 (by rw [h2]; simpa using h)
      refine ⟨l2, ?_, ?_⟩
      · rw [sumN, h1]
        simp only [Option.bind_eq_bind, Option.bind_some]
        rw [h3, h2]
        simp [add_assoc]
      · rw [h4, h2]; simp

/-- On a line, and times strictly decrease from the latest to the first. -/
structure Drift (a v : K) (l : List (Link K)) : Prop where
  line : ∀ p ∈ l, p.rho = a + v * p.time
  times : (l.map Link.time).Pairwise (· > ·)

theorem Drift.drop {a v : K} {l : List (Link K)} (h : Drift a v l) (k : Nat) : Drift a v (l.drop k) where
  line := fun p hp => h.line p (List.mem_of_mem_drop hp)
  times := by rw [List.map_drop]; exact h.times.sublist (List.drop_sublist _ _)

/-- The mean of the latest `k` points. -/
theorem mean {a v : K} {l : List (Link K)} (h : Drift a v l) {k : Nat} (hk : 0 < k) (hl : k ≤ l.length) :
    ((l.take k).map Link.rho).sum / k = a + v * (((l.take k).map Link.time).sum / k) ∧
    (∀ p ∈ l.drop k, p.time < ((l.take k).map Link.time).sum / k) ∧
    (∀ b, (∀ p ∈ l, p.time < b) → ((l.take k).map Link.time).sum / k < b) := by
  have hk' : (0 : K) < k := Nat.cast_pos.2 hk
  have hlen : (l.take k).length = k := by simp [hl]
  have hsum : ∀ (m : List (Link K)), (∀ p ∈ m, p.rho = a + v * p.time) →
      (m.map Link.rho).sum = m.length * a + v * (m.map Link.time).sum := by
    intro m
    induction m with
    | nil => intro _; simp
    | cons p m ih =>
      intro hm
      rw [List.map_cons, List.sum_cons, ih (fun q hq => hm q (by simp [hq])), hm p (by simp)]
      simp only [List.map_cons, List.sum_cons, List.length_cons]
      push_cast; ring
  have hlt : ∀ (m : List (Link K)) (b : K), m ≠ [] → (∀ p ∈ m, p.time < b) → (m.map Link.time).sum < m.length * b := by
    intro m b
    induction m with
    | nil => intro h; exact absurd rfl h
    | cons p m ih =>
      intro _ hm
      have hp := hm p (by simp)
      by_cases he : m = []
      · subst he; simp; exact hp
      · have := ih he (fun q hq => hm q (by simp [hq]))
        simp only [List.map_cons, List.sum_cons, List.length_cons]
        push_cast; linarith
  have hgt : ∀ (m : List (Link K)) (b : K), m ≠ [] → (∀ p ∈ m, b < p.time) → m.length * b < (m.map Link.time).sum := by
    intro m b
    induction m with
    | nil => intro h; exact absurd rfl h
    | cons p m ih =>
      intro _ hm
      have hp := hm p (by simp)
      by_cases he : m = []
      · subst he; simp; exact hp
      · have := ih he (fun q hq => hm q (by simp [hq]))
        simp only [List.map_cons, List.sum_cons, List.length_cons]
        push_cast; linarith
  have hne : l.take k ≠ [] := by
    intro hc; rw [hc] at hlen; simp at hlen; omega
  refine ⟨?_, ?_, ?_⟩
  · rw [hsum _ (fun p hp => h.line p (List.mem_of_mem_take hp)), hlen]
    field_simp
  · intro p hp
    rw [lt_div_iff₀ hk']
    have := hgt (l.take k) p.time hne (fun q hq => by
      have hpw := h.times
      rw [← List.take_append_drop k l, List.map_append, List.pairwise_append] at hpw
      exact hpw.2.2 _ (List.mem_map_of_mem hq) _ (List.mem_map_of_mem hp))
    rw [hlen] at this
    linarith
  · intro b hb
    rw [div_lt_iff₀ hk']
    have := hlt (l.take k) b hne (fun p hp => hb p (List.mem_of_mem_take hp))
    rw [hlen] at this
    linarith

theorem chunks_drift {a v : K} (sign : K) (navg : Nat) (hn : 0 < navg) : ∀ (j : Nat) (l : List (Link K)),
    Drift a v (used sign l) → j * navg ≤ (used sign l).length →
    ∃ cs, chunks sign navg j l = some cs ∧ cs.length = j ∧ (∀ c ∈ cs, c.1 = a + v * c.2) ∧
      cs.Pairwise (fun x y => y.2 < x.2) ∧ (∀ b, (∀ p ∈ used sign l, p.time < b) → ∀ c ∈ cs, c.2 < b)
  | 0, l, _, _ => ⟨[], rfl, rfl, by simp, .nil, by simp⟩
  | j + 1, l, hd, hl => by
    rw [Nat.add_mul] at hl
    obtain ⟨l1, h1, h2⟩ := sumN_used sign navg (0, 0) l (by omega)
    obtain ⟨cs, h3, h4, h5, h6, h7⟩ := chunks_drift sign navg hn j l1 (by rw [h2]; exact hd.drop navg)
      (by rw [h2, List.length_drop]; omega)
    obtain ⟨m1, m2, m3⟩ := mean hd hn (by omega)
    refine ⟨_, by rw [chunks, h1]; simp only [Option.bind_eq_bind, Option.bind_some]; rw [h3]; rfl, by simp [h4], ?_, ?_, ?_⟩
    · intro c hc
      rcases List.mem_cons.1 hc with rfl | hc
      · simpa using m1
      · exact h5 c hc
    · refine .cons ?_ h6
      intro c hc
      simp only [zero_add]
      exact h7 _ (by rw [h2]; exact m2) c hc
    · intro b hb c hc
      rcases List.mem_cons.1 hc with rfl | hc
      · simpa using m3 b hb
      · exact h7 b (fun p hp => by rw [h2] at hp; exact hb p (List.mem_of_mem_drop hp)) c hc

/-- The averaged points of a marker with constant drift lie on the same line, with increasing
times, and none of the pointers followed is null. -/
theorem averages_drift {a v : K} (sign : K) (navg : Nat) (hn : 0 < navg) (chain : List (Link K))
    (hd : Drift a v (used sign chain)) (hl : navg < (used sign chain).length) :
    ∃ cs, averages navg (used sign chain).length sign chain = some cs ∧
      cs.length = (used sign chain).length / navg ∧ (∀ c ∈ cs, c.1 = a + v * c.2) ∧
      cs.Pairwise (fun x y => x.2 < y.2) := by
  have hdm := Nat.div_add_mod (used sign chain).length navg
  have hmod := Nat.mod_lt (used sign chain).length hn
  have hpos : 0 < (used sign chain).length / navg := Nat.div_pos (by omega) hn
  have hmulc : (used sign chain).length / navg * navg = navg * ((used sign chain).length / navg) := Nat.mul_comm _ _
  obtain ⟨ne, hne, hne0, hnel, hrest⟩ : ∃ ne, (if (used sign chain).length - (used sign chain).length / navg * navg = 0
      then navg else (used sign chain).length - (used sign chain).length / navg * navg) = ne ∧ 0 < ne ∧
      ne ≤ (used sign chain).length ∧
      ((used sign chain).length / navg - 1) * navg ≤ (used sign chain).length - ne := by
    have hsub : ((used sign chain).length / navg - 1) * navg = (used sign chain).length / navg * navg - navg := by
      rw [Nat.sub_mul, Nat.one_mul]
    refine ⟨_, rfl, ?_, ?_, ?_⟩
    · split <;> omega
    · split <;> omega
    · rw [hsub]; split <;> omega
  unfold averages
  dsimp only
  simp only [hne]
  obtain ⟨l1, h1, h2⟩ := sumN_used sign ne (0, 0) chain hnel
  obtain ⟨cs, h3, h4, h5, h6, h7⟩ := chunks_drift sign navg hn ((used sign chain).length / navg - 1) l1
    (by rw [h2]; exact hd.drop ne) (by rw [h2, List.length_drop]; exact hrest)
  obtain ⟨m1, m2, m3⟩ := mean hd hne0 hnel
  rw [h1]
  simp only [Option.bind_eq_bind, Option.bind_some]
  rw [h3]
  refine ⟨_, rfl, ?_, ?_, ?_⟩
  · simp [h4]; omega
  · intro c hc
    rw [List.mem_reverse] at hc
    rcases List.mem_cons.1 hc with rfl | hc
    · simpa using m1
    · exact h5 c hc
  · rw [List.pairwise_reverse]
    refine .cons ?_ h6
    intro c hc
    simp only [zero_add]
    exact h7 _ (by rw [h2]; exact m2) c hc

theorem slopes {a v : K} : ∀ (cs : List (K × K)), (∀ c ∈ cs, c.1 = a + v * c.2) → cs.Pairwise (fun x y => x.2 < y.2) →
    (List.zipWith (fun x y => (y.1 - x.1) / (y.2 - x.2)) cs cs.tail).sum = ((cs.length - 1 : Nat) : K) * v
  | [], _, _ => by simp
  | [c], _, _ => by simp
  | c :: c' :: cs, h, hp => by
    have ih := slopes (c' :: cs) (fun x hx => h x (by simp [hx])) hp.tail
    simp only [List.tail_cons, List.zipWith_cons_cons, List.sum_cons, List.length_cons] at ih ⊢
    rw [ih]
    have hlt : c.2 < c'.2 := (List.pairwise_cons.1 hp).1 c' (by simp)
    rw [h c (by simp), h c' (by simp)]
    have hd : c'.2 - c.2 ≠ 0 := by linarith
    have e : (a + v * c'.2 - (a + v * c.2)) / (c'.2 - c.2) = v := by
      rw [div_eq_iff hd]; ring
    rw [e]
    simp only [Nat.add_sub_cancel]
    push_cast; ring

/-- Counting agrees with the links that are used. -/
theorem count_used (chain : List (Link K)) (hs : ∀ l ∈ chain, l.sign = 1 ∨ l.sign = -1) :
    (used 1 chain).length = (count chain).1 ∧ (used (-1) chain).length = (count chain).2 := by
  have key : ∀ (chain : List (Link K)) (c : Nat × Nat), (∀ l ∈ chain, l.sign = 1 ∨ l.sign = -1) →
      chain.foldl (fun c l => if l.sign < 0 then (c.1, c.2 + 1) else (c.1 + 1, c.2)) c =
        (c.1 + (used 1 chain).length, c.2 + (used (-1) chain).length) := by
    intro chain
    induction chain with
    | nil => intro c _; simp [used]
    | cons l chain ih =>
      intro c h
      rw [List.foldl_cons, ih _ (fun x hx => h x (by simp [hx]))]
      have e1 : (1 : K) > 0 := one_pos
      rcases h l (by simp) with hl | hl
      · rw [if_neg (by rw [hl]; linarith)]
        have u1 : used 1 (l :: chain) = l :: used 1 chain := by
          unfold used; rw [List.filter_cons_of_pos (by simp [hl])]
        have u2 : used (-1) (l :: chain) = used (-1) chain := by
          unfold used; rw [List.filter_cons_of_neg (by simp [hl])]
        rw [u1, u2]; simp; omega
      · rw [if_pos (by rw [hl]; linarith)]
        have u1 : used 1 (l :: chain) = used 1 chain := by
          unfold used; rw [List.filter_cons_of_neg (by simp [hl])]
        have u2 : used (-1) (l :: chain) = l :: used (-1) chain := by
          unfold used; rw [List.filter_cons_of_pos (by simp [hl])]
        rw [u1, u2]; simp; omega
  have := key chain (0, 0) hs
  unfold count
  rw [this]; simp

/-- The coefficient that is reported for a marker that drifts with the constant velocity `v`:
with `n` averaged points it is `(n-1)/n` of `v`.  So the claim of C29 holds only for
`v = 0` (`advection_fails`). -/
theorem advection_partial (a v : K) (navg : Nat) (hn : 0 < navg) (chain : List (Link K))
    (hs : ∀ l ∈ chain, l.sign = 1 ∨ l.sign = -1) (hd : Drift a v chain) :
    process navg chain = some none ∨
    ∃ n : Nat, 0 < n ∧ ∃ d, process navg chain = some (some (((n - 1 : Nat) : K) / n * v, d)) ∧
      n = Nat.max (count chain).1 (count chain).2 / navg := by
  obtain ⟨c1, c2⟩ := count_used chain hs
  have hsub : ∀ s : K, Drift a v (used s chain) := fun s =>
    ⟨fun p hp => hd.line p (List.mem_of_mem_filter hp), hd.times.sublist (List.Sublist.map _ List.filter_sublist)⟩
  unfold process
  dsimp only
  have core : ∀ (sign : K), navg < (used sign chain).length → ∃ n : Nat, 0 < n ∧ ∃ d,
      (averages navg (used sign chain).length sign chain).bind
        (fun a => some (some (advection a, diffusion (advection a) a))) =
        some (some (((n - 1 : Nat) : K) / n * v, d)) ∧ n = (used sign chain).length / navg := by
    intro sign hl
    obtain ⟨cs, h1, h2, h3, h4⟩ := averages_drift sign navg hn chain (hsub sign) hl
    have hpos : 0 < (used sign chain).length / navg := Nat.div_pos (by omega) hn
    refine ⟨(used sign chain).length / navg, hpos, diffusion (advection cs) cs, ?_, rfl⟩
    rw [h1, Option.bind_some]
    congr 3
    unfold advection
    rw [slopes cs h3 h4, h2]
    ring
  by_cases hge : (count chain).1 ≥ (count chain).2
  · have hmax : Nat.max (count chain).1 (count chain).2 = (count chain).1 := Nat.max_eq_left hge
    simp only [if_pos hge, hmax]
    by_cases hgt : (count chain).1 > navg
    · rw [if_pos hgt, if_neg (by omega)]
      right
      rw [← c1] at hgt ⊢
      exact core 1 hgt
    · rw [if_neg hgt]; left; rfl
  · have hmax : Nat.max (count chain).1 (count chain).2 = (count chain).2 := Nat.max_eq_right (by omega)
    simp only [if_neg hge, hmax]
    by_cases hgt : (count chain).2 > navg
    · rw [if_pos hgt, if_neg (by omega)]
      right
      rw [← c2] at hgt ⊢
      exact core (-1) hgt
    · rw [if_neg hgt]; left; rfl

/-- Witness: `rho = t` at four times, no averaging: the velocity is 1, but 3/4 is reported. -/
def exChain : List (Link ℚ) := [⟨3, 3, 1⟩, ⟨2, 2, 1⟩, ⟨1, 1, 1⟩, ⟨0, 0, 1⟩]

theorem advection_fails : Drift (0 : ℚ) 1 exChain ∧ process 1 exChain = some (some (3 / 4, 3 / 128)) := by
  refine ⟨⟨?_, ?_⟩, by decide +kernel⟩
  · intro p hp
    simp only [exChain, List.mem_cons, List.not_mem_nil, or_false] at hp
    rcases hp with rfl | rfl | rfl | rfl <;> norm_num
  · decide +kernel

/-- Witness: with five points and averages over two, the first two points have no influence on the
result. -/
theorem points_unused (x y : ℚ) :
    averages 2 5 (1 : ℚ) [⟨4, 4, 1⟩, ⟨3, 3, 1⟩, ⟨2, 2, 1⟩, ⟨x, 1, 1⟩, ⟨y, 0, 1⟩] =
      some [(5 / 2, 5 / 2), (4, 4)] := by
  have h : ∀ (a b : ℚ) (l : List (Link ℚ)), next 1 (⟨a, b, 1⟩ :: l) = some (⟨a, b, 1⟩, l) := by
    intro a b l; simp [next]
  simp [averages, sumN, chunks, h]
  norm_num

theorem record_cases (pi interval : K) (rr : Bool) (s : Step K) (c : List (Link K)) :
    record pi interval rr s c = c ∨ ∃ p : Link K, record pi interval rr s c = p :: c ∧ p.time = s.tF ∧
      p.sign = s.sign ∧ ∀ l ∈ c.head?, s.tF - l.time > interval := by
  unfold record
  by_cases hid : s.id > 0
  swap
  · rw [if_neg hid]; left; rfl
  rw [if_pos hid]
  by_cases ht : s.tF > s.tI
  swap
  · simp [ht]
  simp only [if_pos ht]
  cases c with
  | nil =>
    dsimp only
    by_cases h : ompCrossing pi s.thetaF s.thetaI > 0
    · right; rw [if_pos h]; exact ⟨_, rfl, rfl, rfl, by simp⟩
    · left; rw [if_neg h]
  | cons l c =>
    dsimp only
    by_cases hi : s.tF - l.time > interval
    · simp only [if_pos hi]
      by_cases h : ompCrossing pi s.thetaF s.thetaI > 0
      · right; rw [if_pos h]; exact ⟨_, rfl, rfl, rfl, by simpa using hi⟩
      · left; rw [if_neg h]
    · simp only [if_neg hi]; left; simp

/-- Recorded times strictly decrease from the latest link on, as `Drift` requires, and all signs are
those passed to the update. -/
theorem record_times (pi interval : K) (hi : 0 ≤ interval) (rr : Bool) (steps : List (Step K))
    (hs : ∀ s ∈ steps, s.sign = 1 ∨ s.sign = -1) :
    (((steps.foldl (fun c s => record pi interval rr s c) []).map Link.time).Pairwise (· > ·)) ∧
    ∀ l ∈ steps.foldl (fun c s => record pi interval rr s c) [], l.sign = 1 ∨ l.sign = -1 := by
  suffices h : ∀ (steps : List (Step K)) (c : List (Link K)), (∀ s ∈ steps, s.sign = 1 ∨ s.sign = -1) →
      ((c.map Link.time).Pairwise (· > ·)) → (∀ l ∈ c, l.sign = 1 ∨ l.sign = -1) →
      (((steps.foldl (fun c s => record pi interval rr s c) c).map Link.time).Pairwise (· > ·)) ∧
      ∀ l ∈ steps.foldl (fun c s => record pi interval rr s c) c, l.sign = 1 ∨ l.sign = -1 from
    h steps [] hs (by simp) (by simp)
  intro steps
  induction steps with
  | nil => intro c _ h1 h2; exact ⟨h1, h2⟩
  | cons s steps ih =>
    intro c hs h1 h2
    rw [List.foldl_cons]
    rcases record_cases pi interval rr s c with h | ⟨p, h, hp1, hp2, hp3⟩
    · rw [h]; exact ih c (fun x hx => hs x (by simp [hx])) h1 h2
    · rw [h]
      apply ih _ (fun x hx => hs x (by simp [hx]))
      · rw [List.map_cons]
        refine .cons ?_ h1
        intro t ht
        cases c with
        | nil => simp at ht
        | cons l c =>
          have h3 := hp3 l (by simp)
          rw [List.map_cons, List.mem_cons] at ht
          rw [hp1]
          rcases ht with rfl | ht
          · show _ < s.tF; linarith
          · have := (List.pairwise_cons.1 h1).1 t ht
            show _ < s.tF; linarith
      · intro l hl
        rcases List.mem_cons.1 hl with rfl | hl
        · rw [hp2]; exact hs s (by simp)
        · exact h2 l hl

/-- A marker that does not move at the outer midplane gets zero for both coefficients. -/
theorem still_partial (a : K) (navg : Nat) (hn : 0 < navg) (chain : List (Link K))
    (hs : ∀ l ∈ chain, l.sign = 1 ∨ l.sign = -1) (hr : ∀ l ∈ chain, l.rho = a)
    (ht : (chain.map Link.time).Pairwise (· > ·))
    (hc : navg < (chain.filter (fun l => l.sign = 1)).length) : process navg chain = some (some (0, 0)) := by
  have hd : Drift a 0 chain := ⟨fun p hp => by rw [hr p hp]; ring, ht⟩
  obtain ⟨c1, c2⟩ := count_used chain hs
  have hsub : ∀ s : K, Drift a 0 (used s chain) := fun s =>
    ⟨fun p hp => hd.line p (List.mem_of_mem_filter hp), hd.times.sublist (List.Sublist.map _ List.filter_sublist)⟩
  have hfil : (chain.filter (fun l => l.sign = 1)).length ≤ (used 1 chain).length := by
    unfold used
    apply List.Sublist.length_le
    apply List.monotone_filter_right
    intro l hl
    simp only [decide_eq_true_eq] at hl ⊢
    rw [hl]; simp
  have core : ∀ (sign : K), navg < (used sign chain).length →
      (averages navg (used sign chain).length sign chain).bind
        (fun a => some (some (advection a, diffusion (advection a) a))) = some (some (0, 0)) := by
    intro sign hl
    obtain ⟨cs, h1, h2, h3, h4⟩ := averages_drift sign navg hn chain (hsub sign) hl
    rw [h1, Option.bind_some]
    have hk : advection cs = 0 := by
      unfold advection
      rw [slopes cs h3 h4]
      simp
    rw [hk]
    congr 3
    have hz : ∀ (xs ys : List (K × K)), (∀ c ∈ xs, c.1 = a) → (∀ c ∈ ys, c.1 = a) →
        (List.zipWith (fun x y => 1 / 2 * (y.1 - x.1 - 0 * (y.2 - x.2)) * (y.1 - x.1 - 0 * (y.2 - x.2)) /
          (y.2 - x.2)) xs ys).sum = 0 := by
      intro xs
      induction xs with
      | nil => intros; simp
      | cons x xs ih =>
        intro ys hx hy
        cases ys with
        | nil => simp
        | cons y ys =>
          rw [List.zipWith_cons_cons, List.sum_cons, ih ys (fun c hc => hx c (by simp [hc]))
            (fun c hc => hy c (by simp [hc])), hx x (by simp), hy y (by simp)]
          simp
    unfold diffusion
    rw [hz cs cs.tail (fun c hc => by rw [h3 c hc]; ring)
      (fun c hc => by rw [h3 c (List.mem_of_mem_tail hc)]; ring)]
    simp
  unfold process
  dsimp only
  by_cases hge : (count chain).1 ≥ (count chain).2
  · simp only [if_pos hge]
    have hgt : (count chain).1 > navg := by omega
    rw [if_pos hgt, if_neg (by omega)]
    rw [← c1] at hgt ⊢
    exact core 1 hgt
  · simp only [if_neg hge]
    have hgt : (count chain).2 > navg := by omega
    rw [if_pos hgt, if_neg (by omega)]
    rw [← c2] at hgt ⊢
    exact core (-1) hgt

example : process 2 ([⟨5, 9, 1⟩, ⟨5, 7, -1⟩, ⟨5, 6, 1⟩, ⟨5, 4, 1⟩, ⟨5, 2, 1⟩] : List (Link ℚ)) = some (some (0, 0)) :=
  still_partial 5 2 (by norm_num) _ (by decide +kernel) (by decide +kernel) (by decide +kernel) (by decide +kernel)

end Ascot.C29
