import Verif.Model.Mpi
import Mathlib.Tactic.Linarith
import Mathlib.Tactic.Ring

set_option linter.unusedSectionVars false
set_option linter.unusedSimpArgs false

namespace Ascot.Mpi

variable {A P : Type}

theorem write_same (f : Nat → Option A) (i : Nat) (a : A) : write f i a i = some a := by simp [write]
theorem write_ne (f : Nat → Option A) {i j : Nat} (a : A) (h : j ≠ i) : write f i a j = f j := by
  simp [write, h]

theorem packOne_other (n : Nat) (ps : Nat → P) (j idx : Nat) :
    ∀ (slots : List (Nat × (P → A))) (b : Nat → Option A), (∀ s ∈ slots, idx ≠ s.1 * n + j) →
      packOne slots n ps b j idx = b idx
  | [], b, _ => rfl
  | s :: l, b, h => by
    show packOne l n ps (write b (s.1 * n + j) (s.2 (ps j))) j idx = _
    rw [packOne_other n ps j idx l _ (fun x hx => h x (by simp [hx])), write_ne _ _ (h s (by simp))]

theorem packOne_hit {n : Nat} (hn : 0 < n) (ps : Nat → P) (j : Nat) :
    ∀ (slots : List (Nat × (P → A))) (b : Nat → Option A) (k : Nat) (f : P → A),
      (slots.map Prod.fst).Nodup → (k, f) ∈ slots →
      packOne slots n ps b j (k * n + j) = some (f (ps j))
  | s :: l, b, k, f, hnd, hm => by
    rw [List.map_cons, List.nodup_cons] at hnd
    show packOne l n ps (write b (s.1 * n + j) (s.2 (ps j))) j _ = _
    rcases List.mem_cons.1 hm with rfl | hm
    · rw [packOne_other]
      · rw [write_same]
      · intro x hx hc
        have : x.1 = k := by
          have h2 : k * n = x.1 * n := by omega
          exact (Nat.eq_of_mul_eq_mul_right hn h2).symm
        exact hnd.1 (List.mem_map.2 ⟨x, hx, this⟩)
    · exact packOne_hit hn ps j l _ k f hnd.2 hm

theorem pack_hit (slots : List (Nat × (P → A))) (hnd : (slots.map Prod.fst).Nodup) (n : Nat)
    (ps : Nat → P) (j : Nat) (hj : j < n) (k : Nat) (f : P → A) (hm : (k, f) ∈ slots) :
    pack slots n ps (k * n + j) = some (f (ps j)) := by
  have hn : 0 < n := by omega
  suffices h : ∀ m ≤ n, j < m →
      (List.range m).foldl (packOne slots n ps) (fun _ => none) (k * n + j) = some (f (ps j)) from
    h n (le_refl n) hj
  intro m
  induction m with
  | zero => intro _ h; omega
  | succ m ih =>
    intro hmn hjm
    rw [List.range_succ, List.foldl_append]
    show packOne slots n ps _ m _ = _
    by_cases h : j = m
    · subst h; exact packOne_hit hn ps j slots _ k f hnd hm
    · rw [packOne_other]
      · exact ih (by omega) (by omega)
      · intro s _ hc
        have h1 : (k * n + j) % n = j := by rw [Nat.mul_comm, Nat.mul_add_mod, Nat.mod_eq_of_lt hj]
        have h2 : (s.1 * n + m) % n = m := by
          rw [Nat.mul_comm, Nat.mul_add_mod, Nat.mod_eq_of_lt (by omega)]
        rw [hc, h2] at h1; omega

variable {R Z E : Type}

theorem unpack_pack (n : Nat) (ps : Nat → PState R Z E) (j : Nat) (hj : j < n) :
    unpackOne n j (pack realSlots n ps) (pack intSlots n ps) (pack [(0, fun p => p.err)] n ps) =
      some (ps j) := by
  have hr := pack_hit (realSlots (R := R) (Z := Z) (E := E)) (by simp [realSlots]) n ps j hj
  have hi := pack_hit (intSlots (R := R) (Z := Z) (E := E)) (by simp [intSlots]) n ps j hj
  have he := pack_hit [(0, fun p : PState R Z E => p.err)] (by simp) n ps j hj 0 (fun p => p.err) (by simp)
  rw [Nat.zero_mul, Nat.zero_add] at he
  have hr' : ∀ (i : Nat) (hl : i < (realSlots (R := R) (Z := Z) (E := E)).length),
      pack realSlots n ps ((realSlots (R := R) (Z := Z) (E := E))[i].1 * n + j) =
        some ((realSlots (R := R) (Z := Z) (E := E))[i].2 (ps j)) :=
    fun i hl => hr _ _ (List.getElem_mem hl)
  have hi' : ∀ (i : Nat) (hl : i < (intSlots (R := R) (Z := Z) (E := E)).length),
      pack intSlots n ps ((intSlots (R := R) (Z := Z) (E := E))[i].1 * n + j) =
        some ((intSlots (R := R) (Z := Z) (E := E))[i].2 (ps j)) :=
    fun i hl => hi _ _ (List.getElem_mem hl)
  unfold unpackOne
  have r0 : pack realSlots n ps (0 * n + j) = _ := hr' 0 (by simp [realSlots])
  have r1 : pack realSlots n ps (1 * n + j) = _ := hr' 1 (by simp [realSlots])
  have r2 : pack realSlots n ps (2 * n + j) = _ := hr' 2 (by simp [realSlots])
  have r3 : pack realSlots n ps (3 * n + j) = _ := hr' 3 (by simp [realSlots])
  have r4 : pack realSlots n ps (4 * n + j) = _ := hr' 4 (by simp [realSlots])
  have r5 : pack realSlots n ps (5 * n + j) = _ := hr' 5 (by simp [realSlots])
  have r6 : pack realSlots n ps (6 * n + j) = _ := hr' 6 (by simp [realSlots])
  have r7 : pack realSlots n ps (7 * n + j) = _ := hr' 7 (by simp [realSlots])
  have r8 : pack realSlots n ps (8 * n + j) = _ := hr' 8 (by simp [realSlots])
  have r9 : pack realSlots n ps (9 * n + j) = _ := hr' 9 (by simp [realSlots])
  have r10 : pack realSlots n ps (10 * n + j) = _ := hr' 10 (by simp [realSlots])
  have r11 : pack realSlots n ps (11 * n + j) = _ := hr' 11 (by simp [realSlots])
  have r12 : pack realSlots n ps (12 * n + j) = _ := hr' 12 (by simp [realSlots])
  have r13 : pack realSlots n ps (13 * n + j) = _ := hr' 13 (by simp [realSlots])
  have r14 : pack realSlots n ps (14 * n + j) = _ := hr' 14 (by simp [realSlots])
  have r15 : pack realSlots n ps (15 * n + j) = _ := hr' 15 (by simp [realSlots])
  have r16 : pack realSlots n ps (16 * n + j) = _ := hr' 16 (by simp [realSlots])
  have r17 : pack realSlots n ps (17 * n + j) = _ := hr' 17 (by simp [realSlots])
  have r18 : pack realSlots n ps (18 * n + j) = _ := hr' 18 (by simp [realSlots])
  have r19 : pack realSlots n ps (19 * n + j) = _ := hr' 19 (by simp [realSlots])
  have r20 : pack realSlots n ps (20 * n + j) = _ := hr' 20 (by simp [realSlots])
  have r21 : pack realSlots n ps (21 * n + j) = _ := hr' 21 (by simp [realSlots])
  have r22 : pack realSlots n ps (22 * n + j) = _ := hr' 22 (by simp [realSlots])
  have r23 : pack realSlots n ps (23 * n + j) = _ := hr' 23 (by simp [realSlots])
  have r24 : pack realSlots n ps (24 * n + j) = _ := hr' 24 (by simp [realSlots])
  have r25 : pack realSlots n ps (25 * n + j) = _ := hr' 25 (by simp [realSlots])
  have r26 : pack realSlots n ps (26 * n + j) = _ := hr' 26 (by simp [realSlots])
  have r27 : pack realSlots n ps (27 * n + j) = _ := hr' 27 (by simp [realSlots])
  have r28 : pack realSlots n ps (28 * n + j) = _ := hr' 28 (by simp [realSlots])
  have r29 : pack realSlots n ps (29 * n + j) = _ := hr' 29 (by simp [realSlots])
  have r30 : pack realSlots n ps (30 * n + j) = _ := hr' 30 (by simp [realSlots])
  have r31 : pack realSlots n ps (31 * n + j) = _ := hr' 31 (by simp [realSlots])
  have i0 : pack intSlots n ps (0 * n + j) = _ := hi' 0 (by simp [intSlots])
  have i1 : pack intSlots n ps (1 * n + j) = _ := hi' 1 (by simp [intSlots])
  have i2 : pack intSlots n ps (2 * n + j) = _ := hi' 2 (by simp [intSlots])
  have i3 : pack intSlots n ps (3 * n + j) = _ := hi' 3 (by simp [intSlots])
  have i4 : pack intSlots n ps (4 * n + j) = _ := hi' 4 (by simp [intSlots])
  rw [r0, r1, r2, r3, r4, r5, r6, r7, r8, r9, r10, r11, r12, r13, r14, r15, r16, r17, r18, r19, r20, r21, r22, r23, r24, r25, r26, r27, r28, r29, r30, r31, i0, i1, i2, i3, i4, he]
  rfl

theorem myParticles_cover (nTot size : Nat) (hs : 0 < size) (k : Nat) (hk : k < nTot) :
    ∃ rank < size, (myParticles nTot rank size).1 ≤ k ∧
      k < (myParticles nTot rank size).1 + (myParticles nTot rank size).2 := by
  unfold myParticles
  set q := nTot / size with hq
  by_cases hlast : (size - 1) * q ≤ k
  · refine ⟨size - 1, by omega, hlast, ?_⟩
    simp only [if_true]
    have : (size - 1) * q ≤ nTot := by
      calc (size - 1) * q ≤ size * q := Nat.mul_le_mul_right _ (by omega)
        _ ≤ nTot := Nat.mul_div_le _ _
    omega
  · have hq0 : 0 < q := by
      rcases Nat.eq_zero_or_pos q with h | h
      · rw [h] at hlast; omega
      · exact h
    have h1 : k / q < size - 1 := by
      rw [Nat.div_lt_iff_lt_mul hq0]; omega
    refine ⟨k / q, by omega, Nat.div_mul_le_self k q, ?_⟩
    simp only
    rw [if_neg (by omega)]
    have := Nat.lt_div_mul_add hq0 (a := k)
    omega

theorem myParticles_end (nTot size rank : Nat) (hr : rank < size) :
    (myParticles nTot rank size).1 + (myParticles nTot rank size).2 =
      if rank = size - 1 then nTot else (rank + 1) * (nTot / size) := by
  unfold myParticles
  dsimp only
  split
  · have : rank * (nTot / size) ≤ nTot := by
      calc rank * (nTot / size) ≤ size * (nTot / size) := Nat.mul_le_mul_right _ (by omega)
        _ ≤ nTot := Nat.mul_div_le _ _
    omega
  · ring

/-- Blocks do not overlap. -/
theorem myParticles_unique (nTot size k r1 r2 : Nat) (h1 : r1 < size) (h2 : r2 < size)
    (a1 : (myParticles nTot r1 size).1 ≤ k)
    (b1 : k < (myParticles nTot r1 size).1 + (myParticles nTot r1 size).2)
    (a2 : (myParticles nTot r2 size).1 ≤ k)
    (b2 : k < (myParticles nTot r2 size).1 + (myParticles nTot r2 size).2) : r1 = r2 := by
  have key : ∀ r r', r < r' → r' < size → (myParticles nTot r' size).1 ≤ k →
      k < (myParticles nTot r size).1 + (myParticles nTot r size).2 → False := by
    intro r r' hrr hr' ha hb
    rw [myParticles_end nTot size r (by omega), if_neg (by omega)] at hb
    have : (r + 1) * (nTot / size) ≤ (myParticles nTot r' size).1 := Nat.mul_le_mul_right _ (by omega)
    omega
  rcases Nat.lt_trichotomy r1 r2 with h | h | h
  · exact (key _ _ h h2 a2 b1).elim
  · exact h
  · exact (key _ _ h h1 a1 b2).elim

theorem receive_spec (nTot rank size : Nat) (m : Message R Z E) (a : Nat → Option (PState R Z E)) (k : Nat) :
    receive nTot rank size m a k =
      if (myParticles nTot rank size).1 ≤ k ∧
          k < (myParticles nTot rank size).1 + (myParticles nTot rank size).2 then
        unpackOne (myParticles nTot rank size).2 (k - (myParticles nTot rank size).1) m.realdata
          m.intdata m.errdata
      else a k := by
  unfold receive
  generalize (myParticles nTot rank size).1 = s
  generalize hn : (myParticles nTot rank size).2 = n
  suffices h : ∀ q, ((List.range q).foldl (fun a j => fun k =>
      if k = s + j then unpackOne n j m.realdata m.intdata m.errdata else a k) a) k =
      if s ≤ k ∧ k < s + q then unpackOne n (k - s) m.realdata m.intdata m.errdata else a k from h n
  intro q
  induction q with
  | zero => simp
  | succ q ih =>
    rw [List.range_succ, List.foldl_append, List.foldl_cons, List.foldl_nil]
    by_cases h : k = s + q
    · subst h; simp
    · rw [if_neg h, ih]
      by_cases h2 : s ≤ k ∧ k < s + q
      · rw [if_pos h2, if_pos ⟨h2.1, by omega⟩]
      · rw [if_neg h2, if_neg (by omega)]

theorem own_spec {A : Type} (n : Nat) (f : Nat → A) (k : Nat) :
    (List.range n).foldl (fun a j => write a j (f j)) (fun _ => none) k =
      if k < n then some (f k) else none := by
  induction n with
  | zero => simp
  | succ n ih =>
    rw [List.range_succ, List.foldl_append, List.foldl_cons, List.foldl_nil]
    by_cases h : k = n
    · subst h; rw [write_same]; simp
    · rw [write_ne _ _ h, ih]
      by_cases h2 : k < n
      · rw [if_pos h2, if_pos (by omega)]
      · rw [if_neg h2, if_neg (by omega)]

/-- A fold that writes the blocks of the ranks one after the other. -/
theorem fold_blocks {B : Type} (blk : Nat → Nat → Prop) [∀ r k, Decidable (blk r k)]
    (val : Nat → Nat → Option B) (own : Nat → Option B) (step : (Nat → Option B) → Nat → Nat → Option B)
    (hstep : ∀ a i k, step a i k = if blk (i + 1) k then val (i + 1) k else a k)
    (size k rank : Nat) (hr : rank < size) (hk : blk rank k)
    (huniq : ∀ r < size, blk r k → r = rank) (hown : rank = 0 → own k = val 0 k) :
    (List.range (size - 1)).foldl step own k = val rank k := by
  suffices h : ∀ m ≤ size - 1, (List.range m).foldl step own k =
      if 0 < rank ∧ rank ≤ m then val rank k else own k by
    rw [h _ (le_refl _)]
    split
    · rfl
    · have : rank = 0 := by omega
      rw [hown this, this]
  intro m
  induction m with
  | zero => intro _; simp; omega
  | succ m ih =>
    intro hm
    rw [List.range_succ, List.foldl_append, List.foldl_cons, List.foldl_nil, hstep]
    by_cases hb : blk (m + 1) k
    · have := huniq (m + 1) (by omega) hb
      rw [if_pos hb, if_pos (by omega), this]
    · rw [if_neg hb, ih (by omega)]
      by_cases h2 : 0 < rank ∧ rank ≤ m
      · rw [if_pos h2, if_pos (by omega)]
      · have : rank ≠ m + 1 := by rintro rfl; exact hb hk
        rw [if_neg h2, if_neg (by omega)]

end Ascot.Mpi
