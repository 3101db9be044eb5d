import Verif.Spec.Orbit
import Mathlib.Algebra.Order.Floor.Ring
import Mathlib.Tactic.Linarith
import Mathlib.Tactic.Ring

set_option linter.unusedSectionVars false
set_option linter.unusedSimpArgs false

namespace Ascot.Orbit

variable {K : Type} [Field K] [LinearOrder K] [IsStrictOrderedRing K] [FloorRing K]

/-- The arrays hold the latest points of the histories `H`. -/
structure Ring (N : Nat) (d0 d : Orb K) (H : Nat → List (Pt K → Pt K)) : Prop where
  npnt : d.npnt = N
  pnt : ∀ m, d.pnt m = (H m).length % N
  latest : ∀ m t g, (H m)[t]? = some g → (H m).length ≤ t + N → ∃ o, d.buf (m * N + t % N) = g o
  fresh : ∀ m j, j < N → (H m).length ≤ j → d.buf (m * N + j) = d0.buf (m * N + j)

theorem ring_init (N : Nat) (hN : 0 < N) : Ring N (init N : Orb K) (init N) (fun _ => []) where
  npnt := rfl
  pnt := fun _ => by simp [init]
  latest := by intro m t g h; simp at h
  fresh := fun _ _ _ _ => rfl

theorem slot_ne {N m m' j j' : Nat} (hj : j < N) (hj' : j' < N) (h : m ≠ m' ∨ j ≠ j') :
    m * N + j ≠ m' * N + j' := by
  intro hc
  have hN : 0 < N := by omega
  have h1 : (m * N + j) / N = m := by
    rw [Nat.mul_comm, Nat.mul_add_div hN, Nat.div_eq_of_lt hj, Nat.add_zero]
  have h2 : (m' * N + j') / N = m' := by
    rw [Nat.mul_comm, Nat.mul_add_div hN, Nat.div_eq_of_lt hj', Nat.add_zero]
  have hm : m = m' := by rw [← h1, hc, h2]
  subst hm
  rcases h with h | h
  · exact h rfl
  · omega

theorem next_mod {N a : Nat} (hN : 0 < N) : (if a % N + 1 = N then 0 else a % N + 1) = (a + 1) % N := by
  have := Nat.mod_lt a hN
  split
  · rename_i h
    rw [Nat.add_mod]
    by_cases h1 : N = 1
    · subst h1; simp [Nat.mod_one]
    · rw [Nat.mod_eq_of_lt (show 1 < N by omega), h, Nat.mod_self]
  · rename_i h
    rw [Nat.add_mod]
    by_cases h1 : N = 1
    · subst h1; simp [Nat.mod_one] at h
    · rw [Nat.mod_eq_of_lt (show 1 < N by omega)]
      exact (Nat.mod_eq_of_lt (by omega)).symm

/-- Numbers less than `N` apart with the same remainder are equal. -/
theorem mod_eq_close {N a b : Nat} (h : a % N = b % N) (hab : a ≤ b) (hb : b < a + N) : a = b := by
  have h1 := Nat.div_add_mod a N
  have h2 := Nat.div_add_mod b N
  rw [h] at h1
  generalize hq : a / N = qa at *
  generalize hq' : b / N = qb at *
  have h3 : N * qa ≤ N * qb := by omega
  have h4 : N * qb < N * (qa + 1) := by rw [Nat.mul_add]; omega
  have hN : 0 < N := by omega
  have h5 : qa ≤ qb := Nat.le_of_mul_le_mul_left h3 hN
  have h6 : qb < qa + 1 := Nat.lt_of_mul_lt_mul_left h4
  have : qa = qb := by omega
  subst this; omega

theorem ring_record {N : Nat} (hN : 0 < N) {d0 d : Orb K} {H : Nat → List (Pt K → Pt K)} (h : Ring N d0 d H)
    (m : Nat) (g : Pt K → Pt K) (mil : K) :
    Ring N d0 (record d m g mil) (fun k => if k = m then H k ++ [g] else H k) where
  npnt := h.npnt
  pnt := by
    intro k
    show (if k = m then _ else _) = _
    by_cases hk : k = m
    · subst hk
      simp only [if_true, h.npnt, h.pnt, List.length_append, List.length_singleton]
      exact next_mod hN
    · simp only [if_neg hk]; exact h.pnt k
  latest := by
    intro k t g' ht hl
    show ∃ o, (if _ = _ then _ else _) = _
    rw [h.npnt, h.pnt m]
    by_cases hk : k = m
    · subst hk
      simp only [if_true] at ht hl
      rw [List.length_append, List.length_singleton] at hl
      by_cases htl : t < (H k).length
      · rw [List.getElem?_append_left htl] at ht
        rw [if_neg]
        · exact h.latest k t g' ht (by omega)
        · apply slot_ne (Nat.mod_lt _ hN) (Nat.mod_lt _ hN)
          right
          intro hc
          have := mod_eq_close hc (by omega) (by omega)
          omega
      · rw [List.getElem?_append_right (by omega)] at ht
        have ht0 : t - (H k).length = 0 := by
          by_contra hc
          rw [List.getElem?_eq_none (by simp; omega)] at ht
          cases ht
        have : t = (H k).length := by omega
        subst this
        simp only [Nat.sub_self, List.getElem?_cons_zero, Option.some.injEq] at ht
        subst ht
        rw [if_pos rfl]
        exact ⟨_, rfl⟩
    · simp only [if_neg hk] at ht hl
      rw [if_neg (slot_ne (Nat.mod_lt _ hN) (Nat.mod_lt _ hN) (Or.inl hk))]
      exact h.latest k t g' ht hl
  fresh := by
    intro k j hj hl
    show (if _ = _ then _ else _) = _
    rw [h.npnt, h.pnt m]
    by_cases hk : k = m
    · subst hk
      simp only [if_true, List.length_append, List.length_singleton] at hl
      rw [if_neg]
      · exact h.fresh k j hj (by omega)
      · apply slot_ne hj (Nat.mod_lt _ hN)
        right
        rw [Nat.mod_eq_of_lt (by omega)]; omega
    · simp only [if_neg hk] at hl
      rw [if_neg (slot_ne hj (Nat.mod_lt _ hN) (Or.inl hk))]
      exact h.fresh k j hj hl

/-- Many records. -/
theorem ring_records {N : Nat} (hN : 0 < N) {d0 : Orb K} : ∀ (rs : List (Nat × (Pt K → Pt K) × K)) {d : Orb K}
    {H : Nat → List (Pt K → Pt K)}, Ring N d0 d H →
    Ring N d0 (rs.foldl (fun d r => record d r.1 r.2.1 r.2.2) d)
      (fun k => H k ++ (rs.filter (fun r => r.1 = k)).map (fun r => r.2.1))
  | [], d, H, h => by simpa using h
  | r :: rs, d, H, h => by
    have := ring_records hN rs (ring_record hN h r.1 r.2.1 r.2.2)
    rw [List.foldl_cons]
    convert this using 1
    funext k
    by_cases hk : r.1 = k
    · subst hk; simp
    · have hk' : k ≠ r.1 := fun h => hk h.symm
      simp [hk, hk']

theorem shows_setPt (m : Mode) (p : Mrk K) (o : Pt K) : Shows m (setPt m p o) p := by
  cases m <;> simp [Shows, setPt, Mode.code]

theorem setPt_id (m : Mode) (p : Mrk K) (o : Pt K) : (setPt m p o).id = p.id := by
  cases m <;> rfl

end Ascot.Orbit
