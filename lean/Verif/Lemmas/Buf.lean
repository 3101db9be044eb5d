import Verif.Model.Buf
import Mathlib.Tactic.Common

/-!
# Arrays filled by loops
-/
namespace Ascot.Buf
variable {K : Type}

theorem run_spec (ws : List (Nat × K)) : ∀ (b : Buf K), (∀ w ∈ ws, w.1 < b.size) →
    ∃ b', b.run ws = some b' ∧ b'.size = b.size ∧
      (∀ i, (∀ w ∈ ws, w.1 ≠ i) → b'.val i = b.val i) ∧
      (∀ i v, (i, v) ∈ ws → (∀ w ∈ ws, w.1 = i → w.2 = v) → b'.val i = some v) := by
  induction ws with
  | nil => intro b _; exact ⟨b, rfl, rfl, fun _ _ => rfl, by simp⟩
  | cons w ws ih =>
    intro b hb
    have hw := hb w (by simp)
    obtain ⟨b', h1, h2, h3, h4⟩ := ih ⟨b.size, fun j => if j = w.1 then some w.2 else b.val j⟩
      (fun u hu => hb u (by simp [hu]))
    refine ⟨b', ?_, h2, ?_, ?_⟩
    · simp only [Buf.run, Buf.set, if_pos hw, Option.bind_some]; exact h1
    · intro i hi
      rw [h3 i fun u hu => hi u (by simp [hu])]
      have := hi w (by simp)
      simp only
      rw [if_neg (fun e => this e.symm)]
    · intro i v hm hu
      by_cases hin : ∃ u ∈ ws, u.1 = i
      · obtain ⟨u, hu1, hu2⟩ := hin
        have e : u = (i, v) := Prod.ext hu2 (hu u (by simp [hu1]) hu2)
        exact h4 i v (e ▸ hu1) fun u' h' => hu u' (by simp [h'])
      · have hn : ∀ u ∈ ws, u.1 ≠ i := fun u hu1 hu2 => hin ⟨u, hu1, hu2⟩
        rw [h3 i hn]
        rcases List.mem_cons.1 hm with e | e
        · subst e; simp
        · exact absurd rfl (hn _ e)

/-- If every assignment is inside the array and the assignments agree with `f`, the array holds `f` wherever something was assigned. -/
theorem fill_spec {size : Nat} {ws : List (Nat × K)} (f : Nat → K) (hb : ∀ w ∈ ws, w.1 < size ∧ w.2 = f w.1)
    (hc : ∀ i < size, ∃ w ∈ ws, w.1 = i) :
    ∃ b, fill size ws = some b ∧ b.size = size ∧ ∀ i : Nat, i < size → b.get i = some (f i) := by
  obtain ⟨b, h1, h2, -, h4⟩ := run_spec ws (Buf.new size) (fun w hw => (hb w hw).1)
  refine ⟨b, h1, h2, fun i hi => ?_⟩
  have hs : b.size = size := h2
  unfold Buf.get
  rw [if_pos ⟨by omega, by omega⟩, Int.toNat_natCast]
  obtain ⟨w, hw, e⟩ := hc i hi
  refine h4 i (f i) ?_ fun u hu e' => by rw [(hb u hu).2, e']
  have : w = (i, f i) := Prod.ext e (by rw [(hb w hw).2, e])
  exact this ▸ hw

end Ascot.Buf
