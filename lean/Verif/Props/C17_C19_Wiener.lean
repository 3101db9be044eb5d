import Verif.Lemmas.Wiener
import Verif.Spec.Wiener
import Mathlib.Tactic.NormNum

/-!
# C17-C19, C67: Wiener processes of the adaptive collision operator
-/
set_option linter.unusedSectionVars false

namespace Ascot.C17
open Ascot.Wiener

variable {K : Type} [Field K] [LinearOrder K]

theorem links_step {f : Nat → Option Nat} : ∀ {l : List Nat}, Links f l → ∀ {i}, i ∈ l →
    (∃ p, l = p ++ [i] ∧ f i = some i) ∨ (∃ p j q, l = p ++ i :: j :: q ∧ f i = some j)
  | [a], h, i, hi => by
    rw [List.mem_singleton] at hi; subst hi
    exact .inl ⟨[], rfl, h⟩
  | a :: b :: l, h, i, hi => by
    rcases List.mem_cons.1 hi with rfl | hi
    · exact .inr ⟨[], b, l, rfl, h.1⟩
    · rcases links_step h.2 hi with ⟨p, h1, h2⟩ | ⟨p, j, q, h1, h2⟩
      · exact .inl ⟨a :: p, by rw [h1]; rfl, h2⟩
      · exact .inr ⟨a :: p, j, q, by rw [h1]; rfl, h2⟩

theorem live_iff {n : Nat} {w : Arr K} {l : List Nat} (h : Rep n w l) (i : Nat) :
    Live n w i ↔ i ∈ l :=
  ⟨fun hi => (h.live hi.1).1 hi.2, fun hi => ⟨h.bound i hi, (h.live (h.bound i hi)).2 hi⟩⟩

theorem wellFormed {n : Nat} {w : Arr K} {l : List Nat} (h : Rep n w l) : WellFormed n w := by
  have hlt : ∀ p i q, l = p ++ i :: q → (∀ x ∈ p, w.time x < w.time i) ∧ ∀ x ∈ q, w.time i < w.time x := by
    intro p i q hl
    have hs := h.sorted
    rw [hl, List.pairwise_append, List.pairwise_cons] at hs
    exact ⟨fun x hx => hs.2.2 x hx i (by simp), hs.2.1.1⟩
  have hdist : ∀ i j, i ∈ l → j ∈ l → w.time i = w.time j → i = j := by
    intro i j hi hj hij
    obtain ⟨p, q, hl⟩ := List.append_of_mem hi
    rw [hl] at hj
    rcases List.mem_append.1 hj with hj | hj
    · exact absurd hij.symm ((hlt p i q hl).1 j hj).ne
    · rcases List.mem_cons.1 hj with rfl | hj
      · rfl
      · exact absurd hij ((hlt p i q hl).2 j hj).ne
  refine ⟨⟨?_, ?_⟩, ?_, ?_, ?_⟩
  · obtain ⟨q, rfl⟩ := h.cons
    rw [live_iff h]; simp
  · intro i hi
    rw [live_iff h] at hi
    obtain ⟨q, rfl⟩ := h.cons
    rcases List.mem_cons.1 hi with rfl | hi
    · exact le_refl _
    · exact ((hlt [] 0 q rfl).2 i hi).le
  · intro i j hi hj
    rw [live_iff h] at hi hj
    exact hdist i j hi hj
  · intro i hi hn j hj
    rw [live_iff h] at hi hj
    rcases links_step h.links hi with ⟨p, h1, _⟩ | ⟨p, k, q, h1, h2⟩
    · rw [h1] at hj
      rcases List.mem_append.1 hj with hj | hj
      · exact ((hlt p i [] h1).1 j hj).le
      · rw [List.mem_singleton] at hj; rw [hj]
    · rw [hn] at h2
      have hki : k = i := (Option.some.inj h2).symm
      have := (hlt p i (k :: q) h1).2 k (by simp)
      rw [hki] at this; exact absurd this (lt_irrefl _)
  · intro i j hi hn hji
    rw [live_iff h] at hi
    rcases links_step h.links hi with ⟨p, _, h2⟩ | ⟨p, k, q, h1, h2⟩
    · rw [hn] at h2; exact absurd (Option.some.inj h2) hji
    · rw [hn] at h2
      obtain rfl := Option.some.inj h2
      refine ⟨?_, (hlt p i (j :: q) h1).2 j (by simp), ?_⟩
      · rw [live_iff h, h1]; simp
      · intro x hx hlx
        rw [live_iff h, h1] at hx
        rcases List.mem_append.1 hx with hx | hx
        · exact absurd hlx (not_lt.2 ((hlt p i (j :: q) h1).1 x hx).le)
        · rcases List.mem_cons.1 hx with rfl | hx
          · exact absurd hlx (lt_irrefl _)
          · rcases List.mem_cons.1 hx with rfl | hx
            · exact le_refl _
            · have := (hlt (p ++ [i]) j q (by rw [h1]; simp)).2 x hx
              exact this.le

/-- States that the storage can be in: initialised at any time, then any calls of
`generate`, successful or not, for times not before the first stored one, and any
successful calls of `clean`. -/
inductive Reach (sqrt : K → K) (n : Nat) : Arr K → Prop
  | init (w : Arr K) (t0 : K) : Reach sqrt n (init n w t0)
  | generate {w w' : Arr K} {i : Option Nat} (t : K) (rnd : Fin 5 → K) : Reach sqrt n w →
      w.time 0 ≤ t → generate sqrt n w t rnd = some (w', i) → Reach sqrt n w'
  | clean {w w' : Arr K} (fuel : Nat) (t : K) : Reach sqrt n w →
      clean fuel w t = some (w', false) → Reach sqrt n w'

theorem cleanLoop_fuel (t : K) : ∀ (f g : Nat) (w : Arr K) (i : Nat) (r : Arr K × Nat × Bool), f ≤ g →
    cleanLoop t f w i = some r → cleanLoop t g w i = some r
  | 0, _, _, _, _, _, h => by simp [cleanLoop] at h
  | f + 1, 0, _, _, _, hfg, _ => by omega
  | f + 1, g + 1, w, i, r, hfg, h => by
    rw [cleanLoop] at h ⊢
    split
    · rename_i ht
      rw [if_pos ht] at h
      cases hn : w.next i with
      | none => rw [hn] at h; cases h
      | some j =>
        rw [hn] at h
        dsimp only at h ⊢
        split
        · rename_i hij; rw [if_pos hij] at h; exact h
        · rename_i hij; rw [if_neg hij] at h
          exact cleanLoop_fuel t f g _ _ _ (by omega) h
    · rename_i ht; rw [if_neg ht] at h; exact h

theorem clean_fuel {f g : Nat} (hfg : f ≤ g) {w : Arr K} {t : K} {r : Arr K × Bool}
    (h : clean f w t = some r) : clean g w t = some r := by
  unfold clean at h ⊢
  cases hl : cleanLoop t f w 0 with
  | none => rw [hl] at h; cases h
  | some x => rw [cleanLoop_fuel t f g w 0 x hfg hl]; rw [hl] at h; exact h

theorem reach_rep {sqrt : K → K} {n : Nat} (hn : 0 < n) {w : Arr K} (h : Reach sqrt n w) :
    ∃ l, Rep n w l := by
  induction h with
  | init w t0 => exact ⟨_, init_rep hn w t0⟩
  | generate t rnd hr ht hg ih =>
    obtain ⟨l, hl⟩ := ih
    rcases generate_spec sqrt hl t ht rnd with ⟨i, _, _, h1⟩ | ⟨_, _, h1⟩ | ⟨p, m, q, e, w2, _, _, _, _, _, _, h1, _, _, h2⟩
    · rw [hg] at h1; cases h1; exact ⟨l, hl⟩
    · rw [hg] at h1; cases h1; exact ⟨l, hl⟩
    · rw [hg] at h1; cases h1; exact ⟨_, h2⟩
  | clean fuel t hr hc ih =>
    obtain ⟨l, hl⟩ := ih
    have hc' := clean_fuel (Nat.le_max_left fuel n) hc
    rcases clean_spec (Nat.le_max_right fuel n) hl t with ⟨_, w2, h1⟩ | ⟨_, h1⟩ | ⟨p, b, q, w2, _, _, _, h1, _, _, h2⟩
    · rw [hc'] at h1; cases h1
    · rw [hc'] at h1; cases h1; exact ⟨l, hl⟩
    · rw [hc'] at h1; cases h1; exact ⟨_, h2⟩

/-- After any history the storage is well formed; the next calls end and never use an
unused slot (no undefined behaviour), for `clean` within `n` rounds of its loop.
Missing from C17: `generate` for a time before the first stored one, which destroys the
chain (`generate_before_start`). -/
theorem reachable_partial (sqrt : K → K) (n : Nat) (hn : 0 < n) (w : Arr K) (h : Reach sqrt n w) :
    WellFormed n w ∧
    (∀ t rnd, w.time 0 ≤ t → (generate sqrt n w t rnd).isSome = true) ∧
    (∀ t, (clean n w t).isSome = true) := by
  obtain ⟨l, hl⟩ := reach_rep hn h
  refine ⟨wellFormed hl, ?_, ?_⟩
  · intro t rnd ht
    rcases generate_spec sqrt hl t ht rnd with ⟨i, _, _, h1⟩ | ⟨_, _, h1⟩ | ⟨p, m, q, e, w2, _, _, _, _, _, _, h1, _, _, h2⟩ <;>
      rw [h1] <;> rfl
  · intro t
    rcases clean_spec (le_refl n) hl t with ⟨_, w2, h1⟩ | ⟨_, h1⟩ | ⟨p, b, q, w2, _, _, _, h1, _, _, h2⟩ <;>
      rw [h1] <;> rfl

/-- Memory before initialisation, for the examples. -/
def blank : Arr ℚ where
  next _ := none
  time _ := 0
  val _ _ := 0

/-- Witness: a request for a time before the first one succeeds and makes the chain
circular: slot 0 leads to slot 1 and slot 1 to slot 0. -/
theorem generate_before_start :
    ∃ w' : Arr ℚ, generate id 20 (init 20 blank 1) 0 (fun _ => 1) = some (w', some 1) ∧
      w'.next 0 = some 1 ∧ w'.next 1 = some 0 ∧ ¬ WellFormed 20 w' := by
  refine ⟨_, rfl, rfl, rfl, ?_⟩
  intro h
  exact absurd (h.first.2 1 ⟨by norm_num, by decide +kernel⟩) (by decide +kernel)

/-- Witness: a call of `clean` for a time after the last sample reports an error, and the
first slot of the chain has then been freed, so that the next `generate` uses
`MCCC_EMPTY` as an index. -/
theorem clean_error_destroys :
    ∃ w' w'' : Arr ℚ, generate id 20 (init 20 blank 1) 2 (fun _ => 1) = some (w', some 1) ∧
      clean 20 w' 3 = some (w'', true) ∧ w''.next 0 = none ∧
      generate id 20 w'' 3 (fun _ => 1) = none := by
  exact ⟨_, _, rfl, rfl, rfl, rfl⟩

/-- A reachable state with two samples. -/
example : ∃ w : Arr ℚ, Reach id 20 w ∧ Live 20 w 0 ∧ Live 20 w 1 := by
  refine ⟨_, Reach.generate 2 (fun _ => 1) (Reach.init blank 1) (by decide +kernel) rfl, ?_, ?_⟩ <;>
    exact ⟨by norm_num, by decide +kernel⟩

end Ascot.C17

namespace Ascot.C18
open Ascot.Wiener Ascot.C17

variable {K : Type} [Field K] [LinearOrder K]

theorem value_iff {n : Nat} {w : Arr K} {l : List Nat} (h : Rep n w l) (t : K) (v : Fin 5 → K) :
    Value n w t v ↔ ∃ i ∈ l, w.time i = t ∧ w.val i = v := by
  unfold Value
  simp only [live_iff h]

/-- There is at most one value per time. -/
theorem unique (sqrt : K → K) (n : Nat) (hn : 0 < n) (w : Arr K) (h : Reach sqrt n w) (t : K)
    (v v' : Fin 5 → K) (h1 : Value n w t v) (h2 : Value n w t v') : v = v' := by
  obtain ⟨l, hl⟩ := reach_rep hn h
  obtain ⟨i, a1, a2, rfl⟩ := h1
  obtain ⟨j, b1, b2, rfl⟩ := h2
  rw [(wellFormed hl).distinct i j a1 b1 (by rw [a2, b2])]

/-- Asking again for the same time returns the stored value and changes nothing, whatever
the random numbers. -/
theorem generate_again (sqrt : K → K) (n : Nat) (hn : 0 < n) (w : Arr K) (h : Reach sqrt n w) (t : K)
    (v : Fin 5 → K) (hv : Value n w t v) (rnd : Fin 5 → K) :
    ∃ i, generate sqrt n w t rnd = some (w, some i) ∧ w.val i = v := by
  obtain ⟨l, hl⟩ := reach_rep hn h
  have hv' := hv
  rw [value_iff hl] at hv
  obtain ⟨j, hj, hjt, hjv⟩ := hv
  have ht : w.time 0 ≤ t := by
    rw [← hjt]; exact (wellFormed hl).first.2 j ((live_iff hl j).2 hj)
  rcases generate_spec sqrt hl t ht rnd with ⟨i, hi, hit, h1⟩ | ⟨hne, _, h1⟩ | ⟨p, m, q, e, w2, hlq, h2, h3, _, _, _, h1, _⟩
  · refine ⟨i, h1, ?_⟩
    rw [(wellFormed hl).distinct i j ((live_iff hl i).2 hi) ((live_iff hl j).2 hj) (by rw [hit, hjt])]
    exact hjv
  · exact absurd hjt (hne j hj)
  · rw [hlq] at hj
    rcases List.mem_append.1 hj with hj | hj
    · exact absurd hjt (h2 j (by simp [hj])).ne
    · rcases List.mem_cons.1 hj with rfl | hj
      · exact absurd hjt (h2 j (by simp)).ne
      · exact absurd hjt (h3 j hj).ne'

/-- Sampling at a time keeps all values at other times and adds exactly the returned one. -/
theorem generate_values (sqrt : K → K) (n : Nat) (hn : 0 < n) (w w' : Arr K) (h : Reach sqrt n w) (t : K)
    (ht : w.time 0 ≤ t) (rnd : Fin 5 → K) (i : Nat)
    (hg : generate sqrt n w t rnd = some (w', some i)) :
    Value n w' t (w'.val i) ∧
    ∀ s v, s ≠ t → (Value n w' s v ↔ Value n w s v) := by
  obtain ⟨l, hl⟩ := reach_rep hn h
  rcases generate_spec sqrt hl t ht rnd with ⟨j, hj, hjt, h1⟩ | ⟨hne, _, h1⟩ | ⟨p, m, q, e, w2, hlq, h2, h3, h4, h5, _, h1, h6, h7, h8⟩
  · rw [hg] at h1; cases h1
    exact ⟨⟨i, (live_iff hl i).2 hj, hjt, rfl⟩, fun s v _ => Iff.rfl⟩
  · rw [hg] at h1; cases h1
  · rw [hg] at h1; cases h1
    refine ⟨⟨i, (live_iff h8 i).2 (by simp), by rw [h6]; simp, rfl⟩, ?_⟩
    intro s v hs
    rw [value_iff hl, value_iff h8]
    have hmem : ∀ x, x ∈ p ++ m :: i :: q ↔ x = i ∨ x ∈ l := by
      intro x; rw [hlq]; simp only [List.mem_append, List.mem_cons]; tauto
    constructor
    · rintro ⟨x, hx, hxt, hxv⟩
      rcases (hmem x).1 hx with rfl | hx2
      · rw [h6] at hxt; simp at hxt; exact absurd hxt.symm hs
      · have hxi : x ≠ i := by rintro rfl; exact h5 hx2
        rw [h6, upd_ne _ _ hxi] at hxt
        rw [h7, upd_ne _ _ hxi] at hxv
        exact ⟨x, hx2, hxt, hxv⟩
    · rintro ⟨x, hx, hxt, hxv⟩
      have hxi : x ≠ i := by rintro rfl; exact h5 hx
      exact ⟨x, (hmem x).2 (.inr hx), by rw [h6, upd_ne _ _ hxi]; exact hxt,
        by rw [h7, upd_ne _ _ hxi]; exact hxv⟩

/-- Cleaning up to a time keeps every value at or after that time, and only those. -/
theorem clean_values (sqrt : K → K) (n : Nat) (hn : 0 < n) (w w' : Arr K) (h : Reach sqrt n w) (t : K)
    (hc : clean n w t = some (w', false)) (s : K) (v : Fin 5 → K) :
    Value n w' s v ↔ Value n w s v ∧ t ≤ s := by
  obtain ⟨l, hl⟩ := reach_rep hn h
  rcases clean_spec (le_refl n) hl t with ⟨_, w2, h1⟩ | ⟨h0, h1⟩ | ⟨p, b, q, w2, hlq, h2, h3, h1, h4, h5, h6⟩
  · rw [hc] at h1; cases h1
  · rw [hc] at h1; cases h1
    constructor
    · intro hv
      refine ⟨hv, ?_⟩
      obtain ⟨i, hi, rfl, _⟩ := hv
      exact le_trans h0 ((wellFormed hl).first.2 i hi)
    · exact fun hv => hv.1
  · rw [hc] at h1; cases h1
    rw [value_iff hl, value_iff h6]
    have hnd := hl.nodup
    rw [hlq, List.nodup_append] at hnd
    constructor
    · rintro ⟨x, hx, hxt, hxv⟩
      rcases List.mem_cons.1 hx with rfl | hx
      · rw [h4, upd_same] at hxt
        rw [h5, upd_same] at hxv
        exact ⟨⟨b, by rw [hlq]; simp, hxt, hxv⟩, by rw [← hxt]; exact h3 b (by simp)⟩
      · have hx0 : x ≠ 0 := by
          rintro rfl; exact hnd.2.2 0 (by simp) 0 (by simp [hx]) rfl
        rw [h4, upd_ne _ _ hx0] at hxt
        rw [h5, upd_ne _ _ hx0] at hxv
        exact ⟨⟨x, by rw [hlq]; simp [hx], hxt, hxv⟩, by rw [← hxt]; exact h3 x (by simp [hx])⟩
    · rintro ⟨⟨x, hx, hxt, hxv⟩, hts⟩
      rw [hlq] at hx
      rcases List.mem_append.1 hx with hx | hx
      · exact absurd hts (not_le.2 (by rw [← hxt]; exact h2 x hx))
      · rcases List.mem_cons.1 hx with rfl | hx
        · exact ⟨0, by simp, by rw [h4, upd_same]; exact hxt, by rw [h5, upd_same]; exact hxv⟩
        · have hx0 : x ≠ 0 := by
            rintro rfl; exact hnd.2.2 0 (by simp) 0 (by simp [hx]) rfl
          exact ⟨x, by simp [hx], by rw [h4, upd_ne _ _ hx0]; exact hxt,
            by rw [h5, upd_ne _ _ hx0]; exact hxv⟩

/-- Cleaning succeeds exactly if there is a sample at or after the given time. -/
theorem clean_succeeds (sqrt : K → K) (n : Nat) (hn : 0 < n) (w : Arr K) (h : Reach sqrt n w) (t : K) :
    (∃ w', clean n w t = some (w', false)) ↔ ∃ s v, Value n w s v ∧ t ≤ s := by
  obtain ⟨l, hl⟩ := reach_rep hn h
  constructor
  · rintro ⟨w', hc⟩
    have hw := Reach.clean n t h hc
    obtain ⟨l', hl'⟩ := reach_rep hn hw
    have h0 := (wellFormed hl').first.1
    exact ⟨_, _, (clean_values sqrt n hn w w' h t hc (w'.time 0) (w'.val 0)).1 ⟨0, h0, rfl, rfl⟩⟩
  · rintro ⟨s, v, ⟨i, hi, hit, _⟩, hts⟩
    rcases clean_spec (le_refl n) hl t with ⟨ha, w2, h1⟩ | ⟨h0, h1⟩ | ⟨p, b, q, w2, hlq, h2, h3, h1, h4, h5, h6⟩
    · have := ha i ((live_iff hl i).1 hi)
      rw [hit] at this; exact absurd hts (not_le.2 this)
    · exact ⟨_, h1⟩
    · exact ⟨_, h1⟩

end Ascot.C18

namespace Ascot.C19
open Ascot.Wiener Ascot.C17

variable {K : Type} [Field K] [LinearOrder K]

/-- `generate` fails exactly if all slots are in use and the time is not stored, and then
nothing is changed. -/
theorem full (sqrt : K → K) (n : Nat) (hn : 0 < n) (w : Arr K) (h : Reach sqrt n w) (t : K)
    (ht : w.time 0 ≤ t) (rnd : Fin 5 → K) :
    (generate sqrt n w t rnd = some (w, none) ↔
      (∀ i < n, Live n w i) ∧ ∀ v, ¬ Value n w t v) ∧
    (∀ w', generate sqrt n w t rnd = some (w', none) → w' = w) := by
  obtain ⟨l, hl⟩ := reach_rep hn h
  rcases generate_spec sqrt hl t ht rnd with ⟨j, hj, hjt, h1⟩ | ⟨hne, hfull, h1⟩ | ⟨p, m, q, e, w2, hlq, h2, h3, h4, h5, he, h1, h6, h7, h8⟩
  · refine ⟨⟨fun hc => (by rw [h1] at hc; cases hc), ?_⟩, ?_⟩
    · rintro ⟨_, hv⟩; exact absurd ⟨j, (live_iff hl j).2 hj, hjt, rfl⟩ (hv _)
    · intro w' hc; rw [h1] at hc; cases hc
  · refine ⟨⟨fun _ => ⟨fun i hi => ⟨hi, hfull i hi⟩, ?_⟩, fun _ => h1⟩, ?_⟩
    · rintro v ⟨i, hi, hit, _⟩; exact hne i ((live_iff hl i).1 hi) hit
    · intro w' hc; rw [h1] at hc; cases hc; rfl
  · refine ⟨⟨fun hc => (by rw [h1] at hc; cases hc), ?_⟩, ?_⟩
    · rintro ⟨hf, _⟩; exact absurd he (hf e h4).2
    · intro w' hc; rw [h1] at hc; cases hc

/-- While a free slot exists, a request for any time from the first stored one on
succeeds. -/
theorem free_slot (sqrt : K → K) (n : Nat) (hn : 0 < n) (w : Arr K) (h : Reach sqrt n w) (k : Nat)
    (hk : k < n) (hfree : ¬ Live n w k) (t : K) (ht : w.time 0 ≤ t) (rnd : Fin 5 → K) :
    ∃ w' i, generate sqrt n w t rnd = some (w', some i) := by
  have hs := (reachable_partial sqrt n hn w h).2.1 t rnd ht
  obtain ⟨⟨w', r⟩, hr⟩ := Option.isSome_iff_exists.1 hs
  cases r with
  | some i => exact ⟨w', i, hr⟩
  | none =>
    have hf := full sqrt n hn w h t ht rnd
    have := hf.2 w' hr
    rw [this] at hr
    exact absurd ((hf.1.1 hr).1 k hk) hfree

/-- With a single slot the second sample fails, so the hypotheses can be met. -/
example : generate (id : ℚ → ℚ) 1 (init 1 blank 0) 1 (fun _ => 0) = some (init 1 blank 0, none) := by
  refine (full id 1 one_pos _ (.init blank 0) 1 (by norm_num [init, upd]) _).1.2 ⟨?_, ?_⟩
  · intro i hi
    obtain rfl : i = 0 := by omega
    exact ⟨hi, by simp [init]⟩
  · rintro v ⟨i, hi, hit, _⟩
    obtain rfl : i = 0 := by have := hi.1; omega
    norm_num [init, upd] at hit

end Ascot.C19

namespace Ascot.C67
open Ascot.Wiener Ascot.C17

variable {K : Type} [Field K] [LinearOrder K]

/-- `s` is the latest stored time before `t`. -/
def Before (n : Nat) (w : Arr K) (t s : K) : Prop :=
  s < t ∧ (∃ v, Value n w s v) ∧ ∀ s' v, Value n w s' v → s' < t → s' ≤ s

/-- `s` is the earliest stored time after `t`. -/
def After (n : Nat) (w : Arr K) (t s : K) : Prop :=
  t < s ∧ (∃ v, Value n w s v) ∧ ∀ s' v, Value n w s' v → t < s' → s ≤ s'

/-- A new sample at the end of the process is the last sample plus a normal increment with
variance `t - s`; a new sample between two stored times follows the Brownian bridge
between the two nearest stored samples. -/
theorem bridge (sqrt : K → K) (n : Nat) (hn : 0 < n) (w w' : Arr K) (h : Reach sqrt n w) (t : K)
    (ht : w.time 0 ≤ t) (rnd : Fin 5 → K) (i : Nat) (hnew : ∀ v, ¬ Value n w t v)
    (hg : generate sqrt n w t rnd = some (w', some i)) :
    ∃ s v, Before n w t s ∧ Value n w s v ∧
      (((∀ s' v', Value n w s' v' → s' < t) ∧
        ∀ d, w'.val i d = v d + sqrt (t - s) * rnd d) ∨
       (∃ s2 v2, After n w t s2 ∧ Value n w s2 v2 ∧
        ∀ d, w'.val i d = v d + (v2 d - v d) * ((t - s) / (s2 - s)) +
          sqrt ((t - s) * (s2 - t) / (s2 - s)) * rnd d)) := by
  obtain ⟨l, hl⟩ := reach_rep hn h
  rcases generate_spec sqrt hl t ht rnd with ⟨j, hj, hjt, h1⟩ | ⟨hne, hfull, h1⟩ | ⟨p, m, q, e, w2, hlq, h2, h3, h4, h5, he, h1, h6, h7, h8⟩
  · exact absurd ⟨j, (live_iff hl j).2 hj, hjt, rfl⟩ (hnew _)
  · rw [hg] at h1; cases h1
  · rw [hg] at h1; cases h1
    have hm : Value n w (w.time m) (w.val m) := ⟨m, (live_iff hl m).2 (by rw [hlq]; simp), rfl, rfl⟩
    have hs := hl.sorted
    rw [hlq, List.pairwise_append, List.pairwise_cons] at hs
    refine ⟨w.time m, w.val m, ⟨h2 m (by simp), ⟨_, hm⟩, ?_⟩, hm, ?_⟩
    · rintro s' v ⟨x, hx, rfl, _⟩ hxt
      rw [live_iff hl, hlq] at hx
      rcases List.mem_append.1 hx with hx | hx
      · exact (hs.2.2 x hx m (by simp)).le
      · rcases List.mem_cons.1 hx with rfl | hx
        · exact le_refl _
        · exact absurd hxt (not_lt.2 (h3 x hx).le)
    · cases q with
      | nil =>
        left
        refine ⟨?_, ?_⟩
        · rintro s' v ⟨x, hx, rfl, _⟩
          rw [live_iff hl, hlq] at hx
          exact h2 x hx
        · intro d; rw [h7]; simp [sample]
      | cons b q =>
        right
        have hb : Value n w (w.time b) (w.val b) := ⟨b, (live_iff hl b).2 (by rw [hlq]; simp), rfl, rfl⟩
        refine ⟨w.time b, w.val b, ⟨h3 b (by simp), ⟨_, hb⟩, ?_⟩, hb, ?_⟩
        · rintro s' v ⟨x, hx, rfl, _⟩ hxt
          rw [live_iff hl, hlq] at hx
          rcases List.mem_append.1 hx with hx | hx
          · exact absurd hxt (not_lt.2 (h2 x (by simp [hx])).le)
          · rcases List.mem_cons.1 hx with rfl | hx
            · exact absurd hxt (not_lt.2 (h2 x (by simp)).le)
            · rcases List.mem_cons.1 hx with rfl | hx
              · exact le_refl _
              · exact ((List.pairwise_cons.1 hs.2.1.2).1 x hx).le
        · intro d; rw [h7]; simp only [upd_same, List.head?_cons, sample, mul_div_assoc]

/-- Process with samples at the times 1 and 3. -/
def two : Arr ℚ := ((generate id 20 (init 20 blank 1) 3 (fun _ => 1)).map Prod.fst).getD blank

/-- A sample between two others. -/
example : Reach id 20 two ∧ (∀ v, ¬ Value 20 two 2 v) ∧
    ∃ w' : Arr ℚ, generate id 20 two 2 (fun _ => 0) = some (w', some 2) ∧ w'.val 2 0 = 1 := by
  refine ⟨Reach.generate 3 (fun _ => 1) (Reach.init blank 1) (by decide +kernel) rfl, ?_, _, rfl, ?_⟩
  · rintro v ⟨i, hi, hit, _⟩
    have : ∀ i < 20, two.time i ≠ 2 := by decide +kernel
    exact this i hi.1 hit
  · decide +kernel

end Ascot.C67
