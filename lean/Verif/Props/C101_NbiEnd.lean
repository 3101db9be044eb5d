import Verif.Props.C100_Trace

/-!
# C101: how the tracing of a beam neutral ends
-/
set_option linter.unusedSectionVars false
set_option linter.unusedSimpArgs false

namespace Ascot.C101
open Ascot.Bbnbi Ascot.C100

variable {P : Type}

/-- A step of a running marker either finds its data or aborts the marker with an error. -/
theorem step_cases (e : Env P) (h : ℝ) (a : Lane) (ha : a.running = true) :
    (∃ rho q, Seen e h a rho q) ∨
    ((step e h a).running = false ∧ (step e h a).endcond = a.endcond ∧
      ((∃ x, e.rho (move e.c h a).r (move e.c h a).phi (move e.c h a).z a.time = .error x ∧ (step e h a).err = x) ∨
       (∃ rho x, e.rho (move e.c h a).r (move e.c h a).phi (move e.c h a).z a.time = .ok rho ∧
          e.plasma rho (move e.c h a).r (move e.c h a).phi (move e.c h a).z a.time = .error x ∧ (step e h a).err = x) ∨
       (∃ rho p x, e.rho (move e.c h a).r (move e.c h a).phi (move e.c h a).z a.time = .ok rho ∧
          e.plasma rho (move e.c h a).r (move e.c h a).phi (move e.c h a).z a.time = .ok p ∧
          e.bms (ekin e a) p = .error x ∧ (step e h a).err = 1))) := by
  have ht : (move e.c h a).time = a.time := rfl
  have hek : ekin e a = Physlib.ekinPnorm e.c a.mass (V3.norm Real.sqrt ⟨a.pr, a.pphi, a.pz⟩) := by rw [norm_mom]; rfl
  cases h1 : e.rho (move e.c h a).r (move e.c h a).phi (move e.c h a).z a.time with
  | error x =>
    right
    have : step e h a = { move e.c h a with rho := none, err := x, running := false } := by
      unfold step; rw [if_pos ha]; simp only [ht, h1]
    rw [this]
    exact ⟨rfl, rfl, Or.inl ⟨x, rfl, rfl⟩⟩
  | ok rho =>
    cases h2 : e.plasma rho (move e.c h a).r (move e.c h a).phi (move e.c h a).z a.time with
    | error x =>
      right
      have : (step e h a).running = false ∧ (step e h a).endcond = a.endcond ∧ (step e h a).err = x := by
        unfold step; rw [if_pos ha]; simp only [ht, h1]; unfold rate; simp only [ht, h2]; exact ⟨trivial, rfl, trivial⟩
      exact ⟨this.1, this.2.1, Or.inr (Or.inl ⟨rho, x, rfl, h2, this.2.2⟩)⟩
    | ok p =>
      cases h3 : e.bms (ekin e a) p with
      | error x =>
        right
        have : (step e h a).running = false ∧ (step e h a).endcond = a.endcond ∧ (step e h a).err = 1 := by
          rw [hek] at h3
          unfold step; rw [if_pos ha]; simp only [ht, h1]; unfold rate; simp only [ht, h2, h3]; exact ⟨trivial, rfl, trivial⟩
        exact ⟨this.1, this.2.1, Or.inr (Or.inr ⟨rho, p, x, rfl, h2, h3, this.2.2⟩)⟩
      | ok s => exact Or.inl ⟨rho, _, h1, p, s, h2, h3, rfl⟩

/-- **End conditions.**  For a running marker and its next step: if the input data are found, the marker stops exactly if it hits the
wall, exceeds the time limit or is ionised, with just those end conditions set and no error; otherwise it is aborted with an error and
without an end condition. -/
theorem end_conditions (e : Env P) (h : ℝ) (a : Lane) (ha : a.running = true) (hec : a.endcond = 0) (herr : a.err = 0)
    (hr0 : ∀ r p z t, e.rho r p z t ≠ .error 0) (hp0 : ∀ x r p z t, e.plasma x r p z t ≠ .error 0) :
    (∀ rho q, Seen e h a rho q →
      ((step e h a).endcond.testBit 3 = true ↔ Hits e a (arrive e h a rho q)) ∧
      ((step e h a).endcond.testBit 0 = true ↔ 1e-3 < a.mileage + h) ∧
      ((step e h a).endcond.testBit 11 = true ↔ a.remaining * Real.exp (-q * h) < a.threshold) ∧
      ((step e h a).running = true ↔ ¬ Hits e a (arrive e h a rho q) ∧ ¬ 1e-3 < a.mileage + h ∧ ¬ a.remaining * Real.exp (-q * h) < a.threshold) ∧
      (step e h a).err = 0) ∧
    ((∀ rho q, ¬ Seen e h a rho q) → (step e h a).running = false ∧ (step e h a).endcond = 0 ∧ (step e h a).err ≠ 0) := by
  refine ⟨fun rho q hs => ?_, fun hn => ?_⟩
  · rw [step_seen e h a ha hs]
    obtain ⟨-, -, -, f4, -, f6, f7, -, f9, f10, f11, -⟩ := arrive_fields e h a rho q
    obtain ⟨c1, c2, c3, -, c5, -, c7, -⟩ := checks_spec e a (arrive e h a rho q) (f7.trans hec)
    rw [f4] at c2 c5
    rw [f6, f11] at c3 c5
    refine ⟨c1, c2, c3, ?_, c7.trans (f9.trans herr)⟩
    rw [c5, f10, not_lt, not_lt]
    simp [ha]
  · rcases step_cases e h a ha with ⟨rho, q, hs⟩ | ⟨h1, h2, h3⟩
    · exact absurd hs (hn rho q)
    · refine ⟨h1, h2.trans hec, ?_⟩
      rcases h3 with ⟨x, h4, h5⟩ | ⟨rho, x, h4, h5, h6⟩ | ⟨rho, p, x, h4, h5, h6, h7⟩
      · rw [h5]; rintro rfl; exact hr0 _ _ _ _ h4
      · rw [h6]; rintro rfl; exact hp0 _ _ _ _ _ h5
      · rw [h7]; decide

/-- **Wall.**  A neutral that hits the wall after it has left the plasma ends on the segment between its last two points, at the
fraction the collision check returns, and with the number of the wall element. -/
theorem wall_end (e : Env P) (h : ℝ) (a : Lane) (ha : a.running = true) {rho q : ℝ} (hs : Seen e h a rho q)
    (hw : Hits e a (arrive e h a rho q)) :
    let m := move e.c h a
    let hit := e.wall ⟨a.r, a.phi, a.z⟩ ⟨m.r, m.phi, m.z⟩
    let f := step e h a
    f.walltile = hit.1 ∧ f.r = a.r + hit.2 * (m.r - a.r) ∧ f.phi = a.phi + hit.2 * (m.phi - a.phi) ∧ f.z = a.z + hit.2 * (m.z - a.z) := by
  intro m hit f
  have hf : f = checks e a (arrive e h a rho q) := step_seen e h a ha hs
  have hwc := (wallCheck_spec e a (arrive e h a rho q)).1 hw
  have key : ∀ w : Lane, (ionCheck e (limitCheck w)).walltile = w.walltile ∧ (ionCheck e (limitCheck w)).r = w.r ∧
      (ionCheck e (limitCheck w)).phi = w.phi ∧ (ionCheck e (limitCheck w)).z = w.z := by
    intro w
    unfold ionCheck limitCheck
    split_ifs <;> exact ⟨rfl, rfl, rfl, rfl⟩
  rw [hf]
  unfold checks
  rw [hwc]
  obtain ⟨k1, k2, k3, k4⟩ := key _
  exact ⟨k1, k2, k3, k4⟩

/-- The wall is looked at from the first step on that leads from inside the plasma to outside of it. -/
theorem shine_iff (e : Env P) (h : ℝ) (a : Lane) (rho q : ℝ) :
    (arrive e h a rho q).shine = true ↔ a.shine = true ∨ (∃ r, a.rho = some r ∧ r ≤ 1) ∧ 1 < rho := by
  unfold arrive
  cases hr : a.rho <;> simp [hr]

/-- **Walls before the plasma are ignored.**  Whatever the wall is, a neutral that stays outside of the plasma never ends with the wall
end condition. -/
theorem wall_ignored (e : Env P) (h : ℝ) (l : Lane) (hec : l.endcond = 0) (hsh : l.shine = false) (hout : ∀ r, l.rho = some r → 1 < r) (n : Nat)
    (hseen : ∀ k < n, ∀ rho q, Seen e h (after e h l k) rho q → 1 < rho) : (after e h l n).endcond.testBit 3 = false := by
  suffices hI : (after e h l n).endcond.testBit 3 = false ∧ ((after e h l n).running = true →
      (after e h l n).shine = false ∧ (after e h l n).endcond = 0 ∧ ∀ r, (after e h l n).rho = some r → 1 < r) from hI.1
  induction n with
  | zero => simp [after, hec, hsh]; exact fun _ => hout
  | succ n ih =>
    obtain ⟨i1, i2⟩ := ih (fun k hk => hseen k (by omega))
    have hsn := hseen n (by omega)
    rw [after_succ]
    generalize after e h l n = a at i1 i2 hsn ⊢
    by_cases ha : a.running = true
    · obtain ⟨j1, j2, j3⟩ := i2 ha
      rcases step_cases e h a ha with ⟨rho, q, hs⟩ | ⟨h1, h2, -⟩
      · have hrho := hsn rho q hs
        have hsh' : (arrive e h a rho q).shine = false := by
          rw [Bool.eq_false_iff]
          intro hc
          rcases (shine_iff e h a rho q).1 hc with h' | ⟨⟨r, h', h''⟩, -⟩
          · rw [j1] at h'; cases h'
          · exact absurd h'' (not_le.2 (j3 r h'))
        have hnh : ¬ Hits e a (arrive e h a rho q) := by rintro ⟨hc, -⟩; rw [hsh'] at hc; cases hc
        obtain ⟨-, -, -, -, -, -, f7, -, -, -, -, f12⟩ := arrive_fields e h a rho q
        obtain ⟨c1, -, -, -, -, c6, -⟩ := checks_spec e a (arrive e h a rho q) (f7.trans j2)
        rw [step_seen e h a ha hs]
        refine ⟨by rw [Bool.eq_false_iff]; exact fun hc => hnh (c1.1 hc), fun hr => ?_⟩
        rw [c6 hr]
        refine ⟨hsh', f7.trans j2, fun r hr => ?_⟩
        rw [f12] at hr
        cases hr; exact hrho
      · rw [h2, j2]
        exact ⟨by simp, fun hc => by rw [h1] at hc; cases hc⟩
    · have : step e h a = a := by unfold step; rw [if_neg ha]
      rw [this]
      exact ⟨i1, fun hc => absurd hc ha⟩

/-- **Violation**: a wall on every path, and yet a neutral that misses the plasma flies on, here for 1000 steps. -/
theorem passes_through_wall : ∃ e : Env Unit, ∃ l : Lane, (∀ x y, e.wall x y = (1, 0)) ∧ l.running = true ∧ l.endcond = 0 ∧
    (after e 1e-10 l 1000).running = true := by
  let e : Env Unit := { exEnv with rho := fun _ _ _ _ => .ok 2, bms := fun _ _ => .ok 0, wall := fun _ _ => (1, 0) }
  let l : Lane := { exLane with rho := some 2, threshold := 0 }
  refine ⟨e, l, fun _ _ => rfl, rfl, rfl, ?_⟩
  have : ∀ n : Nat, n ≤ 1000 → (after e 1e-10 l n).running = true ∧ (after e 1e-10 l n).shine = false ∧ (after e 1e-10 l n).rho = some 2 ∧
      (after e 1e-10 l n).remaining = 1 ∧ (after e 1e-10 l n).threshold = 0 := by
    intro n
    induction n with
    | zero => intro _; exact ⟨rfl, rfl, rfl, rfl, rfl⟩
    | succ n ih =>
      intro hn
      obtain ⟨i1, i2, i3, i4, i5⟩ := ih (by omega)
      obtain ⟨c1, -, c3, -⟩ := clock e 1e-10 l rfl n i1
      have hl0 : l.mileage = 0 := rfl
      rw [hl0] at c1
      rw [after_succ]
      generalize after e 1e-10 l n = a at *
      have hs : Seen e 1e-10 a 2 0 := ⟨rfl, (), 0, rfl, rfl, by simp⟩
      rw [step_seen e 1e-10 a i1 hs]
      have hsh : (arrive e 1e-10 a 2 0).shine = false := by
        rw [Bool.eq_false_iff]
        intro hc
        rcases (shine_iff e 1e-10 a 2 0).1 hc with h' | ⟨⟨r, h', h''⟩, -⟩
        · rw [i2] at h'; cases h'
        · rw [i3] at h'; cases h'; norm_num at h''
      have hnh : ¬ Hits e a (arrive e 1e-10 a 2 0) := by rintro ⟨hc, -⟩; rw [hsh] at hc; cases hc
      obtain ⟨-, -, -, f4, -, f6, f7, -, -, f10, f11, f12⟩ := arrive_fields e 1e-10 a 2 0
      obtain ⟨-, -, -, -, c5, c6, -⟩ := checks_spec e a (arrive e 1e-10 a 2 0) (f7.trans c3)
      have hr : (checks e a (arrive e 1e-10 a 2 0)).running = true := by
        rw [c5, f4, f6, f10, f11, i4, i5, c1]
        refine ⟨i1, hnh, ?_, by simp⟩
        have : (n : ℝ) ≤ 1000 := by exact_mod_cast (by omega : n ≤ 1000)
        norm_num
        linarith
      refine ⟨hr, ?_⟩
      rw [c6 hr]
      exact ⟨hsh, f12, by rw [f11, i4]; simp, f6.trans i5⟩
  exact (this 1000 le_rfl).1

/-- The time of the final state is the injection time plus the full duration of all steps made. -/
theorem final_time (e : Env P) (h : ℝ) (l : Lane) (hec : l.endcond = 0) (n : Nat) (hn : (after e h l n).running = true)
    (hend : (after e h l (n + 1)).running = false) {rho q : ℝ} (hs : Seen e h (after e h l n) rho q) :
    (finish (after e h l (n + 1))).time = l.time + l.mileage + (n + 1) * h := by
  obtain ⟨c1, c2, c3, -⟩ := clock e h l hec n hn
  rw [after_succ]
  generalize after e h l n = a at *
  rw [step_seen e h a hn hs]
  obtain ⟨-, -, -, f4, f5, -, f7, -⟩ := arrive_fields e h a rho q
  obtain ⟨-, -, -, -, -, -, -, c8⟩ := checks_spec e a (arrive e h a rho q) (f7.trans c3)
  have ht : (checks e a (arrive e h a rho q)).time = a.time := by
    have key : ∀ w : Lane, (ionCheck e (limitCheck w)).time = w.time := by
      intro w; unfold ionCheck limitCheck; split_ifs <;> rfl
    unfold checks
    rw [key]
    by_cases hw : Hits e a (arrive e h a rho q)
    · rw [(wallCheck_spec e a _).1 hw]
      simp only [f5]; ring
    · rw [(wallCheck_spec e a _).2 hw, f5]
  unfold finish
  simp only [ht, c8, f4, c1, c2]
  ring

/-- **Violation**: for a neutral that hits the wall half way through a step the reported time includes the whole step: position and
time do not belong together. -/
theorem wall_time : ∃ e : Env Unit, ∃ l : Lane, l.running = true ∧ l.time = 0 ∧ l.mileage = 0 ∧ (∀ x y, e.wall x y = (1, 1 / 2)) ∧
    (step e 1e-10 l).endcond.testBit 3 = true ∧ (finish (step e 1e-10 l)).time = 1e-10 := by
  let e : Env Unit := { exEnv with rho := fun _ _ _ _ => .ok 2, wall := fun _ _ => (1, 1 / 2) }
  have hs : Seen e 1e-10 exLane 2 6 := ⟨rfl, (), 3, rfl, rfl, by show (6 : ℝ) = 2 * 3; norm_num⟩
  have hsh : (arrive e 1e-10 exLane 2 6).shine = true := (shine_iff _ _ _ _ _).2 (Or.inr ⟨⟨1 / 2, rfl, by norm_num⟩, by norm_num⟩)
  have hw : Hits e exLane (arrive e 1e-10 exLane 2 6) := ⟨hsh, show (0 : Int) < 1 by decide⟩
  refine ⟨e, exLane, rfl, rfl, rfl, fun _ _ => rfl, ?_, ?_⟩
  · rw [step_seen e _ exLane rfl hs]
    exact (checks_spec e exLane _ rfl).1.2 hw
  · have hst : (step e 1e-10 exLane).running = false := by
      rw [step_seen e _ exLane rfl hs, Bool.eq_false_iff]
      exact fun hc => ((checks_spec e exLane _ rfl).2.2.2.2.1.1 hc).2.1 hw
    have := final_time e 1e-10 exLane rfl 0 rfl hst hs
    simpa [after, exLane] using this

/-- The hypotheses of `end_conditions` can be met. -/
example : exLane.running = true ∧ exLane.endcond = 0 ∧ exLane.err = 0 ∧ (∀ r p z t, exEnv.rho r p z t ≠ .error 0) ∧
    (∀ x r p z t, exEnv.plasma x r p z t ≠ .error 0) ∧ Seen exEnv 1e-10 exLane (1 / 2) 6 :=
  ⟨rfl, rfl, rfl, fun _ _ _ _ h => (by cases h), fun _ _ _ _ _ h => (by cases h), rfl, (), 3, rfl, rfl, by show (6 : ℝ) = 2 * 3; norm_num⟩

end Ascot.C101
