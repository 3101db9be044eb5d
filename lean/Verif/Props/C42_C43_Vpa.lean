import Verif.Lemmas.Vpa

/-!
# C42, C43 and C76: full-orbit motion
-/
set_option linter.unusedSectionVars false
set_option linter.unusedSimpArgs false

namespace Ascot.C42
open Ascot.Vpa Ascot.Coord Ascot.Physlib

/-- The electric field is zero wherever it can be evaluated. -/
def NoE (f : Fields) : Prop := ∀ r p z t e, f.E r p z t = .ok e → e = ⟨0, 0, 0⟩

theorem mid_zero {f : Fields} (hE : NoE f) : ∀ r p z t B E, midFields f r p z t = .ok (B, E) → E = ⟨0, 0, 0⟩ := by
  intro r p z t B E h
  unfold midFields at h
  split at h
  · cases h
  · split at h
    · cases h
    · rename_i e he
      injection h with h
      injection h with _ h2
      rw [← h2]
      exact hE _ _ _ _ _ he

/-- One step without electric field and radiation reaction, whether or not it ends in an error: momentum and kinetic
energy are unchanged. -/
theorem one_step {c k h : ℝ} {junk : Nat → ℝ} {f : Fields} {s s' : Fo} (hc : c ≠ 0) (hm : s.mass ≠ 0) (hE : NoE f)
    (hs : step c k junk f 0 h s = some s') :
    V3.norm Real.sqrt s'.p = V3.norm Real.sqrt s.p ∧ s'.mass = s.mass ∧
    ekinPnorm c s'.mass (V3.norm Real.sqrt s'.p) = ekinPnorm c s.mass (V3.norm Real.sqrt s.p) := by
  have key : V3.dot s'.p s'.p = V3.dot s.p s.p ∧ s'.mass = s.mass := by
    unfold step at hs
    split at hs
    · split at hs
      · rename_i e he
        obtain ⟨s2, h2, rfl⟩ := Option.map_eq_some_iff.1 hs
        have := radiate_off (Or.inl rfl) h2
        obtain ⟨-, -, -, hp, hms, -, -⟩ := settle_fields s2 e
        rw [hp, hms, this]
        exact ⟨rfl, rfl⟩
      · rename_i s1 h1
        dsimp only at hs
        obtain ⟨s2, h2, rfl⟩ := Option.map_eq_some_iff.1 hs
        have h3 := radiate_off (Or.inl rfl) h2
        obtain ⟨-, -, -, hp, hms, -, -⟩ := settle_fields s2 (refresh f h s s1).2
        obtain ⟨-, -, -, hp', hms', -, -, -⟩ := refresh_fields f h s s1
        obtain ⟨hd, hd2, -, -⟩ := push_dot hc hm (mid_zero hE) h1
        rw [hp, hms, h3, hp', hms']
        exact ⟨hd, hd2⟩
    · injection hs with hs
      rw [hs]
      exact ⟨rfl, rfl⟩
  have e : V3.norm Real.sqrt s'.p = V3.norm Real.sqrt s.p := by rw [norm_eq_sqrt_dot, norm_eq_sqrt_dot, key.1]
  exact ⟨e, key.2, by rw [e, key.2]⟩

/-- Any number of steps with any time steps. -/
theorem many_steps {c k : ℝ} {junk : Nat → ℝ} {f : Fields} (hc : c ≠ 0) (hE : NoE f) (hs : List ℝ) :
    ∀ {s s' : Fo}, s.mass ≠ 0 → run c k junk f 0 hs s = some s' →
      V3.norm Real.sqrt s'.p = V3.norm Real.sqrt s.p ∧ s'.mass = s.mass ∧
      ekinPnorm c s'.mass (V3.norm Real.sqrt s'.p) = ekinPnorm c s.mass (V3.norm Real.sqrt s.p) := by
  induction hs with
  | nil =>
    intro s s' _ h
    injection h with h
    rw [h]
    exact ⟨rfl, rfl, rfl⟩
  | cons h hs ih =>
    intro s s' hm hr
    unfold run at hr
    split at hr
    · cases hr
    · rename_i s1 h1
      obtain ⟨a, b, d⟩ := one_step hc hm hE h1
      have e1 : (if s1.running = true then { s1 with time := s1.time + h } else s1).p = s1.p := by split <;> rfl
      have e2 : (if s1.running = true then { s1 with time := s1.time + h } else s1).mass = s1.mass := by split <;> rfl
      obtain ⟨a', b', d'⟩ := ih (by rw [e2, b]; exact hm) hr
      rw [e1] at a' d'
      rw [e2] at b' d'
      exact ⟨a'.trans a, b'.trans b, d'.trans d⟩

/-- The variant with MHD modes, when the modes carry no electric field either. -/
theorem with_modes {c ald h : ℝ} {junk : Nat → ℝ} {f : Fields} {s : Fo} (hc : c ≠ 0) (hm : s.mass ≠ 0) (hE : NoE f)
    (hM : ∀ r p z t B E, f.mhd r p z t = .ok (B, E) → E = ⟨0, 0, 0⟩) :
    V3.norm Real.sqrt (stepMhd c junk f ald h s).p = V3.norm Real.sqrt s.p ∧ (stepMhd c junk f ald h s).mass = s.mass := by
  have hmid : ∀ r p z t B E, midFieldsMhd f r p z t = .ok (B, E) → E = ⟨0, 0, 0⟩ := by
    intro r p z t B E h
    unfold midFieldsMhd at h
    split at h
    · cases h
    · split at h
      · cases h
      · rename_i e he
        split at h
        · cases h
        · rename_i B1 E1 h1
          injection h with h
          injection h with _ h2
          rw [← h2, hM _ _ _ _ _ _ h1, hE _ _ _ _ _ he]
          simp
  have key : V3.dot (stepMhd c junk f ald h s).p (stepMhd c junk f ald h s).p = V3.dot s.p s.p ∧
      (stepMhd c junk f ald h s).mass = s.mass := by
    unfold stepMhd
    split
    · split
      · rename_i e he
        obtain ⟨-, -, -, hp, hms, -, -⟩ := settle_fields s e
        rw [hp, hms]
        exact ⟨rfl, rfl⟩
      · rename_i s1 h1
        dsimp only
        obtain ⟨-, -, -, hp, hms, -, -⟩ := settle_fields (refresh f h s s1).1 (refresh f h s s1).2
        obtain ⟨-, -, -, hp', hms', -, -, -⟩ := refresh_fields f h s s1
        obtain ⟨hd, hd2, -, -⟩ := push_dot hc hm hmid h1
        rw [hp, hms, hp', hms']
        exact ⟨hd, hd2⟩
    · exact ⟨rfl, rfl⟩
  exact ⟨by rw [norm_eq_sqrt_dot, norm_eq_sqrt_dot, key.1], key.2⟩

/-- A step gives numbers when the marker moves and the magnetic field is nonzero. -/
theorem step_defined {c k ald h : ℝ} {junk : Nat → ℝ} {f : Fields} {s : Fo} (hc : c ≠ 0) (hm : s.mass ≠ 0) (hE : NoE f)
    (hp : s.p ≠ ⟨0, 0, 0⟩) (hB : s.B ≠ ⟨0, 0, 0⟩) (hf : ∀ r p z t B d, f.BdB r p z t = .ok (B, d) → B ≠ ⟨0, 0, 0⟩) :
    ∃ s', step c k junk f ald h s = some s' := by
  have hpos : ∀ v : V3 ℝ, v ≠ ⟨0, 0, 0⟩ → 0 < V3.dot v v := by
    intro v hv
    by_contra hle
    rw [not_lt] at hle
    apply hv
    unfold V3.dot at hle
    have hx := mul_self_nonneg v.x
    have hy := mul_self_nonneg v.y
    have hz := mul_self_nonneg v.z
    ext
    · exact mul_self_eq_zero.1 (by linarith)
    · exact mul_self_eq_zero.1 (by linarith)
    · exact mul_self_eq_zero.1 (by linarith)
  have hrad : ∀ t : Fo, 0 < V3.dot t.p t.p → 0 < V3.dot t.B t.B → ∃ t', radiate c k ald t = some t' := by
    intro t h1 h2
    unfold radiate
    dsimp only
    rw [if_neg]
    · exact ⟨_, rfl⟩
    · rw [norm_eq_sqrt_dot, norm_eq_sqrt_dot]
      have := Real.sqrt_pos.2 h1
      have := Real.sqrt_pos.2 h2
      positivity
  unfold step
  split
  · split
    · obtain ⟨t, ht⟩ := hrad s (hpos _ hp) (hpos _ hB)
      rw [ht]
      exact ⟨_, rfl⟩
    · rename_i s1 h1
      obtain ⟨hd, -, -, -⟩ := push_dot hc hm (mid_zero hE) h1
      dsimp only
      have hB1 : s1.B = s.B := by
        obtain ⟨B, E, hmid, xf, pf, x0, a, hx0, ha, hpf, hxf, rfl⟩ := push_ok h1
        rfl
      have hB2 : (refresh f h s s1).1.B ≠ ⟨0, 0, 0⟩ := by
        unfold refresh
        split
        · rw [hB1]; exact hB
        · rename_i B d hbd
          split
          · rw [hB1]; exact hB
          · split
            · rw [hB1]; exact hB
            · exact hf _ _ _ _ _ _ hbd
      obtain ⟨t, ht⟩ := hrad (refresh f h s s1).1 (by rw [(refresh_fields f h s s1).2.2.2.1, hd]; exact hpos _ hp) (hpos _ hB2)
      rw [ht]
      exact ⟨_, rfl⟩
  · exact ⟨_, rfl⟩

/-- Finding: the radiation-reaction block divides by the length of the momentum even when the force is disabled: a
marker at rest (and without force acting on it) gets an undefined momentum. -/
theorem rest_undefined {c k ald h : ℝ} {junk : Nat → ℝ} {f : Fields} {s : Fo} (hc : c ≠ 0) (hm : s.mass ≠ 0) (hE : NoE f)
    (hp : s.p = ⟨0, 0, 0⟩) (hrun : s.running = true) : step c k junk f ald h s = none := by
  have hrad : ∀ t : Fo, V3.dot t.p t.p = 0 → radiate c k ald t = none := by
    intro t h1
    unfold radiate
    dsimp only
    rw [if_pos]
    rw [norm_eq_sqrt_dot t.p, h1]
    simp
  have h0 : V3.dot s.p s.p = 0 := by rw [hp]; unfold V3.dot; simp
  unfold step
  rw [if_pos hrun]
  split
  · rw [hrad s h0]
    rfl
  · rename_i s1 h1
    obtain ⟨hd, -, -, -⟩ := push_dot hc hm (mid_zero hE) h1
    dsimp only
    rw [hrad]
    · rfl
    · rw [(refresh_fields f h s s1).2.2.2.1, hd, h0]

/-- Fields of a uniform vertical magnetic field. -/
def uniform : Fields where
  B _ _ _ _ := .ok ⟨0, 0, 1⟩
  E _ _ _ _ := .ok ⟨0, 0, 0⟩
  BdB _ _ _ _ := .ok (⟨0, 0, 1⟩, fun _ => 0)
  psi _ _ _ _ := .ok 0
  rho _ := .ok 0
  axis _ := ((1, 0), 0)
  mhd _ _ _ _ := .ok (⟨0, 0, 1⟩, ⟨0, 0, 0⟩)

/-- A moving charged marker. -/
def marker : Fo where
  r := 2
  phi := 0
  z := 0
  p := ⟨1, 1, 0⟩
  time := 0
  mass := 1
  charge := 1
  B := ⟨0, 0, 1⟩
  dB _ := 0
  rho := 0
  theta := 0
  err := 0
  running := true

theorem uniform_noE : NoE uniform := by
  intro r p z t e h
  injection h with h
  exact h.symm

/-- A marker for which the step is defined and satisfies the hypotheses. -/
example (junk : Nat → ℝ) : ∃ s', step 1 1 junk uniform 0 (1 / 10) marker = some s' ∧
    V3.norm Real.sqrt s'.p = V3.norm Real.sqrt marker.p := by
  have hm : marker.mass ≠ 0 := by unfold marker; norm_num
  obtain ⟨s', h⟩ := step_defined (k := 1) (ald := 0) (h := 1 / 10) (junk := junk) (s := marker) one_ne_zero hm uniform_noE
    (by unfold marker; intro h; injection h with h1 _ _; norm_num at h1)
    (by unfold marker; intro h; injection h with _ _ h1; norm_num at h1)
    (by intro r p z t B d h; injection h with h; injection h with h _; rw [← h]; intro h; injection h with _ _ h1; norm_num at h1)
  exact ⟨s', h, (one_step one_ne_zero hm uniform_noE h).1⟩

end Ascot.C42

namespace Ascot.C43
open Ascot.Vpa Ascot.Coord Ascot.Physlib Ascot.C42

/-- The momentum update is undone by the update with the opposite time step in the same fields. -/
theorem kick_reversible (c q m h : ℝ) (junk junk' : Nat → ℝ) (E B p : V3 ℝ) (hm : m ≠ 0) (hc : c ≠ 0) :
    kick c q m (-h) junk' E B (kick c q m h junk E B p) = p := kick_inv c q m h junk junk' E B p hm hc

/-- What a step without radiation reaction (or of a neutral marker) that ends without error does to the marker. -/
theorem step_push {c k ald h : ℝ} {junk : Nat → ℝ} {f : Fields} {s s' : Fo} (h0 : ald = 0 ∨ s.charge = 0)
    (hrun : s.running = true) (hs : step c k junk f ald h s = some s') :
    (∃ e, push c junk (midFields f) h s = .error e ∧ cart s' = cart s) ∨
    (∃ s1, push c junk (midFields f) h s = .ok s1 ∧ cart s' = cart s1 ∧ s'.r = s1.r ∧ s'.mass = s.mass ∧ s'.charge = s.charge ∧
      s'.time = s.time) := by
  unfold step at hs
  rw [if_pos hrun] at hs
  split at hs
  · rename_i e he
    obtain ⟨s2, h2, rfl⟩ := Option.map_eq_some_iff.1 hs
    have := radiate_off h0 h2
    obtain ⟨hr, hphi, hz, hp, hms, -, -⟩ := settle_fields s2 e
    refine Or.inl ⟨e, he, ?_⟩
    unfold cart
    rw [hr, hphi, hz, hp, this]
  · rename_i s1 h1
    dsimp only at hs
    obtain ⟨s2, h2, rfl⟩ := Option.map_eq_some_iff.1 hs
    have hs1 : s1.charge = s.charge ∧ s1.mass = s.mass ∧ s1.time = s.time := by
      obtain ⟨B, E, hmid, xf, pf, x0, a, hx0, ha, hpf, hxf, rfl⟩ := push_ok h1
      exact ⟨rfl, rfl, rfl⟩
    obtain ⟨hr', hphi', hz', hp', hms', hq', -, ht'⟩ := refresh_fields f h s s1
    have h3 := radiate_off (by rw [hq', hs1.1]; exact h0) h2
    obtain ⟨hr, hphi, hz, hp, hms, hq, ht⟩ := settle_fields s2 (refresh f h s s1).2
    refine Or.inr ⟨s1, h1, ?_, ?_, ?_, ?_, ?_⟩
    · unfold cart
      rw [hr, hphi, hz, hp, h3, hr', hphi', hz', hp']
    · rw [hr, h3, hr']
    · rw [hms, h3, hms', hs1.2.1]
    · rw [hq, h3, hq', hs1.1]
    · rw [ht, h3, ht', hs1.2.2]

/-- A step that ended in an error of the field evaluation at the midpoint has stopped the marker. -/
theorem error_stops {c k ald h : ℝ} {junk : Nat → ℝ} {f : Fields} {s s' : Fo} {e : Nat} (hrun : s.running = true) (he : e ≠ 0)
    (hp : push c junk (midFields f) h s = .error e) (hs : step c k junk f ald h s = some s') :
    s'.running = false ∧ s'.err = e := by
  unfold step at hs
  rw [if_pos hrun, hp] at hs
  obtain ⟨s2, -, rfl⟩ := Option.map_eq_some_iff.1 hs
  unfold settle
  rw [if_pos he]
  exact ⟨rfl, rfl⟩

/-- Error codes of the field evaluations are nonzero. -/
def GoodCodes (f : Fields) : Prop :=
  (∀ r p z t, f.B r p z t ≠ .error 0) ∧ (∀ r p z t, f.E r p z t ≠ .error 0)

theorem mid_code {f : Fields} (hg : GoodCodes f) (r p z t : ℝ) : midFields f r p z t ≠ .error 0 := by
  unfold midFields
  split
  · rename_i e he
    intro h
    injection h with h
    rw [h] at he
    exact hg.1 _ _ _ _ he
  · split
    · rename_i e he
      intro h
      injection h with h
      rw [h] at he
      exact hg.2 _ _ _ _ he
    · intro h; cases h

theorem push_code {c h : ℝ} {junk : Nat → ℝ} {f : Fields} {s : Fo} {e : Nat} (hg : GoodCodes f)
    (hp : push c junk (midFields f) h s = .error e) : e ≠ 0 := by
  unfold push at hp
  dsimp only at hp
  split at hp
  · rename_i e' he
    injection hp with hp
    rw [hp] at he
    rintro rfl
    exact mid_code hg _ _ _ _ he
  · cases hp

/-- A whole step forward and one backward in the same (possibly time-dependent) fields: position and momentum are back
where they started, in Cartesian terms. -/
theorem step_reversible {c k h : ℝ} {junk junk' : Nat → ℝ} {f : Fields} {s s1 s2 : Fo} (hc : c ≠ 0) (hm : s.mass ≠ 0)
    (hg : GoodCodes f) (hr : 0 < s.r) (hr1 : 0 < s1.r) (hrun : s.running = true) (hrun1 : s1.running = true)
    (h1 : step c k junk f 0 h s = some s1) (h2 : step c k junk' f 0 (-h) { s1 with time := s1.time + h } = some s2) :
    cart s2 = cart s := by
  rcases step_push (Or.inl rfl) hrun h1 with ⟨e, he, -⟩ | ⟨t1, ht1, hcart, hrr, hms, hq, ht⟩
  · have := (error_stops hrun (push_code hg he) he h1).1
    rw [this] at hrun1
    cases hrun1
  · obtain ⟨B, E, hmid, hp1, hx1, hm1, hq1, htm1, -⟩ := push_cart hr ht1
    set x := drift c s.mass h (cart s).1 (cart s).2 with hx
    rw [← hcart] at hp1 hx1
    have hback : drift c s.mass (-h) (cart s1).1 (cart s1).2 = x := by
      rw [hx1]
      exact drift_back _ _ _ _ _
    have hcs : cart { s1 with time := s1.time + h } = cart s1 := rfl
    rcases step_push (s := { s1 with time := s1.time + h }) (Or.inl rfl) hrun1 h2 with ⟨e, he, -⟩ | ⟨t2, ht2, hcart2, -, -, -, -⟩
    · exfalso
      obtain ⟨w, hw⟩ := push_of_mid (c := c) (junk := junk') (mid := midFields f) (h := -h) (s := { s1 with time := s1.time + h })
        (B := B) (E := E) (by
          have e1 : drift c s1.mass (-h) (rpz2xyz ⟨s1.r, s1.phi, s1.z⟩) (vecRpz2xyz s1.p s1.phi) = x := by
            rw [hms]
            exact hback
          have e2 : s1.time + h + -h / 2 = s.time + h / 2 := by rw [ht]; ring
          show midFields f (xyz2rpz (drift c s1.mass (-h) (rpz2xyz ⟨s1.r, s1.phi, s1.z⟩) (vecRpz2xyz s1.p s1.phi))).x
            (xyz2rpz (drift c s1.mass (-h) (rpz2xyz ⟨s1.r, s1.phi, s1.z⟩) (vecRpz2xyz s1.p s1.phi))).y
            (xyz2rpz (drift c s1.mass (-h) (rpz2xyz ⟨s1.r, s1.phi, s1.z⟩) (vecRpz2xyz s1.p s1.phi))).z
            (s1.time + h + -h / 2) = _
          rw [e1, e2]
          exact hmid)
      rw [hw] at he
      cases he
    · obtain ⟨B', E', hmid', hp2, hx2, -, -, -, -⟩ := push_cart (s := { s1 with time := s1.time + h }) hr1 ht2
      have e1 : drift c s1.mass (-h) (cart { s1 with time := s1.time + h }).1 (cart { s1 with time := s1.time + h }).2 = x := by
        rw [hms]
        exact hback
      have e2 : s1.time + h + -h / 2 = s.time + h / 2 := by rw [ht]; ring
      have hmid'' : midFields f (xyz2rpz x).x (xyz2rpz x).y (xyz2rpz x).z (s.time + h / 2) = .ok (B', E') := by
        rw [← e1, ← e2]
        exact hmid'
      rw [hmid] at hmid''
      injection hmid'' with hBE
      injection hBE with hB hE
      have hp2' : (cart t2).2 = (cart s).2 := by
        have : (cart t2).2 = kick c s1.charge s1.mass (-h) junk' (vecRpz2xyz E' (xyz2rpz x).y) (vecRpz2xyz B' (xyz2rpz x).y) (cart s1).2 := by
          rw [← e1]
          exact hp2
        rw [this, hq, hms, ← hB, ← hE, hp1]
        exact kick_inv _ _ _ _ _ _ _ _ _ hm hc
      have hx2' : (cart t2).1 = (cart s).1 := by
        have : (cart t2).1 = drift c s1.mass (-h) x (cart t2).2 := by
          rw [← e1]
          exact hx2
        rw [this, hp2', hms]
        exact drift_back _ _ _ _ _
      rw [hcart2]
      exact Prod.ext hx2' hp2'

/-- A neutral marker: constant momentum and straight-line motion `x + h p / (gamma m)`, with or without radiation
reaction and in any field. -/
theorem neutral_ballistic {c k ald h : ℝ} {junk : Nat → ℝ} {f : Fields} {s s' : Fo} (hc : c ≠ 0) (hm : s.mass ≠ 0)
    (hg : GoodCodes f) (hr : 0 < s.r) (hq : s.charge = 0) (hrun : s.running = true) (hrun' : s'.running = true)
    (hs : step c k junk f ald h s = some s') :
    let g := gammaPnorm c s.mass (V3.norm Real.sqrt s.p)
    (cart s').2 = (cart s).2 ∧
    (cart s').1 = ⟨(cart s).1.x + h * ((cart s).2.x / (g * s.mass)), (cart s).1.y + h * ((cart s).2.y / (g * s.mass)),
      (cart s).1.z + h * ((cart s).2.z / (g * s.mass))⟩ := by
  intro g
  rcases step_push (Or.inr hq) hrun hs with ⟨e, he, -⟩ | ⟨t1, ht1, hcart, -, -, -, -⟩
  · have := (error_stops hrun (push_code hg he) he hs).1
    rw [this] at hrun'
    cases hrun'
  · obtain ⟨B, E, hmid, hp1, hx1, -, -, -, -⟩ := push_cart hr ht1
    rw [hq, kick_neutral _ _ _ _ _ _ _ hm hc] at hp1
    rw [hcart]
    refine ⟨hp1, ?_⟩
    rw [hx1, hp1]
    have hn : V3.norm Real.sqrt (cart s).2 = V3.norm Real.sqrt s.p := norm_rot s.p s.phi
    unfold drift
    dsimp only
    rw [hn]
    ext <;> dsimp only <;> ring

/-- A neutral marker in a uniform field for which the step is defined and does not fail. -/
example (junk : Nat → ℝ) : ∃ s', step 1 1 junk uniform 1 (1 / 10) { marker with charge := 0 } = some s' ∧ s'.running = true ∧
    GoodCodes uniform := by
  have hm : marker.mass ≠ 0 := by unfold marker; norm_num
  obtain ⟨s', h⟩ := step_defined (k := 1) (ald := 1) (h := 1 / 10) (junk := junk) (s := { marker with charge := 0 }) one_ne_zero
    hm uniform_noE
    (by unfold marker; intro h; injection h with h1 _ _; norm_num at h1)
    (by unfold marker; intro h; injection h with _ _ h1; norm_num at h1)
    (by intro r p z t B d h; injection h with h; injection h with h _; rw [← h]; intro h; injection h with _ _ h1; norm_num at h1)
  refine ⟨s', h, ?_, fun _ _ _ _ h => (by cases h), fun _ _ _ _ h => (by cases h)⟩
  unfold step at h
  rw [if_pos (by rfl)] at h
  split at h
  · rename_i e he
    unfold push at he
    dsimp only at he
    split at he
    · rename_i e' hmid
      cases hmid
    · cases he
  · rename_i s1 h1
    dsimp only at h
    obtain ⟨s2, h2, rfl⟩ := Option.map_eq_some_iff.1 h
    have e0 : (refresh uniform (1 / 10) { marker with charge := 0 } s1).2 = 0 := rfl
    rw [e0]
    unfold settle
    rw [if_neg (by simp)]
    have hr : s1.running = true := by
      obtain ⟨B, E, hmid, xf, pf, x0, a, hx0, ha, hpf, hxf, rfl⟩ := push_ok h1
      rfl
    have hq : s1.charge = 0 := by
      obtain ⟨B, E, hmid, xf, pf, x0, a, hx0, ha, hpf, hxf, rfl⟩ := push_ok h1
      rfl
    rw [radiate_off (Or.inr (by rw [(refresh_fields _ _ _ _).2.2.2.2.2.1, hq])) h2, (refresh_fields _ _ _ _).2.2.2.2.2.2.1, hr]

end Ascot.C43

namespace Ascot.C76
open Ascot.Vpa Ascot.Coord Ascot.Physlib

/-- With the force disabled, or for a neutral marker, radiation reaction leaves the marker unchanged. -/
theorem off_partial {c k ald : ℝ} {s s' : Fo} (h0 : ald = 0 ∨ s.charge = 0) (h : radiate c k ald s = some s') : s' = s :=
  radiate_off h0 h

/-- Finding: with MHD modes the radiation-reaction setting has no effect. -/
theorem ignored_with_modes (c h a b : ℝ) (junk : Nat → ℝ) (f : Fields) (s : Fo) :
    stepMhd c junk f a h s = stepMhd c junk f b h s := rfl

/-- Finding: motion along the field should not radiate, yet the momentum is multiplied by a factor. -/
theorem parallel_motion_changes {c k : ℝ} {s : Fo} {b : ℝ} (hB : 0 < b) {u : ℝ} (hu : 0 < u)
    (hf : s.B = ⟨0, 0, b⟩) (hp : s.p = ⟨0, 0, u⟩) :
    let t := aldChartime c k s.charge s.mass b (gammaPnorm c s.mass u)
    radiate c k 1 s = some { s with p := ⟨0, 0, u - t * (u - 1 + (u - 1) * (u - 1) / (s.mass * s.mass * (c * c)) * u)⟩ } := by
  intro t
  unfold radiate
  have e1 : V3.norm Real.sqrt s.B = b := by
    rw [hf]
    unfold V3.norm
    simp [Real.sqrt_mul_self hB.le]
  have e2 : V3.norm Real.sqrt s.p = u := by
    rw [hp]
    unfold V3.norm
    simp [Real.sqrt_mul_self hu.le]
  dsimp only
  rw [e1, e2, if_neg (by positivity), hf, hp]
  unfold V3.dot
  dsimp only
  have e3 : (0 * 0 + 0 * 0 + u * b) / (b * b * u) * b = 1 := by field_simp; ring
  have e4 : (0 * 0 + 0 * 0 + u * b) / (b * b * u) * 0 = 0 := by ring
  rw [e3, e4]
  congr 2
  ext <;> simp [t]

/-- Finding: the momentum lost in a step does not depend on the length of the time step. A marker that is slowed down by
radiation reaction is slowed down by the same amount in a step of length zero. -/
theorem zero_step_radiates {c k : ℝ} {junk : Nat → ℝ} {f : Fields} {s : Fo} (hc : c ≠ 0) (hm : s.mass ≠ 0) (hr : 0 < s.r)
    (hrun : s.running = true) (B E : V3 ℝ)
    (hB : f.B s.r (atan2 (s.r * Real.sin s.phi) (s.r * Real.cos s.phi)) s.z s.time = .ok B)
    (hE : f.E s.r (atan2 (s.r * Real.sin s.phi) (s.r * Real.cos s.phi)) s.z s.time = .ok E)
    (d : Fin 9 → ℝ) (psi rho : ℝ) (axis : ℝ × ℝ) (hx : f.BdB s.r s.phi s.z s.time = .ok (s.B, d))
    (hpsi : f.psi s.r s.phi s.z s.time = .ok psi) (hrho : f.rho psi = .ok rho) (hax : f.axis s.phi = (axis, 0))
    (s' : Fo) (hrad : radiate c k 1 s = some s') :
    ∃ s'', step c k junk f 1 0 s = some s'' ∧ s''.p = s'.p ∧ s''.r = s.r ∧ s''.phi = s.phi ∧ s''.z = s.z ∧ s''.running = true := by
  have hsq : Real.sqrt (s.r * Real.cos s.phi * (s.r * Real.cos s.phi) + s.r * Real.sin s.phi * (s.r * Real.sin s.phi)) = s.r := by
    have : s.r * Real.cos s.phi * (s.r * Real.cos s.phi) + s.r * Real.sin s.phi * (s.r * Real.sin s.phi) = s.r * s.r := by
      linear_combination s.r * s.r * sc s.phi
    rw [this, Real.sqrt_mul_self hr.le]
  have hd : ∀ x p, drift c s.mass 0 x p = x := by
    intro x p
    unfold drift
    ext <;> simp
  have hk : ∀ E B p, kick c s.charge s.mass 0 junk E B p = p := by
    intro E B p
    rw [kick_eq]
    unfold dval pminus rot
    ext <;> dsimp only <;> (simp; field_simp)
  have hpush : push c junk (midFields f) 0 s = .ok s := by
    unfold push
    dsimp only
    rw [hd]
    have hmid : midFields f (xyz2rpz (rpz2xyz ⟨s.r, s.phi, s.z⟩)).x (xyz2rpz (rpz2xyz ⟨s.r, s.phi, s.z⟩)).y
        (xyz2rpz (rpz2xyz ⟨s.r, s.phi, s.z⟩)).z (s.time + 0 / 2) = .ok (B, E) := by
      have e1 : (xyz2rpz (rpz2xyz ⟨s.r, s.phi, s.z⟩)).x = s.r := hsq
      rw [e1]
      unfold midFields
      rw [zero_div, add_zero]
      have e2 : (xyz2rpz (rpz2xyz ⟨s.r, s.phi, s.z⟩)).y = atan2 (s.r * Real.sin s.phi) (s.r * Real.cos s.phi) := rfl
      have e3 : (xyz2rpz (rpz2xyz ⟨s.r, s.phi, s.z⟩)).z = s.z := rfl
      rw [e2, e3]
      rw [hB, hE]
    rw [hmid]
    dsimp only
    rw [hk, hd]
    have ha : atan2 (s.r * Real.cos s.phi * (s.r * Real.sin s.phi) - s.r * Real.sin s.phi * (s.r * Real.cos s.phi))
        (s.r * Real.cos s.phi * (s.r * Real.cos s.phi) + s.r * Real.sin s.phi * (s.r * Real.sin s.phi)) = 0 := by
      have e0 : s.r * Real.cos s.phi * (s.r * Real.sin s.phi) - s.r * Real.sin s.phi * (s.r * Real.cos s.phi) = 0 := by ring
      have e1 : s.r * Real.cos s.phi * (s.r * Real.cos s.phi) + s.r * Real.sin s.phi * (s.r * Real.sin s.phi) = s.r * s.r := by
        linear_combination s.r * s.r * sc s.phi
      rw [e0, e1]
      unfold atan2
      exact Complex.arg_ofReal_of_nonneg (by positivity)
    congr 1
    ext
    · exact hsq
    · show s.phi + atan2 (s.r * Real.cos s.phi * (s.r * Real.sin s.phi) - s.r * Real.sin s.phi * (s.r * Real.cos s.phi))
        (s.r * Real.cos s.phi * (s.r * Real.cos s.phi) + s.r * Real.sin s.phi * (s.r * Real.sin s.phi)) = s.phi
      rw [ha, add_zero]
    · rfl
    · show (s.p.x * Real.cos s.phi - s.p.y * Real.sin s.phi) * Real.cos (s.phi + _) + (s.p.x * Real.sin s.phi + s.p.y * Real.cos s.phi) * Real.sin (s.phi + _) = s.p.x
      unfold rpz2xyz
      dsimp only
      rw [ha, add_zero]
      linear_combination s.p.x * sc s.phi
    · show -(s.p.x * Real.cos s.phi - s.p.y * Real.sin s.phi) * Real.sin (s.phi + _) + (s.p.x * Real.sin s.phi + s.p.y * Real.cos s.phi) * Real.cos (s.phi + _) = s.p.y
      unfold rpz2xyz
      dsimp only
      rw [ha, add_zero]
      linear_combination s.p.y * sc s.phi
    all_goals rfl
  unfold step
  rw [if_pos hrun, hpush]
  have hre : ∃ th, refresh f 0 s s = ({ s with dB := d, rho := rho, theta := th }, 0) := by
    unfold refresh
    rw [add_zero, hx]
    dsimp only
    rw [hpsi]
    dsimp only
    rw [hrho]
    have hax2 : (f.axis s.phi).2 = 0 := by rw [hax]
    exact ⟨_, Prod.ext rfl hax2⟩
  obtain ⟨th, hre⟩ := hre
  dsimp only
  rw [hre]
  dsimp only
  unfold radiate at hrad ⊢
  dsimp only at hrad ⊢
  split at hrad
  · cases hrad
  · rename_i hne
    rw [if_neg hne]
    injection hrad with hrad
    refine ⟨_, rfl, ?_, rfl, rfl, rfl, hrun⟩
    rw [← hrad]
    rfl

end Ascot.C76

namespace Ascot.C77
open Ascot.Vpa Ascot.Coord Ascot.Physlib

theorem rot_eq (d : ℝ) (B p : V3 ℝ) :
    let q := rot d B p
    let w := V3.cross ⟨q.x + p.x, q.y + p.y, q.z + p.z⟩ B
    q = ⟨p.x + d * w.x, p.y + d * w.y, p.z + d * w.z⟩ := by
  have h := (den_pos d B).ne'
  unfold rot
  simp only [V3.dot, V3.cross] at h ⊢
  ext <;> dsimp only <;> (field_simp; ring)

/-- The Lorentz force on charge `q` at velocity `v`. -/
def lorentz (q : ℝ) (E v B : V3 ℝ) : V3 ℝ :=
  ⟨q * (E.x + (v.y * B.z - v.z * B.y)), q * (E.y + (v.z * B.x - v.x * B.z)), q * (E.z + (v.x * B.y - v.y * B.x))⟩

/-- The change of the momentum is the time step times the Lorentz force in the fields at the midpoint, at the velocity
that belongs to the mean of the old and new momentum; the Lorentz factor is that of the momentum after half of the
electric push. -/
theorem momentum_change (c q m h : ℝ) (junk : Nat → ℝ) (E B p : V3 ℝ) (hm : 0 < m) (hc : 0 < c) :
    let p' := kick c q m h junk E B p
    let ph : V3 ℝ := ⟨p.x + q * h / 2 * E.x, p.y + q * h / 2 * E.y, p.z + q * h / 2 * E.z⟩
    let g := gammaPnorm c m (V3.norm Real.sqrt ph)
    let v : V3 ℝ := ⟨(p.x + p'.x) / 2 / (g * m), (p.y + p'.y) / 2 / (g * m), (p.z + p'.z) / 2 / (g * m)⟩
    let F := lorentz q E v B
    p' = ⟨p.x + h * F.x, p.y + h * F.y, p.z + h * F.z⟩ := by
  intro p' ph g v F
  have hne : m * c ≠ 0 := by positivity
  have hg : g = Real.sqrt (1 + V3.dot (pminus c q m h E p) (pminus c q m h E p)) := by
    have hsq : V3.norm Real.sqrt ph * V3.norm Real.sqrt ph = V3.dot ph ph := by
      rw [norm_eq_sqrt_dot]
      apply Real.mul_self_sqrt
      unfold V3.dot
      nlinarith [mul_self_nonneg ph.x, mul_self_nonneg ph.y, mul_self_nonneg ph.z]
    dsimp only [g]
    unfold gammaPnorm
    rw [hsq]
    congr 2
    dsimp only [ph]
    unfold pminus V3.dot
    dsimp only
    field_simp
  have hgp : 0 < g := gammaPnorm_pos hm _
  have hk : p' = _ := kick_eq c q m h junk E B p
  dsimp only at hk
  have hd : dval q m h (pminus c q m h E p) = q * h / (2 * m) / g := by
    unfold dval
    rw [hg]
  rw [hd] at hk
  have hrot := rot_eq (q * h / (2 * m) / g) B (pminus c q m h E p)
  dsimp only at hrot
  set w := rot (q * h / (2 * m) / g) B (pminus c q m h E p) with hw
  have e1 : p'.x = (w.x + q * h / (2 * m * c) * E.x) * m * c := by rw [hk]
  have e2 : p'.y = (w.y + q * h / (2 * m * c) * E.y) * m * c := by rw [hk]
  have e3 : p'.z = (w.z + q * h / (2 * m * c) * E.z) * m * c := by rw [hk]
  have r1 : w.x = _ := congrArg V3.x hrot
  have r2 : w.y = _ := congrArg V3.y hrot
  have r3 : w.z = _ := congrArg V3.z hrot
  dsimp only [V3.cross, pminus] at r1 r2 r3
  have f1 : w.x = p'.x / (m * c) - q * h / (2 * m * c) * E.x := by rw [e1]; field_simp; ring
  have f2 : w.y = p'.y / (m * c) - q * h / (2 * m * c) * E.y := by rw [e2]; field_simp; ring
  have f3 : w.z = p'.z / (m * c) - q * h / (2 * m * c) * E.z := by rw [e3]; field_simp; ring
  rw [f1, f2, f3] at r1 r2 r3
  ext
  · dsimp only [F, lorentz, v]
    have : p'.x = (p'.x / (m * c) - q * h / (2 * m * c) * E.x) * (m * c) + q * h / 2 * E.x := by field_simp; ring
    rw [this, r1]
    field_simp
    ring
  · dsimp only [F, lorentz, v]
    have : p'.y = (p'.y / (m * c) - q * h / (2 * m * c) * E.y) * (m * c) + q * h / 2 * E.y := by field_simp; ring
    rw [this, r2]
    field_simp
    ring
  · dsimp only [F, lorentz, v]
    have : p'.z = (p'.z / (m * c) - q * h / (2 * m * c) * E.z) * (m * c) + q * h / 2 * E.z := by field_simp; ring
    rw [this, r3]
    field_simp
    ring

/-- The whole step: the position changes by half of the time step times the sum of the old and the new velocity, and
the momentum changes by the Lorentz force of the fields at the position and time in the middle. -/
theorem step_equations {c k h : ℝ} {junk : Nat → ℝ} {f : Fields} {s s' : Fo} (hg : C43.GoodCodes f) (hr : 0 < s.r)
    (hrun : s.running = true) (hrun' : s'.running = true) (hs : step c k junk f 0 h s = some s') :
    let vel := fun t : Fo => fun u : ℝ => u / (gammaPnorm c s.mass (V3.norm Real.sqrt t.p) * s.mass)
    let x : V3 ℝ := ⟨(cart s).1.x + h / 2 * vel s (cart s).2.x, (cart s).1.y + h / 2 * vel s (cart s).2.y,
      (cart s).1.z + h / 2 * vel s (cart s).2.z⟩
    (cart s').1 = ⟨x.x + h / 2 * vel s' (cart s').2.x, x.y + h / 2 * vel s' (cart s').2.y, x.z + h / 2 * vel s' (cart s').2.z⟩ ∧
    ∃ B E, f.B (xyz2rpz x).x (xyz2rpz x).y (xyz2rpz x).z (s.time + h / 2) = .ok B ∧
      f.E (xyz2rpz x).x (xyz2rpz x).y (xyz2rpz x).z (s.time + h / 2) = .ok E ∧
      (cart s').2 = kick c s.charge s.mass h junk (vecRpz2xyz E (xyz2rpz x).y) (vecRpz2xyz B (xyz2rpz x).y) (cart s).2 := by
  intro vel x
  rcases C43.step_push (Or.inl rfl) hrun hs with ⟨e, he, -⟩ | ⟨t1, ht1, hcart, -, -, -, -⟩
  · have := (C43.error_stops hrun (C43.push_code hg he) he hs).1
    rw [this] at hrun'
    cases hrun'
  · obtain ⟨B, E, hmid, hp1, hx1, -, -, -, -⟩ := push_cart hr ht1
    have hx : drift c s.mass h (cart s).1 (cart s).2 = x := by
      have hn : V3.norm Real.sqrt (cart s).2 = V3.norm Real.sqrt s.p := norm_rot s.p s.phi
      unfold drift
      dsimp only
      rw [hn]
      ext <;> dsimp only [x, vel] <;> ring
    rw [hx] at hmid hp1 hx1
    rw [← hcart] at hp1 hx1
    constructor
    · rw [hx1]
      have hn : V3.norm Real.sqrt (cart s').2 = V3.norm Real.sqrt s'.p := norm_rot s'.p s'.phi
      unfold drift
      dsimp only
      rw [hn]
      ext <;> dsimp only [vel] <;> ring
    · unfold midFields at hmid
      split at hmid
      · cases hmid
      · rename_i B' hB
        split at hmid
        · cases hmid
        · rename_i E' hE
          injection hmid with hmid
          injection hmid with h1 h2
          rw [h1] at hB
          rw [h2] at hE
          exact ⟨B, E, hB, hE, hp1⟩

end Ascot.C77
