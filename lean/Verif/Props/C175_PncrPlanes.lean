import Verif.Model.PncrPlanes
import Verif.Lemmas.Options
import Verif.Props.C27_C28_Orbit

set_option linter.unusedSectionVars false
set_option linter.unusedSimpArgs false

/-!
# C175: Poincaré planes listed and plotted by the Python interface

The specification: `Surface`, `Crosses`, `on` and `numbering`.
-/
namespace Ascot.C175
open PncrPlanes Options

/-- A surface at which crossings are collected: a poloidal plane, at a toroidal angle (degrees); a toroidal plane, at a
poloidal angle (degrees); a flux surface, at a radius. -/
inductive Surface
  | poloidalPlane (phi : ℝ)
  | toroidalPlane (theta : ℝ)
  | fluxSurface (rho : ℝ)

/-- The value is met between two values. -/
def Meets (a x b : ℝ) : Prop := a ≤ x ∧ x ≤ b ∨ b ≤ x ∧ x ≤ a

/-- A step from `i` to `f` meets the surface. -/
def Crosses (i f : Orbit.Mrk ℝ) : Surface → Prop
  | .poloidalPlane a => ∃ n : ℤ, Meets i.phi (a * Real.pi / 180 + n * (2 * Real.pi)) f.phi
  | .toroidalPlane a => ∃ n : ℤ, Meets i.theta (a * Real.pi / 180 + n * (2 * Real.pi)) f.theta
  | .fluxSurface r => Meets i.rho r f.rho

/-- An option of planes is switched off by a negative number. -/
noncomputable def on (l : List ℝ) : List ℝ := if l.headD 0 < 0 then [] else l

/-- The numbers by which crossings are marked: poloidal planes (`ORBITWRITE_TOROIDALANGLES`) first, then toroidal planes
(`ORBITWRITE_POLOIDALANGLES`), then flux surfaces. -/
noncomputable def numbering (tor pol rad : List ℝ) : List Surface :=
  (on tor).map .poloidalPlane ++ (on pol).map .toroidalPlane ++ (on rad).map .fluxSurface

/-- A list of planes that can be given: at least one number, fewer than 30, none of them the filler. -/
def Valid (filler : ℝ) (l : List ℝ) : Prop := l ≠ [] ∧ l.length < 30 ∧ filler ∉ l

theorem count {filler : ℝ} {l : List ℝ} (h : Valid filler l) :
    countPlanes filler (l ++ List.replicate (maxPoincares - l.length) filler) = some (on l).length := by
  obtain ⟨h1, h2, h3⟩ := h
  cases l with
  | nil => exact absurd rfl h1
  | cons x l =>
    obtain ⟨n, hn⟩ : ∃ n, maxPoincares - (x :: l).length = n + 1 :=
      ⟨maxPoincares - (x :: l).length - 1, by unfold maxPoincares; omega⟩
    rw [hn, List.replicate_succ]
    unfold countPlanes on
    by_cases hx : x < 0
    · simp [countFrom, hx]
    · have := countFrom_append x filler hx (List.replicate n filler) (x :: l) 0 h3
      simpa [hx] using this

theorem take_convert {filler : ℝ} {l : List ℝ} :
    (convert (on l).length (l ++ List.replicate (maxPoincares - l.length) filler)).take (on l).length =
      (on l).map fun x => x * Real.pi / 180 := by
  unfold convert on
  split_ifs with h
  · simp
  · simp

theorem take_raw {filler : ℝ} {l : List ℝ} :
    (l ++ List.replicate (maxPoincares - l.length) filler).take (on l).length = on l := by
  unfold on
  split_ifs with h
  · simp
  · simp

/-- The planes of a run are those of its options. -/
theorem used_planes {F : File} {rm : ℤ} {o : Options.Orb} {tor pol rad : List ℝ} (h : readOrb F rm = .ok o)
    (ht : F "ORBITWRITE_TOROIDALANGLES" = some tor) (hp : F "ORBITWRITE_POLOIDALANGLES" = some pol)
    (hr : F "ORBITWRITE_RADIALDISTANCES" = some rad) (vt : Valid 361 tor) (vp : Valid 361 pol) (vr : Valid 1000 rad) :
    used o = ⟨(on tor).map fun x => x * Real.pi / 180, (on pol).map fun x => x * Real.pi / 180, on rad⟩ := by
  have e (l : List ℝ) (n : String) (c : ℝ) (v : Valid c l) (hl : F n = some l) :
      Options.planes F n c = .ok (l ++ List.replicate (maxPoincares - l.length) c) := by
    unfold Options.planes
    rw [hl]
    simp only
    rw [if_pos (by have := v.2.1; unfold maxPoincares; omega)]
  unfold readOrb at h
  rw [e tor _ _ vt ht, e pol _ _ vp hp, e rad _ _ vr hr] at h
  cases h1 : int F "ORBITWRITE_MODE" with
  | fail => rw [h1] at h; cases h
  | ub => rw [h1] at h; cases h
  | ok a =>
  cases h2 : int F "ORBITWRITE_NPOINT" with
  | fail => rw [h1, h2] at h; cases h
  | ub => rw [h1, h2] at h; cases h
  | ok b =>
  cases h3 : scalar F "ORBITWRITE_INTERVAL" with
  | fail => rw [h1, h2, h3] at h; cases h
  | ub => rw [h1, h2, h3] at h; cases h
  | ok c =>
  rw [h1, h2, h3] at h
  simp only [bind, Res.bind, count vt, count vp, count vr, initialised, pure] at h
  injection h with h
  subst h
  unfold used
  simp only [take_convert, take_raw]

/-- **C175, recorded crossings.**  In a run whose options list the planes `tor`, `pol` and `rad`, every point stored at a
plane carries the number of a surface in `numbering tor pol rad`, and the step met that surface. -/
theorem recorded {F : File} {rm : ℤ} {o : Options.Orb} {tor pol rad : List ℝ} (h : readOrb F rm = .ok o)
    (ht : F "ORBITWRITE_TOROIDALANGLES" = some tor) (hp : F "ORBITWRITE_POLOIDALANGLES" = some pol)
    (hr : F "ORBITWRITE_RADIALDISTANCES" = some rad) (vt : Valid 361 tor) (vp : Valid 361 pol) (vr : Valid 1000 rad)
    (m : Orbit.Mode) (f i : Orbit.Mrk ℝ) (g : Orbit.Pt ℝ → Orbit.Pt ℝ)
    (hg : g ∈ Orbit.poincareRecords Real.pi m (used o) f i) (q : Orbit.Pt ℝ) :
    ∃ (n : ℕ) (s : Surface), (numbering tor pol rad)[n]? = some s ∧ (g q).pncrid = n ∧ Crosses i f s := by
  rw [used_planes h ht hp hr vt vp vr] at hg
  have plane (a b x : ℝ) (hk : Orbit.planeCrossing Real.pi a b x ≠ 0) :
      ∃ n : ℤ, Meets b (x + n * (2 * Real.pi)) a := by
    by_contra hc
    refine hk (C28.plane_none Real.pi Real.pi_pos a b x fun n => ?_)
    have := not_exists.mp hc n
    unfold Meets at this
    exact not_or.mp this
  unfold Orbit.poincareRecords at hg
  rcases List.mem_append.mp hg with hg | hg
  · rcases List.mem_append.mp hg with hg | hg
    · obtain ⟨⟨x, j⟩, hx, hs⟩ := List.mem_filterMap.mp hg
      have hx := List.mem_zipIdx_iff_getElem?.mp hx
      simp only [List.getElem?_map, Option.map_eq_some_iff] at hx
      obtain ⟨y, hy, rfl⟩ := hx
      unfold Orbit.torRecord at hs
      simp only at hs
      split_ifs at hs with hk
      obtain rfl := Option.some.inj hs
      have hj := (List.getElem?_eq_some_iff.mp hy).1
      refine ⟨j, .poloidalPlane y, ?_, rfl, plane _ _ _ hk⟩
      unfold numbering
      rw [List.append_assoc, List.getElem?_append_left (by simpa using hj), List.getElem?_map, hy]
      rfl
    · obtain ⟨⟨x, j⟩, hx, hs⟩ := List.mem_filterMap.mp hg
      have hx := List.mem_zipIdx_iff_getElem?.mp hx
      simp only [List.getElem?_map, Option.map_eq_some_iff] at hx
      obtain ⟨y, hy, rfl⟩ := hx
      unfold Orbit.polRecord at hs
      simp only at hs
      split_ifs at hs with hk
      obtain rfl := Option.some.inj hs
      have hj := (List.getElem?_eq_some_iff.mp hy).1
      refine ⟨j + (on tor).length, .toroidalPlane y, ?_, by simp, plane _ _ _ hk⟩
      unfold numbering
      rw [List.append_assoc, List.getElem?_append_right (by simp),
        List.getElem?_append_left (by simpa using hj), List.getElem?_map]
      simp [hy]
  · obtain ⟨⟨x, j⟩, hx, hs⟩ := List.mem_filterMap.mp hg
    have hx := List.mem_zipIdx_iff_getElem?.mp hx
    unfold Orbit.radRecord at hs
    simp only at hs hx
    split_ifs at hs with hk
    refine ⟨j + ((on tor).length + (on pol).length), .fluxSurface x, ?_, ?_, ?_⟩
    · unfold numbering
      rw [List.getElem?_append_right (by simp), List.getElem?_map]
      simp [hx]
    · cases m <;> (obtain rfl := Option.some.inj hs; simp)
    · unfold Orbit.radialCrossing at hk
      split_ifs at hk with hc
      · show Meets _ _ _
        unfold Meets
        rcases hc with hc | hc
        · exact Or.inr ⟨hc.1, hc.2.le⟩
        · exact Or.inl ⟨hc.1, hc.2.le⟩
      · exact absurd rfl hk

/-- The lists of the interface, by the options. -/
theorem planes_eq (pol tor rad : List ℝ) :
    planeLists 1 0 pol tor rad = some ((on pol).zipIdx 0, (on tor).zipIdx (on pol).length,
      (on rad).zipIdx ((on pol).length + (on tor).length)) := by
  unfold planeLists opt2list on
  simp

/-- **C175, flux surfaces.**  For every run, the radial list shows all flux surfaces of the options, each with the number
by which its crossings are marked. -/
theorem radial (tor pol rad : List ℝ) (l : List (ℝ × ℕ) × List (ℝ × ℕ) × List (ℝ × ℕ))
    (h : planeLists 1 0 pol tor rad = some l) :
    l.2.2.map Prod.fst = on rad ∧
    ∀ e ∈ l.2.2, (numbering tor pol rad)[e.2]? = some (.fluxSurface e.1) := by
  rw [planes_eq] at h
  obtain rfl := Option.some.inj h
  refine ⟨by simp, fun e he => ?_⟩
  obtain ⟨x, n⟩ := e
  rw [List.mk_mem_zipIdx_iff_le_and_getElem?_sub] at he
  obtain ⟨h1, h2⟩ := he
  unfold numbering
  rw [List.getElem?_append_right (by simp; omega), List.getElem?_map]
  simp only [List.length_append, List.length_map]
  rw [show n - ((on tor).length + (on pol).length) = n - ((on pol).length + (on tor).length) by omega, h2]
  rfl

theorem number_first (tor pol rad : List ℝ) (n : ℕ) (h : n < (on tor).length) :
    (numbering tor pol rad)[n]? = (on tor)[n]?.map .poloidalPlane := by
  unfold numbering
  rw [List.append_assoc, List.getElem?_append_left (by simpa using h), List.getElem?_map]

theorem number_second (tor pol rad : List ℝ) (n : ℕ) (h1 : (on tor).length ≤ n)
    (h2 : n < (on tor).length + (on pol).length) :
    (numbering tor pol rad)[n]? = (on pol)[n - (on tor).length]?.map .toroidalPlane := by
  unfold numbering
  rw [List.append_assoc, List.getElem?_append_right (by simpa using h1), List.getElem?_append_left (by simp; omega),
    List.getElem?_map]
  simp

/-- **C175, kinds of planes: exactly when they are right.**  The planes listed as poloidal are all poloidal planes, and
those listed as toroidal all toroidal planes, just for runs with as many poloidal as toroidal planes. -/
theorem kinds_partial (tor pol rad : List ℝ) (l : List (ℝ × ℕ) × List (ℝ × ℕ) × List (ℝ × ℕ))
    (h : planeLists 1 0 pol tor rad = some l) :
    ((∀ e ∈ l.1, ∃ a, (numbering tor pol rad)[e.2]? = some (.poloidalPlane a)) ∧
      ∀ e ∈ l.2.1, ∃ a, (numbering tor pol rad)[e.2]? = some (.toroidalPlane a)) ↔
    (on tor).length = (on pol).length := by
  rw [planes_eq] at h
  obtain rfl := Option.some.inj h
  constructor
  · rintro ⟨h1, h2⟩
    simp only at h1 h2
    rcases lt_trichotomy (on tor).length (on pol).length with hlt | heq | hgt
    · exfalso
      obtain ⟨a, ha⟩ := h1 ((on pol)[(on tor).length], (on tor).length) (by
        rw [List.mk_mem_zipIdx_iff_le_and_getElem?_sub]
        exact ⟨Nat.zero_le _, by simp [hlt]⟩)
      simp only at ha
      rw [number_second _ _ _ _ le_rfl (by omega)] at ha
      simp only [Option.map_eq_some_iff] at ha
      obtain ⟨_, _, hc⟩ := ha
      cases hc
    · exact heq
    · exfalso
      obtain ⟨a, ha⟩ := h2 ((on tor)[0]'(by omega), (on pol).length) (by
        rw [List.mk_mem_zipIdx_iff_le_and_getElem?_sub]
        exact ⟨le_rfl, by rw [Nat.sub_self, List.getElem?_eq_getElem]⟩)
      simp only at ha
      rw [number_first _ _ _ _ hgt] at ha
      simp only [Option.map_eq_some_iff] at ha
      obtain ⟨_, _, hc⟩ := ha
      cases hc
  · intro heq
    constructor
    · rintro ⟨x, n⟩ he
      rw [List.mk_mem_zipIdx_iff_le_and_getElem?_sub] at he
      have hn := (List.getElem?_eq_some_iff.mp he.2).1
      have hn' : n < (on tor).length := by omega
      exact ⟨(on tor)[n], by rw [number_first _ _ _ _ hn', List.getElem?_eq_getElem hn']; rfl⟩
    · rintro ⟨x, n⟩ he
      rw [List.mk_mem_zipIdx_iff_le_and_getElem?_sub] at he
      have hn := (List.getElem?_eq_some_iff.mp he.2).1
      have h1 := he.1
      have hn' : n - (on tor).length < (on pol).length := by omega
      exact ⟨(on pol)[n - (on tor).length],
        by rw [number_second _ _ _ _ (by omega) (by omega), List.getElem?_eq_getElem hn']; rfl⟩

/-- **C175, listed angles: exactly when they are right.**  The poloidal and toroidal planes are listed with the angles of
the surfaces whose crossings carry their numbers just for runs where both options hold the same angles. -/
theorem angles_partial (tor pol rad : List ℝ) (l : List (ℝ × ℕ) × List (ℝ × ℕ) × List (ℝ × ℕ))
    (h : planeLists 1 0 pol tor rad = some l) :
    ((∀ e ∈ l.1, (numbering tor pol rad)[e.2]? = some (.poloidalPlane e.1)) ∧
      ∀ e ∈ l.2.1, (numbering tor pol rad)[e.2]? = some (.toroidalPlane e.1)) ↔ on tor = on pol := by
  have hk := kinds_partial tor pol rad l h
  rw [planes_eq] at h
  obtain rfl := Option.some.inj h
  constructor
  · rintro ⟨h1, h2⟩
    have heq := hk.mp ⟨fun e he => ⟨_, h1 e he⟩, fun e he => ⟨_, h2 e he⟩⟩
    refine List.ext_getElem heq fun n hn1 hn2 => ?_
    have := h1 ((on pol)[n], n) (by
      rw [List.mk_mem_zipIdx_iff_le_and_getElem?_sub]
      exact ⟨Nat.zero_le _, by simp [hn2]⟩)
    simp only at this
    rw [number_first _ _ _ _ hn1, List.getElem?_eq_getElem hn1] at this
    simpa using this
  · intro heq
    constructor
    · rintro ⟨x, n⟩ he
      rw [List.mk_mem_zipIdx_iff_le_and_getElem?_sub] at he
      have hn := (List.getElem?_eq_some_iff.mp he.2).1
      rw [number_first _ _ _ _ (by rw [heq]; omega), heq]
      simpa using he.2
    · rintro ⟨x, n⟩ he
      rw [List.mk_mem_zipIdx_iff_le_and_getElem?_sub] at he
      have hn := (List.getElem?_eq_some_iff.mp he.2).1
      have h1 := he.1
      rw [number_second _ _ _ _ (by rw [heq]; omega) (by rw [heq] at hn ⊢; omega)]
      rw [heq] at he ⊢
      simpa using he.2

/-- **C175, a wrong angle.**  One poloidal plane at toroidal angle 0 and one toroidal plane at poloidal angle 90: the
poloidal plane is listed at 90 degrees, the toroidal one at 0. -/
theorem angle_violation :
    ∃ l, planeLists 1 0 [90] [0] [-1] = some l ∧ l.1 = [(90, 0)] ∧ l.2.1 = [(0, 1)] ∧
      (numbering [0] [90] [-1])[0]? = some (.poloidalPlane 0) ∧
      (numbering [0] [90] [-1])[1]? = some (.toroidalPlane 90) := by
  refine ⟨_, planes_eq _ _ _, ?_, ?_, ?_, ?_⟩ <;> norm_num [on, numbering]

/-- **C175, plots of flux surfaces.**  For every run, `"rad i"` plots in `(theta, phi)` the points of the `i`-th flux
surface of the options. -/
theorem plot_radial {P : Type} (pncrid : P → ℕ) (pts : List P) (tor pol rad : List ℝ) (i : ℕ) (alt : Bool) (a : ℝ)
    (ha : (on rad)[i]? = some a) : ∃ n, (numbering tor pol rad)[n]? = some (.fluxSurface a) ∧
      plot pncrid pts (planeLists 1 0 pol tor rad) .rad (i + 1) alt =
        some ("thetamod", "phimod", pts.filter fun p => pncrid p = n) := by
  have e : ((i : ℤ) + 1 - 1).toNat = i := by omega
  have e0 : (0 : ℤ) ≤ (i : ℤ) + 1 - 1 := by omega
  rw [planes_eq]
  unfold plot
  simp only [e, e0, if_true, choice]
  refine ⟨(on pol).length + (on tor).length + i, ?_, ?_⟩
  · unfold numbering
    rw [List.getElem?_append_right (by simp; omega), List.getElem?_map]
    simp only [List.length_append, List.length_map]
    rw [show (on pol).length + (on tor).length + i - ((on tor).length + (on pol).length) = i by omega, ha]
    rfl
  · rw [List.getElem?_zipIdx, ha]
    simp [axes, known]

/-- **C175, plots.**  With as many poloidal as toroidal planes, `"pol i"` plots in `(R, z)` the points of the `i`-th
poloidal plane of the options, and `"tor i"` in `(rho, phi)`, or in `(R, phi)`, those of the `i`-th toroidal plane.  Not
so for other runs (`plot_violation`), nor in `(rho, theta)` (`alternative_violation`). -/
theorem plot_partial {P : Type} (pncrid : P → ℕ) (pts : List P) (tor pol rad : List ℝ)
    (heq : (on tor).length = (on pol).length) (i : ℕ) :
    (∀ a, (on tor)[i]? = some a → ∃ n, (numbering tor pol rad)[n]? = some (.poloidalPlane a) ∧
      plot pncrid pts (planeLists 1 0 pol tor rad) .pol (i + 1) false =
        some ("r", "z", pts.filter fun p => pncrid p = n)) ∧
    (∀ a, (on pol)[i]? = some a → ∃ n, (numbering tor pol rad)[n]? = some (.toroidalPlane a) ∧
      plot pncrid pts (planeLists 1 0 pol tor rad) .tor (i + 1) false =
        some ("rho", "phimod", pts.filter fun p => pncrid p = n) ∧
      plot pncrid pts (planeLists 1 0 pol tor rad) .tor (i + 1) true =
        some ("r", "phimod", pts.filter fun p => pncrid p = n)) := by
  have e : ((i : ℤ) + 1 - 1).toNat = i := by omega
  have e0 : (0 : ℤ) ≤ (i : ℤ) + 1 - 1 := by omega
  rw [planes_eq]
  unfold plot
  simp only [e, e0, if_true, choice]
  refine ⟨fun a ha => ?_, fun a ha => ?_⟩
  · have hi := (List.getElem?_eq_some_iff.mp ha).1
    have hi' : i < (on pol).length := by omega
    refine ⟨i, by rw [number_first _ _ _ _ hi, ha]; rfl, ?_⟩
    rw [List.getElem?_zipIdx, List.getElem?_eq_getElem hi']
    simp [axes, known]
  · have hi := (List.getElem?_eq_some_iff.mp ha).1
    have hi' : i < (on tor).length := by omega
    refine ⟨(on pol).length + i, ?_, ?_⟩
    · rw [number_second _ _ _ _ (by omega) (by omega), show (on pol).length + i - (on tor).length = i by omega, ha]; rfl
    · rw [List.getElem?_zipIdx, List.getElem?_eq_getElem hi']
      simp [axes, known]

/-- The number of planes of each kind in the options. -/
noncomputable def number (tor pol rad : List ℝ) : Kind → ℕ
  | .pol => (on tor).length
  | .tor => (on pol).length
  | .rad => (on rad).length

/-- **C175, refused planes.**  With as many poloidal as toroidal planes, a plane that is not there is refused. -/
theorem refused_partial {P : Type} (pncrid : P → ℕ) (pts : List P) (tor pol rad : List ℝ)
    (heq : (on tor).length = (on pol).length) (i : ℤ) (alt : Bool) (k : Kind)
    (hi : i ≤ 0 ∨ number tor pol rad k < i) :
    plot pncrid pts (planeLists 1 0 pol tor rad) k i alt = none := by
  rw [planes_eq]
  unfold plot
  simp only
  by_cases h0 : 0 ≤ i - 1
  · rw [if_pos h0]
    have h1 : (choice ((on pol).zipIdx 0, (on tor).zipIdx (on pol).length,
        (on rad).zipIdx ((on pol).length + (on tor).length)) k)[(i - 1).toNat]? = none := by
      rw [List.getElem?_eq_none_iff]
      cases k <;> simp only [choice, List.length_zipIdx, number] at hi ⊢ <;> omega
    rw [h1]
  · rw [if_neg h0]

/-- **C175, a plot of the wrong plane.**  Two poloidal planes (toroidal angles 0 and 180) and one toroidal plane: the
second poloidal plane cannot be plotted, and its crossings are shown as those of the first toroidal plane, in
`(rho, phi)`. -/
theorem plot_violation {P : Type} (pncrid : P → ℕ) (pts : List P) :
    (numbering [0, 180] [0] [-1])[1]? = some (.poloidalPlane 180) ∧
    plot pncrid pts (planeLists 1 0 [0] [0, 180] [-1]) .pol 2 false = none ∧
    plot pncrid pts (planeLists 1 0 [0] [0, 180] [-1]) .tor 1 false =
      some ("rho", "phimod", pts.filter fun p => pncrid p = 1) := by
  refine ⟨by norm_num [on, numbering], ?_, ?_⟩ <;>
  · rw [planes_eq]
    norm_num [plot, choice, on, axes, known]

/-- **C175, the other coordinates.**  No poloidal plane of any run can be plotted in `(rho, theta)`: the name of the
angle is not one that the orbits know. -/
theorem alternative_violation {P : Type} (pncrid : P → ℕ) (pts : List P)
    (l : Option (List (ℝ × ℕ) × List (ℝ × ℕ) × List (ℝ × ℕ))) (i : ℤ) :
    plot pncrid pts l .pol i true = none := by
  unfold plot
  cases l with
  | none => rfl
  | some l =>
    simp only
    by_cases h : 0 ≤ i - 1
    · rw [if_pos h]
      cases (choice l Kind.pol)[(i - 1).toNat]? with
      | none => rfl
      | some e => exact if_neg fun h => absurd h.2 (by decide)
    · rw [if_neg h]

/-- Non-vacuity of `recorded`: options with planes. -/
noncomputable def exampleFile : File := fun n =>
  if n = "ORBITWRITE_TOROIDALANGLES" then some [0, 180] else
  if n = "ORBITWRITE_POLOIDALANGLES" then some [0] else
  if n = "ORBITWRITE_RADIALDISTANCES" then some [1] else some [0]

example : (∃ o, readOrb exampleFile 0 = .ok o) ∧ Valid 361 [0, 180] ∧ Valid 361 [0] ∧ Valid 1000 [1] := by
  have v1 : Valid 361 [0, 180] := ⟨by simp, by simp, by norm_num⟩
  have v2 : Valid 361 [0] := ⟨by simp, by simp, by norm_num⟩
  have v3 : Valid 1000 [1] := ⟨by simp, by simp, by norm_num⟩
  refine ⟨?_, v1, v2, v3⟩
  have c1 := count v1
  have c2 := count v2
  have c3 := count v3
  simp only [List.length_cons, List.length_nil] at c1 c2 c3
  have e1 : Options.planes exampleFile "ORBITWRITE_TOROIDALANGLES" 361 =
      .ok ([0, 180] ++ List.replicate (maxPoincares - 2) 361) := by
    simp [Options.planes, exampleFile, maxPoincares]
  have e2 : Options.planes exampleFile "ORBITWRITE_POLOIDALANGLES" 361 =
      .ok ([0] ++ List.replicate (maxPoincares - 1) 361) := by
    simp [Options.planes, exampleFile, maxPoincares]
  have e3 : Options.planes exampleFile "ORBITWRITE_RADIALDISTANCES" 1000 =
      .ok ([1] ++ List.replicate (maxPoincares - 1) 1000) := by
    simp [Options.planes, exampleFile, maxPoincares]
  have i1 : int exampleFile "ORBITWRITE_MODE" = .ok 0 := by
    simp [int, scalar, exampleFile, toInt, bind, Res.bind]
  have i2 : int exampleFile "ORBITWRITE_NPOINT" = .ok 0 := by
    simp [int, scalar, exampleFile, toInt, bind, Res.bind]
  have i3 : scalar exampleFile "ORBITWRITE_INTERVAL" = .ok 0 := by
    simp [scalar, exampleFile]
  unfold readOrb
  rw [e1, e2, e3, i1, i2, i3]
  simp only [bind, Res.bind]
  rw [c1, c2, c3]
  exact ⟨_, rfl⟩

/-- Non-vacuity of `plot_partial` and `radial`: two planes of each kind and one flux surface. -/
example : (on [0, 180]).length = (on [90, 270]).length ∧ (on [0, 180])[1]? = some 180 ∧ (on [1])[0]? = some (1 : ℝ) := by
  norm_num [on]

end Ascot.C175
