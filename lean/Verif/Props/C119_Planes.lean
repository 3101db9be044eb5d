import Verif.Props.C117_Options

/-!
# C119: orbit diagnostics use exactly the Poincaré planes listed in the options
-/

set_option linter.unusedSectionVars false
set_option linter.unusedSimpArgs false

namespace Ascot.C119

open Ascot.Options Ascot.OptionDoc

/-- The planes in use: the first `n` entries of the array. -/
def inUse (n : ℕ) (xs : List ℝ) : List ℝ := xs.take n

/-- The reads behind the orbit settings. -/
theorem orb_reads {f : File} {m : ℤ} {d : Orb} (h : readOrb f m = .ok d) :
    ∃ tor pol, planes f "ORBITWRITE_TOROIDALANGLES" 361 = .ok tor ∧
      planes f "ORBITWRITE_POLOIDALANGLES" 361 = .ok pol ∧
      planes f "ORBITWRITE_RADIALDISTANCES" 1000 = .ok d.rad ∧
      countPlanes 361 tor = some d.ntor ∧ countPlanes 361 pol = some d.npol ∧
      countPlanes 1000 d.rad = some d.nrad ∧
      d.tor = convert d.ntor tor ∧ d.pol = convert d.npol pol := by
  simp only [readOrb, bind_ok, pure_ok] at h
  obtain ⟨_, -, _, -, _, -, tor, h4, pol, h5, rad, h6, nt, h7, np, h8, nr, h9, rfl⟩ := h
  have hi : ∀ (o : Option ℕ) (k : ℕ), initialised o = .ok k → o = some k := by
    intro o k h
    cases o with
    | none => cases h
    | some n => injection h with h; rw [h]
  exact ⟨tor, pol, h4, h5, h6, hi _ _ h7, hi _ _ h8, hi _ _ h9, rfl, rfl⟩

theorem planes_ok {f : File} {n : String} {c : ℝ} {xs ys : List ℝ} (hf : f n = some xs)
    (h : planes f n c = .ok ys) :
    xs.length ≤ 30 ∧ ys = xs ++ List.replicate (30 - xs.length) c := by
  unfold planes at h
  rw [hf] at h
  dsimp only at h
  by_cases hl : xs.length ≤ maxPoincares
  · rw [if_pos hl] at h
    injection h with h
    exact ⟨hl, h.symm⟩
  · rw [if_neg hl] at h
    cases h

/-- The first plane, if any, is not a negative number. -/
def NotOff (xs : List ℝ) : Prop := ∀ x, xs.head? = some x → 0 ≤ x

theorem headD_append (xs : List ℝ) (c : ℝ) (ys : List ℝ) (h : NotOff xs) (hc : 0 ≤ c) :
    ¬ (xs ++ c :: ys).headD 0 < 0 := by
  cases xs with
  | nil => simpa using hc
  | cons x xs => simpa using h x rfl

theorem count_ok {f : File} {n : String} {c : ℝ} {xs ys : List ℝ} {k : ℕ} (hc : 0 ≤ c)
    (hf : f n = some xs) (h : planes f n c = .ok ys) (hk : countPlanes c ys = some k)
    (hl : xs.length < 30) (hfill : c ∉ xs) (h0 : NotOff xs) :
    k = xs.length ∧ ys.take k = xs := by
  obtain ⟨-, rfl⟩ := planes_ok hf h
  obtain ⟨m, hm⟩ : ∃ m, 30 - xs.length = m + 1 := ⟨30 - xs.length - 1, by omega⟩
  rw [hm, List.replicate_succ] at hk ⊢
  unfold countPlanes at hk
  rw [countFrom_append _ _ (headD_append xs c _ h0 hc) _ xs 0 hfill] at hk
  injection hk with hk
  rw [Nat.zero_add] at hk
  subst hk
  exact ⟨rfl, by simp⟩

theorem count_off {f : File} {n : String} {c x : ℝ} {xs ys : List ℝ} {k : ℕ}
    (hf : f n = some (x :: xs)) (h : planes f n c = .ok ys) (hk : countPlanes c ys = some k)
    (hx : x < 0) : k = 0 := by
  obtain ⟨-, rfl⟩ := planes_ok hf h
  unfold countPlanes at hk
  simp only [List.cons_append, List.headD_cons] at hk
  unfold countFrom at hk
  rw [if_pos hx] at hk
  injection hk with hk
  exact hk.symm

/-- With fewer than 30 planes in a list, none of them equal to the filler value, the
diagnostics use exactly the planes of the list: the toroidal and poloidal angles
converted from degrees, the radial ones as they are. Missing: 30 planes and planes
equal to the filler value, where the property fails (`thirty_undefined`,
`filler_wrong`). -/
theorem planes_partial (f : File) (o : Opt) (d : Orb) (h : readOptions f = .ok o)
    (hd : o.orb = some d) :
    (∀ xs, f "ORBITWRITE_TOROIDALANGLES" = some xs → xs.length < 30 → (361 : ℝ) ∉ xs → NotOff xs →
      inUse d.ntor d.tor = xs.map (fun x => x * (Real.pi / 180))) ∧
    (∀ xs, f "ORBITWRITE_POLOIDALANGLES" = some xs → xs.length < 30 → (361 : ℝ) ∉ xs → NotOff xs →
      inUse d.npol d.pol = xs.map (fun x => x * (Real.pi / 180))) ∧
    (∀ xs, f "ORBITWRITE_RADIALDISTANCES" = some xs → xs.length < 30 → (1000 : ℝ) ∉ xs →
      NotOff xs → inUse d.nrad d.rad = xs) := by
  obtain ⟨-, -, -, -, -, -, -, -, -, -, -, ho, -⟩ := C117.blocks h
  rw [whenOn_ok, hd] at ho
  rcases ho with ⟨-, a, ho, e⟩ | ⟨-, e⟩
  · injection e with e
    subst e
    obtain ⟨tor, pol, h1, h2, h3, h4, h5, h6, h7, h8⟩ := orb_reads ho
    refine ⟨fun xs hx hl hf h0 => ?_, fun xs hx hl hf h0 => ?_, fun xs hx hl hf h0 => ?_⟩
    · obtain ⟨-, e⟩ := count_ok (by norm_num) hx h1 h4 hl hf h0
      rw [h7]
      unfold inUse convert
      have hlen : ((tor.take d.ntor).map fun x => x * Real.pi / 180).length ≤ d.ntor := by
        simp
      have hlen' : ((tor.take d.ntor).map fun x => x * Real.pi / 180).length = d.ntor := by
        rw [List.length_map, e, (count_ok (by norm_num) hx h1 h4 hl hf h0).1]
      rw [List.take_left' hlen', e]
      simp [mul_div_assoc]
    · obtain ⟨-, e⟩ := count_ok (by norm_num) hx h2 h5 hl hf h0
      rw [h8]
      unfold inUse convert
      have hlen' : ((pol.take d.npol).map fun x => x * Real.pi / 180).length = d.npol := by
        rw [List.length_map, e, (count_ok (by norm_num) hx h2 h5 hl hf h0).1]
      rw [List.take_left' hlen', e]
      simp [mul_div_assoc]
    · exact (count_ok (by norm_num) hx h3 h6 hl hf h0).2
  · cases e

/-- A negative first entry switches the planes of that kind off. -/
theorem negative_off (f : File) (o : Opt) (d : Orb) (h : readOptions f = .ok o)
    (hd : o.orb = some d) (x : ℝ) (xs : List ℝ) (hx : x < 0) :
    (f "ORBITWRITE_TOROIDALANGLES" = some (x :: xs) → inUse d.ntor d.tor = []) ∧
    (f "ORBITWRITE_POLOIDALANGLES" = some (x :: xs) → inUse d.npol d.pol = []) ∧
    (f "ORBITWRITE_RADIALDISTANCES" = some (x :: xs) → inUse d.nrad d.rad = []) := by
  obtain ⟨-, -, -, -, -, -, -, -, -, -, -, ho, -⟩ := C117.blocks h
  rw [whenOn_ok, hd] at ho
  rcases ho with ⟨-, a, ho, e⟩ | ⟨-, e⟩
  · injection e with e
    subst e
    obtain ⟨tor, pol, h1, h2, h3, h4, h5, h6, h7, h8⟩ := orb_reads ho
    refine ⟨fun hf => ?_, fun hf => ?_, fun hf => ?_⟩
    · rw [count_off hf h1 h4 hx]; rfl
    · rw [count_off hf h2 h5 hx]; rfl
    · rw [count_off hf h3 h6 hx]; rfl
  · cases e

/-- When a list fills the array, or is even longer, the read is never a success: with
30 planes the count is left uninitialised, with more the array overflows. -/
theorem thirty_undefined (f : File) (o : Opt) (h : readOptions f = .ok o) (n : String) (c : ℝ)
    (hn : (n, c) ∈ [("ORBITWRITE_TOROIDALANGLES", (361 : ℝ)), ("ORBITWRITE_POLOIDALANGLES", 361),
      ("ORBITWRITE_RADIALDISTANCES", 1000)])
    (xs : List ℝ) (hf : f n = some xs) (hl : 30 ≤ xs.length) (hfill : c ∉ xs) (h0 : NotOff xs) :
    o.collect.orb = 0 := by
  obtain ⟨-, -, -, -, -, -, -, -, -, -, -, ho, -⟩ := C117.blocks h
  rw [whenOn_ok] at ho
  rcases ho with ⟨-, a, ho, -⟩ | ⟨h1, -⟩
  · exfalso
    obtain ⟨tor, pol, h1, h2, h3, h4, h5, h6, -, -⟩ := orb_reads ho
    have key : ∀ ys k, planes f n c = .ok ys → countPlanes c ys = some k → False := by
      intro ys k hp hk
      obtain ⟨hle, rfl⟩ := planes_ok hf hp
      have : 30 - xs.length = 0 := by omega
      rw [this] at hk
      simp only [List.replicate_zero, List.append_nil] at hk
      unfold countPlanes at hk
      rw [countFrom_none _ _ _ xs 0 hfill] at hk
      · cases hk
      · cases xs with
        | nil => simp at hl
        | cons x xs => simpa using h0 x rfl
    simp only [List.mem_cons, List.not_mem_nil, or_false, Prod.mk.injEq] at hn
    rcases hn with ⟨rfl, rfl⟩ | ⟨rfl, rfl⟩ | ⟨rfl, rfl⟩
    · exact key _ _ h1 h4
    · exact key _ _ h2 h5
    · exact key _ _ h3 h6
  · exact h1

/-- A file with every option set to one and the given toroidal planes. -/
noncomputable def withPlanes (xs : List ℝ) : File := fun n =>
  if n = "ORBITWRITE_TOROIDALANGLES" then some xs else some [1]

theorem with_wellFormed (xs : List ℝ) (h : xs.length < 30) : C117.WellFormed (withPlanes xs) := by
  refine ⟨fun n hn => Or.inr ⟨1, ?_, by norm_num⟩, fun n _ => ?_⟩
  · unfold withPlanes
    rw [if_neg]
    rintro rfl
    exact hn (by decide)
  · unfold withPlanes
    split
    · exact Or.inr ⟨xs, rfl, h⟩
    · exact Or.inr ⟨[1], rfl, by norm_num⟩

theorem with_orb (xs : List ℝ) (o : Opt) (h : readOptions (withPlanes xs) = .ok o) :
    ∃ d, o.orb = some d := by
  have h1 : o.collect.orb = 1 := (C117.integer_options _ o h ("ENABLE_ORBITWRITE",
    fun o => o.collect.orb) (by simp [integers])).2 1 (by simp [withPlanes])
  cases h2 : o.orb with
  | some d => exact ⟨d, rfl⟩
  | none =>
    have := (C117.orbit_options _ o h).1.1.mp h2
    rw [h1] at this
    norm_num at this

/-- Thirty planes, as many as the array holds, with everything else in order: the
read does something undefined instead of succeeding. -/
theorem thirty_wrong : readOptions (withPlanes (List.replicate 30 0)) = .ub := by
  have hsafe : ∀ n, n ∉ planeNames → withPlanes (List.replicate 30 0) n = some [1] := by
    intro n hn
    unfold withPlanes
    rw [if_neg]
    rintro rfl
    exact hn (by decide)
  have hone : ∀ n, n ∉ planeNames → scalar (withPlanes (List.replicate 30 0)) n = .ok 1 :=
    fun n hn => scalar_ok.mpr (hsafe n hn)
  have h1 : toInt (1 : ℝ) = .ok 1 := by
    have := toInt_cast 1 (by norm_num) (by norm_num)
    simpa using this
  have hint : ∀ n, n ∉ planeNames → int (withPlanes (List.replicate 30 0)) n = .ok 1 :=
    fun n hn => int_ok.mpr ⟨1, hsafe n hn, h1⟩
  have hp1 : planes (withPlanes (List.replicate 30 0)) "ORBITWRITE_TOROIDALANGLES" 361 =
      .ok (List.replicate 30 0) := by
    unfold planes withPlanes
    rw [if_pos rfl]
    simp [maxPoincares]
  have hp2 : ∃ ys, planes (withPlanes (List.replicate 30 0)) "ORBITWRITE_POLOIDALANGLES" 361 =
      .ok ys := by
    unfold planes withPlanes
    rw [if_neg (by decide)]
    exact ⟨_, if_pos (by simp [maxPoincares])⟩
  have hp3 : ∃ ys, planes (withPlanes (List.replicate 30 0)) "ORBITWRITE_RADIALDISTANCES" 1000 =
      .ok ys := by
    unfold planes withPlanes
    rw [if_neg (by decide)]
    exact ⟨_, if_pos (by simp [maxPoincares])⟩
  obtain ⟨ys2, hp2⟩ := hp2
  obtain ⟨ys3, hp3⟩ := hp3
  have hc : countPlanes 361 (List.replicate 30 (0 : ℝ)) = none := by
    unfold countPlanes
    refine countFrom_none _ _ (by simp [List.replicate]) _ _ ?_
    rw [List.mem_replicate]
    norm_num
  generalize withPlanes (List.replicate 30 0) = f at *
  have bok : ∀ {α β : Type} {r : Res α} {a : α} {g : α → Res β}, r = .ok a → (r >>= g) = g a := by
    intro α β r a g h; rw [h]; rfl
  have hax : ∀ s, (∀ n ∈ axisNames s, n ∉ planeNames) → axis f s = .ok ⟨1, 1, 1⟩ := by
    intro s hs
    unfold axis
    rw [bok (hone _ (hs _ (by simp [axisNames]))), bok (hone _ (hs _ (by simp [axisNames]))),
      bok (hint _ (hs _ (by simp [axisNames])))]
    rfl
  have haxd : ∀ s, (∀ n ∈ axisNames s, n ∉ planeNames) →
      axisDeg f s = .ok ⟨deg2rad 1, deg2rad 1, 1⟩ := by
    intro s hs
    unfold axisDeg
    rw [bok (hax s hs)]
    rfl
  have horb : ∀ m, readOrb f m = .ub := by
    intro m
    unfold readOrb
    rw [bok (hint _ (by decide)), bok (hint _ (by decide)), bok (hone _ (by decide)), bok hp1,
      bok hp2, bok hp3, hc]
    rfl
  have hmode : readMode f = .ok ⟨1, 1, 1⟩ := by
    unfold readMode
    rw [bok (hint _ (by decide)), bok (hint _ (by decide)), bok (hint _ (by decide))]
    rfl
  have hex : ∀ {α : Type} {r : Res α}, C117.Safe f r → (∀ n, f n ≠ none) → ∃ a, r = .ok a := by
    intro α r h hn
    rcases h with h | ⟨-, n, -, h⟩
    · exact h
    · exact absurd h (hn n)
  have hsteps : ∃ a, readSteps f = .ok a := by
    unfold readSteps
    rw [bok (hint _ (by decide)), bok (hone _ (by decide)), bok (hint _ (by decide)),
      bok (hone _ (by decide)), bok (hone _ (by decide)), bok (hone _ (by decide)),
      bok (hone _ (by decide))]
    exact ⟨_, rfl⟩
  have hphys : ∃ a, readPhysics f = .ok a := by
    unfold readPhysics
    iterate 11 rw [bok (hint _ (by decide))]
    exact ⟨_, rfl⟩
  have hact : ∃ a, readActive f = .ok a := by
    unfold readActive
    iterate 8 rw [bok (hint _ (by decide))]
    exact ⟨_, rfl⟩
  have hlim : ∃ a, readLimits f = .ok a := by
    unfold readLimits
    iterate 7 rw [bok (hone _ (by decide))]
    iterate 2 rw [bok (hint _ (by decide))]
    exact ⟨_, rfl⟩
  have hcol : readCollect f = .ok ⟨1, 1, 1, 1, 1, 1, 1⟩ := by
    unfold readCollect
    iterate 7 rw [bok (hint _ (by decide))]
    rfl
  have hd5 : ∃ a, readDist5 f = .ok a := by
    unfold readDist5
    rw [bok (hax _ (by decide)), bok (haxd _ (by decide))]
    iterate 5 rw [bok (hax _ (by decide))]
    exact ⟨_, rfl⟩
  have hd6 : ∃ a, readDist6 f = .ok a := by
    unfold readDist6
    rw [bok (hax _ (by decide)), bok (haxd _ (by decide))]
    iterate 6 rw [bok (hax _ (by decide))]
    exact ⟨_, rfl⟩
  have hr5 : ∃ a, readDistRho5 f = .ok a := by
    unfold readDistRho5
    rw [bok (hax _ (by decide)), bok (haxd _ (by decide)), bok (haxd _ (by decide))]
    iterate 4 rw [bok (hax _ (by decide))]
    exact ⟨_, rfl⟩
  have hr6 : ∃ a, readDistRho6 f = .ok a := by
    unfold readDistRho6
    rw [bok (hax _ (by decide)), bok (haxd _ (by decide)), bok (haxd _ (by decide))]
    iterate 5 rw [bok (hax _ (by decide))]
    exact ⟨_, rfl⟩
  have hcom : ∃ a, readDistCom f = .ok a := by
    unfold readDistCom
    iterate 3 rw [bok (hax _ (by decide))]
    exact ⟨_, rfl⟩
  obtain ⟨a1, hsteps⟩ := hsteps
  obtain ⟨a2, hphys⟩ := hphys
  obtain ⟨a3, hact⟩ := hact
  obtain ⟨a4, hlim⟩ := hlim
  obtain ⟨a5, hd5⟩ := hd5
  obtain ⟨a6, hd6⟩ := hd6
  obtain ⟨a7, hr5⟩ := hr5
  obtain ⟨a8, hr6⟩ := hr6
  obtain ⟨a9, hcom⟩ := hcom
  have won : ∀ {α : Type} {r : Res α} {a : α}, r = .ok a → whenOn 1 r = .ok (some a) := by
    intro α r a h
    rw [h]
    rfl
  unfold readOptions
  rw [bok hmode, bok hsteps, bok hphys, bok hact, bok hlim, bok hcol, bok (won hd5), bok (won hd6),
    bok (won hr5), bok (won hr6), bok (won hcom), horb]
  rfl

/-- A plane whose angle equals the filler value of 361 degrees, which is the plane at
one degree, ends the list: here only one of three planes is used. -/
theorem filler_wrong : ∃ o d, readOptions (withPlanes [0, 361, 90]) = .ok o ∧
    o.orb = some d ∧ (inUse d.ntor d.tor).length = 1 := by
  obtain ⟨o, ho⟩ := (C117.complete _ (with_wellFormed [0, 361, 90] (by norm_num))).1.mpr
    (fun n _ => by unfold withPlanes; split <;> simp)
  obtain ⟨d, hd⟩ := with_orb _ o ho
  refine ⟨o, d, ho, hd, ?_⟩
  obtain ⟨-, -, -, -, -, -, -, -, -, -, -, h1, -⟩ := C117.blocks ho
  rw [whenOn_ok, hd] at h1
  rcases h1 with ⟨-, a, h1, e⟩ | ⟨-, e⟩
  · injection e with e
    subst e
    obtain ⟨tor, pol, h2, -, -, h3, -, -, h4, -⟩ := orb_reads h1
    obtain ⟨-, rfl⟩ := planes_ok (xs := [0, 361, 90]) (by simp [withPlanes]) h2
    have hk : d.ntor = 1 := by
      unfold countPlanes at h3
      have := countFrom_append (0 : ℝ) 361 (by norm_num)
        ([90] ++ List.replicate (30 - [(0 : ℝ), 361, 90].length) 361) [0] 0 (by norm_num)
      simp only [List.cons_append, List.nil_append, List.headD_cons] at this h3
      rw [this] at h3
      injection h3 with h3
      exact h3.symm
    rw [h4, hk]
    unfold inUse convert
    simp
  · cases e

/-- The hypotheses can be met: three planes arrive as they should. -/
example : ∃ o d, readOptions (withPlanes [0, 45, 90]) = .ok o ∧ o.orb = some d ∧
    inUse d.ntor d.tor = [0, 45, 90].map (fun x => x * (Real.pi / 180)) := by
  obtain ⟨o, ho⟩ := (C117.complete _ (with_wellFormed [0, 45, 90] (by norm_num))).1.mpr
    (fun n _ => by unfold withPlanes; split <;> simp)
  obtain ⟨d, hd⟩ := with_orb _ o ho
  refine ⟨o, d, ho, hd, (planes_partial _ o d ho hd).1 [0, 45, 90] (by simp [withPlanes])
    (by norm_num) (by norm_num) ?_⟩
  intro x hx
  simp at hx
  rw [← hx]

end Ascot.C119
