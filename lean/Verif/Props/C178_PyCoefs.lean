import Verif.Model.PyCoefs
import Verif.Spec.PyCoefs
import Verif.Lemmas.McccCoefs
import Verif.Props.C113_Batch
import Verif.Props.C114_Rates

/-!
# C178: collision coefficients and reaction rates evaluated in Python

The loops of the library are the subject of C113 and C114; here the results are those that the user of the Python interface
sees.
-/
set_option linter.unusedSectionVars false
set_option linter.unusedSimpArgs false

namespace Ascot.C178
open Ascot.LibBatch Ascot.PyCoefs Ascot.C113

variable {C : Mccc.MConsts} {psi : Eval ℝ} {rho : ℝ → Except Nat (ℝ × ℝ)} {plasma : ℝ → Eval (List Mccc.Species)} {n : ℕ}
  {va : List ℝ} {ma qa : ℝ} {coefs : List String} {q : Query} {run : List Store}

theorem mapM_get {α β : Type} {f : α → Option β} : ∀ {l : List α} {o : List β}, l.mapM f = some o → ∀ (i : ℕ) (a : α),
    l[i]? = some a → ∃ b, f a = some b ∧ o[i]? = some b := by
  intro l
  induction l with
  | nil => intro o _ i a ha; simp at ha
  | cons x l ih =>
    intro o h i a ha
    rw [List.mapM_cons] at h
    cases hx : f x with
    | none => simp [hx] at h
    | some y =>
      cases hl : l.mapM f with
      | none => simp [hx, hl] at h
      | some ys =>
        simp only [hx, hl, Option.bind_eq_bind, Option.bind_some, Option.pure_def, Option.some.injEq] at h
        subst h
        cases i with
        | zero => simp only [List.getElem?_cons_zero, Option.some.injEq] at ha ⊢; subst ha; exact ⟨y, hx, rfl⟩
        | succ i => simp only [List.getElem?_cons_succ] at ha ⊢; exact ih hl i a ha

/-- Each documented name stands for an array of the library that holds what the name means. -/
theorem names_match (va : ℝ) (sp : List Mccc.Species) (b : Mccc.Species) (name : String) (x : ℝ)
    (h : (name, x) ∈ PyCoefs.Spec.meaning C.e0 C.hbar ma qa va sp b) :
    ∃ a, param name = some a ∧ (a, x) ∈ collCoef C ma qa va sp b ∧ ∀ coefs, name ∈ coefs → want coefs a = true := by
  simp only [PyCoefs.Spec.meaning, List.mem_cons, Prod.mk.injEq, List.not_mem_nil, or_false] at h
  rcases h with ⟨rfl, rfl⟩ | ⟨rfl, rfl⟩ | ⟨rfl, rfl⟩ | ⟨rfl, rfl⟩ | ⟨rfl, rfl⟩ | ⟨rfl, rfl⟩ | ⟨rfl, rfl⟩ | ⟨rfl, rfl⟩ |
    ⟨rfl, rfl⟩ | ⟨rfl, rfl⟩ | ⟨rfl, rfl⟩ | ⟨rfl, rfl⟩
  · exact ⟨"clog", by decide +kernel, by simp [collCoef, PyCoefs.Spec.special], fun coefs hc => by simp [want, passed, params, hc]⟩
  · exact ⟨"F", by decide +kernel, by simp [collCoef, PyCoefs.Spec.special], fun coefs hc => by simp [want, passed, params, hc]⟩
  · exact ⟨"K", by decide +kernel, by simp [collCoef, PyCoefs.Spec.special], fun coefs hc => by simp [want, passed, params, hc]⟩
  · exact ⟨"nu", by decide +kernel, by simp [collCoef, PyCoefs.Spec.special], fun coefs hc => by simp [want, passed, params, hc]⟩
  · exact ⟨"Dpara", by decide +kernel, by simp [collCoef, PyCoefs.Spec.special], fun coefs hc => by simp [want, passed, params, hc]⟩
  · exact ⟨"Dperp", by decide +kernel, by simp [collCoef, PyCoefs.Spec.special], fun coefs hc => by simp [want, passed, params, hc]⟩
  · exact ⟨"dDpara", by decide +kernel, by simp [collCoef, PyCoefs.Spec.special], fun coefs hc => by simp [want, passed, params, hc]⟩
  · exact ⟨"Q", by decide +kernel, by simp [collCoef, PyCoefs.Spec.special], fun coefs hc => by simp [want, passed, params, hc]⟩
  · exact ⟨"dQ", by decide +kernel, by simp [collCoef, PyCoefs.Spec.special], fun coefs hc => by simp [want, passed, params, hc]⟩
  · exact ⟨"mu0", by decide +kernel, by simp [collCoef, PyCoefs.Spec.special], fun coefs hc => by simp [want, passed, params, hc]⟩
  · exact ⟨"mu1", by decide +kernel, by simp [collCoef, PyCoefs.Spec.special], fun coefs hc => by simp [want, passed, params, hc]⟩
  · exact ⟨"dmu0", by decide +kernel, by simp [collCoef, PyCoefs.Spec.special], fun coefs hc => by simp [want, passed, params, hc]⟩

theorem stored (grid : Bool) (h : Execution n (body C psi rho plasma n grid va ma qa coefs q) run) (out : List (ℕ → ℝ))
    (ho : collcoefs coefs run = some out) (c : ℕ) (name : String) (hc : coefs[c]? = some name) :
    ∃ a, out[c]? = some a ∧
      (∀ (k : ℕ) (sp : List Mccc.Species) (iv ib : ℕ) (b : Mccc.Species) (x : ℝ), k < n → Known psi rho plasma q k sp →
        iv < numV grid va → sp[ib]? = some b → (name, x) ∈ PyCoefs.Spec.meaning C.e0 C.hbar ma qa (va.getD iv 0) sp b →
        a (ib * numV grid va * n + numV grid va * k + iv) = x) ∧
      (∀ (k iv ib : ℕ), k < n → iv < numV grid va → (∀ sp, ¬ Known psi rho plasma q k sp) →
        a (ib * numV grid va * n + numV grid va * k + iv) = 0) := by
  obtain ⟨a, h1, h2⟩ := mapM_get ho c name hc
  cases hp : param name with
  | none => rw [hp] at h1; simp at h1
  | some p =>
    rw [hp] at h1
    simp only [Option.map_some, Option.some.injEq] at h1
    subst h1
    refine ⟨_, h2, fun k sp iv ib b x hk hsp hiv hb hx => ?_, fun k iv ib hk hiv hno => (untouched (m := fresh) h).2 p k iv ib hk hiv hno⟩
    obtain ⟨a, e1, e2, e3⟩ := names_match (C := C) (ma := ma) (qa := qa) _ sp b name x hx
    rw [hp] at e1
    cases e1
    exact (coll_stores (m := fresh) h).1 k sp iv ib b (p, x) hk hsp hiv hb e2 (e3 coefs (List.mem_of_getElem? hc))

/-- **All speeds at all points** (`grid=True`): whatever the threads do, element `[ib, k, iv]` of each array that is
returned is the coefficient of its name for species `ib`, at point `k` and for speed `iv`.  Arrays are in the order of the
names. -/
theorem grid (h : Execution n (body C psi rho plasma n true va ma qa coefs q) run) (out : List (ℕ → ℝ))
    (ho : collcoefs coefs run = some out) (c : ℕ) (name : String) (hc : coefs[c]? = some name) (k iv ib : ℕ)
    (sp : List Mccc.Species) (b : Mccc.Species) (v x : ℝ) (hk : k < n) (hsp : Known psi rho plasma q k sp)
    (hv : va[iv]? = some v) (hb : sp[ib]? = some b) (hx : (name, x) ∈ PyCoefs.Spec.meaning C.e0 C.hbar ma qa v sp b) :
    ∃ a, out[c]? = some a ∧ entry3 n va.length a ib k iv = x := by
  obtain ⟨a, h1, h2, -⟩ := stored true h out ho c name hc
  refine ⟨a, h1, ?_⟩
  have hiv : iv < numV true va := (List.getElem?_eq_some_iff.1 hv).1
  have := h2 k sp iv ib b x hk hsp hiv hb (by rw [List.getD_eq_getElem?_getD, hv]; exact hx)
  rw [← this]
  unfold entry3
  congr 1
  simp only [numV, if_true]
  ring

/-- **Names**: the documented names are accepted and other names are refused. -/
theorem names (coefs : List String) (run : List Store) :
    (collcoefs coefs run).isSome ↔ ∀ c ∈ coefs, c ∈ ["clog", "f", "k", "nu", "dpara", "dperp", "ddpara", "q", "dq", "mu0", "mu1", "dmu0"] := by
  have hp : ∀ c, (param c).isSome ↔ c ∈ ["clog", "f", "k", "nu", "dpara", "dperp", "ddpara", "q", "dq", "mu0", "mu1", "dmu0"] := by
    intro c
    rw [param, List.lookup_isSome_iff]
    simp only [passed, params, List.zip_cons_cons, List.zip_nil_right, List.mem_cons, List.not_mem_nil, or_false]
    constructor
    · rintro ⟨y, hy, e⟩
      simp only [beq_iff_eq] at e
      subst e
      rcases hy with rfl | rfl | rfl | rfl | rfl | rfl | rfl | rfl | rfl | rfl | rfl | rfl <;> simp
    · rintro (rfl | rfl | rfl | rfl | rfl | rfl | rfl | rfl | rfl | rfl | rfl | rfl) <;> simp
  unfold collcoefs
  induction coefs with
  | nil => simp
  | cons c l ih =>
    rw [List.mapM_cons]
    have h1 := hp c
    rw [List.forall_mem_cons, ← h1]
    refine Iff.trans ?_ (and_congr_right' ih)
    cases param c with
    | none => simp
    | some p =>
      cases l.mapM fun c => (param c).map fun a => exec fresh run a with
      | none => simp
      | some ys => simp

/-- **Along an orbit** (`grid=False`; full claim: element `[ib, k]` is the coefficient for species `ib` at point `k` and for
speed `k`): this holds when all speeds are the same. -/
theorem orbit_partial (h : Execution n (body C psi rho plasma n false va ma qa coefs q) run) (out : List (ℕ → ℝ))
    (ho : collcoefs coefs run = some out) (c : ℕ) (name : String) (hc : coefs[c]? = some name) (k ib : ℕ)
    (sp : List Mccc.Species) (b : Mccc.Species) (v x : ℝ) (hk : k < n) (hsp : Known psi rho plasma q k sp)
    (hv : va[k]? = some v) (hall : ∀ w ∈ va, w = v) (hb : sp[ib]? = some b)
    (hx : (name, x) ∈ PyCoefs.Spec.meaning C.e0 C.hbar ma qa v sp b) :
    ∃ a, out[c]? = some a ∧ entry2 n a ib k = x := by
  obtain ⟨a, h1, h2, -⟩ := stored false h out ho c name hc
  refine ⟨a, h1, ?_⟩
  have h0 : va.getD 0 0 = v := by
    cases va with
    | nil => simp at hv
    | cons w l => exact hall w (by simp)
  have := h2 k sp 0 ib b x hk hsp (by simp [numV]) hb (by rw [h0]; exact hx)
  rw [← this]
  unfold entry2
  simp [numV]

/-- What is returned instead: the coefficients at all points are those for the first speed. -/
theorem first_speed (h : Execution n (body C psi rho plasma n false va ma qa coefs q) run) (out : List (ℕ → ℝ))
    (ho : collcoefs coefs run = some out) (c : ℕ) (name : String) (hc : coefs[c]? = some name) (k ib : ℕ)
    (sp : List Mccc.Species) (b : Mccc.Species) (v x : ℝ) (hk : k < n) (hsp : Known psi rho plasma q k sp)
    (hv : va[0]? = some v) (hb : sp[ib]? = some b) (hx : (name, x) ∈ PyCoefs.Spec.meaning C.e0 C.hbar ma qa v sp b) :
    ∃ a, out[c]? = some a ∧ entry2 n a ib k = x := by
  obtain ⟨a, h1, h2, -⟩ := stored false h out ho c name hc
  refine ⟨a, h1, ?_⟩
  have := h2 k sp 0 ib b x hk hsp (by simp [numV]) hb (by rw [List.getD_eq_getElem?_getD, hv]; exact hx)
  rw [← this]
  unfold entry2
  simp [numV]

/-- A plasma of one species that is known everywhere with `R < 5`. -/
noncomputable def exPlasma : ℝ → Eval (List Mccc.Species) := fun _ r _ _ _ => if r < 5 then .ok [⟨1, 1, 1, 1⟩] else .error 1

noncomputable def exPsi : Eval ℝ := fun _ _ _ _ => .ok 0
noncomputable def exRho : ℝ → Except Nat (ℝ × ℝ) := fun _ => .ok (0, 0)
noncomputable def exQ : Query := ⟨fun k => if k < 2 then 1 else 9, fun _ => 0, fun _ => 0, fun _ => 0⟩

theorem ex_known (k : ℕ) (hk : k < 2) : Known exPsi exRho exPlasma exQ k [⟨1, 1, 1, 1⟩] :=
  ⟨0, (0, 0), rfl, rfl, by simp only [exPlasma, exQ, if_pos hk]; rw [if_pos (by norm_num)]⟩

/-- The claim fails: along an orbit that starts at rest, the special function `mu0` is 0 also where the marker moves, while
its value is positive there. -/
theorem orbit_violation (C : Mccc.MConsts) (ma qa : ℝ) :
    ∃ (psi : Eval ℝ) (rho : ℝ → Except Nat (ℝ × ℝ)) (plasma : ℝ → Eval (List Mccc.Species)) (q : Query) (va : List ℝ)
      (sp : List Mccc.Species) (b : Mccc.Species) (v x : ℝ), Known psi rho plasma q 1 sp ∧ sp[0]? = some b ∧ va[1]? = some v ∧
      ("mu0", x) ∈ PyCoefs.Spec.meaning C.e0 C.hbar ma qa v sp b ∧
      ∀ run, Execution va.length (body C psi rho plasma va.length false va ma qa ["mu0"] q) run →
        ∃ a, collcoefs ["mu0"] run = some [a] ∧ entry2 va.length a 0 1 = 0 ∧ 0 < x := by
  refine ⟨exPsi, exRho, exPlasma, exQ, [0, 1], [⟨1, 1, 1, 1⟩], ⟨1, 1, 1, 1⟩, 1, _, ex_known 1 (by norm_num), rfl, rfl,
    by simp only [PyCoefs.Spec.meaning, List.mem_cons, Prod.mk.injEq, String.reduceEq, false_and, false_or, true_and]
       exact .inl rfl, fun run h => ?_⟩
  have ho : collcoefs ["mu0"] run = some [exec fresh run "mu0"] := by
    simp [collcoefs, param, passed, params, List.lookup]
  obtain ⟨a, h1, h2⟩ := first_speed h _ ho 0 "mu0" rfl 1 0 _ ⟨1, 1, 1, 1⟩ 0 0 (by simp) (ex_known 1 (by norm_num)) rfl rfl
    (by simp [PyCoefs.Spec.meaning, PyCoefs.Spec.special, Mccc.mufun])
  simp only [List.getElem?_cons_zero, Option.some.injEq] at h1
  subst h1
  refine ⟨_, ho, h2, ?_⟩
  have hs : (0 : ℝ) < Real.sqrt 2 := Real.sqrt_pos.mpr (by norm_num)
  have : (1 : ℝ) / Real.sqrt (2 * 1 / 1) ≠ 0 := by
    rw [show (2 : ℝ) * 1 / 1 = 2 by norm_num]; positivity
  simp only [PyCoefs.Spec.special, Mccc.mufun]
  rw [if_pos ⟨trivial, this⟩]
  simp only [Option.getD_some]
  exact Mccc.mu0_pos (by rw [show (2 : ℝ) * 1 / 1 = 2 by norm_num]; positivity)

/-- Points where the plasma cannot be evaluated (claim: they can be told from others): all their coefficients are 0, as if
there were a plasma without collisions. -/
theorem outside_violation (g : Bool) (h : Execution n (body C psi rho plasma n g va ma qa coefs q) run)
    (out : List (ℕ → ℝ)) (ho : collcoefs coefs run = some out) (c : ℕ) (hc : c < coefs.length) (k iv ib : ℕ) (hk : k < n)
    (hiv : iv < numV g va) (hno : ∀ sp, ¬ Known psi rho plasma q k sp) :
    ∃ a, out[c]? = some a ∧ entry3 n (numV g va) a ib k iv = 0 := by
  obtain ⟨a, h1, -, h3⟩ := stored g h out ho c coefs[c] (List.getElem?_eq_getElem hc)
  refine ⟨a, h1, ?_⟩
  rw [← h3 k iv ib hk hiv hno]
  unfold entry3
  congr 1
  ring

/-! ## Reaction rates -/

/-- **Reactions** (full claim: the reaction that is evaluated is the one that was asked for): it is for charge exchange and
beam stopping, and the value is the one that the library stores, `nan` if it stores none; unknown names are refused. -/
theorem reaction_partial (c cE : ℝ) (d : Asigma.Data) (ionZ ionA : List ℤ) (nspec : Nat) (Za Aa : ℤ) (ma va : ℝ)
    (dens temp n0 t0 : List ℝ) :
    (∀ name r, name ∈ ["charge-exchange", "beamstopping"] → (name, r) ∈ PyCoefs.Spec.reactionNumber →
      ∀ e, rateCoeff c cE d ionZ ionA nspec Za Aa ma va r dens temp n0 t0 = some e →
        atomic c cE d ionZ ionA nspec Za Aa ma va name dens temp n0 t0 = some (e.bind id)) ∧
    (∀ name, (∀ r, (name, r) ∉ PyCoefs.Spec.reactionNumber) →
      atomic c cE d ionZ ionA nspec Za Aa ma va name dens temp n0 t0 = none) := by
  constructor
  · intro name r hn hr e he
    have h1 : reaction name = some r := by
      simp only [List.mem_cons, List.not_mem_nil, or_false] at hn
      simp only [PyCoefs.Spec.reactionNumber, List.mem_cons, Prod.mk.injEq, List.not_mem_nil, or_false] at hr
      rcases hn with rfl | rfl <;> simp only [String.reduceEq, false_and, false_or, or_false, true_and] at hr <;> subst hr <;>
        decide +kernel
    unfold atomic
    rw [h1, Option.bind_some, he]
    cases e <;> rfl
  · intro name h
    have h1 : reaction name = none := by
      unfold reaction
      rw [if_neg, if_neg, if_neg, if_neg] <;> rintro rfl
      · exact h 7 (by simp [PyCoefs.Spec.reactionNumber])
      · exact h 6 (by simp [PyCoefs.Spec.reactionNumber])
      · exact h 5 (by simp [PyCoefs.Spec.reactionNumber])
      · exact h 4 (by simp [PyCoefs.Spec.reactionNumber])
    simp [atomic, h1]

/-- The claim fails for the two others: ionisation and recombination are swapped. -/
theorem swapped_violation : ∃ i r, ("ionization", i) ∈ PyCoefs.Spec.reactionNumber ∧
    ("recombination", r) ∈ PyCoefs.Spec.reactionNumber ∧ i ≠ r ∧ reaction "ionization" = some r ∧
    reaction "recombination" = some i :=
  ⟨4, 5, by simp [PyCoefs.Spec.reactionNumber], by simp [PyCoefs.Spec.reactionNumber], by norm_num, by decide +kernel,
    by decide +kernel⟩

/-- Nor can their rates be evaluated: with at most one species of neutrals all values are `nan`, whatever the atomic data
are. -/
theorem unavailable_violation (c cE : ℝ) (d : Asigma.Data) (ionZ ionA : List ℤ) (nspec : Nat) (hn : nspec ≤ 1) (Za Aa : ℤ)
    (ma va : ℝ) (dens temp n0 t0 : List ℝ) (name : String) (h : name ∈ ["ionization", "recombination"]) :
    atomic c cE d ionZ ionA nspec Za Aa ma va name dens temp n0 t0 = some none := by
  have h1 : reaction name = some 4 ∨ reaction name = some 5 := by
    simp only [List.mem_cons, List.not_mem_nil, or_false] at h
    rcases h with rfl | rfl
    · exact .inr (by decide +kernel)
    · exact .inl (by decide +kernel)
  rcases h1 with h1 | h1 <;> simp [atomic, h1, rateCoeff, show ¬ 1 < nspec by omega]

/-! ## Concrete cases -/

theorem ex_out (run : List Store) : collcoefs ["nu", "mu0"] run = some [exec fresh run "nu", exec fresh run "mu0"] := by
  simp [collcoefs, param, passed, params, List.lookup]

/-- Three points, the last one outside of the plasma, and two speeds; any schedule. -/
example (C : Mccc.MConsts) (ma qa : ℝ) (run : List Store)
    (h : Execution 3 (body C exPsi exRho exPlasma 3 true [0, 1] ma qa ["nu", "mu0"] exQ) run) :
    (∃ a, [exec fresh run "nu", exec fresh run "mu0"][1]? = some a ∧ entry3 3 2 a 0 1 0 = 0) ∧
      (∃ a, [exec fresh run "nu", exec fresh run "mu0"][0]? = some a ∧ entry3 3 2 a 0 2 1 = 0) := by
  constructor
  · exact grid h _ (ex_out run) 1 "mu0" rfl 1 0 0 [⟨1, 1, 1, 1⟩] ⟨1, 1, 1, 1⟩ 0 0 (by norm_num)
      (ex_known 1 (by norm_num)) rfl rfl (by simp [PyCoefs.Spec.meaning, PyCoefs.Spec.special, Mccc.mufun])
  · refine outside_violation true h _ (ex_out run) 0 (by simp) 2 1 0 (by norm_num) (by simp [numV]) ?_
    rintro sp ⟨x, r, -, -, h⟩
    have hR : ¬ exQ.R 2 < 5 := by simp [exQ]; norm_num
    unfold exPlasma at h
    rw [if_neg hR] at h
    cases h

/-- There is a schedule, the one of a single thread. -/
example (C : Mccc.MConsts) (ma qa : ℝ) :
    ∃ run, Execution 3 (body C exPsi exRho exPlasma 3 true [0, 1] ma qa ["nu", "mu0"] exQ) run := ⟨_, List.Perm.refl _⟩

/-- Two points with the same speed. -/
example (C : Mccc.MConsts) (ma qa : ℝ) (run : List Store)
    (h : Execution 2 (body C exPsi exRho exPlasma 2 false [0, 0] ma qa ["nu", "mu0"] exQ) run) :
    ∃ a, [exec fresh run "nu", exec fresh run "mu0"][1]? = some a ∧ entry2 2 a 0 1 = 0 :=
  orbit_partial h _ (ex_out run) 1 "mu0" rfl 1 0 [⟨1, 1, 1, 1⟩] ⟨1, 1, 1, 1⟩ 0 0 (by norm_num)
    (ex_known 1 (by norm_num)) rfl (by simp) rfl (by simp [PyCoefs.Spec.meaning, PyCoefs.Spec.special, Mccc.mufun])

example : (collcoefs ["nu", "clog"] []).isSome ∧ ¬ (collcoefs ["nu", "energy"] []).isSome :=
  ⟨(names _ _).2 (by simp), fun h => absurd ((names _ _).1 h "energy" (by simp)) (by simp)⟩

end Ascot.C178
