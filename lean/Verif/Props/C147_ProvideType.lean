import Verif.Model.ProvideType
set_option linter.unusedSectionVars false
set_option linter.unusedSimpArgs false

/-!
# C147: a dictionary is taken for the type of input whose writer takes it
-/
namespace Ascot.C147
open Ascot.ProvideType
open Ascot.InputState (Inp)

/-- Python's rule for calling the writer of a type with the entries of a dictionary as arguments: all arguments without a default value are given, and
nothing that is not an argument. -/
def Takes (t : String) (keys : List String) : Prop :=
  ∃ s, sig t = some s ∧ (∀ k ∈ s.required, k ∈ keys) ∧ ∀ k ∈ keys, k ∈ s.required ∨ k ∈ s.optional

theorem missing_nil {s : Sig} {keys : List String} : s.missing keys = [] ↔ ∀ k ∈ s.required, k ∈ keys := by
  simp [Sig.missing, List.filter_eq_nil_iff]

theorem unknown_nil {s : Sig} {keys : List String} : s.unknown keys = [] ↔ ∀ k ∈ keys, k ∈ s.required ∨ k ∈ s.optional := by
  simp [Sig.unknown, Sig.args, List.filter_eq_nil_iff, or_iff_not_imp_left]

/-- All types that are looked for are in the table. -/
theorem known (i : Inp) : ∀ t ∈ types i, (sig t).isSome := by cases i <;> decide +kernel

/-- No two types of one kind take the same dictionary: of two types, one has an argument without default value that the other has not. -/
theorem separate (i : Inp) : ∀ t ∈ types i, ∀ t' ∈ types i, t ≠ t' →
    ((sig t).getD ⟨[], [], []⟩).required.any (fun k => !((sig t').getD ⟨[], [], []⟩).args.contains k) = true ∨
      ((sig t').getD ⟨[], [], []⟩).required.any (fun k => !((sig t).getD ⟨[], [], []⟩).args.contains k) = true := by
  cases i <;> decide +kernel

theorem unique {i : Inp} {t t' : String} (ht : t ∈ types i) (ht' : t' ∈ types i) {keys : List String} (h : Takes t keys) (h' : Takes t' keys) : t = t' := by
  by_contra hne
  obtain ⟨s, e, r, a⟩ := h
  obtain ⟨s', e', r', a'⟩ := h'
  have := separate i t ht t' ht' hne
  rw [e, e'] at this
  simp only [Option.getD_some, List.any_eq_true, Bool.not_eq_true', List.contains_eq_mem, decide_eq_false_iff_not, Sig.args, List.mem_append] at this
  rcases this with ⟨k, hk, hn⟩ | ⟨k, hk, hn⟩
  · exact hn (a' k (r k hk))
  · exact hn (a k (r' k hk))

theorem go_type {keys ts : List String} {lm lu : List (Option String)} {best : Option String} {t : String} (h : go keys ts lm lu best = .type t) :
    t ∈ ts ∧ Takes t keys := by
  induction ts generalizing lm lu best with
  | nil => unfold go at h; split_ifs at h
  | cons a ts ih =>
    unfold go at h
    have up : ∀ {lm lu best}, go keys ts lm lu best = .type t → t ∈ a :: ts ∧ Takes t keys := fun h => ⟨List.mem_cons_of_mem _ (ih h).1, (ih h).2⟩
    cases hs : sig a with
    | none => simp only [hs] at h; exact up h
    | some s =>
      simp only [hs] at h
      split_ifs at h with h1 h2 h3 h4
      · exact up h
      · exact up h
      · exact up h
      · exact up h
      · injection h with h
        subst h
        refine ⟨List.mem_cons_self .., s, hs, missing_nil.1 ?_, unknown_nil.1 ?_⟩
        · exact List.eq_nil_of_length_eq_zero (by omega)
        · exact List.eq_nil_of_length_eq_zero (by omega)

theorem go_some {keys ts : List String} {lm lu : List (Option String)} {best : Option String} {t : String} (ht : t ∈ ts) (h : Takes t keys) :
    ∃ t', go keys ts lm lu best = .type t' := by
  induction ts generalizing lm lu best with
  | nil => simp at ht
  | cons a ts ih =>
    unfold go
    rcases List.mem_cons.1 ht with rfl | ht
    · obtain ⟨s, e, r, u⟩ := h
      simp only [e]
      rw [missing_nil.2 r, unknown_nil.2 u]
      exact ⟨t, by simp⟩
    · cases hs : sig a with
      | none => exact ih ht
      | some s =>
        simp only
        split_ifs
        · exact ih ht
        · exact ih ht
        · exact ih ht
        · exact ih ht
        · exact ⟨a, rfl⟩

/-- The type that is found is one of this kind of input, and its writer takes the dictionary. -/
theorem right {i : Inp} {keys : List String} {t : String} (h : find (types i) keys = .type t) : t ∈ types i ∧ Takes t keys := go_type h

/-- If the writer of a type takes the dictionary, this type is found. -/
theorem recognised {i : Inp} {t : String} (ht : t ∈ types i) {keys : List String} (h : Takes t keys) : find (types i) keys = .type t := by
  obtain ⟨t', e⟩ := go_some (lm := List.replicate 100 none) (lu := List.replicate 100 none) (best := none) ht h
  have := right (i := i) e
  rw [unique ht this.1 h this.2]
  exact e

/-! ### Default values -/

theorem fill_spec {s : Sig} {keys : List String} (l : List String) (hl : ∀ k ∈ l, k ∉ s.required) (i : ℕ) (hi : i + l.length ≤ s.defaults.length)
    (acc : List (String × Entry)) :
    ∃ out, fill s keys l i acc = some out ∧ ∀ x, x ∈ out ↔ x ∈ acc ∨ ∃ j d, l[j]? = some x.1 ∧ x.1 ∉ keys ∧ s.defaults[i + j]? = some d ∧ x.2 = .dflt d := by
  induction l generalizing i acc with
  | nil => exact ⟨acc, rfl, by simp⟩
  | cons k l ih =>
    have hk : s.required.contains k = false := by simpa using hl k (List.mem_cons_self ..)
    have hl' : ∀ k ∈ l, k ∉ s.required := fun k' h => hl k' (List.mem_cons_of_mem _ h)
    have hi' : i + 1 + l.length ≤ s.defaults.length := by simp only [List.length_cons] at hi; omega
    unfold fill
    rw [hk]
    simp only [Bool.false_eq_true, if_false]
    have shift : ∀ (x : String × Entry), (∃ j d, (k :: l)[j]? = some x.1 ∧ x.1 ∉ keys ∧ s.defaults[i + j]? = some d ∧ x.2 = .dflt d) ↔
        (x.1 = k ∧ k ∉ keys ∧ ∃ d, s.defaults[i]? = some d ∧ x.2 = .dflt d) ∨
          ∃ j d, l[j]? = some x.1 ∧ x.1 ∉ keys ∧ s.defaults[i + 1 + j]? = some d ∧ x.2 = .dflt d := by
      intro x
      constructor
      · rintro ⟨j, d, h1, h2, h3, h4⟩
        cases j with
        | zero =>
          simp only [List.getElem?_cons_zero, Option.some.injEq] at h1
          exact Or.inl ⟨h1.symm, h1 ▸ h2, d, h3, h4⟩
        | succ j =>
          simp only [List.getElem?_cons_succ] at h1
          exact Or.inr ⟨j, d, h1, h2, by rw [show i + 1 + j = i + (j + 1) by omega]; exact h3, h4⟩
      · rintro (⟨h1, h2, d, h3, h4⟩ | ⟨j, d, h1, h2, h3, h4⟩)
        · exact ⟨0, d, by simp [h1], h1 ▸ h2, h3, h4⟩
        · exact ⟨j + 1, d, by simpa using h1, h2, by rw [show i + (j + 1) = i + 1 + j by omega]; exact h3, h4⟩
    by_cases hm : keys.contains k = true
    · rw [if_pos hm]
      obtain ⟨out, e, p⟩ := ih hl' (i + 1) hi' acc
      refine ⟨out, e, fun x => ?_⟩
      rw [p, shift]
      have : k ∈ keys := by simpa using hm
      simp [this]
    · rw [if_neg hm]
      have hlt : i < s.defaults.length := by simp only [List.length_cons] at hi; omega
      rw [List.getElem?_eq_getElem hlt]
      simp only
      obtain ⟨out, e, p⟩ := ih hl' (i + 1) hi' (acc ++ [(k, .dflt s.defaults[i])])
      refine ⟨out, e, fun x => ?_⟩
      rw [p, shift]
      have hn : k ∉ keys := by simpa using hm
      simp only [List.mem_append, List.mem_singleton, List.getElem?_eq_getElem hlt, Option.some.injEq]
      constructor
      · rintro ((h | rfl) | h)
        · exact Or.inl h
        · exact Or.inr (Or.inl ⟨rfl, hn, _, rfl, rfl⟩)
        · exact Or.inr (Or.inr h)
      · rintro (h | ⟨h1, h2, d, rfl, h4⟩ | h)
        · exact Or.inl (Or.inl h)
        · exact Or.inl (Or.inr (Prod.ext h1 h4))
        · exact Or.inr h

theorem fill_skip {s : Sig} {keys : List String} (r l : List String) (hr : ∀ k ∈ r, k ∈ s.required) (i : ℕ) (acc : List (String × Entry)) :
    fill s keys (r ++ l) i acc = fill s keys l i acc := by
  induction r with
  | nil => rfl
  | cons k r ih =>
    rw [List.cons_append, fill, if_pos (by simpa using hr k (List.mem_cons_self ..))]
    exact ih fun k' h => hr k' (List.mem_cons_of_mem _ h)

/-- In the table no argument is listed twice, and each of those with a default value has one. -/
theorem proper (i : Inp) : ∀ t ∈ types i, (((sig t).getD ⟨[], [], []⟩).optional.all fun k => !((sig t).getD ⟨[], [], []⟩).required.contains k) = true ∧
    ((sig t).getD ⟨[], [], []⟩).optional.length ≤ ((sig t).getD ⟨[], [], []⟩).defaults.length := by cases i <;> decide +kernel

/-- The dictionary that is passed on has the entries the user gave, and for each argument with a default value that the user did not give this default value, and nothing else. -/
theorem completed {i : Inp} {t : String} (ht : t ∈ types i) {s : Sig} (hs : sig t = some s) (keys : List String) :
    ∃ out, complete s keys = some out ∧ ∀ k e, (k, e) ∈ out ↔ (k ∈ keys ∧ e = .given k) ∨
      (k ∉ keys ∧ ∃ (j : ℕ) (d : Dflt), s.optional[j]? = some k ∧ s.defaults[j]? = some d ∧ e = .dflt d) := by
  have := proper i t ht
  rw [hs] at this
  simp only [Option.getD_some, List.all_eq_true, Bool.not_eq_true', List.contains_eq_mem, decide_eq_false_iff_not] at this
  obtain ⟨out, e, p⟩ := fill_spec (s := s) (keys := keys) s.optional this.1 0 (by omega) (keys.map fun k => (k, .given k))
  refine ⟨out, ?_, fun k x => ?_⟩
  · unfold complete Sig.args
    rw [fill_skip s.required s.optional fun _ h => h]
    exact e
  · rw [p]
    simp only [List.mem_map, Prod.mk.injEq, Nat.zero_add]
    constructor
    · rintro (⟨a, ha, rfl, rfl⟩ | ⟨j, d, h1, h2, h3, h4⟩)
      · exact Or.inl ⟨ha, rfl⟩
      · exact Or.inr ⟨h2, j, d, h1, h3, h4⟩
    · rintro (⟨ha, rfl⟩ | ⟨h2, j, d, h1, h3, h4⟩)
      · exact Or.inl ⟨k, ha, rfl, rfl⟩
      · exact Or.inr ⟨j, d, h1, h2, h3, h4⟩

/-! ### The error message -/

/-- No writer has a hundred arguments without default value. -/
theorem few (i : Inp) : ∀ t ∈ types i, ((sig t).getD ⟨[], [], []⟩).required.length < 100 := by cases i <;> decide +kernel

theorem go_missing {keys ts all : List String} (hall : ∀ t ∈ ts, t ∈ all) {lm lu : List (Option String)} {best : Option String} {ps : List (Option String)}
    {b : Option String} (h : go keys ts lm lu best = .missing b ps)
    (few : ∀ t ∈ all, ∃ s, sig t = some s ∧ s.required.length < 100)
    (seen : List String) (hseen : ∀ t ∈ seen, ∀ s, sig t = some s → lm.length ≤ (s.missing keys).length)
    (hlm : lm = [] ∨ (seen = [] ∧ lm.length = 100) ∨ ∃ t ∈ all, ∃ s, best = some t ∧ sig t = some s ∧ lm = (s.missing keys).map some) (hne : seen ≠ [] ∨ ts ≠ []) :
    ∃ t ∈ all, ∃ s, b = some t ∧ sig t = some s ∧ ps = (s.missing keys).map some ∧ 0 < ps.length ∧
      ∀ t', (t' ∈ seen ∨ t' ∈ ts) → ∀ s', sig t' = some s' → ps.length ≤ (s'.missing keys).length := by
  induction ts generalizing lm lu best seen with
  | nil =>
    unfold go at h
    split_ifs at h with hl
    injection h with h1 h2
    subst h1; subst h2
    rcases hlm with rfl | ⟨e, -⟩ | ⟨t, ht, s, e1, e2, e3⟩
    · simp at hl
    · simp [e] at hne
    · exact ⟨t, ht, s, e1, e2, e3, hl, fun t' ht' s' hs' => hseen t' (by simpa using ht') s' hs'⟩
  | cons a ts ih =>
    obtain ⟨s, hs, hlt⟩ := few a (hall a (List.mem_cons_self ..))
    have hall' : ∀ t ∈ ts, t ∈ all := fun t ht => hall t (List.mem_cons_of_mem _ ht)
    have hml : (s.missing keys).length < 100 := Nat.lt_of_le_of_lt (List.length_filter_le ..) hlt
    have fin : ∀ {P : Prop}, (∃ t ∈ all, ∃ s, b = some t ∧ sig t = some s ∧ ps = (s.missing keys).map some ∧ 0 < ps.length ∧
        ∀ t', (t' ∈ a :: seen ∨ t' ∈ ts) → ∀ s', sig t' = some s' → ps.length ≤ (s'.missing keys).length) →
      ∃ t ∈ all, ∃ s, b = some t ∧ sig t = some s ∧ ps = (s.missing keys).map some ∧ 0 < ps.length ∧
        ∀ t', (t' ∈ seen ∨ t' ∈ a :: ts) → ∀ s', sig t' = some s' → ps.length ≤ (s'.missing keys).length := by
      rintro - ⟨t, ht, s, e1, e2, e3, e4, e5⟩
      refine ⟨t, ht, s, e1, e2, e3, e4, fun t' ht' => e5 t' ?_⟩
      simp only [List.mem_cons] at ht' ⊢
      tauto
    unfold go at h
    simp only [hs] at h
    split_ifs at h with h1 h2 h3 h4
    · refine fin (P := True) (ih hall' h (a :: seen) ?_ (Or.inr (Or.inr ⟨a, hall a (List.mem_cons_self ..), s, rfl, hs, rfl⟩)) (by simp))
      intro t ht s' hs'
      rcases List.mem_cons.1 ht with rfl | ht
      · rw [hs] at hs'; injection hs' with e; subst e; simp
      · have := hseen t ht s' hs'
        simp only [List.length_map]; omega
    · refine fin (P := True) (ih hall' h (a :: seen) ?_ ?_ (by simp))
      · intro t ht s' hs'
        rcases List.mem_cons.1 ht with rfl | ht
        · rw [hs] at hs'; injection hs' with e; subst e; omega
        · exact hseen t ht s' hs'
      · rcases hlm with e | ⟨-, e⟩ | e
        · exact Or.inl e
        · omega
        · exact Or.inr (Or.inr e)
    · exact fin (P := True) (ih hall' h (a :: seen) (by simp) (Or.inl rfl) (by simp))
    · exact fin (P := True) (ih hall' h (a :: seen) (by simp) (Or.inl rfl) (by simp))

/-- If the message says that parameters are missing: they are exactly those that the writer of the type in the message needs and that were not given, and no other type needs fewer. -/
theorem message_missing {i : Inp} {keys : List String} {b : Option String} {ps : List (Option String)} (h : find (types i) keys = .missing b ps) :
    ∃ t ∈ types i, ∃ s, b = some t ∧ sig t = some s ∧ ps = (s.required.filter fun k => !keys.contains k).map some ∧ 0 < ps.length ∧
      ∀ t' ∈ types i, ∀ s', sig t' = some s' → ps.length ≤ (s'.required.filter fun k => !keys.contains k).length := by
  obtain ⟨t, ht, s, e1, e2, e3, e4, e5⟩ := go_missing (all := types i) (fun _ h => h) h (fun t ht => by
      obtain ⟨s, hs⟩ := Option.isSome_iff_exists.1 (known i t ht)
      have := few i t ht
      rw [hs] at this
      exact ⟨s, hs, this⟩) [] (by simp) (Or.inr (Or.inl ⟨rfl, by simp⟩)) (Or.inr (by cases i <;> simp [types]))
  exact ⟨t, ht, s, e1, e2, e3, e4, fun t' ht' => e5 t' (Or.inr ht')⟩

/-- If it says that parameters are unknown they may not be unknown to the type in the message: here it says that the best match is wall_3D and that x1x2x3, y1y2y3 and z1z2z3 are unknown. -/
theorem message_violation :
    find (types .wall) ["nelements", "r", "z", "flagIdList", "flagIdStrings", "x1x2x3", "y1y2y3", "z1z2z3"] =
      .unknown (some "wall_3D") [some "x1x2x3", some "y1y2y3", some "z1z2z3"] := by decide +kernel

/-! ### Types that cannot be given as dictionaries -/

/-- Dictionaries that the writer of time-dependent magnetic fields takes are refused. -/
theorem time_dependent_violation {keys : List String} (h : Takes "B_3DST" keys) : ∀ t, find (types .bfield) keys ≠ .type t := by
  intro t ht
  obtain ⟨hm, s', e', r', a'⟩ := right ht
  obtain ⟨s, e, r, a⟩ := h
  have key : ∀ t ∈ types .bfield, ((sig "B_3DST").getD ⟨[], [], []⟩).required.any (fun k => !((sig t).getD ⟨[], [], []⟩).args.contains k) = true := by decide +kernel
  have := key t hm
  rw [e, e'] at this
  simp only [Option.getD_some, List.any_eq_true, Bool.not_eq_true', List.contains_eq_mem, decide_eq_false_iff_not, Sig.args, List.mem_append] at this
  obtain ⟨k, hk, hn⟩ := this
  exact hn (a' k (r k hk))

/-- Injectors: however deep calls may be nested, the call ends with an exception, whatever the dictionary. -/
theorem injectors_violation (depth : ℕ) (keys : List String) : provideNbi depth keys = none := by
  induction depth with
  | zero => rfl
  | succ n ih =>
    unfold provideNbi
    split
    · rename_i t ht
      have : t = "nbi" := by simpa [types] using (right (i := .nbi) ht).1
      subst this
      rw [if_pos (by decide)]; exact ih
    · rfl

/-! ### The hypotheses can be met -/

/-- The writer of the axisymmetric field takes the dictionary of an axisymmetric field, the writer of the linear field one without the optional entries. -/
example : Takes "B_2DS" ["rmin", "rmax", "nr", "zmin", "zmax", "nz", "axisr", "axisz", "psi", "psi0", "psi1", "br", "bphi", "bz"] ∧
    Takes "B_TC" ["jacobian", "bxyz", "rhoval", "axisz"] ∧ "B_TC" ∈ types .bfield :=
  ⟨⟨_, rfl, by simp, by simp⟩, ⟨_, rfl, by simp, by simp⟩, by simp [types]⟩

/-- With nothing but the field vector given, the message is that two parameters of B_TC are missing. -/
example : find (types .bfield) ["bxyz"] = .missing (some "B_TC") [some "jacobian", some "rhoval"] := by decide +kernel

/-- A time-dependent field. -/
example : Takes "B_3DST" ((sig "B_3DST").getD ⟨[], [], []⟩).required := ⟨_, rfl, fun _ h => h, fun _ h => Or.inl h⟩

end Ascot.C147
