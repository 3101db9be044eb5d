import Verif.Model.RunFile
import Mathlib.Tactic.Tauto
import Mathlib.Data.List.Basic

/-!
# C128: the input that is used is the one that was asked for, and it is recorded

For every kind of input a program needs, it reads the group named by the argument, or the active one
if there is no such argument (`chosen`); it fails exactly if one of them cannot be read
(`reads_iff`).  The QIDs stored with the results are those of the inputs that were read, no more and
no less (`recorded`), and `ascot5_main` called again with these QIDs as arguments reads the same
data, whatever has become active since (`again`).  With `bbnbi5` this is not so for neutral gas,
atomic data and options, for which there is no argument (`bbnbi_again_violation`).
-/
set_option linter.unusedSectionVars false
set_option linter.unusedSimpArgs false
namespace Ascot.C128
open Ascot.RunFile
open Ascot.Options (Res)
variable {D : Type}

/-- The QID a user has asked for: the one given, and if none is given, the active one. -/
def Asked (f : InFile D) (q : Qids) (t : Inp) (a : String) : Prop :=
  (f.parent t).isSome ∧ if q t = "" then f.parent t = some (some a) else a = q t

/-- No QID overruns the array of eleven characters. -/
def Fits (f : InFile D) (q : Qids) : Prop :=
  (∀ t, (q t).length ≤ 10) ∧ ∀ t a, f.parent t = some (some a) → a.length = 10

theorem select_ok {f : InFile D} {q : Qids} {t : Inp} {a : String} (h : select f q t = .ok a) :
    Asked f q t a ∧ a ≠ "" ∧ a.length ≤ 10 := by
  unfold select at h
  cases hp : f.parent t with
  | none => simp [hp] at h
  | some act =>
    simp only [hp] at h
    by_cases hq : q t = ""
    · simp only [hq, ne_eq, not_true_eq_false, if_false] at h
      cases act with
      | none => simp at h
      | some b =>
        by_cases hb : b.length = 10
        · simp only [hb, if_true, Res.ok.injEq] at h
          subst h
          refine ⟨⟨by simp [hp], by simp [hq, hp]⟩, ?_, by omega⟩
          rintro rfl; simp at hb
        · simp [hb] at h
    · simp only [ne_eq, hq, not_false_eq_true, if_true] at h
      by_cases hl : (q t).length ≤ 10
      · simp only [hl, if_true, Res.ok.injEq] at h
        subst h
        exact ⟨⟨by simp [hp], by simp [hq]⟩, hq, hl⟩
      · simp [hl] at h

theorem select_of_asked {f : InFile D} {q : Qids} {t : Inp} {a : String} (hf : Fits f q)
    (h : Asked f q t a) : select f q t = .ok a := by
  obtain ⟨hp, hc⟩ := h
  obtain ⟨act, ha⟩ := Option.isSome_iff_exists.mp hp
  unfold select
  by_cases hq : q t = ""
  · rw [if_pos hq] at hc
    simp [hc, hq, hf.2 t a hc]
  · rw [if_neg hq] at hc
    subst hc
    simp [ha, hq, hf.1 t]

theorem select_ne_ub {f : InFile D} {q : Qids} {t : Inp} (hf : Fits f q) : select f q t ≠ .ub := by
  unfold select
  cases hp : f.parent t with
  | none => simp
  | some act =>
    by_cases hq : q t = ""
    · cases act with
      | none => simp [hq]
      | some b => simp [hq, hf.2 t b hp]
    · simp [hq, hf.1 t]

theorem select_congr {f : InFile D} {q q' : Qids} {t : Inp} (h : q t = q' t) :
    select f q t = select f q' t := by
  unfold select; rw [h]

/-- What one pass through a list of kinds does. -/
theorem readList_ok {f : InFile D} {flags : Inp → Bool} : ∀ {l : List Inp} {r r' : Read D},
    l.Nodup → readList f flags l r = .ok r' →
    (∀ t ∈ l, flags t = true → ∃ a d, select f r.qids t = .ok a ∧ f.load t a = some d ∧
      r'.qids t = a ∧ r'.data t = some d) ∧
    (∀ t, ¬ (t ∈ l ∧ flags t = true) → r'.qids t = r.qids t ∧ r'.data t = r.data t) := by
  intro l
  induction l with
  | nil =>
    intro r r' _ h
    simp only [readList, Res.ok.injEq] at h
    subst h
    exact ⟨by simp, fun _ _ => ⟨rfl, rfl⟩⟩
  | cons s ts ih =>
    intro r r' hn h
    obtain ⟨hs, hts⟩ := List.nodup_cons.mp hn
    by_cases hfs : flags s = true
    · simp only [readList, hfs, if_true] at h
      cases h1 : readOne f r s with
      | fail => simp [h1] at h
      | ub => simp [h1] at h
      | ok r1 =>
        simp only [h1] at h
        have hr1 : ∃ a d, select f r.qids s = .ok a ∧ f.load s a = some d ∧
            r1 = ⟨Function.update r.qids s a, Function.update r.data s (some d)⟩ := by
          unfold readOne at h1
          cases hsel : select f r.qids s with
          | fail => simp [hsel] at h1
          | ub => simp [hsel] at h1
          | ok a =>
            simp only [hsel] at h1
            cases hl : f.load s a with
            | none => simp [hl] at h1
            | some d =>
              simp only [hl, Res.ok.injEq] at h1
              exact ⟨a, d, rfl, hl, h1.symm⟩
        obtain ⟨a, d, hsel, hload, rfl⟩ := hr1
        obtain ⟨i1, i2⟩ := ih hts h
        constructor
        · intro t ht hft
          rcases List.mem_cons.mp ht with rfl | ht'
          · obtain ⟨e1, e2⟩ := i2 t (fun hc => hs hc.1)
            exact ⟨a, d, hsel, hload, by simp [e1], by simp [e2]⟩
          · obtain ⟨a', d', c1, c2, c3, c4⟩ := i1 t ht' hft
            have hne : t ≠ s := fun e => hs (e ▸ ht')
            refine ⟨a', d', ?_, c2, c3, c4⟩
            rw [← c1]
            exact select_congr (by simp [Function.update_of_ne hne])
        · intro t ht
          have hne : t ≠ s := fun e => ht ⟨by simp [e], by rw [e]; exact hfs⟩
          obtain ⟨e1, e2⟩ := i2 t (fun hc => ht ⟨List.mem_cons_of_mem _ hc.1, hc.2⟩)
          simp only [Function.update_of_ne hne] at e1 e2
          exact ⟨e1, e2⟩
    · simp only [readList, hfs] at h
      obtain ⟨i1, i2⟩ := ih hts h
      constructor
      · intro t ht hft
        rcases List.mem_cons.mp ht with rfl | ht'
        · exact absurd hft hfs
        · exact i1 t ht' hft
      · intro t ht
        exact i2 t (fun hc => ht ⟨List.mem_cons_of_mem _ hc.1, hc.2⟩)

theorem readList_total {f : InFile D} {flags : Inp → Bool} : ∀ {l : List Inp} {r : Read D},
    l.Nodup → (∀ t ∈ l, flags t = true → ∃ a d, select f r.qids t = .ok a ∧ f.load t a = some d) →
    ∃ r', readList f flags l r = .ok r' := by
  intro l
  induction l with
  | nil => intro r _ _; exact ⟨r, rfl⟩
  | cons s ts ih =>
    intro r hn h
    obtain ⟨hs, hts⟩ := List.nodup_cons.mp hn
    by_cases hfs : flags s = true
    · obtain ⟨a, d, hsel, hload⟩ := h s (by simp) hfs
      simp only [readList, hfs, if_true, readOne, hsel, hload]
      refine ih hts fun t ht hft => ?_
      obtain ⟨a', d', c1, c2⟩ := h t (List.mem_cons_of_mem _ ht) hft
      have hne : t ≠ s := fun e => hs (e ▸ ht)
      refine ⟨a', d', ?_, c2⟩
      rw [← c1]
      exact select_congr (by simp [Function.update_of_ne hne])
    · simp only [readList, hfs]
      exact ih hts fun t ht hft => h t (List.mem_cons_of_mem _ ht) hft

theorem readList_ne_ub {f : InFile D} {flags : Inp → Bool} : ∀ {l : List Inp} {r : Read D},
    l.Nodup → (∀ t ∈ l, select f r.qids t ≠ .ub) → readList f flags l r ≠ .ub := by
  intro l
  induction l with
  | nil => intro r _ _; simp [readList]
  | cons s ts ih =>
    intro r hn h
    obtain ⟨hs, hts⟩ := List.nodup_cons.mp hn
    by_cases hfs : flags s = true
    · simp only [readList, hfs, if_true, readOne]
      cases hsel : select f r.qids s with
      | fail => simp
      | ub => exact absurd hsel (h s (by simp))
      | ok a =>
        cases hl : f.load s a with
        | none => simp [hl]
        | some d =>
          simp only [hl]
          refine ih hts fun t ht => ?_
          have hne : t ≠ s := fun e => hs (e ▸ ht)
          rw [select_congr (q' := r.qids) (by simp [Function.update_of_ne hne])]
          exact h t (List.mem_cons_of_mem _ ht)
    · simp only [readList, hfs]
      exact ih hts fun t ht => h t (List.mem_cons_of_mem _ ht)

theorem order_nodup : readOrder.Nodup := by decide

theorem order_all (t : Inp) : t ∈ readOrder := by cases t <;> decide

/-- Each input that is needed is read from the group that was asked for, and the QID of this group is
kept; nothing else is read, and the QIDs of the other kinds are as they were. -/
theorem chosen {f : InFile D} {flags : Inp → Bool} {q : Qids} {r : Read D}
    (h : readInput f flags q = .ok r) (t : Inp) :
    (flags t = true → ∃ a d, Asked f q t a ∧ a ≠ "" ∧ f.load t a = some d ∧ r.qids t = a ∧
      r.data t = some d) ∧
    (flags t = false → r.qids t = q t ∧ r.data t = none) := by
  obtain ⟨h1, h2⟩ := readList_ok order_nodup h
  constructor
  · intro hf
    obtain ⟨a, d, c1, c2, c3, c4⟩ := h1 t (order_all t) hf
    obtain ⟨e1, e2, -⟩ := select_ok c1
    exact ⟨a, d, e1, e2, c2, c3, c4⟩
  · intro hf
    exact h2 t (fun hc => by simp [hf] at hc)

/-- Reading succeeds exactly if every input that is needed was asked for and can be read, and nothing
undefined happens. -/
theorem reads_iff {f : InFile D} {flags : Inp → Bool} {q : Qids} (hf : Fits f q) :
    readInput f flags q ≠ .ub ∧
    ((∃ r, readInput f flags q = .ok r) ↔
      ∀ t, flags t = true → ∃ a, Asked f q t a ∧ (f.load t a).isSome) := by
  refine ⟨readList_ne_ub order_nodup fun t _ => select_ne_ub hf, ?_, ?_⟩
  · rintro ⟨r, hr⟩ t ht
    obtain ⟨a, d, c1, -, c2, -⟩ := (chosen hr t).1 ht
    exact ⟨a, c1, by simp [c2]⟩
  · intro h
    refine readList_total order_nodup fun t _ ht => ?_
    obtain ⟨a, c1, c2⟩ := h t ht
    obtain ⟨d, hd⟩ := Option.isSome_iff_exists.mp c2
    exact ⟨a, d, select_of_asked hf c1, hd⟩

/-! ## What is recorded -/

theorem record_aux (q : Qids) (t : Inp) : ∀ (l : List Inp) (a : String → Option String),
    l.foldl (fun a t => if q t ≠ "" then setAttr a (attrName t) (q t) else a) a (attrName t) =
      if t ∈ l ∧ q t ≠ "" then some (q t) else a (attrName t) := by
  intro l
  induction l with
  | nil => intro a; simp
  | cons s ts ih =>
    intro a
    rw [List.foldl_cons, ih]
    by_cases hs : t = s
    · subst hs
      by_cases hq : q t = ""
      · simp [hq]
      · simp [hq, setAttr]
    · have hne : attrName t ≠ attrName s := by
        revert hs; cases t <;> cases s <;> simp [attrName, Inp.name]
      have : (if q s ≠ "" then setAttr a (attrName s) (q s) else a) (attrName t) =
          a (attrName t) := by
        by_cases hq : q s = ""
        · simp [hq]
        · simp [hq, setAttr, hne]
      rw [this]
      simp [hs]

theorem record_all (t : Inp) : t ∈ recordOrder := by cases t <;> decide

theorem attrs_eq (q : Qids) (t : Inp) (d1 d2 d3 d4 d5 : String) :
    runAttrs q d1 d2 d3 d4 d5 (attrName t) = if q t = "" then none else some (q t) := by
  have : runAttrs q d1 d2 d3 d4 d5 (attrName t) = recordQids q (fun _ => none) (attrName t) := by
    cases t <;> simp [runAttrs, setAttr, attrName, Inp.name]
  rw [this, recordQids, record_aux]
  by_cases hq : q t = "" <;> simp [hq, record_all]

/-- Arguments only name inputs that the program reads. -/
theorem args_flags (p : Prog) (t : Inp) (h : p.args t = true) : p.flags t = true := by
  cases p <;> cases t <;> revert h <;> decide

/-- The value given last. -/
def given (l : List (Inp × String)) (t : Inp) : String := (l.reverse.lookup t).getD ""

theorem readArgs_aux (p : Prog) : ∀ (l : List (Inp × String)) (q0 q : Qids),
    readArgs p l q0 = .ok q →
    (∀ x ∈ l, p.args x.1 = true) ∧ ∀ t, q t = (l.reverse.lookup t).getD (q0 t) := by
  intro l
  induction l with
  | nil =>
    intro q0 q h
    simp only [readArgs, Res.ok.injEq] at h
    subst h; simp
  | cons x ts ih =>
    obtain ⟨s, v⟩ := x
    intro q0 q h
    by_cases ha : p.args s = true
    · simp only [readArgs, ha, if_true] at h
      obtain ⟨h1, h2⟩ := ih _ _ h
      refine ⟨?_, fun t => ?_⟩
      · intro y hy
        rcases List.mem_cons.mp hy with rfl | hy'
        · exact ha
        · exact h1 y hy'
      · rw [h2, List.reverse_cons, List.lookup_append]
        by_cases hs : t = s
        · subst hs
          cases (List.lookup t ts.reverse) <;> simp [List.lookup]
        · have : (t == s) = false := by simp [hs]
          cases (List.lookup t ts.reverse) <;> simp [List.lookup, Function.update_of_ne hs, this]
    · simp [readArgs, ha] at h

/-- The arguments as the user wrote them. -/
theorem args_given {p : Prog} {l : List (Inp × String)} {q : Qids}
    (h : readArgs p l (fun _ => "") = .ok q) (t : Inp) : q t = given l t := by
  have := (readArgs_aux p l _ _ h).2 t
  exact this

theorem args_empty {p : Prog} {l : List (Inp × String)} {q : Qids}
    (h : readArgs p l (fun _ => "") = .ok q) (t : Inp) (ht : p.flags t = false) : q t = "" := by
  rw [args_given h]
  have h1 := (readArgs_aux p l _ _ h).1
  have : l.reverse.lookup t = none := by
    rw [List.lookup_eq_none_iff]
    intro x hx
    have hx' := args_flags p x.1 (h1 x (List.mem_reverse.mp hx))
    rw [bne_iff_ne]
    rintro rfl
    simp [ht] at hx'
  simp [given, this]

/-- The attribute of an input is stored with a run exactly if the program has read such an input, and it
is the QID of the group that was read: the one given as an argument or else the active one. -/
theorem recorded {p : Prog} {l : List (Inp × String)} {q : Qids} {f : InFile D} {r : Read D}
    (ha : readArgs p l (fun _ => "") = .ok q) (hr : readInput f p.flags q = .ok r)
    (t : Inp) (d1 d2 d3 d4 d5 : String) :
    (p.flags t = true → ∃ a d, runAttrs r.qids d1 d2 d3 d4 d5 (attrName t) = some a ∧
      Asked f (given l) t a ∧ f.load t a = some d ∧ r.data t = some d) ∧
    (p.flags t = false → runAttrs r.qids d1 d2 d3 d4 d5 (attrName t) = none ∧
      r.data t = none) := by
  have hg : q = given l := funext fun t => args_given ha t
  constructor
  · intro hf
    obtain ⟨a, d, c1, c2, c3, c4, c5⟩ := (chosen hr t).1 hf
    refine ⟨a, d, ?_, hg ▸ c1, c3, c5⟩
    rw [attrs_eq, c4, if_neg c2]
  · intro hf
    obtain ⟨c1, c2⟩ := (chosen hr t).2 hf
    refine ⟨?_, c2⟩
    rw [attrs_eq, c1, args_empty ha t hf, if_pos rfl]

/-! ## Running again -/

/-- The arguments that repeat a run, taken from its attributes. -/
def repeatArgs (p : Prog) (attrs : String → Option String) : List (Inp × String) :=
  (readOrder.filter fun t => p.args t).map fun t => (t, (attrs (attrName t)).getD "")

/-- The arguments of `repeatArgs` are accepted, and name for each kind what is in the attributes. -/
theorem repeat_args (p : Prog) (attrs : String → Option String) :
    ∃ q, readArgs p (repeatArgs p attrs) (fun _ => "") = .ok q ∧
      ∀ t, p.args t = true → q t = (attrs (attrName t)).getD "" := by
  have key : ∀ (l : List Inp) (q0 : Qids), l.Nodup → (∀ t ∈ l, p.args t = true) →
      ∃ q, readArgs p (l.map fun t => (t, (attrs (attrName t)).getD "")) q0 = .ok q ∧
        (∀ t ∈ l, q t = (attrs (attrName t)).getD "") ∧ ∀ t, t ∉ l → q t = q0 t := by
    intro l
    induction l with
    | nil => intro q0 _ _; exact ⟨q0, rfl, by simp, fun _ _ => rfl⟩
    | cons s ts ih =>
      intro q0 hn h
      obtain ⟨hs, hts⟩ := List.nodup_cons.mp hn
      obtain ⟨q, e1, e2, e3⟩ := ih (Function.update q0 s ((attrs (attrName s)).getD "")) hts
        (fun t ht => h t (List.mem_cons_of_mem _ ht))
      refine ⟨q, ?_, ?_, ?_⟩
      · simpa [readArgs, h s (by simp)] using e1
      · intro t ht
        rcases List.mem_cons.mp ht with rfl | ht'
        · rw [e3 t hs]; simp
        · exact e2 t ht'
      · intro t ht
        simp only [List.mem_cons, not_or] at ht
        rw [e3 t ht.2, Function.update_of_ne ht.1]
  obtain ⟨q, e1, e2, -⟩ := key (readOrder.filter fun t => p.args t) (fun _ => "")
    (order_nodup.filter _) (fun t ht => (List.mem_filter.mp ht).2)
  exact ⟨q, e1, fun t ht => e2 t (List.mem_filter.mpr ⟨order_all t, ht⟩)⟩

/-- `ascot5_main` with the recorded QIDs as arguments reads the same data again, from a file in which
other inputs may have been made active and others may have been added. -/
theorem again {l : List (Inp × String)} {q : Qids} {f f' : InFile D} {r : Read D}
    (ha : readArgs .ascot5 l (fun _ => "") = .ok q) (hr : readInput f Prog.ascot5.flags q = .ok r)
    (hp : ∀ t, (f.parent t).isSome → (f'.parent t).isSome)
    (hl : ∀ t a d, f.load t a = some d → f'.load t a = some d)
    (d1 d2 d3 d4 d5 : String) :
    ∃ q' r', readArgs .ascot5 (repeatArgs .ascot5 (runAttrs r.qids d1 d2 d3 d4 d5)) (fun _ => "") =
        .ok q' ∧ readInput f' Prog.ascot5.flags q' = .ok r' ∧ r'.data = r.data ∧
      ∀ t, runAttrs r'.qids d1 d2 d3 d4 d5 (attrName t) =
        runAttrs r.qids d1 d2 d3 d4 d5 (attrName t) := by
  obtain ⟨q', e1, e2⟩ := repeat_args .ascot5 (runAttrs r.qids d1 d2 d3 d4 d5)
  have hsame : ∀ t, Prog.ascot5.args t = Prog.ascot5.flags t := by
    intro t; cases t <;> decide
  have hq : ∀ t, Prog.ascot5.flags t = true → q' t = r.qids t := by
    intro t ht
    rw [e2 t (by rw [hsame]; exact ht), attrs_eq]
    obtain ⟨a, d, -, c2, -, c4, -⟩ := (chosen hr t).1 ht
    rw [c4, if_neg c2]; rfl
  have hlen : ∀ t, Prog.ascot5.flags t = true → (r.qids t).length ≤ 10 := by
    intro t ht
    obtain ⟨h1, -⟩ := readList_ok order_nodup hr
    obtain ⟨a, d, c1, c2, c3, c4⟩ := h1 t (order_all t) ht
    rw [c3]; exact (select_ok c1).2.2
  have hsel : ∀ t, Prog.ascot5.flags t = true → select f' q' t = .ok (r.qids t) := by
    intro t ht
    obtain ⟨a, d, c1, c2, -, c4, -⟩ := (chosen hr t).1 ht
    obtain ⟨act, hact⟩ := Option.isSome_iff_exists.mp (hp t c1.1)
    have hne : r.qids t ≠ "" := by rw [c4]; exact c2
    simp [select, hact, hq t ht, hne, hlen t ht]
  obtain ⟨r', hr'⟩ : ∃ r', readInput f' Prog.ascot5.flags q' = .ok r' := by
    refine readList_total order_nodup fun t _ ht => ?_
    obtain ⟨a, d, -, -, c3, c4, -⟩ := (chosen hr t).1 ht
    exact ⟨r.qids t, d, hsel t ht, hl t _ d (by rw [c4]; exact c3)⟩
  have h1 : ∀ t, Prog.ascot5.flags t = true → r'.qids t = r.qids t ∧ r'.data t = r.data t := by
    intro t ht
    obtain ⟨h1, -⟩ := readList_ok order_nodup hr'
    obtain ⟨a', d', c1, c2, c3, c4⟩ := h1 t (order_all t) ht
    have : a' = r.qids t := by
      have h2 := hsel t ht
      simp only [c1, Res.ok.injEq] at h2
      exact h2
    subst this
    obtain ⟨a, d, -, -, k3, k4, k5⟩ := (chosen hr t).1 ht
    refine ⟨c3, ?_⟩
    have := hl t a d k3
    rw [← k4, c2] at this
    rw [c4, k5]
    exact this
  have h0 : ∀ t, Prog.ascot5.flags t = false → r'.data t = none ∧ r.data t = none := fun t ht =>
    ⟨((chosen hr' t).2 ht).2, ((chosen hr t).2 ht).2⟩
  refine ⟨q', r', e1, hr', ?_, ?_⟩
  · funext t
    cases ht : Prog.ascot5.flags t with
    | true => exact (h1 t ht).2
    | false => rw [(h0 t ht).1, (h0 t ht).2]
  · intro t
    cases ht : Prog.ascot5.flags t with
    | true => rw [attrs_eq, attrs_eq, (h1 t ht).1]
    | false =>
      rw [attrs_eq, attrs_eq, ((chosen hr' t).2 ht).1, ((chosen hr t).2 ht).1,
        args_empty ha t ht, args_empty e1 t ht]

/-- A file in which every kind of input has two groups, the active one with the given QID. -/
def twoGroups (act : String) : InFile ℕ where
  parent := fun _ => some (some act)
  load := fun _ a => if a = "0000000001" then some 1 else if a = "0000000002" then some 2 else none

/-- A run of `bbnbi5` cannot be repeated once other neutral gas data has become active: no arguments
lead to the same data. -/
theorem bbnbi_again_violation :
    ∃ (f f' : InFile ℕ) (q : Qids) (r : Read ℕ), readInput f Prog.bbnbi5.flags q = .ok r ∧
      f'.load = f.load ∧ (∀ t, (f'.parent t).isSome) ∧
      ∀ l q' r', readArgs .bbnbi5 l (fun _ => "") = .ok q' →
        readInput f' Prog.bbnbi5.flags q' = .ok r' → r'.data .neutral ≠ r.data .neutral := by
  obtain ⟨r, hr⟩ : ∃ r, readInput (twoGroups "0000000001") Prog.bbnbi5.flags (fun _ => "") =
      .ok r := by
    refine readList_total order_nodup fun t _ _ => ⟨"0000000001", 1, ?_, rfl⟩
    rfl
  refine ⟨twoGroups "0000000001", twoGroups "0000000002", fun _ => "", r, hr, rfl,
    fun _ => rfl, ?_⟩
  intro l q' r' ha hr'
  have hq' : q' .neutral = "" := by
    rw [args_given ha]
    have h1 := (readArgs_aux _ l _ _ ha).1
    have : l.reverse.lookup .neutral = none := by
      rw [List.lookup_eq_none_iff]
      intro x hx
      have hx' := h1 x (List.mem_reverse.mp hx)
      rw [bne_iff_ne]
      intro e
      rw [← e] at hx'
      revert hx'; decide
    simp [given, this]
  obtain ⟨a, d, c1, -, c3, -, c5⟩ := (chosen hr .neutral).1 (by decide)
  obtain ⟨a', d', k1, -, k3, -, k5⟩ := (chosen hr' .neutral).1 (by decide)
  simp only [Asked, twoGroups, hq', if_true, Option.some.injEq] at c1 k1
  rw [← c1.2] at c3
  rw [← k1.2] at k3
  simp [twoGroups] at c3 k3
  rw [c5, k5, ← c3, ← k3]
  decide

/-- The hypotheses can be met: all inputs are active, and one is named in an argument. -/
example : ∃ q r, readArgs .ascot5 [(.bfield, "0000000002")] (fun _ => "") = .ok q ∧
    readInput (twoGroups "0000000001") Prog.ascot5.flags q = .ok r ∧
    r.data .bfield = some 2 ∧ r.data .plasma = some 1 ∧ r.data .nbi = none ∧
    Fits (twoGroups "0000000001") q := by
  refine ⟨Function.update (fun _ => "") .bfield "0000000002", _, rfl, rfl, ?_, ?_, ?_, ?_, ?_⟩
  · rfl
  · rfl
  · rfl
  · intro t; by_cases h : t = .bfield
    · subst h; simp; decide
    · simp [Function.update_of_ne h]
  · intro t a h
    simp only [twoGroups, Option.some.injEq] at h
    subst h; decide

end Ascot.C128
