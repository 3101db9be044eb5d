import Verif.Model.Species
import Mathlib.Tactic.NormNum

/-!
# C181: species are found by name and by numbers, and the two ways agree
-/
set_option linter.unusedSectionVars false
set_option linter.unusedSimpArgs false

namespace Ascot.C181
open Ascot.Species

/-! ## Specification -/

/-- The names that are taken, with mass number and atomic number of what they mean. -/
def names : List (String × ℤ × ℤ) :=
  [("e", 0, 0), ("electron", 0, 0), ("n", 1, 0), ("neutron", 1, 0), ("H", 1, 1), ("p", 1, 1), ("proton", 1, 1),
   ("H1", 1, 1), ("D", 2, 1), ("deuterium", 2, 1), ("H2", 2, 1), ("T", 3, 1), ("tritium", 3, 1), ("H3", 3, 1),
   ("He3", 3, 2), ("helion", 3, 2), ("He4", 4, 2), ("alpha", 4, 2), ("Be9", 9, 4), ("C12", 12, 6), ("Ne20", 20, 10),
   ("Ar40", 40, 18), ("Ni59", 59, 28), ("Xe132", 132, 54), ("W184", 184, 74)]

/-- Symbols of the elements from helium on, with their atomic numbers. -/
def symbols : List (ℤ × String) :=
  [(2, "He"), (3, "Li"), (4, "Be"), (5, "B"), (6, "C"), (7, "N"), (8, "O"), (10, "Ne"), (18, "Ar"), (28, "Ni"), (50, "Sn"),
   (54, "Xe"), (74, "W")]

/-- Data that suit a nucleus (or the electron) without bound electrons: its charge unless another one is given, and a mass
within a tenth of an atomic mass unit of the mass number. -/
def Suits (a z : ℤ) (charge : Option ℤ) (d : Data) : Prop :=
  d.anum = a ∧ d.znum = z ∧ d.charge = charge.getD (if a = 0 then -1 else z) ∧
    |d.mass - 10000000 * a| ≤ 1000000 ∧ 0 < d.mass

/-! ## By name -/

theorem search_ok (name : String) (bs : List (List String × String)) (opts : List String) (k : String)
    (h : search name bs opts = .ok k) : ∃ b ∈ bs, name ∈ b.1 ∧ b.2 = k := by
  induction bs generalizing opts with
  | nil => cases h
  | cons b t ih =>
    obtain ⟨a, k'⟩ := b
    unfold search at h
    by_cases hn : name ∈ a
    · rw [if_pos hn] at h
      cases h
      exact ⟨(a, k), by simp, hn, rfl⟩
    · rw [if_neg hn] at h
      obtain ⟨b, hb, hr⟩ := ih _ h
      exact ⟨b, List.mem_cons_of_mem _ hb, hr⟩

theorem search_unknown (name : String) (bs : List (List String × String)) (opts : List String)
    (h : ∀ b ∈ bs, name ∉ b.1) : search name bs opts = .unknown (opts ++ bs.flatMap (·.1)) := by
  induction bs generalizing opts with
  | nil => simp [search]
  | cons b t ih =>
    obtain ⟨a, k'⟩ := b
    unfold search
    rw [if_neg (h (a, k') (by simp)), ih _ fun b hb => h b (List.mem_cons_of_mem _ hb)]
    simp

theorem rows_suit : ∀ v ∈ table, v.charge = (if v.anum = 0 then -1 else v.znum) ∧
    |v.mass - 10000000 * v.anum| ≤ 1000000 ∧ 0 < v.mass := by decide +kernel

/-- A name of the list gives the data of what it means, with the charge that is given. -/
theorem named (name : String) (a z : ℤ) (h : (name, a, z) ∈ names) (c : Option ℤ) :
    ∃ d, species name c = .ok d ∧ Suits a z c d := by
  obtain ⟨k, v, hk, hv, hm, ha, hz⟩ := (show ∀ x ∈ names, ∃ k v, search x.1 branches [] = .ok k ∧
      table.find? (·.key = k) = some v ∧ v ∈ table ∧ v.anum = x.2.1 ∧ v.znum = x.2.2 from by
    intro x hx
    have := (show ∀ x ∈ names, ∃ b ∈ branches, ∃ v ∈ table, search x.1 branches [] = .ok b.2 ∧
      table.find? (·.key = b.2) = some v ∧ v.anum = x.2.1 ∧ v.znum = x.2.2 by decide +kernel) x hx
    obtain ⟨b, -, v, hv, h1, h2, h3⟩ := this
    exact ⟨b.2, v, h1, h2, hv, h3⟩) _ h
  obtain ⟨h1, h2, h3⟩ := rows_suit v hm
  refine ⟨⟨v.anum, v.znum, c.getD v.charge, v.mass⟩, by simp only [species, hk, hv], ha, hz, ?_, ?_, h3⟩
  · simp only [h1, ha, hz]
  · simp only at ha
    rw [← ha]; exact h2

example : ∃ d, species "alpha" (some 1) = .ok d ∧ Suits 4 2 (some 1) d := named "alpha" 4 2 (by decide) (some 1)

/-- Any other name is refused, with a message that lists all names that are taken. -/
theorem refused (name : String) (h : ∀ a z, (name, a, z) ∉ names) (c : Option ℤ) :
    species name c = .unknown (names.map (·.1)) := by
  have hb : ∀ b ∈ branches, name ∉ b.1 := by
    intro b hb hn
    obtain ⟨x, hx, e⟩ := (show ∀ b ∈ branches, ∀ n ∈ b.1, ∃ x ∈ names, x.1 = n by decide +kernel) b hb name hn
    obtain ⟨n, a, z⟩ := x
    cases e
    exact h a z hx
  have e : branches.flatMap (·.1) = names.map (·.1) := by decide +kernel
  simp only [species, search_unknown name branches [] hb, List.nil_append, e]

example : ∀ a z, ("Q", a, z) ∉ names := by
  intro a z h
  exact (show ∀ x ∈ names, x.1 ≠ "Q" by decide +kernel) _ h rfl

/-! ## By numbers -/

theorem unique : ∀ v ∈ table, ∀ w ∈ table, v.anum = w.anum → v.znum = w.znum → v = w := by decide +kernel

/-- What is found has the numbers asked for, the charge given, and a name that is made of its symbol and mass number. -/
theorem detected (a z : ℤ) (c : Option ℤ) (d : Data) (n : String) (h : autodetect a z c = some (d, n)) :
    Suits a z c d ∧ (2 ≤ z → ∃ s, (z, s) ∈ symbols ∧ n = s ++ toString a) := by
  unfold autodetect at h
  obtain ⟨v, hv, e⟩ := Option.map_eq_some_iff.mp h
  have hm := List.mem_of_find?_eq_some hv
  have hp := List.find?_some hv
  simp only [decide_eq_true_eq] at hp
  obtain ⟨ha, hz⟩ := hp
  obtain ⟨h1, h2, h3⟩ := rows_suit v hm
  cases e
  refine ⟨⟨ha.symm, hz.symm, ?_, ?_, h3⟩, fun hz2 => ?_⟩
  · simp only [h1, ha, hz]
  · rw [ha]; exact h2
  · obtain ⟨s, hs, h4, h5⟩ := (show ∀ v ∈ table, 2 ≤ v.znum → ∃ s ∈ symbols, s.1 = v.znum ∧ v.key = s.2 ++ toString v.anum
      by decide +kernel) v hm (by rw [← hz]; exact hz2)
    refine ⟨s.2, ?_, by rw [ha]; exact h5⟩
    rw [hz, ← h4]; exact hs

example : autodetect 9 4 none = some (⟨9, 4, 4, 90120000⟩, "Be9") := by decide +kernel

/-- The order of the table has no effect: an entry with the numbers asked for is the one that is found. -/
theorem found (v : Row) (hv : v ∈ table) (c : Option ℤ) :
    autodetect v.anum v.znum c = some (⟨v.anum, v.znum, c.getD v.charge, v.mass⟩, v.key) := by
  unfold autodetect
  cases h : table.find? (fun w => decide (v.anum = w.anum ∧ v.znum = w.znum)) with
  | none => exact absurd (List.find?_eq_none.mp h v hv) (by simp)
  | some w =>
    have hp := List.find?_some h
    simp only [decide_eq_true_eq] at hp
    rw [unique v hv w (List.mem_of_find?_eq_some h) hp.1 hp.2]
    rfl

example : (⟨"T", 3, 1, 1, 30160000⟩ : Row) ∈ table := by decide +kernel

/-- The two ways agree: the numbers of a species found by name give the same data, and its name. -/
theorem agree (name : String) (c : Option ℤ) (d : Data) (h : species name c = .ok d) :
    ∃ n, autodetect d.anum d.znum c = some (d, n) ∧ species n c = .ok d := by
  unfold species at h
  cases hs : search name branches [] with
  | unknown l => simp [hs] at h
  | keyError => simp [hs] at h
  | ok k =>
    rw [hs] at h
    simp only at h
    cases hf : table.find? (fun v => decide (v.key = k)) with
    | none => simp [hf] at h
    | some v =>
      rw [hf] at h
      cases h
      have hm := List.mem_of_find?_eq_some hf
      have hk := List.find?_some hf
      simp only [decide_eq_true_eq] at hk
      refine ⟨v.key, found v hm c, ?_⟩
      obtain ⟨b, hb, -, e⟩ := search_ok name branches [] k hs
      have h2 : search k branches [] = .ok k := by
        rw [← e]
        exact (show ∀ b ∈ branches, search b.2 branches [] = .ok b.2 by decide +kernel) b hb
      simp only [species, hk, h2, hf]

example : species "helion" none = .ok ⟨3, 2, 2, 30160000⟩ := by decide +kernel

/-! ## Finding -/

/-- What is found by numbers is known by the name that is returned, for those in the list of names. Missing: the rest. -/
theorem name_partial (a z : ℤ) (c : Option ℤ) (d : Data) (n : String) (h : autodetect a z c = some (d, n))
    (hn : ∃ m, (m, a, z) ∈ names) : species n c = .ok d := by
  obtain ⟨m, hm⟩ := hn
  obtain ⟨d', hd, ha, hz, -⟩ := named m a z hm c
  obtain ⟨n', h1, h2⟩ := agree m c d' hd
  rw [ha, hz, h] at h1
  cases h1
  exact h2

example : ∃ m, (m, (3 : ℤ), (1 : ℤ)) ∈ names := ⟨"tritium", by decide⟩

/-- Half of the table cannot be had by name: fourteen species are found by their numbers, and refused by the name that is
returned for them. -/
theorem name_violation : ∃ l : List Row, l.length = 14 ∧ l.Nodup ∧ ∀ v ∈ l, ∀ c, ∃ d,
    autodetect v.anum v.znum c = some (d, v.key) ∧ species v.key c = .unknown (names.map (·.1)) := by
  refine ⟨table.filter fun v => v.key ∉ names.map (·.1), by decide +kernel, by decide +kernel, fun v hv c => ?_⟩
  obtain ⟨hm, hk⟩ := List.mem_filter.mp hv
  refine ⟨_, found v hm c, refused v.key (fun a z h => ?_) c⟩
  simp only [decide_eq_true_eq] at hk
  exact hk (List.mem_map.mpr ⟨_, h, rfl⟩)

end Ascot.C181
