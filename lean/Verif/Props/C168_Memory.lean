import Verif.Lemmas.Memory
import Mathlib.Data.List.Range
import Mathlib.Data.List.Count

set_option linter.unusedSectionVars false
set_option linter.unusedSimpArgs false

/-!
# C168: memory of inputs and diagnostics

Loading an input and releasing it again releases every block exactly once, so that inputs can be changed any number of times
in one session.
-/
namespace Ascot.C168
open Ascot.Memory

/-- Inputs and diagnostics without leak: magnetic fields on grids of an axisymmetric or perturbed tokamak, radial electric field,
Boozer data, and the orbit diagnostics in every mode. -/
theorem fixed_clean :
    Clean (allocs b2dsInit ++ frees b2dsFree) ∧ Clean (e1dsInit ++ frees e1dsFree) ∧
      Clean (allocs boozerInit ++ frees boozerFree) ∧
      (∀ m p, Clean (allocs (orbInit m p) ++ frees (orbFree m p))) := by
  refine ⟨?_, ?_, ?_, ?_⟩
  · exact leaves_simple (by decide +kernel) (by decide +kernel) (by decide +kernel) (by decide +kernel)
  · have := leaves_rounds (A := flds "E." ["temp", "dV"]) (F := flds "E." ["temp"]) (B := []) (G := e1dsFree)
      (by decide +kernel) (by decide +kernel) (by decide +kernel) (by decide +kernel) (by decide +kernel) (by decide +kernel)
      (by decide +kernel) [] (by simp) (n := 0) (by decide +kernel)
    show Leaves _ 0
    simpa [allocs, frees, junks, e1dsInit] using this
  · exact leaves_simple (by decide +kernel) (by decide +kernel) (by decide +kernel) (by decide +kernel)
  · intro m p
    cases m <;> cases p <;>
      exact leaves_simple (by decide +kernel) (by decide +kernel) (by decide +kernel) (by decide +kernel)

/-- The field of a stellarator loses the two arrays of the axis, the plasma profiles lose the array of the rotation, and the
two-dimensional wall loses the array of the flags. -/
theorem fixed_leaks :
    Leaves (allocs bstsInit ++ frees bstsFree) 2 ∧ Leaves (allocs p1dInit ++ frees p1dFree) 1 ∧
      Leaves (allocs p1dtInit ++ frees p1dtFree) 1 ∧ Leaves (allocs w2dInit ++ frees w2dFree) 1 := by
  refine ⟨?_, ?_, ?_, ?_⟩ <;>
    exact leaves_simple (by decide +kernel) (by decide +kernel) (by decide +kernel) (by decide +kernel)

/-- What is lost adds up: after `k` rounds of loading and releasing, `k` times as much is lost.  A clean input is lost never. -/
theorem rounds {P : List Cmd} {n : Nat} (h : Leaves P n) (k : Nat) : Leaves (List.replicate k P).flatten (k * n) := by
  induction k with
  | zero =>
    intro s hs
    exact ⟨s, rfl, hs, ∅, by simp, by simp, by simp⟩
  | succ k ih =>
    rw [List.replicate_succ, List.flatten_cons, Nat.succ_mul, Nat.add_comm]
    exact leaves_add h ih

theorem nodup_elts (s : String) (n : Nat) : ((List.range n).map (Name.elt s)).Nodup := by
  refine List.Nodup.map ?_ List.nodup_range
  intro a b e
  exact (Name.elt.inj e).2

/-- The plasma profiles with splines lose the two splines of the temperatures and the spline of the rotation, whatever the number of
species. -/
theorem spline_plasma (nion : Nat) : Leaves (p1dsInit nion ++ frees (p1dsFree nion)) 3 := by
  have hne : ∀ l : List String, ∀ x ∈ flds "plasma." l, ∀ i, x ≠ .elt "plasma.dens" i := by
    intro l x hx i e
    obtain ⟨y, _, rfl⟩ := List.mem_map.1 hx
    cases e
  have hm : ∀ x, x ∈ (List.range (nion + 1)).map (Name.elt "plasma.dens") → ∃ i, x = .elt "plasma.dens" i := by
    intro x hx
    obtain ⟨i, _, rfl⟩ := List.mem_map.1 hx
    exact ⟨i, rfl⟩
  have h1 : (flds "plasma." ["anum", "znum", "mass", "charge"] ++ p1dsTemp ++
    [Name.elt "plasma.temp" 0, .elt "plasma.temp" 1, .fld "plasma.dens"]).Nodup := by decide +kernel
  have h1' : ∀ i, Name.elt "plasma.dens" i ∉ (flds "plasma." ["anum", "znum", "mass", "charge"] ++ p1dsTemp ++
    [Name.elt "plasma.temp" 0, .elt "plasma.temp" 1, .fld "plasma.dens"]) := by
    intro i h
    simp [flds, p1dsTemp] at h
  have hA : (p1dsHead nion).Nodup := by
    unfold p1dsHead
    rw [List.nodup_append']
    refine ⟨h1, nodup_elts _ _, ?_⟩
    intro x hx hx'
    obtain ⟨i, rfl⟩ := hm x hx'
    exact h1' i hx
  have hG : (p1dsFree nion).Nodup := by
    unfold p1dsFree
    rw [List.nodup_append', List.nodup_append']
    refine ⟨⟨by decide +kernel, nodup_elts _ _, ?_⟩, by decide +kernel, ?_⟩
    · intro x hx hx'
      obtain ⟨i, rfl⟩ := hm x hx'
      exact hne _ _ hx i rfl
    · intro x hx hx'
      obtain rfl := List.mem_singleton.1 hx'
      rcases List.mem_append.1 hx with h | h
      · exact absurd h (by decide +kernel)
      · obtain ⟨i, e⟩ := hm _ h
        cases e
  have := leaves_rounds (A := p1dsHead nion) (F := p1dsTemp) (B := [.elt "plasma.vtor" 0]) (G := p1dsFree nion) hA
    (by decide +kernel) (by
      intro x hx
      unfold p1dsHead
      simp only [List.mem_append]
      exact Or.inl (Or.inl (Or.inr hx))) (by decide +kernel) (by
      intro x hx h
      obtain rfl := List.mem_singleton.1 hx
      rcases List.mem_append.1 h with h | h
      · exact absurd h (by decide +kernel)
      · obtain ⟨i, e⟩ := hm _ h
        simp at e) hG (by
      intro x hx
      left
      unfold p1dsFree at hx
      unfold p1dsHead
      rcases List.mem_append.1 hx with h | h
      · rcases List.mem_append.1 h with h | h
        · have key : ∀ y ∈ flds "plasma." ["mass", "charge", "anum", "znum"],
              y ∈ flds "plasma." ["anum", "znum", "mass", "charge"] ∧ y ∉ p1dsTemp := by decide +kernel
          refine ⟨by simp only [List.mem_append]; exact Or.inl (Or.inl (Or.inl (key x h).1)), (key x h).2⟩
        · refine ⟨by simp only [List.mem_append]; exact Or.inr h, ?_⟩
          obtain ⟨i, rfl⟩ := hm x h
          intro h'
          exact hne _ _ h' i rfl
      · obtain rfl := List.mem_singleton.1 h
        refine ⟨by simp only [List.mem_append]; exact Or.inl (Or.inr (by decide +kernel)), by decide +kernel⟩) [] (by simp) (n := 3) (by
      simp [p1dsHead, p1dsFree, p1dsTemp, flds]
      omega)
  simpa [allocs, frees, junks, p1dsInit] using this

theorem mem_pairs {f : Nat → List Name} {n : Nat} {x : Name} : x ∈ (List.range n).flatMap f ↔ ∃ i < n, x ∈ f i := by
  simp [List.mem_flatMap]

theorem nodup_pairs {f : Nat → List Name} {n : Nat} (h1 : ∀ i, (f i).Nodup) (h2 : ∀ i j x, x ∈ f i → x ∈ f j → i = j) :
    ((List.range n).flatMap f).Nodup := by
  rw [List.nodup_flatMap]
  refine ⟨fun i _ => h1 i, ?_⟩
  refine List.Nodup.pairwise_of_forall_ne List.nodup_range ?_
  intro i _ j _ hij x hx hx'
  exact hij (h2 i j x hx hx')

theorem length_pairs {f : Nat → List Name} {n k : Nat} (h : ∀ i, (f i).length = k) : ((List.range n).flatMap f).length = k * n := by
  induction n with
  | zero => rfl
  | succ n ih =>
    rw [List.range_succ, List.flatMap_append, List.length_append, ih]
    simp [h, Nat.mul_succ]

/-- Fields and elements. -/
theorem nodup_flds_pairs {l : List Name} {f : Nat → List Name} {n : Nat} (hl : l.Nodup) (h1 : ∀ i, (f i).Nodup)
    (h2 : ∀ i j x, x ∈ f i → x ∈ f j → i = j) (h3 : ∀ i x, x ∈ f i → x ∉ l) : (l ++ (List.range n).flatMap f).Nodup := by
  rw [List.nodup_append']
  refine ⟨hl, nodup_pairs h1 h2, ?_⟩
  intro x hx hx'
  obtain ⟨i, _, h⟩ := mem_pairs.1 hx'
  exact h3 i x h hx

/-- The modes of MHD, stationary or not, are released completely, whatever their number. -/
theorem mhd_clean (n : Nat) :
    Clean (allocs (mhdInit n) ++ frees (mhdStatFree n)) ∧ Clean (allocs (mhdInit n) ++ frees (mhdNonstatFree n)) := by
  have e1 : ∀ i : Nat, [Name.elt "mhd.alpha_nm" i, .elt "mhd.phi_nm" i].Nodup := by
    intro i
    simp
  have e1' : ∀ i : Nat, [Name.elt "mhd.phi_nm" i, .elt "mhd.alpha_nm" i].Nodup := by
    intro i
    simp
  have e2 : ∀ (i j : Nat) (x : Name), x ∈ [Name.elt "mhd.alpha_nm" i, .elt "mhd.phi_nm" i] →
      x ∈ [Name.elt "mhd.alpha_nm" j, .elt "mhd.phi_nm" j] → i = j := by
    intro i j x hx hy
    simp only [List.mem_cons, List.not_mem_nil, or_false] at hx hy
    rcases hx with rfl | rfl <;> rcases hy with h | h <;> simp at h <;> exact h
  have e2' : ∀ (i j : Nat) (x : Name), x ∈ [Name.elt "mhd.phi_nm" i, .elt "mhd.alpha_nm" i] →
      x ∈ [Name.elt "mhd.phi_nm" j, .elt "mhd.alpha_nm" j] → i = j := by
    intro i j x hx hy
    simp only [List.mem_cons, List.not_mem_nil, or_false] at hx hy
    rcases hx with rfl | rfl <;> rcases hy with h | h <;> simp at h <;> exact h
  have e3 : ∀ (l : List String) (i : Nat) (x : Name), x ∈ [Name.elt "mhd.alpha_nm" i, .elt "mhd.phi_nm" i] → x ∉ flds "mhd." l := by
    intro l i x hx h
    simp only [List.mem_cons, List.not_mem_nil, or_false] at hx
    obtain ⟨y, _, rfl⟩ := List.mem_map.1 h
    rcases hx with h | h <;> cases h
  have hA : (mhdInit n).Nodup := nodup_flds_pairs (by decide +kernel) e1 e2 (fun i x => e3 _ i x)
  have key : ∀ l : List String, (flds "mhd." l).Nodup → (∀ x ∈ flds "mhd." l, x ∈ mhdInit 0) → l.length = 7 →
      Clean (allocs (mhdInit n) ++ frees (((List.range n).flatMap fun i => [Name.elt "mhd.phi_nm" i, .elt "mhd.alpha_nm" i]) ++ flds "mhd." l)) := by
    intro l hl hm hlen
    refine leaves_simple hA ?_ ?_ ?_
    · rw [List.nodup_append']
      refine ⟨nodup_pairs e1' e2', hl, ?_⟩
      intro x hx hx'
      obtain ⟨i, _, h⟩ := mem_pairs.1 hx
      refine e3 l i x ?_ hx'
      simp only [List.mem_cons, List.not_mem_nil, or_false] at h ⊢
      exact h.symm
    · intro x hx
      unfold mhdInit
      rcases List.mem_append.1 hx with h | h
      · refine List.mem_append.2 (Or.inr ?_)
        obtain ⟨i, hi, h⟩ := mem_pairs.1 h
        refine mem_pairs.2 ⟨i, hi, ?_⟩
        simp only [List.mem_cons, List.not_mem_nil, or_false] at h ⊢
        exact h.symm
      · have := hm x h
        unfold mhdInit at this
        rcases List.mem_append.1 this with h | h
        · exact List.mem_append.2 (Or.inl h)
        · simp at h
    · rw [mhdInit, List.length_append, List.length_append, length_pairs (k := 2) (by simp), length_pairs (k := 2) (by simp)]
      simp [flds, hlen]
      omega
  exact ⟨key _ (by decide +kernel) (by decide +kernel) rfl, key _ (by decide +kernel) (by decide +kernel) rfl⟩

/-- The injectors of the beams are released completely, whatever their number. -/
theorem nbi_clean (n : Nat) : Clean (allocs (nbiInit n) ++ frees (nbiFree n)) := by
  have e1 : ∀ i, (beamlet i).Nodup := by
    intro i
    simp [beamlet]
  have e2 : ∀ (i j : Nat) (x : Name), x ∈ beamlet i → x ∈ beamlet j → i = j := by
    intro i j x hx hy
    simp only [beamlet, List.mem_cons, List.not_mem_nil, or_false] at hx hy
    rcases hx with rfl | rfl | rfl | rfl | rfl | rfl <;> rcases hy with h | h | h | h | h | h <;> simp at h <;> exact h
  have e3 : ∀ i, Name.fld "nbi.inj" ∉ beamlet i := by
    intro i
    simp [beamlet]
  have hm : ¬ Name.fld "nbi.inj" ∈ (List.range n).flatMap beamlet := by
    intro h
    obtain ⟨i, _, h⟩ := mem_pairs.1 h
    exact e3 i h
  have hp : (nbiInit n).Perm (nbiFree n) := by
    unfold nbiInit nbiFree
    exact (List.perm_append_singleton _ _).symm
  have hA : (nbiInit n).Nodup := List.nodup_cons.2 ⟨hm, nodup_pairs e1 e2⟩
  exact leaves_simple hA (hp.nodup_iff.1 hA) (fun x hx => hp.mem_iff.2 hx) (by simpa using hp.length_eq.symm)

/-- The neutrals are released completely with one species. -/
theorem neutral_one : Clean (allocs (n0Init 1) ++ frees (n0Free 1)) :=
  leaves_simple (by decide +kernel) (by decide +kernel) (by decide +kernel) (by decide +kernel)

/-- With two species of neutrals or more, the data of the first one are released twice, which is undefined, in whatever state the
program is. -/
theorem neutral_twice {n : Nat} (hn : 2 ≤ n) (P Q : List Cmd) : Undefined (P ++ frees (n0Free n) ++ Q) := by
  obtain ⟨k, rfl⟩ : ∃ k, n = k + 2 := ⟨n - 2, by omega⟩
  have e : n0Free (k + 2) = flds "neutral." ["anum", "znum", "maxwellian"] ++
      (Name.elt "neutral.n0" 0 :: [.elt "neutral.t0" 0] ++ [.elt "neutral.n0" 0]) ++
      (.elt "neutral.t0" 0 :: (((List.range k).flatMap fun _ => [.elt "neutral.n0" 0, .elt "neutral.t0" 0]) ++ flds "neutral." ["n0", "t0"])) := by
    unfold n0Free
    rw [List.range_succ_eq_map, List.range_succ_eq_map]
    simp [List.flatMap_cons, List.flatMap_map]
  have e' : P ++ frees (n0Free (k + 2)) ++ Q = (P ++ frees (flds "neutral." ["anum", "znum", "maxwellian"])) ++
      frees (Name.elt "neutral.n0" 0 :: [.elt "neutral.t0" 0] ++ [.elt "neutral.n0" 0]) ++
      (frees (.elt "neutral.t0" 0 :: (((List.range k).flatMap fun _ => [.elt "neutral.n0" 0, .elt "neutral.t0" 0]) ++ flds "neutral." ["n0", "t0"])) ++ Q) := by
    rw [e]
    simp [frees]
  rw [e']
  exact twice _ _ _ _

/-- A simulation with two species of neutrals or more has undefined behaviour after the markers were simulated and before the output is
written, whatever the other inputs are and whatever happened before. -/
theorem output_lost {n : Nat} (hn : 2 ≤ n) (before : List Cmd) (bfield efield plasma rest : List Name) :
    Undefined (before ++ mainFree bfield efield plasma n rest) := by
  have := neutral_twice hn (before ++ frees bfield ++ frees efield ++ frees plasma) (frees rest)
  unfold mainFree
  simpa using this

/-! ## Three-dimensional wall -/

/-- Paths of the nodes of an octree with `d` levels below the node at `p`. -/
def Below (d : Nat) (p q : List Nat) : Prop := ∃ t, q = p ++ t ∧ t.length ≤ d ∧ ∀ i ∈ t, i < 8

/-- Paths of its leaves. -/
def Leaf (d : Nat) (p q : List Nat) : Prop := ∃ t, q = p ++ t ∧ t.length = d ∧ ∀ i ∈ t, i < 8

theorem leaf_zero (p q : List Nat) : Leaf 0 p q ↔ q = p := by
  constructor
  · rintro ⟨t, rfl, ht, _⟩
    rw [List.length_eq_zero_iff.1 ht]
    simp
  · rintro rfl
    exact ⟨[], by simp⟩

theorem leaf_succ (d : Nat) (p q : List Nat) : Leaf (d + 1) p q ↔ ∃ i < 8, Leaf d (p ++ [i]) q := by
  constructor
  · rintro ⟨t, rfl, ht, h8⟩
    cases t with
    | nil => simp at ht
    | cons i r =>
      exact ⟨i, h8 i List.mem_cons_self, r, by simp, by simpa using ht, fun j hj => h8 j (List.mem_cons_of_mem _ hj)⟩
  · rintro ⟨i, hi, r, rfl, hr, h8⟩
    refine ⟨i :: r, by simp, by simp [hr], ?_⟩
    intro j hj
    rcases List.mem_cons.1 hj with rfl | hj
    · exact hi
    · exact h8 j hj

theorem below_zero (p q : List Nat) : Below 0 p q ↔ q = p := by
  constructor
  · rintro ⟨t, rfl, ht, _⟩
    rw [List.length_eq_zero_iff.1 (Nat.le_zero.1 ht)]
    simp
  · rintro rfl
    exact ⟨[], by simp⟩

theorem below_succ (d : Nat) (p q : List Nat) : Below (d + 1) p q ↔ q = p ∨ ∃ i < 8, Below d (p ++ [i]) q := by
  constructor
  · rintro ⟨t, rfl, ht, h8⟩
    cases t with
    | nil => simp
    | cons i r =>
      exact Or.inr ⟨i, h8 i List.mem_cons_self, r, by simp, by simpa using ht, fun j hj => h8 j (List.mem_cons_of_mem _ hj)⟩
  · rintro (rfl | ⟨i, hi, r, rfl, hr, h8⟩)
    · exact ⟨[], by simp⟩
    · refine ⟨i :: r, by simp, by simpa using hr, ?_⟩
      intro j hj
      rcases List.mem_cons.1 hj with rfl | hj
      · exact hi
      · exact h8 j hj

theorem create_mem (d : Nat) (p : List Nat) (x : Name) :
    x ∈ treeCreate d p ↔ (∃ q, x = .node q ∧ Below d p q) ∨ ∃ q, x = .cell q 0 ∧ Leaf d p q := by
  induction d generalizing p with
  | zero =>
    simp only [treeCreate, List.mem_cons, List.not_mem_nil, or_false, below_zero, leaf_zero]
    constructor
    · rintro (h | h)
      · exact Or.inl ⟨p, h, rfl⟩
      · exact Or.inr ⟨p, h, rfl⟩
    · rintro (⟨q, h, rfl⟩ | ⟨q, h, rfl⟩)
      · exact Or.inl h
      · exact Or.inr h
  | succ d ih =>
    simp only [treeCreate, List.mem_cons, mem_pairs, ih, below_succ, leaf_succ]
    constructor
    · rintro (h | ⟨i, hi, ⟨q, h, hb⟩ | ⟨q, h, hb⟩⟩)
      · exact Or.inl ⟨p, h, Or.inl rfl⟩
      · exact Or.inl ⟨q, h, Or.inr ⟨i, hi, hb⟩⟩
      · exact Or.inr ⟨q, h, i, hi, hb⟩
    · rintro (⟨q, h, rfl | ⟨i, hi, hb⟩⟩ | ⟨q, h, i, hi, hb⟩)
      · exact Or.inl h
      · exact Or.inr ⟨i, hi, Or.inl ⟨q, h, hb⟩⟩
      · exact Or.inr ⟨i, hi, Or.inr ⟨q, h, hb⟩⟩

theorem free_mem (size : List Nat → Nat) (d : Nat) (p : List Nat) (x : Name) :
    x ∈ treeFree size d p ↔ (∃ q, x = .node q ∧ Below d p q) ∨ ∃ q j, x = .cell q j ∧ Leaf d p q ∧ j ≤ size q := by
  induction d generalizing p with
  | zero =>
    simp only [treeFree, List.mem_append, List.mem_map, List.mem_range, List.mem_singleton, below_zero, leaf_zero]
    constructor
    · rintro (⟨j, hj, rfl⟩ | h)
      · exact Or.inr ⟨p, j, rfl, rfl, by omega⟩
      · exact Or.inl ⟨p, h, rfl⟩
    · rintro (⟨q, h, rfl⟩ | ⟨q, j, h, rfl, hj⟩)
      · exact Or.inr h
      · exact Or.inl ⟨j, by omega, h.symm⟩
  | succ d ih =>
    simp only [treeFree, List.mem_append, List.mem_singleton, mem_pairs, ih, below_succ, leaf_succ]
    constructor
    · rintro (⟨i, hi, ⟨q, h, hb⟩ | ⟨q, j, h, hb, hj⟩⟩ | h)
      · exact Or.inl ⟨q, h, Or.inr ⟨i, hi, hb⟩⟩
      · exact Or.inr ⟨q, j, h, ⟨i, hi, hb⟩, hj⟩
      · exact Or.inl ⟨p, h, Or.inl rfl⟩
    · rintro (⟨q, h, rfl | ⟨i, hi, hb⟩⟩ | ⟨q, j, h, ⟨i, hi, hb⟩, hj⟩)
      · exact Or.inr h
      · exact Or.inl ⟨i, hi, Or.inl ⟨q, h, hb⟩⟩
      · exact Or.inl ⟨i, hi, Or.inr ⟨q, j, h, hb, hj⟩⟩

theorem below_child {d e : Nat} {p q : List Nat} {i j : Nat} (h : Below d (p ++ [i]) q) (h' : Below e (p ++ [j]) q) : i = j := by
  obtain ⟨t, rfl, _⟩ := h
  obtain ⟨u, e, _⟩ := h'
  simp only [List.append_assoc, List.append_cancel_left_eq, List.cons_append, List.nil_append, List.cons.injEq] at e
  exact e.1

theorem leaf_below {d : Nat} {p q : List Nat} (h : Leaf d p q) : Below d p q := by
  obtain ⟨t, h1, h2, h3⟩ := h
  exact ⟨t, h1, h2.le, h3⟩

theorem not_below_self {d : Nat} {p : List Nat} {i : Nat} : ¬ Below d (p ++ [i]) p := by
  rintro ⟨t, e, _⟩
  have := congrArg List.length e
  simp only [List.length_append, List.length_cons, List.length_nil] at this
  omega

theorem create_nodup (d : Nat) (p : List Nat) : (treeCreate d p).Nodup := by
  induction d generalizing p with
  | zero => simp [treeCreate]
  | succ d ih =>
    rw [treeCreate, List.nodup_cons]
    refine ⟨?_, nodup_pairs (fun i => ih _) ?_⟩
    · rw [mem_pairs]
      rintro ⟨i, _, h⟩
      rw [create_mem] at h
      rcases h with ⟨q, h, hb⟩ | ⟨q, h, _⟩
      · obtain rfl := Name.node.inj h
        exact not_below_self hb
      · cases h
    · intro i j x hx hy
      rw [create_mem] at hx hy
      rcases hx with ⟨q, rfl, hb⟩ | ⟨q, rfl, hb⟩ <;> rcases hy with ⟨r, h, hb'⟩ | ⟨r, h, hb'⟩ <;> cases h
      · exact below_child hb hb'
      · exact below_child (leaf_below hb) (leaf_below hb')

theorem free_nodup (size : List Nat → Nat) (d : Nat) (p : List Nat) : (treeFree size d p).Nodup := by
  induction d generalizing p with
  | zero =>
    rw [treeFree, List.nodup_append']
    refine ⟨?_, by simp, ?_⟩
    · refine List.Nodup.map ?_ List.nodup_range
      intro a b e
      exact (Name.cell.inj e).2
    · intro x hx hx'
      obtain rfl := List.mem_singleton.1 hx'
      obtain ⟨j, _, h⟩ := List.mem_map.1 hx
      cases h
  | succ d ih =>
    rw [treeFree, List.nodup_append']
    refine ⟨nodup_pairs (fun i => ih _) ?_, by simp, ?_⟩
    · intro i j x hx hy
      rw [free_mem] at hx hy
      rcases hx with ⟨q, rfl, hb⟩ | ⟨q, k, rfl, hb, _⟩ <;> rcases hy with ⟨r, h, hb'⟩ | ⟨r, l, h, hb', _⟩ <;> cases h
      · exact below_child hb hb'
      · exact below_child (leaf_below hb) (leaf_below hb')
    · intro x hx hx'
      obtain rfl := List.mem_singleton.1 hx'
      obtain ⟨i, _, h⟩ := mem_pairs.1 hx
      rw [free_mem] at h
      rcases h with ⟨q, h, hb⟩ | ⟨q, j, h, _⟩
      · obtain rfl := Name.node.inj h
        exact not_below_self hb
      · cases h

theorem add_mem (done adds : List (List Nat)) (x : Name) :
    x ∈ treeAdd done adds ↔ ∃ q j, x = .cell q j ∧ done.count q < j ∧ j ≤ done.count q + adds.count q := by
  induction adds generalizing done with
  | nil =>
    simp only [treeAdd, List.not_mem_nil, List.count_nil, false_iff]
    rintro ⟨q, j, _, h1, h2⟩
    omega
  | cons p r ih =>
    simp only [treeAdd, List.mem_cons, ih]
    constructor
    · rintro (h | ⟨q, j, h, h1, h2⟩)
      · exact ⟨p, _, h, by omega, by simp⟩
      · refine ⟨q, j, h, ?_, ?_⟩
        · rw [List.count_cons] at h1
          omega
        · rw [List.count_cons] at h2 ⊢
          omega
    · rintro ⟨q, j, h, h1, h2⟩
      by_cases hq : p = q
      · subst hq
        rw [List.count_cons_self] at h2
        by_cases hj : j = done.count p + 1
        · exact Or.inl (by rw [h, hj])
        · exact Or.inr ⟨p, j, h, by rw [List.count_cons_self]; omega, by rw [List.count_cons_self]; omega⟩
      · rw [List.count_cons_of_ne hq] at h2
        exact Or.inr ⟨q, j, h, by rw [List.count_cons_of_ne hq]; exact h1, by rw [List.count_cons_of_ne hq]; exact h2⟩

theorem add_nodup (done adds : List (List Nat)) : (treeAdd done adds).Nodup := by
  induction adds generalizing done with
  | nil => simp [treeAdd]
  | cons p r ih =>
    rw [treeAdd, List.nodup_cons]
    refine ⟨?_, ih _⟩
    rw [add_mem]
    rintro ⟨q, j, h, h1, _⟩
    obtain ⟨rfl, rfl⟩ := Name.cell.inj h
    rw [List.count_cons_self] at h1
    omega

/-- Everything of the octree, nodes and lists, is released, whatever the depth and whatever the leaves of the triangles. -/
theorem tree_perm (d : Nat) (adds : List (List Nat)) (h : ∀ q ∈ adds, Leaf d [] q) :
    (treeCreate d [] ++ treeAdd [] adds).Perm (treeFree (fun p => adds.count p) d []) := by
  rw [List.perm_ext_iff_of_nodup]
  · intro x
    rw [List.mem_append, create_mem, add_mem, free_mem]
    simp only [List.count_nil, zero_add]
    constructor
    · rintro ((h1 | ⟨q, h1, hl⟩) | ⟨q, j, h1, h2, h3⟩)
      · exact Or.inl h1
      · exact Or.inr ⟨q, 0, h1, hl, Nat.zero_le _⟩
      · exact Or.inr ⟨q, j, h1, h q (List.count_pos_iff.1 (by omega)), h3⟩
    · rintro (h1 | ⟨q, j, h1, hl, h2⟩)
      · exact Or.inl (Or.inl h1)
      · rcases Nat.eq_zero_or_pos j with rfl | hj
        · exact Or.inl (Or.inr ⟨q, h1, hl⟩)
        · exact Or.inr ⟨q, j, h1, hj, h2⟩
  · rw [List.nodup_append']
    refine ⟨create_nodup d [], add_nodup [] adds, ?_⟩
    intro x hx hx'
    rw [create_mem] at hx
    rw [add_mem] at hx'
    obtain ⟨r, j, rfl, h1, _⟩ := hx'
    rcases hx with ⟨q, e, _⟩ | ⟨q, e, _⟩
    · cases e
    · obtain ⟨_, rfl⟩ := Name.cell.inj e
      omega
  · exact free_nodup _ d []

theorem tree_flds {d : Nat} {adds : List (List Nat)} {l : List String} {x : Name}
    (hx : x ∈ treeCreate d [] ++ treeAdd [] adds) : x ∉ flds "wall." l := by
  intro h
  obtain ⟨y, _, rfl⟩ := List.mem_map.1 h
  rw [List.mem_append, create_mem, add_mem] at hx
  rcases hx with (⟨q, e, _⟩ | ⟨q, e, _⟩) | ⟨q, j, e, _⟩ <;> cases e

/-- The three-dimensional wall loses the array of the flags and nothing else, whatever the triangles are. -/
theorem wall3d (d : Nat) (adds : List (List Nat)) (h : ∀ q ∈ adds, Leaf d [] q) :
    Leaves (w3dInit d adds ++ frees w3dFree) 1 := by
  have hp := tree_perm d adds h
  set T := treeCreate d [] ++ treeAdd [] adds with hT
  set A := flds "wall." ["wall_tris"] ++ T ++ flds "wall." ["tri_list", "tree_array"] with hA
  set F := flds "wall." ["tri_list"] ++ treeFree (fun p => adds.count p) d [] with hF
  have hTn : T.Nodup := hp.nodup_iff.2 (free_nodup _ d [])
  have hw : ∀ (l : List String) (x : Name), x ∈ T → x ∉ flds "wall." l := fun l x hx => tree_flds hx
  have nA : A.Nodup := by
    rw [hA, List.nodup_append', List.nodup_append']
    refine ⟨⟨by decide +kernel, hTn, fun x hx hx' => hw _ x hx' hx⟩, by decide +kernel, ?_⟩
    intro x hx hx'
    rcases List.mem_append.1 hx with h1 | h1
    · exact (show ∀ x ∈ flds "wall." ["wall_tris"], x ∉ flds "wall." ["tri_list", "tree_array"] by decide +kernel) x h1 hx'
    · exact hw _ x h1 hx'
  have nF : F.Nodup := by
    rw [hF, List.nodup_append']
    refine ⟨by decide +kernel, free_nodup _ d [], fun x hx hx' => hw _ x (hp.mem_iff.2 hx') hx⟩
  have hFA : ∀ x ∈ F, x ∈ A := by
    intro x hx
    rw [hA]
    rcases List.mem_append.1 hx with h1 | h1
    · exact List.mem_append.2 (Or.inr
        ((show ∀ x ∈ flds "wall." ["tri_list"], x ∈ flds "wall." ["tri_list", "tree_array"] by decide +kernel) x h1))
    · exact List.mem_append.2 (Or.inl (List.mem_append.2 (Or.inr (hp.mem_iff.2 h1))))
  have memA : ∀ x ∈ flds "wall." ["tree_array", "wall_tris"], x ∈ A ∧ x ∉ F := by
    intro x hx
    refine ⟨?_, ?_⟩
    · rw [hA]
      have : x ∈ flds "wall." ["wall_tris"] ∨ x ∈ flds "wall." ["tri_list", "tree_array"] := by
        revert x
        decide +kernel
      rcases this with h1 | h1
      · exact List.mem_append.2 (Or.inl (List.mem_append.2 (Or.inl h1)))
      · exact List.mem_append.2 (Or.inr h1)
    · intro h1
      rcases List.mem_append.1 h1 with h1 | h1
      · exact (show ∀ x ∈ flds "wall." ["tree_array", "wall_tris"], x ∉ flds "wall." ["tri_list"] by decide +kernel) x hx h1
      · exact hw _ x (hp.mem_iff.2 h1) hx
  have := leaves_rounds (A := A) (F := F) (B := flds "wall." ["flag"]) (G := w3dFree) nA nF hFA (by decide +kernel) (by
    intro x hx h1
    rw [hA] at h1
    rcases List.mem_append.1 h1 with h1 | h1
    · rcases List.mem_append.1 h1 with h1 | h1
      · exact (show ∀ x ∈ flds "wall." ["flag"], x ∉ flds "wall." ["wall_tris"] by decide +kernel) x hx h1
      · exact hw _ x h1 hx
    · exact (show ∀ x ∈ flds "wall." ["flag"], x ∉ flds "wall." ["tri_list", "tree_array"] by decide +kernel) x hx h1) (by decide +kernel) (fun x hx => Or.inl (memA x hx)) [] (by simp) (n := 1) (by
    rw [hA, hF, List.length_append, List.length_append, List.length_append, hp.length_eq]
    simp [flds, w3dFree]
    omega)
  have e : w3dInit d adds = allocs A ++ frees F ++ allocs (flds "wall." ["flag"]) := by
    rw [w3dInit, hA, hF, hT]
    simp
  rw [e]
  simpa [junks] using this

/-- Two triangles in the same leaf and one in another meet the hypothesis. -/
example : ∀ q ∈ [[0, 7], [0, 7], [3, 1]], Leaf 2 [] q := by
  intro q hq
  refine ⟨q, rfl, ?_⟩
  exact (show ∀ q ∈ [[0, 7], [0, 7], [3, 1]], q.length = 2 ∧ ∀ i ∈ q, i < 8 by decide) q hq

/-! ## Atomic data -/

theorem spline_elt {dim i : Nat} {x : Name} (h : x ∈ asigmaSpline dim i) : ∃ s, x = .elt s i := by
  unfold asigmaSpline at h
  split at h <;> simp at h <;> exact ⟨_, h⟩

theorem drop_elt {type i : Nat} {x : Name} (h : x ∈ asigmaDrop type i) : ∃ s, x = .elt s i := by
  unfold asigmaDrop at h
  split at h <;> simp at h <;> exact ⟨_, h⟩

theorem arrays_fld {x : Name} (h : x ∈ asigmaArrays) : ∃ s, x = .fld s := by
  obtain ⟨y, _, rfl⟩ := List.mem_map.1 h
  exact ⟨_, rfl⟩

/-- The data of a reaction are released if the dimension of the data is that of the type: charge exchange as a function of the energy
or of energy and temperature, or beam stopping. -/
def Matched (type dim : Nat) : Prop := (type = 3 ∧ dim = 1) ∨ (type = 6 ∧ dim = 2) ∨ (type = 7 ∧ dim = 3)

/-- Types of reactions whose data are never released. -/
def Forgotten (type dim : Nat) : Prop := type ≠ 3 ∧ type ≠ 6 ∧ type ≠ 7 ∧ (dim = 1 ∨ dim = 2 ∨ dim = 3)

theorem matched_eq {type dim : Nat} (h : Matched type dim) (i : Nat) : asigmaDrop type i = asigmaSpline dim i ∧ (asigmaSpline dim i).length = 1 := by
  rcases h with ⟨rfl, rfl⟩ | ⟨rfl, rfl⟩ | ⟨rfl, rfl⟩ <;> exact ⟨rfl, rfl⟩

theorem forgotten_eq {type dim : Nat} (h : Forgotten type dim) (i : Nat) : asigmaDrop type i = [] ∧ (asigmaSpline dim i).length = 1 := by
  obtain ⟨h3, h6, h7, hd⟩ := h
  refine ⟨?_, ?_⟩
  · unfold asigmaDrop
    split <;> first | contradiction | rfl
  · rcases hd with rfl | rfl | rfl <;> rfl

open Classical in
/-- The data of the reactions for which there is a branch in the code are released; those of every other reaction are lost. -/
theorem asigma_leak (n : Nat) (type dim : Nat → Nat) (h : ∀ i < n, Matched (type i) (dim i) ∨ Forgotten (type i) (dim i)) :
    Leaves (asigmaInit n dim ++ frees (asigmaFree n type)) ((List.range n).countP fun i => decide (Forgotten (type i) (dim i))) := by
  have nB : ((List.range n).flatMap fun i => asigmaSpline (dim i) i).Nodup := by
    refine nodup_pairs ?_ ?_
    · intro i
      unfold asigmaSpline
      split <;> simp
    · intro i j x hx hy
      obtain ⟨s, rfl⟩ := spline_elt hx
      obtain ⟨t, e⟩ := spline_elt hy
      exact (Name.elt.inj e).2
  have nD : ((List.range n).flatMap fun i => asigmaDrop (type i) i).Nodup := by
    refine nodup_pairs ?_ ?_
    · intro i
      unfold asigmaDrop
      split <;> simp
    · intro i j x hx hy
      obtain ⟨s, rfl⟩ := drop_elt hx
      obtain ⟨t, e⟩ := drop_elt hy
      exact (Name.elt.inj e).2
  have hlen : ∀ m ≤ n, ((List.range m).countP fun i => decide (Forgotten (type i) (dim i))) +
      ((List.range m).flatMap fun i => asigmaDrop (type i) i).length = ((List.range m).flatMap fun i => asigmaSpline (dim i) i).length := by
    intro m
    induction m with
    | zero => simp
    | succ m ih =>
      intro hm
      have := ih (by omega)
      rw [List.range_succ, List.countP_append, List.flatMap_append, List.flatMap_append, List.length_append, List.length_append]
      have hone : ((if Forgotten (type m) (dim m) then 1 else 0) + (asigmaDrop (type m) m).length) = (asigmaSpline (dim m) m).length := by
        rcases h m (by omega) with h1 | h1
        · obtain ⟨e1, e2⟩ := matched_eq h1 m
          have : ¬ Forgotten (type m) (dim m) := by
            rintro ⟨a, b, c, _⟩
            rcases h1 with ⟨e, _⟩ | ⟨e, _⟩ | ⟨e, _⟩ <;> contradiction
          rw [if_neg this, e1]
          simp
        · obtain ⟨e1, e2⟩ := forgotten_eq h1 m
          rw [if_pos h1, e1, e2]
          rfl
      simp only [List.countP_cons, List.countP_nil, decide_eq_true_eq, List.flatMap_cons, List.flatMap_nil, List.append_nil]
      omega
  have := leaves_rounds (A := asigmaArrays) (F := []) (B := (List.range n).flatMap fun i => asigmaSpline (dim i) i)
    (G := asigmaFree n type) (by decide +kernel) List.nodup_nil (by simp) nB (by
      intro x hx hx'
      obtain ⟨i, _, hx⟩ := mem_pairs.1 hx
      obtain ⟨s, rfl⟩ := spline_elt hx
      obtain ⟨t, e⟩ := arrays_fld hx'
      cases e) (by
      rw [asigmaFree, List.nodup_append']
      refine ⟨nD, by decide +kernel, ?_⟩
      intro x hx hx'
      obtain ⟨i, _, hx⟩ := mem_pairs.1 hx
      obtain ⟨s, rfl⟩ := drop_elt hx
      obtain ⟨t, e⟩ := arrays_fld hx'
      cases e) (by
      intro x hx
      rcases List.mem_append.1 hx with h1 | h1
      · right
        obtain ⟨i, hi, h2⟩ := mem_pairs.1 h1
        refine mem_pairs.2 ⟨i, hi, ?_⟩
        rcases h i hi with h3 | h3
        · rw [← (matched_eq h3 i).1]
          exact h2
        · rw [(forgotten_eq h3 i).1] at h2
          simp at h2
      · exact Or.inl ⟨h1, by simp⟩) ((List.range n).flatMap asigmaElts) (by
      intro x hx hx'
      obtain ⟨i, _, hx⟩ := mem_pairs.1 hx
      obtain ⟨t, rfl⟩ := arrays_fld hx'
      simp [asigmaElts] at hx) (n := (List.range n).countP fun i => decide (Forgotten (type i) (dim i))) (by
      have := hlen n le_rfl
      rw [asigmaFree, List.length_append, List.length_nil]
      omega)
  simpa [asigmaInit, frees] using this

/-- All reactions with a branch in the code: nothing is lost. -/
theorem asigma_clean (n : Nat) (type dim : Nat → Nat) (h : ∀ i < n, Matched (type i) (dim i)) :
    Clean (asigmaInit n dim ++ frees (asigmaFree n type)) := by
  classical
  have := asigma_leak n type dim fun i hi => Or.inl (h i hi)
  have e : ((List.range n).countP fun i => decide (Forgotten (type i) (dim i))) = 0 := by
    rw [List.countP_eq_zero]
    intro i hi hf
    rw [decide_eq_true_eq] at hf
    obtain ⟨a, b, c, _⟩ := hf
    rcases h i (List.mem_range.1 hi) with ⟨e, _⟩ | ⟨e, _⟩ | ⟨e, _⟩ <;> contradiction
  rw [e] at this
  exact this

/-- Ionization, of type one with data of one dimension, and charge exchange as a function of energy and temperature: the first is lost. -/
example : Forgotten 1 1 ∧ Matched 6 2 := ⟨⟨by decide, by decide, by decide, Or.inl rfl⟩, Or.inr (Or.inl ⟨rfl, rfl⟩)⟩

theorem run_allocs_ptr (L : List Name) (s : St) : ∃ s', run (allocs L) s = some s' ∧ ∀ x, x ∉ L → s'.ptr x = s.ptr x := by
  induction L generalizing s with
  | nil => exact ⟨s, rfl, fun _ _ => rfl⟩
  | cons y r ih =>
    obtain ⟨t, ht, hp⟩ := ih { ptr := fun z => if z = y then some s.next else s.ptr z
                               live := fun k => k == s.next || s.live k
                               next := s.next + 1 }
    refine ⟨t, ht, fun x hx => ?_⟩
    rw [hp x (fun h => hx (List.mem_cons_of_mem _ h))]
    exact if_neg (fun e : x = y => hx (e ▸ List.mem_cons_self))

theorem run_junks_ptr (L : List Name) (s : St) : ∃ s', run (junks L) s = some s' ∧ ∀ x, x ∈ L ∨ s.ptr x = none → s'.ptr x = none := by
  induction L generalizing s with
  | nil => exact ⟨s, rfl, fun x h => h.elim (fun h => absurd h (by simp)) id⟩
  | cons y r ih =>
    obtain ⟨t, ht, hp⟩ := ih { s with ptr := fun z => if z = y then none else s.ptr z }
    refine ⟨t, ht, fun x hx => hp x ?_⟩
    by_cases e : x = y
    · right
      simp [e]
    · rcases hx with hx | hx
      · exact Or.inl ((List.mem_cons.1 hx).resolve_left e)
      · right
        simp [e, hx]

theorem run_frees_none (F : List Name) (s : St) (x : Name) (hx : x ∈ F) (hp : s.ptr x = none) : run (frees F) s = none := by
  induction F generalizing s with
  | nil => simp at hx
  | cons y r ih =>
    simp only [frees, List.map_cons, run]
    cases h : step s (.free y) with
    | none => rfl
    | some t =>
      rw [Option.bind_some]
      have hpt : t.ptr = s.ptr := (frees_state [y] (s := s) (s' := t) (by simp [frees, run, h])).1
      have hne : x ≠ y := by
        rintro rfl
        simp [step, hp] at h
      exact ih t ((List.mem_cons.1 hx).resolve_left hne) (by rw [hpt, hp])

/-- If the data of one reaction with a branch in the code have another dimension than its type, a pointer that was never set is released:
undefined behaviour. -/
theorem asigma_undefined (n : Nat) (type dim : Nat → Nat) {i : Nat} (hi : i < n) (ht : type i = 3 ∨ type i = 6 ∨ type i = 7)
    (hm : ¬ Matched (type i) (dim i)) : Undefined (asigmaInit n dim ++ frees (asigmaFree n type)) := by
  intro s
  have hx : ∃ x, x ∈ asigmaDrop (type i) i ∧ x ∈ asigmaElts i ∧ x ∉ asigmaSpline (dim i) i := by
    rcases ht with e | e | e
    · refine ⟨.elt "asigma.sigma" i, by simp [asigmaDrop, e], by simp [asigmaElts], ?_⟩
      intro h
      unfold asigmaSpline at h
      split at h <;> simp at h
      rename_i hd
      exact hm (Or.inl ⟨e, hd⟩)
    · refine ⟨.elt "asigma.sigmav" i, by simp [asigmaDrop, e], by simp [asigmaElts], ?_⟩
      intro h
      unfold asigmaSpline at h
      split at h <;> simp at h
      rename_i hd
      exact hm (Or.inr (Or.inl ⟨e, hd⟩))
    · refine ⟨.elt "asigma.BMSsigmav" i, by simp [asigmaDrop, e], by simp [asigmaElts], ?_⟩
      intro h
      unfold asigmaSpline at h
      split at h <;> simp at h
      rename_i hd
      exact hm (Or.inr (Or.inr ⟨e, hd⟩))
  obtain ⟨x, hd, he, hs⟩ := hx
  obtain ⟨c, hc⟩ := drop_elt hd
  rw [asigmaInit, run_append, run_append, run_append]
  obtain ⟨t, h1, _⟩ := run_allocs_ptr asigmaArrays s
  obtain ⟨u, h2, p2⟩ := run_junks_ptr ((List.range n).flatMap asigmaElts) t
  obtain ⟨v, h3, p3⟩ := run_allocs_ptr ((List.range n).flatMap fun i => asigmaSpline (dim i) i) u
  rw [h1, Option.bind_some, h2, Option.bind_some, h3, Option.bind_some]
  refine run_frees_none _ v x ?_ ?_
  · exact List.mem_append.2 (Or.inl (mem_pairs.2 ⟨i, hi, hd⟩))
  · rw [p3 x ?_, p2 x (Or.inl (mem_pairs.2 ⟨i, hi, he⟩))]
    intro h
    obtain ⟨j, _, hj⟩ := mem_pairs.1 h
    obtain ⟨c', hc'⟩ := spline_elt hj
    obtain ⟨_, rfl⟩ := Name.elt.inj (hc.symm.trans hc')
    exact hs hj

/-! ## Transport diagnostics -/

/-- Points recorded of each marker since its data were last released. -/
def pending (chain : Nat → Nat) : List Event → Nat → Nat
  | [] => chain
  | .record i :: r => pending (fun k => if k = i then chain i + 1 else chain k) r
  | .clean i _ :: r => pending (fun k => if k = i then 0 else chain k) r

/-- The names owned while the diagnostics run. -/
def Holds (o : List Name) (chain : Nat → Nat) : Prop :=
  o.Nodup ∧ ∀ x, x ∈ o ↔ x ∈ trcofInit ∨ ∃ i j, x = .link i j ∧ j < chain i

theorem trcof_sym (evs : List Event) (chain : Nat → Nat) (o : List Name) (ho : Holds o chain) :
    ∃ o', sym (trcofRun chain evs) o = some o' ∧ Holds o' (pending chain evs) := by
  induction evs generalizing chain o with
  | nil => exact ⟨o, rfl, ho⟩
  | cons e r ih =>
    cases e with
    | record i =>
      have hx : Name.link i (chain i) ∉ o := by
        rw [ho.2]
        rintro (h | ⟨a, b, h, hb⟩)
        · exact absurd h (by simp [trcofInit, flds])
        · obtain ⟨rfl, rfl⟩ := Name.link.inj h
          omega
      obtain ⟨o', h1, h2⟩ := ih (fun k => if k = i then chain i + 1 else chain k) (.link i (chain i) :: o) (by
        refine ⟨List.nodup_cons.2 ⟨hx, ho.1⟩, fun x => ?_⟩
        rw [List.mem_cons, ho.2]
        constructor
        · rintro (rfl | h | ⟨a, b, h, hb⟩)
          · exact Or.inr ⟨i, chain i, rfl, by simp⟩
          · exact Or.inl h
          · refine Or.inr ⟨a, b, h, ?_⟩
            by_cases ha : a = i
            · subst ha
              simp
              omega
            · simpa [ha] using hb
        · rintro (h | ⟨a, b, h, hb⟩)
          · exact Or.inr (Or.inl h)
          · by_cases ha : a = i
            · subst ha
              simp only [if_true] at hb
              by_cases hb' : b = chain a
              · exact Or.inl (by rw [h, hb'])
              · exact Or.inr (Or.inr ⟨a, b, h, by omega⟩)
            · simp only [if_neg ha] at hb
              exact Or.inr (Or.inr ⟨a, b, h, hb⟩))
      refine ⟨o', ?_, h2⟩
      simp only [trcofRun, sym, if_neg hx]
      exact h1
    | clean i enough =>
      have hF : ((List.range (chain i)).reverse.map (Name.link i)).Nodup := by
        refine List.Nodup.map ?_ (List.nodup_reverse.2 List.nodup_range)
        intro a b e
        exact (Name.link.inj e).2
      have hmF : ∀ x, x ∈ (List.range (chain i)).reverse.map (Name.link i) ↔ ∃ j, x = .link i j ∧ j < chain i := by
        intro x
        simp only [List.mem_map, List.mem_reverse, List.mem_range]
        constructor
        · rintro ⟨j, hj, rfl⟩
          exact ⟨j, rfl, hj⟩
        · rintro ⟨j, rfl, hj⟩
          exact ⟨j, hj, rfl⟩
      obtain ⟨o1, h1, n1, m1, _⟩ := sym_frees ho.1 hF (by
        intro x hx
        obtain ⟨j, rfl, hj⟩ := (hmF x).1 hx
        exact (ho.2 _).2 (Or.inr ⟨i, j, rfl, hj⟩))
      obtain ⟨o', h2, h3⟩ := ih (fun k => if k = i then 0 else chain k) o1 (by
        refine ⟨n1, fun x => ?_⟩
        rw [m1, ho.2, hmF]
        constructor
        · rintro ⟨h | ⟨a, b, h, hb⟩, hn⟩
          · exact Or.inl h
          · refine Or.inr ⟨a, b, h, ?_⟩
            have ha : a ≠ i := by
              rintro rfl
              exact hn ⟨b, h, hb⟩
            simpa [ha] using hb
        · rintro (h | ⟨a, b, h, hb⟩)
          · refine ⟨Or.inl h, ?_⟩
            rintro ⟨j, rfl, _⟩
            exact absurd h (by simp [trcofInit, flds])
          · by_cases ha : a = i
            · subst ha
              simp at hb
            · simp only [if_neg ha] at hb
              refine ⟨Or.inr ⟨a, b, h, hb⟩, ?_⟩
              rintro ⟨j, h', _⟩
              rw [h] at h'
              exact ha (Name.link.inj h').1)
      refine ⟨o', ?_, h3⟩
      have ht : sym (if enough = true then allocs (flds "trcof." ["rho", "time"]) ++ frees (flds "trcof." ["rho", "time"]) else []) o = some o := by
        cases enough with
        | false => rfl
        | true =>
          rw [if_pos rfl]
          have a1 : Name.fld ("trcof." ++ "rho") ∉ o := by
            rw [ho.2]
            rintro (h | ⟨a, b, h, _⟩)
            · exact absurd h (by decide +kernel)
            · cases h
          have a2 : Name.fld ("trcof." ++ "time") ∉ o := by
            rw [ho.2]
            rintro (h | ⟨a, b, h, _⟩)
            · exact absurd h (by decide +kernel)
            · cases h
          have a3 : Name.fld ("trcof." ++ "time") ≠ Name.fld ("trcof." ++ "rho") := by decide +kernel
          simp only [allocs, frees, flds, List.map_cons, List.map_nil, List.cons_append, List.nil_append, sym, if_neg a1]
          rw [if_neg (by simp only [List.mem_cons, not_or]; exact ⟨a3, a2⟩), if_pos (by simp)]
          rw [List.erase_cons_tail (by simpa using a3), List.erase_cons_head, if_pos (by simp), List.erase_cons_head]
      rw [trcofRun, sym_append, sym_append, ht, Option.bind_some, h1, Option.bind_some, h2]

/-- The transport diagnostics: after any history of the markers in which the data of every marker with records were processed at its end,
everything is released. -/
theorem transcoef_clean (evs : List Event) (h : ∀ i, pending (fun _ => 0) evs i = 0) :
    Clean (allocs trcofInit ++ trcofRun (fun _ => 0) evs ++ frees trcofFree) := by
  have h0 : sym (allocs trcofInit) [] = some trcofInit.reverse := by
    rw [sym_allocs (by decide +kernel) (by simp)]
    simp
  obtain ⟨o, h1, n1, m1⟩ := trcof_sym evs (fun _ => 0) trcofInit.reverse
    ⟨by decide +kernel, fun x => by simp⟩
  have m2 : ∀ x, x ∈ o ↔ x ∈ trcofInit := by
    intro x
    rw [m1]
    constructor
    · rintro (h' | ⟨i, j, _, hj⟩)
      · exact h'
      · rw [h i] at hj
        omega
    · exact Or.inl
  obtain ⟨o', h2, _, m3, _⟩ := sym_frees n1 (F := trcofFree) (by decide +kernel) (by
    intro x hx
    rw [m2]
    revert x
    decide +kernel)
  have : o' = [] := by
    rw [List.eq_nil_iff_forall_not_mem]
    intro x hx
    obtain ⟨a, b⟩ := (m3 x).1 hx
    rw [m2] at a
    exact b ((show ∀ x ∈ trcofInit, x ∈ trcofFree by decide +kernel) x a)
  have hs : sym (allocs trcofInit ++ trcofRun (fun _ => 0) evs ++ frees trcofFree) [] = some [] := by
    rw [sym_append, sym_append, h0, Option.bind_some, h1, Option.bind_some, h2, this]
  exact leaves_of_sym hs

/-- Two markers with records that are processed, one of them twice. -/
example : ∀ i, pending (fun _ => 0) [.record 0, .record 1, .record 0, .clean 0 true, .record 0, .clean 1 false, .clean 0 false] i = 0 := by
  intro i
  by_cases h0 : i = 0
  · simp [pending, h0]
  · by_cases h1 : i = 1
    · simp [pending, h1]
    · simp [pending, h0, h1]

end Ascot.C168
