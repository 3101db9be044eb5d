import Mathlib.Data.Finset.Card
import Mathlib.Data.List.Nodup
import Mathlib.Data.List.Perm.Basic
import Mathlib.Tactic.Linarith
import Verif.Spec.Leak

set_option linter.unusedSectionVars false
set_option linter.unusedSimpArgs false

namespace Ascot.Memory

theorem run_append (P Q : List Cmd) (s : St) : run (P ++ Q) s = (run P s).bind (run Q) := by
  induction P generalizing s with
  | nil => rfl
  | cons c r ih =>
    simp only [List.cons_append, run]
    cases step s c with
    | none => rfl
    | some t => exact ih t

/-- Ownership by name. -/
def sym : List Cmd → List Name → Option (List Name)
  | [], o => some o
  | .alloc x :: r, o => if x ∈ o then none else sym r (x :: o)
  | .free x :: r, o => if x ∈ o then sym r (o.erase x) else none
  | .junk x :: r, o => if x ∈ o then none else sym r o

theorem sym_append (P Q : List Cmd) (o : List Name) : sym (P ++ Q) o = (sym P o).bind (sym Q) := by
  induction P generalizing o with
  | nil => rfl
  | cons c r ih =>
    cases c with
    | alloc x =>
      simp only [List.cons_append, sym]
      split_ifs
      · rfl
      · exact ih _
    | free x =>
      simp only [List.cons_append, sym]
      split_ifs
      · exact ih _
      · rfl
    | junk x =>
      simp only [List.cons_append, sym]
      split_ifs
      · rfl
      · exact ih _

structure Own (s0 s : St) (o : List Name) : Prop where
  nodup : o.Nodup
  valid : Valid s
  le : s0.next ≤ s.next
  pt : ∀ x ∈ o, ∃ b, s.ptr x = some b ∧ s.live b = true ∧ s0.next ≤ b
  inj : ∀ x ∈ o, ∀ y ∈ o, s.ptr x = s.ptr y → x = y
  old : ∀ k, s0.live k = true → s.live k = true
  new : ∀ k, s.live k = true → s0.live k = true ∨ ∃ x ∈ o, s.ptr x = some k

theorem Own.start {s : St} (h : Valid s) : Own s s [] :=
  ⟨List.nodup_nil, h, le_rfl, by simp, by simp, fun _ h => h, fun _ h => Or.inl h⟩

theorem Own.alloc {s0 s : St} {o : List Name} (h : Own s0 s o) {x : Name} (hx : x ∉ o) :
    ∃ s', step s (.alloc x) = some s' ∧ Own s0 s' (x :: o) := by
  refine ⟨_, rfl, ?_⟩
  have hne : ∀ y ∈ o, y ≠ x := fun y hy e => hx (e ▸ hy)
  have hlt : ∀ y ∈ o, s.ptr y ≠ some s.next := by
    intro y hy e
    obtain ⟨b, hb, hl, _⟩ := h.pt y hy
    rw [e] at hb
    obtain rfl := Option.some.inj hb
    exact lt_irrefl _ (h.valid _ hl)
  refine ⟨List.nodup_cons.2 ⟨hx, h.nodup⟩, ?_, le_trans h.le (Nat.le_succ _), ?_, ?_, ?_, ?_⟩
  · intro k hk
    simp only [Bool.or_eq_true, beq_iff_eq] at hk
    rcases hk with hk | hk
    · simp [hk]
    · exact Nat.lt_succ_of_lt (h.valid k hk)
  · intro y hy
    rcases List.mem_cons.1 hy with e | hy
    · exact ⟨s.next, by simp [e], by simp, h.le⟩
    · obtain ⟨b, hb, hl, hge⟩ := h.pt y hy
      exact ⟨b, by simp [hne y hy, hb], by simp [hl], hge⟩
  · intro y hy z hz e
    rcases List.mem_cons.1 hy with ey | hy' <;> rcases List.mem_cons.1 hz with ez | hz'
    · rw [ey, ez]
    · exfalso
      simp only [ey, if_true, if_neg (hne z hz')] at e
      exact hlt z hz' e.symm
    · exfalso
      simp only [ez, if_true, if_neg (hne y hy')] at e
      exact hlt y hy' e
    · simp only [if_neg (hne y hy'), if_neg (hne z hz')] at e
      exact h.inj y hy' z hz' e
  · intro k hk
    simp [h.old k hk]
  · intro k hk
    simp only [Bool.or_eq_true, beq_iff_eq] at hk
    rcases hk with hk | hk
    · exact Or.inr ⟨x, List.mem_cons_self, by simp [hk]⟩
    · rcases h.new k hk with h1 | ⟨y, hy, e⟩
      · exact Or.inl h1
      · exact Or.inr ⟨y, List.mem_cons_of_mem _ hy, by simp [hne y hy, e]⟩

theorem Own.free {s0 s : St} (h0 : Valid s0) {o : List Name} (h : Own s0 s o) {x : Name} (hx : x ∈ o) :
    ∃ s', step s (.free x) = some s' ∧ Own s0 s' (o.erase x) := by
  obtain ⟨b, hb, hl, hge⟩ := h.pt x hx
  refine ⟨{ s with live := fun k => k != b && s.live k }, by simp [step, hb, hl], ?_⟩
  have hmem : ∀ y, y ∈ o.erase x ↔ y ≠ x ∧ y ∈ o := fun y => h.nodup.mem_erase_iff
  refine ⟨h.nodup.erase x, ?_, h.le, ?_, ?_, ?_, ?_⟩
  · intro k hk
    simp only [Bool.and_eq_true] at hk
    exact h.valid k hk.2
  · intro y hy
    obtain ⟨hyx, hyo⟩ := (hmem y).1 hy
    obtain ⟨c, hc, hcl, hcg⟩ := h.pt y hyo
    refine ⟨c, hc, ?_, hcg⟩
    have : c ≠ b := by
      rintro rfl
      exact hyx (h.inj y hyo x hx (hc.trans hb.symm))
    simp [this, hcl]
  · intro y hy z hz e
    exact h.inj y ((hmem y).1 hy).2 z ((hmem z).1 hz).2 e
  · intro k hk
    have : k ≠ b := by
      rintro rfl
      exact absurd (h0 k hk) (by omega)
    simp [this, h.old k hk]
  · intro k hk
    simp only [Bool.and_eq_true, bne_iff_ne, ne_eq] at hk
    rcases h.new k hk.2 with h1 | ⟨y, hy, e⟩
    · exact Or.inl h1
    · refine Or.inr ⟨y, (hmem y).2 ⟨?_, hy⟩, e⟩
      rintro rfl
      exact hk.1 (Option.some.inj (e.symm.trans hb))

theorem Own.junk {s0 s : St} {o : List Name} (h : Own s0 s o) {x : Name} (hx : x ∉ o) :
    ∃ s', step s (.junk x) = some s' ∧ Own s0 s' o := by
  refine ⟨_, rfl, ?_⟩
  have hne : ∀ y ∈ o, y ≠ x := fun y hy e => hx (e ▸ hy)
  refine ⟨h.nodup, h.valid, h.le, ?_, ?_, h.old, ?_⟩
  · intro y hy
    obtain ⟨b, hb, hl, hge⟩ := h.pt y hy
    exact ⟨b, by simp [hne y hy, hb], hl, hge⟩
  · intro y hy z hz e
    simp only [if_neg (hne y hy), if_neg (hne z hz)] at e
    exact h.inj y hy z hz e
  · intro k hk
    rcases h.new k hk with h1 | ⟨y, hy, e⟩
    · exact Or.inl h1
    · exact Or.inr ⟨y, hy, by simp [hne y hy, e]⟩

theorem Own.run {s0 : St} (h0 : Valid s0) (P : List Cmd) {s : St} {o o' : List Name} (h : Own s0 s o) (hs : sym P o = some o') :
    ∃ s', Memory.run P s = some s' ∧ Own s0 s' o' := by
  induction P generalizing s o with
  | nil =>
    obtain rfl : o = o' := Option.some.inj hs
    exact ⟨s, rfl, h⟩
  | cons c r ih =>
    cases c with
    | alloc x =>
      simp only [sym] at hs
      split_ifs at hs with hx
      obtain ⟨t, ht, ho⟩ := h.alloc hx
      obtain ⟨u, hu, hou⟩ := ih ho hs
      exact ⟨u, by simp only [Memory.run, ht, Option.bind_some, hu], hou⟩
    | free x =>
      simp only [sym] at hs
      split_ifs at hs with hx
      obtain ⟨t, ht, ho⟩ := h.free h0 hx
      obtain ⟨u, hu, hou⟩ := ih ho hs
      exact ⟨u, by simp only [Memory.run, ht, Option.bind_some, hu], hou⟩
    | junk x =>
      simp only [sym] at hs
      split_ifs at hs with hx
      obtain ⟨t, ht, ho⟩ := h.junk hx
      obtain ⟨u, hu, hou⟩ := ih ho hs
      exact ⟨u, by simp only [Memory.run, ht, Option.bind_some, hu], hou⟩

theorem leaves_of_sym {P : List Cmd} {o : List Name} (hs : sym P [] = some o) : Leaves P o.length := by
  intro s hv
  obtain ⟨t, ht, ho⟩ := (Own.start hv).run hv P hs
  refine ⟨t, ht, ho.valid, (o.map fun x => (t.ptr x).getD 0).toFinset, ?_, ?_, ?_⟩
  · rw [List.toFinset_card_of_nodup, List.length_map]
    refine List.Nodup.map_on ?_ ho.nodup
    intro x hx y hy e
    obtain ⟨b, hb, _⟩ := ho.pt x hx
    obtain ⟨c, hc, _⟩ := ho.pt y hy
    rw [hb, hc] at e
    refine ho.inj x hx y hy ?_
    rw [hb, hc]
    exact congrArg some e
  · intro k hk
    obtain ⟨x, hx, e⟩ := List.mem_map.1 (List.mem_toFinset.1 hk)
    obtain ⟨b, hb, _, hge⟩ := ho.pt x hx
    rw [hb] at e
    obtain rfl : b = k := e
    by_contra hl
    exact absurd (hv b (by simpa using hl)) (by omega)
  · intro k
    constructor
    · intro hk
      rcases ho.new k hk with h1 | ⟨x, hx, e⟩
      · exact Or.inl h1
      · exact Or.inr (List.mem_toFinset.2 (List.mem_map.2 ⟨x, hx, by rw [e]; rfl⟩))
    · rintro (h1 | h1)
      · exact ho.old k h1
      · obtain ⟨x, hx, e⟩ := List.mem_map.1 (List.mem_toFinset.1 h1)
        obtain ⟨b, hb, hl, _⟩ := ho.pt x hx
        rw [hb] at e
        obtain rfl : b = k := e
        exact hl

theorem sym_allocs {A o : List Name} (hA : A.Nodup) (hd : ∀ x ∈ A, x ∉ o) : sym (allocs A) o = some (A.reverse ++ o) := by
  induction A generalizing o with
  | nil => rfl
  | cons x r ih =>
    obtain ⟨hx, hr⟩ := List.nodup_cons.1 hA
    simp only [allocs, List.map_cons, sym, if_neg (hd x List.mem_cons_self)]
    refine (ih hr ?_).trans ?_
    · intro y hy hm
      rcases List.mem_cons.1 hm with e | hm
      · exact hx (e ▸ hy)
      · exact hd y (List.mem_cons_of_mem _ hy) hm
    · simp

theorem sym_frees {F o : List Name} (ho : o.Nodup) (hF : F.Nodup) (hs : ∀ x ∈ F, x ∈ o) :
    ∃ o', sym (frees F) o = some o' ∧ o'.Nodup ∧ (∀ x, x ∈ o' ↔ x ∈ o ∧ x ∉ F) ∧ o'.length + F.length = o.length := by
  induction F generalizing o with
  | nil => exact ⟨o, rfl, ho, by simp, by simp⟩
  | cons x r ih =>
    obtain ⟨hx, hr⟩ := List.nodup_cons.1 hF
    have hxo := hs x List.mem_cons_self
    have hmem : ∀ y, y ∈ o.erase x ↔ y ≠ x ∧ y ∈ o := fun y => ho.mem_erase_iff
    obtain ⟨o', h1, h2, h3, h4⟩ := ih (o := o.erase x) (ho.erase x) hr (by
      intro y hy
      exact (hmem y).2 ⟨fun e => hx (e ▸ hy), hs y (List.mem_cons_of_mem _ hy)⟩)
    refine ⟨o', ?_, h2, ?_, ?_⟩
    · simp only [frees, List.map_cons, sym, if_pos hxo]
      exact h1
    · intro y
      rw [h3, hmem, List.mem_cons]
      tauto
    · rw [List.length_erase_of_mem hxo] at h4
      have := List.length_pos_of_mem hxo
      simp only [List.length_cons]
      omega

theorem sym_junks {J o : List Name} (h : ∀ x ∈ J, x ∉ o) : sym (junks J) o = some o := by
  induction J with
  | nil => rfl
  | cons x r ih =>
    simp only [junks, List.map_cons, sym, if_neg (h x List.mem_cons_self)]
    exact ih fun y hy => h y (List.mem_cons_of_mem _ hy)

/-- Two rounds of allocating and releasing, with unspecified pointers in between. -/
theorem leaves_rounds {A F B G : List Name} (hA : A.Nodup) (hF : F.Nodup) (hFA : ∀ x ∈ F, x ∈ A) (hB : B.Nodup)
    (hBA : ∀ x ∈ B, x ∉ A) (hG : G.Nodup) (hGA : ∀ x ∈ G, (x ∈ A ∧ x ∉ F) ∨ x ∈ B) (J : List Name) (hJ : ∀ x ∈ J, x ∉ A)
    {n : Nat} (hn : n + F.length + G.length = A.length + B.length) :
    Leaves (allocs A ++ frees F ++ junks J ++ allocs B ++ frees G) n := by
  have h1 : sym (allocs A) [] = some A.reverse := by
    rw [sym_allocs hA (by simp)]
    simp
  obtain ⟨o, h2, ho, hm, hl⟩ := sym_frees (o := A.reverse) (List.nodup_reverse.2 hA) hF (by simpa using hFA)
  simp only [List.mem_reverse] at hm
  have h3 : sym (junks J) o = some o := sym_junks fun x hx h => hJ x hx ((hm x).1 h).1
  have hd : ∀ x ∈ B, x ∉ o := fun x hx h => hBA x hx ((hm x).1 h).1
  have h4 := sym_allocs hB hd
  have hno : (B.reverse ++ o).Nodup := by
    rw [List.nodup_append']
    exact ⟨List.nodup_reverse.2 hB, ho, fun x hx h => hd x (List.mem_reverse.1 hx) h⟩
  obtain ⟨o', h5, _, _, hl'⟩ := sym_frees hno hG (by
    intro x hx
    rw [List.mem_append, List.mem_reverse, hm]
    rcases hGA x hx with h | h
    · exact Or.inr h
    · exact Or.inl h)
  have : sym (allocs A ++ frees F ++ junks J ++ allocs B ++ frees G) [] = some o' := by
    rw [sym_append, sym_append, sym_append, sym_append, h1, Option.bind_some, h2, Option.bind_some, h3, Option.bind_some, h4,
      Option.bind_some, h5]
  have hlen : o'.length = n := by
    rw [List.length_append, List.length_reverse] at hl'
    rw [List.length_reverse] at hl
    omega
  exact hlen ▸ leaves_of_sym this

theorem leaves_simple {A F : List Name} (hA : A.Nodup) (hF : F.Nodup) (hFA : ∀ x ∈ F, x ∈ A) {n : Nat}
    (hn : n + F.length = A.length) : Leaves (allocs A ++ frees F) n := by
  have := leaves_rounds hA hF hFA (B := []) (G := []) List.nodup_nil (by simp) List.nodup_nil (by simp) [] (by simp) (n := n)
    (by simpa using hn)
  simpa [allocs, frees, junks] using this

theorem frees_state (F : List Name) {s s' : St} (h : run (frees F) s = some s') :
    s'.ptr = s.ptr ∧ ∀ k, s.live k = false → s'.live k = false := by
  induction F generalizing s with
  | nil =>
    obtain rfl : s = s' := Option.some.inj h
    exact ⟨rfl, fun _ h => h⟩
  | cons x r ih =>
    simp only [frees, List.map_cons, run] at h
    cases hx : step s (.free x) with
    | none =>
      rw [hx] at h
      simp at h
    | some t =>
      rw [hx, Option.bind_some] at h
      obtain ⟨h1, h2⟩ := ih h
      simp only [step] at hx
      cases hp : s.ptr x with
      | none => simp [hp] at hx
      | some b =>
        simp only [hp] at hx
        split_ifs at hx
        obtain rfl := Option.some.inj hx
        refine ⟨h1, fun k hk => h2 k ?_⟩
        simp [hk]

/-- Releasing the same pointer twice with nothing allocated in between is undefined. -/
theorem twice (x : Name) (F : List Name) (P Q : List Cmd) : Undefined (P ++ frees (x :: F ++ [x]) ++ Q) := by
  intro s
  rw [run_append, run_append]
  cases run P s with
  | none => rfl
  | some t =>
    rw [Option.bind_some]
    have : run (frees (x :: F ++ [x])) t = none := by
      have e : frees (x :: F ++ [x]) = frees [x] ++ (frees F ++ frees [x]) := by simp [frees]
      rw [e, run_append]
      cases h1 : run (frees [x]) t with
      | none => rfl
      | some u =>
        rw [Option.bind_some, run_append]
        cases h2 : run (frees F) u with
        | none => rfl
        | some v =>
          rw [Option.bind_some]
          obtain ⟨p1, _⟩ := frees_state [x] h1
          obtain ⟨p2, l2⟩ := frees_state F h2
          simp only [frees, List.map_cons, List.map_nil, run, step] at h1 ⊢
          cases hp : t.ptr x with
          | none => simp [hp] at h1
          | some b =>
            have hv : v.ptr x = some b := by rw [p2, p1, hp]
            simp only [hp] at h1
            split_ifs at h1
            · simp only [Option.bind_some, Option.some.injEq] at h1
              have hlb : v.live b = false := l2 b (by rw [← h1]; simp)
              simp [hv, hlb]
            · simp at h1
    rw [this]
    rfl

/-- Repeating a program that leaves blocks. -/
theorem leaves_add {P Q : List Cmd} {n m : Nat} (hP : Leaves P n) (hQ : Leaves Q m) : Leaves (P ++ Q) (n + m) := by
  intro s hs
  obtain ⟨t, ht, vt, A, hA, oA, eA⟩ := hP s hs
  obtain ⟨u, hu, vu, B, hB, oB, eB⟩ := hQ t vt
  refine ⟨u, by rw [run_append, ht, Option.bind_some, hu], vu, A ∪ B, ?_, ?_, ?_⟩
  · rw [Finset.card_union_of_disjoint, hA, hB]
    rw [Finset.disjoint_left]
    intro k hk hk'
    have := oB k hk'
    rw [(eA k).2 (Or.inr hk)] at this
    cases this
  · intro k hk
    rcases Finset.mem_union.1 hk with h | h
    · exact oA k h
    · by_contra hl
      have : t.live k = true := (eA k).2 (Or.inl (by simpa using hl))
      rw [oB k h] at this
      cases this
  · intro k
    rw [eB, eA, Finset.mem_union]
    tauto

end Ascot.Memory
