import Verif.Spec.OrbitPoints

set_option linter.unusedSectionVars false
set_option linter.unusedSimpArgs false

/-!
# Lemmas on quantities along orbits
-/
namespace Ascot.OrbitQnt

open OrbitPoints

variable {D : Type} {ini : List Ini} {pts : List (Point D)}

instance : IsTrans (Point D) lex := ⟨fun a b c h1 h2 => by
  unfold lex at *
  rcases h1 with h1 | ⟨h1, h1'⟩ <;> rcases h2 with h2 | ⟨h2, h2'⟩
  · exact Or.inl (h1.trans h2)
  · exact Or.inl (h2 ▸ h1)
  · exact Or.inl (h1 ▸ h2)
  · exact Or.inr ⟨h1.trans h2, h1'.trans h2'⟩⟩

instance : Std.Total (α := Point D) lex := ⟨fun a b => by
  unfold lex
  rcases lt_trichotomy a.id b.id with h | h | h
  · exact Or.inl (Or.inl h)
  · rcases le_total a.mileage b.mileage with h' | h'
    · exact Or.inl (Or.inr ⟨h, h'⟩)
    · exact Or.inr (Or.inr ⟨h.symm, h'⟩)
  · exact Or.inr (Or.inl h)⟩

theorem mapM_some {α β : Type} {f : α → Option β} {g : α → β} :
    ∀ {l : List α}, (∀ x ∈ l, f x = some (g x)) → l.mapM f = some (l.map g)
  | [], _ => rfl
  | a :: l, h => by
    rw [List.mapM_cons, h a List.mem_cons_self, mapM_some fun x hx => h x (List.mem_cons_of_mem _ hx)]
    rfl

theorem lexsort_map (v : Point D → ℝ) :
    (lexsort pts).mapM (fun i => (pts.map v)[i]?) = some ((pts.insertionSort lex).map v) := by
  unfold lexsort
  rw [List.mapM_map, mapM_some (g := fun x => v x.1)]
  · congr 1
    have h := List.map_insertionSort (r := fun a b : Point D × ℕ => lex a.1 b.1) (s := lex) (fun x => x.1) pts.zipIdx
      (fun a _ b _ => Iff.rfl)
    rw [List.zipIdx_map_fst] at h
    rw [← h, List.map_map]
    rfl
  · intro x hx
    rw [List.mem_insertionSort] at hx
    have h : (pts)[x.2]? = some x.1 := List.mk_mem_zipIdx_iff_getElem?.1 hx
    show (pts.map v)[x.2]? = some (v x.1)
    rw [List.getElem?_map, h]
    rfl

theorem states_perm : (states ini).Perm ini := List.perm_insertionSort _ _

theorem states_ids : (states ini).map (·.id) = (ini.map (·.id)).insertionSort (· ≤ ·) := by
  unfold states
  exact List.map_insertionSort (r := fun a b : Ini => a.id ≤ b.id) (s := fun a b : ℕ => a ≤ b) (fun s => s.id) ini
    (fun a _ b _ => Iff.rfl)

theorem uniq_eq (hd : Distinct ini) (hr : Recorded ini pts) :
    uniq (pts.map (·.id)) = (states ini).map (·.id) := by
  rw [states_ids]
  unfold uniq
  refine List.Perm.eq_of_sortedLE List.sortedLE_insertionSort List.sortedLE_insertionSort ?_
  refine (List.perm_insertionSort _ _).trans (List.Perm.trans ?_ (List.perm_insertionSort _ _).symm)
  refine (List.perm_ext_iff_of_nodup (List.nodup_dedup _) hd).2 fun k => ?_
  rw [List.mem_dedup, List.mem_map, List.mem_map]
  constructor
  · rintro ⟨p, hp, rfl⟩
    exact hr.1 p hp
  · rintro ⟨s, hs, rfl⟩
    exact hr.2 s hs

theorem stateOf_own (hd : Distinct ini) (hr : Recorded ini pts) {p : Point D} (hp : p ∈ pts) :
    ∃ s ∈ ini, s.id = p.id ∧ stateOf ini pts p = some s := by
  unfold stateOf
  rw [uniq_eq hd hr]
  have hm : p.id ∈ (states ini).map (·.id) := by
    obtain ⟨s, hs, h⟩ := hr.1 p hp
    exact List.mem_map.2 ⟨s, states_perm.mem_iff.2 hs, h⟩
  have hl := List.idxOf_lt_length_of_mem hm
  have hg := List.getElem_idxOf hl
  rw [List.getElem_map] at hg
  rw [List.length_map] at hl
  exact ⟨_, states_perm.mem_iff.1 (List.getElem_mem hl), hg, List.getElem?_eq_getElem hl⟩

/-- The state of a point's marker. -/
def own (ini : List Ini) (pts : List (Point D)) (p : Point D) : Ini := (stateOf ini pts p).getD ⟨0, 0, 0, 0⟩

theorem own_spec (hd : Distinct ini) (hr : Recorded ini pts) {p : Point D} (hp : p ∈ pts) :
    own ini pts p ∈ ini ∧ (own ini pts p).id = p.id ∧ stateOf ini pts p = some (own ini pts p) := by
  obtain ⟨s, h1, h2, h3⟩ := stateOf_own hd hr hp
  unfold own
  rw [h3]
  exact ⟨h1, h2, rfl⟩

/-- The rows in terms of the states of the markers. -/
def rowOf (fl : Prop) [Decidable fl] (ini : List Ini) (pts : List (Point D)) (p : Point D) : Row D :=
  { mass := (own ini pts p).mass
    time := if fl then (own ini pts p).time else (own ini pts p).time + p.mileage
    connlen := (own ini pts p).mileage - p.mileage
    point := p }

theorem rows_eq (hd : Distinct ini) (hr : Recorded ini pts) :
    pts.mapM (row ini pts) = some (pts.map (rowOf (3 ∈ pts.map (·.mode)) ini pts)) :=
  mapM_some fun p hp => by
    unfold row
    rw [(own_spec hd hr hp).2.2]
    rfl

/-- The points in order, with the states of their markers. -/
noncomputable def ordered (ini : List Ini) (pts : List (Point D)) : List (Ini × Point D) :=
  (pts.insertionSort lex).map fun p => (own ini pts p, p)

theorem ordered_listed (hd : Distinct ini) (hr : Recorded ini pts) : Listed ini pts (ordered ini pts) := by
  have hs : (pts.insertionSort lex).Pairwise lex := List.pairwise_insertionSort _ _
  unfold ordered
  refine ⟨?_, ?_, ?_, ?_⟩
  · rw [List.map_map]
    have : ((fun x : Ini × Point D => x.2) ∘ fun p => (own ini pts p, p)) = id := rfl
    rw [this, List.map_id]
    exact List.perm_insertionSort _ _
  · intro x hx
    obtain ⟨p, hp, rfl⟩ := List.mem_map.1 hx
    rw [List.mem_insertionSort] at hp
    exact ⟨(own_spec hd hr hp).1, (own_spec hd hr hp).2.1⟩
  · rw [List.pairwise_map]
    exact hs.imp fun h => h.elim le_of_lt fun h => h.1.le
  · rw [List.pairwise_map]
    exact hs.imp fun h e => h.elim (fun h => absurd e h.ne) fun h => h.2

theorem get_uniform (hd : Distinct ini) (hr : Recorded ini pts) (hm : ∀ p ∈ pts, mask pts p = true) {q : Quantity D}
    {v : Point D → ℝ} (hi : items (pts.map (rowOf (3 ∈ pts.map (·.mode)) ini pts)) q = some (pts.map v)) :
    get ini pts q = some ((pts.insertionSort lex).map v) := by
  unfold get
  rw [rows_eq hd hr]
  show (items _ q).bind _ = _
  rw [hi, List.filter_eq_self.2 hm]
  exact lexsort_map v

theorem zipWith_and {α : Type} (l : List α) (f g : α → Bool) :
    List.zipWith (· && ·) (l.map f) (l.map g) = l.map fun x => f x && g x := by
  induction l with
  | nil => rfl
  | cons a l ih => rw [List.map_cons, List.map_cons, List.zipWith_cons_cons, ih]; rfl

theorem select_map {α : Type} (l : List α) (v : α → ℝ) (f : α → Bool) :
    select (l.map v) (l.map f) = some ((l.filter f).map v) := by
  induction l with
  | nil => rfl
  | cons a l ih =>
    rw [List.map_cons, List.map_cons, select, ih]
    cases h : f a <;> simp [h]

open Classical in
theorem getorbit_eq {l : List (Ini × Point D)} {q : Quantity D} {v : Ini × Point D → ℝ}
    (h1 : get ini pts q = some (l.map v))
    (h2 : get ini pts (.common fun _ _ p => p.id) = some (l.map fun x => (x.2.id : ℝ)))
    (h3 : get ini pts (.common fun _ _ p => p.pncrid) = some (l.map fun x => (x.2.pncrid : ℝ)))
    (idsE pncr idsW : Option (List ℝ)) :
    getorbit ini pts idsE pncr idsW q = some (values idsE pncr idsW v l) := by
  have key : ∀ f : Ini × Point D → Bool, (∀ x, f x = true ↔ Wanted idsE pncr idsW x.2) →
      select (l.map v) (l.map f) = some (values idsE pncr idsW v l) := by
    intro f hf
    rw [select_map]
    unfold values
    congr 2
    apply List.filter_congr
    intro x _
    by_cases h : Wanted idsE pncr idsW x.2
    · rw [(hf x).2 h, decide_eq_true h]
    · rw [decide_eq_false h]
      exact Bool.eq_false_iff.2 fun h' => h ((hf x).1 h')
  unfold getorbit
  rw [h1, h2, h3]
  simp only [Option.bind_eq_bind, Option.bind_some, Option.map_some, List.map_map]
  cases idsE <;> cases pncr <;> cases idsW <;> simp only [Option.bind_some, zipWith_and] <;>
    exact key _ fun x => by simp [Wanted, and_assoc]

end Ascot.OrbitQnt
