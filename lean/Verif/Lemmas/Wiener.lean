import Verif.Model.Wiener
import Mathlib.Data.List.Basic
import Mathlib.Data.List.Perm.Subperm
import Mathlib.Tactic.Linarith

set_option linter.unusedSectionVars false
set_option linter.unusedSimpArgs false

namespace Ascot.Wiener

variable {K : Type} [Field K] [LinearOrder K]

@[simp] theorem upd_same {A : Type} (f : Nat → A) (i : Nat) (a : A) : upd f i a i = a := by simp [upd]
theorem upd_ne {A : Type} (f : Nat → A) {i j : Nat} (a : A) (h : j ≠ i) : upd f i a j = f j := by
  simp [upd, h]

/-- The slots of `l` are linked in this order and the last one points to itself. -/
def Links (next : Nat → Option Nat) : List Nat → Prop
  | [] => False
  | [a] => next a = some a
  | a :: b :: l => next a = some b ∧ Links next (b :: l)

/-- The array stores the chain `l`. -/
structure Rep (n : Nat) (w : Arr K) (l : List Nat) : Prop where
  head : l.head? = some 0
  links : Links w.next l
  sorted : l.Pairwise (fun i j => w.time i < w.time j)
  bound : ∀ i ∈ l, i < n
  free : ∀ i < n, i ∉ l → w.next i = none

theorem Links.congr {f g : Nat → Option Nat} : ∀ {l : List Nat}, Links f l → (∀ i ∈ l, g i = f i) → Links g l
  | [], h, _ => h
  | [a], h, hg => by rw [Links] at h ⊢; rw [hg a (by simp)]; exact h
  | a :: b :: l, h, hg => by
    obtain ⟨h1, h2⟩ := h
    exact ⟨by rw [hg a (by simp)]; exact h1, Links.congr h2 (fun i hi => hg i (by simp [List.mem_cons.1 hi]))⟩

theorem Links.some {f : Nat → Option Nat} : ∀ {l : List Nat}, Links f l → ∀ i ∈ l, f i ≠ none
  | [a], h, i, hi => by
    rw [List.mem_singleton] at hi; subst hi; rw [Links] at h; simp [h]
  | a :: b :: l, h, i, hi => by
    rcases List.mem_cons.1 hi with rfl | hi
    · simp [h.1]
    · exact Links.some h.2 i hi

theorem Links.suffix {f : Nat → Option Nat} : ∀ {p q : List Nat}, Links f (p ++ q) → q ≠ [] → Links f q
  | [], _, h, _ => h
  | [a], b :: q, h, _ => h.2
  | a :: b :: p, q, h, hq => Links.suffix (p := b :: p) h.2 hq

theorem Rep.nodup {n : Nat} {w : Arr K} {l : List Nat} (h : Rep n w l) : l.Nodup :=
  h.sorted.imp (fun {a b} hab => by rintro rfl; exact lt_irrefl _ hab)

theorem Rep.live {n : Nat} {w : Arr K} {l : List Nat} (h : Rep n w l) {i : Nat} (hi : i < n) :
    w.next i ≠ none ↔ i ∈ l := by
  constructor
  · intro hn; by_contra hc; exact hn (h.free i hi hc)
  · exact h.links.some i

theorem Rep.cons {n : Nat} {w : Arr K} {l : List Nat} (h : Rep n w l) : ∃ q, l = 0 :: q := by
  have := h.head
  cases l with
  | nil => simp at this
  | cons a q => simp at this; exact ⟨q, by rw [this]⟩

theorem init_rep {n : Nat} (hn : 0 < n) (w : Arr K) (t0 : K) : Rep n (init n w t0) [0] where
  head := rfl
  links := by simp [Links, init]
  sorted := by simp
  bound := by simpa using hn
  free := by intro i hi h0; simp at h0; simp [init, h0, hi]

/-- What the search finds. -/
theorem scan_spec (w : Arr K) (t : K) : ∀ (fuel : Nat) (a im : Nat) (rest : List Nat),
    Links w.next (a :: rest) → (a :: rest).Pairwise (fun i j => w.time i < w.time j) →
    w.time a ≤ t → rest.length < fuel →
    (∃ i ∈ a :: rest, w.time i = t ∧ scan w t fuel a im = some (.exists i)) ∨
    (∃ p m q, a :: rest = p ++ m :: q ∧ (∀ x ∈ p ++ [m], w.time x < t) ∧ (∀ x ∈ q, t < w.time x) ∧
      scan w t fuel a im = some (.between m q.head?))
  | 0, _, _, _, _, _, _, h => by omega
  | fuel + 1, a, im, rest, hl, hs, ht, hf => by
    rw [scan]
    by_cases he : w.time a = t
    · left; exact ⟨a, by simp, he, by rw [if_pos he]⟩
    · have hlt : w.time a < t := lt_of_le_of_ne ht he
      rw [if_neg he]
      simp only [if_pos hlt]
      cases rest with
      | nil =>
        right
        rw [Links] at hl
        refine ⟨[], a, [], rfl, by simpa using hlt, by simp, ?_⟩
        rw [hl]
        simp [not_lt.2 ht]
      | cons b rest =>
        have hnext := hl.1
        rw [List.pairwise_cons] at hs
        have hab : w.time a < w.time b := hs.1 b (by simp)
        have hne : b ≠ a := by rintro rfl; exact lt_irrefl _ hab
        rw [hnext]
        dsimp only
        by_cases hb : w.time b > t
        · right
          refine ⟨[], a, b :: rest, rfl, by simpa using hlt, ?_, ?_⟩
          · intro x hx
            rcases List.mem_cons.1 hx with rfl | hx
            · exact hb
            · exact lt_trans hb ((List.pairwise_cons.1 hs.2).1 x hx)
          · rw [if_pos hb]; rfl
        · rw [if_neg hb, if_neg hne]
          rcases scan_spec w t fuel b a rest hl.2 hs.2 (not_lt.1 hb)
            (by simp at hf; omega) with ⟨i, hi, h1, h2⟩ | ⟨p, m, q, h1, h2, h3, h4⟩
          · left; exact ⟨i, by simp [List.mem_cons.1 hi], h1, h2⟩
          · right
            refine ⟨a :: p, m, q, by rw [h1]; rfl, ?_, h3, h4⟩
            intro x hx
            rcases List.mem_cons.1 hx with rfl | hx
            · exact hlt
            · exact h2 x hx

theorem emptySlot_spec (n : Nat) (w : Arr K) (h0 : w.next 0 ≠ none) :
    (emptySlot n w = 0 ∧ ∀ i < n, w.next i ≠ none) ∨
    (emptySlot n w ≠ 0 ∧ emptySlot n w < n ∧ w.next (emptySlot n w) = none) := by
  unfold emptySlot
  cases h : (List.range n).find? (fun i => (w.next i).isNone) with
  | none =>
    left
    rw [List.find?_eq_none] at h
    refine ⟨rfl, fun i hi hc => h i (by simpa using hi) (by simp [hc])⟩
  | some i =>
    right
    have h1 := List.find?_some h
    have h2 := List.mem_of_find?_eq_some h
    simp at h1 h2
    refine ⟨?_, h2, h1⟩
    rintro rfl; exact h0 h1

/-- Inserting slot `e` after slot `m`. -/
theorem links_insert {f : Nat → Option Nat} {m e : Nat} {q : List Nat} (he : e ∉ m :: q) (hme : e ≠ m) :
    ∀ {p : List Nat}, Links f (p ++ m :: q) → e ∉ p → (p ++ m :: q).Nodup →
    Links (upd (upd f e (some (q.head?.getD e))) m (some e)) (p ++ m :: e :: q)
  | [], h, _, hnd => by
    refine ⟨by simp, ?_⟩
    have hq : ∀ i ∈ q, i ≠ e ∧ i ≠ m := by
      intro i hi
      refine ⟨by rintro rfl; exact he (by simp [hi]), ?_⟩
      rintro rfl; simp at hnd; exact hnd.1 hi
    cases q with
    | nil => rw [Links, upd_ne _ _ hme]; simp
    | cons b q =>
      refine ⟨by rw [upd_ne _ _ hme]; simp, ?_⟩
      refine Links.congr h.2 ?_
      intro i hi
      rw [upd_ne _ _ (hq i hi).2, upd_ne _ _ (hq i hi).1]
  | [a], h, hep, hnd => by
    have h1 := links_insert he hme (p := []) h.2 (by simp) (List.nodup_cons.1 hnd).2
    refine ⟨?_, h1⟩
    have ham : a ≠ m := by rintro rfl; simp at hnd
    have hae : a ≠ e := by rintro rfl; simp at hep
    rw [upd_ne _ _ ham, upd_ne _ _ hae]; exact h.1
  | a :: b :: p, h, hep, hnd => by
    have h1 := links_insert he hme (p := b :: p) h.2 (fun hc => hep (by simp [List.mem_cons.1 hc]))
      (List.nodup_cons.1 hnd).2
    refine ⟨?_, h1⟩
    have ham : a ≠ m := by rintro rfl; simp at hnd
    have hae : a ≠ e := by rintro rfl; simp at hep
    rw [upd_ne _ _ ham, upd_ne _ _ hae]; exact h.1

/-- Value of a new sample, given the neighbouring slots. -/
def sample (sqrt : K → K) (w : Arr K) (t : K) (rnd : Fin 5 → K) (m : Nat) : Option Nat → Fin 5 → K
  | none => fun d => w.val m d + sqrt (t - w.time m) * rnd d
  | some ip => fun d => w.val m d +
      (w.val ip d - w.val m d) * (t - w.time m) / (w.time ip - w.time m) +
      sqrt ((t - w.time m) * (w.time ip - t) / (w.time ip - w.time m)) * rnd d

/-- Outcome of `generate` in a well-formed state for a time not before the first one. -/
theorem generate_spec (sqrt : K → K) {n : Nat} {w : Arr K} {l : List Nat} (h : Rep n w l) (t : K)
    (ht : w.time 0 ≤ t) (rnd : Fin 5 → K) :
    (∃ i ∈ l, w.time i = t ∧ generate sqrt n w t rnd = some (w, some i)) ∨
    ((∀ i ∈ l, w.time i ≠ t) ∧ (∀ i < n, w.next i ≠ none) ∧ generate sqrt n w t rnd = some (w, none)) ∨
    (∃ p m q e w', l = p ++ m :: q ∧ (∀ x ∈ p ++ [m], w.time x < t) ∧ (∀ x ∈ q, t < w.time x) ∧
      e < n ∧ e ∉ l ∧ w.next e = none ∧ generate sqrt n w t rnd = some (w', some e) ∧
      w'.time = upd w.time e t ∧ w'.val = upd w.val e (sample sqrt w t rnd m q.head?) ∧
      Rep n w' (p ++ m :: e :: q)) := by
  obtain ⟨q0, rfl⟩ := h.cons
  have hlen : q0.length < n := by
    have : (0 :: q0).length ≤ n := by
      have h1 : (0 :: q0) ⊆ List.range n := fun i hi => by simpa using h.bound i hi
      have := List.subperm_of_subset h.nodup h1
      simpa using this.length_le
    simp at this; omega
  unfold generate
  rcases scan_spec w t n 0 0 q0 h.links h.sorted ht hlen with ⟨i, hi, h1, h2⟩ | ⟨p, m, q, h1, h2, h3, h4⟩
  · left; exact ⟨i, hi, h1, by rw [h2]⟩
  · right
    rw [h4]
    dsimp only
    have hne : ∀ i ∈ 0 :: q0, w.time i ≠ t := by
      intro i hi
      rw [h1] at hi
      rcases List.mem_append.1 hi with hi | hi
      · exact (h2 i (by simp [hi])).ne
      · rcases List.mem_cons.1 hi with rfl | hi
        · exact (h2 i (by simp)).ne
        · exact (h3 i hi).ne'
    rcases emptySlot_spec n w (h.links.some 0 (by simp)) with ⟨e1, e2⟩ | ⟨e1, e2, e3⟩
    · left; exact ⟨hne, e2, by rw [if_pos e1]⟩
    · right
      rw [if_neg e1]
      set e := emptySlot n w with hedef
      have hel : e ∉ 0 :: q0 := fun hc => h.links.some e hc e3
      have hel' := hel
      rw [h1] at hel'
      simp only [List.mem_append, List.mem_cons, not_or] at hel'
      have hnd := h.nodup
      rw [h1] at hnd
      have hlinks := h.links
      rw [h1] at hlinks
      have hk := links_insert (f := w.next) (m := m) (e := e) (q := q)
        (by simp only [List.mem_cons, not_or]; exact hel'.2) hel'.2.1 hlinks hel'.1 hnd
      have hrep : ∀ v, Rep n ⟨upd (upd w.next e (some (q.head?.getD e))) m (some e),
          upd w.time e t, v⟩ (p ++ m :: e :: q) := by
        intro v
        refine ⟨?_, hk, ?_, ?_, ?_⟩
        · cases p with
          | nil => simp at h1; simp [h1.1]
          | cons a p => simp at h1; simp [h1.1]
        · have hs := h.sorted
          rw [h1] at hs
          have hts : ∀ i, i ∈ p ++ m :: q → upd w.time e t i = w.time i := by
            intro i hi
            apply upd_ne
            rintro rfl
            rw [← h1] at hi; exact hel hi
          have hs' : (p ++ m :: q).Pairwise (fun i j => upd w.time e t i < upd w.time e t j) := by
            refine hs.imp_of_mem ?_
            intro a b ha hb hab
            rw [hts a ha, hts b hb]; exact hab
          rw [List.pairwise_append] at hs' ⊢
          obtain ⟨a1, a2, a3⟩ := hs'
          rw [List.pairwise_cons] at a2
          refine ⟨a1, ?_, ?_⟩
          · rw [List.pairwise_cons, List.pairwise_cons]
            refine ⟨?_, ?_, a2.2⟩
            · intro x hx
              rcases List.mem_cons.1 hx with rfl | hx
              · simp only [upd_same]; rw [hts m (by simp)]; exact h2 m (by simp)
              · exact a2.1 x hx
            · intro x hx
              simp only [upd_same]; rw [hts x (by simp [hx])]; exact h3 x hx
          · intro a ha b hb
            rcases List.mem_cons.1 hb with rfl | hb
            · exact a3 a ha _ (by simp)
            · rcases List.mem_cons.1 hb with rfl | hb
              · simp only [upd_same]; rw [hts a (by simp [ha])]; exact h2 a (by simp [ha])
              · exact a3 a ha b (by simp [hb])
        · intro i hi
          have hi' : i = e ∨ i ∈ p ++ m :: q := by
            simp only [List.mem_append, List.mem_cons] at hi ⊢; tauto
          rcases hi' with rfl | hi'
          · exact e2
          · rw [← h1] at hi'; exact h.bound i hi'
        · intro i hi hil
          simp only [List.mem_append, List.mem_cons, not_or] at hil
          dsimp only
          rw [upd_ne _ _ hil.2.1, upd_ne _ _ hil.2.2.1]
          apply h.free i hi
          rw [h1]; simp only [List.mem_append, List.mem_cons, not_or]
          exact ⟨hil.1, hil.2.1, hil.2.2.2⟩
      cases hq : q.head? with
      | none =>
        refine ⟨p, m, q, e, _, h1, h2, h3, e2, hel, e3, rfl, rfl, ?_, ?_⟩
        · rw [hq]; rfl
        · have := hrep (upd w.val e (fun d => w.val m d + sqrt (t - w.time m) * rnd d))
          rw [hq] at this; exact this
      | some b =>
        refine ⟨p, m, q, e, _, h1, h2, h3, e2, hel, e3, rfl, rfl, ?_, ?_⟩
        · rw [hq]; rfl
        · have := hrep (upd w.val e (sample sqrt w t rnd m (some b)))
          rw [hq] at this; exact this

/-- The loop of `clean`. -/
theorem cleanLoop_spec (t : K) : ∀ (rest : List Nat) (fuel : Nat) (w : Arr K) (a : Nat),
    Links w.next (a :: rest) → (a :: rest).Pairwise (fun i j => w.time i < w.time j) →
    rest.length < fuel →
    ((∀ x ∈ a :: rest, w.time x < t) ∧ ∃ w' b, cleanLoop t fuel w a = some (w', b, true) ∧
      w'.time = w.time ∧ w'.val = w.val ∧
      (∀ i, w'.next i = if i ∈ (a :: rest).dropLast then none else w.next i)) ∨
    (∃ p b q w', a :: rest = p ++ b :: q ∧ (∀ x ∈ p, w.time x < t) ∧ (∀ x ∈ b :: q, t ≤ w.time x) ∧
      cleanLoop t fuel w a = some (w', b, false) ∧ w'.time = w.time ∧ w'.val = w.val ∧
      (∀ i, w'.next i = if i ∈ p then none else w.next i))
  | rest, 0, _, _, _, _, h => by omega
  | rest, fuel + 1, w, a, hl, hs, hf => by
    rw [cleanLoop]
    by_cases ha : w.time a < t
    · rw [if_pos ha]
      cases rest with
      | nil =>
        left
        rw [Links] at hl
        refine ⟨by simpa using ha, w, a, by rw [hl]; simp, rfl, rfl, by simp⟩
      | cons b rest =>
        have hnext := hl.1
        rw [List.pairwise_cons] at hs
        have hab : w.time a < w.time b := hs.1 b (by simp)
        have hne : ¬ a = b := by rintro rfl; exact lt_irrefl _ hab
        have hnot : a ∉ b :: rest := by
          intro hc; exact lt_irrefl _ (hs.1 a hc)
        rw [hnext]
        dsimp only
        rw [if_neg hne]
        have hl' : Links (upd w.next a none) (b :: rest) := by
          refine Links.congr hl.2 ?_
          intro i hi; apply upd_ne; rintro rfl; exact hnot hi
        rcases cleanLoop_spec t rest fuel { w with next := upd w.next a none } b hl' hs.2
          (by simp at hf; omega) with ⟨g1, w', c, g2, g3, g4, g5⟩ | ⟨p, c, q, w', g1, g2, g3, g4, g5, g6, g7⟩
        · left
          refine ⟨?_, w', c, g2, g3, g4, ?_⟩
          · intro x hx
            rcases List.mem_cons.1 hx with rfl | hx
            · exact ha
            · exact g1 x hx
          · intro i
            rw [g5 i, List.dropLast_cons₂]
            by_cases hia : i = a
            · subst hia; simp
            · simp [upd, hia]
        · right
          refine ⟨a :: p, c, q, w', by rw [g1]; rfl, ?_, g3, g4, g5, g6, ?_⟩
          · intro x hx
            rcases List.mem_cons.1 hx with rfl | hx
            · exact ha
            · exact g2 x hx
          · intro i
            rw [g7 i]
            by_cases hia : i = a
            · subst hia; simp
            · simp [upd, hia]
    · right
      rw [if_neg ha]
      refine ⟨[], a, rest, w, rfl, by simp, ?_, rfl, rfl, rfl, by simp⟩
      intro x hx
      rcases List.mem_cons.1 hx with rfl | hx
      · exact not_lt.1 ha
      · exact le_trans (not_lt.1 ha) ((List.pairwise_cons.1 hs).1 x hx).le

/-- Outcome of `clean` in a well-formed state. -/
theorem clean_spec {n fuel : Nat} (hfuel : n ≤ fuel) {w : Arr K} {l : List Nat} (h : Rep n w l) (t : K) :
    ((∀ i ∈ l, w.time i < t) ∧ ∃ w', clean fuel w t = some (w', true)) ∨
    (t ≤ w.time 0 ∧ clean fuel w t = some (w, false)) ∨
    (∃ p b q w', l = (0 :: p) ++ b :: q ∧ (∀ x ∈ 0 :: p, w.time x < t) ∧ (∀ x ∈ b :: q, t ≤ w.time x) ∧
      clean fuel w t = some (w', false) ∧ w'.time = upd w.time 0 (w.time b) ∧
      w'.val = upd w.val 0 (w.val b) ∧ Rep n w' (0 :: q)) := by
  obtain ⟨q0, rfl⟩ := h.cons
  have hlen : q0.length < n := by
    have : (0 :: q0).length ≤ n := by
      have h1 : (0 :: q0) ⊆ List.range n := fun i hi => by simpa using h.bound i hi
      have := List.subperm_of_subset h.nodup h1
      simpa using this.length_le
    simp at this; omega
  unfold clean
  rcases cleanLoop_spec t q0 fuel w 0 h.links h.sorted (by omega) with
    ⟨g1, w', c, g2, -⟩ | ⟨p, b, q, w', g1, g2, g3, g4, g5, g6, g7⟩
  · left; refine ⟨g1, w', ?_⟩; rw [g2]; simp
  · right
    rw [g4]
    dsimp only
    cases p with
    | nil =>
      left
      simp at g1
      rw [← g1.1]
      have : w' = w := by
        cases w'; cases w; simp at g5 g6 g7; simp [g5, g6]; funext i; exact g7 i
      simp only [ne_eq, not_true_eq_false, false_and, if_false, this, and_true]
      exact g3 0 (by simp [g1.1])
    | cons a p =>
      right
      simp only [List.cons_append, List.cons.injEq] at g1
      obtain ⟨rfl, g1⟩ := g1
      have hnd := h.nodup
      rw [g1] at hnd
      have hb0 : b ≠ 0 := by
        rintro rfl
        simp at hnd
      have hb : b ∉ 0 :: p := by
        intro hc
        rw [← List.cons_append, List.nodup_append] at hnd
        exact hnd.2.2 b hc b (by simp) rfl
      have hnb : w'.next b = w.next b := by rw [g7, if_neg hb]
      have hlk : Links w.next (b :: q) := Links.suffix (p := 0 :: p)
        (by have := h.links; rw [g1] at this; exact this) (by simp)
      refine ⟨p, b, q, _, by rw [g1]; rfl, g2, g3, by rw [if_pos ⟨hb0, rfl⟩],
        by rw [g5], by rw [g6], ?_⟩
      have hq0 : ∀ i ∈ q, i ≠ 0 ∧ i ≠ b ∧ i ∉ 0 :: p := by
        intro i hi
        have h1 : i ∉ 0 :: p := by
          intro hc
          rw [← List.cons_append, List.nodup_append] at hnd
          exact hnd.2.2 i hc i (by simp [hi]) rfl
        refine ⟨by rintro rfl; exact h1 (by simp), ?_, h1⟩
        rintro rfl
        rw [← List.cons_append, List.nodup_append] at hnd
        have := hnd.2.1
        simp at this; exact this.1 hi
      have hs := h.sorted
      rw [g1, ← List.cons_append, List.pairwise_append] at hs
      have hsq := hs.2.1
      -- the new links
      have hnext : ∃ f : Nat → Option Nat,
          f = upd (if upd w'.next 0 (w'.next b) b = some b then
              upd (upd w'.next 0 (w'.next b)) 0 (some 0) else upd w'.next 0 (w'.next b)) b none ∧
          f 0 = some (q.head?.getD 0) ∧ (∀ i, i ≠ 0 → i ≠ b → f i = w'.next i) ∧ f b = none := by
        refine ⟨_, rfl, ?_, ?_, ?_⟩
        · rw [upd_ne _ _ (Ne.symm hb0), upd_ne _ _ hb0, hnb]
          cases q with
          | nil =>
            rw [Links] at hlk
            rw [if_pos hlk]; simp
          | cons d q =>
            have hd := hlk.1
            have hdb : d ≠ b := (hq0 d (by simp)).2.1
            rw [if_neg (by rw [hd]; simpa using hdb), upd_same, hd]; rfl
        · intro i hi0 hib
          rw [upd_ne _ _ hib]
          split <;> simp [upd, hi0]
        · simp
      obtain ⟨f, hf, f0, f1, f2⟩ := hnext
      rw [← hf]
      refine ⟨rfl, ?_, ?_, ?_, ?_⟩
      · cases q with
        | nil => simpa [Links] using f0
        | cons d q =>
          refine ⟨by simpa using f0, ?_⟩
          refine Links.congr hlk.2 ?_
          intro i hi
          obtain ⟨a1, a2, a3⟩ := hq0 i hi
          show f i = _
          rw [f1 i a1 a2, g7, if_neg a3]
      · rw [List.pairwise_cons] at hsq ⊢
        rw [g5]
        refine ⟨?_, ?_⟩
        · intro i hi
          simp only [upd_same]
          rw [upd_ne _ _ (hq0 i hi).1]; exact hsq.1 i hi
        · refine hsq.2.imp_of_mem ?_
          intro i j hi hj hij
          dsimp only
          rw [upd_ne _ _ (hq0 i hi).1, upd_ne _ _ (hq0 j hj).1]; exact hij
      · intro i hi
        rcases List.mem_cons.1 hi with rfl | hi
        · exact h.bound _ (by simp)
        · apply h.bound; rw [g1]; simp [hi]
      · intro i hi hil
        simp only [List.mem_cons, not_or] at hil
        by_cases hib : i = b
        · subst hib; exact f2
        · show f i = _
          rw [f1 i hil.1 hib, g7]
          by_cases hip : i ∈ 0 :: p
          · rw [if_pos hip]
          · rw [if_neg hip]
            apply h.free i hi
            rw [g1]
            simp only [List.mem_cons, List.mem_append, not_or] at hip ⊢
            exact ⟨hip.1, hip.2, hib, hil.2⟩

end Ascot.Wiener
